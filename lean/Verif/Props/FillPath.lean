import Verif.Props.Ldl
import Verif.Props.Order
import Mathlib.Algebra.BigOperators.Intervals

/-!
# Which entries the factor has

C80: the pattern predicted by the symbolic analysis and filled by the numeric one, described by
paths in the graph of the matrix instead of by elimination.
-/

namespace Verif

open Finset

/-- There is a path from `a` to `b` along `E` whose inner nodes are all below `r`. -/
inductive PathBelow (E : Nat → Nat → Prop) (r : Nat) : Nat → Nat → Prop
  | edge {a b : Nat} : E a b → PathBelow E r a b
  | step {a v b : Nat} : E a v → v < r → PathBelow E r v b → PathBelow E r a b

/-- The graph of the symmetric matrix with rows and columns permuted by `p` of which the upper
triangle of `A`, permuted, is stored. -/
def Csc.Adj {K : Type} (A : Csc K) (p : Nat → Nat) (a b : Nat) : Prop :=
  (a < b ∧ A.Stored (p a) (p b)) ∨ (b < a ∧ A.Stored (p b) (p a))

section

variable {E : Nat → Nat → Prop} {r r' a b c : Nat}

theorem PathBelow.mono (h : PathBelow E r a b) (hr : r ≤ r') : PathBelow E r' a b := by
  induction h with
  | edge h => exact .edge h
  | step h hv _ ih => exact .step h (by omega) ih

theorem PathBelow.trans (h : PathBelow E r a b) (hb : b < r) (h' : PathBelow E r b c) :
    PathBelow E r a c := by
  induction h with
  | edge h => exact .step h hb h'
  | step h hv _ ih => exact .step h hv (ih hb h')

theorem PathBelow.symm (hE : ∀ a b, E a b → E b a) (h : PathBelow E r a b) : PathBelow E r b a := by
  induction h with
  | edge h => exact .edge (hE _ _ h)
  | step h hv _ ih => exact ih.trans hv (.edge (hE _ _ h))

/-- A path either avoids the largest node allowed or splits there. -/
theorem PathBelow.split (h : PathBelow E (r + 1) a b) :
    PathBelow E r a b ∨ (PathBelow E r a r ∧ PathBelow E r r b) := by
  induction h with
  | edge h => exact Or.inl (.edge h)
  | @step a v b h hv _ ih =>
    by_cases hc : v < r
    · rcases ih with ih | ⟨i1, i2⟩
      · exact Or.inl (.step h hc ih)
      · exact Or.inr ⟨.step h hc i1, i2⟩
    · have : v = r := by omega
      subst this
      exact Or.inr ⟨.edge h, ih.elim id And.right⟩

end

/-- The graph whose edges are the entries of the upper triangle. -/
def symEdge (S : Nat → Nat → Prop) (a b : Nat) : Prop := (a < b ∧ S a b) ∨ (b < a ∧ S b a)

theorem symEdge_symm {S : Nat → Nat → Prop} (a b : Nat) (h : symEdge S a b) : symEdge S b a := h.symm

theorem LPattern.lt {S : Nat → Nat → Prop} {k j : Nat} (h : LPattern S k j) : j < k := by
  cases h <;> assumption

theorem LPattern.path {S : Nat → Nat → Prop} {k j : Nat} (h : LPattern S k j) :
    PathBelow (symEdge S) j j k := by
  induction h with
  | entry h hs => exact .edge (Or.inl ⟨h, hs⟩)
  | @fill k j t htj hjk h1 h2 i1 i2 =>
    exact ((i2.symm symEdge_symm).mono htj.le).trans htj (i1.mono htj.le)

theorem pattern_of_path {S : Nat → Nat → Prop} {r : Nat} : ∀ {a b : Nat}, r ≤ a → a < b →
    PathBelow (symEdge S) r a b → LPattern S b a := by
  induction r with
  | zero =>
    intro a b _ hab h
    cases h with
    | edge h =>
      rcases h with ⟨_, h⟩ | ⟨h, _⟩
      · exact .entry hab h
      · omega
    | step _ hv _ => omega
  | succ r ih =>
    intro a b hr hab h
    rcases h.split with h | ⟨h1, h2⟩
    · exact ih (by omega) hab h
    · exact .fill (by omega) hab (ih le_rfl (by omega) h2)
        (ih le_rfl (by omega) (h1.symm symEdge_symm))

/-- The fill path theorem of Rose, Tarjan and Lueker. -/
theorem pattern_iff {S : Nat → Nat → Prop} {k j : Nat} :
    LPattern S k j ↔ j < k ∧ PathBelow (symEdge S) j j k :=
  ⟨fun h => ⟨h.lt, h.path⟩, fun h => pattern_of_path le_rfl h.1 h.2⟩

open Classical in
/-- C80, the prediction: after the symbolic analysis `Lnz[j]` is the number of later nodes that can
be reached from `j` along nodes before `j`, `Parent[j]` the first of them or `-1`, and `Lp` holds the
running sums, which are at most those of a full triangle. -/
theorem C80_symbolic {K : Type} {n : Nat} {A : Csc K} {p q : Nat → Nat} {Ap Ai : Buf Int}
    {P Pinv : Option (Buf Int)} (h : LdlArgs n A p q Ap Ai P) {Lp Parent Lnz Flag : Buf Int}
    (hLp : n + 1 ≤ Lp.length) (hPar : n ≤ Parent.length) (hLnz : n ≤ Lnz.length)
    (hFlag : n ≤ Flag.length) (hPinv : P.isSome → ∃ Q, Pinv = some Q ∧ n ≤ Q.length)
    (hPn : P = none → Pinv = none) :
    ∃ o, LDL_symbolic n Ap Ai Lp Parent Lnz Flag P Pinv = .ok o ∧
      (∀ j, j < n →
        (rd o.Parent j = .ok (-1) ∧ ∀ k, j < k → k < n → ¬ PathBelow (A.Adj p) j j k) ∨
        ∃ k : Nat, rd o.Parent j = .ok (k : Int) ∧ j < k ∧ k < n ∧ PathBelow (A.Adj p) j j k ∧
          ∀ l, j < l → l < k → ¬ PathBelow (A.Adj p) j j l) ∧
      (∀ j, j < n → rd o.Lnz j = .ok (((range n).filter
        (fun k => j < k ∧ PathBelow (A.Adj p) j j k)).card : Int)) ∧
      (∀ j, j < n → ∃ l c : Nat, rd o.Lp j = .ok (l : Int) ∧ rd o.Lnz j = .ok (c : Int) ∧
        rd o.Lp (j + 1 : Nat) = .ok ((l + c : Nat) : Int)) ∧
      rd o.Lp 0 = .ok 0 ∧
      ∃ lnz : Nat, rd o.Lp n = .ok (lnz : Int) ∧ 2 * lnz ≤ n * (n - 1) := by
  obtain ⟨o, ho, h1, h2, h3⟩ := C09_symbolic h hLp hPar hLnz hFlag hPinv hPn
  have key : ∀ k j, LPattern (fun j k => A.Stored (p j) (p k)) k j ↔
      j < k ∧ PathBelow (A.Adj p) j j k := fun k j => pattern_iff
  have hcc : ∀ j, colCount n (fun j k => A.Stored (p j) (p k)) j
      = ((range n).filter (fun k => j < k ∧ PathBelow (A.Adj p) j j k)).card := by
    intro j
    unfold colCount
    congr 1
    exact filter_congr fun k _ => key k j
  have hle : ∀ j, j < n → colCount n (fun j k => A.Stored (p j) (p k)) j ≤ n - 1 - j := by
    intro j hj
    rw [hcc]
    have : (range n).filter (fun k => j < k ∧ PathBelow (A.Adj p) j j k) ⊆ Ico (j + 1) n := by
      intro k hk
      rw [mem_filter, mem_range] at hk
      rw [mem_Ico]
      omega
    have := card_le_card this
    rw [Nat.card_Ico] at this
    omega
  refine ⟨o, ho, ?_, ?_, ?_, ?_, _, h3 n le_rfl, ?_⟩
  · intro j hj
    rcases h1 j hj with ⟨e, hn⟩ | ⟨k, e, hjk, hk, hl, hm⟩
    · exact Or.inl ⟨e, fun k hjk hk hp => hn k hk ((key k j).mpr ⟨hjk, hp⟩)⟩
    · exact Or.inr ⟨k, e, hjk, hk, hl.path, fun l hjl hlk hp => hm l hlk ((key l j).mpr ⟨hjl, hp⟩)⟩
  · intro j hj
    rw [h2 j hj, hcc]
  · intro j hj
    refine ⟨_, _, h3 j hj.le, h2 j hj, ?_⟩
    rw [h3 (j + 1) hj, sum_range_succ]
  · have := h3 0 (Nat.zero_le _)
    simpa using this
  · have h4 : ∑ i ∈ range n, colCount n (fun j k => A.Stored (p j) (p k)) i
        ≤ ∑ i ∈ range n, (n - 1 - i) := sum_le_sum fun i hi => hle i (mem_range.mp hi)
    rw [sum_range_reflect (fun i => i) n] at h4
    have h5 := sum_range_id_mul_two n
    omega

section

variable {K : Type} [Zero K] [One K] [Add K] [Sub K] [Mul K] [Div K] [Neg K] [Scalar K]

/-- C80, the factor: the numeric factorisation stores an entry in row `r` and column `c` of `L`
exactly if `c < r` and `r` can be reached from `c` along nodes before `c`. -/
theorem C80_numeric {n : Nat} {A : Csc K} {p q : Nat → Nat} {Ap Ai : Buf Int} {Ax : Buf K}
    {P Pinv : Option (Buf Int)} (h : LdlArgs n A p q Ap Ai P) (hAx : Buf.Has Ax A.nnz A.pr)
    {Lp0 Parent0 Lnz0 Flag0 : Buf Int} (hLp : n + 1 ≤ Lp0.length) (hPar : n ≤ Parent0.length)
    (hLnz : n ≤ Lnz0.length) (hFlag : n ≤ Flag0.length)
    (hPinv : P.isSome → ∃ Q, Pinv = some Q ∧ n ≤ Q.length) (hPn : P = none → Pinv = none)
    {o : SymOut} (ho : LDL_symbolic n Ap Ai Lp0 Parent0 Lnz0 Flag0 P Pinv = .ok o)
    {lnz : Nat} (hlnz : rd o.Lp n = .ok (lnz : Int)) {Li Pattern : Buf Int} {Lx D Y : Buf K}
    (hLi : lnz ≤ Li.length) (hLx : lnz ≤ Lx.length) (hD : n ≤ D.length) (hY : n ≤ Y.length)
    (hPat : n ≤ Pattern.length) :
    ∃ st, LDL_numeric n Ap Ai Ax o.Lp o.Parent ⟨o.Lnz, Li, Lx, D, Y, Pattern, o.Flag⟩ P o.Pinv
        = .ok ((n : Int), st) ∧
      ∃ L d, HoldsFactor n o.Lp st.Li st.Lx st.D L d ∧ ∀ r c, r < n → c < n →
        (L.Stored r c ↔ c < r ∧ PathBelow (A.Adj p) c c r) := by
  obtain ⟨st, h1, ⟨L, d, h2, h3⟩, _⟩ := C10_numeric h hAx hLp hPar hLnz hFlag hPinv hPn ho hlnz hLi
    hLx hD hY hPat
  exact ⟨st, h1, L, d, h2, fun r c hr hc => (h3 r c hr hc).trans pattern_iff⟩

end

/-- The hypotheses of C80 are met by the demo matrix with an ordering that causes fill-in. -/
example := C80_symbolic demoLdl (Pinv := some (malloc 3)) (Lp := malloc 4)
  (Parent := malloc 3) (Lnz := malloc 3) (Flag := malloc 3) (by decide) (by decide)
  (by decide) (by decide) (fun _ => ⟨_, rfl, by decide⟩) (by simp)

example := C80_numeric demoLdl demoP.toSmat_is.pr (o := demoSym) (Pinv := some (malloc 3))
  (Lp0 := malloc 4) (Parent0 := malloc 3) (Lnz0 := malloc 3) (Flag0 := malloc 3)
  (by decide) (by decide) (by decide) (by decide) (fun _ => ⟨_, rfl, by decide⟩) (by simp)
  demoSym_eq (lnz := 3) (by decide +kernel) (Li := malloc 3) (Lx := malloc 3)
  (D := malloc 3) (Y := malloc 3) (Pattern := malloc 3) (by decide) (by decide)
  (by decide) (by decide) (by decide)

theorem demoP_stored (r c : Nat) : demoP.Stored r c ↔
    ∃ k, k < 7 ∧ demoP.jc c ≤ k ∧ k < demoP.jc (c + 1) ∧ demoP.ir k = r := by
  constructor
  · rintro ⟨k, h1, h2, h3⟩
    refine ⟨k, lt_of_lt_of_le h2 ?_, h1, h2, h3⟩
    simp only [demoP, Csc.lit]
    rcases c with _ | _ | _ | c <;> simp
  · rintro ⟨k, _, h1, h2, h3⟩
    exact ⟨k, h1, h2, h3⟩

/-- Its variables 0 and 2 are not joined by an edge, but by a path through the variable eliminated
first. -/
example : ¬ demoP.Adj demoPerm3 1 2 ∧ PathBelow (demoP.Adj demoPerm3) 1 1 2 := by
  have hst := demoP_stored
  refine ⟨?_, ?_⟩
  · rintro (⟨_, h⟩ | ⟨h, _⟩)
    · rw [hst] at h
      revert h
      decide
    · omega
  · exact .step (v := 0) (Or.inr ⟨by decide, (hst _ _).mpr (by decide)⟩) (by decide)
      (.edge (Or.inl ⟨by decide, (hst _ _).mpr (by decide)⟩))

/-! ## The factor of the solver -/

theorem Csc.stored_iff_col {K : Type} (A : Csc K) (r c : Nat) :
    A.Stored r c ↔ ∃ v, (r, v) ∈ A.col c := by
  unfold Csc.Stored Csc.col
  constructor
  · rintro ⟨k, h1, h2, rfl⟩
    refine ⟨A.pr k, List.mem_map.mpr ⟨k - A.jc c, List.mem_range.mpr (by omega), ?_⟩⟩
    rw [show A.jc c + (k - A.jc c) = k by omega]
  · rintro ⟨v, hm⟩
    obtain ⟨q, hq, e⟩ := List.mem_map.mp hm
    rw [List.mem_range] at hq
    exact ⟨A.jc c + q, by omega, by omega, by rw [Prod.mk.injEq] at e; exact e.1⟩

theorem Csc.stored_ofCols {K : Type} [Zero K] (m n : Nat) (col : Nat → List (Nat × K)) {r c : Nat}
    (hc : c < n) : (Csc.ofCols m n col).Stored r c ↔ ∃ v, (r, v) ∈ col c := by
  unfold Csc.Stored
  have hj : (Csc.ofCols m n col).jc = Verif.offs col := rfl
  rw [hj]
  constructor
  · rintro ⟨k, hk1, hk2, rfl⟩
    rw [offs_succ] at hk2
    obtain ⟨q, rfl⟩ : ∃ q, k = Verif.offs col c + q := ⟨k - Verif.offs col c, by omega⟩
    have hq : (col c)[q]? = some (col c)[q] := List.getElem?_eq_getElem (by omega)
    rw [Csc.ofCols_ir m n col hc hq]
    exact ⟨_, List.mem_of_getElem? hq⟩
  · rintro ⟨v, hm⟩
    obtain ⟨q, hq⟩ := List.getElem?_of_mem hm
    have hql := (List.getElem?_eq_some_iff.mp hq).1
    refine ⟨Verif.offs col c + q, by omega, by rw [offs_succ]; omega, ?_⟩
    rw [Csc.ofCols_ir m n col hc hq]

theorem mem_tcol_iff {K : Type} (A : Csc K) (r c : Nat) :
    (∃ v, (c, v) ∈ tcol A r) ↔ c < A.n ∧ A.Stored r c := by
  constructor
  · rintro ⟨v, hm⟩
    obtain ⟨c', hc, h, rfl⟩ := tcol_mem.mp hm
    exact ⟨hc, (A.stored_iff_col r _).mpr ⟨_, h⟩⟩
  · rintro ⟨hc, hs⟩
    obtain ⟨v, hv⟩ := (A.stored_iff_col r c).mp hs
    exact ⟨v, tcol_mem.mpr ⟨c, hc, hv, rfl⟩⟩

theorem Csc.WF.stored_lt {K : Type} {A : Csc K} (h : A.WF) {r c : Nat} (hc : c < A.n)
    (hs : A.Stored r c) : r < A.m := by
  obtain ⟨k, _, h2, rfl⟩ := hs
  exact h.ir_lt k (lt_of_lt_of_le h2 (h.le_nnz hc))

theorem mem_shiftCol {K : Type} (off : Nat) (l : List (Nat × K)) (r : Nat) :
    (∃ v, (r, v) ∈ shiftCol off l) ↔ ∃ i, r = off + i ∧ ∃ v, (i, v) ∈ l := by
  unfold shiftCol
  constructor
  · rintro ⟨v, hm⟩
    obtain ⟨⟨i, w⟩, he, e⟩ := List.mem_map.mp hm
    rw [Prod.mk.injEq] at e
    exact ⟨i, e.1.symm, w, he⟩
  · rintro ⟨i, rfl, v, hv⟩
    exact ⟨v, List.mem_map.mpr ⟨(i, v), hv, rfl⟩⟩

/-- Two unknowns of the KKT system occur together: two variables in `P`, a variable and an equality
constraint in `A`, a variable and an inequality constraint in `G`. -/
def Problem.Linked {K : Type} (pb : Problem K) (a b : Nat) : Prop :=
  (a < pb.n ∧ b < pb.n ∧ pb.P.Stored a b) ∨
  (a < pb.n ∧ ∃ i, i < pb.p ∧ b = pb.n + i ∧ pb.A.Stored i a) ∨
  (a < pb.n ∧ ∃ i, i < pb.m ∧ b = pb.n + pb.p + i ∧ pb.G.Stored i a) ∨
  (b < pb.n ∧ ∃ i, i < pb.p ∧ a = pb.n + i ∧ pb.A.Stored i b) ∨
  (b < pb.n ∧ ∃ i, i < pb.m ∧ a = pb.n + pb.p + i ∧ pb.G.Stored i b)

/-- Off the diagonal the KKT matrix has an entry exactly where two unknowns occur together. -/
theorem kkt_stored {K : Type} [Zero K] {pb : Problem K} (hpb : pb.WF) (d : Nat → K) {a b : Nat}
    (hb : b < pb.N) (hab : a ≠ b) :
    (kktCsc pb.P pb.A pb.G d).Stored a b ↔ pb.Linked a b := by
  have eN : pb.N = pb.n + pb.p + pb.m := rfl
  have en : pb.P.n = pb.n := rfl
  have ep : pb.A.m = pb.p := rfl
  have em : pb.G.m = pb.m := rfl
  have ePm : pb.P.m = pb.n := hpb.Pm
  have eAn : pb.A.n = pb.n := hpb.An
  have eGn : pb.G.n = pb.n := hpb.Gn
  unfold kktCsc
  rw [Csc.stored_ofCols _ _ _ (by omega)]
  unfold kktCol Problem.Linked
  by_cases h1 : b < pb.n
  · rw [if_pos (by omega)]
    simp only [List.mem_append, exists_or]
    rw [← Csc.stored_iff_col, mem_shiftCol, mem_shiftCol]
    simp only [← Csc.stored_iff_col]
    constructor
    · rintro ((h | ⟨i, e, h⟩) | ⟨i, e, h⟩)
      · have := hpb.P.stored_lt h1 h
        exact Or.inl ⟨by omega, h1, h⟩
      · have := hpb.A.stored_lt (by omega) h
        exact Or.inr (Or.inr (Or.inr (Or.inl ⟨h1, i, this, by omega, h⟩)))
      · have := hpb.G.stored_lt (by omega) h
        exact Or.inr (Or.inr (Or.inr (Or.inr ⟨h1, i, this, by omega, h⟩)))
    · rintro (⟨_, _, h⟩ | ⟨_, i, hi, e, h⟩ | ⟨_, i, hi, e, h⟩ | ⟨_, i, hi, e, h⟩ | ⟨_, i, hi, e, h⟩)
      · exact Or.inl (Or.inl h)
      · omega
      · omega
      · exact Or.inl (Or.inr ⟨i, by omega, h⟩)
      · exact Or.inr ⟨i, by omega, h⟩
  · rw [if_neg (by omega)]
    by_cases h2 : b < pb.n + pb.p
    · rw [if_pos (by omega), mem_tcol_iff]
      constructor
      · rintro ⟨h3, h⟩
        exact Or.inr (Or.inl ⟨by omega, b - pb.n, by omega, by omega, h⟩)
      · rintro (⟨_, _, h⟩ | ⟨_, i, hi, e, h⟩ | ⟨_, i, hi, e, h⟩ | ⟨_, i, hi, e, h⟩ | ⟨_, i, hi, e, h⟩)
        · omega
        · refine ⟨by omega, ?_⟩
          rw [en, show b - pb.n = i by omega]
          exact h
        · omega
        · omega
        · omega
    · rw [if_neg (by omega)]
      unfold slackCol
      have hd : (∃ v, (a, v) ∈ tcol pb.G (b - pb.P.n - pb.A.m) ++
          if (tcol pb.G (b - pb.P.n - pb.A.m)).length = 0 then []
          else [(pb.P.m + pb.A.m + (b - pb.P.n - pb.A.m), d (b - pb.P.n - pb.A.m))]) ↔
          ∃ v, (a, v) ∈ tcol pb.G (b - pb.P.n - pb.A.m) := by
        simp only [List.mem_append, exists_or]
        constructor
        · rintro (h | ⟨v, h⟩)
          · exact h
          · split at h
            · exact absurd h (List.not_mem_nil)
            · rw [List.mem_singleton, Prod.mk.injEq] at h
              omega
        · exact Or.inl
      rw [hd, mem_tcol_iff]
      constructor
      · rintro ⟨h3, h⟩
        exact Or.inr (Or.inr (Or.inl ⟨by omega, b - pb.n - pb.p, by omega, by omega, h⟩))
      · rintro (⟨_, _, h⟩ | ⟨_, i, hi, e, h⟩ | ⟨_, i, hi, e, h⟩ | ⟨_, i, hi, e, h⟩ | ⟨_, i, hi, e, h⟩)
        · omega
        · omega
        · refine ⟨by omega, ?_⟩
          rw [en, ep, show b - pb.n - pb.p = i by omega]
          exact h
        · omega
        · omega

theorem PathBelow.congr {E E' : Nat → Nat → Prop} {r n a b : Nat} (hr : r ≤ n)
    (hE : ∀ a b, a < n → b < n → a ≠ b → E a b → E' a b) (h : PathBelow E r a b) :
    a < n → b < n → a ≠ b → PathBelow E' r a b := by
  induction h with
  | edge h => exact fun ha hb hab => .edge (hE _ _ ha hb hab h)
  | @step a v b h hv _ ih =>
    intro ha hb hab
    by_cases h1 : a = v
    · subst h1
      exact ih ha hb hab
    · by_cases h2 : v = b
      · subst h2
        exact .edge (hE _ _ ha hb hab h)
      · exact .step (hE _ _ ha (by omega) h1 h) hv (ih (by omega) hb h2)

open Classical in
/-- C80 for the solver: if the pattern of `P` is symmetric, setup leaves an ordering `p` and a factor
`L` which has an entry in row `r` and column `c` exactly if `c < r` and the unknowns `p c` and `p r`
are joined by a chain of unknowns eliminated before `c` in which neighbours occur together in `P`, `A`
or `G`. The space reserved for `L` is exactly the number of its entries. -/
theorem C80_solver {K : Type} [Zero K] [One K] [Add K] [Sub K] [Mul K] [Div K] [Neg K] [Scalar K]
    {amd : Amd} {a : SetupArgs K} {pb : Problem K} {q0 : QP K}
    (h : Started amd a pb q0)
    (hP : ∀ r c, r < pb.n → c < pb.n → pb.P.Stored r c → pb.P.Stored c r) :
    ∃ p q L d, PermPair pb.N p q ∧ Buf.Has q0.kkt.P pb.N (fun i => (p i : Int)) ∧
      HoldsFactor pb.N q0.kkt.Lp q0.kkt.Li q0.kkt.Lx q0.kkt.D L d ∧
      (∀ r c, r < pb.N → c < pb.N → (L.Stored r c ↔
        c < r ∧ PathBelow (fun i j => pb.Linked (p i) (p j)) c c r)) ∧
      ∀ c, c < pb.N → ∃ l : Nat, rd q0.kkt.Lp c = .ok (l : Int) ∧ rd q0.kkt.Lp (c + 1 : Nat)
        = .ok ((l + ((range pb.N).filter (fun r => c < r ∧
          PathBelow (fun i j => pb.Linked (p i) (p j)) c c r)).card : Nat) : Int) := by
  obtain ⟨p, q, hd⟩ := h.done
  obtain ⟨t, hfac, _, _⟩ := hd.iter
  have hk := hd.kkt
  set M := kktCsc pb.P pb.A pb.G (fun _ => Scalar.dec (-1) 0)
  have sym : ∀ i j, pb.Linked i j → pb.Linked j i := by
    rintro i j (⟨h1, h2, h3⟩ | h | h | h | h)
    · exact Or.inl ⟨h2, h1, hP _ _ h1 h2 h3⟩
    · exact Or.inr (Or.inr (Or.inr (Or.inl h)))
    · exact Or.inr (Or.inr (Or.inr (Or.inr h)))
    · exact Or.inr (Or.inl h)
    · exact Or.inr (Or.inr (Or.inl h))
  have key : ∀ c r, c < r → r < pb.N → (PathBelow (M.Adj p) c c r ↔
      PathBelow (fun i j => pb.Linked (p i) (p j)) c c r) := by
    intro c r hcr hr
    have inj : ∀ i j, i < pb.N → j < pb.N → i ≠ j → p i ≠ p j := by
      intro i j hi hj hij e
      have := congrArg q e
      rw [hk.perm.qp i hi, hk.perm.qp j hj] at this
      exact hij this
    constructor
    · intro hp
      refine hp.congr (n := pb.N) (by omega) ?_ (by omega) hr (by omega)
      rintro i j hi hj hij (⟨h1, h2⟩ | ⟨h1, h2⟩)
      · exact (kkt_stored h.wf _ (hk.perm.p_lt j hj) (inj i j hi hj hij)).mp h2
      · exact sym _ _ ((kkt_stored h.wf _ (hk.perm.p_lt i hi) (inj j i hj hi hij.symm)).mp h2)
    · intro hp
      refine hp.congr (n := pb.N) (by omega) ?_ (by omega) hr (by omega)
      intro i j hi hj hij hl
      rcases lt_or_gt_of_ne hij with hc | hc
      · exact Or.inl ⟨hc, (kkt_stored h.wf _ (hk.perm.p_lt j hj) (inj i j hi hj hij)).mpr hl⟩
      · exact Or.inr ⟨hc, (kkt_stored h.wf _ (hk.perm.p_lt i hi)
          (inj j i hj hi hij.symm)).mpr (sym _ _ hl)⟩
  have pat : ∀ r c, r < pb.N → (LPattern (fun j k => M.Stored (p j) (p k)) r c ↔
      c < r ∧ PathBelow (fun i j => pb.Linked (p i) (p j)) c c r) := by
    intro r c hr
    rw [pattern_iff]
    exact and_congr_right fun hc => key c r hc hr
  refine ⟨p, q, facCsc pb.N t, t.D, hk.perm, hk.P, hfac.2.factor hk.lp, ?_, ?_⟩
  · intro r c hr hc
    rw [hfac.2.stored hc, fill_iff hk.wf hk.an hk.am hk.perm hr, pat r c hr]
    exact and_iff_right hr
  · intro c hc
    refine ⟨_, hk.lp.rd (by omega), ?_⟩
    rw [hk.lp.rd (by omega), lpOf_eq hk.wf hk.an hk.am hk.perm, lpOf_eq hk.wf hk.an hk.am hk.perm,
      sum_range_succ]
    congr 3
    unfold colCount
    congr 1
    exact filter_congr fun r hr => pat r c (mem_range.mp hr)

/-- C80 for the demo problem, with equality constraints. -/
example : ∃ q0 a, Started failAmd a (demoPb ℚ) q0 ∧
    ∀ r c, r < (demoPb ℚ).n → c < (demoPb ℚ).n → (demoPb ℚ).P.Stored r c → (demoPb ℚ).P.Stored c r := by
  obtain ⟨q0, h⟩ := demo_started ℚ
  refine ⟨q0, _, h, fun r c hr hc hs => ?_⟩
  have hr : r < 3 := hr
  have hc : c < 3 := hc
  have hs : demoP.Stored r c := hs
  show demoP.Stored c r
  rw [demoP_stored] at hs ⊢
  interval_cases r <;> interval_cases c <;> revert hs <;> decide

end Verif
