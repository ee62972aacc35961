import Verif.Lemmas.LdlSolve
import Verif.Lemmas.Transpose
import Verif.Model.Solver

/-! # The stored factor, and the KKT part of the solver state -/

set_option linter.unusedSectionVars false

namespace Verif

open Finset

/-- Column `k` of the permuted matrix has an entry in row `j`. -/
theorem mem_permPat {K : Type} {n : Nat} {A : Csc K} (hA : A.WF) (hAn : A.n = n) (hAm : A.m = n)
    {p q : Nat → Nat} (hp : PermPair n p q) {j k : Nat} (hj : j < n) (hk : k < n) :
    j ∈ permPat A p q k ↔ A.Stored (p j) (p k) := by
  unfold permPat permCol Csc.col Csc.Stored
  simp only [List.map_map, List.mem_map, List.mem_range, Function.comp]
  have hpk := hp.p_lt k hk
  constructor
  · rintro ⟨x, hx, rfl⟩
    refine ⟨A.jc (p k) + x, by omega, by omega, ?_⟩
    have h1 := hA.ir_lt (A.jc (p k) + x) (by
      have := hA.jc_mono (c := p k + 1) (d := A.n) (by omega) le_rfl
      omega)
    rw [hp.pq _ (by omega)]
  · rintro ⟨x, h1, h2, h3⟩
    refine ⟨x - A.jc (p k), by omega, ?_⟩
    rw [show A.jc (p k) + (x - A.jc (p k)) = x by omega, h3, hp.qp j hj]

/-- Pattern of the upper triangle of the permuted matrix. -/
abbrev permStored {K : Type} (A : Csc K) (p : Nat → Nat) (j k : Nat) : Prop := A.Stored (p j) (p k)

theorem fill_iff {K : Type} {n : Nat} {A : Csc K} (hA : A.WF) (hAn : A.n = n) (hAm : A.m = n)
    {p q : Nat → Nat} (hp : PermPair n p q) {j k : Nat} (hk : k < n) :
    Fill (permPat A p q) k j ↔ LPattern (permStored A p) k j := by
  constructor
  · intro h
    induction h with
    | base hm hlt =>
      exact LPattern.entry hlt ((mem_permPat hA hAn hAm hp (by omega) hk).mp hm)
    | step h1 h2 _ _ ih1 ih2 => exact LPattern.fill h1 h2 (ih1 hk) (ih2 (by omega))
  · intro h
    induction h with
    | entry hlt hs =>
      exact Fill.base ((mem_permPat hA hAn hAm hp (by omega) hk).mpr hs) hlt
    | fill h1 h2 _ _ ih1 ih2 => exact Fill.step h1 h2 (ih1 hk) (ih2 (by omega))

section

variable {K : Type} [Zero K] [One K] [Add K] [Sub K] [Mul K] [Div K] [Neg K] [Scalar K]

/-- The strictly lower triangular factor as a compressed matrix. -/
def facCsc (n : Nat) (s : FSt K) : Csc K := Csc.ofCols n n s.col

theorem NumRep.offs {C : Nat → List Nat} {n : Nat} {s : FSt K} {st : NumSt K}
    (h : NumRep C n n n [] s st) (j : Nat) : offs s.col j = lpOf C n j := by
  induction j with
  | zero => rfl
  | succ j ih =>
    rw [offs_succ, lpOf_succ, ih]
    have := congrArg List.length (h.rows j)
    simp only [List.not_mem_nil, if_false, List.append_nil, List.length_map] at this
    rw [this]

theorem NumRep.factor {C : Nat → List Nat} {n : Nat} {s : FSt K} {st : NumSt K}
    (h : NumRep C n n n [] s st) {Lp : Buf Int}
    (hLp : Buf.Has Lp (n + 1) (fun j => (lpOf C n j : Int))) :
    HoldsFactor n Lp st.Li st.Lx st.D (facCsc n s) s.D := by
  have hrows : ∀ j, (s.col j).map Prod.fst = fillRows C n j := by
    intro j
    have := h.rows j
    simpa using this
  have hmem : ∀ j, ∀ e ∈ s.col j, e.1 < n ∧ Fill C e.1 j := by
    intro j e he
    have : e.1 ∈ (s.col j).map Prod.fst := List.mem_map_of_mem he
    rw [hrows j] at this
    exact mem_fillRows.mp this
  have hpre : Pre st.Li st.Lx (flatTo s.col n) := by
    intro k e hk
    have hk' : k < (flatTo s.col n).length := (List.getElem?_eq_some_iff.mp hk).1
    -- locate the column
    have key : ∀ m, m ≤ n → k < (flatTo s.col m).length →
        ∃ c q, c < m ∧ q < (s.col c).length ∧ k = Verif.offs s.col c + q := by
      intro m
      induction m with
      | zero => intro _ hlt; simp at hlt
      | succ m ih =>
        intro hm hlt
        rcases Nat.lt_or_ge k (flatTo s.col m).length with hl | hl
        · obtain ⟨c, q, h1, h2, h3⟩ := ih (by omega) hl
          exact ⟨c, q, by omega, h2, h3⟩
        · rw [flatTo_succ, List.length_append] at hlt
          exact ⟨m, k - (flatTo s.col m).length, by omega, by omega, by
            show k = (flatTo s.col m).length + _
            omega⟩
    obtain ⟨c, q, hc, hq, rfl⟩ := key n le_rfl hk'
    have h1 : (s.col c)[q]? = some e := by
      have h2 := flatTo_get s.col hc hq
      rw [← h2]
      exact hk
    have h3 := h.cells c hc q e h1
    rw [h.offs c]
    exact h3
  refine ⟨Csc.ofCols_wf n n s.col (fun c _ e he => (hmem c e he).1), rfl, rfl,
    Csc.ofCols_sorted n n s.col ?_, ?_, ?_, ?_, ?_, h.D⟩
  · intro c _
    have h1 := fillRows_sorted (C := C) n c
    rw [← hrows c, List.pairwise_map] at h1
    exact h1
  · rintro c hc r ⟨k, hk1, hk2, rfl⟩
    have hj : (facCsc n s).jc = Verif.offs s.col := rfl
    rw [hj] at hk1 hk2
    rw [offs_succ] at hk2
    obtain ⟨q, rfl⟩ : ∃ q, k = Verif.offs s.col c + q := ⟨k - Verif.offs s.col c, by omega⟩
    have hq : (s.col c)[q]? = some (s.col c)[q] := List.getElem?_eq_getElem (by omega)
    unfold facCsc
    rw [Csc.ofCols_ir n n s.col hc hq]
    exact (hmem c _ (List.mem_of_getElem? hq)).2.lt
  · refine hLp.congr ?_
    intro j _
    show _ = ((Verif.offs s.col j : Nat) : Int)
    rw [h.offs j]
  · intro k hk
    exact (hpre k _ (Csc.ofCols_get n n s.col hk)).1
  · intro k hk
    exact (hpre k _ (Csc.ofCols_get n n s.col hk)).2

theorem NumRep.stored {C : Nat → List Nat} {n : Nat} {s : FSt K} {st : NumSt K}
    (h : NumRep C n n n [] s st) {r c : Nat} (hc : c < n) :
    (facCsc n s).Stored r c ↔ r < n ∧ Fill C r c := by
  have hrows : (s.col c).map Prod.fst = fillRows C n c := by
    have := h.rows c
    simpa using this
  rw [← mem_fillRows, ← hrows]
  unfold Csc.Stored
  have hj : (facCsc n s).jc = Verif.offs s.col := rfl
  rw [hj]
  constructor
  · rintro ⟨k, hk1, hk2, rfl⟩
    rw [offs_succ] at hk2
    obtain ⟨q, rfl⟩ : ∃ q, k = Verif.offs s.col c + q := ⟨k - Verif.offs s.col c, by omega⟩
    have hq : (s.col c)[q]? = some (s.col c)[q] := List.getElem?_eq_getElem (by omega)
    unfold facCsc
    rw [Csc.ofCols_ir n n s.col hc hq]
    exact List.mem_map_of_mem (List.mem_of_getElem? hq)
  · intro hm
    obtain ⟨e, he, rfl⟩ := List.mem_map.mp hm
    obtain ⟨q, hq⟩ := List.getElem?_of_mem he
    have hql := (List.getElem?_eq_some_iff.mp hq).1
    refine ⟨Verif.offs s.col c + q, by omega, by rw [offs_succ]; omega, ?_⟩
    unfold facCsc
    rw [Csc.ofCols_ir n n s.col hc hq]

/-! ## KKT part of the solver state -/

/-- The KKT structure is ready for numeric factorisation of `A`: symbolic data are those of the
pattern of `A` permuted by `p`, and all arrays are large enough. -/
structure KktSym (N : Nat) (A : Csc K) (p q : Nat → Nat) (k : Kkt K) : Prop where
  wf : A.WF
  an : A.n = N
  am : A.m = N
  perm : PermPair N p q
  mat : k.kktmatrix.Is A
  P : Buf.Has k.P N (fun i => (p i : Int))
  Pinv : Buf.Has k.Pinv N (fun i => (q i : Int))
  lp : Buf.Has k.Lp (N + 1) (fun j => (lpOf (permPat A p q) N j : Int))
  parent : Buf.Has k.Parent N (fun j => enc (tree (permPat A p q) N j))
  sizes : NumSizes (permPat A p q) N k.num

/-- The factor stored in the structure is that of `A`. -/
def KktFac (N : Nat) (A : Csc K) (p q : Nat → Nat) (s : FSt K) (k : Kkt K) : Prop :=
  Rows (permCol A p q) N s ∧ NumRep (permPat A p q) N N N [] s k.num

theorem KktSym.args {N : Nat} {A : Csc K} {p q : Nat → Nat} {k : Kkt K} (h : KktSym N A p q k) :
    LdlArgs N A p q k.kktmatrix.jc k.kktmatrix.ir (some k.P) where
  wf := h.wf
  an := h.an
  am := h.am
  perm := h.perm
  ap := by have := h.mat.jc; rw [h.an] at this; exact this
  ai := h.mat.ir
  p := h.P

theorem KktSym.n {N : Nat} {A : Csc K} {p q : Nat → Nat} {k : Kkt K} (h : KktSym N A p q k) :
    k.kktmatrix.n = N := by rw [h.mat.n, h.an]

/-- The pattern is all that matters for the symbolic data. -/
theorem permPat_congr {A B : Csc K} (h1 : A.jc = B.jc) (h2 : A.ir = B.ir) (p q : Nat → Nat) :
    permPat A p q = permPat B p q := by
  funext k
  unfold permPat permCol Csc.col
  rw [h1, h2]
  simp [Function.comp_def]

theorem KktSym.withMat {N : Nat} {A B : Csc K} {p q : Nat → Nat} {k k' : Kkt K}
    (h : KktSym N A p q k) (hB : B.m = A.m ∧ B.n = A.n ∧ B.jc = A.jc ∧ B.ir = A.ir)
    (hm : k'.kktmatrix.Is B) (hP : k'.P = k.P) (hPi : k'.Pinv = k.Pinv) (hLp : k'.Lp = k.Lp)
    (hPar : k'.Parent = k.Parent) (hn : k'.num = k.num) : KktSym N B p q k' where
  wf := by
    obtain ⟨h1, h2, h3, h4⟩ := hB
    exact ⟨by rw [h3]; exact h.wf.jc0, by rw [h2, h3]; exact h.wf.mono,
      by rw [h2, h3, h4, h1]; exact h.wf.ir_lt⟩
  an := by rw [hB.2.1, h.an]
  am := by rw [hB.1, h.am]
  perm := h.perm
  mat := hm
  P := by rw [hP]; exact h.P
  Pinv := by rw [hPi]; exact h.Pinv
  lp := by rw [permPat_congr hB.2.2.1 hB.2.2.2, hLp]; exact h.lp
  parent := by rw [permPat_congr hB.2.2.1 hB.2.2.2, hPar]; exact h.parent
  sizes := by rw [permPat_congr hB.2.2.1 hB.2.2.2, hn]; exact h.sizes

theorem NumSizes.of_lens {C : Nat → List Nat} {n : Nat} {s t : NumSt K} (h : NumSizes C n s)
    (hl : t.lens = s.lens) : NumSizes C n t := by
  simp only [NumSt.lens, List.cons.injEq, and_true] at hl
  obtain ⟨h1, h2, h3, h4, h5, h6, h7⟩ := hl
  exact ⟨by rw [h1]; exact h.nn, by rw [h4]; exact h.nD, by rw [h5]; exact h.nY,
    by rw [h6]; exact h.nP, by rw [h7]; exact h.nF, by rw [h2]; exact h.nLi,
    by rw [h3]; exact h.nLx⟩

theorem callNumeric_spec {N : Nat} {A : Csc K} {p q : Nat → Nat} {k : Kkt K}
    (h : KktSym N A p q k) :
    Spec (callNumeric k) (fun r => r.1 = (N : Int) ∧ KktSym N A p q r.2 ∧
      (∃ s, KktFac N A p q s r.2) ∧ r.2.num.lens = k.num.lens ∧
      r.2 = k.withNum r.2.num) := by
  unfold callNumeric
  rw [h.n]
  refine Spec.bind (LDL_numeric_spec (Pinv := some k.Pinv) h.args h.mat.pr h.Pinv h.lp h.parent h.sizes) ?_
  rintro ⟨r, st⟩ ⟨h1, h2, s, h3, h4⟩
  simp only at h1 h2 h3 h4
  subst h1
  refine Spec.ok ⟨rfl, ⟨h.wf, h.an, h.am, h.perm, h.mat, h.P, h.Pinv, h.lp, h.parent, ?_⟩,
    ⟨s, h3, h4⟩, h2, rfl⟩
  exact h.sizes.of_lens h2

theorem ldlSolve_spec {N : Nat} {A : Csc K} {p q : Nat → Nat} {k : Kkt K} {s : FSt K}
    (h : KktSym N A p q k) (hf : KktFac N A p q s k) {b : Nat → K} (hb : Buf.Has k.b N b)
    {delta : Buf K} (hd : N ≤ delta.length) :
    Spec (ldlSolve k delta) (fun r => r.1.length = delta.length ∧ r.2.length = k.b.length ∧
      Buf.Has r.2 N (solveF N s p q b) ∧ Buf.Has r.1 N (fun i => solveF N s p q b (p i))) := by
  unfold ldlSolve
  rw [h.n]
  refine (solve_all_spec h.perm (hf.2.lfac h.lp) hd hb h.P hf.2.D).mono ?_
  rintro r ⟨h1, h2, h3, h4, _⟩
  exact ⟨h1, h2, h4, h3⟩

theorem ldlinitialsolve_spec {N : Nat} {A : Csc K} {p q : Nat → Nat} {k : Kkt K}
    (wf : A.WF) (an : A.n = N) (am : A.m = N) (perm : PermPair N p q) (mat : k.kktmatrix.Is A)
    (hP : Buf.Has k.P N (fun i => (p i : Int))) (hPinv : N ≤ k.Pinv.length)
    {b : Nat → K} (hb : Buf.Has k.b N b) {delta : Buf K} (hd : N ≤ delta.length) :
    Spec (ldlinitialsolve k delta) (fun r => r.1 = 1 ∧ KktSym N A p q r.2.1 ∧
      (∃ s, KktFac N A p q s r.2.1 ∧ Buf.Has r.2.1.b N (solveF N s p q b)) ∧
      r.2.2.length = delta.length ∧ r.2.1.b.length = k.b.length ∧
      r.2.1.kktmatrix = k.kktmatrix ∧ r.2.1.P = k.P ∧ r.2.1.UPattern = k.UPattern) := by
  unfold ldlinitialsolve
  have hn : k.kktmatrix.n = N := by rw [mat.n, an]
  simp only [hn]
  have hargs : LdlArgs N A p q k.kktmatrix.jc k.kktmatrix.ir (some k.P) :=
    ⟨wf, an, am, perm, by have := mat.jc; rw [an] at this; exact this, mat.ir, hP⟩
  refine Spec.bind (LDL_symbolic_spec hargs (by simp) (by simp) (by simp) (by simp)
    (fun _ => ⟨k.Pinv, rfl, hPinv⟩) (by simp)) ?_
  rintro ⟨Lp, Parent, Lnz, Flag, Pinv⟩ ⟨hs, l1, l2, l3, l4, l5⟩
  simp only at l1 l2 l3 l4 l5
  obtain ⟨Q, rfl⟩ : ∃ Q, Pinv = some Q := by
    cases Pinv with
    | none => simp at l5
    | some Q => exact ⟨Q, rfl⟩
  have hQ : Buf.Has Q N (fun i => (q i : Int)) := hs.pinv
  have hlp : Buf.Has Lp (N + 1) (fun j => (lpOf (permPat A p q) N j : Int)) := hs.lp
  have hpar := hs.parent
  simp only at hpar
  simp only [length_malloc] at l1 l2 l3 l4
  simp only [deref, ok_bind]
  rw [hlp.rd (by omega), ok_bind]
  set k1 : Kkt K := { k with
    Y := malloc N, D := malloc N, Lp := Lp, Parent := Parent, Pattern := malloc N, Flag := Flag
    Lnz := Lnz, Pinv := Q, Li := malloc ((lpOf (permPat A p q) N N : Int) + 1)
    Lx := malloc ((lpOf (permPat A p q) N N : Int) + 1) } with hk1
  have hsym1 : KktSym N A p q k1 :=
    ⟨wf, an, am, perm, mat, hP, hQ, hlp, hpar, by
      refine ⟨?_, ?_, ?_, ?_, ?_, ?_, ?_⟩ <;>
        simp only [Kkt.num, hk1, length_malloc] <;> omega⟩
  refine Spec.bind (callNumeric_spec hsym1) ?_
  rintro ⟨r, k2⟩ ⟨h1, h2, ⟨s, h3⟩, h4, h5⟩
  simp only at h1 h2 h3 h4 h5
  subst h1
  simp only
  have hfac := h3.2.factor h2.lp
  have hnnz : (facCsc N s).nnz = lpOf (permPat A p q) N N := h3.2.offs N
  have htr := Transpose_Row_Count_spec (A := (facCsc N s).pattern)
    ⟨hfac.wf.jc0, hfac.wf.mono, hfac.wf.ir_lt⟩ (Li := k2.Li) (Lp := k2.Lp)
    (Lti := malloc (lpOf (permPat A p q) N N : Int)) (Ltp := malloc ((N : Int) + 1))
    hfac.lp hfac.li (by
      show N + 1 ≤ _
      simp) (by
      show (facCsc N s).nnz ≤ _
      rw [hnnz]; simp)
  have e1 : ((facCsc N s).pattern.m : Int) = N := rfl
  have e2 : ((facCsc N s).pattern.n : Int) = N := rfl
  rw [e1, e2] at htr
  refine Spec.bind htr ?_
  rintro ⟨Lti, Ltp⟩ _
  simp only [if_true]
  set k3 : Kkt K := { k2 with Lti := Lti, Ltp := Ltp } with hk3
  have hsym3 : KktSym N A p q k3 :=
    ⟨wf, an, am, perm, h2.mat, h2.P, h2.Pinv, h2.lp, h2.parent, h2.sizes⟩
  have hb2 : k2.b = k.b := by rw [h5]; rfl
  have hm2 : k2.kktmatrix = k.kktmatrix := by rw [h5]; rfl
  have hP2 : k2.P = k.P := by rw [h5]; rfl
  have hU2 : k2.UPattern = k.UPattern := by rw [h5]; rfl
  refine Spec.bind (ldlSolve_spec hsym3 h3 (b := b) (by
    show Buf.Has k2.b N b
    rw [hb2]; exact hb) hd) ?_
  rintro ⟨d, b'⟩ ⟨g1, g2, g3, _⟩
  simp only at g1 g2 g3
  refine Spec.ok ⟨rfl, ⟨wf, an, am, perm, h2.mat, h2.P, h2.Pinv, h2.lp, h2.parent, h2.sizes⟩,
    ⟨s, h3, g3⟩, g1, ?_, hm2, hP2, hU2⟩
  show b'.length = _
  rw [g2]
  show k2.b.length = _
  rw [hb2]

end

section

variable {K : Type} [Field K] [LinearOrder K] [IsStrictOrderedRing K] [Scalar K] [LawfulScalar K]

theorem facCsc_entry {n : Nat} {s : FSt K} {i j : Nat} (hj : j < n) :
    (facCsc n s).entry i j = colSum (s.col j) i := Csc.ofCols_entry n n s.col hj i

theorem facCsc_unit {n : Nat} {s : FSt K} {i j : Nat} (hj : j < n) :
    (facCsc n s).unitEntry i j = lent s i j := by
  unfold Csc.unitEntry lent
  rw [facCsc_entry hj]

end

end Verif
