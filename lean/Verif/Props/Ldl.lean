import Verif.Lemmas.Factor
import Verif.Lemmas.LdlUnique
import Verif.Lemmas.Kkt
import Verif.Demo

/-!
# C09 – C14 and the second half of C36: symbolic and numeric factorisation, linear solves

`LPattern (fun j k => A.Stored (p j) (p k))` is the textbook pattern of the factor of the matrix
`A` with rows and columns permuted by `p`.
-/

set_option linter.unusedSectionVars false

namespace Verif

open Finset

theorem colCount_eq {K : Type} {n : Nat} {A : Csc K} (hA : A.WF) (hAn : A.n = n) (hAm : A.m = n)
    {p q : Nat → Nat} (hp : PermPair n p q) (j : Nat) :
    (fillRows (permPat A p q) n j).length = colCount n (fun j k => A.Stored (p j) (p k)) j := by
  classical
  unfold colCount
  have h1 : fillRows (permPat A p q) n j
      = (List.range n).filter (fun r => decide (Fill (permPat A p q) r j)) := by
    unfold fillRows
    congr
  rw [h1]
  have h2 : (List.range n).filter (fun r => decide (Fill (permPat A p q) r j))
      = (List.range n).filter (fun r =>
          decide (LPattern (fun j k => A.Stored (p j) (p k)) r j)) := by
    apply List.filter_congr
    intro r hr
    rw [List.mem_range] at hr
    exact decide_eq_decide.mpr (fill_iff hA hAn hAm hp hr)
  rw [h2]
  rfl

theorem lpOf_eq {K : Type} {n : Nat} {A : Csc K} (hA : A.WF) (hAn : A.n = n) (hAm : A.m = n)
    {p q : Nat → Nat} (hp : PermPair n p q) (j : Nat) :
    lpOf (permPat A p q) n j
      = ∑ i ∈ range j, colCount n (fun j k => A.Stored (p j) (p k)) i := by
  unfold lpOf
  exact sum_congr rfl (fun i _ => colCount_eq hA hAn hAm hp i)

/-- **C09**: for every square matrix and every permutation (or NULL), with work arrays of the
documented sizes, the symbolic analysis succeeds. The parent of `j` is the first row below the
diagonal in which column `j` of the factor has an entry, `-1` if there is none; in particular it is
larger than `j`. `Lnz` holds the column counts of the factor and `Lp` their running sums. -/
theorem C09_symbolic {K : Type} {n : Nat} {A : Csc K} {p q : Nat → Nat} {Ap Ai : Buf Int}
    {P Pinv : Option (Buf Int)} (h : LdlArgs n A p q Ap Ai P) {Lp Parent Lnz Flag : Buf Int}
    (hLp : n + 1 ≤ Lp.length) (hPar : n ≤ Parent.length) (hLnz : n ≤ Lnz.length)
    (hFlag : n ≤ Flag.length) (hPinv : P.isSome → ∃ Q, Pinv = some Q ∧ n ≤ Q.length)
    (hPn : P = none → Pinv = none) :
    ∃ o, LDL_symbolic n Ap Ai Lp Parent Lnz Flag P Pinv = .ok o ∧
      (∀ j, j < n →
        (rd o.Parent j = .ok (-1) ∧
          ∀ k, k < n → ¬ LPattern (fun j k => A.Stored (p j) (p k)) k j) ∨
        ∃ k : Nat, rd o.Parent j = .ok (k : Int) ∧ j < k ∧ k < n ∧
          LPattern (fun j k => A.Stored (p j) (p k)) k j ∧
          ∀ l, l < k → ¬ LPattern (fun j k => A.Stored (p j) (p k)) l j) ∧
      (∀ j, j < n → rd o.Lnz j
        = .ok ((colCount n (fun j k => A.Stored (p j) (p k)) j : Nat) : Int)) ∧
      (∀ j, j ≤ n → rd o.Lp j
        = .ok ((∑ i ∈ range j, colCount n (fun j k => A.Stored (p j) (p k)) i : Nat) : Int)) := by
  obtain ⟨o, ho, hd, _⟩ := LDL_symbolic_spec h hLp hPar hLnz hFlag hPinv hPn
  refine ⟨o, ho, ?_, ?_, ?_⟩
  · intro j hj
    have hp := hd.parent.rd hj
    cases ht : tree (permPat A p q) n j with
    | none =>
      left
      rw [ht] at hp
      refine ⟨hp, fun k hk hl => ?_⟩
      exact tree_none ht hk ((fill_iff h.wf h.an h.am h.perm hk).mpr hl)
    | some k =>
      right
      rw [ht] at hp
      obtain ⟨h1, h2, h3⟩ := tree_spec ht
      refine ⟨k, hp, h1, h2, (fill_iff h.wf h.an h.am h.perm h2).mp h3, ?_⟩
      intro l hl hlp
      obtain ⟨k', h4, h5, _⟩ := parent_le (C := permPat A p q) (k := n) (l := l) (j := j) (by omega)
        ((fill_iff h.wf h.an h.am h.perm (by omega)).mpr hlp)
      rw [ht] at h4
      cases h4
      omega
  · intro j hj
    rw [hd.lnz.rd hj, colCount_eq h.wf h.an h.am h.perm]
  · intro j hj
    rw [hd.lp.rd (by omega)]
    have := lpOf_eq h.wf h.an h.am h.perm j
    unfold lpOf at this
    rw [this]

/-- The hypotheses are met by the demo matrix, with a permutation that causes fill-in … -/
example := C09_symbolic demoLdl (Pinv := some (malloc 3)) (Lp := malloc 4)
  (Parent := malloc 3) (Lnz := malloc 3) (Flag := malloc 3) (by decide) (by decide)
  (by decide) (by decide) (fun _ => ⟨_, rfl, by decide⟩) (by simp)

/-- … where the run ends with this elimination tree and these counts. -/
example : (do
    let o ← LDL_symbolic 3 demoP.toSmat.jc demoP.toSmat.ir (malloc 4) (malloc 3)
      (malloc 3) (malloc 3) (some (Buf.ofFn 3 (fun i => (demoPerm3 i : Int))))
      (some (malloc 3))
    pure (o.Parent, o.Lnz, o.Lp)) =
    .ok ([some 1, some 2, some (-1)], [some 2, some 1, some 0],
      [some 0, some 2, some 3, some 3]) := by decide +kernel

/-- **C36**: the inverse permutation computed by the symbolic analysis (and used by every later
factorisation) is the true inverse. -/
theorem C36_inverse {K : Type} {n : Nat} {A : Csc K} {p q : Nat → Nat} {Ap Ai : Buf Int}
    {P : Buf Int} {Q : Buf Int} (h : LdlArgs n A p q Ap Ai (some P)) {Lp Parent Lnz Flag : Buf Int}
    (hLp : n + 1 ≤ Lp.length) (hPar : n ≤ Parent.length) (hLnz : n ≤ Lnz.length)
    (hFlag : n ≤ Flag.length) (hQ : n ≤ Q.length) :
    ∃ o Q', LDL_symbolic n Ap Ai Lp Parent Lnz Flag (some P) (some Q) = .ok o ∧
      o.Pinv = some Q' ∧ ∀ i, i < n →
        (∃ j, rd P i = .ok j ∧ rd Q' j = .ok (i : Int)) ∧
        (∃ j, rd Q' i = .ok j ∧ rd P j = .ok (i : Int)) := by
  obtain ⟨o, ho, hd, _, _, _, _, h5⟩ := LDL_symbolic_spec h hLp hPar hLnz hFlag
    (fun _ => ⟨Q, rfl, hQ⟩) (by simp)
  obtain ⟨Q', hQ'⟩ : ∃ Q', o.Pinv = some Q' := by
    cases hc : o.Pinv with
    | none => rw [hc] at h5; simp at h5
    | some Q' => exact ⟨Q', rfl⟩
  have hq : PermArg n o.Pinv q := hd.pinv
  rw [hQ'] at hq
  have hq' : Buf.Has Q' n (fun i => (q i : Int)) := hq
  have hp' : Buf.Has P n (fun i => (p i : Int)) := h.p
  refine ⟨o, Q', ho, hQ', fun i hi => ⟨⟨_, hp'.rd hi, ?_⟩, ⟨_, hq'.rd hi, ?_⟩⟩⟩
  · rw [hq'.rd (h.perm.p_lt i hi), h.perm.qp i hi]
  · rw [hp'.rd (h.perm.q_lt i hi), h.perm.pq i hi]

example := C36_inverse demoLdl (Q := malloc 3) (Lp := malloc 4) (Parent := malloc 3)
  (Lnz := malloc 3) (Flag := malloc 3) (by decide) (by decide) (by decide) (by decide)
  (by decide)

section

variable {K : Type} [Zero K] [One K] [Add K] [Sub K] [Mul K] [Div K] [Neg K] [Scalar K]

/-- **C10**: if the symbolic analysis of the pattern produced `o`, then for any values `Ax` and any
arithmetic the numeric factorisation succeeds with arrays `Li`, `Lx` that have just the predicted
number `Lp[n]` of cells. Afterwards the arrays hold a strictly lower triangular matrix with sorted
columns whose entries are exactly the predicted ones; the counts in `Lnz` are the predicted ones. -/
theorem C10_numeric {n : Nat} {A : Csc K} {p q : Nat → Nat} {Ap Ai : Buf Int} {Ax : Buf K}
    {P Pinv : Option (Buf Int)} (h : LdlArgs n A p q Ap Ai P) (hAx : Buf.Has Ax A.nnz A.pr)
    {Lp0 Parent0 Lnz0 Flag0 : Buf Int} (hLp : n + 1 ≤ Lp0.length) (hPar : n ≤ Parent0.length)
    (hLnz : n ≤ Lnz0.length) (hFlag : n ≤ Flag0.length)
    (hPinv : P.isSome → ∃ Q, Pinv = some Q ∧ n ≤ Q.length) (hPn : P = none → Pinv = none)
    {o : SymOut} (ho : LDL_symbolic n Ap Ai Lp0 Parent0 Lnz0 Flag0 P Pinv = .ok o)
    {lnz : Nat} (hlnz : rd o.Lp n = .ok (lnz : Int)) {Li Pattern : Buf Int} {Lx D Y : Buf K}
    (hLi : lnz ≤ Li.length) (hLx : lnz ≤ Lx.length) (hD : n ≤ D.length) (hY : n ≤ Y.length)
    (hPat : n ≤ Pattern.length) :
    ∃ st, LDL_numeric n Ap Ai Ax o.Lp o.Parent ⟨o.Lnz, Li, Lx, D, Y, Pattern, o.Flag⟩ P o.Pinv
        = .ok ((n : Int), st) ∧
      (∃ L d, HoldsFactor n o.Lp st.Li st.Lx st.D L d ∧ ∀ r c, r < n → c < n →
        (L.Stored r c ↔ LPattern (fun j k => A.Stored (p j) (p k)) r c)) ∧
      (∀ j, j < n → rd st.Lnz j = rd o.Lnz j) := by
  have hs := LDL_symbolic_spec h hLp hPar hLnz hFlag hPinv hPn
  obtain ⟨hd, l1, l2, l3, l4, _⟩ := hs.elim ho
  have hlp : Buf.Has o.Lp (n + 1) (fun j => (lpOf (permPat A p q) n j : Int)) := hd.lp
  have hz : lnz = lpOf (permPat A p q) n n := by
    rw [hlp.rd (by omega)] at hlnz
    simpa using hlnz.symm
  obtain ⟨⟨r, st⟩, h1, h2, h3, s, h4, h5⟩ := LDL_numeric_spec h hAx hd.pinv hlp hd.parent
    (st := ⟨o.Lnz, Li, Lx, D, Y, Pattern, o.Flag⟩)
    ⟨by simp only; omega, by simp only; omega, by simp only; omega, by simp only; omega,
      by simp only; omega, by simp only; omega, by simp only; omega⟩
  simp only at h2 h3 h5
  subst h2
  refine ⟨st, h1, ⟨facCsc n s, s.D, h5.factor hlp, ?_⟩, ?_⟩
  · intro r c hr hc
    rw [h5.stored hc, fill_iff h.wf h.an h.am h.perm hr]
    exact ⟨fun h => h.2, fun h => ⟨hr, h⟩⟩
  · intro j hj
    rw [h5.lnz.rd hj, hd.lnz.rd hj]
    have := congrArg List.length (h5.rows j)
    simp only [List.not_mem_nil, if_false, List.append_nil, List.length_map] at this
    rw [this]

/-- What the symbolic analysis of the demo matrix returns. -/
def demoSym : SymOut :=
  { Lp := [some 0, some 2, some 3, some 3], Parent := [some 1, some 2, some (-1)],
    Lnz := [some 2, some 1, some 0], Flag := [some 2, some 2, some 2],
    Pinv := some [some 1, some 0, some 2] }

theorem demoSym_eq : LDL_symbolic 3 demoP.toSmat.jc demoP.toSmat.ir (malloc 4) (malloc 3)
    (malloc 3) (malloc 3) (some (Buf.ofFn 3 (fun i => (demoPerm3 i : Int))))
    (some (malloc 3)) = .ok demoSym := by decide +kernel

example := C10_numeric demoLdl demoP.toSmat_is.pr (o := demoSym) (Pinv := some (malloc 3))
  (Lp0 := malloc 4) (Parent0 := malloc 3) (Lnz0 := malloc 3) (Flag0 := malloc 3)
  (by decide) (by decide) (by decide) (by decide) (fun _ => ⟨_, rfl, by decide⟩) (by simp)
  demoSym_eq (lnz := 3) (by decide +kernel) (Li := malloc 3) (Lx := malloc 3)
  (D := malloc 3) (Y := malloc 3) (Pattern := malloc 3) (by decide) (by decide)
  (by decide) (by decide) (by decide)

theorem HoldsFactor.lfac {n : Nat} {Lp Li : Buf Int} {Lx D : Buf K} {L : Csc K} {d : Nat → K}
    (h : HoldsFactor n Lp Li Lx D L d) : LFac n L.col L.jc Lp Li Lx where
  lp := h.lp
  posS := by
    intro j hj
    rw [Csc.length_col]
    have := h.wf.mono j (by rw [h.ln]; exact hj)
    omega
  cells := by
    intro j hj t e he
    have ht := (List.getElem?_eq_some_iff.mp he).1
    rw [Csc.length_col] at ht
    rw [Csc.col_get L (by omega)] at he
    cases he
    have := h.wf.jc_mono (c := j + 1) (d := L.n) (by rw [h.ln]; omega) le_rfl
    have hlt : L.jc j + t < L.nnz := by unfold Csc.nnz; omega
    exact ⟨h.li _ hlt, h.lx _ hlt⟩
  rows := by
    intro j hj e he
    obtain ⟨t, ht⟩ := List.getElem?_of_mem he
    have htl := (List.getElem?_eq_some_iff.mp ht).1
    rw [Csc.length_col] at htl
    rw [Csc.col_get L (by omega)] at ht
    cases ht
    refine ⟨h.lower j hj _ ⟨L.jc j + t, by omega, by omega, rfl⟩, ?_⟩
    have := h.wf.jc_mono (c := j + 1) (d := L.n) (by rw [h.ln]; omega) le_rfl
    have h2 := h.wf.ir_lt (L.jc j + t) (by omega)
    rwa [h.lm] at h2

end

section

variable {K : Type} [Field K] [LinearOrder K] [IsStrictOrderedRing K] [Scalar K] [LawfulScalar K]

/-- The part of C11 and C12 about the stored factor, for every caller of `LDL_numeric`. -/
theorem factor_exact {n : Nat} {A : Csc K} {p q : Nat → Nat} (wf : A.WF) (an : A.n = n)
    (am : A.m = n) (perm : PermPair n p q) {s : FSt K} {raw : Nat → K}
    (hr : RowsInv (permCol A p q) n s raw) :
    (∀ r, r < n → ∀ i, i ≤ r → ldltEntry n (facCsc n s) s.D i r
        = A.entry (p i) (p r) + if i = r then s.D r - raw r else 0) ∧
      (∀ r, r < n → s.D r = if |raw r| ≤ 1 / 10 ^ 14 then
        (if raw r ≤ 0 then -(1 / 10 ^ 7) else 1 / 10 ^ 7) else raw r) := by
  refine ⟨?_, ?_⟩
  · intro r hr' i hi
    have h1 := hr.entry hi hr'
    rw [colSum_permCol wf an am perm (by omega) hr'] at h1
    rw [← h1]
    unfold ldltEntry ldlEntry
    refine sum_congr rfl ?_
    intro t ht
    rw [mem_range] at ht
    rw [facCsc_unit ht, facCsc_unit ht]
  · intro r hr'
    rw [hr.D r hr', regPivot_eq]

/-- **C11**: in exact arithmetic the computed `L`, `D` satisfy `L D Lᵀ = P A Pᵀ + E` on the upper
triangle (the part of the matrix that is read), where `E` is diagonal: with `raw r` the pivot
found, `E` is zero where `|raw r| > 1e-14` and otherwise replaces the pivot by `±1e-7`. -/
theorem C11_factorisation {n : Nat} {A : Csc K} {p q : Nat → Nat} {Ap Ai : Buf Int} {Ax : Buf K}
    {P Pinv : Option (Buf Int)} (h : LdlArgs n A p q Ap Ai P) (hAx : Buf.Has Ax A.nnz A.pr)
    {Lp0 Parent0 Lnz0 Flag0 : Buf Int} (hLp : n + 1 ≤ Lp0.length) (hPar : n ≤ Parent0.length)
    (hLnz : n ≤ Lnz0.length) (hFlag : n ≤ Flag0.length)
    (hPinv : P.isSome → ∃ Q, Pinv = some Q ∧ n ≤ Q.length) (hPn : P = none → Pinv = none)
    {o : SymOut} (ho : LDL_symbolic n Ap Ai Lp0 Parent0 Lnz0 Flag0 P Pinv = .ok o)
    {lnz : Nat} (hlnz : rd o.Lp n = .ok (lnz : Int)) {Li Pattern : Buf Int} {Lx D Y : Buf K}
    (hLi : lnz ≤ Li.length) (hLx : lnz ≤ Lx.length) (hD : n ≤ D.length) (hY : n ≤ Y.length)
    (hPat : n ≤ Pattern.length) :
    ∃ st L d, LDL_numeric n Ap Ai Ax o.Lp o.Parent ⟨o.Lnz, Li, Lx, D, Y, Pattern, o.Flag⟩ P o.Pinv
        = .ok ((n : Int), st) ∧ HoldsFactor n o.Lp st.Li st.Lx st.D L d ∧
      ∃ raw : Nat → K,
        (∀ r, r < n → ∀ i, i ≤ r → ldltEntry n L d i r
          = A.entry (p i) (p r) + if i = r then d r - raw r else 0) ∧
        (∀ r, r < n → d r = if |raw r| ≤ 1 / 10 ^ 14 then
          (if raw r ≤ 0 then -(1 / 10 ^ 7) else 1 / 10 ^ 7) else raw r) ∧
        (A.Symm → ∀ i r, i < n → r < n → ldltEntry n L d i r
          = A.entry (p i) (p r) + if i = r then d r - raw r else 0) := by
  have hs := LDL_symbolic_spec h hLp hPar hLnz hFlag hPinv hPn
  obtain ⟨hd, l1, l2, l3, l4, _⟩ := hs.elim ho
  have hlp : Buf.Has o.Lp (n + 1) (fun j => (lpOf (permPat A p q) n j : Int)) := hd.lp
  have hz : lnz = lpOf (permPat A p q) n n := by
    rw [hlp.rd (by omega)] at hlnz
    simpa using hlnz.symm
  obtain ⟨⟨r, st⟩, h1, h2, h3, s, h4, h5⟩ := LDL_numeric_spec h hAx hd.pinv hlp hd.parent
    (st := ⟨o.Lnz, Li, Lx, D, Y, Pattern, o.Flag⟩)
    ⟨by simp only; omega, by simp only; omega, by simp only; omega, by simp only; omega,
      by simp only; omega, by simp only; omega, by simp only; omega⟩
  simp only at h2 h3 h5
  subst h2
  obtain ⟨raw, hr⟩ := h4.inv
  obtain ⟨g1, g2⟩ := factor_exact h.wf h.an h.am h.perm hr
  refine ⟨st, facCsc n s, s.D, h1, h5.factor hlp, raw, g1, g2, ?_⟩
  intro hsym i r hi hr'
  rcases Nat.le_total i r with hir | hir
  · exact g1 r hr' i hir
  · have e1 : ldltEntry n (facCsc n s) s.D i r = ldltEntry n (facCsc n s) s.D r i := by
      unfold ldltEntry
      refine sum_congr rfl ?_
      intro t _
      ring
    have hAn := h.an
    rw [e1, g1 i hi r hir, hsym _ _ (by have := h.perm.p_lt r hr'; omega)
      (by have := h.perm.p_lt i hi; omega)]
    by_cases hc : i = r
    · subst hc; rfl
    · rw [if_neg hc, if_neg (fun e => hc e.symm)]

example := C11_factorisation demoLdl demoP.toSmat_is.pr (o := demoSym) (Pinv := some (malloc 3))
  (Lp0 := malloc 4) (Parent0 := malloc 3) (Lnz0 := malloc 3) (Flag0 := malloc 3)
  (by decide) (by decide) (by decide) (by decide) (fun _ => ⟨_, rfl, by decide⟩) (by simp)
  demoSym_eq (lnz := 3) (by decide +kernel) (Li := malloc 3) (Lx := malloc 3)
  (D := malloc 3) (Y := malloc 3) (Pattern := malloc 3) (by decide) (by decide)
  (by decide) (by decide) (by decide)

/-- **C12**: every pivot stored by the factorisation has magnitude above `1e-14`, whatever the
matrix. -/
theorem C12_pivots {n : Nat} {A : Csc K} {p q : Nat → Nat} {Ap Ai : Buf Int} {Ax : Buf K}
    {P Pinv : Option (Buf Int)} (h : LdlArgs n A p q Ap Ai P) (hAx : Buf.Has Ax A.nnz A.pr)
    {Lp0 Parent0 Lnz0 Flag0 : Buf Int} (hLp : n + 1 ≤ Lp0.length) (hPar : n ≤ Parent0.length)
    (hLnz : n ≤ Lnz0.length) (hFlag : n ≤ Flag0.length)
    (hPinv : P.isSome → ∃ Q, Pinv = some Q ∧ n ≤ Q.length) (hPn : P = none → Pinv = none)
    {o : SymOut} (ho : LDL_symbolic n Ap Ai Lp0 Parent0 Lnz0 Flag0 P Pinv = .ok o)
    {lnz : Nat} (hlnz : rd o.Lp n = .ok (lnz : Int)) {Li Pattern : Buf Int} {Lx D Y : Buf K}
    (hLi : lnz ≤ Li.length) (hLx : lnz ≤ Lx.length) (hD : n ≤ D.length) (hY : n ≤ Y.length)
    (hPat : n ≤ Pattern.length) :
    ∃ st, LDL_numeric n Ap Ai Ax o.Lp o.Parent ⟨o.Lnz, Li, Lx, D, Y, Pattern, o.Flag⟩ P o.Pinv
        = .ok ((n : Int), st) ∧
      ∀ r, r < n → ∃ d, rd st.D r = .ok d ∧ 1 / 10 ^ 14 < |d| ∧ d ≠ 0 := by
  obtain ⟨st, L, d, h1, h2, raw, _, h4, _⟩ := C11_factorisation h hAx hLp hPar hLnz hFlag hPinv hPn
    ho hlnz hLi hLx hD hY hPat
  refine ⟨st, h1, fun r hr => ⟨d r, h2.D.rd hr, ?_⟩⟩
  rw [h4 r hr, ← regPivot_eq]
  exact ⟨regPivot_abs _, regPivot_ne_zero _⟩

example := C12_pivots demoLdl demoP.toSmat_is.pr (o := demoSym) (Pinv := some (malloc 3))
  (Lp0 := malloc 4) (Parent0 := malloc 3) (Lnz0 := malloc 3) (Flag0 := malloc 3)
  (by decide) (by decide) (by decide) (by decide) (fun _ => ⟨_, rfl, by decide⟩) (by simp)
  demoSym_eq (lnz := 3) (by decide +kernel) (Li := malloc 3) (Lx := malloc 3)
  (D := malloc 3) (Y := malloc 3) (Pattern := malloc 3) (by decide) (by decide)
  (by decide) (by decide) (by decide)

/-- **C11**, no spurious regularisation: if the permuted matrix has an exact factorisation
`l diag(e) lᵀ` with unit lower triangular `l` and all pivots above the threshold, then the code
computes exactly this factorisation. -/
theorem C11_exact_when_pivots_large {n : Nat} {A : Csc K} {p q : Nat → Nat} {Ap Ai : Buf Int}
    {Ax : Buf K}
    {P Pinv : Option (Buf Int)} (h : LdlArgs n A p q Ap Ai P) (hAx : Buf.Has Ax A.nnz A.pr)
    {Lp0 Parent0 Lnz0 Flag0 : Buf Int} (hLp : n + 1 ≤ Lp0.length) (hPar : n ≤ Parent0.length)
    (hLnz : n ≤ Lnz0.length) (hFlag : n ≤ Flag0.length)
    (hPinv : P.isSome → ∃ Q, Pinv = some Q ∧ n ≤ Q.length) (hPn : P = none → Pinv = none)
    {o : SymOut} (ho : LDL_symbolic n Ap Ai Lp0 Parent0 Lnz0 Flag0 P Pinv = .ok o)
    {lnz : Nat} (hlnz : rd o.Lp n = .ok (lnz : Int)) {Li Pattern : Buf Int} {Lx D Y : Buf K}
    (hLi : lnz ≤ Li.length) (hLx : lnz ≤ Lx.length) (hD : n ≤ D.length) (hY : n ≤ Y.length)
    (hPat : n ≤ Pattern.length)
    {l : Nat → Nat → K} {e : Nat → K} (l1 : ∀ i, l i i = 1) (l0 : ∀ i j, i < j → l i j = 0)
    (he : ∀ r, r < n → 1 / 10 ^ 14 < |e r|)
    (hl : ∀ r, r < n → ∀ i, i ≤ r →
      ∑ t ∈ range n, l i t * e t * l r t = A.entry (p i) (p r)) :
    ∃ st L, LDL_numeric n Ap Ai Ax o.Lp o.Parent ⟨o.Lnz, Li, Lx, D, Y, Pattern, o.Flag⟩ P o.Pinv
        = .ok ((n : Int), st) ∧ HoldsFactor n o.Lp st.Li st.Lx st.D L e ∧
      (∀ r i, r < n → i < n → L.unitEntry r i = l r i) ∧ NoReg n A p L e := by
  have hs := LDL_symbolic_spec h hLp hPar hLnz hFlag hPinv hPn
  obtain ⟨hd, l1', l2, l3, l4, _⟩ := hs.elim ho
  have hlp : Buf.Has o.Lp (n + 1) (fun j => (lpOf (permPat A p q) n j : Int)) := hd.lp
  have hz : lnz = lpOf (permPat A p q) n n := by
    rw [hlp.rd (by omega)] at hlnz
    simpa using hlnz.symm
  obtain ⟨⟨r, st⟩, h1, h2, h3, s, h4, h5⟩ := LDL_numeric_spec h hAx hd.pinv hlp hd.parent
    (st := ⟨o.Lnz, Li, Lx, D, Y, Pattern, o.Flag⟩)
    ⟨by simp only; omega, by simp only; omega, by simp only; omega, by simp only; omega,
      by simp only; omega, by simp only; omega, by simp only; omega⟩
  simp only at h2 h3 h5
  subst h2
  obtain ⟨raw, hr⟩ := h4.inv
  have key := hr.unique l1 he (by
    intro r hr' i hi
    rw [colSum_permCol h.wf h.an h.am h.perm (by omega) hr', ← hl r hr' i hi]
    refine sum_subset ?_ ?_
    · intro t ht
      rw [mem_range] at ht ⊢
      omega
    · intro t _ ht
      rw [mem_range, not_lt] at ht
      rw [l0 i t (by omega)]
      ring)
  have hu : ∀ r i, r < n → i < n → (facCsc n s).unitEntry r i = l r i := by
    intro r i hr' hi
    rw [facCsc_unit hi]
    rcases Nat.lt_trichotomy i r with hlt | rfl | hgt
    · exact (key r hr').2.2 i hlt
    · rw [l1 i]; simp [lent]
    · rw [l0 r i hgt, lent_zero hr.rows hgt]
  refine ⟨st, facCsc n s, h1, ?_, hu, ?_⟩
  · have hf := h5.factor hlp
    exact ⟨hf.wf, hf.lm, hf.ln, hf.sorted, hf.lower, hf.lp, hf.li, hf.lx,
      hf.D.congr (fun i hi => (key i hi).1)⟩
  · intro r hr'
    rw [← hl r hr' r le_rfl]
    unfold ldltEntry
    refine sum_congr rfl ?_
    intro t ht
    rw [mem_range] at ht
    rw [hu r t hr' ht]

/-- The demo matrix has such a factorisation, with pivots 2, 9/2 and 31/9. -/
example := C11_exact_when_pivots_large demoLdl demoP.toSmat_is.pr (o := demoSym) (Pinv := some (malloc 3))
  (Lp0 := malloc 4) (Parent0 := malloc 3) (Lnz0 := malloc 3) (Flag0 := malloc 3)
  (by decide) (by decide) (by decide) (by decide) (fun _ => ⟨_, rfl, by decide⟩) (by simp)
  demoSym_eq (lnz := 3) (by decide +kernel) (Li := malloc 3) (Lx := malloc 3)
  (D := malloc 3) (Y := malloc 3) (Pattern := malloc 3) (by decide) (by decide)
  (by decide) (by decide) (by decide)
  (l := fun i j => if i = j then 1 else if j = 0 ∧ i < 3 ∧ 0 < i then 1 / 2 else
    if i = 2 ∧ j = 1 then -1 / 9 else 0)
  (e := fun i => [2, 9 / 2, 31 / 9].getD i 0)
  (by simp) (by intro i j h; rw [if_neg (by omega), if_neg (by omega), if_neg (by omega)])
  (by intro r hr; interval_cases r <;> decide +kernel)
  (by intro r hr i hi; interval_cases r <;> interval_cases i <;> decide +kernel)

/-- **C13**, for any stored factor with nonzero diagonal and any permutation: permutation, forward
solve, diagonal solve, backward solve and inverse permutation together solve
`(Pᵀ L D Lᵀ P) x = b` exactly, overwriting `b` by `x`. -/
theorem C13_solve_factor {n : Nat} {p q : Nat → Nat} (hp : PermPair n p q) {Lp Li : Buf Int}
    {Lx D : Buf K} {L : Csc K} {d : Nat → K} (h : HoldsFactor n Lp Li Lx D L d)
    (hd : ∀ i, i < n → d i ≠ 0) {X B : Buf K} {P : Buf Int} {b : Nat → K} (hX : n ≤ X.length)
    (hB : Buf.Has B n b) (hP : Buf.Has P n (fun i => (p i : Int))) :
    ∃ X1 X2 X3 X4 B' x, LDL_perm n X B P = .ok X1 ∧ LDL_lsolve n X1 Lp Li Lx = .ok X2 ∧
      LDL_dsolve n X2 D = .ok X3 ∧ LDL_ltsolve n X3 Lp Li Lx = .ok X4 ∧
      LDL_permt n B X4 P = .ok B' ∧ Buf.Has B' n x ∧
      ∀ r, r < n → ∑ c ∈ range n, ldltEntry n L d (q r) (q c) * x c = b r := by
  set s : FSt K := ⟨L.col, d, fun _ => 0⟩ with hs
  obtain ⟨X1, e1, l1, h1, _⟩ := LDL_perm_spec hp.p_lt hX hP hB
  obtain ⟨X2, e2, l2, h2⟩ := LDL_lsolve_spec h.lfac h1
  obtain ⟨X3, e3, l3, h3⟩ := LDL_dsolve_spec h2 h.D
  obtain ⟨X4, e4, l4, h4⟩ := LDL_ltsolve_spec h.lfac h3
  obtain ⟨B', e5, l5, h5, _⟩ := LDL_permt_spec hp hB.le_length hP h4
  refine ⟨X1, X2, X3, X4, B', _, e1, e2, e3, e4, e5, h5, ?_⟩
  intro r hr
  have h6 := solve_ldl (s := s) (n := n) h.lfac.rows hd (fun i => b (p i)) (hp.q_lt r hr)
  rw [hp.pq r hr] at h6
  rw [← h6, ← sum_perm hp]
  refine sum_congr rfl ?_
  intro c hc
  rw [mem_range] at hc
  rw [hp.qp c hc]
  congr 1
  unfold ldltEntry ldlEntry
  refine sum_congr rfl ?_
  intro t ht
  rw [mem_range] at ht
  have e : ∀ i, L.unitEntry i t = lent s i t := by
    intro i
    unfold Csc.unitEntry lent
    rw [Csc.entry_eq_colSum]
  rw [e, e]

/-- A factor with two entries below the diagonal. -/
def demoL : Csc ℚ := .lit 3 3 [0, 1, 2, 2] [2, 2] [3, -1]

theorem demoL_holds : HoldsFactor 3 demoL.toSmat.jc demoL.toSmat.ir demoL.toSmat.pr
    [some 2, some (-3), some 5] demoL (fun i => [2, -3, 5].getD i 0) where
  wf := {
    jc0 := rfl
    mono := by intro c hc; simp only [demoL, Csc.lit] at hc ⊢; interval_cases c <;> decide
    ir_lt := by
      intro k hk
      simp only [demoL, Csc.lit, List.getD] at hk ⊢
      norm_num at hk
      interval_cases k <;> decide }
  lm := rfl
  ln := rfl
  sorted := by
    intro c hc k h1 h2
    simp only [demoL, Csc.lit] at hc h1 h2 ⊢
    interval_cases c <;> simp at h1 h2 <;> omega
  lower := by
    rintro c hc r ⟨k, h1, h2, rfl⟩
    simp only [demoL, Csc.lit] at h1 h2 ⊢
    interval_cases c <;> simp at h1 h2
    · have : k = 0 := by omega
      subst this; decide
    · have : k = 1 := by omega
      subst this; decide
    · omega
  lp := demoL.toSmat_is.jc
  li := demoL.toSmat_is.ir
  lx := demoL.toSmat_is.pr
  D := by intro i hi; interval_cases i <;> rfl

example := C13_solve_factor demoPerm3_pair demoL_holds
  (by intro i hi; interval_cases i <;> decide +kernel) (X := malloc 3)
  (B := Buf.ofFn 3 (fun i => (i : ℚ))) (by decide) (Buf.has_ofFn _ _) (Buf.has_ofFn _ _)

/-- **C13** and **C11** together for the first solve of setup: the whole routine
`ldlinitialsolve` (allocation, symbolic analysis, numeric factorisation, solves) turns the
right-hand side `b` into a vector `x` with `(K + E) x = b`, for every symmetric matrix `K` and
every permutation. `E = diag(e)` is zero in position `r` whenever the pivot met there was above
`1e-14`, and in any case it only replaced a pivot `piv r` of magnitude at most `1e-14` by `±1e-7`. -/
theorem C13_initial_solve {N : Nat} {A : Csc K} {p q : Nat → Nat} {k : Kkt K}
    (wf : A.WF) (an : A.n = N) (am : A.m = N) (sym : A.Symm) (perm : PermPair N p q)
    (mat : k.kktmatrix.Is A) (hP : Buf.Has k.P N (fun i => (p i : Int)))
    (hPinv : N ≤ k.Pinv.length) {b : Nat → K} (hb : Buf.Has k.b N b) {delta : Buf K}
    (hd : N ≤ delta.length) :
    ∃ k' delta' L, ∃ x e piv d : Nat → K, ldlinitialsolve k delta = .ok (1, k', delta') ∧ Buf.Has k'.b N x ∧
      HoldsFactor N k'.Lp k'.Li k'.Lx k'.D L d ∧
      (∀ r, r < N → A.mulVec x r + e r * x r = b r) ∧
      (∀ r, r < N → e (p r) = d r - piv r) ∧
      (∀ r, r < N → d r = if |piv r| ≤ 1 / 10 ^ 14 then
        (if piv r ≤ 0 then -(1 / 10 ^ 7) else 1 / 10 ^ 7) else piv r) ∧
      (NoReg N A p L d → ∀ r, r < N → e r = 0) := by
  obtain ⟨⟨f, k', d'⟩, h1, h2, h3, ⟨s, h4, h5⟩, _⟩ :=
    ldlinitialsolve_spec wf an am perm mat hP hPinv hb hd
  simp only at h2 h3 h4 h5
  subst h2
  obtain ⟨raw, hr⟩ := h4.1.inv
  obtain ⟨g1, g2⟩ := factor_exact wf an am perm hr
  refine ⟨k', d', facCsc N s, _, regDiag s raw q, raw, s.D, h1, h5, h4.2.factor h3.lp, ?_, ?_, g2, ?_⟩
  · intro r hr'
    have hsym : ∀ r c, r < N → c < N → A.entry r c = A.entry c r := by
      intro r c h1 h2
      exact sym r c (by omega) (by omega)
    have := hr.solve wf an am perm hsym b hr'
    unfold Csc.mulVec
    rw [an]
    exact this
  · intro r hr'
    unfold regDiag
    rw [perm.qp r hr']
  · intro hreg r hr'
    have h7 := hreg (q r) (perm.q_lt r hr')
    rw [g1 (q r) (perm.q_lt r hr') (q r) le_rfl, if_pos rfl] at h7
    unfold regDiag
    linarith

/-- A structure as `kkt_initialize` leaves it, for the demo matrix `P` and a permutation. -/
def demoKkt (p : Nat → Nat) : Kkt ℚ :=
  { kktmatrix := demoP.toSmat, P := Buf.ofFn 3 (fun i => (p i : Int)), Pinv := malloc 3
    b := Buf.ofFn 3 (fun i => (i + 1 : ℚ)), UPattern := malloc 3, Parent := [], Flag := []
    Lnz := [], Li := [], Lp := [], Lti := [], Ltp := [], Pattern := [], Y := [], Lx := []
    D := [] }

example := C13_initial_solve (k := demoKkt demoPerm3) demoP_wf rfl rfl demoP_symm demoPerm3_pair
  demoP.toSmat_is (Buf.has_ofFn _ _) (by decide) (b := fun i => (i + 1 : ℚ)) (Buf.has_ofFn _ _)
  (delta := malloc 3) (by decide)

/-- **C14**: two runs of the first solve on the same symmetric matrix and right-hand side, with
different permutations, give the same solution if neither factorisation changed a pivot. -/
theorem C14_ordering {N : Nat} {A : Csc K} {p₁ q₁ p₂ q₂ : Nat → Nat} {k₁ k₂ : Kkt K}
    (wf : A.WF) (an : A.n = N) (am : A.m = N) (sym : A.Symm)
    (perm₁ : PermPair N p₁ q₁) (perm₂ : PermPair N p₂ q₂)
    (mat₁ : k₁.kktmatrix.Is A) (mat₂ : k₂.kktmatrix.Is A)
    (hP₁ : Buf.Has k₁.P N (fun i => (p₁ i : Int))) (hP₂ : Buf.Has k₂.P N (fun i => (p₂ i : Int)))
    (hQ₁ : N ≤ k₁.Pinv.length) (hQ₂ : N ≤ k₂.Pinv.length) {b : Nat → K}
    (hb₁ : Buf.Has k₁.b N b) (hb₂ : Buf.Has k₂.b N b) {delta₁ delta₂ : Buf K}
    (hd₁ : N ≤ delta₁.length) (hd₂ : N ≤ delta₂.length) :
    ∃ k₁' k₂' delta₁' delta₂' L₁ d₁ L₂ d₂,
      ldlinitialsolve k₁ delta₁ = .ok (1, k₁', delta₁') ∧
      ldlinitialsolve k₂ delta₂ = .ok (1, k₂', delta₂') ∧
      HoldsFactor N k₁'.Lp k₁'.Li k₁'.Lx k₁'.D L₁ d₁ ∧
      HoldsFactor N k₂'.Lp k₂'.Li k₂'.Lx k₂'.D L₂ d₂ ∧
      (NoReg N A p₁ L₁ d₁ → NoReg N A p₂ L₂ d₂ →
        ∀ i, i < N → rd k₁'.b i = rd k₂'.b i) := by
  have hsym : ∀ r c, r < N → c < N → A.entry r c = A.entry c r := by
    intro r c h1 h2
    exact sym r c (by omega) (by omega)
  obtain ⟨⟨f, k', d'⟩, h1, h2, h3, ⟨s, h4, h5⟩, _⟩ :=
    ldlinitialsolve_spec wf an am perm₁ mat₁ hP₁ hQ₁ hb₁ hd₁
  obtain ⟨⟨f', k'', d''⟩, h1', h2', h3', ⟨s', h4', h5'⟩, _⟩ :=
    ldlinitialsolve_spec wf an am perm₂ mat₂ hP₂ hQ₂ hb₂ hd₂
  simp only at h2 h3 h4 h5 h2' h3' h4' h5'
  subst h2 h2'
  obtain ⟨raw, hr⟩ := h4.1.inv
  obtain ⟨raw', hr'⟩ := h4'.1.inv
  obtain ⟨g1, _⟩ := factor_exact wf an am perm₁ hr
  obtain ⟨g1', _⟩ := factor_exact wf an am perm₂ hr'
  refine ⟨k', k'', d', d'', facCsc N s, s.D, facCsc N s', s'.D, h1, h1', h4.2.factor h3.lp,
    h4'.2.factor h3'.lp, ?_⟩
  intro n1 n2 i hi
  have z1 : ∀ r, r < N → regDiag s raw q₁ r = 0 := by
    intro r hr2
    have h7 := n1 (q₁ r) (perm₁.q_lt r hr2)
    rw [g1 (q₁ r) (perm₁.q_lt r hr2) (q₁ r) le_rfl, if_pos rfl] at h7
    unfold regDiag
    linarith
  have z2 : ∀ r, r < N → regDiag s' raw' q₂ r = 0 := by
    intro r hr2
    have h7 := n2 (q₂ r) (perm₂.q_lt r hr2)
    rw [g1' (q₂ r) (perm₂.q_lt r hr2) (q₂ r) le_rfl, if_pos rfl] at h7
    unfold regDiag
    linarith
  have e := hr.injective wf an am perm₁ hsym z1
    (v := fun c => solveF N s p₁ q₁ b c - solveF N s' p₂ q₂ b c) (by
      intro r hr2
      have a1 := hr.solve wf an am perm₁ hsym b hr2
      have a2 := hr'.solve wf an am perm₂ hsym b hr2
      rw [z1 r hr2] at a1
      rw [z2 r hr2] at a2
      simp only [mul_sub, sum_sub_distrib]
      linarith) i hi
  rw [h5.rd hi, h5'.rd hi]
  have : solveF N s p₁ q₁ b i = solveF N s' p₂ q₂ b i := by linarith [e]
  rw [this]

example := C14_ordering (k₁ := demoKkt demoPerm3) (k₂ := demoKkt (fun i => i)) demoP_wf rfl rfl
  demoP_symm demoPerm3_pair (idPair 3) demoP.toSmat_is demoP.toSmat_is (Buf.has_ofFn _ _)
  (Buf.has_ofFn _ _) (by decide) (by decide) (b := fun i => (i + 1 : ℚ)) (Buf.has_ofFn _ _)
  (Buf.has_ofFn _ _) (delta₁ := malloc 3) (delta₂ := malloc 3) (by decide) (by decide)

/-- In both runs no pivot is changed and the solutions agree. -/
example : (do
    let (_, k₁, _) ← ldlinitialsolve (demoKkt demoPerm3) (malloc 3)
    let (_, k₂, _) ← ldlinitialsolve (demoKkt (fun i => i)) (malloc 3)
    pure (k₁.D, k₂.D, k₁.b, k₂.b)) =
    .ok ([some 2, some (9 / 2), some (31 / 9)], [some 5, some (9 / 5), some (31 / 9)],
      [some (2 / 31), some (21 / 31), some (18 / 31)],
      [some (2 / 31), some (21 / 31), some (18 / 31)]) := by decide +kernel

end

end Verif
