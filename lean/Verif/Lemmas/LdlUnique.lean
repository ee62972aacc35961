import Verif.Lemmas.LdlSolve

/-! # Uniqueness of the factorisation -/

set_option linter.unusedSectionVars false

namespace Verif

open Finset

variable {K : Type} [Field K] [LinearOrder K] [IsStrictOrderedRing K] [Scalar K] [LawfulScalar K]

/-- If the matrix has a factorisation with pivots above the threshold, the code finds it. -/
theorem RowsInv.unique {c : Nat → List (Nat × K)} {n : Nat} {s : FSt K} {raw : Nat → K}
    (h : RowsInv c n s raw) {l : Nat → Nat → K} {d : Nat → K} (l1 : ∀ i, l i i = 1)
    (hd : ∀ r, r < n → (1 : K) / 10 ^ 14 < |d r|)
    (hl : ∀ r, r < n → ∀ i, i ≤ r →
      ∑ t ∈ range (i + 1), l i t * d t * l r t = colSum (c r) i) :
    ∀ r, r < n → s.D r = d r ∧ raw r = d r ∧ ∀ i, i < r → lent s r i = l r i := by
  intro r
  induction r using Nat.strong_induction_on with
  | _ r ih =>
    intro hr
    have hrow : ∀ i, i < r → lent s r i = l r i := by
      intro i
      induction i using Nat.strong_induction_on with
      | _ i ihi =>
        intro hi
        have e1 := h.ldl r hr i hi.le
        rw [if_neg (by omega), add_zero, ← hl r hr i hi.le, sum_range_succ, sum_range_succ] at e1
        have e2 : ∑ t ∈ range i, lent s i t * s.D t * lent s r t
            = ∑ t ∈ range i, l i t * d t * l r t := by
          refine sum_congr rfl ?_
          intro t ht
          rw [mem_range] at ht
          rw [(ih i hi (by omega)).2.2 t ht, (ih t (by omega) (by omega)).1,
            ihi t ht (by omega)]
        rw [e2] at e1
        have e3 := add_left_cancel e1
        have e4 : lent s i i = 1 := by simp [lent]
        rw [e4, l1 i, (ih i hi (by omega)).1, one_mul] at e3
        have hne : d i ≠ 0 := by
          intro h0
          have := hd i (by omega)
          rw [h0, abs_zero] at this
          have h2 : (0 : K) < 1 / 10 ^ 14 := by positivity
          linarith
        exact mul_left_cancel₀ hne e3
    have hraw : raw r = d r := by
      have e1 := h.ldl r hr r le_rfl
      rw [if_pos rfl, ← hl r hr r le_rfl, sum_range_succ, sum_range_succ] at e1
      have e2 : ∑ t ∈ range r, lent s r t * s.D t * lent s r t
          = ∑ t ∈ range r, l r t * d t * l r t := by
        refine sum_congr rfl ?_
        intro t ht
        rw [mem_range] at ht
        rw [hrow t ht, (ih t ht (by omega)).1]
      have e4 : lent s r r = 1 := by simp [lent]
      rw [e2, e4, l1 r, h.D r hr] at e1
      linarith
    refine ⟨?_, hraw, hrow⟩
    rw [h.D r hr, hraw, regPivot_of_abs (hd r hr)]

end Verif
