import Verif.Lemmas.Vec
import Verif.Model.Solver
import Mathlib.Tactic.Linarith
import Mathlib.Tactic.FieldSimp
import Mathlib.Tactic.Positivity

/-! # Ratio test, step lengths, minimum/maximum, in exact arithmetic -/

set_option linter.unusedSectionVars false

namespace Verif

/-- The accepted step: `MIN(0.99*alpha, 1.0)`. -/
def acceptF {K : Type} [Mul K] [Scalar K] (a : K) : K :=
  fmin (Scalar.dec 99 2 * a) (Scalar.dec 1 0)

variable {K : Type} [Field K] [LinearOrder K] [IsStrictOrderedRing K] [Scalar K] [LawfulScalar K]

theorem ltb_eq (a b : K) : Scalar.ltb a b = decide (a < b) := by
  have := LawfulScalar.ltb_iff a b
  by_cases h : a < b
  · simp [h, this.mpr h]
  · rw [decide_eq_false h]
    exact Bool.eq_false_iff.mpr (fun h' => h (this.mp h'))

theorem leb_eq (a b : K) : Scalar.leb a b = decide (a ≤ b) := by
  have := LawfulScalar.leb_iff a b
  by_cases h : a ≤ b
  · simp [h, this.mpr h]
  · rw [decide_eq_false h]
    exact Bool.eq_false_iff.mpr (fun h' => h (this.mp h'))

theorem dec_zero (m : Int) : (Scalar.dec m 0 : K) = (m : K) := by
  rw [LawfulScalar.dec_eq]; simp

@[simp] theorem dec_one_zero : (Scalar.dec 1 0 : K) = 1 := by rw [dec_zero]; simp

theorem fmin_eq (a b : K) : fmin a b = min a b := by
  unfold fmin
  rw [ltb_eq]
  by_cases h : a < b
  · simp [h, min_eq_left h.le]
  · simp [h, min_eq_right (not_lt.mp h)]

theorem fmax_eq (a b : K) : fmax a b = max a b := by
  unfold fmax
  rw [ltb_eq]
  by_cases h : b < a
  · simp [h, max_eq_left h.le]
  · simp [h, max_eq_right (not_lt.mp h)]

/-- Invariant of the ratio test. -/
theorem ratio_inv (m : Nat) (s d : Nat → K) (hs : ∀ i, i < m → 0 < s i) :
    let r := foldI 0 m ((Scalar.dec 10000000000 0 : K), (0 : Int)) (ratioStep s d)
    0 < r.1 ∧ (r.2 = 0 → r.1 = 10000000000) ∧
      ∀ i, i < m → d i < 0 → r.1 ≤ -(s i / d i) := by
  intro r
  have key := foldI_induct (lo := 0) (hi := m) (Nat.zero_le m)
    (s := ((Scalar.dec 10000000000 0 : K), (0 : Int))) (g := ratioStep s d)
    (fun j r => 0 < r.1 ∧ (r.2 = 0 → r.1 = 10000000000) ∧
      ∀ i, i < j → d i < 0 → r.1 ≤ -(s i / d i))
    (by
      refine ⟨?_, ?_, by simp⟩
      · rw [dec_zero]; norm_num
      · intro _; rw [dec_zero]; norm_num)
    (by
      rintro j ⟨a, fl⟩ _ hj ⟨h1, h2, h3⟩
      unfold ratioStep
      rw [ltb_eq, ltb_eq]
      by_cases hd : d j < 0
      · by_cases hr : -(s j) / d j < a
        · simp only [hd, hr, decide_true, Bool.and_self, if_true]
          refine ⟨?_, by simp, ?_⟩
          · have := div_neg_of_pos_of_neg (hs j hj) hd
            linarith
          · intro i hi hdi
            rcases Nat.lt_succ_iff_lt_or_eq.mp hi with h | rfl
            · have := h3 i h hdi
              rw [neg_div] at hr
              simp only at this
              linarith
            · exact le_rfl
        · simp only [hd, hr, decide_true, decide_false, Bool.and_false, Bool.false_eq_true,
            if_false]
          refine ⟨h1, h2, ?_⟩
          intro i hi hdi
          rcases Nat.lt_succ_iff_lt_or_eq.mp hi with h | rfl
          · exact h3 i h hdi
          · rw [neg_div] at hr
            exact not_lt.mp hr
      · simp only [hd, decide_false, Bool.false_and, Bool.false_eq_true, if_false]
        refine ⟨h1, h2, ?_⟩
        intro i hi hdi
        rcases Nat.lt_succ_iff_lt_or_eq.mp hi with h | rfl
        · exact h3 i h hdi
        · exact absurd hdi hd)
  exact key

theorem stepF_pos {m : Nat} {s d : Nat → K} (hs : ∀ i, i < m → 0 < s i) : 0 < stepF m s d := by
  have h := ratio_inv m s d hs
  unfold stepF
  dsimp only at h ⊢
  split
  · exact one_pos
  · exact h.1

/-- The full step of the ratio test stays in the nonnegative orthant. -/
theorem stepF_nonneg {m : Nat} {s d : Nat → K} (hs : ∀ i, i < m → 0 < s i) {i : Nat}
    (hi : i < m) : 0 ≤ s i + stepF m s d * d i := by
  have hpos := stepF_pos (d := d) hs
  by_cases hd : d i < 0
  · have h := ratio_inv m s d hs
    dsimp only at h
    obtain ⟨h1, h2, h3⟩ := h
    have hle : stepF m s d ≤ -(s i / d i) := by
      have h4 := h3 i hi hd
      unfold stepF
      dsimp only
      split
      · rename_i h5
        rw [h2 h5] at h4
        linarith
      · exact h4
    have h5 : -(s i / d i) * d i = -(s i) := by
      rw [neg_mul, div_mul_cancel₀ _ hd.ne]
    nlinarith
  · have := hs i hi
    have := mul_nonneg hpos.le (not_lt.mp hd)
    linarith

/-- The full step reaches the boundary of the orthant, or no component blocks before `1e10` and it
is 1. -/
theorem stepF_max {m : Nat} {s d : Nat → K} (hs : ∀ i, i < m → 0 < s i) :
    (stepF m s d < 10 ^ 10 ∧ ∃ i, i < m ∧ d i < 0 ∧ s i + stepF m s d * d i = 0) ∨
      (stepF m s d = 1 ∧ ∀ i, i < m → d i < 0 → 10 ^ 10 ≤ -(s i / d i)) := by
  have e10 : (Scalar.dec 10000000000 0 : K) = 10 ^ 10 := by
    rw [LawfulScalar.dec_eq]; norm_num
  have key := foldI_induct (lo := 0) (hi := m) (Nat.zero_le m)
    (s := ((Scalar.dec 10000000000 0 : K), (0 : Int))) (g := ratioStep s d)
    (fun j r => (r.2 = 0 ∧ r.1 = 10 ^ 10) ∨
      (r.1 < 10 ^ 10 ∧ ∃ i, i < j ∧ d i < 0 ∧ s i + r.1 * d i = 0)) (Or.inl ⟨rfl, e10⟩) (by
      rintro j ⟨a, fl⟩ _ hj h
      unfold ratioStep
      rw [ltb_eq, ltb_eq]
      split
      · next hc =>
        simp only [Bool.and_eq_true, decide_eq_true_eq] at hc
        refine Or.inr ⟨?_, j, Nat.lt_succ_self j, hc.1, ?_⟩
        · have h2 := hc.2
          rw [neg_div] at h2
          rcases h with ⟨_, h⟩ | ⟨h, _⟩
          · simp only at h; rw [h] at h2; exact h2
          · exact h2.trans h
        · rw [neg_mul, div_mul_cancel₀ _ hc.1.ne]
          ring
      · exact h.imp id (fun ⟨h0, i, h1, h2⟩ => ⟨h0, i, Nat.lt_succ_of_lt h1, h2⟩))
  have h := ratio_inv m s d hs
  unfold stepF
  dsimp only at key h ⊢
  obtain ⟨h1, h2, h3⟩ := h
  split
  · next hc =>
    refine Or.inr ⟨rfl, fun i hi hd => ?_⟩
    have h4 := h3 i hi hd
    rw [h2 hc] at h4
    linarith
  · next hc => exact Or.inl (key.resolve_left (fun h => hc h.1))

theorem dec_99 : (Scalar.dec 99 2 : K) = 99 / 100 := by
  rw [LawfulScalar.dec_eq]; norm_num

theorem acceptF_pos {a : K} (h : 0 < a) : 0 < acceptF a := by
  unfold acceptF
  rw [fmin_eq, dec_99, dec_one_zero]
  refine lt_min ?_ one_pos
  positivity

theorem acceptF_le_one (a : K) : acceptF a ≤ 1 := by
  unfold acceptF
  rw [fmin_eq, dec_one_zero]
  exact min_le_right _ _

/-- The accepted step keeps the components strictly positive. -/
theorem accept_pos {m : Nat} {s d : Nat → K} (hs : ∀ i, i < m → 0 < s i) {i : Nat} (hi : i < m) :
    0 < s i + d i * acceptF (stepF m s d) := by
  have h0 := hs i hi
  have h1 := stepF_nonneg (d := d) hs hi
  have h2 := stepF_pos (d := d) hs
  have h3 := acceptF_pos h2
  by_cases hd : d i < 0
  · have h4 : acceptF (stepF m s d) ≤ 99 / 100 * stepF m s d := by
      unfold acceptF
      rw [fmin_eq, dec_99]
      exact min_le_left _ _
    nlinarith
  · have := mul_nonneg (not_lt.mp hd) h3.le
    linarith

theorem minmaxF_spec (m : Nat) (hm : 0 < m) (z : Nat → K) :
    ∀ i, i < m → (minmaxF m z).1 ≤ z i ∧ z i ≤ (minmaxF m z).2 := by
  unfold minmaxF
  refine foldI_induct (lo := 1) (hi := m) hm (fun j (mm : K × K) =>
    ∀ i, i < j → mm.1 ≤ z i ∧ z i ≤ mm.2) ?_ ?_
  · intro i hi
    have : i = 0 := by omega
    subst this
    exact ⟨le_rfl, le_rfl⟩
  · rintro j ⟨mn, mx⟩ h1 hj h i hi
    rw [ltb_eq, ltb_eq]
    dsimp only
    rcases Nat.lt_succ_iff_lt_or_eq.mp hi with h' | rfl
    · obtain ⟨h2, h3⟩ := h i h'
      dsimp only at h2 h3
      constructor
      · split
        · rename_i h4
          have := of_decide_eq_true h4
          linarith
        · exact h2
      · split
        · rename_i h4
          have := of_decide_eq_true h4
          linarith
        · exact h3
    · constructor
      · split
        · exact le_rfl
        · rename_i h4
          simpa using h4
      · split
        · exact le_rfl
        · rename_i h4
          simpa using h4

end Verif
