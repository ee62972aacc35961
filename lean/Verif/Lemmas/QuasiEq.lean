import Verif.Lemmas.Quasi

/-! Pivots of rows of the second kind that come after all rows of the first kind. -/

namespace Verif

open Finset

variable {K : Type} [Field K]

/-- If all rows of the positive block and no changed pivot precede row `r` of the other block, its pivot is minus
the value of a quadratic form at a vector with entry one at that row that the rows of the positive block
annihilate. -/
theorem eq_pivot {N n : Nat} (hn : n ≤ N) {M : Nat → Nat → K} {p q : Nat → Nat}
    (hp : PermPair N p q) {u : Nat → Nat → K} {d raw f : Nat → K} (h1 : ∀ i, u i i = 1)
    (h0 : ∀ i t, i < t → u i t = 0)
    (hM : ∀ r, r < N → ∀ i, i ≤ r → ∑ t ∈ range N, u i t * d t * u r t
      = M (p i) (p r) + if i = r then d r - raw r else 0)
    (hs : ∀ r c, M r c = M c r)
    (hneg : ∀ i j, n ≤ i → n ≤ j → i < N → j < N → M i j = if i = j then -(f i) else 0)
    {r : Nat} (hr : r < N) (hpn : n ≤ p r) (hfirst : ∀ i, i < n → q i < r) (hex : ∀ t, t < r → d t = raw t) :
    ∃ w : Nat → K, w (p r) = 1 ∧ (∀ i, i < n → ∑ c ∈ range N, M i c * w c = 0) ∧
      raw r = -(∑ i ∈ range n, w i * ∑ j ∈ range n, M i j * w j + ∑ c ∈ Ico n N, f c * (w c * w c)) := by
  obtain ⟨w, w1, w0, heq⟩ := pivot_vector hp h1 h0 hM hs hr
  have hpN := hp.p_lt r hr
  have row : ∀ c, c < N → q c ≤ r → ∑ c' ∈ range N, M c c' * w c' = if c = p r then raw r else 0 := by
    intro c hc hq
    rw [← heq c hc hq]
    by_cases h : q c < r
    · rw [if_pos h, hex _ h, sub_self, zero_mul, add_zero]
    · rw [if_neg h, add_zero]
  have rowx : ∀ i, i < n → ∑ c ∈ range N, M i c * w c = 0 := by
    intro i hi
    rw [row i (by omega) (hfirst i hi).le, if_neg (by omega)]
  have split : ∀ g : Nat → K, ∑ c ∈ range N, g c
      = ∑ c ∈ range n, g c + ∑ c ∈ Ico n N, g c := fun g => by
    rw [range_eq_Ico, range_eq_Ico, sum_Ico_consecutive _ (Nat.zero_le n) hn]
  have cross : ∑ c ∈ range n, w c * ∑ c' ∈ Ico n N, M c c' * w c'
      = ∑ c ∈ Ico n N, w c * ∑ c' ∈ range n, M c c' * w c' := by
    simp only [mul_sum]
    rw [sum_comm]
    exact sum_congr rfl fun a _ => sum_congr rfl fun b _ => by rw [hs a b]; ring
  have top : ∑ c ∈ range n, w c * ∑ c' ∈ range n, M c c' * w c'
      + ∑ c ∈ range n, w c * ∑ c' ∈ Ico n N, M c c' * w c' = 0 := by
    rw [← sum_add_distrib]
    refine sum_eq_zero fun c hc => ?_
    rw [← mul_add, ← split, rowx c (mem_range.mp hc), mul_zero]
  have bot : ∑ c ∈ Ico n N, w c * ∑ c' ∈ range n, M c c' * w c' - ∑ c ∈ Ico n N, f c * (w c * w c) = raw r := by
    have e : raw r = ∑ c ∈ Ico n N, if c = p r then raw r else 0 := by
      rw [sum_ite_eq', if_pos (mem_Ico.mpr ⟨hpn, hpN⟩)]
    rw [e, ← sum_sub_distrib]
    refine sum_congr rfl fun c hc => ?_
    have hc := mem_Ico.mp hc
    have h2 : ∑ c' ∈ Ico n N, M c c' * w c' = -(f c) * w c := by
      rw [sum_eq_single c]
      · rw [hneg c c hc.1 hc.1 hc.2 hc.2, if_pos rfl]
      · intro b hb hne
        have hb := mem_Ico.mp hb
        rw [hneg c b hc.1 hb.1 hc.2 hb.2, if_neg (Ne.symm hne), zero_mul]
      · intro h; exact absurd (mem_Ico.mpr hc) h
    by_cases hq : q c ≤ r
    · have h3 := row c hc.2 hq
      rw [split, h2] at h3
      by_cases hcp : c = p r
      · rw [if_pos hcp] at h3 ⊢
        rw [hcp, w1] at h3 ⊢
        linear_combination h3
      · rw [if_neg hcp] at h3 ⊢
        linear_combination w c * h3
    · have hcp : c ≠ p r := by
        intro h
        rw [h, hp.qp r hr] at hq
        omega
      rw [w0 c hc.2 (by omega), if_neg hcp]
      ring
  exact ⟨w, w1, rowx, by rw [← bot, ← cross]; linear_combination top⟩

/-- The pivot of a row that has no entry in a column before it is its diagonal entry. -/
theorem early_pivot {N : Nat} {M : Nat → Nat → K} {p q : Nat → Nat}
    (hp : PermPair N p q) {u : Nat → Nat → K} {d raw : Nat → K} (h1 : ∀ i, u i i = 1)
    (h0 : ∀ i t, i < t → u i t = 0)
    (hM : ∀ r, r < N → ∀ i, i ≤ r → ∑ t ∈ range N, u i t * d t * u r t
      = M (p i) (p r) + if i = r then d r - raw r else 0)
    (hs : ∀ r c, M r c = M c r) {r : Nat} (hr : r < N)
    (hz : ∀ c, c < N → q c < r → M (p r) c = 0) : raw r = M (p r) (p r) := by
  obtain ⟨w, w1, w0, heq⟩ := pivot_vector hp h1 h0 hM hs hr
  have hpN := hp.p_lt r hr
  have h := heq (p r) hpN (by rw [hp.qp r hr])
  rw [if_neg (by rw [hp.qp r hr]; omega), if_pos rfl, add_zero] at h
  rw [← h, sum_eq_single (p r), w1, mul_one]
  · intro c hc hne
    have hc := mem_range.mp hc
    rcases Nat.lt_trichotomy (q c) r with hq | hq | hq
    · rw [hz c hc hq, zero_mul]
    · exact absurd (by rw [← hq, hp.pq c hc]) hne
    · rw [w0 c hc hq, mul_zero]
  · intro h'; exact absurd (mem_range.mpr hpN) h'

end Verif
