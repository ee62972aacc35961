import Verif.Lemmas.Quasi

/-! Pivots as values of a quadratic form, for any elimination order. -/

namespace Verif

open Finset

variable {K : Type} [Field K]

/-- The quadratic form at a vector that the rows before `r` annihilate. -/
theorem row_energy {N n : Nat} (hn : n ≤ N) {M : Nat → Nat → K} {p q : Nat → Nat}
    (hp : PermPair N p q) {f : Nat → K} (hs : ∀ r c, M r c = M c r)
    (hneg : ∀ i j, n ≤ i → n ≤ j → i < N → j < N → M i j = if i = j then -(f i) else 0)
    {r : Nat} (hr : r < N) (hpn : n ≤ p r) {w : Nat → K} (w1 : w (p r) = 1)
    (w0 : ∀ c, c < N → r < q c → w c = 0)
    (row : ∀ c, c < N → q c < r → ∑ c' ∈ range N, M c c' * w c' = 0) :
    ∑ c ∈ range N, M (p r) c * w c
      = -(∑ i ∈ range n, w i * ∑ j ∈ range n, M i j * w j + ∑ c ∈ Ico n N, f c * (w c * w c)) := by
  have hpN := hp.p_lt r hr
  have split : ∀ g : Nat → K, ∑ c ∈ range N, g c
      = ∑ c ∈ range n, g c + ∑ c ∈ Ico n N, g c := fun g => by
    rw [range_eq_Ico, range_eq_Ico, sum_Ico_consecutive _ (Nat.zero_le n) hn]
  have cross : ∑ c ∈ range n, w c * ∑ c' ∈ Ico n N, M c c' * w c'
      = ∑ c ∈ Ico n N, w c * ∑ c' ∈ range n, M c c' * w c' := by
    simp only [mul_sum]
    rw [sum_comm]
    exact sum_congr rfl fun a _ => sum_congr rfl fun b _ => by rw [hs a b]; ring
  have pos : ∀ c, c < N → c ≠ p r → q c < r ∨ r < q c := by
    intro c hc hne
    rcases Nat.lt_trichotomy (q c) r with h | h | h
    · exact Or.inl h
    · exact absurd (by rw [← h, hp.pq c hc]) hne
    · exact Or.inr h
  have zero : ∀ c, c < N → c ≠ p r → w c * ∑ c' ∈ range N, M c c' * w c' = 0 := by
    intro c hc hne
    rcases pos c hc hne with h | h
    · rw [row c hc h, mul_zero]
    · rw [w0 c hc h, zero_mul]
  have top : ∑ c ∈ range n, w c * ∑ c' ∈ range n, M c c' * w c'
      + ∑ c ∈ range n, w c * ∑ c' ∈ Ico n N, M c c' * w c' = 0 := by
    rw [← sum_add_distrib]
    refine sum_eq_zero fun c hc => ?_
    have hc := mem_range.mp hc
    rw [← mul_add, ← split, zero c (by omega) (by omega)]
  have bot : ∑ c ∈ Ico n N, w c * ∑ c' ∈ range n, M c c' * w c' - ∑ c ∈ Ico n N, f c * (w c * w c)
      = ∑ c ∈ range N, M (p r) c * w c := by
    have e : ∑ c ∈ range N, M (p r) c * w c = ∑ c ∈ Ico n N, w c * ∑ c' ∈ range N, M c c' * w c' := by
      symm
      rw [sum_eq_single (p r), w1, one_mul]
      · intro b hb hne; exact zero b (mem_Ico.mp hb).2 hne
      · intro h; exact absurd (mem_Ico.mpr ⟨hpn, hpN⟩) h
    rw [e, ← sum_sub_distrib]
    refine sum_congr rfl fun c hc => ?_
    have hc := mem_Ico.mp hc
    have h2 : ∑ c' ∈ Ico n N, M c c' * w c' = -(f c) * w c := by
      rw [sum_eq_single c]
      · rw [hneg c c hc.1 hc.1 hc.2 hc.2, if_pos rfl]
      · intro b hb hne
        have hb := mem_Ico.mp hb
        rw [hneg c b hc.1 hb.1 hc.2 hb.2, if_neg (Ne.symm hne), zero_mul]
      · intro h; exact absurd (mem_Ico.mpr hc) h
    rw [split, h2]
    ring
  rw [← bot, ← cross]
  linear_combination top

/-- If no pivot before row `r` was changed there is a vector with entry one at that row that the rows before
annihilate, and for every such vector the pivot is the product of the row with it. -/
theorem pivot_any {N : Nat} {M : Nat → Nat → K} {p q : Nat → Nat}
    (hp : PermPair N p q) {u : Nat → Nat → K} {d raw : Nat → K} (h1 : ∀ i, u i i = 1)
    (h0 : ∀ i t, i < t → u i t = 0)
    (hM : ∀ r, r < N → ∀ i, i ≤ r → ∑ t ∈ range N, u i t * d t * u r t
      = M (p i) (p r) + if i = r then d r - raw r else 0)
    (hs : ∀ r c, M r c = M c r) {r : Nat} (hr : r < N) (hex : ∀ t, t < r → d t = raw t) :
    (∃ w : Nat → K, w (p r) = 1 ∧ (∀ c, c < N → r < q c → w c = 0) ∧
      ∀ c, c < N → q c < r → ∑ c' ∈ range N, M c c' * w c' = 0) ∧
    ∀ w : Nat → K, w (p r) = 1 → (∀ c, c < N → r < q c → w c = 0) →
      (∀ c, c < N → q c < r → ∑ c' ∈ range N, M c c' * w c' = 0) →
      raw r = ∑ c ∈ range N, M (p r) c * w c := by
  obtain ⟨w, w1, w0, heq⟩ := pivot_vector hp h1 h0 hM hs hr
  have hpN := hp.p_lt r hr
  have row : ∀ c, c < N → q c ≤ r → ∑ c' ∈ range N, M c c' * w c' = if c = p r then raw r else 0 := by
    intro c hc hq
    rw [← heq c hc hq]
    by_cases h : q c < r
    · rw [if_pos h, hex _ h, sub_self, zero_mul, add_zero]
    · rw [if_neg h, add_zero]
  have low : ∀ c, c < N → q c < r → ∑ c' ∈ range N, M c c' * w c' = 0 := by
    intro c hc hq
    rw [row c hc hq.le, if_neg]
    rintro rfl
    rw [hp.qp r hr] at hq
    omega
  refine ⟨⟨w, w1, w0, low⟩, fun v v1 v0 hv => ?_⟩
  have pos : ∀ c, c < N → c ≠ p r → q c < r ∨ r < q c := by
    intro c hc hne
    rcases Nat.lt_trichotomy (q c) r with h | h | h
    · exact Or.inl h
    · exact absurd (by rw [← h, hp.pq c hc]) hne
    · exact Or.inr h
  have a : ∑ c ∈ range N, v c * ∑ c' ∈ range N, M c c' * w c' = raw r := by
    rw [sum_eq_single (p r), v1, one_mul, row _ hpN (by rw [hp.qp r hr]), if_pos rfl]
    · intro c hc hne
      have hc := mem_range.mp hc
      rcases pos c hc hne with h | h
      · rw [low c hc h, mul_zero]
      · rw [v0 c hc h, zero_mul]
    · intro h; exact absurd (mem_range.mpr hpN) h
  have b : ∑ c ∈ range N, w c * ∑ c' ∈ range N, M c c' * v c' = ∑ c ∈ range N, M (p r) c * v c := by
    rw [sum_eq_single (p r), w1, one_mul]
    · intro c hc hne
      have hc := mem_range.mp hc
      rcases pos c hc hne with h | h
      · rw [hv c hc h, mul_zero]
      · rw [w0 c hc h, zero_mul]
    · intro h; exact absurd (mem_range.mpr hpN) h
  rw [← a, ← b]
  simp only [mul_sum]
  rw [sum_comm]
  exact sum_congr rfl fun i _ => sum_congr rfl fun j _ => by rw [hs i j]; ring

end Verif
