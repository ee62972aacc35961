import Mathlib.Algebra.BigOperators.Group.Finset.Basic
import Mathlib.Algebra.BigOperators.Ring.Finset
import Mathlib.Algebra.Order.BigOperators.Group.Finset
import Mathlib.Tactic.Linarith
import Mathlib.Tactic.Ring
import Mathlib.Tactic.LinearCombination
import Mathlib.Tactic.Positivity
import Mathlib.Tactic.NormNum
import Verif.Spec

/-! Signs of the pivots of a symmetric matrix whose rows are of two kinds, a positive definite block
and a block that is a nonpositive diagonal. -/

namespace Verif

open Finset

section

variable {K : Type} [Field K]

/-- A vector with last entry one that the transposed unit triangular matrix maps to the last unit
vector. -/
theorem exists_unit_back (u : Nat → Nat → K) (h1 : ∀ i, u i i = 1) (h0 : ∀ i t, i < t → u i t = 0)
    (r : Nat) : ∃ v : Nat → K, v r = 1 ∧ ∀ t, t < r → ∑ i ∈ range (r + 1), u i t * v i = 0 := by
  have key : ∀ k, k ≤ r → ∃ v : Nat → K, v r = 1 ∧
      ∀ t, t < r → r - k ≤ t → ∑ i ∈ range (r + 1), u i t * v i = 0 := by
    intro k
    induction k with
    | zero => exact fun _ => ⟨fun _ => 1, rfl, fun t h1 h2 => by omega⟩
    | succ k ih =>
      intro hk
      obtain ⟨v, v1, v2⟩ := ih (by omega)
      set c := r - (k + 1) with hc
      have hcr : c < r := by omega
      set S := ∑ i ∈ (range (r + 1)).erase c, u i c * v i with hS
      refine ⟨Function.update v c (-S), ?_, ?_⟩
      · rw [Function.update_of_ne (by omega), v1]
      · intro t ht hct
        rw [← add_sum_erase _ _ (mem_range.mpr (by omega : c < r + 1)), Function.update_self]
        have e : ∀ t, ∑ i ∈ (range (r + 1)).erase c, u i t * Function.update v c (-S) i
            = ∑ i ∈ (range (r + 1)).erase c, u i t * v i := fun t =>
          sum_congr rfl fun i hi => by rw [Function.update_of_ne (ne_of_mem_erase hi)]
        rw [e]
        rcases Nat.lt_or_ge c t with h | h
        · have := v2 t ht (by omega)
          rw [← add_sum_erase _ _ (mem_range.mpr (by omega : c < r + 1)), h0 c t h, zero_mul,
            zero_add] at this
          rw [this, h0 c t h, zero_mul, zero_add]
        · have : t = c := by omega
          subst this
          rw [h1, one_mul, ← hS, neg_add_cancel]
  obtain ⟨v, v1, v2⟩ := key r le_rfl
  exact ⟨v, v1, fun t ht => v2 t ht (by omega)⟩

/-- The pivot of row `r`: some `v` supported on the rows up to `r`, one at `r`, is mapped to a
multiple of the unit vector of `r` by the leading block. The multiple is the pivot. -/
theorem pivot_vector {N : Nat} {M : Nat → Nat → K} {p q : Nat → Nat} (hp : PermPair N p q)
    {u : Nat → Nat → K} {d raw : Nat → K} (h1 : ∀ i, u i i = 1) (h0 : ∀ i t, i < t → u i t = 0)
    (hM : ∀ r, r < N → ∀ i, i ≤ r → ∑ t ∈ range N, u i t * d t * u r t
      = M (p i) (p r) + if i = r then d r - raw r else 0)
    (hs : ∀ r c, M r c = M c r) {r : Nat} (hr : r < N) :
    ∃ w : Nat → K, w (p r) = 1 ∧ (∀ c, c < N → r < q c → w c = 0) ∧
      ∀ c, c < N → q c ≤ r → ∑ c' ∈ range N, M c c' * w c'
        + (if q c < r then (d (q c) - raw (q c)) * w c else 0) = if c = p r then raw r else 0 := by
  obtain ⟨v, v1, v2⟩ := exists_unit_back u h1 h0 r
  refine ⟨fun c => if q c ≤ r then v (q c) else 0, ?_, ?_, ?_⟩
  · simp only [hp.qp r hr, le_refl, if_true, v1]
  · intro c _ h
    simp only [if_neg (Nat.not_le.mpr h)]
  · intro c hc hqc
    have hqN := hp.q_lt c hc
    -- entries of the leading block
    have full : ∀ i j, i ≤ r → j ≤ r → ∑ t ∈ range (r + 1), u i t * d t * u j t
        = M (p i) (p j) + if i = j then d i - raw i else 0 := by
      have one : ∀ i j, i ≤ j → j ≤ r → ∑ t ∈ range (r + 1), u i t * d t * u j t
          = M (p i) (p j) + if i = j then d i - raw i else 0 := by
        intro i j hij hj
        have e := hM j (by omega) i hij
        have : ∑ t ∈ range N, u i t * d t * u j t = ∑ t ∈ range (r + 1), u i t * d t * u j t := by
          symm
          refine sum_subset (fun t ht => ?_) fun t ht ht' => ?_
          · rw [mem_range] at *; omega
          · rw [mem_range] at *
            rw [h0 i t (by omega), zero_mul, zero_mul]
        rw [← this, e]
        by_cases h : i = j
        · subst h; rfl
        · rw [if_neg h, if_neg h]
      intro i j hi hj
      rcases Nat.le_total i j with h | h
      · exact one i j h hj
      · have := one j i h hi
        rw [hs (p i) (p j)]
        have e : ∑ t ∈ range (r + 1), u i t * d t * u j t
            = ∑ t ∈ range (r + 1), u j t * d t * u i t := sum_congr rfl fun t _ => by ring
        rw [e, this]
        by_cases h : i = j
        · subst h; rfl
        · rw [if_neg h, if_neg (Ne.symm h)]
    -- sum over all columns as a sum over the leading ones
    have re : ∑ c' ∈ range N, M c c' * (if q c' ≤ r then v (q c') else 0)
        = ∑ j ∈ range (r + 1), M c (p j) * v j := by
      have e1 : ∑ c' ∈ range N, M c c' * (if q c' ≤ r then v (q c') else 0)
          = ∑ j ∈ range N, M c (p j) * (if j ≤ r then v j else 0) := by
        refine sum_bij' (fun c' _ => q c') (fun j _ => p j) ?_ ?_ ?_ ?_ ?_
        · intro a ha; exact mem_range.mpr (hp.q_lt a (mem_range.mp ha))
        · intro a ha; exact mem_range.mpr (hp.p_lt a (mem_range.mp ha))
        · intro a ha; exact hp.pq a (mem_range.mp ha)
        · intro a ha; exact hp.qp a (mem_range.mp ha)
        · intro a ha
          rw [hp.pq a (mem_range.mp ha)]
      rw [e1]
      symm
      refine sum_subset_zero_on_sdiff (fun t ht => ?_) (fun t ht => ?_) fun t ht => ?_
      · rw [mem_range] at *; omega
      · rw [mem_sdiff, mem_range, mem_range] at ht
        rw [if_neg (by omega), mul_zero]
      · rw [mem_range] at ht
        rw [if_pos (by omega)]
    -- the product with the factor
    have prod : ∑ j ∈ range (r + 1), (∑ t ∈ range (r + 1), u (q c) t * d t * u j t) * v j
        = u (q c) r * d r := by
      have : ∑ j ∈ range (r + 1), (∑ t ∈ range (r + 1), u (q c) t * d t * u j t) * v j
          = ∑ t ∈ range (r + 1), u (q c) t * d t * ∑ j ∈ range (r + 1), u j t * v j := by
        simp only [sum_mul, mul_sum]
        rw [sum_comm]
        exact sum_congr rfl fun t _ => sum_congr rfl fun j _ => by ring
      rw [this, sum_eq_single r]
      · have : ∑ j ∈ range (r + 1), u j r * v j = 1 := by
          rw [sum_eq_single r, h1, v1, mul_one]
          · intro j hj hne
            rw [h0 j r (by have := mem_range.mp hj; omega), zero_mul]
          · intro h; exact absurd (mem_range.mpr (Nat.lt_succ_self r)) h
        rw [this, mul_one]
      · intro t ht hne
        rw [v2 t (by have := mem_range.mp ht; omega), mul_zero]
      · intro h; exact absurd (mem_range.mpr (Nat.lt_succ_self r)) h
    have expand : ∑ j ∈ range (r + 1), (∑ t ∈ range (r + 1), u (q c) t * d t * u j t) * v j
        = ∑ j ∈ range (r + 1), M c (p j) * v j + (d (q c) - raw (q c)) * v (q c) := by
      have : ∀ j ∈ range (r + 1), (∑ t ∈ range (r + 1), u (q c) t * d t * u j t) * v j
          = M c (p j) * v j + if q c = j then (d (q c) - raw (q c)) * v j else 0 := by
        intro j hj
        rw [full (q c) j hqc (by have := mem_range.mp hj; omega), hp.pq c hc]
        by_cases h : q c = j
        · rw [if_pos h, if_pos h]; ring
        · rw [if_neg h, if_neg h]; ring
      rw [sum_congr rfl this, sum_add_distrib, sum_ite_eq,
        if_pos (mem_range.mpr (by omega : q c < r + 1))]
    simp only
    rw [re, if_pos hqc]
    have tot := expand.symm.trans prod
    by_cases hcr : q c = r
    · have hcp : c = p r := by rw [← hcr, hp.pq c hc]
      rw [if_neg (by omega), if_pos hcp]
      rw [hcr, v1, h1] at tot
      linear_combination tot
    · have hcp : c ≠ p r := fun h => hcr (by rw [h, hp.qp r hr])
      rw [if_pos (by omega), if_neg hcp]
      rw [h0 (q c) r (by omega), zero_mul] at tot
      exact tot

end

section

variable {K : Type} [Field K] [LinearOrder K] [IsStrictOrderedRing K]

/-- Signs of the pivots. Rows below `n` form a block with `xᵀ M x ≥ ε xᵀ x`, the other rows a
diagonal block with entries `-f`, `f ≥ 0`. Pivots of the first kind are at least `ε`, those of the
second at most `-f`; a pivot that is small is replaced by `-1e-7`. -/
theorem quasi_pivots {N n : Nat} (hn : n ≤ N) {M : Nat → Nat → K} {p q : Nat → Nat}
    (hp : PermPair N p q) {u : Nat → Nat → K} {d raw f : Nat → K} (h1 : ∀ i, u i i = 1)
    (h0 : ∀ i t, i < t → u i t = 0)
    (hM : ∀ r, r < N → ∀ i, i ≤ r → ∑ t ∈ range N, u i t * d t * u r t
      = M (p i) (p r) + if i = r then d r - raw r else 0)
    (hd : ∀ r, r < N → d r = if |raw r| ≤ 1 / 10 ^ 14 then
      (if raw r ≤ 0 then -(1 / 10 ^ 7) else 1 / 10 ^ 7) else raw r)
    (hs : ∀ r c, M r c = M c r) {ε : K} (hε : 1 / 10 ^ 14 < ε)
    (hpos : ∀ x : Nat → K, ε * ∑ i ∈ range n, x i * x i
      ≤ ∑ i ∈ range n, x i * ∑ j ∈ range n, M i j * x j)
    (hneg : ∀ i j, n ≤ i → n ≤ j → i < N → j < N → M i j = if i = j then -(f i) else 0)
    (hf : ∀ i, n ≤ i → i < N → 0 ≤ f i) :
    ∀ r, r < N → (p r < n → ε ≤ raw r ∧ d r = raw r) ∧
      (n ≤ p r → raw r ≤ -(f (p r)) ∧ d r < 0 ∧ d r ≤ raw r ∧ raw r - 1 / 10 ^ 7 ≤ d r) := by
  have h14 : (0 : K) < 1 / 10 ^ 14 := by positivity
  have h7 : (1 : K) / 10 ^ 14 < 1 / 10 ^ 7 := by
    rw [div_lt_div_iff₀ (by positivity) (by positivity)]; norm_num
  intro r
  induction r using Nat.strong_induction_on with
  | _ r ih =>
  intro hr
  obtain ⟨w, w1, w0, heq⟩ := pivot_vector hp h1 h0 hM hs hr
  -- the perturbation met so far
  set e : Nat → K := fun c => if q c < r then d (q c) - raw (q c) else 0 with he
  have e0 : ∀ c, c < n → e c = 0 := by
    intro c hc
    simp only [he]
    split
    · rename_i h
      have hcN : c < N := by omega
      have := ((ih (q c) h (hp.q_lt c hcN)).1 (by rw [hp.pq c hcN]; exact hc)).2
      rw [this, sub_self]
    · rfl
  have e1 : ∀ c, n ≤ c → c < N → e c ≤ 0 := by
    intro c hc hcN
    simp only [he]
    split
    · rename_i h
      have := ((ih (q c) h (hp.q_lt c hcN)).2 (by rw [hp.pq c hcN]; exact hc)).2.2.1
      linarith
    · exact le_rfl
  have row : ∀ c, c < N → w c * (∑ c' ∈ range N, M c c' * w c') + e c * (w c * w c)
      = if c = p r then raw r else 0 := by
    intro c hc
    by_cases hq : q c ≤ r
    · have := heq c hc hq
      have e2 : (if q c < r then (d (q c) - raw (q c)) * w c else 0) = e c * w c := by
        simp only [he]; split <;> simp
      rw [e2] at this
      by_cases h : c = p r
      · rw [if_pos h] at this ⊢
        rw [h, w1] at this ⊢
        linear_combination this
      · rw [if_neg h] at this ⊢
        linear_combination w c * this
    · rw [w0 c hc (by omega), if_neg]
      · ring
      · intro h; rw [h, hp.qp r hr] at hq; omega
  -- split of a sum over the rows
  have split : ∀ g : Nat → K, ∑ c ∈ range N, g c
      = ∑ c ∈ range n, g c + ∑ c ∈ Ico n N, g c := fun g => by
    rw [range_eq_Ico, range_eq_Ico, sum_Ico_consecutive _ (Nat.zero_le n) hn]
  have cross : ∑ c ∈ range n, w c * ∑ c' ∈ Ico n N, M c c' * w c'
      = ∑ c ∈ Ico n N, w c * ∑ c' ∈ range n, M c c' * w c' := by
    simp only [mul_sum]
    rw [sum_comm]
    exact sum_congr rfl fun a _ => sum_congr rfl fun b _ => by rw [hs a b]; ring
  have top : ∑ c ∈ range n, w c * ∑ c' ∈ range n, M c c' * w c'
      + ∑ c ∈ range n, w c * ∑ c' ∈ Ico n N, M c c' * w c'
      = ∑ c ∈ range n, if c = p r then raw r else 0 := by
    rw [← sum_add_distrib]
    refine sum_congr rfl fun c hc => ?_
    have hc := mem_range.mp hc
    rw [← row c (by omega), e0 c hc, zero_mul, add_zero, split, mul_add]
  have bot : ∑ c ∈ Ico n N, w c * ∑ c' ∈ range n, M c c' * w c'
      - ∑ c ∈ Ico n N, (f c - e c) * (w c * w c)
      = ∑ c ∈ Ico n N, if c = p r then raw r else 0 := by
    rw [← sum_sub_distrib]
    refine sum_congr rfl fun c hc => ?_
    have hc := mem_Ico.mp hc
    have : ∑ c' ∈ Ico n N, M c c' * w c' = -(f c) * w c := by
      rw [sum_eq_single c]
      · rw [hneg c c hc.1 hc.1 hc.2 hc.2, if_pos rfl]
      · intro b hb hne
        have hb := mem_Ico.mp hb
        rw [hneg c b hc.1 hb.1 hc.2 hb.2, if_neg (Ne.symm hne), zero_mul]
      · intro h; exact absurd (mem_Ico.mpr hc) h
    rw [← row c hc.2, split, this]
    ring
  have hfe : ∀ c, n ≤ c → c < N → 0 ≤ (f c - e c) * (w c * w c) := fun c h1 h2 =>
    mul_nonneg (by have := hf c h1 h2; have := e1 c h1 h2; linarith) (mul_self_nonneg _)
  have hsum : 0 ≤ ∑ c ∈ Ico n N, (f c - e c) * (w c * w c) :=
    sum_nonneg fun c hc => hfe c (mem_Ico.mp hc).1 (mem_Ico.mp hc).2
  have hP := hpos w
  have hε0 : 0 < ε := lt_trans h14 hε
  have hww : 0 ≤ ∑ i ∈ range n, w i * w i := sum_nonneg fun i _ => mul_self_nonneg _
  have hpN := hp.p_lt r hr
  constructor
  · intro hpn
    have t1 : ∑ c ∈ range n, (if c = p r then raw r else 0) = raw r := by
      rw [sum_ite_eq', if_pos (mem_range.mpr hpn)]
    have t2 : ∑ c ∈ Ico n N, (if c = p r then raw r else 0) = 0 := by
      rw [sum_ite_eq', if_neg]
      intro h; have := mem_Ico.mp h; omega
    rw [t1] at top
    rw [t2] at bot
    have big : (1 : K) ≤ ∑ i ∈ range n, w i * w i := by
      have := single_le_sum (f := fun i => w i * w i) (fun i _ => mul_self_nonneg (w i))
        (mem_range.mpr hpn)
      simp only [w1, mul_one] at this
      exact this
    have hraw : ε ≤ raw r := by
      have : ε * 1 ≤ ε * ∑ i ∈ range n, w i * w i := mul_le_mul_of_nonneg_left big hε0.le
      linarith
    refine ⟨hraw, ?_⟩
    rw [hd r hr, if_neg]
    rw [abs_of_pos (by linarith)]
    linarith
  · intro hpn
    have t1 : ∑ c ∈ range n, (if c = p r then raw r else 0) = 0 := by
      rw [sum_ite_eq', if_neg]
      intro h; have := mem_range.mp h; omega
    have t2 : ∑ c ∈ Ico n N, (if c = p r then raw r else 0) = raw r := by
      rw [sum_ite_eq', if_pos (mem_Ico.mpr ⟨hpn, hpN⟩)]
    rw [t1] at top
    rw [t2] at bot
    have big : f (p r) ≤ ∑ c ∈ Ico n N, (f c - e c) * (w c * w c) := by
      have := single_le_sum (f := fun c => (f c - e c) * (w c * w c))
        (fun c hc => hfe c (mem_Ico.mp hc).1 (mem_Ico.mp hc).2) (mem_Ico.mpr ⟨hpn, hpN⟩)
      simp only [w1, mul_one] at this
      have := e1 (p r) hpn hpN
      linarith
    have hraw : raw r ≤ -(f (p r)) := by
      have : 0 ≤ ε * ∑ i ∈ range n, w i * w i := mul_nonneg hε0.le hww
      linarith
    have hfr := hf (p r) hpn hpN
    refine ⟨hraw, ?_⟩
    have hle : raw r ≤ 0 := by linarith
    rw [hd r hr]
    by_cases h : |raw r| ≤ 1 / 10 ^ 14
    · rw [if_pos h, if_pos hle]
      rw [abs_of_nonpos hle] at h
      refine ⟨by linarith, by linarith, by linarith⟩
    · rw [if_neg h]
      rw [abs_of_nonpos hle] at h
      push Not at h
      refine ⟨by linarith, le_rfl, by linarith⟩

end

end Verif
