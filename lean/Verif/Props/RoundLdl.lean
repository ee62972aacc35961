import Verif.Lemmas.RoundLdl
import Verif.Lemmas.RoundSolve
import Verif.Props.Round
import Verif.Props.Ldl
import Verif.Fl
import Mathlib.Algebra.BigOperators.Field

/-!
# Factorisation and solves in rounded arithmetic (C61, C62)
-/

set_option linter.unusedSectionVars false

namespace Verif

open Finset

/-- From the errors of the steps to the error of an entry of `L D Lᵀ`. -/
theorem ldl_entry_real {u eta : ℝ} (hu : 0 ≤ u) (hu1 : u < 1) (he : 0 ≤ eta) {i c : Nat}
    {l d lr v : Nat → ℝ} {a wa X Z W V : ℝ} (hW : 0 ≤ W) (hV : 0 ≤ V)
    (hd : ∀ t, t < i → |d t * lr t - v t| ≤ u * |v t| + eta * |d t|)
    (hX : |X + ∑ t ∈ range i, l t * v t - a|
      ≤ errBound u eta c (wa + ∑ t ∈ range i, |l t| * |v t|))
    (hZ : |Z - X| ≤ (u * W + eta * V) / (1 - u)) :
    |∑ t ∈ range i, l t * d t * lr t + Z - a| ≤ ldlBound u eta c wa
      (∑ t ∈ range i, |l t| * |d t| * |lr t| + W) (∑ t ∈ range i, |l t| * |d t| + V) := by
  have h1u : 0 < 1 - u := by linarith
  set Q := (1 + u) ^ (2 * c) with hQ
  have hQ1 : (1 : ℝ) ≤ Q := one_le_pow₀ (by linarith)
  set W' := ∑ t ∈ range i, |l t| * |d t| * |lr t| with hW'
  set V' := ∑ t ∈ range i, |l t| * |d t| with hV'
  have hv : ∀ t, t < i → |v t| ≤ (|d t| * |lr t| + eta * |d t|) / (1 - u) := by
    intro t ht
    rw [le_div_iff₀ h1u]
    have h1 := hd t ht
    have h2 : |v t| ≤ |d t * lr t - v t| + |d t * lr t| := by
      have := abs_sub_abs_le_abs_sub (v t) (d t * lr t)
      rw [abs_sub_comm] at this
      linarith
    rw [abs_mul] at h2
    linarith
  have hdl : ∀ t, t < i → |d t * lr t - v t| ≤ (u * (|d t| * |lr t|) + eta * |d t|) / (1 - u) := by
    intro t ht
    refine (hd t ht).trans ?_
    rw [le_div_iff₀ h1u]
    have h1 := hv t ht
    rw [le_div_iff₀ h1u] at h1
    nlinarith [mul_le_mul_of_nonneg_left h1 hu]
  -- sums
  have s1 : ∑ t ∈ range i, |l t| * |v t| ≤ (W' + eta * V') / (1 - u) := by
    have : (W' + eta * V') / (1 - u)
        = ∑ t ∈ range i, |l t| * ((|d t| * |lr t| + eta * |d t|) / (1 - u)) := by
      rw [hW', hV', mul_sum, ← sum_add_distrib, sum_div]
      refine sum_congr rfl fun t _ => ?_
      ring
    rw [this]
    exact sum_le_sum fun t ht => mul_le_mul_of_nonneg_left (hv t (mem_range.mp ht)) (abs_nonneg _)
  have s2 : |∑ t ∈ range i, l t * (d t * lr t - v t)| ≤ (u * W' + eta * V') / (1 - u) := by
    have : (u * W' + eta * V') / (1 - u)
        = ∑ t ∈ range i, |l t| * ((u * (|d t| * |lr t|) + eta * |d t|) / (1 - u)) := by
      rw [hW', hV', mul_sum, mul_sum, ← sum_add_distrib, sum_div]
      refine sum_congr rfl fun t _ => ?_
      ring
    rw [this]
    refine (abs_sum_le_sum_abs _ _).trans (sum_le_sum fun t ht => ?_)
    rw [abs_mul]
    exact mul_le_mul_of_nonneg_left (hdl t (mem_range.mp ht)) (abs_nonneg _)
  have e1 : ∑ t ∈ range i, l t * d t * lr t + Z - a
      = (X + ∑ t ∈ range i, l t * v t - a) + (Z - X) + ∑ t ∈ range i, l t * (d t * lr t - v t) := by
    have : ∑ t ∈ range i, l t * (d t * lr t - v t)
        = ∑ t ∈ range i, l t * d t * lr t - ∑ t ∈ range i, l t * v t := by
      rw [← sum_sub_distrib]
      exact sum_congr rfl fun t _ => by ring
    rw [this]
    ring
  have e2 : |∑ t ∈ range i, l t * d t * lr t + Z - a|
      ≤ errBound u eta c (wa + ∑ t ∈ range i, |l t| * |v t|) + (u * W + eta * V) / (1 - u)
        + (u * W' + eta * V') / (1 - u) := by
    rw [e1]
    refine (abs_add_le _ _).trans (add_le_add ((abs_add_le _ _).trans (add_le_add hX hZ)) s2)
  have e3 : errBound u eta c (wa + ∑ t ∈ range i, |l t| * |v t|)
      ≤ (Q - 1) * wa + (Q - 1) * ((W' + eta * V') / (1 - u)) + c * Q * eta := by
    unfold errBound
    rw [← hQ]
    have := mul_le_mul_of_nonneg_left s1 (by linarith : (0 : ℝ) ≤ Q - 1)
    linarith
  refine (e2.trans (add_le_add (add_le_add e3 le_rfl) le_rfl)).trans ?_
  unfold ldlBound
  rw [← hQ]
  have hVe : 0 ≤ eta * V := mul_nonneg he hV
  have e4 : (Q - 1 + u) / (1 - u) * (W' + W) + Q / (1 - u) * (eta * (V' + V))
      - ((Q - 1) * ((W' + eta * V') / (1 - u)) + (u * W + eta * V) / (1 - u)
        + (u * W' + eta * V') / (1 - u)) = ((Q - 1) * W + (Q - 1) * (eta * V)) / (1 - u) := by
    field_simp
    ring
  have e5 : 0 ≤ ((Q - 1) * W + (Q - 1) * (eta * V)) / (1 - u) :=
    div_nonneg (add_nonneg (mul_nonneg (by linarith) hW) (mul_nonneg (by linarith) hVe)) h1u.le
  linarith

section

variable {K : Type} [Zero K] [One K] [Add K] [Sub K] [Mul K] [Div K] [Neg K] [Scalar K] [Ieee K]

open Ieee

/-! ## Pivots -/

/-- A finite stored pivot comes from a finite computed pivot and is not zero. -/
theorem regPivot_round {d : K} (hu : u K ≤ 1 / 4) (he : eta K ≤ 1 / 10 ^ 15)
    (h : fin (regPivot d)) : fin d ∧ toR (regPivot d) ≠ 0 ∧
      StoredPivot (u K) (eta K) (toR d) (toR (regPivot d)) := by
  obtain ⟨z1, z2⟩ := Ieee.zero (K := K)
  obtain ⟨a1, a2⟩ := Ieee.dec (K := K) 1 14 (by decide)
  obtain ⟨b1, b2⟩ := Ieee.dec (K := K) 1 7 (by decide)
  rw [abs_of_nonneg (by positivity : (0 : ℝ) ≤ ((1 : Int) : ℝ) / 10 ^ 14)] at a2
  rw [abs_of_nonneg (by positivity : (0 : ℝ) ≤ ((1 : Int) : ℝ) / 10 ^ 7)] at b2
  push_cast at a2 b2
  have hu0 := u_nonneg (K := K)
  have he0 := eta_nonneg (K := K)
  have hfd : fin d := by
    by_contra hd
    have hc : regPivot d = d := by
      unfold regPivot
      rcases Ieee.nonfin d hd with hn | hn
      · rw [(hn 0 z1).1]
        simp only [Bool.false_eq_true, if_false]
        rw [(hn _ a1).2]
        simp
      · rw [(hn 0 z1).1]
        simp only [if_true]
        rw [(hn _ a1).2]
        simp
    rw [hc] at h
    exact hd h
  -- the value of the stored pivot
  have hval : toR (regPivot d) = if |toR d| ≤ toR (Scalar.dec 1 14 : K) then
      (if toR d ≤ 0 then -toR (Scalar.dec 1 7 : K) else toR (Scalar.dec 1 7 : K)) else toR d := by
    have hz := Ieee.leb d 0 hfd z1
    rw [z2] at hz
    unfold regPivot
    by_cases hs : toR d ≤ 0
    · rw [hz.mpr hs]
      simp only [if_true]
      obtain ⟨c1, c2⟩ := Ieee.mulSign (K := K) (-1) d (Or.inr rfl) hfd
      obtain ⟨d1, d2⟩ := Ieee.mulSign (K := K) (-1) (Scalar.dec 1 7) (Or.inr rfl) b1
      have hl := Ieee.leb _ _ c1 a1
      rw [c2] at hl
      push_cast at hl d2
      rw [neg_one_mul] at hl d2
      rw [abs_of_nonpos hs, if_pos hs]
      by_cases hc : -toR d ≤ toR (Scalar.dec 1 14 : K)
      · rw [if_pos hc, hl.mpr hc, if_pos rfl, d2]
      · rw [if_neg hc, if_neg (fun h => hc (hl.mp h))]
    · have hzf : ¬ Scalar.leb d 0 = true := fun h => hs (hz.mp h)
      simp only [if_neg hzf]
      obtain ⟨c1, c2⟩ := Ieee.mulSign (K := K) 1 d (Or.inl rfl) hfd
      obtain ⟨d1, d2⟩ := Ieee.mulSign (K := K) 1 (Scalar.dec 1 7) (Or.inl rfl) b1
      have hl := Ieee.leb _ _ c1 a1
      rw [c2] at hl
      push_cast at hl d2
      rw [one_mul] at hl d2
      rw [abs_of_pos (not_le.mp hs), if_neg hs]
      by_cases hc : toR d ≤ toR (Scalar.dec 1 14 : K)
      · rw [if_pos hc, hl.mpr hc, if_pos rfl, d2]
      · rw [if_neg hc, if_neg (fun h => hc (hl.mp h))]
  refine ⟨hfd, ?_, _, _, a2, b2, hval⟩
  rw [hval]
  have h7 : 0 < toR (Scalar.dec 1 7 : K) := by
    have h4 := neg_le_of_abs_le b2
    have : u K * (1 / 10 ^ 7) ≤ 1 / 4 * (1 / 10 ^ 7) := mul_le_mul_of_nonneg_right hu (by norm_num)
    norm_num at *
    linarith
  have h14 : 0 < toR (Scalar.dec 1 14 : K) := by
    have h4 := neg_le_of_abs_le a2
    have : u K * (1 / 10 ^ 14) ≤ 1 / 4 * (1 / 10 ^ 14) := mul_le_mul_of_nonneg_right hu (by norm_num)
    norm_num at *
    linarith
  split
  · split
    · exact neg_ne_zero.mpr h7.ne'
    · exact h7.ne'
  · intro h0
    rename_i hc
    rw [h0, abs_zero] at hc
    exact hc h14.le

/-! ## Matrices -/

theorem Csc.map_col {L : Type} (f : K → L) (A : Csc K) (c : Nat) :
    (A.map f).col c = (A.col c).map (fun e => (e.1, f e.2)) := by
  unfold Csc.col Csc.map
  rw [List.map_map]
  rfl

theorem Csc.map_entry (f : K → ℝ) (A : Csc K) (r c : Nat) :
    (A.map f).entry r c = sumR f (A.col c) r := by
  rw [Csc.entry_eq_colSum, Csc.map_col]
  rfl

theorem sumR_one (l : List (Nat × K)) (r : Nat) : sumR (fun _ => 1) l r = cntR l r := by
  induction l with
  | nil => simp [sumR_nil, cntR]
  | cons e l ih =>
    rw [sumR_cons, cntR_cons, ih]
    push_cast
    rfl

theorem cellNnz_eq (A : Csc K) (r c : Nat) : A.cellNnz r c = cntR (A.col c) r := by
  have h : ((A.map (fun _ => (1 : ℝ))).entry r c) = A.cellNnz r c := by
    unfold Csc.entry Csc.cellNnz Csc.map
    rw [card_filter]
    push_cast
    rfl
  rw [Csc.map_entry, sumR_one] at h
  exact_mod_cast h.symm

theorem sumR_permCol {n : Nat} {A : Csc K} (hA : A.WF) (hAn : A.n = n) (hAm : A.m = n)
    {p q : Nat → Nat} (hp : PermPair n p q) (f : K → ℝ) {i k : Nat} (hi : i < n) (hk : k < n) :
    sumR f (permCol A p q k) i = (A.map f).entry (p i) (p k) := by
  rw [← colSum_permCol (Csc.map_wf (f := f) hA) hAn hAm hp hi hk]
  unfold sumR permCol
  rw [Csc.map_col, List.map_map, List.map_map]
  rfl

theorem cntR_permCol {n : Nat} {A : Csc K} (hA : A.WF) (hAn : A.n = n) (hAm : A.m = n)
    {p q : Nat → Nat} (hp : PermPair n p q) {i k : Nat} (hi : i < n) (hk : k < n) :
    cntR (permCol A p q k) i = A.cellNnz (p i) (p k) := by
  have h := sumR_permCol hA hAn hAm hp (fun _ => (1 : ℝ)) hi hk
  rw [Csc.map_entry, sumR_one, sumR_one, ← cellNnz_eq] at h
  exact_mod_cast h

/-- Sizes of the entries of the unit lower triangular factor. -/
theorem facCsc_map_unit (f : K → ℝ) {n : Nat} {s : FSt K} {i j : Nat} (hj : j < n) :
    ((facCsc n s).map f).unitEntry i j = if i = j then 1 else sumR f (s.col j) i := by
  unfold Csc.unitEntry
  rw [Csc.map_entry]
  unfold facCsc
  rw [Csc.ofCols_col n n s.col hj]

theorem factor_round {n : Nat} {A : Csc K} {p q : Nat → Nat} (wf : A.WF) (an : A.n = n)
    (am : A.m = n) (perm : PermPair n p q) (hu : u K ≤ 1 / 4) (he : eta K ≤ 1 / 10 ^ 15) {s : FSt K}
    {raw : Nat → K} {U : Nat → Nat → K} {v : Nat → Nat → ℝ}
    (hr : RowsR (permCol A p q) n s raw U v)
    (hL : ∀ j, j < n → ∀ e ∈ s.col j, fin e.2) (hD : ∀ r, r < n → fin (s.D r)) :
    (∀ r, r < n → fin (raw r) ∧ toR (s.D r) ≠ 0 ∧
      StoredPivot (u K) (eta K) (toR (raw r)) (toR (s.D r))) ∧
    ∀ r, r < n → ∀ i, i ≤ r →
      |ldltEntry n ((facCsc n s).map toR) (fun t => toR (s.D t)) i r
        - ((A.map toR).entry (p i) (p r) + if i = r then toR (s.D r) - toR (raw r) else 0)|
      ≤ ldlErr n A p (facCsc n s) s.D i r := by
  have hpiv : ∀ r, r < n → fin (raw r) ∧ toR (s.D r) ≠ 0 ∧
      StoredPivot (u K) (eta K) (toR (raw r)) (toR (s.D r)) := by
    intro r hr'
    have h := hD r hr'
    rw [hr.D r hr'] at h ⊢
    exact regPivot_round hu he h
  refine ⟨hpiv, ?_⟩
  intro r hr' i hi
  have hu0 := u_nonneg (K := K)
  have hu1 := u_lt_one (K := K)
  have he0 := eta_nonneg (K := K)
  have hin : i < n := by omega
  set c := permCol A p q with hc
  -- notation
  set l : Nat → Nat → ℝ := fun a b => sumR toR (s.col b) a with hl
  have hnd : ∀ j, ((s.col j).map Prod.fst).Nodup := by
    intro j
    rw [hr.rows j]
    exact (fillRows_sorted n j).imp (fun h => Nat.ne_of_lt h)
  have habs : ∀ a b, sumR (fun a => |toR a|) (s.col b) a = |l a b| := fun a b =>
    sumR_abs (hnd b) a
  have hzero : ∀ a b, ¬ Fill (patOf c) a b → l a b = 0 := by
    intro a b hf
    refine sumR_zero ?_
    intro hm
    rw [hr.rows b] at hm
    exact hf (mem_fillRows.mp hm).2
  have hup : ∀ a b, a ≤ b → l a b = 0 := fun a b hab => hzero a b (fun hf => by
    have := hf.lt
    omega)
  -- rows of the factor and values before division
  have hlv : ∀ t, t < r → |toR (s.D t) * l r t - v r t| ≤ u K * |v r t| + eta K * |toR (s.D t)| := by
    intro t ht
    by_cases hf : Fill (patOf c) r t
    · have hmem := hr.ent r hr' t hf
      have hval : l r t = toR (U r t / s.D t) := by
        have key : ∀ ll : List (Nat × K), (ll.map Prod.fst).Nodup → (r, U r t / s.D t) ∈ ll →
            sumR toR ll r = toR (U r t / s.D t) := by
          intro ll
          induction ll with
          | nil => intro _ h; simp at h
          | cons e ll ih =>
            intro h1 h2
            rw [List.map_cons, List.nodup_cons] at h1
            rw [sumR_cons]
            rcases List.mem_cons.mp h2 with h2 | h2
            · subst h2
              rw [if_pos rfl, sumR_zero h1.1, add_zero]
            · have : r ∈ ll.map Prod.fst := List.mem_map_of_mem h2
              have h4 : e.1 ≠ r := fun h3 => h1.1 (by rw [h3]; exact this)
              rw [if_neg h4, zero_add]
              exact ih h1.2 h2
        exact key _ (hnd t) hmem
      have hfin := hL t (by omega) _ hmem
      obtain ⟨h1, h2⟩ := Ieee.div _ _ hfin (hD t (by omega)) (hpiv t (by omega)).2.1
      rw [hval, hr.val r hr' t hf]
      have hd0 : 0 < |toR (s.D t)| := abs_pos.mpr (hpiv t (by omega)).2.1
      have h3 := mul_le_mul_of_nonneg_left h2 hd0.le
      rw [← abs_mul, mul_sub, mul_div_cancel₀ _ (hpiv t (by omega)).2.1] at h3
      refine h3.trans (le_of_eq ?_)
      rw [abs_div]
      field_simp
    · rw [hzero r t hf, hr.supp r hr' t hf]
      simp only [mul_zero, sub_zero, abs_zero, zero_add]
      exact mul_nonneg he0 (abs_nonneg _)
  -- the entry of `L D Lᵀ` as a sum over the first columns
  have hent : ∀ (f : K → ℝ) (d : Nat → ℝ), (∀ a b, a ≤ b → sumR f (s.col b) a = 0) →
      ∀ g : Nat → ℝ, ∑ t ∈ range n, ((facCsc n s).map f).unitEntry i t * d t * g t
        = ∑ t ∈ range i, sumR f (s.col t) i * d t * g t + d i * g i := by
    intro f d hz g
    rw [← sum_subset (s₁ := range (i + 1)) (by
      intro t ht
      simp only [mem_range] at ht ⊢
      omega) (by
      intro t ht ht2
      simp only [mem_range, not_lt] at ht ht2
      rw [facCsc_map_unit f ht, if_neg (by omega), hz i t (by omega)]
      ring), sum_range_succ, facCsc_map_unit f hin, if_pos rfl, one_mul]
    congr 1
    refine sum_congr rfl ?_
    intro t ht
    rw [mem_range] at ht
    rw [facCsc_map_unit f (by omega), if_neg (by omega)]
  have hupA : ∀ a b, a ≤ b → sumR (fun a => |toR a|) (s.col b) a = 0 := by
    intro a b hab
    rw [habs, hup a b hab, abs_zero]
  have hrow : ∀ f : K → ℝ, ∀ t, t < r → ((facCsc n s).map f).unitEntry r t = sumR f (s.col t) r := by
    intro f t ht
    rw [facCsc_map_unit f (by omega), if_neg (by omega)]
  set W := |toR (s.D i)| * (((facCsc n s).map (fun a => |toR a|)).unitEntry r i) with hW
  have hE : ldlErr n A p (facCsc n s) s.D i r = ldlBound (u K) (eta K) (cntR (c r) i + i)
      (sumR (fun a => |toR a|) (c r) i)
      (∑ t ∈ range i, |l i t| * |toR (s.D t)| * |l r t| + W)
      (∑ t ∈ range i, |l i t| * |toR (s.D t)| + |toR (s.D i)|) := by
    unfold ldlErr
    rw [← cntR_permCol wf an am perm hin hr', ← sumR_permCol wf an am perm _ hin hr']
    congr 1
    · unfold ldltEntry
      rw [hent _ _ hupA]
      congr 1
      refine sum_congr rfl ?_
      intro t ht
      rw [mem_range] at ht
      rw [habs, hrow _ t (by omega), habs]
    · have := hent (fun a => |toR a|) (fun t => |toR (s.D t)|) hupA (fun _ => 1)
      simp only [mul_one] at this
      rw [this]
      congr 1
      refine sum_congr rfl ?_
      intro t _
      rw [habs]
  have hM : ldltEntry n ((facCsc n s).map toR) (fun t => toR (s.D t)) i r
      = ∑ t ∈ range i, l i t * toR (s.D t) * l r t
        + toR (s.D i) * ((facCsc n s).map toR).unitEntry r i := by
    unfold ldltEntry
    rw [hent _ _ hup]
    congr 1
    refine sum_congr rfl ?_
    intro t ht
    rw [mem_range] at ht
    rw [hrow _ t (by omega)]
  rw [hE, hM, ← sumR_permCol wf an am perm toR hin hr', ← hc]
  have hW0 : 0 ≤ W := by
    refine mul_nonneg (abs_nonneg _) ?_
    rw [facCsc_map_unit _ hin]
    split
    · exact zero_le_one
    · rw [habs]; exact abs_nonneg _
  by_cases hir : i = r
  · subst hir
    rw [if_pos rfl, facCsc_map_unit _ hin, if_pos rfl, mul_one]
    obtain ⟨_, h2⟩ := hr.diag i hr' (hpiv i hr').1
    have h3 := ldl_entry_real (i := i) (c := cntR (c i) i + i) (l := l i)
      (d := fun t => toR (s.D t)) (lr := l i) (v := v i) (a := sumR toR (c i) i)
      (wa := sumR (fun a => |toR a|) (c i) i) (X := toR (raw i)) (Z := toR (raw i)) (W := W)
      (V := |toR (s.D i)|) hu0 hu1 he0 hW0 (abs_nonneg _) (fun t ht => hlv t ht) (by
        simp only [habs] at h2
        refine le_trans (le_of_eq ?_) h2
        congr 1
        ring) (by
        rw [sub_self, abs_zero]
        exact div_nonneg (add_nonneg (mul_nonneg hu0 hW0) (mul_nonneg he0 (abs_nonneg _)))
          (by linarith))
    refine le_trans (le_of_eq ?_) h3
    congr 1
    ring
  · have hlt : i < r := by omega
    rw [if_neg hir, add_zero, facCsc_map_unit _ hin, if_neg (fun h => hir h.symm)]
    have hWe : W = |toR (s.D i)| * |l r i| := by
      rw [hW, facCsc_map_unit _ hin, if_neg (fun h => hir h.symm), habs]
    refine ldl_entry_real (X := v r i) hu0 hu1 he0 hW0 (abs_nonneg _)
      (fun t ht => hlv t (by omega)) ?_ ?_
    · by_cases hf : Fill (patOf c) r i
      · have hfin : fin (U r i) :=
          (Ieee.div _ _ (hL i hin _ (hr.ent r hr' i hf)) (hD i hin) (hpiv i hin).2.1).1
        obtain ⟨_, h2⟩ := hr.off r hr' i hf hfin
        simp only [habs] at h2
        rw [hr.val r hr' i hf]
        refine le_trans (le_of_eq ?_) h2
        congr 1
        ring
      · have hz : ∑ t ∈ range i, l i t * v r t = 0 := by
          refine sum_eq_zero ?_
          intro t ht
          rw [mem_range] at ht
          by_cases h1 : Fill (patOf c) i t
          · rw [hr.supp r hr' t (fun h2 => hf (Fill.step ht hlt h2 h1)), mul_zero]
          · rw [hzero i t h1, zero_mul]
        rw [hz, hr.supp r hr' i hf, sumR_zero (fun hm => hf (Fill.base hm hlt))]
        simp only [add_zero, sub_zero, abs_zero]
        refine errBound_nonneg hu0 he0 (add_nonneg ?_ (sum_nonneg fun t _ =>
          mul_nonneg (abs_nonneg _) (abs_nonneg _))) _
        rw [sumR_zero (fun hm => hf (Fill.base hm hlt))]
    · have h1 := hlv i hlt
      rw [hWe, le_div_iff₀ (by linarith)]
      have h2 : |v r i| ≤ |toR (s.D i) * l r i - v r i| + |toR (s.D i) * l r i| := by
        have := abs_sub_abs_le_abs_sub (v r i) (toR (s.D i) * l r i)
        rw [abs_sub_comm] at this
        linarith
      rw [abs_mul] at h2
      have h3 : |toR (s.D i) * l r i - v r i| * (1 - u K)
          ≤ u K * (|v r i| - |toR (s.D i) * l r i - v r i|) + eta K * |toR (s.D i)| := by
        nlinarith
      have h4 : u K * (|v r i| - |toR (s.D i) * l r i - v r i|)
          ≤ u K * (|toR (s.D i)| * |l r i|) := mul_le_mul_of_nonneg_left (by linarith) hu0
      linarith

theorem facCsc_fin {n : Nat} {s : FSt K} (h : ∀ k, k < (facCsc n s).nnz → fin ((facCsc n s).pr k)) :
    ∀ j, j < n → ∀ e ∈ s.col j, fin e.2 := by
  intro j hj e he
  have hm : e ∈ flatTo s.col n := mem_flatTo.mpr ⟨j, hj, he⟩
  obtain ⟨k, hk, rfl⟩ := List.getElem_of_mem hm
  have h1 := Csc.ofCols_get n n s.col hk
  rw [List.getElem?_eq_getElem hk, Option.some.injEq] at h1
  rw [h1]
  exact h k hk

/-- **C61**: in rounded arithmetic, with possible overflow and underflow, the factorisation runs and
if the stored numbers are finite, then the pivots are not zero and `L D Lᵀ = P A Pᵀ + E + F` on the
upper triangle: `E` is the diagonal change of small pivots (`raw` are the computed pivots) and each
entry of `F` is at most `ldlErr`, a small multiple of `|A|` and `|L| |D| |Lᵀ|`. -/
theorem C61_factorisation {n : Nat} {A : Csc K} {p q : Nat → Nat} {Ap Ai : Buf Int} {Ax : Buf K}
    {P Pinv : Option (Buf Int)} (h : LdlArgs n A p q Ap Ai P) (hAx : Buf.Has Ax A.nnz A.pr)
    (hu : u K ≤ 1 / 4) (he : eta K ≤ 1 / 10 ^ 15)
    {Lp0 Parent0 Lnz0 Flag0 : Buf Int} (hLp : n + 1 ≤ Lp0.length) (hPar : n ≤ Parent0.length)
    (hLnz : n ≤ Lnz0.length) (hFlag : n ≤ Flag0.length)
    (hPinv : P.isSome → ∃ Q, Pinv = some Q ∧ n ≤ Q.length) (hPn : P = none → Pinv = none)
    {o : SymOut} (ho : LDL_symbolic n Ap Ai Lp0 Parent0 Lnz0 Flag0 P Pinv = .ok o)
    {lnz : Nat} (hlnz : rd o.Lp n = .ok (lnz : Int)) {Li Pattern : Buf Int} {Lx D Y : Buf K}
    (hLi : lnz ≤ Li.length) (hLx : lnz ≤ Lx.length) (hD : n ≤ D.length) (hY : n ≤ Y.length)
    (hPat : n ≤ Pattern.length) :
    ∃ st L d, LDL_numeric n Ap Ai Ax o.Lp o.Parent ⟨o.Lnz, Li, Lx, D, Y, Pattern, o.Flag⟩ P o.Pinv
        = .ok ((n : Int), st) ∧ HoldsFactor n o.Lp st.Li st.Lx st.D L d ∧
      ((∀ k, k < L.nnz → fin (L.pr k)) → (∀ r, r < n → fin (d r)) → ∃ raw : Nat → ℝ,
        (∀ r, r < n → toR (d r) ≠ 0 ∧ StoredPivot (u K) (eta K) (raw r) (toR (d r))) ∧
        ∀ r, r < n → ∀ i, i ≤ r → |ldltEntry n (L.map toR) (fun t => toR (d t)) i r
          - ((A.map toR).entry (p i) (p r) + if i = r then toR (d r) - raw r else 0)|
            ≤ ldlErr n A p L d i r) := by
  have hs := LDL_symbolic_spec h hLp hPar hLnz hFlag hPinv hPn
  obtain ⟨hd, l1, l2, l3, l4, _⟩ := hs.elim ho
  have hlp : Buf.Has o.Lp (n + 1) (fun j => (lpOf (permPat A p q) n j : Int)) := hd.lp
  have hz : lnz = lpOf (permPat A p q) n n := by
    rw [hlp.rd (by omega)] at hlnz
    simpa using hlnz.symm
  obtain ⟨⟨r, st⟩, h1, h2, h3, s, h4, h5⟩ := LDL_numeric_spec h hAx hd.pinv hlp hd.parent
    (st := ⟨o.Lnz, Li, Lx, D, Y, Pattern, o.Flag⟩)
    ⟨by simp only; omega, by simp only; omega, by simp only; omega, by simp only; omega,
      by simp only; omega, by simp only; omega, by simp only; omega⟩
  simp only at h2 h3 h5
  subst h2
  refine ⟨st, facCsc n s, s.D, h1, h5.factor hlp, ?_⟩
  intro f1 f2
  obtain ⟨raw, U, v, hr⟩ := h4.round
  obtain ⟨g1, g2⟩ := factor_round h.wf h.an h.am h.perm hu he hr (facCsc_fin f1) f2
  exact ⟨fun r => toR (raw r), fun r hr' => (g1 r hr').2, g2⟩

/-! ## Solves -/

theorem col_fill {L : Csc K} {n : Nat} (hn : L.n = n) (r : Nat) :
    L.rowNnz r = ∑ t ∈ range n, cntR (L.col t) r := by
  unfold Csc.rowNnz
  rw [hn]
  refine sum_congr rfl ?_
  intro c _
  rw [← cellNnz_eq]
  rfl

theorem solve_round {n : Nat} {col : Nat → List (Nat × K)}
    (hrows : ∀ j, j < n → ∀ e ∈ col j, j < e.1 ∧ e.1 < n)
    (hnd : ∀ j, j < n → ((col j).map Prod.fst).Nodup) {L : Csc K} (hcol : ∀ j, j < n → L.col j = col j)
    (hn : (1 + u K) ^ (2 * n) < 2) {d b : Nat → K} (hd : ∀ i, i < n → fin (d i) ∧ toR (d i) ≠ 0)
    (hw : ∀ i, i < n → fin (ltsolF col n (dsolF d (lsolF col n b)) i)) {i : Nat} (hi : i < n) :
    |∑ c ∈ range n, ldltEntry n (L.map toR) (fun t => toR (d t)) i c
        * toR (ltsolF col n (dsolF d (lsolF col n b)) c) - toR (b i)|
      ≤ solveBound (u K) (eta K) n (L.map (fun a => |toR a|)) (fun t => |toR (d t)|)
          (fun t => |toR (ltsolF col n (dsolF d (lsolF col n b)) t)|) i := by
  have hu0 := u_nonneg (K := K)
  have hu1 := u_lt_one (K := K)
  have he0 := eta_nonneg (K := K)
  have hr1 : ∀ j, j < n → ∀ e ∈ col j, j < e.1 := fun j hj e he => (hrows j hj e he).1
  set y := lsolF col n b with hy
  set z := dsolF d y with hz
  set w := ltsolF col n z with hwd
  have hent : ∀ (f : K → ℝ) (r c : Nat), c < n → (L.map f).entry r c = sumR f (col c) r := by
    intro f r c hc
    rw [Csc.map_entry, hcol c hc]
  have habs : ∀ r c, c < n → (L.map (fun a => |toR a|)).entry r c = |(L.map toR).entry r c| := by
    intro r c hc
    rw [hent _ r c hc, hent _ r c hc, sumR_abs (hnd c hc)]
  have hfz : ∀ i, i < n → fin (z i) := fun i hi => ltsolF_fin hrows z hi (hw i hi)
  have hdiv : ∀ i, i < n → fin (y i) ∧
      |toR (d i) * toR (z i) - toR (y i)| ≤ u K * |toR (y i)| + eta K * |toR (d i)| := by
    intro i hi
    obtain ⟨h1, h2⟩ := Ieee.div (y i) (d i) (hfz i hi) (hd i hi).1 (hd i hi).2
    refine ⟨h1, ?_⟩
    have hd0 : 0 < |toR (d i)| := abs_pos.mpr (hd i hi).2
    have h3 := mul_le_mul_of_nonneg_left h2 hd0.le
    rw [← abs_mul, mul_sub, mul_div_cancel₀ _ (hd i hi).2] at h3
    refine h3.trans (le_of_eq ?_)
    rw [abs_div]
    field_simp
  have hz0 : ∀ (f : K → ℝ) (i : Nat), i < n → (L.map f).entry i i = 0 := by
    intro f i hi
    rw [hent f i i hi]
    refine sumR_zero ?_
    intro hm
    obtain ⟨e, he, h1⟩ := List.mem_map.mp hm
    have := hr1 i hi e he
    omega
  refine solve_real (b := fun t => toR (b t)) (w := fun t => toR (w t)) (y := fun t => toR (y t))
    (z := fun t => toR (z t)) (ck := fun t => (col t).length) (rk := fun r => ∑ t ∈ range n, cntR (col t) r)
    hu0 hu1 he0 hn ?_ (hz0 _) (hz0 _) ?_ ?_ ?_ (fun i hi => (hdiv i hi).2) ?_ hi
  · intro r c hc
    unfold Csc.unitEntry
    split
    · simp
    · rw [habs r c hc]
  · intro t ht
    have h1 : ((col t).map Prod.fst).length ≤ (List.range n).length := by
      refine (List.subperm_of_subset (hnd t ht) ?_).length_le
      intro r hr
      obtain ⟨e, he, rfl⟩ := List.mem_map.mp hr
      exact List.mem_range.mpr (hrows t ht e he).2
    simpa using h1
  · intro r _
    calc ∑ t ∈ range n, cntR (col t) r ≤ ∑ _t ∈ range n, 1 :=
          sum_le_sum fun t ht => cntR_le_one (hnd t (mem_range.mp ht)) r
      _ = n := by simp
  · intro r hr
    have h1 := (lsolF_acc hr1 b r (hdiv r hr).1).2
    rw [← hy] at h1
    refine le_trans (le_of_eq ?_) (h1.trans (le_of_eq ?_))
    · congr 3
      exact sum_congr rfl fun t ht => by rw [hent _ _ _ (mem_range.mp ht)]
    · unfold Ieee.err
      congr 2
      exact sum_congr rfl fun t ht => by rw [hent _ _ _ (mem_range.mp ht)]
  · intro j hj
    have h1 := (ltsolF_acc hrows z hj (hw j hj)).2
    rw [← hwd] at h1
    refine le_trans (le_of_eq ?_) (h1.trans (le_of_eq ?_))
    · congr 3
      exact sum_congr rfl fun t ht => by rw [hent _ _ _ hj]
    · unfold Ieee.err
      congr 2
      exact sum_congr rfl fun t ht => by rw [hent _ _ _ hj]

theorem Csc.col_rows {L : Csc K} {n j : Nat} (hm : L.m = n) (hn : L.n = n) (hwf : L.WF)
    (hlow : ∀ c, c < n → ∀ r, L.Stored r c → c < r) (hj : j < n) :
    ∀ e ∈ L.col j, j < e.1 ∧ e.1 < n := by
  intro e he
  unfold Csc.col at he
  obtain ⟨t, ht, rfl⟩ := List.mem_map.mp he
  rw [List.mem_range] at ht
  refine ⟨hlow j hj _ ⟨L.jc j + t, by omega, by omega, rfl⟩, ?_⟩
  have h1 : L.jc (j + 1) ≤ L.nnz := hwf.jc_mono (by omega) (le_refl L.n)
  have h2 := hwf.ir_lt (L.jc j + t) (by unfold Csc.nnz at h1; omega)
  rwa [hm] at h2

theorem Csc.col_nodup {L : Csc K} (hs : L.Sorted) {j : Nat} (hj : j < L.n) :
    ((L.col j).map Prod.fst).Nodup := by
  have hlt : ∀ k l, L.jc j ≤ k → k < l → l < L.jc (j + 1) → L.ir k < L.ir l := by
    intro k l h1 h2
    induction l, h2 using Nat.le_induction with
    | base => intro h3; exact hs j hj k h1 h3
    | succ l hl ih =>
      intro h3
      exact (ih (by omega)).trans (hs j hj l (by omega) h3)
  unfold Csc.col
  rw [List.map_map]
  refine List.Nodup.map_on ?_ List.nodup_range
  intro a ha b hb hab
  rw [List.mem_range] at ha hb
  simp only [Function.comp] at hab
  rcases Nat.lt_trichotomy a b with h | h | h
  · have := hlt (L.jc j + a) (L.jc j + b) (by omega) (by omega) (by omega)
    omega
  · exact h
  · have := hlt (L.jc j + b) (L.jc j + a) (by omega) (by omega) (by omega)
    omega

/-- **C62**, for any stored factor and any permutation: in rounded arithmetic the five solution
steps run, and if the solution `x` is finite, its residual in `(Pᵀ L D Lᵀ P) x = b` is at most
`solveBound`, a small multiple of `|L| |D| |Lᵀ| |x|`, in every row. -/
theorem C62_solve_factor {n : Nat} {p q : Nat → Nat} (hp : PermPair n p q) {Lp Li : Buf Int}
    {Lx D : Buf K} {L : Csc K} {d : Nat → K} (h : HoldsFactor n Lp Li Lx D L d)
    (hn : (1 + u K) ^ (2 * n) < 2) (hd : ∀ i, i < n → fin (d i) ∧ toR (d i) ≠ 0) {X B : Buf K}
    {P : Buf Int} {b : Nat → K} (hX : n ≤ X.length) (hB : Buf.Has B n b)
    (hP : Buf.Has P n (fun i => (p i : Int))) :
    ∃ X1 X2 X3 X4 B' x, LDL_perm n X B P = .ok X1 ∧ LDL_lsolve n X1 Lp Li Lx = .ok X2 ∧
      LDL_dsolve n X2 D = .ok X3 ∧ LDL_ltsolve n X3 Lp Li Lx = .ok X4 ∧
      LDL_permt n B X4 P = .ok B' ∧ Buf.Has B' n x ∧
      ((∀ i, i < n → fin (x i)) → ∀ r, r < n →
        |∑ c ∈ range n, ldltEntry n (L.map toR) (fun t => toR (d t)) (q r) (q c) * toR (x c)
            - toR (b r)|
          ≤ solveBound (u K) (eta K) n (L.map (fun a => |toR a|)) (fun t => |toR (d t)|)
              (fun t => |toR (x (p t))|) (q r)) := by
  obtain ⟨X1, e1, l1, h1, _⟩ := LDL_perm_spec hp.p_lt hX hP hB
  obtain ⟨X2, e2, l2, h2⟩ := LDL_lsolve_spec h.lfac h1
  obtain ⟨X3, e3, l3, h3⟩ := LDL_dsolve_spec h2 h.D
  obtain ⟨X4, e4, l4, h4⟩ := LDL_ltsolve_spec h.lfac h3
  obtain ⟨B', e5, l5, h5, _⟩ := LDL_permt_spec hp hB.le_length hP h4
  refine ⟨X1, X2, X3, X4, B', _, e1, e2, e3, e4, e5, h5, ?_⟩
  intro hf r hr
  have h6 := solve_round (L := L) (col := L.col)
    (fun j hj => Csc.col_rows h.lm h.ln h.wf h.lower hj)
    (fun j hj => Csc.col_nodup h.sorted (by rw [h.ln]; exact hj)) (fun _ _ => rfl) hn hd
    (b := fun i => b (p i)) (fun i hi => by
      have := hf (p i) (hp.p_lt i hi)
      rwa [hp.qp i hi] at this) (hp.q_lt r hr)
  rw [hp.pq r hr] at h6
  refine le_trans (le_of_eq ?_) (h6.trans (le_of_eq ?_))
  · congr 2
    rw [← sum_perm hp]
    refine sum_congr rfl ?_
    intro c hc
    rw [hp.qp c (mem_range.mp hc)]
  · unfold solveBound
    have hT : ∀ t, ∑ r ∈ range n, (L.map (fun a => |toR a|)).unitEntry r t
          * |toR (ltsolF L.col n (dsolF d (lsolF L.col n fun i => b (p i))) r)|
        = ∑ r ∈ range n, (L.map (fun a => |toR a|)).unitEntry r t
          * |toR (ltsolF L.col n (dsolF d (lsolF L.col n fun i => b (p i))) (q (p r)))| := by
      intro t
      exact sum_congr rfl fun r hr => by rw [hp.qp r (mem_range.mp hr)]
    simp only [hT]

theorem kkt_round {N : Nat} {A : Csc K} {p q : Nat → Nat} {s : FSt K} {Lp Li : Buf Int}
    {Lx D : Buf K} (wf : A.WF) (an : A.n = N) (am : A.m = N) (sym : (A.map toR).Symm)
    (perm : PermPair N p q) (hu : u K ≤ 1 / 4) (he : eta K ≤ 1 / 10 ^ 15)
    (hn : (1 + u K) ^ (2 * N) < 2) (h4 : Rows (permCol A p q) N s)
    (hf : HoldsFactor N Lp Li Lx D (facCsc N s) s.D)
    (f1 : ∀ k, k < (facCsc N s).nnz → fin ((facCsc N s).pr k)) (f2 : ∀ r, r < N → fin (s.D r)) :
    ∃ raw : Nat → ℝ,
      (∀ r, r < N → toR (s.D r) ≠ 0 ∧ StoredPivot (u K) (eta K) (raw r) (toR (s.D r))) ∧
      ∀ b : Nat → K, (∀ r, r < N → fin (solveF N s p q b r)) →
      ∀ r, r < N → fin (b r) ∧ |(A.map toR).mulVec (fun c => toR (solveF N s p q b c)) r
          + (toR (s.D (q r)) - raw (q r)) * toR (solveF N s p q b r) - toR (b r)|
        ≤ kktErr N A p q (facCsc N s) s.D (solveF N s p q b) r := by
  obtain ⟨raw, U, v, hr⟩ := h4.round
  obtain ⟨g1, g2⟩ := factor_round wf an am perm hu he hr (facCsc_fin f1) f2
  refine ⟨fun r => toR (raw r), fun r hr' => (g1 r hr').2, ?_⟩
  intro b f3 r hr'
  set w := ltsolF s.col N (dsolF s.D (lsolF s.col N (fun i => b (p i)))) with hw
  have hx : ∀ i, solveF N s p q b i = w (q i) := fun i => rfl
  have hcol : ∀ j, j < N → (facCsc N s).col j = s.col j := fun j hj => Csc.ofCols_col N N s.col hj
  have hrw : ∀ j, j < N → ∀ e ∈ s.col j, j < e.1 ∧ e.1 < N := fun j hj e he => by
    rw [← hcol j hj] at he
    exact Csc.col_rows hf.lm hf.ln hf.wf hf.lower hj e he
  have hfw : ∀ i, i < N → fin (w i) := fun i hi => by
    have := f3 (p i) (perm.p_lt i hi)
    rwa [hx, perm.qp i hi] at this
  refine ⟨?_, ?_⟩
  · have h0 := ltsolF_fin hrw _ (perm.q_lt r hr') (hfw _ (perm.q_lt r hr'))
    have h1 := (Ieee.div _ _ h0 (f2 _ (perm.q_lt r hr')) (g1 _ (perm.q_lt r hr')).2.1).1
    have h2 := lsolF_fin _ _ _ h1
    rwa [perm.pq r hr'] at h2
  have h6 := solve_round (L := facCsc N s) (col := s.col) (d := s.D) (b := fun i => b (p i))
    hrw (fun j hj => by
      rw [← hcol j hj]
      exact Csc.col_nodup hf.sorted (by rw [hf.ln]; exact hj)) hcol hn
    (fun i hi => ⟨f2 i hi, (g1 i hi).2.1⟩) hfw (perm.q_lt r hr')
  rw [perm.pq r hr'] at h6
  simp only [← hw] at h6
  -- symmetric form of the factorisation error
  have hsymm : ∀ i j, ldltEntry N ((facCsc N s).map toR) (fun t => toR (s.D t)) i j
      = ldltEntry N ((facCsc N s).map toR) (fun t => toR (s.D t)) j i := by
    intro i j
    unfold ldltEntry
    exact sum_congr rfl fun t _ => by ring
  have hE : ∀ i j, i < N → j < N →
      |ldltEntry N ((facCsc N s).map toR) (fun t => toR (s.D t)) i j
        - ((A.map toR).entry (p i) (p j) + if i = j then toR (s.D i) - toR (raw i) else 0)|
      ≤ ldlErr N A p (facCsc N s) s.D (min i j) (max i j) := by
    intro i j hi hj
    rcases Nat.le_total i j with hij | hij
    · rw [min_eq_left hij, max_eq_right hij]
      refine le_trans (le_of_eq ?_) (g2 j hj i hij)
      by_cases hc : i = j
      · subst hc; rfl
      · rw [if_neg hc, if_neg hc]
    · rw [min_eq_right hij, max_eq_left hij]
      refine le_trans (le_of_eq ?_) (g2 i hi j hij)
      have e1 : (A.map toR).entry (p i) (p j) = (A.map toR).entry (p j) (p i) := by
        refine sym _ _ ?_ ?_
        · show p i < A.n
          rw [an]; exact perm.p_lt i hi
        · show p j < A.n
          rw [an]; exact perm.p_lt j hj
      rw [hsymm i j, e1]
      by_cases hc : i = j
      · subst hc; rfl
      · rw [if_neg hc, if_neg (fun e => hc e.symm)]
  have hmv : (A.map toR).mulVec (fun c => toR (w (q c))) r
      = ∑ c ∈ range N, (A.map toR).entry (p (q r)) (p (q c)) * toR (w (q c)) := by
    unfold Csc.mulVec
    have : (A.map toR).n = N := an
    rw [this]
    refine sum_congr rfl ?_
    intro c hc
    rw [perm.pq r hr', perm.pq c (mem_range.mp hc)]
  have hsum : ∑ c ∈ range N, ldltEntry N ((facCsc N s).map toR) (fun t => toR (s.D t)) (q r) c
        * toR (w c)
      = ∑ c ∈ range N, ldltEntry N ((facCsc N s).map toR) (fun t => toR (s.D t)) (q r) (q c)
        * toR (w (q c)) := by
    rw [← sum_perm perm (f := fun c => ldltEntry N ((facCsc N s).map toR)
      (fun t => toR (s.D t)) (q r) (q c) * toR (w (q c)))]
    refine sum_congr rfl ?_
    intro c hc
    rw [perm.qp c (mem_range.mp hc)]
  have hdiag : ∑ c ∈ range N, (if q r = q c then toR (s.D (q r)) - toR (raw (q r)) else 0)
        * toR (w (q c)) = (toR (s.D (q r)) - toR (raw (q r))) * toR (w (q r)) := by
    rw [sum_eq_single r]
    · rw [if_pos rfl]
    · intro c hc hcr
      rw [if_neg, zero_mul]
      intro h
      apply hcr
      rw [← perm.pq c (mem_range.mp hc), ← h, perm.pq r hr']
    · intro h
      exact absurd (mem_range.mpr hr') h
  have hmain : (A.map toR).mulVec (fun c => toR (w (q c))) r
        + (toR (s.D (q r)) - toR (raw (q r))) * toR (w (q r)) - toR (b r)
      = (∑ c ∈ range N, ldltEntry N ((facCsc N s).map toR) (fun t => toR (s.D t)) (q r) c
          * toR (w c) - toR (b r))
        - ∑ c ∈ range N, (ldltEntry N ((facCsc N s).map toR) (fun t => toR (s.D t)) (q r) (q c)
          - ((A.map toR).entry (p (q r)) (p (q c))
            + if q r = q c then toR (s.D (q r)) - toR (raw (q r)) else 0)) * toR (w (q c)) := by
    rw [hmv, hsum, ← hdiag]
    simp only [sub_mul, add_mul, sum_sub_distrib, sum_add_distrib]
    ring
  unfold kktErr
  simp only [hx]
  rw [hmain, add_comm]
  refine (abs_sub _ _).trans (add_le_add ?_ ?_)
  · refine h6.trans (le_of_eq ?_)
    unfold solveBound
    have hT : ∀ t, ∑ r ∈ range N, ((facCsc N s).map (fun a => |toR a|)).unitEntry r t * |toR (w r)|
        = ∑ r ∈ range N, ((facCsc N s).map (fun a => |toR a|)).unitEntry r t
          * |toR (w (q (p r)))| := by
      intro t
      exact sum_congr rfl fun r hr => by rw [perm.qp r (mem_range.mp hr)]
    simp only [hT]
  · refine (abs_sum_le_sum_abs _ _).trans (sum_le_sum fun c hc => ?_)
    rw [abs_mul]
    exact mul_le_mul_of_nonneg_right (hE _ _ (perm.q_lt r hr') (perm.q_lt c (mem_range.mp hc)))
      (abs_nonneg _)

/-- **C62** and **C61** together for the first solve of setup: `ldlinitialsolve` turns the right-hand
side `b` into a vector `x`, and if the stored numbers are finite, then `(K + E) x = b` up to the
rounding errors of the factorisation and of the solves, for every symmetric matrix `K` and every
permutation. `E` is the diagonal change of small pivots; `raw` are the computed pivots. -/
theorem C62_initial_solve {N : Nat} {A : Csc K} {p q : Nat → Nat} {k : Kkt K}
    (wf : A.WF) (an : A.n = N) (am : A.m = N) (sym : (A.map toR).Symm) (perm : PermPair N p q)
    (hu : u K ≤ 1 / 4) (he : eta K ≤ 1 / 10 ^ 15) (hn : (1 + u K) ^ (2 * N) < 2)
    (mat : k.kktmatrix.Is A) (hP : Buf.Has k.P N (fun i => (p i : Int)))
    (hPinv : N ≤ k.Pinv.length) {b : Nat → K} (hb : Buf.Has k.b N b) {delta : Buf K}
    (hd : N ≤ delta.length) :
    ∃ k' delta' L, ∃ x d : Nat → K, ldlinitialsolve k delta = .ok (1, k', delta') ∧
      Buf.Has k'.b N x ∧ HoldsFactor N k'.Lp k'.Li k'.Lx k'.D L d ∧
      ((∀ k, k < L.nnz → fin (L.pr k)) → (∀ r, r < N → fin (d r)) → (∀ r, r < N → fin (x r)) →
        ∃ raw : Nat → ℝ,
        (∀ r, r < N → toR (d r) ≠ 0 ∧ StoredPivot (u K) (eta K) (raw r) (toR (d r))) ∧
        ∀ r, r < N → |(A.map toR).mulVec (fun c => toR (x c)) r
            + (toR (d (q r)) - raw (q r)) * toR (x r) - toR (b r)|
          ≤ kktErr N A p q L d x r) := by
  obtain ⟨⟨f, k', d'⟩, h1, h2, h3, ⟨s, h4, h5⟩, _⟩ :=
    ldlinitialsolve_spec wf an am perm mat hP hPinv hb hd
  simp only at h2 h3 h4 h5
  subst h2
  have hf := h4.2.factor h3.lp
  refine ⟨k', d', facCsc N s, _, s.D, h1, h5, hf, ?_⟩
  intro f1 f2 f3
  obtain ⟨raw, g1, g2⟩ := kkt_round wf an am sym perm hu he hn h4.1 hf f1 f2
  exact ⟨raw, g1, fun r hr => (g2 b f3 r hr).2⟩

end

/-! ## Examples -/

/-- The matrix `P` of the demo problem in rounded arithmetic. -/
noncomputable def flP : Csc Fl := demoP.map (fun a : ℚ => Fl.num a)

theorem flP_symm : (flP.map Ieee.toR).Symm := by
  have h : ∀ r c, (flP.map Ieee.toR).entry r c = ((demoP.entry r c : ℚ) : ℝ) := by
    intro r c
    unfold Csc.entry flP Csc.map
    rw [show ∀ q : ℚ, (q : ℝ) = Rat.castHom ℝ q from fun _ => rfl, map_sum]
    refine sum_congr rfl ?_
    intro k _
    simp only
    by_cases hk : demoP.ir k = r
    · rw [if_pos hk, if_pos hk]
      rfl
    · rw [if_neg hk, if_neg hk, map_zero]
  intro r c hr hc
  rw [h, h, demoP_symm r c hr hc]

theorem flLdl : LdlArgs 3 flP demoPerm3 demoPerm3 demoP.toSmat.jc demoP.toSmat.ir
    (some (Buf.ofFn 3 (fun i => (demoPerm3 i : Int)))) where
  wf := Csc.map_wf demoP_wf
  an := rfl
  am := rfl
  perm := demoPerm3_pair
  ap := demoP.toSmat_is.jc
  ai := demoP.toSmat_is.ir
  p := Buf.has_ofFn _ _

theorem fl_u : Ieee.u Fl ≤ 1 / 4 := by
  show (2 : ℝ)⁻¹ ^ 53 ≤ 1 / 4
  norm_num

theorem fl_eta : Ieee.eta Fl ≤ 1 / 10 ^ 15 := by
  show (0 : ℝ) ≤ 1 / 10 ^ 15
  norm_num

theorem fl_three : (1 + Ieee.u Fl) ^ (2 * 3) < 2 := by
  show (1 + (2 : ℝ)⁻¹ ^ 53) ^ (2 * 3) < 2
  norm_num

example := C61_factorisation flLdl flP.toSmat_is.pr fl_u fl_eta (o := demoSym)
  (Pinv := some (malloc 3))
  (Lp0 := malloc 4) (Parent0 := malloc 3) (Lnz0 := malloc 3) (Flag0 := malloc 3)
  (by decide) (by decide) (by decide) (by decide) (fun _ => ⟨_, rfl, by decide⟩) (by simp)
  demoSym_eq (lnz := 3) (by decide +kernel) (Li := malloc 3) (Lx := malloc 3)
  (D := malloc 3) (Y := malloc 3) (Pattern := malloc 3) (by decide) (by decide)
  (by simp) (by simp) (by decide)

/-- The factor of the demo of C13 in rounded arithmetic. -/
theorem flL_holds : HoldsFactor 3 demoL.toSmat.jc demoL.toSmat.ir
    (demoL.map (fun a : ℚ => Fl.num a)).toSmat.pr
    (Buf.ofFn 3 (fun i => Fl.num ([2, -3, 5].getD i 0))) (demoL.map (fun a : ℚ => Fl.num a))
    (fun i => Fl.num ([2, -3, 5].getD i 0)) where
  wf := Csc.map_wf demoL_holds.wf
  lm := rfl
  ln := rfl
  sorted := demoL_holds.sorted
  lower := demoL_holds.lower
  lp := demoL.toSmat_is.jc
  li := demoL.toSmat_is.ir
  lx := (demoL.map (fun a : ℚ => Fl.num a)).toSmat_is.pr
  D := Buf.has_ofFn _ _

example := C62_solve_factor demoPerm3_pair flL_holds fl_three
  (by
    intro i hi
    refine ⟨trivial, ?_⟩
    show (([2, -3, 5] : List ℝ).getD i 0) ≠ 0
    interval_cases i <;> norm_num)
  (X := malloc 3) (B := Buf.ofFn 3 (fun i => Fl.num (i : ℝ))) (by simp) (Buf.has_ofFn _ _)
  (Buf.has_ofFn _ _)

/-- A structure as `kkt_initialize` leaves it, in rounded arithmetic. -/
noncomputable def flKkt : Kkt Fl :=
  { kktmatrix := flP.toSmat, P := Buf.ofFn 3 (fun i => (demoPerm3 i : Int)), Pinv := malloc 3
    b := Buf.ofFn 3 (fun i => Fl.num ((i : ℝ) + 1)), UPattern := malloc 3, Parent := [], Flag := []
    Lnz := [], Li := [], Lp := [], Lti := [], Ltp := [], Pattern := [], Y := [], Lx := []
    D := [] }

example := C62_initial_solve (A := flP) (N := 3) (k := flKkt) (Csc.map_wf demoP_wf) rfl rfl flP_symm demoPerm3_pair
  fl_u fl_eta fl_three flP.toSmat_is (Buf.has_ofFn _ _) (by decide) (b := fun i => Fl.num ((i : ℝ) + 1))
  (Buf.has_ofFn _ _) (delta := malloc 3) (by simp)

/-- In exact arithmetic every number is finite and the bounds are zero. -/
example (n : Nat) (A L : Csc ℝ) (p : Nat → Nat) (d : Nat → ℝ) (i r : Nat) :
    ldlErr n A p L d i r = 0 := by
  unfold ldlErr ldlBound
  have h1 : Ieee.u ℝ = 0 := rfl
  have h2 : Ieee.eta ℝ = 0 := rfl
  simp [h1, h2]

example (n : Nat) (L : Csc ℝ) (d w : Nat → ℝ) (i : Nat) :
    solveBound (Ieee.u ℝ) (Ieee.eta ℝ) n L d w i = 0 := by
  unfold solveBound
  have h1 : Ieee.u ℝ = 0 := rfl
  have h2 : Ieee.eta ℝ = 0 := rfl
  simp [h1, h2]

end Verif
