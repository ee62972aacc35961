import Verif.SpecRound
import Verif.Lemmas.State
import Mathlib.Tactic.Linarith
import Mathlib.Tactic.Positivity
import Mathlib.Tactic.GCongr

/-!
# Rounding errors of sums of products, matrix-vector products and norms
-/

set_option linter.unusedSectionVars false

namespace Verif

open Finset

/-! ## Real numbers -/

theorem errBound_zero (u eta w : ℝ) : errBound u eta 0 w = 0 := by simp [errBound]

theorem errBound_nonneg {u eta w : ℝ} (hu : 0 ≤ u) (he : 0 ≤ eta) (hw : 0 ≤ w) (k : Nat) :
    0 ≤ errBound u eta k w := by
  have : (1 : ℝ) ≤ (1 + u) ^ (2 * k) := one_le_pow₀ (by linarith)
  unfold errBound
  have h1 : 0 ≤ ((1 + u) ^ (2 * k) - 1) * w := mul_nonneg (by linarith) hw
  positivity

theorem errBound_mono {u eta w w' : ℝ} (hu : 0 ≤ u) (he : 0 ≤ eta) (hw : 0 ≤ w) (hww : w ≤ w')
    {k k' : Nat} (hk : k ≤ k') : errBound u eta k w ≤ errBound u eta k' w' := by
  have h1 : (1 : ℝ) ≤ (1 + u) ^ (2 * k) := one_le_pow₀ (by linarith)
  have h2 : (1 + u) ^ (2 * k) ≤ (1 + u) ^ (2 * k') := pow_le_pow_right₀ (by linarith) (by omega)
  have h3 : (k : ℝ) ≤ k' := by exact_mod_cast hk
  unfold errBound
  have a1 : ((1 + u) ^ (2 * k) - 1) * w ≤ ((1 + u) ^ (2 * k') - 1) * w' :=
    mul_le_mul (by linarith) hww hw (by linarith)
  have a2 : (k : ℝ) * (1 + u) ^ (2 * k) * eta ≤ k' * (1 + u) ^ (2 * k') * eta := by
    gcongr
  linarith

/-- One rounded term added with rounding. -/
theorem acc_real {u eta V E M T R w : ℝ} {k : Nat} (hu : 0 ≤ u) (he : 0 ≤ eta)
    (h1 : |V - E| ≤ errBound u eta k w) (h2 : |E| ≤ w) (h3 : |M - T| ≤ u * |T| + eta)
    (h4 : |R - (V + M)| ≤ u * |V + M|) :
    |R - (E + T)| ≤ errBound u eta (k + 1) (w + |T|) ∧ |E + T| ≤ w + |T| := by
  have hw : 0 ≤ w := le_trans (abs_nonneg _) h2
  have hT := abs_nonneg T
  refine ⟨?_, (abs_add_le _ _).trans (by linarith)⟩
  set Q := (1 + u) ^ (2 * k) with hQ
  have hQ1 : (1 : ℝ) ≤ Q := one_le_pow₀ (by linarith)
  have hs : errBound u eta (k + 1) (w + |T|)
      = (Q * (1 + u) ^ 2 - 1) * (w + |T|) + ((k : ℝ) + 1) * (Q * (1 + u) ^ 2) * eta := by
    unfold errBound
    rw [show 2 * (k + 1) = 2 * k + 2 by ring, pow_add, ← hQ]
    push_cast
    ring
  unfold errBound at h1
  rw [← hQ] at h1
  have b1 : |V + M| ≤ |V - E| + |E| + |M - T| + |T| := by
    calc |V + M| = |(V - E) + E + ((M - T) + T)| := by ring_nf
      _ ≤ |(V - E) + E| + |(M - T) + T| := abs_add_le _ _
      _ ≤ (|V - E| + |E|) + (|M - T| + |T|) := add_le_add (abs_add_le _ _) (abs_add_le _ _)
      _ = _ := by ring
  have b2 : |R - (E + T)| ≤ |R - (V + M)| + |V - E| + |M - T| := by
    calc |R - (E + T)| = |(R - (V + M)) + (V - E) + (M - T)| := by ring_nf
      _ ≤ |(R - (V + M)) + (V - E)| + |M - T| := abs_add_le _ _
      _ ≤ _ := by linarith [abs_add_le (R - (V + M)) (V - E)]
  have b3 : u * |V + M| ≤ u * (|V - E| + |E| + |M - T| + |T|) := mul_le_mul_of_nonneg_left b1 hu
  have b4 : (1 + u) * |V - E| ≤ (1 + u) * ((Q - 1) * w + k * Q * eta) :=
    mul_le_mul_of_nonneg_left h1 (by linarith)
  have b5 : (1 + u) * |M - T| ≤ (1 + u) * (u * |T| + eta) :=
    mul_le_mul_of_nonneg_left h3 (by linarith)
  have b6 : u * |E| ≤ u * w := mul_le_mul_of_nonneg_left h2 hu
  have t1 : |R - (E + T)| ≤ (1 + u) * ((Q - 1) * w + k * Q * eta) + (1 + u) * (u * |T| + eta)
      + u * w + u * |T| := by linarith
  rw [hs]
  refine t1.trans ?_
  -- compare coefficients
  have c1 : ((1 + u) * Q - 1) * w ≤ (Q * (1 + u) ^ 2 - 1) * w := by
    refine mul_le_mul_of_nonneg_right ?_ hw
    nlinarith [mul_nonneg hu (by linarith : (0 : ℝ) ≤ Q)]
  have c2 : ((1 + u) ^ 2 - 1) * |T| ≤ (Q * (1 + u) ^ 2 - 1) * |T| := by
    refine mul_le_mul_of_nonneg_right ?_ hT
    nlinarith [sq_nonneg (1 + u)]
  have c3 : ((1 + u) * k * Q + (1 + u)) * eta ≤ (((k : ℝ) + 1) * (Q * (1 + u) ^ 2)) * eta := by
    refine mul_le_mul_of_nonneg_right ?_ he
    have hk : (0 : ℝ) ≤ k := Nat.cast_nonneg k
    have e1 : (1 + u) ≤ (1 + u) ^ 2 := by nlinarith
    have e2 : (1 + u) * (k * Q) ≤ (1 + u) ^ 2 * (k * Q) :=
      mul_le_mul_of_nonneg_right e1 (mul_nonneg hk (by linarith))
    have e3 : (1 + u) ≤ (1 + u) ^ 2 * Q := by nlinarith
    nlinarith
  nlinarith

section

variable {K : Type} [Zero K] [One K] [Add K] [Sub K] [Mul K] [Div K] [Neg K] [Scalar K] [Ieee K]

open Ieee

/-- The computed number `v`, if finite, is the exact number `e` up to the error of a sum of `k`
terms of total weight `w`. -/
def Acc (v : K) (k : Nat) (e w : ℝ) : Prop :=
  fin v → |e| ≤ w ∧ |toR v - e| ≤ Ieee.err K k w

theorem Acc.zero : Acc (0 : K) 0 0 0 := fun _ =>
  ⟨by simp, by rw [(Ieee.zero (K := K)).2, Ieee.err, errBound_zero]; simp⟩

theorem Acc.mono {v : K} {k k' : Nat} {e w w' : ℝ} (h : Acc v k e w) (hk : k ≤ k') (hw : w ≤ w') :
    Acc v k' e w' := fun hf => by
  obtain ⟨h1, h2⟩ := h hf
  exact ⟨h1.trans hw, h2.trans (errBound_mono u_nonneg eta_nonneg
    (le_trans (abs_nonneg _) h1) hw hk)⟩

theorem Acc.add {v m : K} {k : Nat} {e w t : ℝ} (h : Acc v k e w)
    (hm : fin m → |toR m - t| ≤ u K * |t| + eta K) : Acc (v + m) (k + 1) (e + t) (w + |t|) := by
  intro hf
  obtain ⟨f1, f2, f3⟩ := Ieee.add v m hf
  obtain ⟨h1, h2⟩ := h f1
  have := acc_real u_nonneg eta_nonneg h2 h1 (hm f2) f3
  exact ⟨this.2, this.1⟩

theorem Acc.sub {v m : K} {k : Nat} {e w t : ℝ} (h : Acc v k e w)
    (hm : fin m → |toR m - t| ≤ u K * |t| + eta K) : Acc (v - m) (k + 1) (e - t) (w + |t|) := by
  intro hf
  obtain ⟨f1, f2, f3⟩ := Ieee.sub v m hf
  obtain ⟨h1, h2⟩ := h f1
  have hm' := hm f2
  have := acc_real (M := -toR m) (T := -t) (R := toR (v - m)) u_nonneg eta_nonneg h2 h1
    (by rw [abs_neg, neg_sub_neg, abs_sub_comm]; exact hm')
    (by rw [← sub_eq_add_neg]; exact f3)
  rw [abs_neg, ← sub_eq_add_neg] at this
  exact ⟨this.2, this.1⟩

theorem mul_term (a b : K) : fin (a * b) → |toR (a * b) - toR a * toR b|
    ≤ u K * |toR a * toR b| + eta K := fun hf => (Ieee.mul a b hf).2.2

theorem Acc.dotF (n : Nat) (x y : Nat → K) :
    Acc (dotF n x y) n (dot n (fun i => toR (x i)) (fun i => toR (y i)))
      (dot n (fun i => |toR (x i)|) (fun i => |toR (y i)|)) := by
  unfold Verif.dotF dot
  induction n with
  | zero => simpa using Acc.zero (K := K)
  | succ n ih =>
    rw [foldI_succ (Nat.zero_le n), sum_range_succ, sum_range_succ, ← abs_mul]
    exact ih.add (mul_term _ _)

/-- One column of `SparseMatrixMultiply`. -/
theorem Acc.smm_col {lo hi : Nat} (hle : lo ≤ hi) (ir : Nat → Nat) (xc : K) (pr : Nat → K)
    (y : Nat → K) (r : Nat) {k : Nat} {e w : ℝ} (h : Acc (y r) k e w) :
    Acc (foldI lo hi y (fun k y => Function.update y (ir k) (y (ir k) - xc * pr k)) r)
      (k + ((Ico lo hi).filter (fun k => ir k = r)).card)
      (e - (∑ k ∈ Ico lo hi, if ir k = r then toR (pr k) else 0) * toR xc)
      (w + (∑ k ∈ Ico lo hi, if ir k = r then |toR (pr k)| else 0) * |toR xc|) := by
  induction hi, hle using Nat.le_induction with
  | base => simpa using h
  | succ n hn ih =>
    rw [foldI_succ hn, sum_Ico_succ_top hn, sum_Ico_succ_top hn]
    have hI : Ico lo (n + 1) = insert n (Ico lo n) := by
      ext j; simp only [mem_Ico, mem_insert]; omega
    have hnm : n ∉ (Ico lo n).filter (fun k => ir k = r) := by simp
    rw [hI, filter_insert]
    by_cases h1 : ir n = r
    · subst h1
      rw [Function.update_self, if_pos rfl, if_pos rfl, if_pos rfl, card_insert_of_notMem hnm]
      have := ih.sub (mul_term xc (pr n))
      refine (cast ?_ this)
      rw [abs_mul]
      congr 1
      · ring
      · ring
    · rw [Function.update_of_ne (Ne.symm h1), if_neg h1, if_neg h1, if_neg h1, add_zero, add_zero]
      exact ih

theorem Acc.smmF {A : Csc K} (hA : A.WF) (x y : Nat → K) (r : Nat) {k : Nat} {e w : ℝ}
    (h : Acc (y r) k e w) :
    Acc (smmF A x y r) (k + A.rowNnz r) (e - (A.map toR).mulVec (fun c => toR (x c)) r)
      (w + (A.map (fun a => |toR a|)).mulVec (fun c => |toR (x c)|) r) := by
  unfold Verif.smmF Csc.mulVec Csc.rowNnz
  have key : ∀ n, n ≤ A.n → Acc (foldI 0 n y (fun c y => foldI (A.jc c) (A.jc (c + 1)) y
      (fun k y => Function.update y (A.ir k) (y (A.ir k) - x c * A.pr k))) r)
      (k + ∑ c ∈ range n, ((Ico (A.jc c) (A.jc (c + 1))).filter (fun k => A.ir k = r)).card)
      (e - ∑ c ∈ range n, (A.map toR).entry r c * toR (x c))
      (w + ∑ c ∈ range n, (A.map (fun a => |toR a|)).entry r c * |toR (x c)|) := by
    intro n
    induction n with
    | zero => intro _; simpa using h
    | succ n ih =>
      intro hn
      rw [foldI_succ (Nat.zero_le n), sum_range_succ, sum_range_succ, sum_range_succ]
      have := Acc.smm_col (hA.mono n (by omega)) A.ir (x n) A.pr _ r (ih (by omega))
      rw [← add_assoc, ← add_assoc, ← sub_sub]
      exact this
  exact key A.n le_rfl

/-- One column of `SparseMatrixTransMultiply`. -/
theorem Acc.stmm_col {lo hi : Nat} (hle : lo ≤ hi) (ir : Nat → Nat) (x : Nat → K) (pr : Nat → K)
    (y : Nat → K) (c : Nat) {k : Nat} {e w : ℝ} (h : Acc (y c) k e w) :
    Acc (foldI lo hi y (fun k y => Function.update y c (y c - pr k * x (ir k))) c)
      (k + (hi - lo)) (e - ∑ k ∈ Ico lo hi, toR (pr k) * toR (x (ir k)))
      (w + ∑ k ∈ Ico lo hi, |toR (pr k)| * |toR (x (ir k))|) := by
  induction hi, hle using Nat.le_induction with
  | base => simpa using h
  | succ n hn ih =>
    rw [foldI_succ hn, sum_Ico_succ_top hn, sum_Ico_succ_top hn, Function.update_self]
    have := ih.sub (mul_term (pr n) (x (ir n)))
    refine (cast ?_ this)
    rw [abs_mul]
    congr 1
    · omega
    · ring
    · ring

theorem foldI_update_of_ne {lo hi : Nat} (hle : lo ≤ hi) (g : Nat → (Nat → K) → K) (y : Nat → K)
    {c r : Nat} (h : r ≠ c) : foldI lo hi y (fun k y => Function.update y c (g k y)) r = y r := by
  induction hi, hle using Nat.le_induction with
  | base => simp
  | succ n hn ih => rw [foldI_succ hn, Function.update_of_ne h, ih]

theorem Csc.map_wf {K L : Type} {f : K → L} {A : Csc K} (h : A.WF) : (A.map f).WF :=
  ⟨h.jc0, h.mono, h.ir_lt⟩

theorem Acc.stmmF {A : Csc K} (hA : A.WF) (z y : Nat → K) {c : Nat} (hc : c < A.n) {k : Nat}
    {e w : ℝ} (h : Acc (y c) k e w) :
    Acc (stmmF A z y c) (k + A.colNnz c) (e - (A.map toR).tmulVec (fun r => toR (z r)) c)
      (w + (A.map (fun a => |toR a|)).tmulVec (fun r => |toR (z r)|) c) := by
  unfold Csc.tmulVec
  rw [sum_rows_entry (Csc.map_wf hA) (show c < (A.map toR).n from hc),
    sum_rows_entry (Csc.map_wf hA) (show c < (A.map (fun a => |toR a|)).n from hc)]
  show Acc _ (k + (A.jc (c + 1) - A.jc c))
    (e - ∑ k ∈ Ico (A.jc c) (A.jc (c + 1)), toR (A.pr k) * toR (z (A.ir k)))
    (w + ∑ k ∈ Ico (A.jc c) (A.jc (c + 1)), |toR (A.pr k)| * |toR (z (A.ir k))|)
  unfold Verif.stmmF
  have key : ∀ n, n ≤ A.n →
      (n ≤ c → foldI 0 n y (fun c y => foldI (A.jc c) (A.jc (c + 1)) y
        (fun k y => Function.update y c (y c - A.pr k * z (A.ir k)))) c = y c) ∧
      (c < n → Acc (foldI 0 n y (fun c y => foldI (A.jc c) (A.jc (c + 1)) y
        (fun k y => Function.update y c (y c - A.pr k * z (A.ir k)))) c) (k + (A.jc (c + 1) - A.jc c))
        (e - ∑ k ∈ Ico (A.jc c) (A.jc (c + 1)), toR (A.pr k) * toR (z (A.ir k)))
        (w + ∑ k ∈ Ico (A.jc c) (A.jc (c + 1)), |toR (A.pr k)| * |toR (z (A.ir k))|)) := by
    intro n
    induction n with
    | zero => intro _; exact ⟨fun _ => by simp, fun h => absurd h (Nat.not_lt_zero _)⟩
    | succ n ih =>
      intro hn
      obtain ⟨i1, i2⟩ := ih (by omega)
      have hm := hA.mono n (by omega)
      constructor
      · intro hle
        rw [foldI_succ (Nat.zero_le n), foldI_update_of_ne hm
          (fun k y => y n - A.pr k * z (A.ir k)) _ (by omega : c ≠ n)]
        exact i1 (by omega)
      · intro hlt
        rw [foldI_succ (Nat.zero_le n)]
        by_cases e1 : c = n
        · subst e1
          refine Acc.stmm_col hm A.ir z A.pr _ c ?_
          rw [i1 le_rfl]
          exact h
        · rw [foldI_update_of_ne hm (fun k y => y n - A.pr k * z (A.ir k)) _ e1]
          exact i2 (by omega)
  exact (key A.n le_rfl).2 hc

end

end Verif
