import Verif.Props.RoundStep
import Verif.Double
import Verif.Lemmas.AmdPre

/-!
# The rounding theorems for IEEE double precision
-/

set_option exponentiation.threshold 2200

set_option linter.unusedSectionVars false

namespace Verif

open Finset Ieee

/-! ## Doubles -/

theorem one_add_pow_lt {u : ℝ} (hu : 0 ≤ u) {k : Nat} (h : k * u ≤ 1 / 2) :
    (1 + u) ^ k * (1 - k * u) ≤ 1 := by
  induction k with
  | zero => simp
  | succ k ih =>
    have h1 : (k : ℝ) * u ≤ 1 / 2 := by push_cast at h; nlinarith
    have h2 := ih h1
    have h3 : (0 : ℝ) < (1 + u) ^ k := by positivity
    have h4 : (1 + u) * (1 - ((k + 1 : ℕ) : ℝ) * u) ≤ 1 - k * u := by
      push_cast
      have : 0 ≤ (k : ℝ) * u * u := by positivity
      nlinarith [mul_nonneg hu hu]
    calc (1 + u) ^ (k + 1) * (1 - ((k + 1 : ℕ) : ℝ) * u)
        = (1 + u) ^ k * ((1 + u) * (1 - ((k + 1 : ℕ) : ℝ) * u)) := by ring
      _ ≤ (1 + u) ^ k * (1 - k * u) := mul_le_mul_of_nonneg_left h4 h3.le
      _ ≤ 1 := h2

/-- The hypotheses on the arithmetic hold for doubles and dimensions below `2^51`. -/
theorem double_small {N : Nat} (hN : N < 2 ^ 51) : u F64 ≤ 1 / 4 ∧ eta F64 ≤ 1 / 10 ^ 15 ∧
    (1 + u F64) ^ (2 * N) < 2 := by
  have e1 : u F64 = 2⁻¹ ^ 53 := rfl
  have e2 : eta F64 = 1 / 2 / unit := rfl
  refine ⟨by rw [e1]; norm_num, ?_, ?_⟩
  · rw [e2, div_div]
    refine one_div_le_one_div_of_le (by positivity) ?_
    have h1 : (2 : ℝ) ^ 50 ≤ unit := by
      have : 2 ^ 50 ≤ unit := by
        rw [unit_eq]
        exact Nat.pow_le_pow_right (by norm_num) (by norm_num)
      exact_mod_cast this
    have : (10 : ℝ) ^ 15 ≤ 2 ^ 50 := by norm_num
    linarith
  · have hN' : (N : ℝ) < 2 ^ 51 := by exact_mod_cast hN
    have hk : ((2 * N : ℕ) : ℝ) * u F64 < 1 / 2 := by
      rw [e1]
      push_cast
      have : (2 : ℝ) ^ 51 * 2⁻¹ ^ 53 = 1 / 4 := by norm_num
      have h2 : (0 : ℝ) < 2⁻¹ ^ 53 := by positivity
      nlinarith
    have h0 : 0 ≤ u F64 := u_nonneg (K := F64)
    have h1 := one_add_pow_lt h0 hk.le
    revert h0 h1 hk
    generalize u F64 = v
    intro hk h0 h1
    have h3 : (0 : ℝ) < (1 + v) ^ (2 * N) := by positivity
    nlinarith

/-! ## Simple bounds -/

theorem errBound_small {u eta w : ℝ} {k : Nat} (hu : 0 ≤ u) (he : 0 ≤ eta) (hw : 0 ≤ w)
    (hk : k * u ≤ 1 / 4) : errBound u eta k w ≤ 4 * k * u * w + 2 * k * eta := by
  have h1 := one_add_pow_lt (k := 2 * k) hu (by push_cast; linarith)
  push_cast at h1
  set X := (1 + u) ^ (2 * k) with hX
  have hku : 0 ≤ k * u := by positivity
  have h2 : X ≤ 1 + 4 * (k * u) := by nlinarith
  have h3 : X ≤ 2 := by linarith
  have hk0 : (0 : ℝ) ≤ k := Nat.cast_nonneg k
  unfold errBound
  rw [← hX]
  have h4 : (X - 1) * w ≤ 4 * (k * u) * w := mul_le_mul_of_nonneg_right (by linarith) hw
  have h5 : k * X * eta ≤ k * 2 * eta :=
    mul_le_mul_of_nonneg_right (mul_le_mul_of_nonneg_left h3 hk0) he
  linarith

/-- A rounded norm below `t` bounds the exact norm. -/
theorem norm_le_of_rounded {u eta v t d w : ℝ} {n : Nat} (hu : 0 ≤ u) (hu' : u ≤ 1 / 2 ^ 20)
    (he : 0 ≤ eta) (hn : n * u ≤ 1 / 2 ^ 12) (hd : 0 ≤ d) (hw : 0 ≤ w)
    (h1 : |d - w| ≤ errBound u eta n w) (h2 : |v - √d| ≤ u * √d) (hv : v < t) :
    √w ≤ (1 + 1 / 2 ^ 10) * (t + √(2 * n * eta)) := by
  have hb := errBound_small (k := n) hu he hw (by linarith)
  have h3 := (abs_le.mp h1).1
  have h4 := (abs_le.mp h2).1
  have hn0 : (0 : ℝ) ≤ n := Nat.cast_nonneg n
  have hsd := Real.sqrt_nonneg d
  have hse := Real.sqrt_nonneg (2 * n * eta)
  have h5 : √d * (1 - 1 / 2 ^ 20) ≤ t := by nlinarith
  have h6 : w * (1 - 1 / 2 ^ 10) ≤ d + 2 * n * eta := by nlinarith
  have h7 : w * (1 - 1 / 2 ^ 10) ≤ (√d + √(2 * n * eta)) ^ 2 := by
    refine h6.trans ?_
    have e1 := Real.sq_sqrt hd
    have e2 := Real.sq_sqrt (show 0 ≤ 2 * n * eta by positivity)
    nlinarith [mul_nonneg hsd hse]
  have ht0 : 0 ≤ t := le_trans (by nlinarith) h5
  have h8 : √d + √(2 * n * eta) ≤ (1 + 1 / 2 ^ 19) * (t + √(2 * n * eta)) := by nlinarith
  refine Real.sqrt_le_iff.mpr ⟨by positivity, ?_⟩
  have h9 : (√d + √(2 * n * eta)) ^ 2 ≤ ((1 + 1 / 2 ^ 19) * (t + √(2 * n * eta))) ^ 2 :=
    pow_le_pow_left₀ (by positivity) h8 2
  have h10 : 0 ≤ (t + √(2 * n * eta)) ^ 2 := sq_nonneg _
  rw [mul_pow] at h9 ⊢
  nlinarith

theorem Csc.rowNnz_le {K : Type} {A : Csc K} (hA : A.WF) (r : Nat) : A.rowNnz r ≤ A.nnz := by
  have key : ∀ n, n ≤ A.n → ∑ c ∈ range n,
      ((Finset.Ico (A.jc c) (A.jc (c + 1))).filter (fun k => A.ir k = r)).card ≤ A.jc n := by
    intro n
    induction n with
    | zero => simp
    | succ n ih =>
      intro hn
      have h1 := ih (by omega)
      have h2 := hA.jc_le (Nat.le_succ n) hn
      rw [Finset.sum_range_succ]
      have h3 := Finset.card_filter_le (Finset.Ico (A.jc n) (A.jc (n + 1))) (fun k => A.ir k = r)
      rw [Nat.card_Ico] at h3
      have h4 : A.jc n ≤ A.jc (n + 1) := h2
      omega
  exact key A.n le_rfl

theorem Csc.colNnz_le {K : Type} {A : Csc K} (hA : A.WF) {c : Nat} (hc : c < A.n) :
    A.colNnz c ≤ A.nnz := by
  have h1 := hA.jc_le (show c + 1 ≤ A.n from hc) le_rfl
  unfold Csc.colNnz
  have : A.jc A.n = A.nnz := rfl
  omega

section

variable {K : Type} [Zero K] [One K] [Add K] [Sub K] [Mul K] [Div K] [Neg K] [Scalar K] [Ieee K]

theorem Csc.entry_abs_nonneg (A : Csc K) (r c : Nat) : 0 ≤ (A.map (fun a => |toR a|)).entry r c :=
  Finset.sum_nonneg fun _ _ => by
    split
    · exact abs_nonneg _
    · exact le_rfl

theorem Problem.rxSize_nonneg (pb : Problem K) (x y z : Nat → K) (i : Nat) : 0 ≤ pb.rxSize x y z i :=
  add_nonneg (add_nonneg (add_nonneg
    (Finset.sum_nonneg fun _ _ => mul_nonneg (Csc.entry_abs_nonneg ..) (abs_nonneg _))
    (Finset.sum_nonneg fun _ _ => mul_nonneg (Csc.entry_abs_nonneg ..) (abs_nonneg _)))
    (Finset.sum_nonneg fun _ _ => mul_nonneg (Csc.entry_abs_nonneg ..) (abs_nonneg _))) (abs_nonneg _)

theorem Problem.rySize_nonneg (pb : Problem K) (x : Nat → K) (i : Nat) : 0 ≤ pb.rySize x i :=
  add_nonneg (Finset.sum_nonneg fun _ _ => mul_nonneg (Csc.entry_abs_nonneg ..) (abs_nonneg _))
    (abs_nonneg _)

theorem Problem.rzSize_nonneg (pb : Problem K) (x s : Nat → K) (i : Nat) : 0 ≤ pb.rzSize x s i :=
  add_nonneg (Finset.sum_nonneg fun _ _ => mul_nonneg (Csc.entry_abs_nonneg ..) (abs_nonneg _))
    (abs_nonneg _)

end

/-! ## Exit code 0 in double precision -/

theorem double_err {k : Nat} {w : ℝ} (hk : k < 2 ^ 42) (hw : 0 ≤ w) :
    Ieee.err F64 k w ≤ k / 2 ^ 51 * w + 1 / 2 ^ 1000 := by
  have hk' : (k : ℝ) < 2 ^ 42 := by exact_mod_cast hk
  have e1 : u F64 = 2⁻¹ ^ 53 := rfl
  have e2 : eta F64 = 1 / 2 / unit := rfl
  have h := errBound_small (u := u F64) (eta := eta F64) (k := k) u_nonneg eta_nonneg hw (by
    rw [e1]
    have : (2 : ℝ) ^ 42 * 2⁻¹ ^ 53 ≤ 1 / 4 := by norm_num
    have h2 : (0 : ℝ) < 2⁻¹ ^ 53 := by positivity
    nlinarith)
  unfold Ieee.err
  refine h.trans (add_le_add (le_of_eq ?_) ?_)
  · rw [e1]; ring
  · rw [e2]
    have h1 : (unit : ℝ) = 2 ^ 1074 := by rw [unit_eq, Nat.cast_pow, Nat.cast_ofNat]
    rw [h1, div_div, ← pow_succ', mul_one_div, div_le_div_iff₀ (by positivity) (by positivity), one_mul]
    have e3 : (2 : ℝ) ^ (1074 + 1) = 2 ^ 75 * 2 ^ 1000 := by rw [← pow_add]
    rw [e3]
    exact mul_le_mul_of_nonneg_right (by
      have : (2 : ℝ) * 2 ^ 42 ≤ 2 ^ 75 := by norm_num
      linarith) (by positivity)

theorem double_norm {n : Nat} {r : Nat → ℝ} {v t : ℝ} (hn : n < 2 ^ 40)
    (h : IsRoundedNorm F64 n r v) (hv : v < t) :
    √(dot n r r) ≤ (1 + 1 / 2 ^ 10) * (t + 1 / 2 ^ 500) := by
  obtain ⟨d, h0, h1, h2⟩ := h
  have hn' : (n : ℝ) < 2 ^ 40 := by exact_mod_cast hn
  have e1 : u F64 = 2⁻¹ ^ 53 := rfl
  have e2 : eta F64 = 1 / 2 / unit := rfl
  have hd0 : 0 ≤ dot n r r := Finset.sum_nonneg fun i _ => mul_self_nonneg _
  have h3 := norm_le_of_rounded (u := u F64) (eta := eta F64) u_nonneg (by rw [e1]; norm_num)
    eta_nonneg (by
      rw [e1]
      have : (2 : ℝ) ^ 40 * 2⁻¹ ^ 53 ≤ 1 / 2 ^ 12 := by norm_num
      have h2 : (0 : ℝ) < 2⁻¹ ^ 53 := by positivity
      nlinarith) h0 hd0 h1 h2 hv
  refine h3.trans (mul_le_mul_of_nonneg_left ?_ (by positivity))
  have h4 : √(2 * n * eta F64) ≤ 1 / 2 ^ 500 := by
    rw [Real.sqrt_le_left (by positivity), e2]
    have h1 : (unit : ℝ) = 2 ^ 1074 := by rw [unit_eq, Nat.cast_pow, Nat.cast_ofNat]
    rw [h1, div_div, ← pow_succ', mul_one_div, div_pow, one_pow, ← pow_mul,
      div_le_div_iff₀ (by positivity) (by positivity), one_mul]
    have e3 : (2 : ℝ) ^ (1074 + 1) = 2 ^ 75 * 2 ^ (500 * 2) := by rw [← pow_add]
    rw [e3]
    exact mul_le_mul_of_nonneg_right (by
      have : (2 : ℝ) * 2 ^ 40 ≤ 2 ^ 75 := by norm_num
      linarith) (by positivity)
  linarith

/-- The computed tolerance `reltol / sqrt(3)`. -/
theorem double_tol {t : F64} (h : fin (t / Scalar.sqrt (Scalar.dec 3 0) : F64)) :
    fin t ∧ toR (t / Scalar.sqrt (Scalar.dec 3 0) : F64) ≤ (1 + 1 / 2 ^ 20) * (|toR t| / √3) + 1 / 2 ^ 1000 := by
  have e1 : u F64 = 2⁻¹ ^ 53 := rfl
  have e2 : eta F64 = 1 / 2 / unit := rfl
  have hs : fin (Scalar.sqrt (Scalar.dec 3 0) : F64) := by
    have : (match (Scalar.sqrt (Scalar.dec 3 0) : F64) with | .num _ _ _ => true | _ => false) = true := by
      decide +kernel
    show F64.fin _
    revert this
    cases (Scalar.sqrt (Scalar.dec 3 0) : F64) <;> simp [F64.fin]
  obtain ⟨h3, e3⟩ := Ieee.dec_int (K := F64) 3 (by norm_num)
  have e3' : toR (Scalar.dec 3 0 : F64) = 3 := by rw [e3]; norm_num
  have h4 := (Ieee.sqrt (Scalar.dec 3 0 : F64) hs).2 (by rw [e3']; norm_num)
  rw [e3'] at h4
  have hq : (0 : ℝ) < √3 := Real.sqrt_pos.mpr (by norm_num)
  have h5 := (abs_le.mp h4).1
  have hu : u F64 ≤ 1 / 2 ^ 30 := by rw [e1]; norm_num
  have h6 : (1 - 1 / 2 ^ 30) * √3 ≤ toR (Scalar.sqrt (Scalar.dec 3 0) : F64) := by nlinarith
  have h7 : 0 < toR (Scalar.sqrt (Scalar.dec 3 0) : F64) := lt_of_lt_of_le (by nlinarith) h6
  obtain ⟨h8, h9⟩ := Ieee.div _ _ h hs h7.ne'
  refine ⟨h8, ?_⟩
  have heta : eta F64 ≤ 1 / 2 ^ 1000 := by
    rw [e2]
    have h1 : (unit : ℝ) = 2 ^ 1074 := by rw [unit_eq, Nat.cast_pow, Nat.cast_ofNat]
    rw [h1, div_div, ← pow_succ']
    exact one_div_le_one_div_of_le (by positivity) (pow_le_pow_right₀ (by norm_num) (by norm_num))
  generalize toR (Scalar.sqrt (Scalar.dec 3 0) : F64) = S at *
  have h10 : |toR t / S| ≤ (1 + 1 / 2 ^ 29) * (|toR t| / √3) := by
    rw [abs_div, abs_of_pos h7, ← mul_div_assoc, div_le_div_iff₀ h7 hq]
    have : 0 ≤ |toR t| := abs_nonneg _
    have h11 : √3 ≤ (1 + 1 / 2 ^ 29) * S := by nlinarith
    nlinarith
  have h12 := (abs_le.mp h9).2
  have h13 := le_abs_self (toR t / S)
  have h14 : 0 ≤ |toR t| / √3 := by positivity
  have h15 : 0 ≤ |toR t / S| := abs_nonneg _
  have h16 : u F64 * |toR t / S| ≤ 1 / 2 ^ 30 * |toR t / S| := mul_le_mul_of_nonneg_right hu h15
  nlinarith

/-- **C65**: if a solve in double precision ends with code 0, the exact residual vectors of the returned
point are within an explicit distance, component by component, of vectors whose Euclidean norms are
below `1.001 reltol / √3` (plus `2⁻⁴⁹⁹`). -/
theorem C65_exit_zero {amd : Amd} {a : SetupArgs F64} {pb : Problem F64} {q0 qp qp' : QP F64}
    (h : Started amd a pb q0) (hr : Reach q0 qp) (hf : qp.stats.Flag ≠ 0)
    (hs : QP_SOLVE qp = .ok (0, qp')) (hN : pb.N < 2 ^ 40)
    (hnz : pb.P.nnz + pb.A.nnz + pb.G.nnz < 2 ^ 40)
    (htol : fin (qp.options.reltol / Scalar.sqrt (Scalar.dec 3 0))) :
    ∃ x y z s, qp'.Iter pb x y z s ∧ (∀ i, i < pb.m → fin (s i)) ∧ ∃ ex ey ez : Nat → ℝ,
      (let rx := fun i => pb.real.rx (fun j => toR (x j)) (fun j => toR (y j)) (fun j => toR (z j)) i + ex i
       √(dot pb.n rx rx) ≤ 1.001 * (|toR qp.options.reltol| / √3) + 1 / 2 ^ 499) ∧
      (pb.p ≠ 0 →
       let ry := fun i => pb.real.ry (fun j => toR (x j)) i + ey i
       √(dot pb.p ry ry) ≤ 1.001 * (|toR qp.options.reltol| / √3) + 1 / 2 ^ 499) ∧
      (let rz := fun i => pb.real.rz (fun j => toR (x j)) (fun j => toR (s j)) i + ez i
       √(dot pb.m rz rz) ≤ 1.001 * (|toR qp.options.reltol| / √3) + 1 / 2 ^ 499) ∧
      (∀ i, i < pb.n → |ex i| ≤ ((pb.P.rowNnz i + pb.G.colNnz i + pb.A.colNnz i + 1 : ℕ) : ℝ) / 2 ^ 51
        * pb.rxSize x y z i + 1 / 2 ^ 1000) ∧
      (∀ i, i < pb.p → |ey i| ≤ ((pb.A.rowNnz i + 1 : ℕ) : ℝ) / 2 ^ 51 * pb.rySize x i + 1 / 2 ^ 1000) ∧
      (∀ i, i < pb.m → |ez i| ≤ ((pb.G.rowNnz i + 1 : ℕ) : ℝ) / 2 ^ 51 * pb.rzSize x s i + 1 / 2 ^ 1000) := by
  obtain ⟨x, y, z, s, hi, nx, ny, nz, mu, hn, b1, b2, b3, _, _, hfs⟩ := C60_exit_zero h hr hf hs htol
  obtain ⟨_, ht⟩ := double_tol htol
  obtain ⟨⟨rx, n1, e1⟩, ⟨ry, n2, e2⟩, ⟨rz, n3, e3⟩⟩ := hn
  have hw := h.wf
  have hNN : pb.N = pb.n + pb.p + pb.m := rfl
  have fin' : ∀ {v : ℝ}, v ≤ (1 + 1 / 2 ^ 10) *
      (toR (qp.options.reltol / Scalar.sqrt (Scalar.dec 3 0)) + 1 / 2 ^ 500) →
      v ≤ 1.001 * (|toR qp.options.reltol| / √3) + 1 / 2 ^ 499 := by
    intro v hv
    have h0 : 0 ≤ |toR qp.options.reltol| / √3 := by positivity
    have p1 : (1 : ℝ) / 2 ^ 1000 ≤ 1 / 2 ^ 502 :=
      one_div_le_one_div_of_le (by positivity) (pow_le_pow_right₀ (by norm_num) (by norm_num))
    have p2 : (1 : ℝ) / 2 ^ 500 = 4 * (1 / 2 ^ 502) := by
      rw [show (2 : ℝ) ^ 502 = 4 * 2 ^ 500 by rw [show (502 : ℕ) = 500 + 2 from rfl, pow_add]; ring]
      field_simp
    have p3 : (1 : ℝ) / 2 ^ 499 = 8 * (1 / 2 ^ 502) := by
      rw [show (2 : ℝ) ^ 502 = 8 * 2 ^ 499 by rw [show (502 : ℕ) = 499 + 3 from rfl, pow_add]; ring]
      field_simp
    have p4 : (0 : ℝ) < 1 / 2 ^ 502 := by positivity
    rw [p2] at hv
    rw [p3]
    generalize (1 : ℝ) / 2 ^ 502 = c at *
    generalize (1 : ℝ) / 2 ^ 1000 = c' at *
    norm_num at hv ht ⊢
    nlinarith
  refine ⟨x, y, z, s, hi, hfs, fun i => rx i - pb.real.rx (fun j => toR (x j)) (fun j => toR (y j))
    (fun j => toR (z j)) i, fun i => ry i - pb.real.ry (fun j => toR (x j)) i,
    fun i => rz i - pb.real.rz (fun j => toR (x j)) (fun j => toR (s j)) i, ?_, ?_, ?_, ?_, ?_, ?_⟩
  · simp only [add_sub_cancel]
    exact fin' (double_norm (by omega) n1 b1)
  · intro hp
    simp only [add_sub_cancel]
    exact fin' (double_norm (by omega) n2 (b2 hp))
  · simp only [add_sub_cancel]
    exact fin' (double_norm (by omega) n3 b3)
  · intro i hi'
    refine (e1 i hi').trans (double_err ?_ ?_)
    · have := Csc.rowNnz_le hw.P i
      have := Csc.colNnz_le hw.G (c := i) (hi'.trans_eq hw.Gn.symm)
      have := Csc.colNnz_le hw.A (c := i) (hi'.trans_eq hw.An.symm)
      omega
    · exact Problem.rxSize_nonneg ..
  · intro i hi'
    refine (e2 i hi').trans (double_err ?_ ?_)
    · have := Csc.rowNnz_le hw.A i
      omega
    · exact Problem.rySize_nonneg ..
  · intro i hi'
    refine (e3 i hi').trans (double_err ?_ ?_)
    · have := Csc.rowNnz_le hw.G i
      omega
    · exact Problem.rzSize_nonneg ..

/-! ## Example -/

/-- `minimise 3x²/2 + x/10 subject to x/3 ≤ 1/7` in double precision; the constants are rounded. -/
def dblPb : Problem F64 where
  P := .lit 1 1 [0, 1] [0] [Scalar.dec 3 0]
  A := Csc.empty 1
  G := .lit 1 1 [0, 1] [0] [Scalar.dec 1 0 / Scalar.dec 3 0]
  c := fun _ => Scalar.dec 1 1
  b := fun _ => 0
  h := fun _ => Scalar.dec 1 0 / Scalar.dec 7 0
  sigma_d := 0

theorem dblPb_wf : dblPb.WF where
  P := by
    refine ⟨rfl, ?_, ?_⟩
    · intro c hc; simp only [dblPb, Csc.lit] at hc ⊢; interval_cases c; decide
    · intro k hk
      have hk : k < 1 := hk
      interval_cases k; exact Nat.zero_lt_one
  A := ⟨rfl, fun _ _ => le_rfl, fun _ hk => absurd hk (by simp [dblPb, Csc.empty])⟩
  G := by
    refine ⟨rfl, ?_, ?_⟩
    · intro c hc; simp only [dblPb, Csc.lit] at hc ⊢; interval_cases c; decide
    · intro k hk
      have hk : k < 1 := hk
      interval_cases k; exact Nat.zero_lt_one
  Pm := rfl
  An := rfl
  Gn := rfl
  rows := by
    intro r hr
    simp only [dblPb, Csc.lit] at hr
    interval_cases r
    exact ⟨0, by simp [dblPb, Csc.lit], rfl⟩
  m_pos := by simp [dblPb, Csc.lit]

/-- finite and, if asked, not zero -/
def F64.ok (nz : Bool) : F64 → Bool
  | .num _ k _ => !nz || k != 0
  | _ => false

/-- every element of the array is a finite number -/
def Buf.allOk (nz : Bool) (b : Buf F64) : Bool :=
  b.all (fun o => match o with | some v => v.ok nz | none => false)

/-- all numbers of the structure that the theorems ask about are finite -/
def dblOk (q0 q1 : QP F64) : Bool :=
  Buf.allOk true q0.z && Buf.allOk true q0.s && Buf.allOk false q1.x && Buf.allOk false q1.z &&
  Buf.allOk false q1.s && Buf.allOk false (q1.kkt.Lx.take 1) && q1.kkt.Lp == [some 0, some 1, some 1] && Buf.allOk true q1.kkt.D &&
  (match q0.z, q0.s with
    | some z :: _, some s :: _ => (-s / z).ok true
    | _, _ => false)

/-- setup and the first iteration -/
def dblRun : Bool :=
  match QP_SETUP failAmd (dblPb.args none) with
  | .ok q0 => match solveBody q0 with
    | .ok (q1, false) => dblOk q0 q1
    | _ => false
  | .error _ => false

theorem dblRun_true : dblRun = true := by decide +kernel


/-- setup and a complete solve -/
def dblSolve : Bool :=
  match QP_SETUP failAmd (dblPb.args none) with
  | .ok q0 => match QP_SOLVE q0 with
    | .ok (0, q1) => q0.stats.Flag != 0 && (q0.options.reltol / Scalar.sqrt (Scalar.dec 3 0)).ok true &&
        q1.stats.IterationCount == 4
    | _ => false
  | .error _ => false

theorem dblSolve_true : dblSolve = true := by decide +kernel

theorem F64.ok_fin {a : F64} {nz : Bool} (h : a.ok nz = true) : fin a ∧ (nz = true → toR a ≠ 0) := by
  cases a with
  | num b k hk =>
    refine ⟨trivial, fun hn => ?_⟩
    subst hn
    have hk0 : k ≠ 0 := by simpa [F64.ok] using h
    have hk1 : (k : ℝ) ≠ 0 := by exact_mod_cast hk0
    have := F64.unit_pos'
    have h1 : F64.sgn b ≠ 0 := by cases b <;> norm_num [F64.sgn]
    exact mul_ne_zero h1 (div_ne_zero hk1 this.ne')
  | inf b => exact absurd h (by simp [F64.ok])
  | nan => exact absurd h (by simp [F64.ok])

theorem Buf.allOk_has {nz : Bool} {b : Buf F64} (h : Buf.allOk nz b = true) {n : Nat} {f : Nat → F64}
    (hf : Buf.Has b n f) {i : Nat} (hi : i < n) : fin (f i) ∧ (nz = true → toR (f i) ≠ 0) := by
  have h1 := hf i hi
  have h2 : some (f i) ∈ b := List.mem_of_getElem? h1
  have h3 := List.all_eq_true.mp h _ h2
  exact F64.ok_fin h3

theorem dblPb_started : ∃ q0, Started failAmd (dblPb.args none) dblPb q0 := by
  have hp : PermSource failAmd none (dblPb.args none).p dblPb := Or.inr ⟨rfl, failAmd_safe, Or.inl rfl⟩
  have hg := Problem.args_give dblPb none (fun _ => rfl)
  obtain ⟨q0, h⟩ := C26_setup dblPb_wf hg hp
  exact ⟨q0, dblPb_wf, hg, hp, h⟩

theorem dblPb_symm : dblPb.real.P.Symm := by
  intro r c hr hc
  have hr : r < 1 := hr
  have hc : c < 1 := hc
  have : r = c := by omega
  rw [this]

/-- C63, C64: setup and the first iteration in double precision; all hypotheses, also those on
finiteness, are met. -/
example : ∃ q0 q1 x y z s, Started failAmd (dblPb.args none) dblPb q0 ∧
    solveBody q0 = .ok (q1, false) ∧ q0.Iter dblPb x y z s ∧
    (∀ i, i < dblPb.m → fin (z i) ∧ toR (z i) ≠ 0) ∧ (∀ i, i < dblPb.m → fin (-(s i) / z i)) ∧
    ∃ x' y' z' s' dx dy dz ds rz tgt F e, q1.Iter dblPb x' y' z' s' ∧
      dblPb.RoundedContraction F e q1.stats.alpha_p q1.stats.alpha_d
        rz tgt x y z s dx dy dz ds x' y' z' s' := by
  obtain ⟨q0, h⟩ := dblPb_started
  have hrun := dblRun_true
  unfold dblRun at hrun
  rw [h.ok] at hrun
  dsimp only at hrun
  split at hrun
  case h_2 => exact absurd hrun Bool.false_ne_true
  case h_1 q1 hq1 =>
  simp only [dblOk, Bool.and_eq_true] at hrun
  obtain ⟨⟨⟨⟨⟨⟨⟨⟨c1, c2⟩, c3⟩, c4⟩, c5⟩, c6⟩, c7⟩, c8⟩, c9⟩ := hrun
  obtain ⟨p, q, hi, _⟩ := h.sinv .start
  obtain ⟨x, y, z, s, hit⟩ := hi.iter
  have hm : dblPb.m = 1 := rfl
  have hz : ∀ i, i < dblPb.m → fin (z i) ∧ toR (z i) ≠ 0 := fun i hi' =>
    ⟨(Buf.allOk_has c1 hit.z hi').1, (Buf.allOk_has c1 hit.z hi').2 rfl⟩
  have hsz : ∀ i, i < dblPb.m → fin (-(s i) / z i) := by
    intro i hi'
    have e0 : i = 0 := by omega
    subst e0
    have g1 := hit.z 0 hi'
    have g2 := hit.s 0 hi'
    revert c9
    cases hz' : q0.z with
    | nil => rw [hz'] at g1; simp at g1
    | cons a l =>
      cases hs' : q0.s with
      | nil => rw [hs'] at g2; simp at g2
      | cons b l' =>
        rw [hz'] at g1
        rw [hs'] at g2
        simp only [List.getElem?_cons_zero, Option.some.injEq] at g1 g2
        subst g1 g2
        intro c9
        exact (F64.ok_fin c9).1
  have hN : dblPb.N < 2 ^ 51 := by
    have : dblPb.N = 2 := rfl
    omega
  obtain ⟨a1, a2, a3⟩ := double_small hN
  refine ⟨q0, q1, x, y, z, s, h, hq1, hit, hz, hsz, ?_⟩
  obtain ⟨rz, tgt, dx, dy, dz, ds, x', y', z', s', M, L, pp, qq, d, _, _, _, _, _, _, _, _, _, hF, hI, hC⟩ :=
    C64_contraction h dblPb_symm a1 a2 a3 .start hq1 hit hz hsz
  have hnn : L.nnz = 1 := by
    have g := hF.lp 2 (by show 2 < 3; norm_num)
    have c7' : q1.kkt.Lp = [some 0, some 1, some 1] := by simpa using c7
    rw [c7'] at g
    have hln : L.n = 2 := hF.ln
    have e : ((L.jc 2 : Nat) : Int) = 1 := by simpa using g.symm
    show L.jc L.n = 1
    rw [hln]
    exact_mod_cast e
  obtain ⟨raw, _, hR⟩ := hC
    (fun k hk => by
      have hx : Buf.Has (q1.kkt.Lx.take 1) L.nnz L.pr := by
        intro j hj
        rw [List.getElem?_take_of_lt (by omega)]
        exact hF.lx j hj
      exact (Buf.allOk_has c6 hx hk).1)
    (fun r hr => (Buf.allOk_has c8 hF.D hr).1)
    (fun i hi' => (Buf.allOk_has c3 hI.x hi').1) (fun i hi' => absurd hi' (by simp [dblPb, Problem.p, Csc.empty]))
    (fun i hi' => ⟨(Buf.allOk_has c4 hI.z hi').1, (Buf.allOk_has c5 hI.s hi').1⟩)
  exact ⟨x', y', z', s', dx, dy, dz, ds, rz, tgt, _, _, hI, hR⟩

/-- C65: a run in double precision that ends with code 0 after four iterations. -/
example : ∃ q0 q1, Started failAmd (dblPb.args none) dblPb q0 ∧ q0.stats.Flag ≠ 0 ∧
    QP_SOLVE q0 = .ok (0, q1) ∧ q1.stats.IterationCount = 4 ∧
    fin (q0.options.reltol / Scalar.sqrt (Scalar.dec 3 0)) ∧ dblPb.N < 2 ^ 40 ∧
    dblPb.P.nnz + dblPb.A.nnz + dblPb.G.nnz < 2 ^ 40 := by
  obtain ⟨q0, h⟩ := dblPb_started
  have hrun := dblSolve_true
  unfold dblSolve at hrun
  rw [h.ok] at hrun
  dsimp only at hrun
  split at hrun
  case h_2 => exact absurd hrun Bool.false_ne_true
  case h_1 q1 hq1 =>
  simp only [Bool.and_eq_true, bne_iff_ne, ne_eq, beq_iff_eq] at hrun
  obtain ⟨⟨c1, c2⟩, c3⟩ := hrun
  exact ⟨q0, q1, h, c1, hq1, c3, (F64.ok_fin c2).1, by
    have : dblPb.N = 2 := rfl
    omega, by
    have : dblPb.P.nnz + dblPb.A.nnz + dblPb.G.nnz = 2 := rfl
    omega⟩

end Verif
