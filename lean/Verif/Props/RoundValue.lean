import Verif.Props.DoubleInterior
import Verif.Props.Certify

/-!
# The reported objective value, and the distance from optimality, in rounded arithmetic (C75)
-/

set_option exponentiation.threshold 2200

set_option linter.unusedSectionVars false

namespace Verif

open Finset Ieee

/-! ## Specification -/

section

variable {K : Type} [Zero K] [Add K] [Sub K] [Mul K] [Div K] [Neg K] [Scalar K] [Ieee K]

/-- `|x|ᵀ |P| |x| / 2 + |c|ᵀ |x|` -/
noncomputable def Problem.objSize (pb : Problem K) (x : Nat → K) : ℝ :=
  1 / 2 * dot pb.n (fun i => |toR (x i)|) (pb.abs.P.mulVec (fun j => |toR (x j)|))
    + dot pb.n (fun i => |toR (pb.c i)|) (fun i => |toR (x i)|)

/-- Bound on the rounding error of the objective value if no row of `P` has more than `k` entries. -/
noncomputable def Problem.objErr (pb : Problem K) (k : Nat) (x : Nat → K) : ℝ :=
  ((1 + u K) ^ (2 * (pb.n + k + 1)) - 1) * pb.objSize x
    + (1 + u K) ^ (2 * (pb.n + k + 1)) * (k * ∑ i ∈ range pb.n, |toR (x i)| + 2 * pb.n + 1) * eta K

end

/-! ## Real numbers -/

/-- Rounded `-q / 2 + l`, where `q` and `l` have errors of the given form. -/
theorem obj_real {u eta S L X T C q l m r g h k n : ℝ} (hu : 0 ≤ u) (he : 0 ≤ eta) (hS : |T| ≤ S)
    (hL : |C| ≤ L) (hX : 0 ≤ X) (hk : 0 ≤ k) (hn : 0 ≤ n) (hh : 1 ≤ h) (hg : h ≤ g)
    (hq : |q + T| ≤ (g - 1) * S + (k * g * X + n * g) * eta)
    (hl : |l - C| ≤ (h - 1) * L + n * h * eta)
    (hm : |m - -(1 / 2) * q| ≤ u * |-(1 / 2) * q| + eta) (hr : |r - (m + l)| ≤ u * |m + l|) :
    |r - (1 / 2 * T + C)| ≤ (g * (1 + u) ^ 2 - 1) * (1 / 2 * S + L)
      + g * (1 + u) ^ 2 * (k * X + 2 * n + 1) * eta := by
  have hS0 : 0 ≤ S := (abs_nonneg _).trans hS
  have hL0 : 0 ≤ L := (abs_nonneg _).trans hL
  set B := (g - 1) * S + (k * g * X + n * g) * eta with hB
  have g1 : 1 ≤ g := hh.trans hg
  have hB0 : 0 ≤ B := (abs_nonneg _).trans hq
  set B' := (h - 1) * L + n * h * eta with hB'
  have hB0' : 0 ≤ B' := (abs_nonneg _).trans hl
  have hBl : B' ≤ (g - 1) * L + n * g * eta := by
    have a1 : (h - 1) * L ≤ (g - 1) * L := mul_le_mul_of_nonneg_right (by linarith) hL0
    have a2 : n * h * eta ≤ n * g * eta :=
      mul_le_mul_of_nonneg_right (mul_le_mul_of_nonneg_left hg hn) he
    linarith
  have q1 : |q| ≤ B + S := by
    have : |q| ≤ |q + T| + |T| := by
      calc |q| = |(q + T) - T| := by ring_nf
        _ ≤ _ := abs_sub _ _
    linarith
  have q2 : |-(1 / 2) * q| ≤ 1 / 2 * (B + S) := by
    rw [abs_mul, abs_neg, abs_of_nonneg (by norm_num : (0 : ℝ) ≤ 1 / 2)]
    linarith
  have m1 : |m - 1 / 2 * T| ≤ 1 / 2 * B + (u * (1 / 2 * (B + S)) + eta) := by
    have : |m - 1 / 2 * T| ≤ |m - -(1 / 2) * q| + 1 / 2 * |q + T| := by
      calc |m - 1 / 2 * T| = |(m - -(1 / 2) * q) + -(1 / 2) * (q + T)| := by ring_nf
        _ ≤ |m - -(1 / 2) * q| + |-(1 / 2) * (q + T)| := abs_add_le _ _
        _ = _ := by rw [abs_mul, abs_neg, abs_of_nonneg (by norm_num : (0 : ℝ) ≤ 1 / 2)]
    have : u * |-(1 / 2) * q| ≤ u * (1 / 2 * (B + S)) := mul_le_mul_of_nonneg_left q2 hu
    linarith
  have m2 : |m + l| ≤ 1 / 2 * B + (u * (1 / 2 * (B + S)) + eta) + 1 / 2 * S + B' + L := by
    have : |m + l| ≤ |m - 1 / 2 * T| + |l - C| + 1 / 2 * |T| + |C| := by
      calc |m + l| = |(m - 1 / 2 * T) + (l - C) + 1 / 2 * T + C| := by ring_nf
        _ ≤ |(m - 1 / 2 * T) + (l - C) + 1 / 2 * T| + |C| := abs_add_le _ _
        _ ≤ |(m - 1 / 2 * T) + (l - C)| + |1 / 2 * T| + |C| := by
          have := abs_add_le ((m - 1 / 2 * T) + (l - C)) (1 / 2 * T)
          linarith
        _ ≤ _ := by
          have := abs_add_le (m - 1 / 2 * T) (l - C)
          rw [abs_mul (1 / 2 : ℝ), abs_of_nonneg (by norm_num : (0 : ℝ) ≤ 1 / 2)]
          linarith
    linarith
  have r1 : |r - (1 / 2 * T + C)| ≤ |r - (m + l)| + |m - 1 / 2 * T| + |l - C| := by
    calc |r - (1 / 2 * T + C)| = |(r - (m + l)) + (m - 1 / 2 * T) + (l - C)| := by ring_nf
      _ ≤ |(r - (m + l)) + (m - 1 / 2 * T)| + |l - C| := abs_add_le _ _
      _ ≤ _ := by
        have := abs_add_le (r - (m + l)) (m - 1 / 2 * T)
        linarith
  have r2 : u * |m + l| ≤ u * (1 / 2 * B + (u * (1 / 2 * (B + S)) + eta) + 1 / 2 * S + B' + L) :=
    mul_le_mul_of_nonneg_left m2 hu
  have r3 : |r - (1 / 2 * T + C)| ≤ (1 + u) ^ 2 * (1 / 2 * B) + ((1 + u) ^ 2 - 1) * (1 / 2 * S)
      + (1 + u) * eta + (1 + u) * B' + u * L := by
    refine le_trans (by linarith : _ ≤
      u * (1 / 2 * B + (u * (1 / 2 * (B + S)) + eta) + 1 / 2 * S + B' + L)
        + (1 / 2 * B + (u * (1 / 2 * (B + S)) + eta)) + B') (le_of_eq ?_)
    ring
  refine r3.trans ?_
  have w1 : 1 + u ≤ (1 + u) ^ 2 := by nlinarith only [hu]
  have w2 : 0 ≤ (1 + u) ^ 2 := by positivity
  have w3 : g * (1 + u) ≤ g * (1 + u) ^ 2 := mul_le_mul_of_nonneg_left w1 (by linarith)
  have w4 : 1 * (1 + u) ≤ g * (1 + u) := mul_le_mul_of_nonneg_right g1 (by linarith)
  have t1 : (1 + u) * B' + u * L ≤ (g * (1 + u) ^ 2 - 1) * L + g * (1 + u) ^ 2 * n * eta := by
    have s1 : (1 + u) * B' + u * L ≤ (1 + u) * ((g - 1) * L + n * g * eta) + u * L := by
      have := mul_le_mul_of_nonneg_left hBl (by linarith : (0 : ℝ) ≤ 1 + u)
      linarith
    have s2 : (1 + u) * ((g - 1) * L + n * g * eta) + u * L
        = (g * (1 + u) - 1) * L + g * (1 + u) * n * eta := by ring
    have s3 : (g * (1 + u) - 1) * L ≤ (g * (1 + u) ^ 2 - 1) * L :=
      mul_le_mul_of_nonneg_right (by linarith) hL0
    have s4 : g * (1 + u) * n * eta ≤ g * (1 + u) ^ 2 * n * eta :=
      mul_le_mul_of_nonneg_right (mul_le_mul_of_nonneg_right w3 hn) he
    linarith
  have t2 : (1 + u) * eta ≤ g * (1 + u) ^ 2 * eta :=
    mul_le_mul_of_nonneg_right (by linarith) he
  have t3 : (1 + u) ^ 2 * (1 / 2 * B) + ((1 + u) ^ 2 - 1) * (1 / 2 * S)
      = (g * (1 + u) ^ 2 - 1) * (1 / 2 * S) + 1 / 2 * (g * (1 + u) ^ 2 * (k * X + n) * eta) := by
    rw [hB]; ring
  have t4 : 0 ≤ g * (1 + u) ^ 2 * (k * X + n) * eta := by positivity
  have t5 : g * (1 + u) ^ 2 * (k * X + 2 * n + 1) * eta
      = g * (1 + u) ^ 2 * (k * X + n) * eta + g * (1 + u) ^ 2 * n * eta + g * (1 + u) ^ 2 * eta := by
    ring
  rw [t5]
  linarith

section

variable {K : Type} [Zero K] [One K] [Add K] [Sub K] [Mul K] [Div K] [Neg K] [Scalar K] [Ieee K]

/-- The computed objective value, if finite. -/
theorem objF_rounded {pb : Problem K} (hpb : pb.WF) (hhalf : toR (Scalar.dec 5 1 : K) = 1 / 2)
    {k : Nat} (hk : ∀ i, i < pb.n → pb.P.rowNnz i ≤ k) {x : Nat → K} (hf : fin (objF pb.P pb.c x)) :
    |toR (objF pb.P pb.c x) - pb.real.obj (fun i => toR (x i))| ≤ pb.objErr k x := by
  unfold objF at hf ⊢
  have hu := u_nonneg (K := K)
  have he := eta_nonneg (K := K)
  obtain ⟨f1, f2, f3⟩ := Ieee.add _ _ hf
  obtain ⟨f4, f5, f6⟩ := Ieee.mul _ _ f1
  have f7 := (Ieee.neg _ f4).2
  rw [hhalf] at f7
  rw [f7] at f6
  have hn : pb.P.n = pb.n := rfl
  rw [hn] at *
  set v := smmF pb.P x (fun _ => 0) with hv
  set X : Nat → ℝ := fun i => |toR (x i)| with hX
  set a : Nat → ℝ := fun i => pb.abs.P.mulVec X i with ha
  set w : Nat → ℝ := fun i => pb.real.P.mulVec (fun c => toR (x c)) i with hw
  have hfv := fin_dotF f5
  -- the product with `P`
  set gk := (1 + u K) ^ (2 * k) with hgk
  have gk1 : 1 ≤ gk := one_le_pow₀ (by linarith)
  have hvi : ∀ i, i < pb.n → |w i| ≤ a i ∧ |toR (v i) + w i| ≤ (gk - 1) * a i + k * gk * eta K := by
    intro i hi
    have h1 := Acc.smmF hpb.P x (fun _ => 0) i (Acc.zero (K := K)) (hfv i hi).1
    rw [zero_add, zero_sub, zero_add, abs_neg, sub_neg_eq_add] at h1
    refine ⟨h1.1, h1.2.trans ?_⟩
    have := errBound_mono (u := u K) (eta := eta K) hu he ((abs_nonneg _).trans h1.1) le_rfl (hk i hi)
    exact this
  have ha0 : ∀ i, i < pb.n → 0 ≤ a i := fun i hi => (abs_nonneg _).trans (hvi i hi).1
  set S := dot pb.n X a with hS
  set X1 := ∑ i ∈ range pb.n, X i with hX1
  have hX0 : 0 ≤ X1 := sum_nonneg fun i _ => abs_nonneg _
  set T := dot pb.n (fun i => toR (x i)) w with hT
  have hTS : |T| ≤ S := by
    refine (abs_sum_le_sum_abs _ _).trans (sum_le_sum fun i hi => ?_)
    rw [abs_mul]
    exact mul_le_mul_of_nonneg_left (hvi i (mem_range.mp hi)).1 (abs_nonneg _)
  -- the quadratic term
  set gn := (1 + u K) ^ (2 * pb.n) with hgn
  have gn1 : 1 ≤ gn := one_le_pow₀ (by linarith)
  have hq0 := (Acc.dotF pb.n v x f5).2
  have hvS : dot pb.n (fun i => |toR (v i)|) (fun i => |toR (x i)|) ≤ gk * S + k * gk * eta K * X1 := by
    rw [hS, hX1, dot, dot, mul_sum, mul_sum, ← sum_add_distrib]
    refine sum_le_sum fun i hi => ?_
    obtain ⟨b1, b2⟩ := hvi i (mem_range.mp hi)
    have : |toR (v i)| ≤ |toR (v i) + w i| + |w i| := by
      calc |toR (v i)| = |(toR (v i) + w i) - w i| := by ring_nf
        _ ≤ _ := abs_sub _ _
    have b3 : |toR (v i)| ≤ gk * a i + k * gk * eta K := by linarith
    calc |toR (v i)| * |toR (x i)| ≤ (gk * a i + k * gk * eta K) * |toR (x i)| :=
          mul_le_mul_of_nonneg_right b3 (abs_nonneg _)
      _ = _ := by show _ = gk * (|toR (x i)| * a i) + k * gk * eta K * |toR (x i)|; ring
  have hvT : |dot pb.n (fun i => toR (v i)) (fun i => toR (x i)) + T|
      ≤ (gk - 1) * S + k * gk * eta K * X1 := by
    rw [hT, dot, dot, ← sum_add_distrib]
    refine (abs_sum_le_sum_abs _ _).trans ?_
    rw [hS, hX1, dot, mul_sum, mul_sum, ← sum_add_distrib]
    refine sum_le_sum fun i hi => ?_
    obtain ⟨b1, b2⟩ := hvi i (mem_range.mp hi)
    calc |toR (v i) * toR (x i) + toR (x i) * w i| = |toR (v i) + w i| * |toR (x i)| := by
          rw [← abs_mul]; ring_nf
      _ ≤ ((gk - 1) * a i + k * gk * eta K) * |toR (x i)| :=
          mul_le_mul_of_nonneg_right b2 (abs_nonneg _)
      _ = _ := by show _ = (gk - 1) * (|toR (x i)| * a i) + k * gk * eta K * |toR (x i)|; ring
  have hk0 : (0 : ℝ) ≤ k := Nat.cast_nonneg k
  have hn0 : (0 : ℝ) ≤ (pb.n : ℝ) := Nat.cast_nonneg _
  have hq : |toR (dotF pb.n v x) + T| ≤ (gn * gk - 1) * S
      + (k * (gn * gk) * X1 + pb.n * (gn * gk)) * eta K := by
    have c1 : |toR (dotF pb.n v x) + T| ≤
        |toR (dotF pb.n v x) - dot pb.n (fun i => toR (v i)) (fun i => toR (x i))|
        + |dot pb.n (fun i => toR (v i)) (fun i => toR (x i)) + T| := by
      refine le_trans (le_of_eq ?_) (abs_add_le _ _)
      ring_nf
    unfold Ieee.err errBound at hq0
    rw [← hgn] at hq0
    have c2 : (gn - 1) * dot pb.n (fun i => |toR (v i)|) (fun i => |toR (x i)|)
        ≤ (gn - 1) * (gk * S + k * gk * eta K * X1) :=
      mul_le_mul_of_nonneg_left hvS (by linarith)
    have c3 : pb.n * gn * eta K ≤ pb.n * (gn * gk) * eta K :=
      mul_le_mul_of_nonneg_right (mul_le_mul_of_nonneg_left (by nlinarith) hn0) he
    calc |toR (dotF pb.n v x) + T| ≤ ((gn - 1) * (gk * S + k * gk * eta K * X1)
          + pb.n * (gn * gk) * eta K) + ((gk - 1) * S + k * gk * eta K * X1) := by linarith
      _ = _ := by ring
  -- the linear term
  obtain ⟨hL, hl⟩ := Acc.dotF pb.n pb.c x f2
  unfold Ieee.err errBound at hl
  rw [← hgn] at hl
  have key := obj_real hu he hTS hL hX0 hk0 hn0 gn1 (by nlinarith : gn ≤ gn * gk) hq hl f6 f3
  have e1 : pb.real.obj (fun i => toR (x i))
      = 1 / 2 * T + dot pb.n (fun i => toR (pb.c i)) (fun i => toR (x i)) := rfl
  have e2 : pb.objSize x = 1 / 2 * S + dot pb.n (fun i => |toR (pb.c i)|) (fun i => |toR (x i)|) := rfl
  have e3 : (1 + u K) ^ (2 * (pb.n + k + 1)) = gn * gk * (1 + u K) ^ 2 := by
    rw [hgn, hgk, ← pow_add, ← pow_add]
    congr 1
    ring
  unfold Problem.objErr
  rw [e1, e2, e3]
  exact key

/-- **C75**, every iteration: the objective value stored by an iteration, if it is finite, is the objective
value of the iterate at the start of that iteration up to rounding. -/
theorem C75_objective {amd : Amd} {a : SetupArgs K} {pb : Problem K} {q0 qp qp' : QP K} {brk : Bool}
    (h : Started amd a pb q0) (hr : Reach q0 qp) (hb : solveBody qp = .ok (qp', brk))
    (hhalf : toR (Scalar.dec 5 1 : K) = 1 / 2)
    {k : Nat} (hk : ∀ i, i < pb.n → pb.P.rowNnz i ≤ k)
    {x y z s : Nat → K} (hi : qp.Iter pb x y z s) :
    ∃ v, qp'.stats.fval = some v ∧
      (fin v → |toR v - pb.real.obj (fun i => toR (x i))| ≤ pb.objErr k x) := by
  obtain ⟨p, q, hs, _⟩ := h.sinv hr
  have hbo := hs.bodyOut h.wf hb hi
  refine ⟨objF pb.P pb.c x, ?_, fun hf => objF_rounded h.wf hhalf hk hf⟩
  cases brk
  · obtain ⟨t, _, _, re, e⟩ := hbo.step rfl
    simp only at e
    rw [e]
    rfl
  · obtain ⟨_, _, _, e, _⟩ := hbo.stop rfl
    simp only at e
    rw [e]
    rfl

end

end Verif
