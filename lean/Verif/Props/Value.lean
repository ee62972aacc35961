import Verif.Props.DoubleValue
import Verif.Props.Certify

/-!
# The reported objective value and the optimal value (C20)

Two-sided version of C20 in exact arithmetic: on a convex problem that has a solution, exit code 0
means that the reported objective value lies in an explicit interval around the optimal value.
-/

set_option linter.unusedSectionVars false

namespace Verif

open Finset

section

variable {K : Type} [Field K] [LinearOrder K] [IsStrictOrderedRing K] [Scalar K] [LawfulScalar K]
  [LawfulSqrt K]

/-- A point satisfying the optimality conditions of a convex problem is feasible, and no feasible
point has a smaller objective value. -/
theorem Problem.Optimal.minimal {pb : Problem K} (hpb : pb.WF) (hsym : pb.P.Symm) (hpsd : pb.Psd)
    {x y z s : Nat → K} (ho : pb.Optimal x y z s) :
    pb.Feasible x ∧ ∀ w, pb.Feasible w → pb.obj x ≤ pb.obj w := by
  refine ⟨⟨ho.ry, fun i hi => by have := ho.rz i hi; have := ho.s_nonneg i hi; linarith⟩,
    fun w hw => ?_⟩
  set d : Nat → K := fun i => x i - w i with hdd
  have c1 : pb.obj x - pb.obj w ≤ dot pb.n d (fun i => pb.P.mulVec x i + pb.c i) := by
    have e0 := hpsd d
    have e1 : dot pb.n d (pb.P.mulVec d) = dot pb.n x (pb.P.mulVec x) - 2 * dot pb.n w (pb.P.mulVec x)
        + dot pb.n w (pb.P.mulVec w) := by
      have s1 : dot pb.n x (pb.P.mulVec w) = dot pb.n w (pb.P.mulVec x) :=
        dot_mulVec_symm hsym x w
      have s2 : pb.P.mulVec d = fun i => pb.P.mulVec x i - pb.P.mulVec w i :=
        funext (mulVec_sub pb.P x w)
      rw [s2, dot_sub, dot_comm _ d, dot_comm _ d, dot_sub, dot_sub, dot_comm _ _ x, dot_comm _ _ w,
        dot_comm _ (pb.P.mulVec w) x, dot_comm _ (pb.P.mulVec w) w, s1]
      ring
    have e2 : dot pb.n d (fun i => pb.P.mulVec x i + pb.c i) = dot pb.n x (pb.P.mulVec x)
        - dot pb.n w (pb.P.mulVec x) + dot pb.n pb.c x - dot pb.n pb.c w := by
      rw [dot_add, dot_comm _ d, dot_comm _ d, dot_sub, dot_sub, dot_comm _ _ x, dot_comm _ _ w]
      ring
    unfold Problem.obj
    rw [e2]
    rw [e1] at e0
    linarith
  have c2 : dot pb.n d (fun i => pb.P.mulVec x i + pb.c i)
      = - dot pb.m z (pb.G.mulVec d) - dot pb.p y (pb.A.mulVec d) := by
    rw [← pb.dotG hpb, ← pb.dotA hpb, ← dot_neg, ← dot_sub]
    refine dot_congr (fun _ _ => rfl) fun i hi => ?_
    linear_combination ho.rx i hi
  have c3 : dot pb.p y (pb.A.mulVec d) = 0 := by
    refine sum_eq_zero fun i hi => ?_
    have hi := mem_range.mp hi
    rw [hdd, mulVec_sub, ho.ry i hi, hw.1 i hi, sub_self, mul_zero]
  have c4 : 0 ≤ dot pb.m z (pb.G.mulVec d) := by
    refine sum_nonneg fun i hi => ?_
    have hi := mem_range.mp hi
    have e : z i * pb.G.mulVec d i = z i * (pb.h i - pb.G.mulVec w i) - s i * z i := by
      rw [hdd, mulVec_sub]
      linear_combination z i * ho.rz i hi
    rw [e, ho.comp i hi, sub_zero]
    exact mul_nonneg (ho.z_nonneg i hi) (sub_nonneg.mpr (hw.2 i hi))
  linarith

/-- C20, the reported value: on a convex problem with a solution `x'` (multipliers `y'`, `z'`) exit
code 0 means that the reported objective value exceeds the optimal value by at most
`m * abstol + tol * (|x - x'| + |y| + |z|)` and falls below it by at most `tol * (|y'| + |z'|)`, where
`tol = reltol / sqrt 3` and `x`, `y`, `z` are the returned vectors. -/
theorem C20_value {amd : Amd} {a : SetupArgs K} {pb : Problem K} {q0 qp qp' : QP K}
    (h : Started amd a pb q0) (hr : Reach q0 qp) (hf : qp.stats.Flag ≠ 0)
    (hsym : pb.P.Symm) (hpsd : pb.Psd)
    (hs : QP_SOLVE qp = .ok (0, qp')) {t : K} (h0 : 0 ≤ t) (h3 : t * t = 3)
    {x' y' z' s' : Nat → K} (ho : pb.Optimal x' y' z' s') :
    (∀ w, pb.Feasible w → pb.obj x' ≤ pb.obj w) ∧
    ∃ fv x y z s, qp'.stats.fval = some fv ∧ qp'.Iter pb x y z s ∧
      (∀ nd ny nz, IsNorm pb.n (fun i => x i - x' i) nd → IsNorm pb.p y ny → IsNorm pb.m z nz →
        fv - pb.obj x' ≤ pb.m * qp.options.abstol + qp.options.reltol / t * (nd + ny + nz)) ∧
      ∀ ny nz, IsNorm pb.p y' ny → IsNorm pb.m z' nz →
        pb.obj x' - fv ≤ qp.options.reltol / t * (ny + nz) := by
  obtain ⟨x, y, z, s, hi, hap⟩ := C19_exit_zero h hr hf hs h0 h3
  obtain ⟨hfe, hmin⟩ := ho.minimal h.wf hsym hpsd
  exact ⟨hmin, pb.obj x, x, y, z, s, C21_fval_zero h hr hf hs hi, hi,
    fun nd ny nz i1 i2 i3 => hap.suboptimal h.wf hsym hpsd hfe i1 i2 i3,
    fun ny nz i1 i2 => hap.lower h.wf hsym hpsd ho i1 i2⟩

end

theorem tinyPb_symm : (tinyPb ℝ).P.Symm := by
  intro i j hi hj
  have hi : i < 1 := hi
  have hj : j < 1 := hj
  interval_cases i; interval_cases j; rfl

theorem tinyPb_psd : (tinyPb ℝ).Psd := fun v =>
  (mul_nonneg zero_le_one (sum_nonneg fun _ _ => mul_self_nonneg _)).trans (tinyPb_strong v)

/-- C20, the reported value, for a solve of `minimise x²/2 + x subject to x ≤ 1` (solution `-1`, value
`-1/2`, multiplier zero): the reported value is never below `-1/2`. -/
example : ∃ (q0 qp q1 : QP ℝ) (fv t : ℝ) (x y z s : Nat → ℝ),
    Started failAmd (tinyArgs ℝ) (tinyPb ℝ) q0 ∧ QP_SOLVE qp = .ok (0, q1) ∧ t * t = 3 ∧
    q1.Iter (tinyPb ℝ) x y z s ∧ q1.stats.fval = some fv ∧ -1 / 2 ≤ fv ∧
    ∀ nd ny nz, IsNorm 1 (fun i => x i - -1) nd → IsNorm 0 y ny → IsNorm 1 z nz →
      fv - -1 / 2 ≤ (1 : Nat) * qp.options.abstol + qp.options.reltol / t * (nd + ny + nz) := by
  obtain ⟨q0, h⟩ := tiny_started ℝ
  obtain ⟨o1, o2, o3, q1, q2, q3, h1, h2, _⟩ := C24_stale_optimal_exists h
  obtain ⟨t, ht0, ht3⟩ := sqrt3_exists (K := ℝ)
  have hr : Reach q0 { q1 with options := o2 } := .options o2 (.solve (.options o1 .start) h1)
  have hfl : q1.stats.Flag ≠ 0 := by
    obtain ⟨p, q, hi, _⟩ := h.sinv (.options o1 .start)
    obtain ⟨k, qk, hk⟩ := QP_SOLVE_inv h.wf hi h1
    rw [← hk.ret]
    decide
  obtain ⟨_, fv, x, y, z, s, e1, e2, e3, e4⟩ := C20_value h hr hfl tinyPb_symm tinyPb_psd h2 ht0 ht3
    tiny_optimal
  have eo : (tinyPb ℝ).obj (fun _ => -1) = -1 / 2 := by
    unfold Problem.obj dot Csc.mulVec
    rw [show (tinyPb ℝ).n = 1 from rfl, show (tinyPb ℝ).P.n = 1 from rfl, sum_range_one, sum_range_one,
      sum_range_one, tiny_P]
    simp only [tinyPb]
    norm_num
  rw [eo] at e3 e4
  refine ⟨q0, _, q2, fv, t, x, y, z, s, h, h2, ht3, e2, e1, ?_, e3⟩
  have := e4 0 0 ⟨le_rfl, by simp [dot]⟩ ⟨le_rfl, by simp [dot]⟩
  linarith

end Verif
