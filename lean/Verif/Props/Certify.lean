import Verif.Props.Pivots

/-!
# What exit code 0 rules out and how close the returned point is (C58, C59)

C58: exit code 0 is impossible on problems with a certificate of infeasibility or unboundedness
that is not huge compared with the inverse tolerance. C59: on strongly convex problems exit code 0
bounds the distance of the returned point to the solution.
-/

set_option linter.unusedSectionVars false

namespace Verif

open Finset

section

variable {K : Type} [Field K] [LinearOrder K] [IsStrictOrderedRing K] [Scalar K] [LawfulScalar K]
  [LawfulSqrt K]

theorem dot_zero_right {n : Nat} {u v : Nat → K} (h : ∀ i, i < n → v i = 0) : dot n u v = 0 :=
  sum_eq_zero fun i hi => by rw [h i (mem_range.mp hi), mul_zero]

theorem Problem.dotA {pb : Problem K} (hpb : pb.WF) (x y : Nat → K) :
    dot pb.n x (pb.A.tmulVec y) = dot pb.p y (pb.A.mulVec x) := by
  have := dot_tmulVec pb.A x y
  rw [hpb.An] at this
  exact this

theorem Problem.dotG {pb : Problem K} (hpb : pb.WF) (x z : Nat → K) :
    dot pb.n x (pb.G.tmulVec z) = dot pb.m z (pb.G.mulVec x) := by
  have := dot_tmulVec pb.G x z
  rw [hpb.Gn] at this
  exact this

/-- The value of a certificate of infeasibility on the residuals. -/
theorem Problem.PrimalCert.residual {pb : Problem K} (hpb : pb.WF) {y z : Nat → K}
    (h : pb.PrimalCert y z) (x s : Nat → K) :
    dot pb.p y (pb.ry x) + dot pb.m z (pb.rz x s) = -1 - dot pb.m z s := by
  have e0 : dot pb.n x (fun i => pb.A.tmulVec y i + pb.G.tmulVec z i) = 0 :=
    dot_zero_right h.orth
  rw [dot_add, pb.dotA hpb, pb.dotG hpb] at e0
  have e1 : dot pb.p y (pb.ry x) = dot pb.p y pb.b - dot pb.p y (pb.A.mulVec x) := dot_sub _ _ _ _
  have e2 : dot pb.m z (pb.rz x s)
      = dot pb.m z pb.h - dot pb.m z s - dot pb.m z (pb.G.mulVec x) := by
    have := dot_sub pb.m z (fun i => pb.h i - s i) (pb.G.mulVec x)
    rw [dot_sub pb.m z pb.h s] at this
    exact this
  have e3 := h.value
  rw [dot_comm _ pb.b, dot_comm _ pb.h] at e3
  rw [e1, e2]
  linear_combination e3 - e0

/-- A certificate of infeasibility is one. -/
theorem Problem.PrimalCert.infeasible {pb : Problem K} (hpb : pb.WF) {y z : Nat → K}
    (h : pb.PrimalCert y z) : ¬ ∃ w, pb.Feasible w := by
  rintro ⟨w, h1, h2⟩
  have e := h.residual hpb w (fun i => pb.h i - pb.G.mulVec w i)
  rw [dot_zero_right (u := y) (v := pb.ry w) (fun i hi => by
      unfold Problem.ry; rw [h1 i hi, sub_self]),
    dot_zero_right (u := z) (v := pb.rz w _) (fun i hi => by unfold Problem.rz; ring)] at e
  have : 0 ≤ dot pb.m z (fun i => pb.h i - pb.G.mulVec w i) :=
    sum_nonneg fun i hi => mul_nonneg (h.nonneg i (mem_range.mp hi))
      (sub_nonneg.mpr (h2 i (mem_range.mp hi)))
  linarith

theorem mulVec_add_smul (A : Csc K) (x d : Nat → K) (t : K) (r : Nat) :
    A.mulVec (fun i => x i + t * d i) r = A.mulVec x r + t * A.mulVec d r := by
  unfold Csc.mulVec
  rw [mul_sum, ← sum_add_distrib]
  exact sum_congr rfl fun c _ => by ring

/-- Along a certificate of unboundedness a feasible point stays feasible and the objective falls
with slope one. -/
theorem Problem.DualCert.unbounded {pb : Problem K} (hsym : pb.P.Symm) {d : Nat → K}
    (h : pb.DualCert d) {w : Nat → K} (hw : pb.Feasible w) {t : K} (ht : 0 ≤ t) :
    pb.Feasible (fun i => w i + t * d i) ∧
      pb.obj (fun i => w i + t * d i) = pb.obj w - t := by
  refine ⟨⟨fun i hi => ?_, fun i hi => ?_⟩, ?_⟩
  · rw [mulVec_add_smul, hw.1 i hi, h.eqs i hi, mul_zero, add_zero]
  · rw [mulVec_add_smul]
    have := hw.2 i hi
    have := mul_nonneg ht (neg_nonneg.mpr (h.ineqs i hi))
    linarith
  · have e1 : dot pb.n (fun i => w i + t * d i) (pb.P.mulVec (fun i => w i + t * d i))
        = dot pb.n w (pb.P.mulVec w) := by
      rw [dot_congr (f := fun i => w i + t * d i) (g := pb.P.mulVec (fun i => w i + t * d i))
        (f' := fun i => w i + t * d i) (g' := pb.P.mulVec w) (fun _ _ => rfl) (fun i hi => by
          rw [mulVec_add_smul, h.flat i hi, mul_zero, add_zero])]
      rw [dot_comm, dot_add, dot_comm _ _ w]
      have e2 : dot pb.n (pb.P.mulVec w) (fun i => t * d i) = t * dot pb.n d (pb.P.mulVec w) := by
        unfold dot
        rw [mul_sum]
        exact sum_congr rfl fun i _ => by ring
      have e3 : dot pb.n d (pb.P.mulVec w) = 0 := by
        have := dot_mulVec_symm hsym d w
        exact this.trans (dot_zero_right h.flat)
      rw [e2, e3, mul_zero, add_zero]
    have e2 : dot pb.n pb.c (fun i => w i + t * d i) = dot pb.n pb.c w - t := by
      rw [dot_add]
      have : dot pb.n pb.c (fun i => t * d i) = t * dot pb.n pb.c d := by
        unfold dot
        rw [mul_sum]
        exact sum_congr rfl fun i _ => by ring
      rw [this, h.slope]
      ring
    unfold Problem.obj
    rw [e1, e2]
    ring

/-- Points satisfying the optimality conditions approximately rule out certificates of
infeasibility. -/
theorem Problem.Approx.no_primalCert {pb : Problem K} (hpb : pb.WF) {tol gap : K}
    {x y z s : Nat → K} (h : pb.Approx tol gap x y z s) {y' z' : Nat → K}
    (hc : pb.PrimalCert y' z') {ny nz : K} (hy : IsNorm pb.p y' ny) (hz : IsNorm pb.m z' nz) :
    1 < tol * (ny + nz) := by
  obtain ⟨vy, ivy, lvy⟩ := h.ry
  obtain ⟨vz, ivz, lvz⟩ := h.rz
  have e := hc.residual hpb x s
  have hs : 0 ≤ dot pb.m z' s := sum_nonneg fun i hi =>
    mul_nonneg (hc.nonneg i (mem_range.mp hi)) (h.s_pos i (mem_range.mp hi)).le
  have neg : ∀ {n : Nat} {f : Nat → K} {v : K}, IsNorm n f v → IsNorm n (fun i => - f i) v := by
    intro n f v hv
    refine ⟨hv.1, hv.2.trans ?_⟩
    exact sum_congr rfl fun i _ => by ring
  have b1 := hy.dot_le (neg ivy)
  have b2 := hz.dot_le (neg ivz)
  rw [dot_neg] at b1 b2
  have m1 : ny * vy ≤ ny * tol := mul_le_mul_of_nonneg_left lvy.le hy.1
  have m2 : nz * vz ≤ nz * tol := mul_le_mul_of_nonneg_left lvz.le hz.1
  have h1 : 1 ≤ ny * vy + nz * vz := by linarith
  -- one of the norms is positive, so one of the two inequalities is strict
  rcases hy.1.lt_or_eq with hp | hp
  · have : ny * vy < ny * tol := mul_lt_mul_of_pos_left lvy hp
    linarith
  · rcases hz.1.lt_or_eq with hq | hq
    · have : nz * vz < nz * tol := mul_lt_mul_of_pos_left lvz hq
      linarith
    · rw [← hp, ← hq] at h1
      simp at h1
      linarith

/-- Likewise for certificates of unboundedness. -/
theorem Problem.Approx.no_dualCert {pb : Problem K} (hpb : pb.WF) (hsym : pb.P.Symm) {tol gap : K}
    {x y z s : Nat → K} (h : pb.Approx tol gap x y z s) {d : Nat → K}
    (hc : pb.DualCert d) {nd : K} (hd : IsNorm pb.n d nd) : 1 < tol * nd := by
  obtain ⟨vx, ivx, lvx⟩ := h.rx
  have e : dot pb.n d (pb.rx x y z) = 1 - dot pb.m z (pb.G.mulVec d) := by
    have e0 : pb.rx x y z = fun i => -(((pb.P.mulVec x i + pb.G.tmulVec z i) + pb.A.tmulVec y i)
        + pb.c i) := rfl
    have k1 := dot_add pb.n d (fun i => (pb.P.mulVec x i + pb.G.tmulVec z i) + pb.A.tmulVec y i) pb.c
    have k2 := dot_add pb.n d (fun i => pb.P.mulVec x i + pb.G.tmulVec z i) (pb.A.tmulVec y)
    have k3 := dot_add pb.n d (pb.P.mulVec x) (pb.G.tmulVec z)
    have k4 : dot pb.n d (pb.P.mulVec x) = 0 :=
      (dot_mulVec_symm hsym d x).trans (dot_zero_right hc.flat)
    have k5 : dot pb.n d (pb.A.tmulVec y) = 0 := by
      rw [pb.dotA hpb]
      exact dot_zero_right hc.eqs
    have k6 := hc.slope
    rw [dot_comm] at k6
    rw [e0, dot_neg, k1, k2, k3, k4, k5, k6, pb.dotG hpb]
    ring
  have hnn : dot pb.m z (pb.G.mulVec d) ≤ 0 := sum_nonpos fun i hi =>
    mul_nonpos_of_nonneg_of_nonpos (h.z_pos i (mem_range.mp hi)).le (hc.ineqs i (mem_range.mp hi))
  have b := hd.dot_le ivx
  rcases hd.1.lt_or_eq with hp | hp
  · have : nd * vx < nd * tol := mul_lt_mul_of_pos_left lvx hp
    linarith
  · rw [← hp, zero_mul] at b
    linarith

/-- Distance to a solution, measured by `P`. -/
theorem Problem.Approx.close {pb : Problem K} (hpb : pb.WF) {tol gap : K} {x y z s : Nat → K}
    (h : pb.Approx tol gap x y z s) {x' y' z' s' : Nat → K} (ho : pb.Optimal x' y' z' s')
    {nx ny nz : K} (hx : IsNorm pb.n (fun i => x i - x' i) nx)
    (hy : IsNorm pb.p (fun i => y i - y' i) ny) (hz : IsNorm pb.m (fun i => z i - z' i) nz) :
    dot pb.n (fun i => x i - x' i) (pb.P.mulVec (fun i => x i - x' i))
      ≤ pb.m * gap + tol * (nx + ny + nz) := by
  obtain ⟨vx, ivx, lvx⟩ := h.rx
  obtain ⟨vy, ivy, lvy⟩ := h.ry
  obtain ⟨vz, ivz, lvz⟩ := h.rz
  set d : Nat → K := fun i => x i - x' i with hdd
  set w : Nat → K := fun i => y i - y' i with hw
  set v : Nat → K := fun i => z i - z' i with hv
  have tsub : ∀ (B : Csc K) (a b : Nat → K) i,
      B.tmulVec (fun i => a i - b i) i = B.tmulVec a i - B.tmulVec b i := by
    intro B a b i
    unfold Csc.tmulVec
    rw [← sum_sub_distrib]
    exact sum_congr rfl fun c _ => by ring
  -- stationarity
  have c1 : dot pb.n d (pb.P.mulVec d)
      = - dot pb.n d (pb.rx x y z) - dot pb.m v (pb.G.mulVec d) - dot pb.p w (pb.A.mulVec d) := by
    rw [← pb.dotG hpb, ← pb.dotA hpb, ← dot_neg, ← dot_sub, ← dot_sub]
    refine dot_congr (fun _ _ => rfl) fun i hi => ?_
    have := ho.rx i hi
    rw [hdd, hw, hv, mulVec_sub, tsub, tsub]
    unfold Problem.rx
    linear_combination -this
  -- equality constraints
  have c2 : - dot pb.p w (pb.A.mulVec d) = dot pb.p w (pb.ry x) := by
    rw [← dot_neg]
    refine dot_congr (fun _ _ => rfl) fun i hi => ?_
    rw [hdd, mulVec_sub, ho.ry i hi]
    unfold Problem.ry
    ring
  -- inequality constraints
  have c3 : - dot pb.m v (pb.G.mulVec d) ≤ dot pb.m s z + dot pb.m v (pb.rz x s) := by
    have e : - dot pb.m v (pb.G.mulVec d)
        = dot pb.m v (pb.rz x s) + dot pb.m v (fun i => s i - s' i) := by
      rw [← dot_neg, ← dot_add]
      refine dot_congr (fun _ _ => rfl) fun i hi => ?_
      have := ho.rz i hi
      rw [hdd, mulVec_sub]
      unfold Problem.rz
      linear_combination this
    have e2 : dot pb.m v (fun i => s i - s' i) ≤ dot pb.m s z := by
      refine sum_le_sum fun i hi => ?_
      have hi := mem_range.mp hi
      have h1 := mul_nonneg (h.s_pos i hi).le (ho.z_nonneg i hi)
      have h2 := mul_nonneg (ho.s_nonneg i hi) (h.z_pos i hi).le
      have h3 := ho.comp i hi
      simp only [hv]
      linarith
    linarith
  have b1 : - dot pb.n d (pb.rx x y z) ≤ nx * vx := by
    rw [← dot_neg]
    refine hx.dot_le ⟨ivx.1, ?_⟩
    rw [ivx.2]
    exact sum_congr rfl fun i _ => by ring
  have b2 := hz.dot_le ivz
  have b3 := hy.dot_le ivy
  have hm : (0 : K) < pb.m := Nat.cast_pos.mpr hpb.m_pos
  have b4 : dot pb.m s z ≤ pb.m * gap := by
    have := h.gap
    rw [div_lt_iff₀ hm] at this
    linarith
  have m1 : nx * vx ≤ nx * tol := mul_le_mul_of_nonneg_left lvx.le hx.1
  have m2 : nz * vz ≤ nz * tol := mul_le_mul_of_nonneg_left lvz.le hz.1
  have m3 : ny * vy ≤ ny * tol := mul_le_mul_of_nonneg_left lvy.le hy.1
  linarith

/-- **C58**, infeasible constraints: a solve (whose flag was not already 0) cannot return 0 when
there is a certificate of infeasibility whose norm is at most the inverse of the tolerance. `t` is
the square root of 3. -/
theorem C58_infeasible {amd : Amd} {a : SetupArgs K} {pb : Problem K} {q0 qp qp' : QP K}
    (h : Started amd a pb q0) (hr : Reach q0 qp) (hf : qp.stats.Flag ≠ 0) {f : Int}
    (hs : QP_SOLVE qp = .ok (f, qp')) {t : K} (h0 : 0 ≤ t) (h3 : t * t = 3) {y z : Nat → K}
    (hc : pb.PrimalCert y z) {ny nz : K} (hy : IsNorm pb.p y ny) (hz : IsNorm pb.m z nz)
    (hsmall : qp.options.reltol / t * (ny + nz) ≤ 1) : f ≠ 0 := by
  rintro rfl
  obtain ⟨_, _, _, _, _, hap⟩ := C19_exit_zero h hr hf hs h0 h3
  exact absurd (hap.no_primalCert h.wf hc hy hz) (not_lt.mpr hsmall)

/-- **C58**, unbounded objective. -/
theorem C58_unbounded {amd : Amd} {a : SetupArgs K} {pb : Problem K} {q0 qp qp' : QP K}
    (h : Started amd a pb q0) (hr : Reach q0 qp) (hf : qp.stats.Flag ≠ 0) (hsym : pb.P.Symm)
    {f : Int} (hs : QP_SOLVE qp = .ok (f, qp')) {t : K} (h0 : 0 ≤ t) (h3 : t * t = 3) {d : Nat → K}
    (hc : pb.DualCert d) {nd : K} (hd : IsNorm pb.n d nd)
    (hsmall : qp.options.reltol / t * nd ≤ 1) : f ≠ 0 := by
  rintro rfl
  obtain ⟨_, _, _, _, _, hap⟩ := C19_exit_zero h hr hf hs h0 h3
  exact absurd (hap.no_dualCert h.wf hsym hc hd) (not_lt.mpr hsmall)

/-- **C58**, first solve: with either certificate the code runs to the iteration limit and returns
2. -/
theorem C58_first_solve {amd : Amd} {a : SetupArgs K} {pb : Problem K} {q0 qp' : QP K}
    (h : Started amd a pb q0) (o : Settings K) (hm : 0 ≤ o.maxit) {f : Int}
    (hs : QP_SOLVE { q0 with options := o } = .ok (f, qp')) {t : K} (h0 : 0 ≤ t) (h3 : t * t = 3)
    (hc : (∃ y z ny nz, pb.PrimalCert y z ∧ IsNorm pb.p y ny ∧ IsNorm pb.m z nz ∧
        o.reltol / t * (ny + nz) ≤ 1) ∨
      pb.P.Symm ∧ ∃ d nd, pb.DualCert d ∧ IsNorm pb.n d nd ∧ o.reltol / t * nd ≤ 1) :
    f = 2 ∧ qp'.stats.IterationCount = o.maxit := by
  obtain ⟨p, q, hd⟩ := h.done
  obtain ⟨re, hst⟩ := hd.stats
  have hfl : q0.stats.Flag ≠ 0 := by rw [hst]; exact (by decide : QP_FATAL ≠ 0)
  have hf : f ≠ 0 := by
    rcases hc with ⟨y, z, ny, nz, hc, hy, hz, hsm⟩ | ⟨hsym, d, nd, hc, hd, hsm⟩
    · exact C58_infeasible h (.options o .start) hfl hs h0 h3 hc hy hz hsm
    · exact C58_unbounded h (.options o .start) hfl hsym hs h0 h3 hc hd hsm
  obtain ⟨k, qk, _, _, h5, h6⟩ := (C22_first_solve h o hs).2 hm
  rcases h6 with ⟨e1, e2, _⟩ | ⟨e1, _⟩
  · exact ⟨e1, by rw [h5, e2]⟩
  · exact absurd e1 hf

/-- **C59**: on strongly convex problems exit code 0 bounds the distance to the solution. -/
theorem C59_distance {amd : Amd} {a : SetupArgs K} {pb : Problem K} {q0 qp qp' : QP K}
    (h : Started amd a pb q0) (hr : Reach q0 qp) (hf : qp.stats.Flag ≠ 0) {eps : K}
    (hP : pb.Strong eps) (hs : QP_SOLVE qp = .ok (0, qp')) {t : K} (h0 : 0 ≤ t) (h3 : t * t = 3)
    {x' y' z' s' : Nat → K} (ho : pb.Optimal x' y' z' s') :
    ∃ x y z s, qp'.Iter pb x y z s ∧ ∀ nx ny nz, IsNorm pb.n (fun i => x i - x' i) nx →
      IsNorm pb.p (fun i => y i - y' i) ny → IsNorm pb.m (fun i => z i - z' i) nz →
      eps * nx ^ 2 ≤ pb.m * qp.options.abstol + qp.options.reltol / t * (nx + ny + nz) := by
  obtain ⟨x, y, z, s, hi, hap⟩ := C19_exit_zero h hr hf hs h0 h3
  refine ⟨x, y, z, s, hi, fun nx ny nz hx hy hz => ?_⟩
  have := hap.close h.wf ho hx hy hz
  have e := hP (fun i => x i - x' i)
  rw [← hx.2] at e
  calc eps * nx ^ 2 = eps * (nx * nx) := by ring
    _ ≤ _ := e.trans this

end

/-- `minimise x²/2 + x subject to 3x ≤ -1, -4x ≤ -1`: no point satisfies both. -/
def clashPb (K : Type) [Field K] : Problem K :=
  { tinyPb K with G := .lit 2 1 [0, 2] [0, 1] [3, -4], h := fun _ => -1 }

theorem clashPb_wf {K : Type} [Field K] : (clashPb K).WF where
  P := tinyPb_wf.P
  A := tinyPb_wf.A
  G := by
    refine ⟨rfl, ?_, ?_⟩
    · intro c hc; simp only [clashPb, Csc.lit] at hc ⊢; interval_cases c; decide
    · intro k hk
      have hk : k < 2 := hk
      interval_cases k
      · exact Nat.zero_lt_two
      · exact Nat.one_lt_two
  Pm := rfl
  An := rfl
  Gn := rfl
  rows := by
    intro r hr
    have hr : r < 2 := hr
    interval_cases r
    · exact ⟨0, by simp [clashPb, Csc.lit], rfl⟩
    · exact ⟨1, by simp [clashPb, Csc.lit], rfl⟩
  m_pos := Nat.zero_lt_two

theorem clashPb_cert : (clashPb ℝ).PrimalCert (fun _ => 0) (fun i => if i = 0 then 4 / 7 else 3 / 7) where
  nonneg := by intro i _; split <;> norm_num
  orth := by
    intro i hi
    have hi : i < 1 := hi
    have : i = 0 := by omega
    subst this
    have e0 : (clashPb ℝ).G.entry 0 0 = 3 := by simp [clashPb, Csc.lit, Csc.entry, sum_range_succ]
    have e1 : (clashPb ℝ).G.entry 1 0 = -4 := by simp [clashPb, Csc.lit, Csc.entry, sum_range_succ]
    have e2 : (clashPb ℝ).A.tmulVec (fun _ => 0) 0 = 0 := rfl
    rw [e2]
    unfold Csc.tmulVec
    rw [show (clashPb ℝ).G.m = 2 from rfl, sum_range_succ, sum_range_one, e0, e1]
    norm_num
  value := by
    unfold dot
    rw [show (clashPb ℝ).p = 0 from rfl, show (clashPb ℝ).m = 2 from rfl, sum_range_zero,
      sum_range_succ, sum_range_one]
    simp only [clashPb]
    norm_num

/-- C58 for two clashing bounds: any first solve with a tolerance at most 1 returns 2. -/
example (o : Settings ℝ) (hm : 0 ≤ o.maxit) (hv : o.verbose ≤ 0)
    (hr1 : o.reltol ≤ 1) : ∃ q0 q1, QP_SETUP failAmd ((clashPb ℝ).args
        (some (Buf.ofFn 3 (fun i => (i : Int))))) = .ok q0 ∧
      QP_SOLVE { q0 with options := o } = .ok (2, q1) := by
  have hg : ((clashPb ℝ).args (some (Buf.ofFn 3 (fun i => (i : Int))))).Give (clashPb ℝ) :=
    Problem.args_give _ _ (fun _ => rfl)
  have hs : PermSource failAmd (some (Buf.ofFn 3 (fun i => (i : Int))))
      ((clashPb ℝ).args (some (Buf.ofFn 3 (fun i => (i : Int))))).p (clashPb ℝ) :=
    Or.inl ⟨_, _, _, rfl, idPair 3, Buf.has_ofFn _ _⟩
  obtain ⟨q0, h0⟩ := C26_setup clashPb_wf hg hs
  have h : Started failAmd _ (clashPb ℝ) q0 := ⟨clashPb_wf, hg, hs, h0⟩
  obtain ⟨f, q1, hq⟩ := C22_terminates h o (Or.inl hv)
  obtain ⟨t, ht0, ht3⟩ := sqrt3_exists (K := ℝ)
  have ht1 : 1 ≤ t := by nlinarith
  have := C58_first_solve h o hm hq ht0 ht3 (Or.inl ⟨_, _, 0, 5 / 7, clashPb_cert, ⟨le_rfl, by
      rw [show (clashPb ℝ).p = 0 from rfl]; simp [dot]⟩,
    ⟨by norm_num, by
      unfold dot
      rw [show (clashPb ℝ).m = 2 from rfl, sum_range_succ, sum_range_one]
      norm_num⟩, by
      have : o.reltol / t ≤ 1 := by
        rw [div_le_one (by linarith)]
        linarith
      linarith⟩)
  rw [this.1] at hq
  exact ⟨q0, q1, h0, hq⟩

/-- `minimise -x subject to -x ≤ 1`, unbounded below. -/
def freeLp (K : Type) [Field K] : Problem K :=
  { tinyLp K with G := .lit 1 1 [0, 1] [0] [-1] }

theorem freeLp_wf : (freeLp ℝ).WF where
  P := tinyLp_wf.P
  A := tinyLp_wf.A
  G := by
    refine ⟨rfl, ?_, ?_⟩
    · intro c hc; simp only [freeLp, Csc.lit] at hc ⊢; interval_cases c; decide
    · intro k hk
      have hk : k < 1 := hk
      interval_cases k; exact Nat.zero_lt_one
  Pm := rfl
  An := rfl
  Gn := rfl
  rows := by
    intro r hr
    have hr : r < 1 := hr
    interval_cases r
    exact ⟨0, by simp [freeLp, Csc.lit], rfl⟩
  m_pos := Nat.zero_lt_one

theorem freeLp_symm : (freeLp ℝ).P.Symm := by
  intro r c hr hc
  have hr : r < 1 := hr
  have hc : c < 1 := hc
  interval_cases r; interval_cases c; rfl

theorem freeLp_cert : (freeLp ℝ).DualCert (fun _ => 1) where
  flat := by
    intro i hi
    have hi : i < 1 := hi
    interval_cases i
    unfold Csc.mulVec
    rw [show (freeLp ℝ).P.n = 1 from rfl, sum_range_one]
    simp [freeLp, tinyLp, Csc.lit, Csc.entry]
  eqs := fun i hi => absurd hi (Nat.not_lt_zero i)
  ineqs := by
    intro i hi
    have hi : i < 1 := hi
    interval_cases i
    unfold Csc.mulVec
    rw [show (freeLp ℝ).G.n = 1 from rfl, sum_range_one]
    simp [freeLp, Csc.lit, Csc.entry]
  slope := by
    unfold dot
    rw [show (freeLp ℝ).n = 1 from rfl, sum_range_one]
    simp [freeLp, tinyLp]

/-- C58 for an unbounded program: any first solve with a tolerance at most 1 returns 2. -/
example (o : Settings ℝ) (hm : 0 ≤ o.maxit) (hv : o.verbose ≤ 0)
    (hr1 : o.reltol ≤ 1) : ∃ q0 q1, QP_SETUP failAmd ((freeLp ℝ).args
        (some (Buf.ofFn 2 (fun i => (i : Int))))) = .ok q0 ∧
      QP_SOLVE { q0 with options := o } = .ok (2, q1) := by
  have hg : ((freeLp ℝ).args (some (Buf.ofFn 2 (fun i => (i : Int))))).Give (freeLp ℝ) :=
    Problem.args_give _ _ (fun _ => rfl)
  have hs : PermSource failAmd (some (Buf.ofFn 2 (fun i => (i : Int))))
      ((freeLp ℝ).args (some (Buf.ofFn 2 (fun i => (i : Int))))).p (freeLp ℝ) :=
    Or.inl ⟨_, _, _, rfl, idPair 2, Buf.has_ofFn _ _⟩
  obtain ⟨q0, h0⟩ := C26_setup freeLp_wf hg hs
  have h : Started failAmd _ (freeLp ℝ) q0 := ⟨freeLp_wf, hg, hs, h0⟩
  obtain ⟨f, q1, hq⟩ := C22_terminates h o (Or.inl hv)
  obtain ⟨t, ht0, ht3⟩ := sqrt3_exists (K := ℝ)
  have ht1 : 1 ≤ t := by nlinarith
  have := C58_first_solve h o hm hq ht0 ht3 (Or.inr ⟨freeLp_symm, _, 1, freeLp_cert,
    ⟨zero_le_one, by
      unfold dot
      rw [show (freeLp ℝ).n = 1 from rfl, sum_range_one]⟩, by
      rw [mul_one, div_le_one (by linarith)]
      linarith⟩)
  rw [this.1] at hq
  exact ⟨q0, q1, h0, hq⟩

/-- The solution of the one-variable program: `x = -1`, multiplier 0, slack 2. -/
theorem tiny_optimal : (tinyPb ℝ).Optimal (fun _ => -1) (fun _ => 0) (fun _ => 0) (fun _ => 2) where
  rx := by
    intro i hi
    have hi : i < 1 := hi
    have : i = 0 := by omega
    subst this
    unfold Csc.mulVec Csc.tmulVec
    rw [show (tinyPb ℝ).P.n = 1 from rfl, show (tinyPb ℝ).G.m = 1 from rfl,
      show (tinyPb ℝ).A.m = 0 from rfl, sum_range_one, sum_range_one, sum_range_zero, tiny_P]
    simp [tinyPb]
  ry := fun i hi => absurd hi (Nat.not_lt_zero i)
  rz := by
    intro i hi
    have hi : i < 1 := hi
    have : i = 0 := by omega
    subst this
    unfold Csc.mulVec
    rw [show (tinyPb ℝ).G.n = 1 from rfl, sum_range_one, tiny_G]
    simp only [tinyPb]
    norm_num
  s_nonneg := fun _ _ => by norm_num
  z_nonneg := fun _ _ => le_rfl
  comp := fun _ _ => by norm_num

/-- C59 applies to some solve of that program. -/
example : ∃ (q0 qp q1 : QP ℝ) (x y z s : Nat → ℝ) (t : ℝ), Started failAmd (tinyArgs ℝ) (tinyPb ℝ) q0 ∧
    QP_SOLVE qp = .ok (0, q1) ∧ 0 ≤ t ∧ t * t = 3 ∧ q1.Iter (tinyPb ℝ) x y z s ∧
    ∀ nx ny nz, IsNorm 1 (fun i => x i - -1) nx → IsNorm 0 (fun i => y i - 0) ny →
      IsNorm 1 (fun i => z i - 0) nz →
      1 * nx ^ 2 ≤ (1 : Nat) * qp.options.abstol + qp.options.reltol / t * (nx + ny + nz) := by
  obtain ⟨q0, h⟩ := tiny_started ℝ
  obtain ⟨o1, o2, o3, q1, q2, q3, h1, h2, _⟩ := C24_stale_optimal_exists h
  obtain ⟨t, ht0, ht3⟩ := sqrt3_exists (K := ℝ)
  have hr : Reach q0 { q1 with options := o2 } := .options o2 (.solve (.options o1 .start) h1)
  have hfl : q1.stats.Flag ≠ 0 := by
    obtain ⟨p, q, hi, _⟩ := h.sinv (.options o1 .start)
    obtain ⟨k, qk, hk⟩ := QP_SOLVE_inv h.wf hi h1
    rw [← hk.ret]
    decide
  obtain ⟨x, y, z, s, hi, hd⟩ := C59_distance h hr hfl tinyPb_strong h2 ht0 ht3 tiny_optimal
  exact ⟨q0, _, q2, x, y, z, s, t, h, h2, ht0, ht3, hi, hd⟩

end Verif
