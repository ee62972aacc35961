import Verif.Lemmas.Exact
import Verif.Props.Setup
import Verif.Props.Safety

/-!
# The iterates and the returned point in exact arithmetic (C16-C21, C24, C32)
-/

set_option linter.unusedSectionVars false

namespace Verif

open Finset

section

variable {K : Type} [Field K] [LinearOrder K] [IsStrictOrderedRing K] [Scalar K] [LawfulScalar K]

/-! ## C16 -/

theorem stepTo_pos {pb : Problem K} {z s : Nat → K} {D : Dir K}
    (h : ∀ i, i < pb.m → 0 < s i ∧ 0 < z i) {i : Nat} (hi : i < pb.m) :
    0 < s i + D.ds i * alphaP pb s D ∧ 0 < z i + D.dz i * alphaD pb z D :=
  ⟨accept_pos (fun i hi => (h i hi).1) hi, accept_pos (fun i hi => (h i hi).2) hi⟩

/-- C16: in every reachable state, whatever was solved before and whatever the options, all slacks
and multipliers are strictly positive. -/
theorem C16_positive {amd : Amd} {a : SetupArgs K} {pb : Problem K} {q0 qp : QP K}
    (h : Started amd a pb q0) (hr : Reach q0 qp) {x y z s : Nat → K} (hi : qp.Iter pb x y z s) :
    ∀ i, i < pb.m → 0 < s i ∧ 0 < z i := by
  obtain ⟨p, q, hd⟩ := h.done
  refine hr.induct h.wf hd.sinv (fun qp => ∀ x y z s, qp.Iter pb x y z s →
    ∀ i, i < pb.m → 0 < s i ∧ 0 < z i) ?_ ?_ ?_ ?_ x y z s hi
  · intro x y z s hi i hm
    obtain ⟨t, _, _, hi'⟩ := hd.iter
    rw [hi.s.unique hi'.s hm, hi.z.unique hi'.z hm]
    exact ⟨initS_pos h.wf.m_pos _ hm, initZ_pos h.wf.m_pos _ hm⟩
  · intro qp o ih x y z s hi
    exact ih x y z s ⟨hi.x, hi.y, hi.z, hi.s⟩
  · intro qp o ih x y z s hi
    exact ih x y z s ⟨hi.x, hi.y, hi.z, hi.s⟩
  · intro qp r hs ih hb x y z s hi i hm
    obtain ⟨x0, y0, z0, s0, hi0⟩ := hs.iter
    have hbo := hs.bodyOut h.wf hb hi0
    have hp0 := ih x0 y0 z0 s0 hi0
    cases hbr : r.2
    · obtain ⟨t, hst, _⟩ := hbo.step hbr
      rw [hi.s.unique hst.iter.s hm, hi.z.unique hst.iter.z hm]
      exact stepTo_pos hp0 hm
    · have hi1 := (hbo.stop hbr).1
      rw [hi.s.unique hi1.s hm, hi.z.unique hi1.z hm]
      exact hp0 i hm

/-- C16 for the demo: after a solve the slacks and multipliers are there and positive. -/
example (f : Int) (q0 q1 : QP ℝ) (h : QP_SETUP failAmd (demoArgs ℝ) = .ok q0)
    (h1 : QP_SOLVE q0 = .ok (f, q1)) : ∃ x y z s, q1.Iter (demoPb ℝ) x y z s ∧
      0 < s 0 ∧ 0 < s 1 ∧ 0 < z 0 ∧ 0 < z 1 := by
  have hs : Started failAmd (demoArgs ℝ) (demoPb ℝ) q0 :=
    ⟨demoPb_wf, demoArgs_give, demoArgs_perm _, h⟩
  obtain ⟨p, q, hi, _⟩ := hs.sinv (.solve .start h1)
  obtain ⟨x, y, z, s, hit⟩ := hi.iter
  have := C16_positive hs (.solve .start h1) hit
  exact ⟨x, y, z, s, hit, (this 0 (by decide)).1, (this 1 (by decide)).1, (this 0 (by decide)).2,
    (this 1 (by decide)).2⟩

/-! ## C17 -/

/-- `a` is a step length along `d` from the positive vector `s`: positive, the full step stays in
the nonnegative orthant, and it is as long as possible, or 1 if no component blocks before
`1e10`. -/
structure FullStep (m : Nat) (s d : Nat → K) (a : K) : Prop where
  pos : 0 < a
  stays : ∀ i, i < m → 0 ≤ s i + a * d i
  longest : (a < 10 ^ 10 ∧ ∃ i, i < m ∧ d i < 0 ∧ s i + a * d i = 0) ∨
    (a = 1 ∧ ∀ i, i < m → d i < 0 → 10 ^ 10 ≤ -(s i / d i))

theorem stepF_full {m : Nat} {s d : Nat → K} (hs : ∀ i, i < m → 0 < s i) :
    FullStep m s d (stepF m s d) :=
  ⟨stepF_pos hs, fun _ hi => stepF_nonneg hs hi, stepF_max hs⟩

/-- C17, the ratio test: from positive `s`, `z` and for any directions. -/
theorem C17_ratio_test {m : Nat} {S DS Z DZ : Buf K} {s ds z dz : Nat → K}
    (h1 : Buf.Has S m s) (h2 : Buf.Has DS m ds) (h3 : Buf.Has Z m z) (h4 : Buf.Has DZ m dz)
    (hs : ∀ i, i < m → 0 < s i) (hz : ∀ i, i < m → 0 < z i) :
    ∃ ap ad, findsteplength S DS Z DZ m = .ok (ap, ad) ∧ FullStep m s ds ap ∧
      FullStep m z dz ad :=
  ⟨_, _, findsteplength_eq h1 h2 h3 h4, stepF_full hs, stepF_full hz⟩

/-- C17, the steps taken: in every iteration that takes a step, from every reachable state, the
step lengths reported are in `(0, 1]`; they are `min(0.99 a, 1)` of full steps `a` along the stored
directions, and the new point is the old one plus the step along the stored directions. -/
theorem C17_steps {amd : Amd} {a : SetupArgs K} {pb : Problem K} {q0 qp qp' : QP K}
    (h : Started amd a pb q0) (hr : Reach q0 qp) (hb : solveBody qp = .ok (qp', false))
    {x y z s : Nat → K} (hi : qp.Iter pb x y z s) :
    0 < qp'.stats.alpha_p ∧ qp'.stats.alpha_p ≤ 1 ∧
    0 < qp'.stats.alpha_d ∧ qp'.stats.alpha_d ≤ 1 ∧
    ∃ dx dy dz ds ap ad, Buf.Has qp'.delta_x pb.n dx ∧ Buf.Has qp'.delta_y pb.p dy ∧
      Buf.Has qp'.delta_z pb.m dz ∧ Buf.Has qp'.delta_s pb.m ds ∧
      FullStep pb.m s ds ap ∧ FullStep pb.m z dz ad ∧
      qp'.stats.alpha_p = min (99 / 100 * ap) 1 ∧ qp'.stats.alpha_d = min (99 / 100 * ad) 1 ∧
      qp'.Iter pb (fun i => x i + qp'.stats.alpha_p * dx i) (fun i => y i + qp'.stats.alpha_d * dy i)
        (fun i => z i + qp'.stats.alpha_d * dz i) (fun i => s i + qp'.stats.alpha_p * ds i) := by
  have hpos := C16_positive h hr hi
  obtain ⟨p, q, hs, _⟩ := h.sinv hr
  have hbo := hs.bodyOut h.wf hb hi
  obtain ⟨t, hst, hopt, re, hstat⟩ := hbo.step rfl
  simp only at hst hopt hstat
  set D := stepDir pb p q t x y z s qp.options.sigma
  have eP : qp'.stats.alpha_p = alphaP pb s D := by rw [hstat]
  have eD : qp'.stats.alpha_d = alphaD pb z D := by rw [hstat]
  have fs : FullStep pb.m s D.ds (stepF pb.m s D.ds) := stepF_full (fun i hi => (hpos i hi).1)
  have fz : FullStep pb.m z D.dz (stepF pb.m z D.dz) := stepF_full (fun i hi => (hpos i hi).2)
  rw [eP, eD]
  refine ⟨acceptF_pos fs.pos, acceptF_le_one _, acceptF_pos fz.pos, acceptF_le_one _, D.dx, D.dy,
    D.dz, D.ds, _, _, hst.dx, hst.dy, hst.dz, hst.ds, fs, fz, ?_, ?_, ?_⟩
  · unfold alphaP acceptF; rw [fmin_eq, dec_99, dec_one_zero]
  · unfold alphaD acceptF; rw [fmin_eq, dec_99, dec_one_zero]
  · exact ⟨hst.iter.x.congr fun i _ => by ring, hst.iter.y.congr fun i _ => by ring,
      hst.iter.z.congr fun i _ => by ring, hst.iter.s.congr fun i _ => by ring⟩

/-- C17: a direction with a blocking component and one without. -/
example : findsteplength [some (1 : ℚ), some 2] [some (-2), some 1] [some 3, some 1]
    [some 1, some 5] 2 = .ok (1 / 2, 1) := by decide +kernel

/-! ## C32 -/

/-- C32: after every iteration that takes a step the centering parameter lies between `sigma_d`
and `max(sigma_d, 1)`; if it was not above `sigma_d` it is `sigma_d`. -/
theorem C32_sigma_step {amd : Amd} {a : SetupArgs K} {pb : Problem K} {q0 qp qp' : QP K}
    (h : Started amd a pb q0) (hr : Reach q0 qp) (hb : solveBody qp = .ok (qp', false)) :
    pb.sigma_d ≤ qp'.options.sigma ∧ qp'.options.sigma ≤ max pb.sigma_d 1 ∧
      (qp.options.sigma ≤ pb.sigma_d → qp'.options.sigma = pb.sigma_d) := by
  obtain ⟨p, q, hs, _⟩ := h.sinv hr
  obtain ⟨x, y, z, s, hi⟩ := hs.iter
  obtain ⟨t, _, hopt, _⟩ := (hs.bodyOut h.wf hb hi).step rfl
  simp only at hopt
  have e : qp'.options.sigma = sigF pb p q t x y z s qp.options.sigma := by rw [hopt]
  rw [e]
  unfold sigF
  rw [ltb_eq]
  split
  · next hc =>
    have hlt := of_decide_eq_true hc
    dsimp only
    rw [fmax_eq, fmin_eq, dec_one_zero]
    refine ⟨le_max_left _ _, max_le_max le_rfl ?_, fun hle => absurd hlt (not_lt.mpr hle)⟩
    set r := min (1 : K) (rhoP pb p q t x y z s)
    have h1 : r ≤ 1 := min_le_left _ _
    nlinarith [sq_nonneg (r + 1), mul_self_nonneg r]
  · exact ⟨le_rfl, le_max_left _ _, fun _ => rfl⟩

/-- C32 over whole runs: after any positive number of iterations. -/
theorem C32_sigma {amd : Amd} {a : SetupArgs K} {pb : Problem K} {q0 qp qk : QP K}
    (h : Started amd a pb q0) (hr : Reach q0 qp) {k : Nat} (hk : Iterations (k + 1) qp qk) :
    pb.sigma_d ≤ qk.options.sigma ∧ qk.options.sigma ≤ max pb.sigma_d 1 ∧
      (qp.options.sigma ≤ pb.sigma_d → qk.options.sigma = pb.sigma_d) := by
  have gen : ∀ {j : Nat} {a b : QP K}, Iterations j a b → Reach q0 a →
      a.options.sigma ≤ pb.sigma_d → b.options.sigma ≤ pb.sigma_d := by
    intro j a b hj
    induction hj with
    | zero => exact fun _ h => h
    | succ hj hs ih =>
      intro g1 g2
      exact (C32_sigma_step h (g1.iterations hj) hs).2.2 (ih g1 g2) |>.le
  cases hk with
  | succ hj hs =>
    have := C32_sigma_step h (hr.iterations hj) hs
    exact ⟨this.1, this.2.1, fun hle => this.2.2 (gen hj hr hle)⟩

end

section

variable {K : Type} [Field K] [LinearOrder K] [IsStrictOrderedRing K] [Scalar K] [LawfulScalar K]
  [LawfulSqrt K]

/-! ## C18 -/

/-- C18: after the test of an iteration the statistics are the norms of the residuals and the
average complementarity of the iterate `x, y, z, s` at the start of the iteration, and the test
succeeds exactly when all are below their tolerances (`t` is the square root of 3). -/
theorem C18_residuals {amd : Amd} {a : SetupArgs K} {pb : Problem K} {q0 qp qp' : QP K} {brk : Bool}
    (h : Started amd a pb q0) (hr : Reach q0 qp) (hb : solveBody qp = .ok (qp', brk))
    {x y z s : Nat → K} (hi : qp.Iter pb x y z s) {t : K} (h0 : 0 ≤ t) (h3 : t * t = 3) :
    ∃ nx ny nz mu, qp'.stats.n_rx = some nx ∧ (pb.p ≠ 0 → qp'.stats.n_ry = some ny) ∧
      qp'.stats.n_rz = some nz ∧ qp'.stats.n_mu = some mu ∧
      IsNorm pb.n (pb.rx x y z) nx ∧ IsNorm pb.p (pb.ry x) ny ∧ IsNorm pb.m (pb.rz x s) nz ∧
      mu = dot pb.m s z / (pb.m : K) ∧
      (brk = true ↔ nx < qp.options.reltol / t ∧ ny < qp.options.reltol / t ∧
        nz < qp.options.reltol / t ∧ mu < qp.options.abstol) := by
  obtain ⟨p, q, hs, _⟩ := h.sinv hr
  have hbo := hs.bodyOut h.wf hb hi
  have hst : ∃ ap ad re ic fl, qp'.stats = { evalStats pb x y z s qp.stats with
      alpha_p := ap, alpha_d := ad, resolve_kkt := re, IterationCount := ic, Flag := fl } := by
    cases brk
    · obtain ⟨t, _, _, re, e⟩ := hbo.step rfl
      exact ⟨_, _, _, _, _, e⟩
    · obtain ⟨_, _, _, e, _⟩ := hbo.stop rfl
      exact ⟨_, _, _, _, _, e⟩
  obtain ⟨ap, ad, re, ic, fl, hst⟩ := hst
  have ix := (nrmF_isNorm pb.n (rxF pb x y z)).congr (fun i hi => rxF_eq h.wf x y z hi)
  have iy := (nrmF_isNorm pb.p (ryF pb x)).congr (fun i _ => ryF_eq h.wf x i)
  have iz := (nrmF_isNorm pb.m (rzF pb x s)).congr (fun i _ => rzF_eq h.wf x s i)
  refine ⟨_, _, _, _, by rw [hst]; rfl, ?_, by rw [hst]; rfl, by rw [hst]; rfl, ix, iy, iz,
    gapF_eq pb z s, ?_⟩
  · intro hp
    rw [hst]
    simp [evalStats, hp]
  · have hbk := hbo.brk
    simp only at hbk
    rw [hbk, exitF_iff _ _ _ _ _ h0 h3]
    constructor
    · rintro ⟨e1, e2, e3, e4⟩
      refine ⟨e1, ?_, e3, e4⟩
      by_cases hp : pb.p = 0
      · have : nrmF pb.p (ryF pb x) = 0 := by
          rw [hp] at iy ⊢
          exact (nrmF_isNorm 0 (ryF pb x)).unique (IsNorm.empty _)
        rw [this]
        exact lt_of_le_of_lt ix.1 e1
      · exact e2 hp
    · rintro ⟨e1, e2, e3, e4⟩
      exact ⟨e1, fun _ => e2, e3, e4⟩

/-! ## C19 -/

/-- What is left after an iteration whose test succeeded. -/
theorem approx_of_break {amd : Amd} {a : SetupArgs K} {pb : Problem K} {q0 qp qp' : QP K}
    (h : Started amd a pb q0) (hr : Reach q0 qp) (hb : solveBody qp = .ok (qp', true))
    {x y z s : Nat → K} (hi : qp.Iter pb x y z s) {t : K} (h0 : 0 ≤ t) (h3 : t * t = 3) :
    qp'.Iter pb x y z s ∧ pb.Approx (qp.options.reltol / t) qp.options.abstol x y z s := by
  obtain ⟨nx, ny, nz, mu, _, _, _, _, ix, iy, iz, em, hiff⟩ := C18_residuals h hr hb hi h0 h3
  obtain ⟨e1, e2, e3, e4⟩ := hiff.mp rfl
  obtain ⟨p, q, hs, _⟩ := h.sinv hr
  have hpos := C16_positive h hr hi
  exact ⟨((hs.bodyOut h.wf hb hi).stop rfl).1, ⟨nx, ix, e1⟩, ⟨ny, iy, e2⟩, ⟨nz, iz, e3⟩,
    by rw [← em]; exact e4, fun i hi => (hpos i hi).1, fun i hi => (hpos i hi).2⟩

/-- C19: if a solve returns 0, started in any reachable state whose flag is not a left-over 0 (see
`C24_stale_optimal`), the point left in the structure satisfies the optimality conditions within
the tolerances. `t` is the square root of 3. -/
theorem C19_exit_zero {amd : Amd} {a : SetupArgs K} {pb : Problem K} {q0 qp qp' : QP K}
    (h : Started amd a pb q0) (hr : Reach q0 qp) (hf : qp.stats.Flag ≠ 0)
    (hs : QP_SOLVE qp = .ok (0, qp')) {t : K} (h0 : 0 ≤ t) (h3 : t * t = 3) :
    ∃ x y z s, qp'.Iter pb x y z s ∧
      pb.Approx (qp.options.reltol / t) qp.options.abstol x y z s := by
  obtain ⟨p, q, hi, _⟩ := h.sinv hr
  obtain ⟨k, qk, hk⟩ := QP_SOLVE_inv h.wf hi hs
  obtain ⟨g1, g2, g3, _⟩ := hk.its.facts h.wf hi
  obtain ⟨r, h5, h6⟩ := hk.stop
  have hret := hk.ret
  have hnm : r.stats.IterationCount ≠ r.options.maxit := by
    intro hc
    rw [if_pos hc] at h6
    rw [h6] at hret
    exact absurd hret (by decide : (0 : Int) ≠ QP_MAXIT)
  rw [if_neg hnm] at h6
  subst h6
  rcases h5 with ⟨_, hb⟩ | ⟨_, rfl⟩
  · obtain ⟨x, y, z, s, hit⟩ := g1.iter
    have := approx_of_break h (hr.iterations hk.its) hb hit h0 h3
    rw [g2.reltol, g2.abstol] at this
    exact ⟨x, y, z, s, this⟩
  · rw [g3] at hret
    exact absurd hret.symm hf

/-- C19 for a first solve, with any options. -/
theorem C19_first_solve {amd : Amd} {a : SetupArgs K} {pb : Problem K} {q0 qp' : QP K}
    (h : Started amd a pb q0) (o : Settings K)
    (hs : QP_SOLVE { q0 with options := o } = .ok (0, qp')) {t : K} (h0 : 0 ≤ t) (h3 : t * t = 3) :
    ∃ x y z s, qp'.Iter pb x y z s ∧ pb.Approx (o.reltol / t) o.abstol x y z s := by
  obtain ⟨p, q, hd⟩ := h.done
  obtain ⟨re, hst⟩ := hd.stats
  refine C19_exit_zero h (.options o .start) ?_ hs h0 h3
  show q0.stats.Flag ≠ 0
  rw [hst]
  exact (by decide : QP_FATAL ≠ 0)

/-! ## C20 -/

theorem dot_mulVec_symm {P : Csc K} (hs : P.Symm) (u v : Nat → K) :
    dot P.n u (P.mulVec v) = dot P.n v (P.mulVec u) := by
  unfold dot Csc.mulVec
  simp only [mul_sum]
  rw [sum_comm]
  refine sum_congr rfl fun c hc => sum_congr rfl fun r hr => ?_
  rw [hs r c (mem_range.mp hr) (mem_range.mp hc)]
  ring

theorem dot_tmulVec (A : Csc K) (x y : Nat → K) :
    dot A.n x (A.tmulVec y) = dot A.m y (A.mulVec x) := by
  unfold dot Csc.mulVec Csc.tmulVec
  simp only [mul_sum]
  rw [sum_comm]
  exact sum_congr rfl fun c _ => sum_congr rfl fun r _ => by ring

theorem mulVec_sub (A : Csc K) (x w : Nat → K) (r : Nat) :
    A.mulVec (fun i => x i - w i) r = A.mulVec x r - A.mulVec w r := by
  unfold Csc.mulVec
  rw [← sum_sub_distrib]
  exact sum_congr rfl fun c _ => by ring

theorem dot_add (n : Nat) (u v w : Nat → K) :
    dot n u (fun i => v i + w i) = dot n u v + dot n u w := by
  unfold dot
  rw [← sum_add_distrib]
  exact sum_congr rfl fun c _ => by ring

theorem dot_sub (n : Nat) (u v w : Nat → K) :
    dot n u (fun i => v i - w i) = dot n u v - dot n u w := by
  unfold dot
  rw [← sum_sub_distrib]
  exact sum_congr rfl fun c _ => by ring

theorem dot_comm (n : Nat) (u v : Nat → K) : dot n u v = dot n v u :=
  sum_congr rfl fun c _ => by ring

theorem dot_neg (n : Nat) (u v : Nat → K) : dot n u (fun i => -v i) = -dot n u v := by
  unfold dot
  rw [← sum_neg_distrib]
  exact sum_congr rfl fun c _ => by ring

/-- The suboptimality bound, for any point satisfying the conditions approximately. -/
theorem Problem.Approx.suboptimal {pb : Problem K} (hpb : pb.WF) (hsym : pb.P.Symm)
    (hpsd : pb.Psd) {tol gap : K} {x y z s : Nat → K} (h : pb.Approx tol gap x y z s)
    {w : Nat → K} (hw : pb.Feasible w) {nd ny nz : K}
    (hd : IsNorm pb.n (fun i => x i - w i) nd) (hy : IsNorm pb.p y ny) (hz : IsNorm pb.m z nz) :
    pb.obj x - pb.obj w ≤ pb.m * gap + tol * (nd + ny + nz) := by
  obtain ⟨vx, ivx, lvx⟩ := h.rx
  obtain ⟨vy, ivy, lvy⟩ := h.ry
  obtain ⟨vz, ivz, lvz⟩ := h.rz
  set d : Nat → K := fun i => x i - w i with hdd
  -- convexity
  have c1 : pb.obj x - pb.obj w ≤ dot pb.n d (fun i => pb.P.mulVec x i + pb.c i) := by
    have e0 := hpsd d
    have e1 : dot pb.n d (pb.P.mulVec d) = dot pb.n x (pb.P.mulVec x) - 2 * dot pb.n w (pb.P.mulVec x)
        + dot pb.n w (pb.P.mulVec w) := by
      have s1 : dot pb.n x (pb.P.mulVec w) = dot pb.n w (pb.P.mulVec x) :=
        dot_mulVec_symm hsym x w
      have s2 : pb.P.mulVec d = fun i => pb.P.mulVec x i - pb.P.mulVec w i :=
        funext (mulVec_sub pb.P x w)
      rw [s2, dot_sub, dot_comm _ d, dot_comm _ d, dot_sub, dot_sub, dot_comm _ _ x, dot_comm _ _ w,
        dot_comm _ (pb.P.mulVec w) x, dot_comm _ (pb.P.mulVec w) w, s1]
      ring
    have e2 : dot pb.n d (fun i => pb.P.mulVec x i + pb.c i) = dot pb.n x (pb.P.mulVec x)
        - dot pb.n w (pb.P.mulVec x) + dot pb.n pb.c x - dot pb.n pb.c w := by
      rw [dot_add, dot_comm _ d, dot_comm _ d, dot_sub, dot_sub, dot_comm _ _ x, dot_comm _ _ w]
      ring
    unfold Problem.obj
    rw [e2]
    rw [e1] at e0
    linarith
  -- stationarity
  have c2 : dot pb.n d (fun i => pb.P.mulVec x i + pb.c i)
      = - dot pb.n d (pb.rx x y z) - dot pb.m z (pb.G.mulVec d) - dot pb.p y (pb.A.mulVec d) := by
    have t1 : dot pb.n d (pb.G.tmulVec z) = dot pb.m z (pb.G.mulVec d) := by
      have := dot_tmulVec pb.G d z
      rw [hpb.Gn] at this
      exact this
    have t2 : dot pb.n d (pb.A.tmulVec y) = dot pb.p y (pb.A.mulVec d) := by
      have := dot_tmulVec pb.A d y
      rw [hpb.An] at this
      exact this
    have e : pb.rx x y z = fun i => -(((pb.P.mulVec x i + pb.c i) + pb.G.tmulVec z i)
        + pb.A.tmulVec y i) := by
      funext i; unfold Problem.rx; ring
    have k1 := dot_add pb.n d (fun i => pb.P.mulVec x i + pb.c i) (pb.G.tmulVec z)
    have k2 := dot_add pb.n d (fun i => (pb.P.mulVec x i + pb.c i) + pb.G.tmulVec z i)
      (pb.A.tmulVec y)
    rw [e, dot_neg, k2, k1, t1, t2]
    ring
  -- inequality constraints
  have c3 : - dot pb.m z (pb.G.mulVec d) ≤ dot pb.m s z + dot pb.m z (pb.rz x s) := by
    have e : dot pb.m z (pb.G.mulVec d) + dot pb.m s z + dot pb.m z (pb.rz x s)
        = dot pb.m z (fun i => pb.h i - pb.G.mulVec w i) := by
      have : pb.G.mulVec d = fun i => pb.G.mulVec x i - pb.G.mulVec w i :=
        funext (mulVec_sub pb.G x w)
      rw [this, dot_comm _ s, ← dot_add, ← dot_add]
      congr 1
      funext i
      unfold Problem.rz
      ring
    have hnn : 0 ≤ dot pb.m z (fun i => pb.h i - pb.G.mulVec w i) := by
      refine sum_nonneg fun i hi => mul_nonneg (h.z_pos i (mem_range.mp hi)).le ?_
      exact sub_nonneg.mpr (hw.2 i (mem_range.mp hi))
    linarith
  -- equality constraints
  have c4 : - dot pb.p y (pb.A.mulVec d) = dot pb.p y (pb.ry x) := by
    rw [← dot_neg]
    refine sum_congr rfl fun i hi => ?_
    have := mulVec_sub pb.A x w i
    rw [hw.1 i (mem_range.mp hi)] at this
    simp only [hdd, this]
    unfold Problem.ry
    ring
  have b1 : - dot pb.n d (pb.rx x y z) ≤ nd * vx := by
    rw [← dot_neg]
    refine hd.dot_le ⟨ivx.1, ?_⟩
    rw [ivx.2]
    exact sum_congr rfl fun i _ => by ring
  have b2 := hz.dot_le ivz
  have b3 := hy.dot_le ivy
  have hm : (0 : K) < pb.m := Nat.cast_pos.mpr hpb.m_pos
  have b4 : dot pb.m s z ≤ pb.m * gap := by
    have := h.gap
    rw [div_lt_iff₀ hm] at this
    linarith
  have m1 : nd * vx ≤ nd * tol := mul_le_mul_of_nonneg_left lvx.le hd.1
  have m2 : nz * vz ≤ nz * tol := mul_le_mul_of_nonneg_left lvz.le hz.1
  have m3 : ny * vy ≤ ny * tol := mul_le_mul_of_nonneg_left lvy.le hy.1
  calc pb.obj x - pb.obj w ≤ _ := c1
    _ ≤ pb.m * gap + tol * (nd + ny + nz) := by rw [c2]; linarith

/-- The constraints are violated by less than the tolerance. -/
theorem Problem.Approx.violation {pb : Problem K} {tol gap : K} {x y z s : Nat → K}
    (h : pb.Approx tol gap x y z s) :
    (∀ i, i < pb.p → |pb.A.mulVec x i - pb.b i| < tol) ∧
      ∀ i, i < pb.m → pb.G.mulVec x i - pb.h i < tol := by
  constructor
  · intro i hi
    obtain ⟨v, iv, lv⟩ := h.ry
    have := iv.abs_le hi
    rw [abs_sub_comm]
    exact lt_of_le_of_lt this lv
  · intro i hi
    obtain ⟨v, iv, lv⟩ := h.rz
    have h1 := iv.abs_le hi
    have h2 := h.s_pos i hi
    have h3 := neg_le_abs (pb.rz x s i)
    unfold Problem.rz at h1 h3
    linarith

/-- C20: on a convex problem exit code 0 bounds the suboptimality of the returned point against
every feasible point `w`, and the violation of the constraints. `t` is the square root of 3. -/
theorem C20_suboptimality {amd : Amd} {a : SetupArgs K} {pb : Problem K} {q0 qp qp' : QP K}
    (h : Started amd a pb q0) (hr : Reach q0 qp) (hf : qp.stats.Flag ≠ 0)
    (hsym : pb.P.Symm) (hpsd : pb.Psd)
    (hs : QP_SOLVE qp = .ok (0, qp')) {t : K} (h0 : 0 ≤ t) (h3 : t * t = 3) :
    ∃ x y z s, qp'.Iter pb x y z s ∧
      (∀ w, pb.Feasible w → ∀ nd ny nz, IsNorm pb.n (fun i => x i - w i) nd → IsNorm pb.p y ny →
        IsNorm pb.m z nz → pb.obj x - pb.obj w ≤
          pb.m * qp.options.abstol + qp.options.reltol / t * (nd + ny + nz)) ∧
      (∀ i, i < pb.p → |pb.A.mulVec x i - pb.b i| < qp.options.reltol / t) ∧
      ∀ i, i < pb.m → pb.G.mulVec x i - pb.h i < qp.options.reltol / t := by
  obtain ⟨x, y, z, s, hi, hap⟩ := C19_exit_zero h hr hf hs h0 h3
  exact ⟨x, y, z, s, hi, fun w hw nd ny nz i1 i2 i3 => hap.suboptimal h.wf hsym hpsd hw i1 i2 i3,
    hap.violation⟩

end

section

variable {K : Type} [Field K] [LinearOrder K] [IsStrictOrderedRing K] [Scalar K] [LawfulScalar K]

/-! ## C21 -/

/-- C21: every iteration stores the objective value of the iterate at its start. -/
theorem fval_eq {amd : Amd} {a : SetupArgs K} {pb : Problem K} {q0 qp qp' : QP K} {brk : Bool}
    (h : Started amd a pb q0) (hr : Reach q0 qp) (hb : solveBody qp = .ok (qp', brk))
    {x y z s : Nat → K} (hi : qp.Iter pb x y z s) : qp'.stats.fval = some (pb.obj x) := by
  obtain ⟨p, q, hs, _⟩ := h.sinv hr
  have hbo := hs.bodyOut h.wf hb hi
  cases brk
  · obtain ⟨t, _, _, re, e⟩ := hbo.step rfl
    simp only at e
    rw [e, ← objF_eq h.wf]
    rfl
  · obtain ⟨_, _, _, e, _⟩ := hbo.stop rfl
    simp only at e
    rw [e, ← objF_eq h.wf]
    rfl

/-- C21, exit code 0: the reported objective value is that of the returned point. -/
theorem C21_fval_zero {amd : Amd} {a : SetupArgs K} {pb : Problem K} {q0 qp qp' : QP K}
    (h : Started amd a pb q0) (hr : Reach q0 qp) (hf : qp.stats.Flag ≠ 0)
    (hs : QP_SOLVE qp = .ok (0, qp')) {x y z s : Nat → K} (hi : qp'.Iter pb x y z s) :
    qp'.stats.fval = some (pb.obj x) := by
  obtain ⟨p, q, hinv, _⟩ := h.sinv hr
  obtain ⟨x', y', z', s', hi', he⟩ := (settled_of_zero h.wf hinv hf hs).opt
  obtain ⟨k, qk, hk⟩ := QP_SOLVE_inv h.wf hinv hs
  obtain ⟨g1, g2, g3, _⟩ := hk.its.facts h.wf hinv
  obtain ⟨r, h5, h6⟩ := hk.stop
  have hret := hk.ret
  have hnm : r.stats.IterationCount ≠ r.options.maxit := by
    intro hc
    rw [if_pos hc] at h6
    rw [h6] at hret
    exact absurd hret (by decide : (0 : Int) ≠ QP_MAXIT)
  rw [if_neg hnm] at h6
  subst h6
  rcases h5 with ⟨_, hb⟩ | ⟨_, rfl⟩
  · obtain ⟨x1, y1, z1, s1, hit⟩ := g1.iter
    rw [fval_eq h (hr.iterations hk.its) hb hit]
    have hi1 := ((g1.bodyOut h.wf hb hit).stop rfl).1
    have : ∀ i, i < pb.n → x1 i = x i := fun i hn => hi1.x.unique hi.x hn
    unfold Problem.obj
    rw [dot_congr this (g' := pb.P.mulVec x) ?_, dot_congr (fun _ _ => rfl) this]
    intro i _
    exact sum_congr rfl fun c hc => by rw [this c (mem_range.mp hc)]
  · rw [g3] at hret
    exact absurd hret.symm hf

/-- C21, exit code 2 of a first solve with `maxit > 0`: the reported objective value is that of the
iterate `x` before the last step, while the point returned is `x` plus that step. -/
theorem C21_fval_maxit {amd : Amd} {a : SetupArgs K} {pb : Problem K} {q0 qp' : QP K}
    (h : Started amd a pb q0) (o : Settings K) (hm : 0 < o.maxit)
    (hs : QP_SOLVE { q0 with options := o } = .ok (2, qp')) :
    ∃ (k : Nat) (qk : QP K) (x y z s dx : Nat → K), (k : Int) + 1 = o.maxit ∧
      Iterations k { q0 with options := o } qk ∧ qk.Iter pb x y z s ∧
      qp'.stats.fval = some (pb.obj x) ∧ Buf.Has qp'.delta_x pb.n dx ∧ 0 < qp'.stats.alpha_p ∧
      Buf.Has qp'.x pb.n (fun i => x i + qp'.stats.alpha_p * dx i) := by
  obtain ⟨k, qk, hk, _, _, h5⟩ := (C22_first_solve h o hs).2 hm.le
  have hr0 : Reach q0 { q0 with options := o } := .options o .start
  rcases h5 with ⟨_, e1, e2⟩ | ⟨e, _⟩
  · cases hk with
    | zero => simp at e1; omega
    | @succ k _ b _ hk hb =>
      obtain ⟨p, q, hs, _⟩ := h.sinv (hr0.iterations hk)
      obtain ⟨x, y, z, s, hi⟩ := hs.iter
      obtain ⟨c1, _, _, _, dx, dy, dz, ds, ap, ad, i1, _, _, _, _, _, _, _, i2⟩ :=
        C17_steps h (hr0.iterations hk) hb hi
      have hfv := fval_eq h (hr0.iterations hk) hb hi
      refine ⟨k, b, x, y, z, s, dx, by push_cast at e1; exact e1, hk, hi, ?_, ?_, ?_, ?_⟩ <;>
        rw [e2]
      · exact hfv
      · exact i1
      · exact c1
      · exact i2.x
  · exact absurd e (by decide)

end

section

variable {K : Type} [Field K] [LinearOrder K] [IsStrictOrderedRing K] [Scalar K] [LawfulScalar K]
  [LawfulSqrt K]

/-! ## C24: such histories exist, for every problem -/

theorem sqrt3_exists : ∃ t : K, 0 ≤ t ∧ t * t = 3 :=
  ⟨Scalar.sqrt 3, LawfulSqrt.sqrt_nonneg _, LawfulSqrt.sqrt_mul_self _ (by norm_num)⟩

/-- Tolerances that are not positive are never met. -/
theorem Problem.not_approx {pb : Problem K} {tol gap : K} (h : tol ≤ 0) (x y z s : Nat → K) :
    ¬ pb.Approx tol gap x y z s := by
  intro ha
  obtain ⟨v, iv, lv⟩ := ha.rx
  exact absurd (lt_of_lt_of_le lv h) (not_lt.mpr iv.1)

theorem no_break {amd : Amd} {a : SetupArgs K} {pb : Problem K} {q0 qp r : QP K}
    (h : Started amd a pb q0) (hr : Reach q0 qp) (ht : qp.options.reltol ≤ 0) :
    solveBody qp ≠ .ok (r, true) := by
  intro hb
  obtain ⟨t, h0, h3⟩ := sqrt3_exists (K := K)
  obtain ⟨p, q, hs, _⟩ := h.sinv hr
  obtain ⟨x, y, z, s, hi⟩ := hs.iter
  exact Problem.not_approx (div_nonpos_of_nonpos_of_nonneg ht h0) x y z s
    (approx_of_break h hr hb hi h0 h3).2

/-- Every point with positive slacks and multipliers meets suitable tolerances. -/
theorem exists_tolerances (pb : Problem K) (x y z s : Nat → K) : ∃ rt at' : K, ∀ o : Settings K,
    o.reltol = rt → o.abstol = at' → exitF pb o x y z s = true := by
  obtain ⟨t, h0, h3⟩ := sqrt3_exists (K := K)
  have ht : 0 < t := lt_of_le_of_ne h0 (by rintro rfl; norm_num at h3)
  have i1 := (nrmF_isNorm pb.n (rxF pb x y z)).1
  have i2 := (nrmF_isNorm pb.p (ryF pb x)).1
  have i3 := (nrmF_isNorm pb.m (rzF pb x s)).1
  refine ⟨(nrmF pb.n (rxF pb x y z) + nrmF pb.p (ryF pb x) + nrmF pb.m (rzF pb x s) + 1) * t,
    gapF pb z s + 1, fun o e1 e2 => ?_⟩
  rw [exitF_iff _ _ _ _ _ h0 h3, e1, e2, mul_div_assoc, div_self ht.ne', mul_one]
  exact ⟨by linarith, fun _ => by linarith, by linarith, by linarith⟩

/-- The first call of the histories below: one step with tolerances that cannot be met. -/
theorem first_call {amd : Amd} {a : SetupArgs K} {pb : Problem K} {q0 : QP K}
    (h : Started amd a pb q0) : ∃ q1, QP_SOLVE { q0 with options :=
      { maxit := 1, reltol := 0, abstol := 0, sigma := 100, verbose := 0 } } = .ok (2, q1) ∧
      q1.stats.IterationCount = 1 ∧ q1.stats.Flag = 2 := by
  obtain ⟨f, q1, h1⟩ := C22_terminates h
    { maxit := 1, reltol := 0, abstol := 0, sigma := 100, verbose := 0 } (Or.inl le_rfl)
  obtain ⟨k, qk, hk, hle, hc, h2⟩ := (C22_first_solve h _ h1).2 (by decide : (0 : Int) ≤ 1)
  have hr : Reach q0 { q0 with options :=
      { maxit := 1, reltol := 0, abstol := 0, sigma := 100, verbose := 0 } } := .options _ .start
  obtain ⟨p, q, hs, _⟩ := h.sinv hr
  rcases h2 with ⟨rfl, e1, e2⟩ | ⟨_, _, hb⟩
  · exact ⟨q1, h1, by rw [hc]; exact e1, by rw [e2]⟩
  · refine absurd hb (no_break h (hr.iterations hk) ?_)
    rw [(hk.facts h.wf hs).2.1.reltol]

/-- C24: for every problem there is a history in which a call whose point meets the tolerances at
once nevertheless reports 2, because the counter still equals `maxit` from the call before. -/
theorem C24_stale_maxit_exists {amd : Amd} {a : SetupArgs K} {pb : Problem K} {q0 : QP K}
    (h : Started amd a pb q0) : ∃ o1 o2 q1 q2 x y z s t, 0 ≤ t ∧ t * t = 3 ∧
      QP_SOLVE { q0 with options := o1 } = .ok (2, q1) ∧
      QP_SOLVE { q1 with options := o2 } = .ok (2, q2) ∧
      q1.Iter pb x y z s ∧ q2.Iter pb x y z s ∧ pb.Approx (o2.reltol / t) o2.abstol x y z s := by
  obtain ⟨q1, h1, hc, _⟩ := first_call h
  have hr1 : Reach q0 q1 := .solve (.options _ .start) h1
  obtain ⟨p, q, hs, _⟩ := h.sinv hr1
  obtain ⟨x, y, z, s, hi⟩ := hs.iter
  obtain ⟨rt, ab, hex⟩ := exists_tolerances pb x y z s
  obtain ⟨t, h0, h3⟩ := sqrt3_exists (K := K)
  set o2 : Settings K := { maxit := 1, reltol := rt, abstol := ab, sigma := 100, verbose := 0 }
    with ho2
  have hr2 : Reach q0 { q1 with options := o2 } := .options o2 hr1
  have hi2 : QP.Iter pb { q1 with options := o2 } x y z s := ⟨hi.x, hi.y, hi.z, hi.s⟩
  obtain ⟨p', q', hs2, _⟩ := h.sinv hr2
  obtain ⟨⟨r, b⟩, hb, hbo⟩ := solveBody_spec h.wf hs2.inv hi2 (Or.inl le_rfl)
  have hbt : b = true := hbo.brk.trans (hex _ rfl rfl)
  subst hbt
  obtain ⟨q2, h2, sp⟩ := C24_stale_maxit h hr2 hc (by decide : (0 : Int) < 1) hb
  refine ⟨_, o2, q1, q2, x, y, z, s, t, h0, h3, h1, h2, hi, ?_, ?_⟩
  · exact ⟨by rw [sp.x]; exact hi.x, by rw [sp.y]; exact hi.y, by rw [sp.z]; exact hi.z,
      by rw [sp.s]; exact hi.s⟩
  · exact (approx_of_break h hr2 hb hi2 h0 h3).2

/-- C24: for every problem there is a history in which a call that performs `maxit` iterations
without meeting its tolerances (here they cannot be met) reports 0, because the flag is left over
from the call before. -/
theorem C24_stale_optimal_exists {amd : Amd} {a : SetupArgs K} {pb : Problem K} {q0 : QP K}
    (h : Started amd a pb q0) : ∃ o1 o2 o3 q1 q2 q3,
      QP_SOLVE { q0 with options := o1 } = .ok (2, q1) ∧
      QP_SOLVE { q1 with options := o2 } = .ok (0, q2) ∧
      QP_SOLVE { q2 with options := o3 } = .ok (0, q3) ∧ 0 < o3.maxit ∧
      Iterations o3.maxit.toNat { q2 with options := o3 } q3 ∧
      ∀ t x y z s, 0 ≤ t → ¬ pb.Approx (o3.reltol / t) o3.abstol x y z s := by
  obtain ⟨q1, h1, hc, _⟩ := first_call h
  have hr1 : Reach q0 q1 := .solve (.options _ .start) h1
  obtain ⟨p, q, hs, _⟩ := h.sinv hr1
  obtain ⟨x, y, z, s, hi⟩ := hs.iter
  obtain ⟨rt, ab, hex⟩ := exists_tolerances pb x y z s
  set o2 : Settings K := { maxit := 5, reltol := rt, abstol := ab, sigma := 100, verbose := 0 }
  set o3 : Settings K := { maxit := 5, reltol := 0, abstol := 0, sigma := 100, verbose := 0 }
  have hr2 : Reach q0 { q1 with options := o2 } := .options o2 hr1
  have hi2 : QP.Iter pb { q1 with options := o2 } x y z s := ⟨hi.x, hi.y, hi.z, hi.s⟩
  obtain ⟨p', q', hs2, _⟩ := h.sinv hr2
  have hset : Settled pb p' q' { q1 with options := o2 } :=
    ⟨hs2, Or.inl le_rfl, ⟨x, y, z, s, hi2, hex _ rfl rfl⟩, (by decide : (0 : Int) < 5),
      by show q1.stats.IterationCount ≠ 5; rw [hc]; decide⟩
  obtain ⟨q2, h2, sp, _, _⟩ := hset.solve h.wf
  have hr3 : Reach q0 { q2 with options := o3 } := .options o3 (.solve hr2 h2)
  obtain ⟨p3, r3, hs3, _⟩ := h.sinv hr3
  obtain ⟨k, qk, f, q3, h3, hrun⟩ := QP_SOLVE_run h.wf hs3 (Or.inl le_rfl)
  have hk : Iterations o3.maxit.toNat { q2 with options := o3 } qk := by
    obtain ⟨r, h5, _⟩ := hrun.stop
    rcases h5 with ⟨_, hb⟩ | ⟨hk, _⟩
    · refine absurd hb (no_break h (hr3.iterations hrun.its) ?_)
      rw [(hrun.its.facts h.wf hs3).2.1.reltol]
    · have := hrun.its
      rw [hk] at this
      exact this
  have hfl : q2.stats.Flag = 0 := by
    obtain ⟨_, _, hrun2⟩ := QP_SOLVE_inv h.wf hs2 h2
    exact hrun2.ret.symm
  have hcnt : 0 < q2.stats.IterationCount := by
    have := sp.count
    simp only at this
    rw [this, hc]
    decide
  have h4 := C24_stale_optimal h hr3 hfl hcnt (by decide : (0 : Int) ≤ 5) hk
  exact ⟨_, o2, o3, q1, q2, qk, h1, h2, h4, (by decide : (0 : Int) < 5), hk, fun t x y z s _ =>
    Problem.not_approx (by simp [o3]) x y z s⟩

/-! ## Examples -/

/-- C18, C19, C20, C21: for every problem there are options with which a first solve returns 0, so
the hypotheses can be met (here: tolerances that the starting point meets). -/
theorem first_zero_exists {amd : Amd} {a : SetupArgs K} {pb : Problem K} {q0 : QP K}
    (h : Started amd a pb q0) : ∃ o q1, QP_SOLVE { q0 with options := o } = .ok (0, q1) := by
  obtain ⟨p, q, hs, _⟩ := h.sinv (.start)
  obtain ⟨x, y, z, s, hi⟩ := hs.iter
  obtain ⟨rt, ab, hex⟩ := exists_tolerances pb x y z s
  obtain ⟨p, q, hd⟩ := h.done
  obtain ⟨re, hst⟩ := hd.stats
  set o : Settings K := { maxit := 5, reltol := rt, abstol := ab, sigma := 100, verbose := 0 }
  obtain ⟨p', q', hs2, _⟩ := h.sinv (.options o .start)
  have hset : Settled pb p' q' { q0 with options := o } :=
    ⟨hs2, Or.inl le_rfl, ⟨x, y, z, s, ⟨hi.x, hi.y, hi.z, hi.s⟩, hex _ rfl rfl⟩,
      (by decide : (0 : Int) < 5), by
        show q0.stats.IterationCount ≠ 5; rw [hst]; exact (by decide : (0 : Int) ≠ 5)⟩
  obtain ⟨q1, h1, _⟩ := hset.solve h.wf
  exact ⟨o, q1, h1⟩

end

/-- The demo has a symmetric positive semidefinite `P`. -/
theorem demoPb_symm {K : Type} [Field K] : (demoPb K).P.Symm := by
  intro r c hr hc
  simp only [demoPb, Csc.lit] at hr hc
  interval_cases r <;> interval_cases c <;>
    simp [demoPb, Csc.lit, Csc.entry, sum_Ico_eq_sum_range, sum_range_succ]

theorem demoPb_psd {K : Type} [Field K] [LinearOrder K] [IsStrictOrderedRing K] :
    (demoPb K).Psd := by
  intro v
  have e : dot (demoPb K).n v ((demoPb K).P.mulVec v) =
      5 * (v 0 * v 0) + 2 * (v 0 * v 1) + 2 * (v 1 * v 1) + 2 * (v 1 * v 2) + 4 * (v 2 * v 2) := by
    simp [dot, Csc.mulVec, Problem.n, demoPb, Csc.lit, Csc.entry, sum_Ico_eq_sum_range,
      sum_range_succ]
    ring
  rw [e]
  nlinarith [mul_self_nonneg (v 0 + v 1), mul_self_nonneg (v 1 + v 2), mul_self_nonneg (v 0),
    mul_self_nonneg (v 2)]

/-- C20: all hypotheses hold together for the demo over the reals, and there is a feasible point
to compare with. -/
example : ∃ q0 o q1, Started failAmd (demoArgs ℝ) (demoPb ℝ) q0 ∧
    QP_SOLVE { q0 with options := o } = .ok (0, q1) ∧ (demoPb ℝ).P.Symm ∧ (demoPb ℝ).Psd ∧
    (demoPb ℝ).Feasible (fun i => [(2 : ℝ), 0, 1].getD i 0) := by
  obtain ⟨q0, h⟩ := demo_started ℝ
  obtain ⟨o, q1, h1⟩ := first_zero_exists h
  refine ⟨q0, o, q1, h, h1, demoPb_symm, demoPb_psd, ?_, ?_⟩
  · intro i hi
    simp only [Problem.p, demoPb, Csc.lit] at hi
    interval_cases i
    simp [demoPb, Csc.lit, Csc.mulVec, Csc.entry, sum_Ico_eq_sum_range, sum_range_succ]
    norm_num
  · intro i hi
    simp only [Problem.m, demoPb, Csc.lit] at hi
    interval_cases i <;>
      simp [demoPb, Csc.lit, Csc.mulVec, Csc.entry, sum_Ico_eq_sum_range, sum_range_succ]
    norm_num

end Verif
