import Verif.Props.Prototype

/-!
# What a step does to the residuals and to the complementarity gap

C81: exact formulas for one step with any factorisation, and their consequences for whole runs.
-/

set_option linter.unusedSectionVars false

namespace Verif

open Finset

section

variable {K : Type} [Field K] [LinearOrder K] [IsStrictOrderedRing K] [Scalar K] [LawfulScalar K]

theorem mulVec_step (B : Csc K) {x d x' : Nat → K} {t : K}
    (h : ∀ c, c < B.n → x' c = x c + t * d c) (i : Nat) :
    B.mulVec x' i = B.mulVec x i + t * B.mulVec d i := by
  unfold Csc.mulVec
  rw [mul_sum, ← sum_add_distrib]
  refine sum_congr rfl fun c hc => ?_
  rw [h c (mem_range.mp hc)]
  ring

theorem tmulVec_step (B : Csc K) {y d y' : Nat → K} {t : K}
    (h : ∀ r, r < B.m → y' r = y r + t * d r) (i : Nat) :
    B.tmulVec y' i = B.tmulVec y i + t * B.tmulVec d i := by
  unfold Csc.tmulVec
  rw [mul_sum, ← sum_add_distrib]
  refine sum_congr rfl fun c hc => ?_
  rw [h c (mem_range.mp hc)]
  ring

/-- The residuals and products at the end of a step along a solution of the linearised conditions,
with different lengths for `x, s` and for `y, z`. -/
structure Problem.Moved (pb : Problem K) (ap ad : K) (e tgt dx dy dz ds x y z s x' y' z' s' : Nat → K) :
    Prop where
  rx : ∀ i, i < pb.n → pb.rx x' y' z' i
    = (1 - ad) * pb.rx x y z i + (ad - ap) * pb.P.mulVec dx i + ad * (e i * dx i)
  ry : ∀ i, i < pb.p → pb.ry x' i = (1 - ap) * pb.ry x i + ap * (e (pb.n + i) * dy i)
  rz : ∀ i, i < pb.m → pb.rz x' s' i
    = (1 - ap) * pb.rz x s i + ap * (e (pb.n + pb.p + i) * dz i)
  prod : ∀ i, i < pb.m → s' i * z' i = s i * z i + ap * tgt i + (ad - ap) * (s i * dz i)
    + ap * ad * (ds i * dz i)

theorem Problem.Linearised.moved {pb : Problem K} (hw : pb.WF)
    {e x y z s tgt dx dy dz ds x' y' z' s' : Nat → K} {ap ad : K}
    (h : pb.Linearised e x y z s tgt dx dy dz ds)
    (hx : ∀ i, i < pb.n → x' i = x i + ap * dx i) (hy : ∀ i, i < pb.p → y' i = y i + ad * dy i)
    (hz : ∀ i, i < pb.m → z' i = z i + ad * dz i) (hs : ∀ i, i < pb.m → s' i = s i + ap * ds i) :
    pb.Moved ap ad e tgt dx dy dz ds x y z s x' y' z' s' := by
  have hA := mulVec_step pb.A (x := x) (x' := x') (d := dx) (t := ap)
    (fun c hc => hx c (by rw [hw.An] at hc; exact hc))
  have hG := mulVec_step pb.G (x := x) (x' := x') (d := dx) (t := ap)
    (fun c hc => hx c (by rw [hw.Gn] at hc; exact hc))
  have hP := mulVec_step pb.P (x := x) (x' := x') (d := dx) (t := ap) hx
  have hAt := tmulVec_step pb.A (y := y) (y' := y') (d := dy) (t := ad) hy
  have hGt := tmulVec_step pb.G (y := z) (y' := z') (d := dz) (t := ad) hz
  refine ⟨fun i hi => ?_, fun i hi => ?_, fun i hi => ?_, fun i hi => ?_⟩
  · have := h.rx i hi
    unfold Problem.rx at this ⊢
    rw [hP, hAt, hGt]
    linear_combination (-ad) * this
  · have := h.ry i hi
    unfold Problem.ry at this ⊢
    rw [hA]
    linear_combination (-ap) * this
  · have := h.rz i hi
    unfold Problem.rz at this ⊢
    rw [hG, hs i hi]
    linear_combination (-ap) * this
  · rw [hs i hi, hz i hi, ← h.comp i hi]
    ring

end

section

variable {K : Type} [Field K] [LinearOrder K] [IsStrictOrderedRing K] [Scalar K] [LawfulScalar K]
  [LawfulSqrt K]

/-- **C81**, one step: after every iteration that takes a step, from every reachable state, with the
stored directions and the perturbation `e` of the KKT matrix made by the pivot rule, the new
residuals are the old ones times one minus the step length, plus `(alpha_d - alpha_p) P dx` for the
dual one, plus the step length times `e` times the direction; the new products are
`s z + alpha_p tgt + (alpha_d - alpha_p) s dz + alpha_p alpha_d ds dz`, where `tgt` is
`-s z + sigma mu`, minus the product of the predictor directions if there is a predictor. -/
theorem C81_effect {amd : Amd} {a : SetupArgs K} {pb : Problem K} {q0 qp qp' : QP K}
    (h : Started amd a pb q0) (hsym : pb.P.Symm) (hr : Reach q0 qp)
    (hb : solveBody qp = .ok (qp', false)) {x y z s x' y' z' s' : Nat → K}
    (hi : qp.Iter pb x y z s) (hi' : qp'.Iter pb x' y' z' s') :
    ∃ e dx dy dz ds tgt : Nat → K, Buf.Has qp'.delta_x pb.n dx ∧ Buf.Has qp'.delta_y pb.p dy ∧
      Buf.Has qp'.delta_z pb.m dz ∧ Buf.Has qp'.delta_s pb.m ds ∧
      (∃ M p L d, qp'.kkt.Factored pb.N M p L d e) ∧
      (qp'.kkt.Exact pb.N → ∀ i, i < pb.N → e i = 0) ∧
      pb.Linearised e x y z s tgt dx dy dz ds ∧
      pb.Moved qp'.stats.alpha_p qp'.stats.alpha_d e tgt dx dy dz ds x y z s x' y' z' s' ∧
      ((qp.options.sigma ≤ pb.sigma_d ∧ ∀ i, i < pb.m →
          tgt i = -(s i * z i) + qp'.options.sigma * (dot pb.m s z / (pb.m : K))) ∨
        ∃ px py pz ps, pb.Linearised e x y z s (fun i => -(s i * z i)) px py pz ps ∧
          ∀ i, i < pb.m → tgt i = -(s i * z i) - ps i * pz i
            + qp'.options.sigma * (dot pb.m s z / (pb.m : K))) := by
  obtain ⟨_, _, _, _, dx, dy, dz, ds, _, _, j1, j2, j3, j4, _, _, _, _, hi2⟩ := C17_steps h hr hb hi
  obtain ⟨e, dx', dy', dz', ds', tgt, k1, k2, k3, k4, hf, hex, hl, c1, c2⟩ :=
    C31_directions h hsym hr hb hi
  refine ⟨e, dx', dy', dz', ds', tgt, k1, k2, k3, k4, hf, hex, hl, hl.moved h.wf ?_ ?_ ?_ ?_, ?_⟩
  · exact fun i hn => by rw [hi'.x.unique hi2.x hn, j1.unique k1 hn]
  · exact fun i hn => by rw [hi'.y.unique hi2.y hn, j2.unique k2 hn]
  · exact fun i hn => by rw [hi'.z.unique hi2.z hn, j3.unique k3 hn]
  · exact fun i hn => by rw [hi'.s.unique hi2.s hn, j4.unique k4 hn]
  · rcases le_or_gt qp.options.sigma pb.sigma_d with hle | hlt
    · left
      obtain ⟨e1, e2⟩ := c1 hle
      exact ⟨hle, fun i hm => by rw [e1]; exact e2 i hm⟩
    · right
      obtain ⟨px, py, pz, ps, _, _, d1, _, _, _, d2⟩ := c2 hlt
      exact ⟨px, py, pz, ps, d1, d2⟩

/-- **C81**, dual residual with an exact factorisation: times `1 - alpha_d`, plus
`(alpha_d - alpha_p) P dx`. -/
theorem C81_dual {amd : Amd} {a : SetupArgs K} {pb : Problem K} {q0 qp qp' : QP K}
    (h : Started amd a pb q0) (hsym : pb.P.Symm) (hr : Reach q0 qp)
    (hb : solveBody qp = .ok (qp', false)) (hex : qp'.kkt.Exact pb.N) {x y z s x' y' z' s' : Nat → K}
    (hi : qp.Iter pb x y z s) (hi' : qp'.Iter pb x' y' z' s') :
    ∃ dx, Buf.Has qp'.delta_x pb.n dx ∧ ∀ i, i < pb.n → pb.rx x' y' z' i
      = (1 - qp'.stats.alpha_d) * pb.rx x y z i
        + (qp'.stats.alpha_d - qp'.stats.alpha_p) * pb.P.mulVec dx i := by
  obtain ⟨e, dx, dy, dz, ds, tgt, k1, _, _, _, _, he, _, hm, _⟩ := C81_effect h hsym hr hb hi hi'
  refine ⟨dx, k1, fun i hn => ?_⟩
  rw [hm.rx i hn, he hex i (Nat.lt_of_lt_of_le hn (by unfold Problem.N; omega))]
  ring

/-- **C81**, linear programs (`P = 0`) and steps of equal length: the dual residual is multiplied by
exactly `1 - alpha_d`, so no component of it grows or changes sign, and a dual feasible point stays
dual feasible. -/
theorem C81_dual_contract {amd : Amd} {a : SetupArgs K} {pb : Problem K} {q0 qp qp' : QP K}
    (h : Started amd a pb q0) (hsym : pb.P.Symm) (hr : Reach q0 qp)
    (hb : solveBody qp = .ok (qp', false)) (hex : qp'.kkt.Exact pb.N) {x y z s x' y' z' s' : Nat → K}
    (hi : qp.Iter pb x y z s) (hi' : qp'.Iter pb x' y' z' s')
    (hc : (∀ r c, r < pb.n → c < pb.n → pb.P.entry r c = 0) ∨
      qp'.stats.alpha_p = qp'.stats.alpha_d) :
    ∀ i, i < pb.n → pb.rx x' y' z' i = (1 - qp'.stats.alpha_d) * pb.rx x y z i ∧
      |pb.rx x' y' z' i| ≤ |pb.rx x y z i| := by
  obtain ⟨dx, _, he⟩ := C81_dual h hsym hr hb hex hi hi'
  obtain ⟨_, _, c1, c2, _⟩ := C17_steps h hr hb hi
  intro i hn
  have e1 : pb.rx x' y' z' i = (1 - qp'.stats.alpha_d) * pb.rx x y z i := by
    rw [he i hn]
    rcases hc with hc | hc
    · have : pb.P.mulVec dx i = 0 :=
        sum_eq_zero fun c hc' => by rw [hc i c hn (mem_range.mp hc'), zero_mul]
      rw [this]; ring
    · rw [hc]; ring
  refine ⟨e1, ?_⟩
  rw [e1, abs_mul, abs_of_nonneg (by linarith)]
  have := abs_nonneg (pb.rx x y z i)
  nlinarith

/-! ## The complementarity gap -/

/-- Directions at a feasible point are conjugate up to the curvature of the objective. -/
theorem Problem.Linearised.curvature {pb : Problem K} (hw : pb.WF)
    {e x y z s tgt dx dy dz ds : Nat → K} (h : pb.Linearised e x y z s tgt dx dy dz ds)
    (he : ∀ i, i < pb.N → e i = 0) (hx : ∀ i, i < pb.n → pb.rx x y z i = 0)
    (hy : ∀ i, i < pb.p → pb.ry x i = 0) (hz : ∀ i, i < pb.m → pb.rz x s i = 0) :
    dot pb.m ds dz = dot pb.n dx (pb.P.mulVec dx) := by
  have eN : pb.N = pb.n + pb.p + pb.m := rfl
  have e1 : dot pb.m ds dz = -dot pb.m dz (pb.G.mulVec dx) := by
    unfold dot
    rw [← sum_neg_distrib]
    refine sum_congr rfl fun i hi => ?_
    have hi := mem_range.mp hi
    have := h.rz i hi
    rw [hz i hi, he _ (by omega)] at this
    have : ds i = -pb.G.mulVec dx i := by linear_combination this
    rw [this]; ring
  have e2 : dot pb.p dy (pb.A.mulVec dx) = 0 := by
    refine sum_eq_zero fun i hi => ?_
    have hi := mem_range.mp hi
    have := h.ry i hi
    rw [hy i hi, he _ (by omega)] at this
    have : pb.A.mulVec dx i = 0 := by linear_combination this
    rw [this, mul_zero]
  have e3 : dot pb.n dx (pb.P.mulVec dx) = -dot pb.n dx (pb.A.tmulVec dy)
      - dot pb.n dx (pb.G.tmulVec dz) := by
    unfold dot
    rw [← sum_neg_distrib, ← sum_sub_distrib]
    refine sum_congr rfl fun i hi => ?_
    have hi := mem_range.mp hi
    have := h.rx i hi
    rw [hx i hi, he _ (by omega)] at this
    have : pb.P.mulVec dx i = -pb.A.tmulVec dy i - pb.G.tmulVec dz i := by linear_combination this
    rw [this]; ring
  have e4 := dot_tmulVec pb.A dx dy
  have e5 := dot_tmulVec pb.G dx dz
  rw [hw.An] at e4
  rw [hw.Gn] at e5
  have e4 : dot pb.n dx (pb.A.tmulVec dy) = dot pb.p dy (pb.A.mulVec dx) := e4
  have e5 : dot pb.n dx (pb.G.tmulVec dz) = dot pb.m dz (pb.G.mulVec dx) := e5
  rw [e3, e4, e5, e2, e1]; ring

/-- **C81**, the gap: from a primal and dual feasible point, with an exact factorisation, the new gap
`sᵀz` is the old one times `1 - alpha_p (1 - sigma)`, minus `alpha_p` times the curvature of the
predictor direction (if there is a predictor), plus `(alpha_d - alpha_p) sᵀdz`, plus
`alpha_p alpha_d` times the curvature of the direction. For a linear program and steps of equal
length `t` it is exactly `1 - t (1 - sigma)` times the old one. -/
theorem C81_gap {amd : Amd} {a : SetupArgs K} {pb : Problem K} {q0 qp qp' : QP K}
    (h : Started amd a pb q0) (hsym : pb.P.Symm) (hr : Reach q0 qp)
    (hb : solveBody qp = .ok (qp', false)) (hex : qp'.kkt.Exact pb.N) {x y z s x' y' z' s' : Nat → K}
    (hi : qp.Iter pb x y z s) (hi' : qp'.Iter pb x' y' z' s')
    (hx : ∀ i, i < pb.n → pb.rx x y z i = 0) (hy : ∀ i, i < pb.p → pb.ry x i = 0)
    (hz : ∀ i, i < pb.m → pb.rz x s i = 0) :
    (∃ dx dz px, Buf.Has qp'.delta_x pb.n dx ∧ Buf.Has qp'.delta_z pb.m dz ∧ dot pb.m s' z'
      = (1 - qp'.stats.alpha_p * (1 - qp'.options.sigma)) * dot pb.m s z
        - qp'.stats.alpha_p * dot pb.n px (pb.P.mulVec px)
        + (qp'.stats.alpha_d - qp'.stats.alpha_p) * dot pb.m s dz
        + qp'.stats.alpha_p * qp'.stats.alpha_d * dot pb.n dx (pb.P.mulVec dx)) ∧
    ((∀ r c, r < pb.n → c < pb.n → pb.P.entry r c = 0) → qp'.stats.alpha_p = qp'.stats.alpha_d →
      dot pb.m s' z' = (1 - qp'.stats.alpha_d * (1 - qp'.options.sigma)) * dot pb.m s z) := by
  obtain ⟨e, dx, dy, dz, ds, tgt, k1, _, k3, _, _, he, hl, hm, htgt⟩ := C81_effect h hsym hr hb hi hi'
  have he := he hex
  have hcur := hl.curvature h.wf he hx hy hz
  have mpos : (pb.m : K) ≠ 0 := by exact_mod_cast h.wf.m_pos.ne'
  have emu : ∑ i ∈ range pb.m, qp'.options.sigma * (dot pb.m s z / (pb.m : K))
      = qp'.options.sigma * dot pb.m s z := by
    rw [sum_const, card_range, nsmul_eq_mul]
    field_simp
  have egap : dot pb.m s' z' = dot pb.m s z + qp'.stats.alpha_p * (∑ i ∈ range pb.m, tgt i)
      + (qp'.stats.alpha_d - qp'.stats.alpha_p) * dot pb.m s dz
      + qp'.stats.alpha_p * qp'.stats.alpha_d * dot pb.m ds dz := by
    unfold dot
    rw [mul_sum, mul_sum, mul_sum, ← sum_add_distrib, ← sum_add_distrib, ← sum_add_distrib]
    exact sum_congr rfl fun i hi => hm.prod i (mem_range.mp hi)
  have key : ∃ px, ∑ i ∈ range pb.m, tgt i = -dot pb.m s z - dot pb.n px (pb.P.mulVec px)
      + qp'.options.sigma * dot pb.m s z := by
    rcases htgt with ⟨_, h1⟩ | ⟨px, py, pz, ps, hlp, h1⟩
    · refine ⟨fun _ => 0, ?_⟩
      rw [sum_congr rfl fun i hi => h1 i (mem_range.mp hi), sum_add_distrib, emu, sum_neg_distrib]
      simp [dot]
    · refine ⟨px, ?_⟩
      rw [← hlp.curvature h.wf he hx hy hz,
        sum_congr rfl fun i hi => h1 i (mem_range.mp hi), sum_add_distrib, emu, sum_sub_distrib,
        sum_neg_distrib]
      rfl
  obtain ⟨px, hpx⟩ := key
  have h1 : dot pb.m s' z'
      = (1 - qp'.stats.alpha_p * (1 - qp'.options.sigma)) * dot pb.m s z
        - qp'.stats.alpha_p * dot pb.n px (pb.P.mulVec px)
        + (qp'.stats.alpha_d - qp'.stats.alpha_p) * dot pb.m s dz
        + qp'.stats.alpha_p * qp'.stats.alpha_d * dot pb.n dx (pb.P.mulVec dx) := by
    rw [egap, hpx, hcur]; ring
  refine ⟨⟨dx, dz, px, k1, k3, h1⟩, fun h0 ht => ?_⟩
  have hq : ∀ v : Nat → K, dot pb.n v (pb.P.mulVec v) = 0 := fun v =>
    sum_eq_zero fun i hi => by
      have : pb.P.mulVec v i = 0 :=
        sum_eq_zero fun c hc => by rw [h0 i c (mem_range.mp hi) (mem_range.mp hc), zero_mul]
      rw [this, mul_zero]
  rw [h1, hq, hq, ht]; ring

/-! ## Whole runs -/

/-- All factorisations of a run of `k` iterations are exact. -/
def ExactRun (N k : Nat) (a : QP K) : Prop :=
  ∀ j b, 0 < j → j ≤ k → Iterations j a b → b.kkt.Exact N

/-- **C81**, whole runs: after any number of iterations with exact factorisations the equality and
inequality residuals are one common multiple, between zero and one, of those at the start; for a
linear program the dual residual is a multiple of the one at the start as well. -/
theorem C81_run {amd : Amd} {a : SetupArgs K} {pb : Problem K} {q0 qp qk : QP K}
    (h : Started amd a pb q0) (hsym : pb.P.Symm) (hr : Reach q0 qp) {k : Nat}
    (hk : Iterations k qp qk) (hex : ExactRun pb.N k qp) {x y z s x' y' z' s' : Nat → K}
    (hi : qp.Iter pb x y z s) (hi' : qk.Iter pb x' y' z' s') :
    ∃ t u : K, 0 ≤ t ∧ t ≤ 1 ∧ 0 ≤ u ∧ u ≤ 1 ∧
      (∀ i, i < pb.p → pb.ry x' i = t * pb.ry x i) ∧
      (∀ i, i < pb.m → pb.rz x' s' i = t * pb.rz x s i) ∧
      ((∀ r c, r < pb.n → c < pb.n → pb.P.entry r c = 0) →
        ∀ i, i < pb.n → pb.rx x' y' z' i = u * pb.rx x y z i) := by
  induction hk generalizing x' y' z' s' with
  | zero a =>
    have cx : ∀ B : Csc K, B.n = pb.n → ∀ i, B.mulVec x' i = B.mulVec x i := fun B hB i =>
      sum_congr rfl fun c hc => by
        rw [hi'.x.unique hi.x (by rw [← hB]; exact mem_range.mp hc)]
    refine ⟨1, 1, zero_le_one, le_rfl, zero_le_one, le_rfl, fun i hp => ?_, fun i hm => ?_,
      fun _ i hn => ?_⟩
    · unfold Problem.ry; rw [cx _ h.wf.An]; ring
    · unfold Problem.rz; rw [cx _ h.wf.Gn, hi'.s.unique hi.s hm]; ring
    · unfold Problem.rx
      rw [cx _ rfl,
        show pb.G.tmulVec z' i = pb.G.tmulVec z i from sum_congr rfl fun c hc => by
          rw [hi'.z.unique hi.z (mem_range.mp hc)],
        show pb.A.tmulVec y' i = pb.A.tmulVec y i from sum_congr rfl fun c hc => by
          rw [hi'.y.unique hi.y (mem_range.mp hc)]]
      ring
  | @succ k a b c hj hb ih =>
    have hrb := hr.iterations hj
    obtain ⟨_, _, hs, _⟩ := h.sinv hrb
    obtain ⟨x1, y1, z1, s1, hi1⟩ := hs.iter
    obtain ⟨t, u, t0, t1, u0, u1, ey, ez, ex⟩ :=
      ih hr (fun j b h1 h2 h3 => hex j b h1 (by omega) h3) hi hi1
    have hxc := hex (k + 1) c (by omega) le_rfl (.succ hj hb)
    obtain ⟨f1, f2⟩ := C30_contract h hsym hrb hb hxc hi1 hi'
    obtain ⟨p0, p1, d0, d1, _⟩ := C17_steps h hrb hb hi1
    refine ⟨(1 - c.stats.alpha_p) * t, (1 - c.stats.alpha_d) * u,
      mul_nonneg (by linarith) t0, mul_le_one₀ (by linarith) t0 t1,
      mul_nonneg (by linarith) u0, mul_le_one₀ (by linarith) u0 u1, fun i hp => ?_, fun i hm => ?_,
      fun h0 i hn => ?_⟩
    · rw [f1 i hp, ey i hp]; ring
    · rw [f2 i hm, ez i hm]; ring
    · rw [(C81_dual_contract h hsym hrb hb hxc hi1 hi' (Or.inl h0) i hn).1, ex h0 i hn]; ring

/-- **C81**, from a fresh setup: with exact factorisations every iterate satisfies the equality
constraints exactly and violates every inequality equation `G x + s = h` by the same number `v`,
which is between zero and `1 - lo`, where `lo` is the least slack `h - G x` of the first point (the
point before the shift); if that point is strictly feasible, `v = 0` and every iterate is strictly
feasible. -/
theorem C81_feasible {amd : Amd} {a : SetupArgs K} {pb : Problem K} {q0 qk : QP K}
    (h : Started amd a pb q0) (hsym : pb.P.Symm) (o : Settings K) {k : Nat}
    (hk : Iterations k { q0 with options := o } qk) (hx0 : q0.kkt.Exact pb.N)
    (hex : ExactRun pb.N k { q0 with options := o }) {x y z s x0 y0 z0 s0 : Nat → K}
    (hi : qk.Iter pb x y z s) (hi0 : q0.Iter pb x0 y0 z0 s0) :
    (∀ i, i < pb.p → pb.A.mulVec x i = pb.b i) ∧
    ∃ v lo : K, IsLeast {v | ∃ i, i < pb.m ∧ v = pb.h i - pb.G.mulVec x0 i} lo ∧
      0 ≤ v ∧ (∀ i, i < pb.m → pb.G.mulVec x i + s i = pb.h i + v) ∧
      (lo ≤ 0 → v ≤ 1 - lo) ∧
      (0 < lo → v = 0 ∧ ∀ i, i < pb.m → pb.G.mulVec x i < pb.h i) := by
  have hr : Reach q0 { q0 with options := o } := .options o .start
  have hi0' : QP.Iter pb { q0 with options := o } x0 y0 z0 s0 := ⟨hi0.x, hi0.y, hi0.z, hi0.s⟩
  obtain ⟨t, _, t0, t1, _, _, ey, ez, _⟩ := C81_run h hsym hr hk hex hi0' hi
  obtain ⟨e, w, _, he, _, c2, _, lo, _, hlo, _, hs, _⟩ := C53_starting_point h hsym hi0
  have he := he hx0
  have eN : pb.N = pb.n + pb.p + pb.m := rfl
  have hpos := C16_positive h (hr.iterations hk) hi
  refine ⟨fun i hp => ?_, ?_⟩
  · have h1 := c2 i hp
    rw [he _ (by omega)] at h1
    have h2 := ey i hp
    unfold Problem.ry at h2
    linear_combination -h2 + t * h1
  · by_cases hc : 0 < lo
    · have ez' : ∀ i, i < pb.m → pb.G.mulVec x i + s i = pb.h i + 0 := fun i hm => by
        have h1 := ez i hm
        have h2 := hs i hm
        rw [if_pos hc] at h2
        unfold Problem.rz at h1
        rw [h2] at h1
        linear_combination -h1
      refine ⟨0, lo, hlo, le_rfl, ez', fun h => absurd hc (not_lt.mpr h), fun _ => ⟨rfl, fun i hm => ?_⟩⟩
      have := ez' i hm
      have := (hpos i hm).1
      linarith
    · have hc' := not_lt.mp hc
      refine ⟨t * (1 - lo), lo, hlo, mul_nonneg t0 (by linarith), fun i hm => ?_, fun _ => ?_,
        fun h => absurd h hc⟩
      · have h1 := ez i hm
        have h2 := hs i hm
        rw [if_neg hc] at h2
        unfold Problem.rz at h1
        rw [h2] at h1
        linear_combination -h1
      · have : 0 ≤ 1 - lo := by linarith
        nlinarith

/-- **C81**, strongly convex problems without equality constraints: as long as no ratio of slack to
multiplier falls to `1e-14`, the factorisations are exact, so the above applies to the run. -/
theorem C81_strong {amd : Amd} {a : SetupArgs K} {pb : Problem K} {q0 : QP K}
    (h : Started amd a pb q0) (hsym : pb.P.Symm) {eps : K} (heps : 1 / 10 ^ 14 < eps)
    (hP : pb.Strong eps) (hp0 : pb.p = 0) (o : Settings K) {k : Nat}
    (hrat : ∀ j b x y z s, j < k → Iterations j { q0 with options := o } b → b.Iter pb x y z s →
      ∀ i, i < pb.m → 1 / 10 ^ 14 < s i / z i) :
    q0.kkt.Exact pb.N ∧ ExactRun pb.N k { q0 with options := o } := by
  refine ⟨C55_exact_setup h hsym heps hP hp0, fun j b h1 h2 h3 => ?_⟩
  cases h3 with
  | zero => omega
  | @succ j _ b c hj hb =>
    have hrb : Reach q0 b := Reach.iterations (.options o .start) hj
    obtain ⟨_, _, hs, _⟩ := h.sinv hrb
    obtain ⟨x1, y1, z1, s1, hi1⟩ := hs.iter
    exact C55_exact_step h hsym heps hP hp0 hrb hb hi1 (hrat j b _ _ _ _ (by omega) hj hi1)

end

/-- C81 for an example: `min x²/2 + x` subject to `x ≤ 1`, `-x ≤ 0`. The first point `x = 0` lies on
the boundary (`lo = 0`), setup shifts the slacks by one, so `G x + s = h + 1` there. The run of one
iteration has exact factorisations, and `C81_feasible` applies. -/
example : ∃ (q0 q1 : QP ℝ) (a : SetupArgs ℝ) (o : Settings ℝ), Started failAmd a protoPb q0 ∧
    Iterations 1 { q0 with options := o } q1 ∧ q0.kkt.Exact protoPb.N ∧
    ExactRun protoPb.N 1 { q0 with options := o } ∧
    q0.Iter protoPb protoT0.x protoT0.y protoT0.z protoT0.s ∧
    protoPb.G.mulVec protoT0.x 0 + protoT0.s 0 = protoPb.h 0 + 1 ∧
    protoPb.G.mulVec protoT0.x 1 + protoT0.s 1 = protoPb.h 1 + 1 ∧
    (∃ v : ℝ, 0 ≤ v ∧ v ≤ 1 ∧ ∀ x y z s, q1.Iter protoPb x y z s →
      ∀ i, i < 2 → protoPb.G.mulVec x i + s i = protoPb.h i + v) := by
  obtain ⟨q0, h⟩ := id_started protoPb_wf rfl
  obtain ⟨r, hb⟩ := takes_step h 100
  have hit : Iterations 1 _ r := .succ (.zero _) hb
  have hi0 := (C79_start h protoPb_symm
    (C55_exact_setup h protoPb_symm one_gt_small protoPb_strong rfl) proto_init).1
  obtain ⟨hx0, hex⟩ := C81_strong h protoPb_symm one_gt_small protoPb_strong rfl
    { maxit := 1, reltol := 0, abstol := 0, sigma := 100, verbose := 0 } (k := 1) (by
      intro j b x y z s hj hjt hib i hi
      have : j = 0 := by omega
      subst this
      cases hjt
      have hi : i < 2 := hi
      rw [hib.s.unique hi0.s hi, hib.z.unique hi0.z hi]
      interval_cases i <;> norm_num [protoT0, vec2])
  refine ⟨q0, r, _, _, h, hit, hx0, hex, hi0, ?_, ?_, ?_⟩
  · rw [protoPb_G0]; norm_num [protoT0, vec2, protoPb]
  · rw [protoPb_G1]; norm_num [protoT0, vec2, protoPb]
  · obtain ⟨_, _, hs, _⟩ := h.sinv (Reach.iterations (.options _ .start) hit)
    obtain ⟨x, y, z, s, hi⟩ := hs.iter
    obtain ⟨_, v, lo, hlo, v0, hv, h1, h2⟩ := C81_feasible h protoPb_symm _ hit hx0 hex hi hi0
    have elo : lo = 0 := by
      refine hlo.unique ⟨⟨1, by decide, ?_⟩, ?_⟩
      · rw [protoPb_G1]; norm_num [protoPb, protoT0]
      · rintro v ⟨i, hi, rfl⟩
        have hi : i < 2 := hi
        interval_cases i
        · rw [protoPb_G0]; norm_num [protoPb, protoT0]
        · rw [protoPb_G1]; norm_num [protoPb, protoT0]
    refine ⟨v, v0, by have := h1 elo.le; linarith, fun x' y' z' s' hi' i hm => ?_⟩
    rw [← hv i hm, hi'.s.unique hi.s hm]
    congr 1
    refine sum_congr rfl fun c hc => ?_
    rw [hi'.x.unique hi.x (mem_range.mp hc)]

/-- C81, the gap: the hypotheses of `C81_gap` are met by the second iteration of the same run, from
the point `x = 1/7`, `s = (6/7, 1/7)`, `z = (16/49, 72/49)`, which is primal and dual feasible. -/
example : ∃ (q0 qp qp' : QP ℝ) (a : SetupArgs ℝ), Started failAmd a protoPb q0 ∧ Reach q0 qp ∧
    solveBody qp = .ok (qp', false) ∧ qp'.kkt.Exact protoPb.N ∧
    qp.Iter protoPb protoT1.x protoT1.y protoT1.z protoT1.s ∧
    (∀ i, i < protoPb.n → protoPb.rx protoT1.x protoT1.y protoT1.z i = 0) ∧
    (∀ i, i < protoPb.p → protoPb.ry protoT1.x i = 0) ∧
    (∀ i, i < protoPb.m → protoPb.rz protoT1.x protoT1.s i = 0) := by
  obtain ⟨q0, h⟩ := id_started protoPb_wf rfl
  obtain ⟨r, hb⟩ := takes_step h 100
  have hit : Iterations 1 _ r := .succ (.zero _) hb
  have hi0 := (C79_start h protoPb_symm
    (C55_exact_setup h protoPb_symm one_gt_small protoPb_strong rfl) proto_init).1
  obtain ⟨hx0, hex⟩ := C81_strong h protoPb_symm one_gt_small protoPb_strong rfl
    { maxit := 1, reltol := 0, abstol := 0, sigma := 100, verbose := 0 } (k := 1) (by
      intro j b x y z s hj hjt hib i hi
      have : j = 0 := by omega
      subst this
      cases hjt
      have hi : i < 2 := hi
      rw [hib.s.unique hi0.s hi, hib.z.unique hi0.z hi]
      interval_cases i <;> norm_num [protoT0, vec2])
  obtain ⟨ds, D, Ds, hst⟩ := proto_step
  have hrun := C79_run h protoPb_symm _ rfl hit hx0 hex proto_init
    (.succ (.zero _) hst (fun _ => by norm_num) (by norm_num) (by norm_num))
  have hi1 := hrun.1
  have hr0 : Reach q0 { q0 with options :=
      { maxit := 1, reltol := 0, abstol := 0, sigma := 100, verbose := 0 } } := .options _ .start
  have hr : Reach q0 r := hr0.iterations hit
  obtain ⟨p, q, hs, _⟩ := h.sinv hr0
  have hfr := (hit.facts h.wf hs).2.1
  obtain ⟨⟨⟨r', brk⟩, hb'⟩, _⟩ := C26_solve h hr (Or.inl (by rw [hfr.verbose]))
  cases brk with
  | true => exact absurd hb' (no_break h hr (by rw [hfr.reltol]))
  | false =>
    refine ⟨q0, r, r', _, h, hr, hb', ?_, hi1, ?_, ?_, ?_⟩
    · refine C55_exact_step h protoPb_symm one_gt_small protoPb_strong rfl hr hb' hi1 ?_
      intro i hi
      have hi : i < 2 := hi
      interval_cases i <;> norm_num [protoT1, vec2]
    · intro i hi
      have hi : i < 1 := hi
      interval_cases i
      simp only [Problem.rx, protoPb_P, protoPb_A, protoPb_Gt]
      norm_num [protoT1, vec2, protoPb]
    · exact fun i hi => absurd hi (Nat.not_lt_zero i)
    · intro i hi
      have hi : i < 2 := hi
      interval_cases i
      · simp only [Problem.rz, protoPb_G0]; norm_num [protoT1, vec2, protoPb]
      · simp only [Problem.rz, protoPb_G1]; norm_num [protoT1, vec2, protoPb]

end Verif
