import Verif.Model.Prototype
import Verif.Props.Renumber

/-!
# The C code against the MATLAB prototype

C79: in exact arithmetic the solver computes what the MATLAB prototype of the algorithm computes.
-/

set_option linter.unusedSectionVars false

namespace Verif

open Finset

section

variable {K : Type} [Field K] [LinearOrder K] [IsStrictOrderedRing K] [Scalar K] [LawfulScalar K]
  [LawfulSqrt K]

/-! ## The quantities of the prototype -/

/-- Slacks and multipliers are positive. -/
def Problem.ProtoPos (pb : Problem K) (t : ProtoSt K) : Prop := ∀ i, i < pb.m → 0 < t.s i ∧ 0 < t.z i

theorem sqrt_pos' {v : K} (h : 0 < v) : 0 < Scalar.sqrt v :=
  lt_of_le_of_ne (LawfulSqrt.sqrt_nonneg v) (by
    intro he
    have := LawfulSqrt.sqrt_mul_self v h.le
    rw [← he, mul_zero] at this
    exact h.ne this)

theorem ProtoSt.lambda_sq {t : ProtoSt K} {i : Nat} (h : 0 < t.s i ∧ 0 < t.z i) :
    t.lambda i * t.lambda i = t.s i * t.z i := by
  unfold ProtoSt.lambda
  have h1 := LawfulSqrt.sqrt_mul_self _ h.1.le
  have h2 := LawfulSqrt.sqrt_mul_self _ h.2.le
  calc _ = Scalar.sqrt (t.s i) * Scalar.sqrt (t.s i) * (Scalar.sqrt (t.z i) * Scalar.sqrt (t.z i)) := by
        ring
    _ = _ := by rw [h1, h2]

theorem ProtoSt.W_sq {t : ProtoSt K} {i : Nat} (h : 0 < t.s i ∧ 0 < t.z i) :
    t.W i * t.W i = t.s i / t.z i := by
  unfold ProtoSt.W
  have h1 := LawfulSqrt.sqrt_mul_self _ h.1.le
  have h2 := LawfulSqrt.sqrt_mul_self _ h.2.le
  have h3 := (sqrt_pos' h.2).ne'
  calc _ = Scalar.sqrt (t.s i) * Scalar.sqrt (t.s i) / (Scalar.sqrt (t.z i) * Scalar.sqrt (t.z i)) := by
        field_simp
    _ = _ := by rw [h1, h2]

theorem ProtoSt.W_pos {t : ProtoSt K} {i : Nat} (h : 0 < t.s i ∧ 0 < t.z i) : 0 < t.W i :=
  mul_pos (sqrt_pos' h.1) (one_div_pos.mpr (sqrt_pos' h.2))

theorem ProtoSt.wld_eq {t : ProtoSt K} {i : Nat} (h : 0 < t.s i ∧ 0 < t.z i) (ds : Nat → K) :
    t.wld ds i = ds i / t.z i := by
  unfold ProtoSt.wld ProtoSt.W ProtoSt.lambda
  have h2 := LawfulSqrt.sqrt_mul_self _ h.2.le
  have h3 := (sqrt_pos' h.1).ne'
  have h4 := (sqrt_pos' h.2).ne'
  calc _ = ds i / (Scalar.sqrt (t.z i) * Scalar.sqrt (t.z i)) := by field_simp
    _ = _ := by rw [h2]

theorem Problem.protoMu_eq {pb : Problem K} {t : ProtoSt K} (h : pb.ProtoPos t) :
    pb.protoMu t = dot pb.m t.s t.z / (pb.m : K) := by
  unfold Problem.protoMu dot
  congr 1
  exact sum_congr rfl fun i hi => ProtoSt.lambda_sq (h i (mem_range.mp hi))

theorem Problem.stack_x {pb : Problem K} {u v w : Nat → K} {i : Nat} (h : i < pb.n) :
    pb.stack u v w i = u i := by unfold Problem.stack; rw [if_pos h]

theorem Problem.stack_y {pb : Problem K} {u v w : Nat → K} {i : Nat} (h : i < pb.p) :
    pb.stack u v w (pb.n + i) = v i := by
  unfold Problem.stack
  rw [if_neg (by omega), if_pos (by omega), Nat.add_sub_cancel_left]

theorem Problem.stack_z {pb : Problem K} {u v w : Nat → K} (i : Nat) :
    pb.stack u v w (pb.n + pb.p + i) = w i := by
  unfold Problem.stack
  rw [if_neg (by omega), if_neg (by omega), show pb.n + pb.p + i - pb.n - pb.p = i by omega]

/-- A system with the blocks of the KKT matrix, written out. -/
theorem Problem.backslash_iff {pb : Problem K} (hpb : pb.WF) {d u v w X : Nat → K} :
    pb.Backslash d (pb.stack u v w) X ↔
      (∀ i, i < pb.n → pb.P.mulVec X i + pb.A.tmulVec (fun k => X (pb.n + k)) i
        + pb.G.tmulVec (fun k => X (pb.n + pb.p + k)) i = u i) ∧
      (∀ i, i < pb.p → pb.A.mulVec X i = v i) ∧
      ∀ i, i < pb.m → pb.G.mulVec X i + d i * X (pb.n + pb.p + i) = w i := by
  obtain ⟨b1, b2, b3⟩ := kkt_rows hpb d X
  have eN : pb.N = pb.n + pb.p + pb.m := rfl
  constructor
  · intro h
    refine ⟨fun i hi => ?_, fun i hi => ?_, fun i hi => ?_⟩
    · rw [← b1 i hi, h i (by omega), stack_x hi]
    · rw [← b2 i hi, h _ (by omega), stack_y hi]
    · rw [← b3 i hi, h _ (by omega), stack_z]
  · rintro ⟨h1, h2, h3⟩ r hr
    by_cases hn : r < pb.n
    · rw [b1 r hn, h1 r hn, stack_x hn]
    · by_cases hp : r < pb.n + pb.p
      · obtain ⟨i, rfl⟩ : ∃ i, r = pb.n + i := ⟨r - pb.n, by omega⟩
        rw [b2 i (by omega), h2 i (by omega), stack_y (by omega)]
      · obtain ⟨i, rfl⟩ : ∃ i, r = pb.n + pb.p + i := ⟨r - pb.n - pb.p, by omega⟩
        rw [b3 i (by omega), h3 i (by omega), stack_z]

/-- The direction of the prototype solves the linearised optimality conditions. -/
theorem Problem.ProtoDir.linearised {pb : Problem K} (hpb : pb.WF) {t : ProtoSt K}
    (hp : pb.ProtoPos t) {ds D Ds : Nat → K} (h : pb.ProtoDir t ds D Ds) :
    pb.Linearised (fun _ => 0) t.x t.y t.z t.s ds D (fun i => D (pb.n + i))
      (fun i => D (pb.n + pb.p + i)) Ds := by
  obtain ⟨h1, h2, h3⟩ := (Problem.backslash_iff hpb).mp h.solve
  refine ⟨fun i hi => ?_, fun i hi => ?_, fun i hi => ?_, fun i hi => ?_⟩
  · rw [zero_mul, add_zero, h1 i hi]
    simp only [Problem.protoRx, Problem.rx]; ring
  · rw [zero_mul, add_zero, h2 i hi]
    simp only [Problem.protoRy, Problem.ry]; ring
  · rw [zero_mul, add_zero, h.delta_s i hi]
    have := h3 i hi
    simp only [Problem.protoRz] at this
    simp only [Problem.rz]
    linear_combination this
  · have hz := (hp i hi).2.ne'
    rw [h.delta_s i hi, ProtoSt.wld_eq (hp i hi), ProtoSt.W_sq (hp i hi)]
    field_simp
    ring

/-- A solution of the linearised conditions gives a direction of the prototype. -/
theorem Problem.Linearised.protoDir {pb : Problem K} (hpb : pb.WF) {t : ProtoSt K}
    (hp : pb.ProtoPos t) {e ds dx dy dz Ds : Nat → K} (he : ∀ i, i < pb.N → e i = 0)
    (h : pb.Linearised e t.x t.y t.z t.s ds dx dy dz Ds) :
    pb.ProtoDir t ds (pb.stack dx dy dz) Ds := by
  have eN : pb.N = pb.n + pb.p + pb.m := rfl
  have mv : ∀ B : Csc K, B.n = pb.n → ∀ i, B.mulVec (pb.stack dx dy dz) i = B.mulVec dx i := by
    intro B hB i
    unfold Csc.mulVec
    rw [hB]
    exact sum_congr rfl fun c hc => by rw [stack_x (mem_range.mp hc)]
  have tA : ∀ i, pb.A.tmulVec (fun k => pb.stack dx dy dz (pb.n + k)) i = pb.A.tmulVec dy i := by
    intro i
    unfold Csc.tmulVec
    refine sum_congr rfl fun c hc => ?_
    show _ * pb.stack dx dy dz (pb.n + c) = _
    rw [stack_y (mem_range.mp hc)]
  have tG : ∀ i, pb.G.tmulVec (fun k => pb.stack dx dy dz (pb.n + pb.p + k)) i
      = pb.G.tmulVec dz i := by
    intro i
    unfold Csc.tmulVec
    refine sum_congr rfl fun c hc => ?_
    show _ * pb.stack dx dy dz (pb.n + pb.p + c) = _
    rw [stack_z]
  have hds : ∀ i, i < pb.m → Ds i = t.wld ds i - t.W i * t.W i * dz i := by
    intro i hi
    have hz := (hp i hi).2.ne'
    rw [ProtoSt.wld_eq (hp i hi), ProtoSt.W_sq (hp i hi)]
    have := h.comp i hi
    field_simp
    linear_combination this
  refine ⟨(Problem.backslash_iff hpb).mpr ⟨fun i hi => ?_, fun i hi => ?_, fun i hi => ?_⟩,
    fun i hi => by rw [stack_z]; exact hds i hi⟩
  · rw [mv _ rfl, tA, tG]
    have := h.rx i hi
    rw [he i (by omega), zero_mul, add_zero] at this
    rw [this]
    simp only [Problem.protoRx, Problem.rx]; ring
  · rw [mv _ hpb.An]
    have := h.ry i hi
    rw [he _ (by omega), zero_mul, add_zero] at this
    rw [this]
    simp only [Problem.protoRy, Problem.ry]; ring
  · rw [mv _ hpb.Gn, stack_z]
    have := h.rz i hi
    rw [he _ (by omega), zero_mul, add_zero] at this
    simp only [Problem.rz] at this
    simp only [Problem.protoRz]
    linear_combination this - hds i hi

/-- A length below 1000 found by the prototype is the one the C code finds. -/
theorem ProtoLen.full {m : Nat} {s d : Nat → K} {a : K} (hs : ∀ i, i < m → 0 < s i)
    (h : ProtoLen m s d a) (ha : a < 1000) : FullStep m s d a := by
  obtain ⟨⟨i, hi, e⟩, hub⟩ := h
  unfold protoTest at e
  split at e
  · linarith
  · rename_i hc
    push Not at hc
    have hd : d i < 0 := by
      rcases lt_trichotomy (d i) 0 with h1 | h1 | h1
      · exact h1
      · exact absurd h1 hc.1
      · exact absurd hc.2 (not_le.mpr (div_pos (hs i hi) h1))
    have hneg : s i / d i < 0 := div_neg_of_pos_of_neg (hs i hi) hd
    have hpos : 0 < a := by linarith
    refine ⟨hpos, fun j hj => ?_, Or.inl ⟨by linarith, i, hi, hd, ?_⟩⟩
    · rcases le_or_gt 0 (d j) with h1 | h1
      · exact add_nonneg (hs j hj).le (mul_nonneg hpos.le h1)
      · have h2 := hub ⟨j, hj, rfl⟩
        unfold protoTest at h2
        have h3 : s j / d j < 0 := div_neg_of_pos_of_neg (hs j hj) h1
        rw [if_neg (by push Not; exact ⟨h1.ne, h3.le⟩), div_le_iff_of_neg h1] at h2
        linarith
    · have : a = -(s i / d i) := by linarith
      rw [this, neg_mul, div_mul_cancel₀ _ hd.ne, add_neg_cancel]

/-- If no component decreases the prototype's length is 1000. -/
theorem ProtoLen.unblocked {m : Nat} {s d : Nat → K} {a : K} (hs : ∀ i, i < m → 0 < s i)
    (h : ProtoLen m s d a) (hd : ∀ i, i < m → 0 ≤ d i) : a = 1000 := by
  obtain ⟨⟨i, hi, e⟩, _⟩ := h
  unfold protoTest at e
  rw [if_pos] at e
  · linarith
  · rcases (hd i hi).eq_or_lt with h1 | h1
    · exact Or.inl h1.symm
    · exact Or.inr (div_pos (hs i hi) h1)

theorem ProtoLen.exists {m : Nat} (hm : 0 < m) (s d : Nat → K) : ∃ a, ProtoLen m s d a := by
  obtain ⟨i, hi, hmax⟩ := exists_max_image (range m) (protoTest s d) ⟨0, mem_range.mpr hm⟩
  refine ⟨-protoTest s d i, ⟨i, mem_range.mp hi, by rw [neg_neg]⟩, ?_⟩
  rintro v ⟨j, hj, rfl⟩
  rw [neg_neg]
  exact hmax j (mem_range.mpr hj)

theorem FullStep.unblocked {m : Nat} {s d : Nat → K} {a : K} (h : FullStep m s d a)
    (hd : ∀ i, i < m → 0 ≤ d i) : a = 1 := by
  rcases h.longest with ⟨_, i, hi, hn, _⟩ | ⟨h1, _⟩
  · exact absurd hn (not_lt.mpr (hd i hi))
  · exact h1

/-! ## One pass -/

/-- Directions and centering parameter of an iteration are those of the prototype's pass from the
same point, if the lengths its predictor finds are below 1000. -/
theorem proto_same {amd : Amd} {a : SetupArgs K} {pb : Problem K} {q0 qp r : QP K}
    (h : Started amd a pb q0) (hsym : pb.P.Symm) (hr : Reach q0 qp)
    (hb : solveBody qp = .ok (r, false)) (hex : r.kkt.Exact pb.N) {t t' : ProtoSt K}
    (hi : qp.Iter pb t.x t.y t.z t.s) (hsg : qp.options.sigma = t.sigma) {a0 b0 al bl : K}
    {ds D Ds : Nat → K} (hp : pb.ProtoStep t t' a0 b0 al bl ds D Ds)
    (h0 : pb.sigma_d < t.sigma → a0 < 1000 ∧ b0 < 1000) :
    r.options.sigma = t'.sigma ∧ ∃ dx dy dz dS, Buf.Has r.delta_x pb.n dx ∧
      Buf.Has r.delta_y pb.p dy ∧ Buf.Has r.delta_z pb.m dz ∧ Buf.Has r.delta_s pb.m dS ∧
      (∀ i, i < pb.n → dx i = D i) ∧ (∀ i, i < pb.p → dy i = D (pb.n + i)) ∧
      (∀ i, i < pb.m → dz i = D (pb.n + pb.p + i)) ∧ ∀ i, i < pb.m → dS i = Ds i := by
  have hpos : pb.ProtoPos t := C16_positive h hr hi
  obtain ⟨p, q, hs, _⟩ := h.sinv hr
  obtain ⟨w, hst, _⟩ := (hs.bodyOut h.wf hb hi).step rfl
  simp only at hst
  have hinj := kkt_injective h.wf hsym hst.sym hst.fac hex
  obtain ⟨e, dx, dy, dz, dS, tgt, d1, d2, d3, d4, _, he, hlin, hA, hB⟩ :=
    C31_directions h hsym hr hb hi
  have he := he hex
  have hzp : ∀ i, i < pb.m → 0 < t.z i := fun i hm => (hpos i hm).2
  have key : r.options.sigma = t'.sigma ∧ ∀ i, i < pb.m → tgt i = ds i := by
    by_cases hc : pb.sigma_d < t.sigma
    · obtain ⟨px, py, pz, ps, ap, ad, l1, l2, l3, l4, l5⟩ := hB (by rw [hsg]; exact hc)
      obtain ⟨D0, Ds0, hpr⟩ := hp.high hc
      obtain ⟨h1, h2⟩ := h0 hc
      obtain ⟨_, _, u3, u4⟩ := l1.unique h.wf hzp hinj he (fun _ _ => rfl)
        (fun i hm => by rw [ProtoSt.lambda_sq (hpos i hm)]) (hpr.dir.linearised h.wf hpos)
      have ea := l2.unique (hpr.alpha_p.full (fun i hm => (hpos i hm).1) h1) u4
      have eb := l3.unique (hpr.alpha_d.full hzp h2) u3
      have es : r.options.sigma = t'.sigma := by
        rw [l4, hpr.sigma, ea, eb]
        have : dot pb.m (fun i => t.s i + a0 * ps i) (fun i => t.z i + b0 * pz i)
            = dot pb.m (fun i => t.s i + a0 * Ds0 i)
              (fun i => t.z i + b0 * D0 (pb.n + pb.p + i)) := by
          unfold dot
          refine sum_congr rfl fun i hm => ?_
          simp only
          rw [u3 i (mem_range.mp hm), u4 i (mem_range.mp hm)]
        rw [this]
      refine ⟨es, fun i hm => ?_⟩
      rw [l5 i hm, hpr.ds i hm, ProtoSt.lambda_sq (hpos i hm), Problem.protoMu_eq hpos, es,
        u3 i hm, u4 i hm]
      have := (ProtoSt.W_pos (hpos i hm)).ne'
      field_simp
    · obtain ⟨k1, k2⟩ := hA (by rw [hsg]; exact not_lt.mp hc)
      obtain ⟨k3, k4⟩ := hp.low hc
      refine ⟨by rw [k1, k3], fun i hm => ?_⟩
      rw [k2 i hm, k4 i hm, ProtoSt.lambda_sq (hpos i hm), Problem.protoMu_eq hpos, k3]
  obtain ⟨u1, u2, u3, u4⟩ := hlin.unique h.wf hzp hinj he (fun _ _ => rfl) key.2
    (hp.dir.linearised h.wf hpos)
  exact ⟨key.1, dx, dy, dz, dS, d1, d2, d3, d4, u1, u2, u3, u4⟩

/-- C79, one iteration: from a reachable state holding the point and the centering parameter of the
prototype, an iteration without perturbed pivot leaves the point, the centering parameter and the
step lengths the prototype computes, if the lengths the prototype finds are below 1000. -/
theorem C79_iteration {amd : Amd} {a : SetupArgs K} {pb : Problem K} {q0 qp r : QP K}
    (h : Started amd a pb q0) (hsym : pb.P.Symm) (hr : Reach q0 qp)
    (hb : solveBody qp = .ok (r, false)) (hex : r.kkt.Exact pb.N) {t t' : ProtoSt K}
    (hi : qp.Iter pb t.x t.y t.z t.s) (hsg : qp.options.sigma = t.sigma) {a0 b0 al bl : K}
    {ds D Ds : Nat → K} (hp : pb.ProtoStep t t' a0 b0 al bl ds D Ds)
    (h0 : pb.sigma_d < t.sigma → a0 < 1000 ∧ b0 < 1000) (ha : al < 1000) (hbl : bl < 1000) :
    r.Iter pb t'.x t'.y t'.z t'.s ∧ r.options.sigma = t'.sigma ∧
      r.stats.alpha_p = min (99 / 100 * al) 1 ∧ r.stats.alpha_d = min (99 / 100 * bl) 1 := by
  have hpos : pb.ProtoPos t := C16_positive h hr hi
  obtain ⟨es, dx, dy, dz, dS, d1, d2, d3, d4, u1, u2, u3, u4⟩ :=
    proto_same h hsym hr hb hex hi hsg hp h0
  obtain ⟨_, _, _, _, gx, gy, gz, gs, ap, ad, j1, j2, j3, j4, f1, f2, f3, f4, hn⟩ :=
    C17_steps h hr hb hi
  have w1 : ∀ i, i < pb.n → gx i = D i := fun i hm => by rw [j1.unique d1 hm, u1 i hm]
  have w2 : ∀ i, i < pb.p → gy i = D (pb.n + i) := fun i hm => by rw [j2.unique d2 hm, u2 i hm]
  have w3 : ∀ i, i < pb.m → gz i = D (pb.n + pb.p + i) := fun i hm => by
    rw [j3.unique d3 hm, u3 i hm]
  have w4 : ∀ i, i < pb.m → gs i = Ds i := fun i hm => by rw [j4.unique d4 hm, u4 i hm]
  have ea : r.stats.alpha_p = min (99 / 100 * al) 1 := by
    rw [f3, f1.unique (hp.alpha_p.full (fun i hm => (hpos i hm).1) ha) w4]
  have eb : r.stats.alpha_d = min (99 / 100 * bl) 1 := by
    rw [f4, f2.unique (hp.alpha_d.full (fun i hm => (hpos i hm).2) hbl) w3]
  refine ⟨⟨hn.x.congr fun i hm => ?_, hn.y.congr fun i hm => ?_, hn.z.congr fun i hm => ?_,
    hn.s.congr fun i hm => ?_⟩, es, ea, eb⟩
  · rw [w1 i hm, ea, hp.x i hm]
  · rw [w2 i hm, eb, hp.y i hm]
  · rw [w3 i hm, eb, hp.z i hm]
  · rw [w4 i hm, ea, hp.s i hm]

/-- C79, where they differ: if no slack decreases along the corrector, the prototype takes the full
step and the C code 0.99 of it. -/
theorem C79_unblocked {amd : Amd} {a : SetupArgs K} {pb : Problem K} {q0 qp r : QP K}
    (h : Started amd a pb q0) (hsym : pb.P.Symm) (hr : Reach q0 qp)
    (hb : solveBody qp = .ok (r, false)) (hex : r.kkt.Exact pb.N) {t t' : ProtoSt K}
    (hi : qp.Iter pb t.x t.y t.z t.s) (hsg : qp.options.sigma = t.sigma) {a0 b0 al bl : K}
    {ds D Ds : Nat → K} (hp : pb.ProtoStep t t' a0 b0 al bl ds D Ds)
    (h0 : pb.sigma_d < t.sigma → a0 < 1000 ∧ b0 < 1000) (hd : ∀ i, i < pb.m → 0 ≤ Ds i)
    {x y z s : Nat → K} (hi' : r.Iter pb x y z s) :
    r.stats.alpha_p = 99 / 100 ∧
      (∀ i, i < pb.n → t'.x i = t.x i + D i ∧ x i = t.x i + 99 / 100 * D i) ∧
      ∀ i, i < pb.m → t'.s i = t.s i + Ds i ∧ s i = t.s i + 99 / 100 * Ds i := by
  have hpos : pb.ProtoPos t := C16_positive h hr hi
  obtain ⟨es, dx, dy, dz, dS, d1, d2, d3, d4, u1, u2, u3, u4⟩ :=
    proto_same h hsym hr hb hex hi hsg hp h0
  obtain ⟨_, _, _, _, gx, gy, gz, gs, ap, ad, j1, j2, j3, j4, f1, f2, f3, f4, hn⟩ :=
    C17_steps h hr hb hi
  have w1 : ∀ i, i < pb.n → gx i = D i := fun i hm => by rw [j1.unique d1 hm, u1 i hm]
  have w4 : ∀ i, i < pb.m → gs i = Ds i := fun i hm => by rw [j4.unique d4 hm, u4 i hm]
  have e1 : al = 1000 := hp.alpha_p.unblocked (fun i hm => (hpos i hm).1) hd
  have e2 : ap = 1 := f1.unblocked fun i hm => by rw [w4 i hm]; exact hd i hm
  have ea : r.stats.alpha_p = 99 / 100 := by
    rw [f3, e2, mul_one]
    exact min_eq_left (by norm_num)
  have e3 : min (99 / 100 * al) 1 = 1 := by
    rw [e1]
    exact min_eq_right (by norm_num)
  refine ⟨ea, fun i hm => ⟨?_, ?_⟩, fun i hm => ⟨?_, ?_⟩⟩
  · rw [hp.x i hm, e3, one_mul]
  · rw [hi'.x.unique hn.x hm, ea, w1 i hm]
  · rw [hp.s i hm, e3, one_mul]
  · rw [hi'.s.unique hn.s hm, ea, w4 i hm]

/-- C79, the prototype's pass exists: where the C code takes a step without perturbed pivot, all
quantities of the prototype's pass from the same point are defined. -/
theorem C79_defined {amd : Amd} {a : SetupArgs K} {pb : Problem K} {q0 qp r : QP K}
    (h : Started amd a pb q0) (hsym : pb.P.Symm) (hr : Reach q0 qp)
    (hb : solveBody qp = .ok (r, false)) (hex : r.kkt.Exact pb.N) {t : ProtoSt K}
    (hi : qp.Iter pb t.x t.y t.z t.s) :
    ∃ t' a0 b0 al bl ds D Ds, pb.ProtoStep t t' a0 b0 al bl ds D Ds := by
  have hpos : pb.ProtoPos t := C16_positive h hr hi
  obtain ⟨p, q, w, e, piv, M, L, _, _, hfac, hp, _, hlin⟩ := step_linearised h hsym hr hb hi
  have he : ∀ i, i < pb.N → e i = 0 := by
    obtain ⟨M', p', L', d', hf'⟩ := hex
    exact fun i hN => hfac.unique hf' hp hN
  have hm := h.wf.m_pos
  have hdir : ∀ ds : Nat → K, ∃ D Ds, pb.ProtoDir t ds D Ds :=
    fun ds => ⟨_, _, (hlin ds).protoDir h.wf hpos he⟩
  obtain ⟨D0, Ds0, hd0⟩ := hdir (fun i => -(t.lambda i * t.lambda i))
  obtain ⟨a0, ha0⟩ := ProtoLen.exists hm t.s Ds0
  obtain ⟨b0, hb0⟩ := ProtoLen.exists hm t.z (fun i => D0 (pb.n + pb.p + i))
  have key : ∃ (sg : K) (ds : Nat → K),
      (pb.sigma_d < t.sigma → ∃ D0 Ds0, pb.ProtoPred t a0 b0 sg ds D0 Ds0) ∧
      (¬ pb.sigma_d < t.sigma → sg = pb.sigma_d ∧ ∀ i, i < pb.m →
        ds i = -(t.lambda i * t.lambda i) + sg * pb.protoMu t) := by
    by_cases hc : pb.sigma_d < t.sigma
    · exact ⟨_, _, fun _ => ⟨D0, Ds0, hd0, ha0, hb0, rfl, fun _ _ => rfl⟩, fun hn => absurd hc hn⟩
    · exact ⟨_, _, fun hn => absurd hn hc, fun _ => ⟨rfl, fun _ _ => rfl⟩⟩
  obtain ⟨sg, ds, k1, k2⟩ := key
  obtain ⟨D, Ds, hd⟩ := hdir ds
  obtain ⟨al, hal⟩ := ProtoLen.exists hm t.s Ds
  obtain ⟨bl, hbl⟩ := ProtoLen.exists hm t.z (fun i => D (pb.n + pb.p + i))
  exact ⟨⟨fun i => t.x i + min (99 / 100 * al) 1 * D i,
      fun i => t.y i + min (99 / 100 * bl) 1 * D (pb.n + i),
      fun i => t.z i + min (99 / 100 * bl) 1 * D (pb.n + pb.p + i),
      fun i => t.s i + min (99 / 100 * al) 1 * Ds i, sg⟩, a0, b0, al, bl, ds, D, Ds,
    ⟨k1, k2, hd, hal, hbl, fun _ _ => rfl, fun _ _ => rfl, fun _ _ => rfl, fun _ _ => rfl⟩⟩

/-! ## The start -/

/-- C79, the starting point: setup without perturbed pivot leaves the prototype's starting point. -/
theorem C79_start {amd : Amd} {a : SetupArgs K} {pb : Problem K} {q0 : QP K}
    (h : Started amd a pb q0) (hsym : pb.P.Symm) (hex : q0.kkt.Exact pb.N) {t : ProtoSt K}
    (ht : pb.ProtoInit t) : q0.Iter pb t.x t.y t.z t.s ∧ q0.options.sigma = t.sigma := by
  have hpb := h.wf
  have eN : pb.N = pb.n + pb.p + pb.m := rfl
  obtain ⟨p, q, hd⟩ := h.done
  obtain ⟨w, hfac, _, hit⟩ := hd.iter
  have hinj := kkt_injective hpb hsym hd.kkt hfac hex
  obtain ⟨e, v, _, he, r1, r2, r3, lo, hi, m1, m2, m3, m4⟩ := C53_starting_point h hsym hit
  have he := he hex
  obtain ⟨X, hX, x1, x2⟩ := ht.solve
  obtain ⟨b1, b2, b3⟩ := (Problem.backslash_iff hpb).mp hX
  obtain ⟨ux, uy⟩ := start_unique hpb hinj (w := v) (w' := fun i => X (pb.n + pb.p + i))
    (x' := X) (y' := fun i => X (pb.n + i))
    (fun i hi => by have := r1 i hi; rwa [he i (by omega), zero_mul, add_zero] at this)
    (fun i hi => by have := r2 i hi; rwa [he _ (by omega), zero_mul, add_zero] at this)
    (fun i hi => by have := r3 i hi; rwa [he _ (by omega), zero_mul, add_zero] at this)
    b1 b2 (fun i hi => by rw [← b3 i hi]; ring)
  set x0 := sol0 pb p q w with hx0
  have ex : ∀ i, i < pb.n → x0 i = t.x i := fun i hm => by rw [ux i hm, x1 i hm]
  have eg : ∀ i, pb.G.mulVec x0 i = pb.G.mulVec t.x i := by
    intro i
    unfold Csc.mulVec
    refine sum_congr rfl fun c hc => ?_
    have hc := mem_range.mp hc
    rw [hpb.Gn] at hc
    rw [ex c hc]
  simp only [eg] at m1 m2 m3 m4
  obtain ⟨ap, hap, hs⟩ := ht.s
  obtain ⟨ad, had, hz⟩ := ht.z
  have e1 : lo = -ap := m1.unique (by
    refine ⟨?_, ?_⟩
    · obtain ⟨i, hi, e⟩ := hap.1
      exact ⟨i, hi, by rw [e]; ring⟩
    · rintro _ ⟨i, hi, rfl⟩
      exact hap.2 ⟨i, hi, by ring⟩)
  have e2 : hi = ad := m2.unique (by
    refine ⟨?_, ?_⟩
    · obtain ⟨i, hi, e⟩ := had.1
      exact ⟨i, hi, by linear_combination -e⟩
    · rintro _ ⟨i, hi, rfl⟩
      have := had.2 ⟨i, hi, rfl⟩
      linarith)
  refine ⟨⟨hit.x.congr fun i hm => ?_, hit.y.congr fun i hm => ?_, hit.z.congr fun i hm => ?_,
    hit.s.congr fun i hm => ?_⟩, ?_⟩
  · exact ex i hm
  · rw [x2 i hm]; exact uy i hm
  · rw [m4 i hm, hz i hm, e2]
    split <;> ring
  · rw [m3 i hm, hs i hm, e1]
    by_cases hc : ap < 0
    · rw [if_pos (by linarith), if_pos hc]; ring
    · rw [if_neg (by linarith), if_neg hc]; ring
  · rw [hd.options, ht.sigma]
    show Scalar.dec 100 0 = (100 : K)
    rw [LawfulScalar.dec_eq]; norm_num

/-! ## The exit test and whole runs -/

theorem Problem.norm_stack {pb : Problem K} (u v w : Nat → K) :
    dot pb.N (pb.stack u v w) (pb.stack u v w) = dot pb.n u u + dot pb.p v v + dot pb.m w w := by
  have eN : pb.N = pb.n + pb.p + pb.m := rfl
  unfold dot
  rw [eN, sum_blocks]
  congr 1
  · congr 1
    · exact sum_congr rfl fun i hi => by rw [stack_x (mem_range.mp hi)]
    · exact sum_congr rfl fun i hi => by rw [stack_y (mem_range.mp hi)]
  · exact sum_congr rfl fun i _ => by rw [stack_z]

/-- The norm of the prototype's residual vector from the norms of its blocks. -/
theorem Problem.proto_norm {pb : Problem K} {t : ProtoSt K} {nx ny nz v : K}
    (h1 : IsNorm pb.n (pb.rx t.x t.y t.z) nx) (h2 : IsNorm pb.p (pb.ry t.x) ny)
    (h3 : IsNorm pb.m (pb.rz t.x t.s) nz)
    (hv : IsNorm pb.N (pb.stack (pb.protoRx t) (pb.protoRy t) (pb.protoRz t)) v) :
    v * v = nx * nx + ny * ny + nz * nz := by
  rw [hv.2, Problem.norm_stack, h1.2, h2.2, h3.2]
  unfold dot
  congr 1
  · congr 1
    · exact sum_congr rfl fun i _ => by simp only [Problem.protoRx, Problem.rx]; ring
    · exact sum_congr rfl fun i _ => by simp only [Problem.protoRy, Problem.ry]; ring
  · exact sum_congr rfl fun i _ => by simp only [Problem.protoRz, Problem.rz]; ring

/-- C79, the exit test: where the C code stops, the norm of the prototype's residual vector is below
`reltol` and its average complementarity below `abstol`; if both are at most `1e-6`, their defaults,
the prototype stops. -/
theorem C79_exit {amd : Amd} {a : SetupArgs K} {pb : Problem K} {q0 qp r : QP K}
    (h : Started amd a pb q0) (hr : Reach q0 qp) (hb : solveBody qp = .ok (r, true))
    {t : ProtoSt K} (hi : qp.Iter pb t.x t.y t.z t.s) :
    (∃ v, IsNorm pb.N (pb.stack (pb.protoRx t) (pb.protoRy t) (pb.protoRz t)) v ∧
      v < qp.options.reltol) ∧ dot pb.m t.s t.z / (pb.m : K) < qp.options.abstol ∧
    (qp.options.reltol ≤ 1 / 10 ^ 6 → qp.options.abstol ≤ 1 / 10 ^ 6 → pb.ProtoExit t) := by
  obtain ⟨w, w0, w3⟩ := sqrt3_exists (K := K)
  have hw : 0 < w := lt_of_le_of_ne w0 (by rintro rfl; norm_num at w3)
  obtain ⟨nx, ny, nz, mu, _, _, _, _, ix, iy, iz, em, hiff⟩ := C18_residuals h hr hb hi w0 w3
  obtain ⟨e1, e2, e3, e4⟩ := hiff.mp rfl
  have hN := nrmF_isNorm pb.N (pb.stack (pb.protoRx t) (pb.protoRy t) (pb.protoRz t))
  have hv := Problem.proto_norm ix iy iz hN
  set v := nrmF pb.N (pb.stack (pb.protoRx t) (pb.protoRy t) (pb.protoRz t))
  set u := qp.options.reltol / w with hu
  have e5 : u * w = qp.options.reltol := div_mul_cancel₀ _ hw.ne'
  have k1 := mul_self_lt_mul_self ix.1 e1
  have k2 := mul_self_lt_mul_self iy.1 e2
  have k3 := mul_self_lt_mul_self iz.1 e3
  have hu0 : 0 < u := lt_of_le_of_lt ix.1 e1
  have k4 : v * v < (u * w) * (u * w) := by
    have : (u * w) * (u * w) = u * u * 3 := by rw [← w3]; ring
    rw [hv, this]; linarith
  have k5 : v < u * w := lt_of_mul_self_lt_mul_self₀ (mul_pos hu0 hw).le k4
  rw [em] at e4
  exact ⟨⟨v, hN, by linarith⟩, e4, fun h1 h2 => ⟨⟨v, hN, by linarith⟩, by linarith⟩⟩

/-- C79, the exit test, the other way: where the norm of the prototype's residual vector is below
`reltol / sqrt 3` and its average complementarity below `abstol`, the C code stops. -/
theorem C79_exit_back {amd : Amd} {a : SetupArgs K} {pb : Problem K} {q0 qp r : QP K} {brk : Bool}
    (h : Started amd a pb q0) (hr : Reach q0 qp) (hb : solveBody qp = .ok (r, brk)) {t : ProtoSt K}
    (hi : qp.Iter pb t.x t.y t.z t.s) {w v : K} (w0 : 0 ≤ w) (w3 : w * w = 3)
    (hv : IsNorm pb.N (pb.stack (pb.protoRx t) (pb.protoRy t) (pb.protoRz t)) v)
    (hlt : v < qp.options.reltol / w) (hg : dot pb.m t.s t.z / (pb.m : K) < qp.options.abstol) :
    brk = true := by
  obtain ⟨nx, ny, nz, mu, _, _, _, _, ix, iy, iz, em, hiff⟩ := C18_residuals h hr hb hi w0 w3
  have hn := Problem.proto_norm ix iy iz hv
  have le : ∀ {u : K}, 0 ≤ u → u * u ≤ v * v → u < qp.options.reltol / w := fun h0 hle =>
    lt_of_le_of_lt (abs_le_of_sq_le_sq' (by rw [pow_two, pow_two]; exact hle) hv.1).2 hlt
  have q1 := mul_self_nonneg nx
  have q2 := mul_self_nonneg ny
  have q3 := mul_self_nonneg nz
  exact hiff.mpr ⟨le ix.1 (by linarith), le iy.1 (by linarith), le iz.1 (by linarith),
    by rw [em]; exact hg⟩

/-- C79, the exit test: where the prototype stops, the three residuals have norms below `1e-6` and the
average complementarity is at most `1e-6`, and the C code stops if `reltol` is at least
`sqrt 3 * 1e-6` and `abstol` above `1e-6`. -/
theorem C79_exit_proto {amd : Amd} {a : SetupArgs K} {pb : Problem K} {q0 qp r : QP K} {brk : Bool}
    (h : Started amd a pb q0) (hr : Reach q0 qp) (hb : solveBody qp = .ok (r, brk)) {t : ProtoSt K}
    (hi : qp.Iter pb t.x t.y t.z t.s) (he : pb.ProtoExit t) {w : K} (w0 : 0 ≤ w) (w3 : w * w = 3) :
    (∃ nx ny nz, IsNorm pb.n (pb.rx t.x t.y t.z) nx ∧ IsNorm pb.p (pb.ry t.x) ny ∧
      IsNorm pb.m (pb.rz t.x t.s) nz ∧ nx < 1 / 10 ^ 6 ∧ ny < 1 / 10 ^ 6 ∧ nz < 1 / 10 ^ 6) ∧
    dot pb.m t.s t.z ≤ pb.m / 10 ^ 6 ∧
    (w / 10 ^ 6 ≤ qp.options.reltol → 1 / 10 ^ 6 < qp.options.abstol → brk = true) := by
  obtain ⟨⟨v, hN, hv⟩, hg⟩ := he
  have hw : 0 < w := lt_of_le_of_ne w0 (by rintro rfl; norm_num at w3)
  have hm : (0 : K) < pb.m := Nat.cast_pos.mpr h.wf.m_pos
  obtain ⟨nx, ny, nz, _, _, _, _, _, ix, iy, iz, _, _⟩ := C18_residuals h hr hb hi w0 w3
  have hn := Problem.proto_norm ix iy iz hN
  have le : ∀ {u : K}, 0 ≤ u → u * u ≤ v * v → u < 1 / 10 ^ 6 := fun h0 hle =>
    lt_of_le_of_lt (abs_le_of_sq_le_sq' (by rw [pow_two, pow_two]; exact hle) hN.1).2 hv
  have q1 := mul_self_nonneg nx
  have q2 := mul_self_nonneg ny
  have q3 := mul_self_nonneg nz
  refine ⟨⟨nx, ny, nz, ix, iy, iz, le ix.1 (by linarith), le iy.1 (by linarith),
    le iz.1 (by linarith)⟩, ?_, fun h1 h2 => ?_⟩
  · rw [div_le_iff₀ hm] at hg
    linarith
  · refine C79_exit_back h hr hb hi w0 w3 hN ?_ (by linarith)
    rw [lt_div_iff₀ hw]
    have := mul_lt_mul_of_pos_right hv hw
    linarith

/-- C79, whole runs: `k` iterations of the C code without perturbed pivot, from the state after
setup with any options with the default centering parameter, leave the point and the centering
parameter the prototype has after `k` passes. -/
theorem C79_run {amd : Amd} {a : SetupArgs K} {pb : Problem K} {q0 qk : QP K}
    (h : Started amd a pb q0) (hsym : pb.P.Symm) (o : Settings K) (ho : o.sigma = 100) {k : Nat}
    (hk : Iterations k { q0 with options := o } qk) (hex0 : q0.kkt.Exact pb.N)
    (hex : ∀ j r, 0 < j → j ≤ k → Iterations j { q0 with options := o } r → r.kkt.Exact pb.N)
    {t0 tk : ProtoSt K} (ht : pb.ProtoInit t0) (hrun : pb.ProtoRun k t0 tk) :
    qk.Iter pb tk.x tk.y tk.z tk.s ∧ qk.options.sigma = tk.sigma := by
  induction k generalizing qk tk with
  | zero =>
    cases hk
    cases hrun
    have := (C79_start h hsym hex0 ht).1
    exact ⟨⟨this.x, this.y, this.z, this.s⟩, by rw [ht.sigma]; exact ho⟩
  | succ k ih =>
    cases hk with
    | succ hj hs =>
      cases hrun with
      | succ hrun' hstep h0 ha hb =>
        have := ih hj (fun j r h1 h2 => hex j r h1 (by omega)) hrun'
        have hr : Reach q0 { q0 with options := o } := .options o .start
        have hres := C79_iteration h hsym (hr.iterations hj) hs
          (hex (k + 1) _ (by omega) le_rfl (.succ hj hs)) this.1 this.2 hstep h0 ha hb
        exact ⟨hres.1, hres.2.1⟩

/-- With a tolerance that cannot be met an iteration takes a step. -/
theorem takes_step {amd : Amd} {a : SetupArgs K} {pb : Problem K} {q0 : QP K}
    (h : Started amd a pb q0) (sg : K) : ∃ r, solveBody { q0 with options :=
      { maxit := 1, reltol := 0, abstol := 0, sigma := sg, verbose := 0 } } = .ok (r, false) := by
  have hr : Reach q0 { q0 with options :=
      { maxit := 1, reltol := 0, abstol := 0, sigma := sg, verbose := 0 } } := .options _ .start
  obtain ⟨f, q1, h1⟩ := C22_terminates h
    { maxit := 1, reltol := 0, abstol := 0, sigma := sg, verbose := 0 } (Or.inl le_rfl)
  obtain ⟨k, qk, hk, hle, hc, h2⟩ := (C22_first_solve h _ h1).2 (by decide : (0 : Int) ≤ 1)
  rcases h2 with ⟨rfl, e1, e2⟩ | ⟨_, _, hb⟩
  · have e1 : (k : Int) = 1 := e1
    have : k = 1 := by omega
    subst this
    cases hk with
    | succ hj hs => cases hj; exact ⟨_, hs⟩
  · obtain ⟨p, q, hs, _⟩ := h.sinv hr
    refine absurd hb (no_break h (hr.iterations hk) ?_)
    rw [(hk.facts h.wf hs).2.1.reltol]

end

/-! ## An example: one pass of both -/

/-- `min x²/2 + x` subject to `x ≤ 1`, `-x ≤ 0`. -/
noncomputable def protoPb : Problem ℝ where
  P := .lit 1 1 [0, 1] [0] [1]
  A := Csc.empty 1
  G := .lit 2 1 [0, 2] [0, 1] [1, -1]
  c := fun _ => 1
  b := fun _ => 0
  h := fun i => if i = 0 then 1 else 0
  sigma_d := 0

theorem protoPb_wf : protoPb.WF :=
  { P := pairPb_wf.P, A := pairPb_wf.A, G := pairPb_wf.G, Pm := rfl, An := rfl, Gn := rfl
    rows := pairPb_wf.rows, m_pos := pairPb_wf.m_pos }

/-- Two entries. -/
noncomputable def vec2 (u v : ℝ) (i : Nat) : ℝ := if i = 0 then u else v

theorem protoPb_P (x : Nat → ℝ) : protoPb.P.mulVec x 0 = x 0 := by
  simp [protoPb, Csc.mulVec, Csc.lit, Csc.entry, sum_Ico_eq_sum_range]

theorem protoPb_A (y : Nat → ℝ) : protoPb.A.tmulVec y 0 = 0 := by
  simp [protoPb, Csc.tmulVec, Csc.empty]

theorem protoPb_Gt (w : Nat → ℝ) : protoPb.G.tmulVec w 0 = w 0 - w 1 := by
  simp [protoPb, Csc.tmulVec, Csc.lit, Csc.entry, sum_range_succ]
  ring

theorem protoPb_G0 (x : Nat → ℝ) : protoPb.G.mulVec x 0 = x 0 := by
  simp [protoPb, Csc.mulVec, Csc.lit, Csc.entry, sum_Ico_eq_sum_range, sum_range_succ]

theorem protoPb_G1 (x : Nat → ℝ) : protoPb.G.mulVec x 1 = -x 0 := by
  simp [protoPb, Csc.mulVec, Csc.lit, Csc.entry, sum_Ico_eq_sum_range, sum_range_succ]

/-- The starting point of the prototype. -/
noncomputable def protoT0 : ProtoSt ℝ := ⟨fun _ => 0, fun _ => 0, vec2 1 2, vec2 2 1, 100⟩

/-- The point after one pass. -/
noncomputable def protoT1 : ProtoSt ℝ :=
  ⟨fun _ => 1 / 7, fun _ => 0, vec2 (16 / 49) (72 / 49), vec2 (6 / 7) (1 / 7), 0⟩

theorem protoPb_pos : protoPb.ProtoPos protoT0 := by
  intro i hi
  have hi : i < 2 := hi
  interval_cases i <;> simp [protoT0, vec2]

theorem proto_init : protoPb.ProtoInit protoT0 where
  sigma := rfl
  solve := by
    refine ⟨protoPb.stack (fun _ => 0) (fun _ => 0) (vec2 (-1) 0),
      (Problem.backslash_iff protoPb_wf).mpr ⟨?_, ?_, ?_⟩, ?_, ?_⟩
    · intro i hi
      have hi : i < 1 := hi
      interval_cases i
      rw [protoPb_P, protoPb_A, protoPb_Gt, Problem.stack_x (by exact Nat.zero_lt_one)]
      show 0 + 0 + (protoPb.stack _ _ _ (protoPb.n + protoPb.p + 0) -
        protoPb.stack _ _ _ (protoPb.n + protoPb.p + 1)) = -1
      rw [Problem.stack_z, Problem.stack_z]
      norm_num [vec2]
    · exact fun i hi => absurd hi (Nat.not_lt_zero i)
    · intro i hi
      have hi : i < 2 := hi
      rw [Problem.stack_z]
      interval_cases i
      · rw [protoPb_G0, Problem.stack_x (by exact Nat.zero_lt_one)]
        norm_num [vec2, protoPb]
      · rw [protoPb_G1, Problem.stack_x (by exact Nat.zero_lt_one)]
        norm_num [vec2, protoPb]
    · intro i hi
      rw [Problem.stack_x hi]; rfl
    · exact fun i hi => absurd hi (Nat.not_lt_zero i)
  s := by
    refine ⟨0, ⟨⟨1, by decide, ?_⟩, ?_⟩, ?_⟩
    · rw [protoPb_G1]; norm_num [protoPb, protoT0]
    · rintro v ⟨i, hi, rfl⟩
      have hi : i < 2 := hi
      interval_cases i
      · rw [protoPb_G0]; norm_num [protoPb, protoT0]
      · rw [protoPb_G1]; norm_num [protoPb, protoT0]
    · intro i hi
      have hi : i < 2 := hi
      rw [if_neg (by norm_num)]
      interval_cases i
      · rw [protoPb_G0]; norm_num [protoPb, protoT0, vec2]
      · rw [protoPb_G1]; norm_num [protoPb, protoT0, vec2]
  z := by
    refine ⟨1, ⟨⟨0, by decide, ?_⟩, ?_⟩, ?_⟩
    · rw [protoPb_G0]; norm_num [protoPb, protoT0]
    · rintro v ⟨i, hi, rfl⟩
      have hi : i < 2 := hi
      interval_cases i
      · rw [protoPb_G0]; norm_num [protoPb, protoT0]
      · rw [protoPb_G1]; norm_num [protoPb, protoT0]
    · intro i hi
      have hi : i < 2 := hi
      rw [if_neg (by norm_num)]
      interval_cases i
      · rw [protoPb_G0]; norm_num [protoPb, protoT0, vec2]
      · rw [protoPb_G1]; norm_num [protoPb, protoT0, vec2]

/-- A direction of the prototype from its starting point. -/
theorem proto_dir {ds : Nat → ℝ} {u v w : ℝ} (h : u + v - w = 0)
    (h0 : -(8 / 7) + 2 * v = ds 0) (h1 : 2 * -(6 / 7) + w = ds 1) (hu : u = 1 / 7) :
    protoPb.ProtoDir protoT0 ds (protoPb.stack (fun _ => u) (fun _ => 0) (vec2 v w))
      (vec2 (-(8 / 7)) (-(6 / 7))) := by
  refine Problem.Linearised.protoDir (e := fun _ => 0) protoPb_wf protoPb_pos (fun _ _ => rfl)
    ⟨?_, ?_, ?_, ?_⟩
  · intro i hi
    have hi : i < 1 := hi
    interval_cases i
    simp only [Problem.rx, protoPb_P, protoPb_A, protoPb_Gt]
    norm_num [protoT0, vec2, protoPb]
    linarith
  · exact fun i hi => absurd hi (Nat.not_lt_zero i)
  · intro i hi
    have hi : i < 2 := hi
    interval_cases i
    · simp only [Problem.rz, protoPb_G0]
      norm_num [protoT0, vec2, protoPb, hu]
    · simp only [Problem.rz, protoPb_G1]
      norm_num [protoT0, vec2, protoPb, hu]
  · intro i hi
    have hi : i < 2 := hi
    interval_cases i
    · rw [← h0]; norm_num [protoT0, vec2]
    · rw [← h1]; norm_num [protoT0, vec2]

theorem proto_len {s d : Nat → ℝ} {a r0 r1 : ℝ} (h0 : s 0 / d 0 = r0) (h1 : s 1 / d 1 = r1)
    (n0 : d 0 < 0) (n1 : d 1 < 0) (hr0 : r0 < 0) (hr1 : r1 < 0) (ha : -a = max r0 r1) :
    ProtoLen 2 s d a := by
  have t0 : protoTest s d 0 = r0 := by
    unfold protoTest
    rw [if_neg (by push Not; exact ⟨n0.ne, by rw [h0]; exact hr0.le⟩), h0]
  have t1 : protoTest s d 1 = r1 := by
    unfold protoTest
    rw [if_neg (by push Not; exact ⟨n1.ne, by rw [h1]; exact hr1.le⟩), h1]
  rw [ProtoLen, ha]
  refine ⟨?_, ?_⟩
  · rcases le_total r0 r1 with hc | hc
    · exact ⟨1, by decide, by rw [max_eq_right hc, t1]⟩
    · exact ⟨0, by decide, by rw [max_eq_left hc, t0]⟩
  · rintro v ⟨i, hi, rfl⟩
    interval_cases i
    · rw [t0]; exact le_max_left _ _
    · rw [t1]; exact le_max_right _ _

theorem proto_step : ∃ ds D Ds,
    protoPb.ProtoStep protoT0 protoT1 (7 / 6) (7 / 3) (7 / 6) (49 / 33) ds D Ds := by
  have hl : ∀ i, i < 2 → protoT0.lambda i * protoT0.lambda i = protoT0.s i * protoT0.z i :=
    fun i hi => ProtoSt.lambda_sq (protoPb_pos i hi)
  have hW : ∀ i, i < 2 → protoT0.W i ≠ 0 := fun i hi => (ProtoSt.W_pos (protoPb_pos i hi)).ne'
  have hm : protoPb.m = 2 := rfl
  have s0 : protoT0.s 0 = 2 := rfl
  have s1 : protoT0.s 1 = 1 := rfl
  have z0 : protoT0.z 0 = 1 := rfl
  have z1 : protoT0.z 1 = 2 := rfl
  set D0 := protoPb.stack (fun _ => 1 / 7) (fun _ => 0) (vec2 (-(3 / 7)) (-(2 / 7))) with hD0
  have c0 : D0 (protoPb.n + protoPb.p + 0) = -(3 / 7) := Problem.stack_z 0
  have c1 : D0 (protoPb.n + protoPb.p + 1) = -(2 / 7) := Problem.stack_z 1
  set Ds : Nat → ℝ := vec2 (-(8 / 7)) (-(6 / 7)) with hDs
  have e0 : Ds 0 = -(8 / 7) := rfl
  have e1 : Ds 1 = -(6 / 7) := rfl
  set ds : Nat → ℝ := fun i => -(protoT0.lambda i * protoT0.lambda i)
    - 1 / protoT0.W i * Ds i * (protoT0.W i * D0 (protoPb.n + protoPb.p + i))
    + protoT1.sigma * protoPb.protoMu protoT0 with hds
  have d0 : ds 0 = -(122 / 49) := by
    simp only [hds]
    rw [hl 0 (by decide), c0, e0, s0, z0]
    have := hW 0 (by decide)
    field_simp
    simp only [protoT1]
    norm_num
  have d1 : ds 1 = -(110 / 49) := by
    simp only [hds]
    rw [hl 1 (by decide), c1, e1, s1, z1]
    have := hW 1 (by decide)
    field_simp
    simp only [protoT1]
    norm_num
  set D := protoPb.stack (fun _ => 1 / 7) (fun _ => 0) (vec2 (-(33 / 49)) (-(26 / 49))) with hD
  have f0 : D (protoPb.n + protoPb.p + 0) = -(33 / 49) := Problem.stack_z 0
  have f1 : D (protoPb.n + protoPb.p + 1) = -(26 / 49) := Problem.stack_z 1
  have g0 : D 0 = 1 / 7 := rfl
  have lp : ProtoLen protoPb.m protoT0.s Ds (7 / 6) := by
    refine proto_len (r0 := -(7 / 4)) (r1 := -(7 / 6)) ?_ ?_ ?_ ?_ ?_ ?_ ?_ <;>
      first | (simp only [s0, s1, e0, e1]; norm_num) | norm_num
  have ha : min (99 / 100 * (7 / 6)) (1 : ℝ) = 1 := by norm_num
  have hb : min (99 / 100 * (49 / 33)) (1 : ℝ) = 1 := by norm_num
  refine ⟨ds, D, Ds, ⟨fun _ => ⟨D0, Ds, ⟨?_, lp, ?_, ?_, fun _ _ => rfl⟩⟩, ?_, ?_, lp, ?_, ?_, ?_, ?_,
    ?_⟩⟩
  · exact proto_dir (by norm_num)
      (by rw [hl 0 (by decide), s0, z0]; norm_num) (by rw [hl 1 (by decide), s1, z1]; norm_num) rfl
  · refine proto_len (r0 := -(7 / 3)) (r1 := -7) ?_ ?_ ?_ ?_ ?_ ?_ ?_ <;>
      first | (simp only [z0, z1, c0, c1]; norm_num) | norm_num
  · rw [hm]
    simp only [dot, sum_range_succ, sum_range_zero, s0, s1, z0, z1, c0, c1, e0, e1]
    norm_num [protoT1, protoPb]
  · intro hn
    exact absurd (show (0 : ℝ) < 100 by norm_num) hn
  · exact proto_dir (by norm_num) (by rw [d0]; norm_num) (by rw [d1]; norm_num) rfl
  · refine proto_len (r0 := -(49 / 33)) (r1 := -(49 / 13)) ?_ ?_ ?_ ?_ ?_ ?_ ?_ <;>
      first | (simp only [z0, z1, f0, f1]; norm_num) | norm_num
  · intro i hi
    have hi : i < 1 := hi
    interval_cases i
    rw [ha, g0]
    norm_num [protoT0, protoT1]
  · exact fun i hi => absurd hi (Nat.not_lt_zero i)
  · intro i hi
    have hi : i < 2 := hi
    rw [ha]
    interval_cases i
    · rw [s0, e0]; norm_num [protoT1, vec2]
    · rw [s1, e1]; norm_num [protoT1, vec2]
  · intro i hi
    have hi : i < 2 := hi
    rw [hb]
    interval_cases i
    · rw [z0, f0]; norm_num [protoT1, vec2]
    · rw [z1, f1]; norm_num [protoT1, vec2]

theorem protoPb_symm : protoPb.P.Symm := pairPb_symm

theorem protoPb_strong : protoPb.Strong 1 := pairPb_strong

/-- C79 for the example: setup, one iteration of the C code, and the point it leaves is the one the
prototype computes, `x = 1/7`, `s = (6/7, 1/7)`, `z = (16/49, 72/49)`. -/
example : ∃ (q0 q1 : QP ℝ) (a : SetupArgs ℝ) (o : Settings ℝ), Started failAmd a protoPb q0 ∧
    Iterations 1 { q0 with options := o } q1 ∧
    q1.Iter protoPb protoT1.x protoT1.y protoT1.z protoT1.s ∧ q1.options.sigma = 0 := by
  obtain ⟨q0, h⟩ := id_started protoPb_wf rfl
  obtain ⟨r, hb⟩ := takes_step h 100
  have hex0 := C55_exact_setup h protoPb_symm one_gt_small protoPb_strong rfl
  have hi0 := (C79_start h protoPb_symm hex0 proto_init).1
  have hex := C55_exact_step h protoPb_symm one_gt_small protoPb_strong rfl (.options _ .start) hb
    (x := protoT0.x) (y := protoT0.y) (z := protoT0.z) (s := protoT0.s)
    ⟨hi0.x, hi0.y, hi0.z, hi0.s⟩ (by
      intro i hi
      have hi : i < 2 := hi
      interval_cases i <;> norm_num [protoT0, vec2])
  obtain ⟨ds, D, Ds, hst⟩ := proto_step
  have hit : Iterations 1 _ r := .succ (.zero _) hb
  have := C79_run h protoPb_symm _ rfl hit hex0 (by
      intro j r' h1 h2 h3
      have : j = 1 := by omega
      subst this
      cases h3 with
      | succ hj hs =>
        cases hj
        rw [hb] at hs
        cases hs
        exact hex) proto_init (.succ (.zero _) hst (fun _ => by norm_num) (by norm_num) (by norm_num))
  exact ⟨q0, r, _, _, h, hit, this.1, this.2⟩

/-- C79, where they differ: for `min x²/2 + x` subject to `x ≤ 1`, started without centering, the
slack grows, the prototype steps to `x = -1/2`, the C code to `x = -99/200`. -/
example : ∃ (q0 r : QP ℝ) (o : Settings ℝ) (t t' : ProtoSt ℝ) (ds D Ds : Nat → ℝ) (a0 b0 al bl : ℝ),
    Started failAmd (tinyArgs ℝ) (tinyPb ℝ) q0 ∧
    q0.Iter (tinyPb ℝ) t.x t.y t.z t.s ∧
    solveBody { q0 with options := o } = .ok (r, false) ∧
    (tinyPb ℝ).ProtoStep t t' a0 b0 al bl ds D Ds ∧ t'.x 0 = -1 / 2 ∧
    ∀ x y z s, r.Iter (tinyPb ℝ) x y z s → x 0 = -99 / 200 := by
  obtain ⟨q0, h⟩ := tiny_started ℝ
  obtain ⟨r, hb⟩ := takes_step h 0
  have hr : Reach q0 { q0 with options :=
      { maxit := 1, reltol := 0, abstol := 0, sigma := 0, verbose := 0 } } := .options _
    .start
  have eP : ∀ x : Nat → ℝ, (tinyPb ℝ).P.mulVec x 0 = x 0 := fun x => by
    simp [tinyPb, Csc.mulVec, Csc.lit, Csc.entry, sum_Ico_eq_sum_range]
  have eG : ∀ x : Nat → ℝ, (tinyPb ℝ).G.mulVec x 0 = x 0 := fun x => by
    simp [tinyPb, Csc.mulVec, Csc.lit, Csc.entry, sum_Ico_eq_sum_range]
  have eGt : ∀ x : Nat → ℝ, (tinyPb ℝ).G.tmulVec x 0 = x 0 := fun x => by
    simp [tinyPb, Csc.tmulVec, Csc.lit, Csc.entry]
  have eA : ∀ x : Nat → ℝ, (tinyPb ℝ).A.tmulVec x 0 = 0 := fun x => by
    simp [tinyPb, Csc.tmulVec, Csc.empty]
  have hinit : (tinyPb ℝ).ProtoInit ⟨fun _ => 0, fun _ => 0, fun _ => 1, fun _ => 1, 100⟩ := by
    refine ⟨rfl, ⟨(tinyPb ℝ).stack (fun _ => 0) (fun _ => 0) (fun _ => -1),
      (Problem.backslash_iff tinyPb_wf).mpr ⟨?_, ?_, ?_⟩, ?_, ?_⟩, ⟨-1, ⟨⟨0, by decide, ?_⟩, ?_⟩, ?_⟩,
      ⟨1, ⟨⟨0, by decide, ?_⟩, ?_⟩, ?_⟩⟩
    · intro i hi
      have hi : i < 1 := hi
      interval_cases i
      rw [eP, eA, eGt, Problem.stack_x (by exact Nat.zero_lt_one), Problem.stack_z]
      norm_num [tinyPb]
    · exact fun i hi => absurd hi (Nat.not_lt_zero i)
    · intro i hi
      have hi : i < 1 := hi
      interval_cases i
      rw [eG, Problem.stack_x (by exact Nat.zero_lt_one), Problem.stack_z]
      norm_num [tinyPb]
    · intro i hi; rw [Problem.stack_x hi]
    · exact fun i hi => absurd hi (Nat.not_lt_zero i)
    · rw [eG]; norm_num [tinyPb]
    · rintro v ⟨i, hi, rfl⟩
      have hi : i < 1 := hi
      interval_cases i
      rw [eG]; norm_num [tinyPb]
    · intro i hi
      have hi : i < 1 := hi
      interval_cases i
      rw [eG]; norm_num [tinyPb]
    · rw [eG]; norm_num [tinyPb]
    · rintro v ⟨i, hi, rfl⟩
      have hi : i < 1 := hi
      interval_cases i
      rw [eG]; norm_num [tinyPb]
    · intro i hi
      have hi : i < 1 := hi
      interval_cases i
      rw [eG]; norm_num [tinyPb]
  have hi0 := (C79_start h tiny_symm
    (C55_exact_setup h tiny_symm one_gt_small tinyPb_strong rfl) hinit).1
  set t : ProtoSt ℝ := ⟨fun _ => 0, fun _ => 0, fun _ => 1, fun _ => 1, 0⟩ with ht
  have hi : QP.Iter (tinyPb ℝ) { q0 with options :=
      { maxit := 1, reltol := 0, abstol := 0, sigma := 0, verbose := 0 } } t.x t.y t.z t.s :=
    ⟨hi0.x, hi0.y, hi0.z, hi0.s⟩
  have hex := tiny_exact h hr hb
  obtain ⟨t', a0, b0, al, bl, ds, D, Ds, hst⟩ := C79_defined h tiny_symm hr hb hex (t := t) hi
  have hpos : (tinyPb ℝ).ProtoPos t := C16_positive h hr hi
  have hl := hst.dir.linearised tinyPb_wf hpos
  have hlow : ¬ (tinyPb ℝ).sigma_d < t.sigma := lt_irrefl (0 : ℝ)
  obtain ⟨es, ed⟩ := hst.low hlow
  have l1 := hl.rx 0 (by decide)
  have l2 := hl.rz 0 (by decide)
  have l3 := hl.comp 0 (by decide)
  rw [ed 0 (by decide), ProtoSt.lambda_sq (hpos 0 (by decide)), es] at l3
  simp only [Problem.rx, Problem.rz, eP, eA, eG, eGt] at l1 l2
  simp only [ht, tinyPb] at l1 l2 l3
  have eD : D 0 = -1 / 2 := by linarith
  have eS : Ds 0 = 1 / 2 := by linarith
  have key := fun x y z s hi' => C79_unblocked h tiny_symm hr hb hex hi rfl hst
    (fun hc => absurd hc hlow) (by
      intro i hi
      have hi : i < 1 := hi
      interval_cases i
      rw [eS]; norm_num) (x := x) (y := y) (z := z) (s := s) hi'
  obtain ⟨p, q, hsv, _⟩ := h.sinv (hr.iterations (.succ (.zero _) hb))
  obtain ⟨x, y, z, s, hi'⟩ := hsv.iter
  refine ⟨q0, r, _, t, t', ds, D, Ds, a0, b0, al, bl, h, hi0, hb, hst, ?_, fun x y z s hi' => ?_⟩
  · rw [((key x y z s hi').2.1 0 (by decide)).1, eD]; norm_num [ht]
  · rw [((key x y z s hi').2.1 0 (by decide)).2, eD]; norm_num [ht]

/-- `min x²/2 + d² x` subject to `d x ≤ d`, with `d = 1e-7`. -/
noncomputable def nearPb : Problem ℝ where
  P := .lit 1 1 [0, 1] [0] [1]
  A := Csc.empty 1
  G := .lit 1 1 [0, 1] [0] [1 / 10 ^ 7]
  c := fun _ => 1 / 10 ^ 14
  b := fun _ => 0
  h := fun _ => 1 / 10 ^ 7
  sigma_d := 0

theorem nearPb_wf : nearPb.WF :=
  { P := tinyPb_wf.P, A := tinyPb_wf.A
    G := ⟨rfl, (tinyPb_wf (K := ℝ)).G.mono, (tinyPb_wf (K := ℝ)).G.ir_lt⟩
    Pm := rfl, An := rfl, Gn := rfl
    rows := (tinyPb_wf (K := ℝ)).rows, m_pos := Nat.zero_lt_one }

/-- C79, the exit test: with the default tolerances both programs stop at the starting point of this
problem. -/
example : ∃ (q0 r : QP ℝ) (a : SetupArgs ℝ) (t : ProtoSt ℝ), Started failAmd a nearPb q0 ∧
    q0.Iter nearPb t.x t.y t.z t.s ∧ solveBody q0 = .ok (r, true) ∧ nearPb.ProtoExit t := by
  obtain ⟨q0, h⟩ := id_started nearPb_wf rfl
  have eP : ∀ x : Nat → ℝ, nearPb.P.mulVec x 0 = x 0 := fun x => by
    simp [nearPb, Csc.mulVec, Csc.lit, Csc.entry, sum_Ico_eq_sum_range]
  have eG : ∀ x : Nat → ℝ, nearPb.G.mulVec x 0 = 1 / 10 ^ 7 * x 0 := fun x => by
    simp [nearPb, Csc.mulVec, Csc.lit, Csc.entry, sum_Ico_eq_sum_range]
  have eGt : ∀ x : Nat → ℝ, nearPb.G.tmulVec x 0 = 1 / 10 ^ 7 * x 0 := fun x => by
    simp [nearPb, Csc.tmulVec, Csc.lit, Csc.entry]
  have eA : ∀ x : Nat → ℝ, nearPb.A.tmulVec x 0 = 0 := fun x => by
    simp [nearPb, Csc.tmulVec, Csc.empty]
  set t : ProtoSt ℝ := ⟨fun _ => 0, fun _ => 0, fun _ => 1, fun _ => 1 / 10 ^ 7, 100⟩ with ht
  have hinit : nearPb.ProtoInit t := by
    refine ⟨rfl, ⟨nearPb.stack (fun _ => 0) (fun _ => 0) (fun _ => -(1 / 10 ^ 7)),
      (Problem.backslash_iff nearPb_wf).mpr ⟨?_, ?_, ?_⟩, ?_, ?_⟩,
      ⟨-(1 / 10 ^ 7), ⟨⟨0, by decide, ?_⟩, ?_⟩, ?_⟩,
      ⟨1 / 10 ^ 7, ⟨⟨0, by decide, ?_⟩, ?_⟩, ?_⟩⟩
    · intro i hi
      have hi : i < 1 := hi
      interval_cases i
      rw [eP, eA, eGt, Problem.stack_x (by exact Nat.zero_lt_one), Problem.stack_z]
      norm_num [nearPb]
    · exact fun i hi => absurd hi (Nat.not_lt_zero i)
    · intro i hi
      have hi : i < 1 := hi
      interval_cases i
      rw [eG, Problem.stack_x (by exact Nat.zero_lt_one), Problem.stack_z]
      norm_num [nearPb]
    · intro i hi; rw [Problem.stack_x hi]
    · exact fun i hi => absurd hi (Nat.not_lt_zero i)
    · rw [eG]; norm_num [nearPb, ht]
    · rintro v ⟨i, hi, rfl⟩
      have hi : i < 1 := hi
      interval_cases i
      rw [eG]; norm_num [nearPb, ht]
    · intro i hi
      have hi : i < 1 := hi
      interval_cases i
      rw [eG]; norm_num [nearPb, ht]
    · rw [eG]; norm_num [nearPb, ht]
    · rintro v ⟨i, hi, rfl⟩
      have hi : i < 1 := hi
      interval_cases i
      rw [eG]; norm_num [nearPb, ht]
    · intro i hi
      have hi : i < 1 := hi
      interval_cases i
      rw [eG]; norm_num [nearPb, ht]
  have hst : nearPb.Strong 1 := by
    intro v
    simp [dot, Csc.mulVec, Problem.n, nearPb, Csc.lit, Csc.entry, sum_Ico_eq_sum_range]
  have hsym : nearPb.P.Symm := (tiny_symm (K := ℝ))
  have hi0 := (C79_start h hsym (C55_exact_setup h hsym one_gt_small hst rfl) hinit).1
  obtain ⟨p, q, hd⟩ := h.done
  have hopt := hd.options
  have er : q0.options.reltol = 1 / 10 ^ 6 := by
    rw [hopt]; show Scalar.dec 1 6 = _; rw [LawfulScalar.dec_eq]; norm_num
  have ea : q0.options.abstol = 1 / 10 ^ 6 := by
    rw [hopt]; show Scalar.dec 1 6 = _; rw [LawfulScalar.dec_eq]; norm_num
  obtain ⟨r, brk, hb⟩ : ∃ r brk, solveBody q0 = .ok (r, brk) := by
    obtain ⟨⟨⟨r, brk⟩, hb⟩, _⟩ := C26_solve h .start (Or.inl (by rw [hopt]; rfl))
    exact ⟨r, brk, hb⟩
  have hm : nearPb.m = 1 := rfl
  have hbrk := C79_exit_back h .start hb hi0 (w := Real.sqrt 3) (Real.sqrt_nonneg _)
    (Real.mul_self_sqrt (by norm_num)) (v := 1 / 10 ^ 7 + 1 / 10 ^ 14) (by
      refine ⟨by norm_num, ?_⟩
      rw [Problem.norm_stack]
      show _ = dot 1 _ _ + dot 0 _ _ + dot 1 _ _
      simp only [dot, sum_range_one, sum_range_zero, Problem.protoRx, Problem.protoRz, eP, eG, eGt, eA]
      norm_num [nearPb, ht]) (by
      rw [er, lt_div_iff₀ (by positivity)]
      have : Real.sqrt 3 < 2 := by
        rw [Real.sqrt_lt' (by norm_num)]; norm_num
      nlinarith) (by
      rw [hm, ea]
      norm_num [dot, ht])
  subst hbrk
  exact ⟨q0, r, _, t, h, hi0, hb, (C79_exit h .start hb hi0).2.2 er.le ea.le⟩

end Verif
