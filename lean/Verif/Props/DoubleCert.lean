import Verif.Props.DoubleValue

/-!
# Infeasible, unbounded and strongly convex problems in double precision (C78)
-/

set_option exponentiation.threshold 2200

set_option linter.unusedSectionVars false

namespace Verif

open Finset Ieee

/-! ## Specification -/

/-- The residual tolerance that exit code 0 guarantees in double precision: `reltol / √3`, enlarged by a
thousandth and by the rounding errors of the residuals. -/
noncomputable def Problem.doubleTol (pb : Problem F64) (reltol : F64) (x y z s : Nat → F64) : ℝ :=
  1.001 * (|toR reltol| / √3) + 1 / 2 ^ 498 + pb.doubleErr x y z s

/-! ## C78 -/

/-- **C78**, infeasible constraints: if a solve in double precision returns 0 and slacks and multipliers are
positive although the problem, read as real numbers, has a certificate of infeasibility, then the norm of
the certificate exceeds the inverse of the tolerance. -/
theorem C78_infeasible {amd : Amd} {a : SetupArgs F64} {pb : Problem F64} {q0 qp qp' : QP F64}
    (h : Started amd a pb q0) (hr : Reach q0 qp) (hf : qp.stats.Flag ≠ 0)
    (hs : QP_SOLVE qp = .ok (0, qp')) (hN : pb.N < 2 ^ 40)
    (hnz : pb.P.nnz + pb.A.nnz + pb.G.nnz < 2 ^ 40)
    (htol : fin (qp.options.reltol / Scalar.sqrt (Scalar.dec 3 0))) (habs : fin qp.options.abstol)
    {y' z' : Nat → ℝ} (hc : pb.real.PrimalCert y' z') {ny nz : ℝ} (hy : IsNorm pb.p y' ny)
    (hz : IsNorm pb.m z' nz) :
    ∃ x y z s, qp'.Iter pb x y z s ∧ ((∀ i, i < pb.m → 0 < toR (s i) ∧ 0 < toR (z i)) →
      1 < pb.doubleTol qp.options.reltol x y z s * (ny + nz)) := by
  obtain ⟨x, y, z, s, hi, hap, _⟩ := C75_exit_zero h hr hf hs hN hnz htol habs
  exact ⟨x, y, z, s, hi, fun hpos => (hap hpos).no_primalCert h.wf.real hc hy hz⟩

/-- **C78**, unbounded objective: likewise for a certificate of unboundedness. -/
theorem C78_unbounded {amd : Amd} {a : SetupArgs F64} {pb : Problem F64} {q0 qp qp' : QP F64}
    (h : Started amd a pb q0) (hr : Reach q0 qp) (hf : qp.stats.Flag ≠ 0)
    (hs : QP_SOLVE qp = .ok (0, qp')) (hN : pb.N < 2 ^ 40)
    (hnz : pb.P.nnz + pb.A.nnz + pb.G.nnz < 2 ^ 40)
    (htol : fin (qp.options.reltol / Scalar.sqrt (Scalar.dec 3 0))) (habs : fin qp.options.abstol)
    (hsym : pb.real.P.Symm) {d : Nat → ℝ} (hc : pb.real.DualCert d) {nd : ℝ} (hd : IsNorm pb.n d nd) :
    ∃ x y z s, qp'.Iter pb x y z s ∧ ((∀ i, i < pb.m → 0 < toR (s i) ∧ 0 < toR (z i)) →
      1 < pb.doubleTol qp.options.reltol x y z s * nd) := by
  obtain ⟨x, y, z, s, hi, hap, _⟩ := C75_exit_zero h hr hf hs hN hnz htol habs
  exact ⟨x, y, z, s, hi, fun hpos => (hap hpos).no_dualCert h.wf.real hsym hc hd⟩

/-- **C78**, strongly convex problems: exit code 0 bounds the distance of the returned point to the
solution. `nx`, `ny`, `nz` are the norms of the distances of the point and of its multipliers to the
solution and its multipliers. -/
theorem C78_distance {amd : Amd} {a : SetupArgs F64} {pb : Problem F64} {q0 qp qp' : QP F64}
    (h : Started amd a pb q0) (hr : Reach q0 qp) (hf : qp.stats.Flag ≠ 0)
    (hs : QP_SOLVE qp = .ok (0, qp')) (hN : pb.N < 2 ^ 40)
    (hnz : pb.P.nnz + pb.A.nnz + pb.G.nnz < 2 ^ 40)
    (htol : fin (qp.options.reltol / Scalar.sqrt (Scalar.dec 3 0))) (habs : fin qp.options.abstol)
    {eps : ℝ} (hP : pb.real.Strong eps) {x' y' z' s' : Nat → ℝ} (ho : pb.real.Optimal x' y' z' s') :
    ∃ x y z s, qp'.Iter pb x y z s ∧ ((∀ i, i < pb.m → 0 < toR (s i) ∧ 0 < toR (z i)) →
      ∀ nx ny nz, IsNorm pb.n (fun i => toR (x i) - x' i) nx →
        IsNorm pb.p (fun i => toR (y i) - y' i) ny → IsNorm pb.m (fun i => toR (z i) - z' i) nz →
        eps * nx ^ 2 ≤ pb.m * (1.001 * |toR qp.options.abstol| + 1 / 2 ^ 1000)
          + pb.doubleTol qp.options.reltol x y z s * (nx + ny + nz)) := by
  obtain ⟨x, y, z, s, hi, hap, _⟩ := C75_exit_zero h hr hf hs hN hnz htol habs
  refine ⟨x, y, z, s, hi, fun hpos nx ny nz hx hy hz => ?_⟩
  have := (hap hpos).close h.wf.real ho hx hy hz
  have e := hP (fun i => toR (x i) - x' i)
  have hx2 : nx * nx = dot pb.real.n (fun i => toR (x i) - x' i) (fun i => toR (x i) - x' i) := hx.2
  rw [← hx2] at e
  calc eps * nx ^ 2 = eps * (nx * nx) := by ring
    _ ≤ _ := e.trans this

/-! ## Examples -/

/-- `minimise x²/2 + x subject to 3x ≤ -1, -4x ≤ -1` in double precision. -/
def clash64 : Problem F64 where
  P := .lit 1 1 [0, 1] [0] [Scalar.dec 1 0]
  A := Csc.empty 1
  G := .lit 2 1 [0, 2] [0, 1] [Scalar.dec 3 0, Scalar.dec (-4) 0]
  c := fun _ => Scalar.dec 1 0
  b := fun _ => 0
  h := fun _ => Scalar.dec (-1) 0
  sigma_d := 0

/-- `minimise -x subject to -x ≤ 1` in double precision. -/
def free64 : Problem F64 where
  P := .lit 1 1 [0, 0] [] []
  A := Csc.empty 1
  G := .lit 1 1 [0, 1] [0] [Scalar.dec (-1) 0]
  c := fun _ => Scalar.dec (-1) 0
  b := fun _ => 0
  h := fun _ => Scalar.dec 1 0
  sigma_d := 0

theorem clash64_wf : clash64.WF where
  P := by
    refine ⟨rfl, ?_, ?_⟩
    · intro c hc; simp only [clash64, Csc.lit] at hc ⊢; interval_cases c; decide
    · intro k hk
      have hk : k < 1 := hk
      interval_cases k; exact Nat.zero_lt_one
  A := ⟨rfl, fun _ _ => le_rfl, fun _ hk => absurd hk (by simp [clash64, Csc.empty])⟩
  G := by
    refine ⟨rfl, ?_, ?_⟩
    · intro c hc; simp only [clash64, Csc.lit] at hc ⊢; interval_cases c; decide
    · intro k hk
      have hk : k < 2 := hk
      interval_cases k
      · exact Nat.zero_lt_two
      · exact Nat.one_lt_two
  Pm := rfl
  An := rfl
  Gn := rfl
  rows := by
    intro r hr
    have hr : r < 2 := hr
    interval_cases r
    · exact ⟨0, by simp [clash64, Csc.lit], rfl⟩
    · exact ⟨1, by simp [clash64, Csc.lit], rfl⟩
  m_pos := Nat.zero_lt_two

theorem free64_wf : free64.WF where
  P := by
    refine ⟨rfl, ?_, ?_⟩
    · intro c hc; simp only [free64, Csc.lit] at hc ⊢; interval_cases c; decide
    · intro k hk
      have hk : k < 0 := hk
      omega
  A := ⟨rfl, fun _ _ => le_rfl, fun _ hk => absurd hk (by simp [free64, Csc.empty])⟩
  G := by
    refine ⟨rfl, ?_, ?_⟩
    · intro c hc; simp only [free64, Csc.lit] at hc ⊢; interval_cases c; decide
    · intro k hk
      have hk : k < 1 := hk
      interval_cases k; exact Nat.zero_lt_one
  Pm := rfl
  An := rfl
  Gn := rfl
  rows := by
    intro r hr
    have hr : r < 1 := hr
    interval_cases r
    exact ⟨0, by simp [free64, Csc.lit], rfl⟩
  m_pos := Nat.zero_lt_one

theorem F64.toR_dec (m : Int) (h : m.natAbs ≤ 2 ^ 53) : Ieee.toR (Scalar.dec m 0 : F64) = m :=
  (F64.toR_int m h).2

theorem clash64_cert : clash64.real.PrimalCert (fun _ => 0) (fun i => if i = 0 then 4 / 7 else 3 / 7) where
  nonneg := by intro i _; split <;> norm_num
  orth := by
    intro i hi
    have hi : i < 1 := hi
    have : i = 0 := by omega
    subst this
    have e0 : clash64.real.G.entry 0 0 = 3 := by
      show (∑ k ∈ Ico 0 2, if [0, 1].getD k 0 = 0
        then toR ([Scalar.dec 3 0, Scalar.dec (-4) 0].getD k (0 : F64)) else 0) = 3
      have := F64.toR_dec 3 (by norm_num)
      simp [sum_range_succ, this]
    have e1 : clash64.real.G.entry 1 0 = -4 := by
      show (∑ k ∈ Ico 0 2, if [0, 1].getD k 0 = 1
        then toR ([Scalar.dec 3 0, Scalar.dec (-4) 0].getD k (0 : F64)) else 0) = -4
      have := F64.toR_dec (-4) (by norm_num)
      simp [sum_range_succ, this]
    have e2 : clash64.real.A.tmulVec (fun _ => 0) 0 = 0 := rfl
    rw [e2]
    unfold Csc.tmulVec
    rw [show clash64.real.G.m = 2 from rfl, sum_range_succ, sum_range_one, e0, e1]
    norm_num
  value := by
    have e : clash64.real.h = fun _ => -1 := by
      funext i
      show toR (Scalar.dec (-1) 0 : F64) = -1
      rw [F64.toR_dec (-1) (by norm_num)]
      norm_num
    unfold dot
    rw [show clash64.real.p = 0 from rfl, show clash64.real.m = 2 from rfl, sum_range_zero,
      sum_range_succ, sum_range_one, e]
    norm_num

theorem free64_symm : free64.real.P.Symm := by
  intro r c hr hc
  have hr : r < 1 := hr
  have hc : c < 1 := hc
  have : r = c := by omega
  rw [this]

theorem free64_cert : free64.real.DualCert (fun _ => 1) where
  flat := by
    intro i hi
    have hi : i < 1 := hi
    have : i = 0 := by omega
    subst this
    show ∑ c ∈ range 1, free64.real.P.entry 0 c * 1 = 0
    rw [sum_range_one]
    show (∑ k ∈ Ico 0 0, _) * (1 : ℝ) = 0
    simp
  eqs := fun i hi => absurd hi (Nat.not_lt_zero i)
  ineqs := by
    intro i hi
    have hi : i < 1 := hi
    have : i = 0 := by omega
    subst this
    show ∑ c ∈ range 1, free64.real.G.entry 0 c * 1 ≤ 0
    rw [sum_range_one]
    show (∑ k ∈ Ico 0 1, if (0 : ℕ) = 0 then toR (Scalar.dec (-1) 0 : F64) else 0) * (1 : ℝ) ≤ 0
    rw [F64.toR_dec (-1) (by norm_num)]
    simp
  slope := by
    show ∑ i ∈ range 1, toR (Scalar.dec (-1) 0 : F64) * 1 = -1
    rw [F64.toR_dec (-1) (by norm_num)]
    simp

/-- the default options with very loose tolerances -/
def looseOpt (t : Int) (o : Settings F64) : Settings F64 :=
  { o with reltol := Scalar.dec t 0, abstol := Scalar.dec 10 0 }

/-- a first solve with loose tolerances -/
def looseRun (pb : Problem F64) (t : Int) : Bool :=
  match QP_SETUP failAmd (pb.args none) with
  | .ok q0 => match QP_SOLVE { q0 with options := looseOpt t q0.options } with
    | .ok (0, q1) => q0.stats.Flag != 0 && ((Scalar.dec t 0 : F64) / Scalar.sqrt (Scalar.dec 3 0)).ok true &&
        (Scalar.dec 10 0 : F64).ok true && Buf.allOk true q1.z && Buf.allOk true q1.s &&
        (q1.z.all fun o => match o with | some v => Scalar.ltb 0 v | none => false) &&
        (q1.s.all fun o => match o with | some v => Scalar.ltb 0 v | none => false) &&
        q1.stats.IterationCount == 1
    | _ => false
  | .error _ => false

theorem looseRun_clash : looseRun clash64 4 = true := by decide +kernel

theorem looseRun_free : looseRun free64 2 = true := by decide +kernel

theorem args_started {pb : Problem F64} (hw : pb.WF) (hA : pb.A = Csc.empty pb.n) : ∃ q0, Started failAmd (pb.args none) pb q0 := by
  have hp : PermSource failAmd none (pb.args none).p pb := Or.inr ⟨rfl, failAmd_safe, Or.inl rfl⟩
  have hg := Problem.args_give pb none (fun _ => hA)
  obtain ⟨q0, h⟩ := C26_setup hw hg hp
  exact ⟨q0, hw, hg, hp, h⟩

theorem looseRun_facts {pb : Problem F64} {t : Int} (hw : pb.WF) (hA : pb.A = Csc.empty pb.n)
    (hrun : looseRun pb t = true) :
    ∃ q0 q1, Started failAmd (pb.args none) pb q0 ∧ q0.stats.Flag ≠ 0 ∧
      QP_SOLVE { q0 with options := looseOpt t q0.options } = .ok (0, q1) ∧
      q1.stats.IterationCount = 1 ∧ fin ((Scalar.dec t 0 : F64) / Scalar.sqrt (Scalar.dec 3 0)) ∧
      fin (Scalar.dec 10 0 : F64) ∧
      ∀ x y z s, q1.Iter pb x y z s → ∀ i, i < pb.m → 0 < toR (s i) ∧ 0 < toR (z i) := by
  obtain ⟨q0, h⟩ := args_started hw hA
  unfold looseRun at hrun
  rw [h.ok] at hrun
  dsimp only at hrun
  split at hrun
  case h_2 => exact absurd hrun Bool.false_ne_true
  case h_1 q1 hq1 =>
  simp only [Bool.and_eq_true, bne_iff_ne, ne_eq, beq_iff_eq] at hrun
  obtain ⟨⟨⟨⟨⟨⟨⟨c1, c2⟩, c3⟩, c4⟩, c5⟩, c6⟩, c7⟩, c8⟩ := hrun
  exact ⟨q0, q1, h, c1, hq1, c8, (F64.ok_fin c2).1, (F64.ok_fin c3).1, fun x y z s hi i hm =>
    ⟨allPos_has c7 hi.s hm (Buf.allOk_has c5 hi.s hm).1, allPos_has c6 hi.z hm (Buf.allOk_has c4 hi.z hm).1⟩⟩

/-- C78, infeasible: with `reltol = 4` the solver reports success on two clashing bounds after one
iteration; the tolerance is indeed above `7/5`. -/
example : ∃ q0 q1 x y z s, Started failAmd (clash64.args none) clash64 q0 ∧
    QP_SOLVE { q0 with options := looseOpt 4 q0.options } = .ok (0, q1) ∧ q1.stats.IterationCount = 1 ∧
    q1.Iter clash64 x y z s ∧ 1 < clash64.doubleTol (Scalar.dec 4 0) x y z s * (0 + 5 / 7) := by
  obtain ⟨q0, q1, h, hf, hq, h1, t1, t2, hpos⟩ := looseRun_facts clash64_wf rfl looseRun_clash
  obtain ⟨x, y, z, s, hi, hb⟩ := C78_infeasible h (.options (looseOpt 4 q0.options) .start) hf hq
    (by have : clash64.N = 3 := rfl
        omega)
    (by have : clash64.P.nnz + clash64.A.nnz + clash64.G.nnz = 3 := rfl
        omega) t1 t2 clash64_cert (ny := 0) (nz := 5 / 7) (IsNorm.empty _) ⟨by norm_num, by
      unfold dot
      rw [show clash64.m = 2 from rfl, sum_range_succ, sum_range_one]
      norm_num⟩
  exact ⟨q0, q1, x, y, z, s, h, hq, h1, hi, hb (hpos x y z s hi)⟩

/-- C78, unbounded: likewise with `reltol = 2`. -/
example : ∃ q0 q1 x y z s, Started failAmd (free64.args none) free64 q0 ∧
    QP_SOLVE { q0 with options := looseOpt 2 q0.options } = .ok (0, q1) ∧ q1.stats.IterationCount = 1 ∧
    q1.Iter free64 x y z s ∧ 1 < free64.doubleTol (Scalar.dec 2 0) x y z s * 1 := by
  obtain ⟨q0, q1, h, hf, hq, h1, t1, t2, hpos⟩ := looseRun_facts free64_wf rfl looseRun_free
  obtain ⟨x, y, z, s, hi, hb⟩ := C78_unbounded h (.options (looseOpt 2 q0.options) .start) hf hq
    (by have : free64.N = 2 := rfl
        omega)
    (by have : free64.P.nnz + free64.A.nnz + free64.G.nnz = 1 := rfl
        omega) t1 t2 free64_symm free64_cert (nd := 1) ⟨by norm_num, by
      unfold dot
      rw [show free64.n = 1 from rfl, sum_range_one]⟩
  exact ⟨q0, q1, x, y, z, s, h, hq, h1, hi, hb (hpos x y z s hi)⟩

theorem dblPb_strong : dblPb.real.Strong 3 := by
  intro w
  show 3 * ∑ i ∈ range 1, w i * w i ≤ ∑ i ∈ range 1, w i * dblPb.real.P.mulVec w i
  have e : dblPb.real.P.mulVec w 0 = 3 * w 0 := by
    have h3 := F64.toR_dec 3 (by norm_num)
    show ∑ c ∈ range 1, dblPb.real.P.entry 0 c * w c = _
    rw [sum_range_one]
    show (∑ k ∈ Ico 0 1, if (0 : ℕ) = 0 then toR (Scalar.dec 3 0 : F64) else 0) * w 0 = _
    rw [h3]
    simp
  rw [sum_range_one, sum_range_one, e]
  linarith

/-- C78, distance: a run with the default tolerances that ends with code 0. -/
example : ∃ q0 q1 x y z s x' y' z' s', Started failAmd (dblPb.args none) dblPb q0 ∧
    QP_SOLVE q0 = .ok (0, q1) ∧ q1.Iter dblPb x y z s ∧ dblPb.real.Optimal x' y' z' s' ∧
    ∀ nx nz, IsNorm dblPb.n (fun i => toR (x i) - x' i) nx →
      IsNorm dblPb.m (fun i => toR (z i) - z' i) nz →
      3 * nx ^ 2 ≤ 1 * (1.001 * |toR q0.options.abstol| + 1 / 2 ^ 1000)
          + dblPb.doubleTol q0.options.reltol x y z s * (nx + 0 + nz) := by
  obtain ⟨q0, h⟩ := dblPb_started
  obtain ⟨x', y', z', s', ho⟩ := dblPb_optimal
  have hrun := dblValue_true
  unfold dblValue at hrun
  rw [h.ok] at hrun
  dsimp only at hrun
  split at hrun
  case h_2 => exact absurd hrun Bool.false_ne_true
  case h_1 q1 hq1 =>
  simp only [Bool.and_eq_true, bne_iff_ne, ne_eq] at hrun
  obtain ⟨⟨⟨⟨⟨⟨⟨c1, c2⟩, c3⟩, c4⟩, c5⟩, c6⟩, c7⟩, c8⟩ := hrun
  obtain ⟨x, y, z, s, hi, hb⟩ := C78_distance h .start c1 hq1 (by
    have : dblPb.N = 2 := rfl
    omega) (by
    have : dblPb.P.nnz + dblPb.A.nnz + dblPb.G.nnz = 2 := rfl
    omega) (F64.ok_fin c2).1 (F64.ok_fin c3).1 dblPb_strong ho
  refine ⟨q0, q1, x, y, z, s, x', y', z', s', h, hq1, hi, ho, fun nx nz h1 h2 => ?_⟩
  have := hb (fun i hm => ⟨allPos_has c7 hi.s hm (Buf.allOk_has c5 hi.s hm).1,
    allPos_has c6 hi.z hm (Buf.allOk_has c4 hi.z hm).1⟩) nx 0 nz h1 (IsNorm.empty _) h2
  have e : (dblPb.m : ℝ) = 1 := by rw [show dblPb.m = 1 from rfl]; norm_num
  rwa [e] at this

end Verif
