import Verif.Props.EqPivots
import Verif.Props.StepEffect

/-!
# C97: whole runs with equality constraints
-/

set_option linter.unusedSectionVars false

namespace Verif

open Finset

section

variable {K : Type} [Field K] [LinearOrder K] [IsStrictOrderedRing K] [Scalar K] [LawfulScalar K]

/-- Independence for some weights implies independence for larger ones. -/
theorem Problem.EqIndep.mono {pb : Problem K} {w w' : Nat → K} (h : pb.EqIndep w)
    (hw : ∀ i, i < pb.m → w i ≤ w' i) : pb.EqIndep w' := by
  intro x y z hrow k hk hy
  refine lt_of_lt_of_le (h x y z hrow k hk hy) ?_
  have : ∑ i ∈ range pb.m, w i * (z i * z i) ≤ ∑ i ∈ range pb.m, w' i * (z i * z i) :=
    sum_le_sum fun i hi => mul_le_mul_of_nonneg_right (hw i (mem_range.mp hi)) (mul_self_nonneg _)
  linarith

/-- In the first `k` iterations from `a` no ratio of slack to multiplier is below `om`. -/
def RatiosAbove (pb : Problem K) (om : K) (k : Nat) (a : QP K) : Prop :=
  ∀ j b x y z s, j < k → Iterations j a b → b.Iter pb x y z s → ∀ i, i < pb.m → om ≤ s i / z i

/-- **C97**, exactness of a run: variables before equality constraints, constraints independent, ratios of slack to
multiplier not below `om`. -/
theorem C97_exact_run {amd : Amd} {a : SetupArgs K} {pb : Problem K} {q0 : QP K}
    (h : Started amd a pb q0) (hsym : pb.P.Symm) {eps om : K} (heps : 1 / 10 ^ 14 < eps)
    (hP : pb.Strong eps) (hv : VarsFirst pb q0.kkt.P) (hom : 1 / 10 ^ 14 < om) (hom1 : om ≤ 1)
    (hind : pb.EqIndep (fun _ => om)) (o : Settings K) {k : Nat}
    (hrat : RatiosAbove pb om k { q0 with options := o }) :
    q0.kkt.Exact pb.N ∧ ExactRun pb.N k { q0 with options := o } := by
  refine ⟨C96_exact_setup h hsym heps hP hv (hind.mono fun _ _ => hom1), fun j b h1 h2 h3 => ?_⟩
  cases h3 with
  | zero => omega
  | @succ j _ b c hj hb =>
    have hrb : Reach q0 b := Reach.iterations (.options o .start) hj
    obtain ⟨_, _, hs, _⟩ := h.sinv hrb
    obtain ⟨x1, y1, z1, s1, hi1⟩ := hs.iter
    have hr := hrat j b _ _ _ _ (by omega) hj hi1
    exact C96_exact_step h hsym heps hP hv hrb hb hi1 (fun i hm => lt_of_lt_of_le hom (hr i hm)) (hind.mono hr)

section Sqrt

variable [LawfulSqrt K]

/-- **C97**, feasibility: every iterate of such a run satisfies the equality constraints exactly and violates all
equations `G x + s = h` by the same number, which setup's shift bounds. -/
theorem C97_feasible {amd : Amd} {a : SetupArgs K} {pb : Problem K} {q0 qk : QP K}
    (h : Started amd a pb q0) (hsym : pb.P.Symm) {eps om : K} (heps : 1 / 10 ^ 14 < eps)
    (hP : pb.Strong eps) (hv : VarsFirst pb q0.kkt.P) (hom : 1 / 10 ^ 14 < om) (hom1 : om ≤ 1)
    (hind : pb.EqIndep (fun _ => om)) (o : Settings K) {k : Nat}
    (hrat : RatiosAbove pb om k { q0 with options := o })
    (hk : Iterations k { q0 with options := o } qk) {x y z s x0 y0 z0 s0 : Nat → K}
    (hi : qk.Iter pb x y z s) (hi0 : q0.Iter pb x0 y0 z0 s0) :
    (∀ i, i < pb.p → pb.A.mulVec x i = pb.b i) ∧
    ∃ v lo : K, IsLeast {v | ∃ i, i < pb.m ∧ v = pb.h i - pb.G.mulVec x0 i} lo ∧
      0 ≤ v ∧ (∀ i, i < pb.m → pb.G.mulVec x i + s i = pb.h i + v) ∧
      (lo ≤ 0 → v ≤ 1 - lo) ∧
      (0 < lo → v = 0 ∧ ∀ i, i < pb.m → pb.G.mulVec x i < pb.h i) := by
  obtain ⟨h1, h2⟩ := C97_exact_run h hsym heps hP hv hom hom1 hind o hrat
  exact C81_feasible h hsym o hk h1 h2 hi hi0

/-- **C97**, orderings: two runs whose orderings both take variables before equality constraints return the same
result; a condition on the points of the first run is enough. -/
theorem C97_ordering {amd amd' : Amd} {a a' : SetupArgs K} {pb : Problem K}
    {q0 q0' q1 q1' : QP K} {f f' : Int} (h : Started amd a pb q0) (h' : Started amd' a' pb q0')
    (hsym : pb.P.Symm) {eps om : K} (heps : 1 / 10 ^ 14 < eps) (hP : pb.Strong eps)
    (hv : VarsFirst pb q0.kkt.P) (hv' : VarsFirst pb q0'.kkt.P) (hom : 1 / 10 ^ 14 < om) (hom1 : om ≤ 1)
    (hind : pb.EqIndep (fun _ => om))
    (o : Settings K) (hs : QP_SOLVE { q0 with options := o } = .ok (f, q1))
    (hs' : QP_SOLVE { q0' with options := o } = .ok (f', q1'))
    (hrat : RatiosAbove pb om o.maxit.toNat { q0 with options := o }) :
    f = f' ∧ SameResult pb q1 q1' := by
  have hi1 : pb.EqIndep (fun _ => (1 : K)) := hind.mono fun _ _ => hom1
  have h0 := start_same h h' hsym (C96_exact_setup h hsym heps hP hv hi1) (C96_exact_setup h' hsym heps hP hv' hi1)
  obtain ⟨x, y, z, s, w1, w2⟩ := h0.iter
  refine solve_same h h' hsym (.options o .start) (.options o .start)
    ⟨rfl, ⟨x, y, z, s, ⟨w1.x, w1.y, w1.z, w1.s⟩, ⟨w2.x, w2.y, w2.z, w2.s⟩⟩, h0.stats⟩ hs hs' ?_
  intro k qk qk' r r' hk i1 i2 hsame b1 b2
  obtain ⟨x, y, z, s, w1, w2⟩ := hsame.iter
  have hk : (k : Int) < o.maxit := hk
  have hr := hrat k qk x y z s (by omega) i1 w1
  have hr1 : ∀ i, i < pb.m → 1 / 10 ^ 14 < s i / z i := fun i hm => lt_of_lt_of_le hom (hr i hm)
  have r1 : Reach q0 { q0 with options := o } := .options o .start
  have r2 : Reach q0' { q0' with options := o } := .options o .start
  exact ⟨C96_exact_step h hsym heps hP hv (r1.iterations i1) b1 w1 hr1 (hind.mono hr),
    C96_exact_step h' hsym heps hP hv' (r2.iterations i2) b2 w2 hr1 (hind.mono hr)⟩

end Sqrt

end

/-! ## Examples -/

/-- Another ordering of the demo with the variables before the equality constraint: an inequality first. -/
def varOrder : Nat → Nat := fun i => [4, 2, 0, 1, 3, 5].getD i 0

theorem varOrder_pair : PermPair 6 varOrder (fun i => [2, 3, 1, 4, 0, 5].getD i 0) where
  p_lt := by intro i hi; interval_cases i <;> decide
  q_lt := by intro i hi; interval_cases i <;> decide
  qp := by intro i hi; interval_cases i <;> decide
  pq := by intro i hi; interval_cases i <;> decide

/-- The demo with this ordering. -/
def varArgs (K : Type) [Field K] : SetupArgs K :=
  (demoPb K).args (some (Buf.ofFn 6 (fun i => (varOrder i : Int))))

theorem varArgs_started (K : Type) [Field K] [Scalar K] : ∃ q0, Started failAmd (varArgs K) (demoPb K) q0 := by
  have hg : (varArgs K).Give (demoPb K) :=
    Problem.args_give _ _ (fun h => absurd h (by simp [Problem.p, demoPb, Csc.lit]))
  have hp : PermSource failAmd (varArgs K).Permut (varArgs K).p (demoPb K) :=
    Or.inl ⟨_, _, _, rfl, varOrder_pair, Buf.has_ofFn _ _⟩
  obtain ⟨q0, h⟩ := C26_setup demoPb_wf hg hp
  exact ⟨q0, demoPb_wf, hg, hp, h⟩

theorem varOrder_first : ∀ i, i < 6 → ∀ j, j < 6 → varOrder i < 3 → 3 ≤ varOrder j → varOrder j < 4 → i < j := by
  decide

theorem varArgs_first {K : Type} [Field K] :
    VarsFirst (demoPb K) (Buf.ofFn 6 (fun i => (varOrder i : Int))) := by
  intro i j u v hi hj h1 h2 hu hv hv'
  have hi : i < 6 := hi
  have hj : j < 6 := hj
  have hu : u < 3 := hu
  have hv : 3 ≤ v := hv
  have hv' : v < 4 := hv'
  rw [Buf.has_ofFn 6 (fun i => (varOrder i : Int)) i hi] at h1
  rw [Buf.has_ofFn 6 (fun i => (varOrder i : Int)) j hj] at h2
  have e1 := Option.some.inj (Option.some.inj h1)
  have e2 := Option.some.inj (Option.some.inj h2)
  simp only at e1 e2
  exact varOrder_first i hi j hj (by omega) (by omega) (by omega)

/-- The first point of the demo, rows in order, has ratios of at least one. -/
theorem id_ratiosAbove {q0 : QP ℝ} (h : Started failAmd (idArgs ℝ) (demoPb ℝ) q0) (o : Settings ℝ) :
    RatiosAbove (demoPb ℝ) 1 1 { q0 with options := o } := by
  intro j b x y z s hj hit hi i hm
  have : j = 0 := by omega
  subst this
  cases hit
  exact id_ratios h (C96_exact_setup h demoPb_symm one_gt_small demoPb_strong (C96_permut h rfl idArgs_first)
    (demo_indep fun _ _ => by norm_num)) ⟨hi.x, hi.y, hi.z, hi.s⟩ i hm

/-- C97 for the demo: one iteration with two different orderings gives the same result. -/
example : ∃ (q0 q0' q1 q1' : QP ℝ) (f f' : Int) (o : Settings ℝ), Started failAmd (idArgs ℝ) (demoPb ℝ) q0 ∧
    Started failAmd (varArgs ℝ) (demoPb ℝ) q0' ∧ o.maxit = 1 ∧
    QP_SOLVE { q0 with options := o } = .ok (f, q1) ∧ QP_SOLVE { q0' with options := o } = .ok (f', q1') ∧
    f = f' ∧ SameResult (demoPb ℝ) q1 q1' := by
  obtain ⟨q0, h⟩ := idArgs_started ℝ
  obtain ⟨q0', h'⟩ := varArgs_started ℝ
  obtain ⟨o, ho, hv⟩ : ∃ o : Settings ℝ, o.maxit = 1 ∧ o.verbose ≤ 0 :=
    ⟨{ q0.options with maxit := 1, verbose := 0 }, rfl, le_rfl⟩
  obtain ⟨_, f, q1, hq⟩ := C26_solve h (.options o .start) (Or.inl hv)
  obtain ⟨_, f', q1', hq'⟩ := C26_solve h' (.options o .start) (Or.inl hv)
  obtain ⟨e1, e2⟩ := C97_ordering h h' demoPb_symm one_gt_small demoPb_strong (C96_permut h rfl idArgs_first)
    (C96_permut h' rfl varArgs_first) one_gt_small le_rfl (demo_indep fun _ _ => by norm_num) o hq hq'
    (by rw [ho]; exact id_ratiosAbove h o)
  exact ⟨q0, q0', q1, q1', f, f', o, h, h', ho, hq, hq', e1, e2⟩

/-- C97 for the demo: after one iteration the equality constraint holds exactly. -/
example : ∃ (q0 qk : QP ℝ) (o : Settings ℝ) (x y z s : Nat → ℝ), Started failAmd (idArgs ℝ) (demoPb ℝ) q0 ∧
    Iterations 1 { q0 with options := o } qk ∧ qk.Iter (demoPb ℝ) x y z s ∧ x 0 - 2 * x 1 + x 2 = 3 := by
  obtain ⟨q0, h⟩ := idArgs_started ℝ
  obtain ⟨r, hb⟩ := takes_step h 100
  have hit : Iterations 1 _ r := .succ (.zero _) hb
  obtain ⟨_, _, hs, _⟩ := h.sinv (Reach.iterations (.options _ .start) hit)
  obtain ⟨x, y, z, s, hi⟩ := hs.iter
  obtain ⟨_, _, hs0, _⟩ := h.sinv .start
  obtain ⟨x0, y0, z0, s0, hi0⟩ := hs0.iter
  have := (C97_feasible h demoPb_symm one_gt_small demoPb_strong (C96_permut h rfl idArgs_first) one_gt_small le_rfl
    (demo_indep fun _ _ => by norm_num) _ (id_ratiosAbove h _) hit hi hi0).1 0 (by decide)
  simp [Csc.mulVec, demoPb, Csc.lit, Csc.entry, sum_Ico_eq_sum_range, sum_range_succ] at this
  exact ⟨q0, r, _, x, y, z, s, h, hit, hi, by linarith⟩

end Verif
