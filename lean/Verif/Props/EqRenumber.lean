import Verif.Props.EqRun
import Verif.Props.Renumber

/-!
# C101: renumbering with equality constraints
-/

set_option linter.unusedSectionVars false

namespace Verif

open Finset

section

variable {K : Type} [Field K] [LinearOrder K] [IsStrictOrderedRing K] [Scalar K] [LawfulScalar K]
variable {pb pb' : Problem K} {f g k : Nat → Nat}

/-- Independence of the equality constraints does not depend on the numbering. -/
theorem Problem.Renumbered.indep (R : pb.Renumbered pb' f g k) {om : K} (h : pb.EqIndep (fun _ => om)) :
    pb'.EqIndep (fun _ => om) := by
  obtain ⟨f', hf⟩ := R.vars
  obtain ⟨g', hg⟩ := R.eqs
  obtain ⟨k', hk⟩ := R.ineqs
  intro x y z hrow l hl hy
  rw [R.p] at hl
  have key := h (fun i => x (f i)) (fun i => y (g i)) (fun i => z (k i)) (fun i hi => by
      rw [← R.mulP x hi, ← R.tmulA y hi, ← R.tmulG z hi]
      exact hrow (f i) (by rw [R.n]; exact hf.p_lt i hi))
    (g' l) (hg.q_lt l hl) (by simp only [hg.pq l hl]; exact hy)
  have e1 : dot pb'.n x (pb'.P.mulVec x) = dot pb.n (fun i => x (f i)) (pb.P.mulVec fun i => x (f i)) := by
    rw [R.n, hf.dot_eq]
    exact sum_congr rfl fun i hi => by simp only; rw [R.mulP x (mem_range.mp hi)]
  have e2 : ∑ i ∈ range pb'.m, om * (z i * z i) = ∑ i ∈ range pb.m, om * (z (k i) * z (k i)) := by
    rw [R.m, hk.sum_eq]
  rw [e1, e2]
  exact key

variable [LawfulSqrt K]

/-- **C101**: renumbered problems with equality constraints, orderings that take variables before equality
constraints. The condition on the points concerns the first run only. -/
theorem C101_renumbering {amd amd' : Amd} {a a' : SetupArgs K} {q0 q0' q1 q1' : QP K}
    {fl fl' : Int} (R : pb.Renumbered pb' f g k) (h : Started amd a pb q0)
    (h' : Started amd' a' pb' q0') (hsym : pb.P.Symm) {eps om : K} (heps : 1 / 10 ^ 14 < eps)
    (hP : pb.Strong eps) (hv : VarsFirst pb q0.kkt.P) (hv' : VarsFirst pb' q0'.kkt.P)
    (hom : 1 / 10 ^ 14 < om) (hom1 : om ≤ 1) (hind : pb.EqIndep (fun _ => om)) (o : Settings K)
    (hs : QP_SOLVE { q0 with options := o } = .ok (fl, q1))
    (hs' : QP_SOLVE { q0' with options := o } = .ok (fl', q1'))
    (hrat : RatiosAbove pb om o.maxit.toNat { q0 with options := o }) :
    fl = fl' ∧ SameUpTo pb pb' f g k q1 q1' := by
  have hind' := R.indep hind
  have h0 := start_renumbered R h h' hsym (C96_exact_setup h hsym heps hP hv (hind.mono fun _ _ => hom1))
    (C96_exact_setup h' (R.symm hsym) heps (R.strong hP) hv' (hind'.mono fun _ _ => hom1))
  obtain ⟨x, y, z, s, w1, w2⟩ := h0.iter
  refine solve_renumbered R h h' hsym (.options o .start) (.options o .start)
    ⟨rfl, ⟨x, y, z, s, ⟨w1.x, w1.y, w1.z, w1.s⟩, ⟨w2.x, w2.y, w2.z, w2.s⟩⟩, h0.stats⟩ hs hs' ?_
  intro j qk qk' r r' hj i1 i2 hsame b1 b2
  obtain ⟨x, y, z, s, w1, w2⟩ := hsame.iter
  have hj : (j : Int) < o.maxit := hj
  have hr := hrat j qk _ _ _ _ (by omega) i1 w1
  have hr' : ∀ i, i < pb'.m → om ≤ s i / z i := by
    obtain ⟨k', hk⟩ := R.ineqs
    intro i hi
    rw [R.m] at hi
    have := hr (k' i) (hk.q_lt i hi)
    rwa [hk.pq i hi] at this
  have r1 : Reach q0 { q0 with options := o } := .options o .start
  have r2 : Reach q0' { q0' with options := o } := .options o .start
  exact ⟨C96_exact_step h hsym heps hP hv (r1.iterations i1) b1 w1 (fun i hm => lt_of_lt_of_le hom (hr i hm))
      (hind.mono hr),
    C96_exact_step h' (R.symm hsym) heps (R.strong hP) hv' (r2.iterations i2) b2 w2
      (fun i hm => lt_of_lt_of_le hom (hr' i hm)) (hind'.mono hr')⟩

end

/-- The demo with its first and third variables exchanged. -/
def flipDemo (K : Type) [Field K] : Problem K where
  P := .lit 3 3 [0, 2, 5, 7] [0, 1, 0, 1, 2, 1, 2] [4, 1, 1, 2, 1, 1, 5]
  A := .lit 1 3 [0, 1, 2, 3] [0, 0, 0] [1, -2, 1]
  G := .lit 2 3 [0, 1, 2, 3] [1, 0, 0] [-1, -4, -4]
  c := fun i => [1, 2, 1].getD i 0
  b := fun i => [3].getD i 0
  h := fun i => [-1, -1].getD i 0
  sigma_d := 0

theorem flipDemo_wf {K : Type} [Field K] : (flipDemo K).WF where
  P := by
    refine ⟨rfl, ?_, ?_⟩
    · intro c hc; simp only [flipDemo, Csc.lit] at hc ⊢; interval_cases c <;> decide
    · intro k hk
      simp only [flipDemo, Csc.lit, List.getD] at hk ⊢
      norm_num at hk
      interval_cases k <;> decide
  A := by
    refine ⟨rfl, ?_, ?_⟩
    · intro c hc; simp only [flipDemo, Csc.lit] at hc ⊢; interval_cases c <;> decide
    · intro k hk
      simp only [flipDemo, Csc.lit, List.getD] at hk ⊢
      norm_num at hk
      interval_cases k <;> decide
  G := by
    refine ⟨rfl, ?_, ?_⟩
    · intro c hc; simp only [flipDemo, Csc.lit] at hc ⊢; interval_cases c <;> decide
    · intro k hk
      simp only [flipDemo, Csc.lit, List.getD] at hk ⊢
      norm_num at hk
      interval_cases k <;> decide
  Pm := rfl
  An := rfl
  Gn := rfl
  rows := by
    intro r hr
    simp only [flipDemo, Csc.lit] at hr
    interval_cases r
    · exact ⟨1, by simp [flipDemo, Csc.lit], rfl⟩
    · exact ⟨0, by simp [flipDemo, Csc.lit], rfl⟩
  m_pos := by simp [flipDemo, Csc.lit]

theorem flipDemo_renumbered : (demoPb ℝ).Renumbered (flipDemo ℝ) (fun i => 2 - i) id id where
  n := rfl
  p := rfl
  m := rfl
  vars := ⟨fun i => 2 - i, fun i hi => by have : i < 3 := hi; show 2 - i < 3; omega,
    fun i hi => by have : i < 3 := hi; show 2 - i < 3; omega,
    fun i hi => by have : i < 3 := hi; omega, fun i hi => by have : i < 3 := hi; omega⟩
  eqs := ⟨id, idPair _⟩
  ineqs := ⟨id, idPair _⟩
  P := by
    intro r c hr hc
    have hr : r < 3 := hr
    have hc : c < 3 := hc
    interval_cases r <;> interval_cases c <;>
      simp [demoPb, flipDemo, Csc.lit, Csc.entry, sum_Ico_eq_sum_range, sum_range_succ]
  A := by
    intro r c hr hc
    have hr : r < 1 := hr
    have hc : c < 3 := hc
    interval_cases r
    interval_cases c <;> simp [demoPb, flipDemo, Csc.lit, Csc.entry]
  G := by
    intro r c hr hc
    have hr : r < 2 := hr
    have hc : c < 3 := hc
    interval_cases r <;> interval_cases c <;>
      simp [demoPb, flipDemo, Csc.lit, Csc.entry]
  c := by
    intro i hi
    have hi : i < 3 := hi
    interval_cases i <;> rfl
  b := fun _ _ => rfl
  h := fun _ _ => rfl
  sigma_d := rfl

/-- C101 for the demo and the demo with two variables exchanged. -/
example : ∃ (q0 q0' q1 q1' : QP ℝ) (a' : SetupArgs ℝ) (f f' : Int) (o : Settings ℝ),
    Started failAmd (idArgs ℝ) (demoPb ℝ) q0 ∧ Started failAmd a' (flipDemo ℝ) q0' ∧ o.maxit = 1 ∧
    QP_SOLVE { q0 with options := o } = .ok (f, q1) ∧ QP_SOLVE { q0' with options := o } = .ok (f', q1') ∧
    f = f' ∧ SameUpTo (demoPb ℝ) (flipDemo ℝ) (fun i => 2 - i) id id q1 q1' := by
  obtain ⟨q0, h⟩ := idArgs_started ℝ
  have hg : ((flipDemo ℝ).args (some (Buf.ofFn 6 (fun i => (i : Int))))).Give (flipDemo ℝ) :=
    Problem.args_give _ _ (fun h => absurd h (by simp [Problem.p, flipDemo, Csc.lit]))
  have hp : PermSource failAmd ((flipDemo ℝ).args (some (Buf.ofFn 6 (fun i => (i : Int))))).Permut 1 (flipDemo ℝ) :=
    Or.inl ⟨_, _, _, rfl, idPair 6, Buf.has_ofFn _ _⟩
  obtain ⟨q0', h0⟩ := C26_setup flipDemo_wf hg hp
  have h' : Started failAmd _ (flipDemo ℝ) q0' := ⟨flipDemo_wf, hg, hp, h0⟩
  obtain ⟨o, ho, hv⟩ : ∃ o : Settings ℝ, o.maxit = 1 ∧ o.verbose ≤ 0 :=
    ⟨{ q0.options with maxit := 1, verbose := 0 }, rfl, le_rfl⟩
  obtain ⟨_, f, q1, hq⟩ := C26_solve h (.options o .start) (Or.inl hv)
  obtain ⟨_, f', q1', hq'⟩ := C26_solve h' (.options o .start) (Or.inl hv)
  obtain ⟨e1, e2⟩ := C101_renumbering flipDemo_renumbered h h' demoPb_symm one_gt_small demoPb_strong
    (C96_permut h rfl idArgs_first) (C96_permut h' rfl (idArgs_first (K := ℝ))) one_gt_small le_rfl
    (demo_indep fun _ _ => by norm_num) o hq hq' (by rw [ho]; exact id_ratiosAbove h o)
  exact ⟨q0, q0', q1, q1', _, f, f', o, h, h', ho, hq, hq', e1, e2⟩

end Verif
