import Verif.Cases
import Verif.Props.Memory
import Verif.Props.Python
import Verif.Props.Matlab
import Verif.Props.MatlabCall
import Verif.Props.Front
import Verif.Props.AmdInput
import Verif.Props.AmdPost
import Verif.Props.AmdOrder
import Verif.Props.Certify
import Verif.Props.Round
import Verif.Props.DoubleInterior

/-!
# Concrete cases of the theorems on memory, interfaces, orderings and rounding
-/

namespace Verif

open Finset Ieee

/-! ## Memory -/

namespace Mem

/-- States reached by correct use and the nine arrays of `demoArgs`. -/
theorem arrays_reach (k : Nat) : ∃ w : World, w.Reach ∧ w.caller.length = k ∧ w.handles = [] := by
  induction k with
  | zero => exact ⟨.start, .start, rfl, rfl⟩
  | succ k ih =>
    obtain ⟨w, h, hk, hh⟩ := ih
    refine ⟨_, .step (o := .array) h trivial rfl, ?_, hh⟩
    simp [hk]

/-- C29: in a state with one array used for all arguments of a dense problem, setup, solve and
cleanup succeed, and afterwards exactly this array is allocated. -/
example : ∃ (w w1 w2 : World) (b : Nat), w.Reach ∧
    w.step (.setup true true .sorted (fun _ => some b)) = .ok w1 ∧
    w1.step (.cleanup 0 true) = .ok w2 ∧
    (∀ a, w2.heap.live a = true ↔ a ∈ w2.caller) ∧ b ∈ w2.caller ∧ w2.heap.live b = true := by
  obtain ⟨w, h, hk, hh⟩ := arrays_reach 1
  obtain ⟨b, hb⟩ := List.length_eq_one_iff.mp hk
  have hl : w.Legal (.setup true true .sorted (fun _ => some b)) := by
    refine ⟨?_, by simp, by simp⟩
    intro g a hg
    cases hg
    rw [hb]
    simp
  obtain ⟨w1', e1'⟩ := C29_safe h hl
  obtain ⟨w1, w2, e1, e2, e3, e4⟩ := C29_pair h hl
  rw [hh] at e2
  have hw : ∀ a, w2.heap.live a = true ↔ a ∈ w2.caller := by
    intro a
    rw [e4, e3]
    exact C29_balance h (by rw [hh]; simp) a
  have hbm : b ∈ w.caller := by rw [hb]; simp
  exact ⟨w, w1, w2, b, h, e1, e2, hw, by rw [e3]; exact hbm, by
    rw [e4]; exact C29_caller h b hbm⟩

/-- C29, the wrong cleanup function: nine blocks stay allocated, or an array of the caller is released. -/
example (g : Cfg) (hA : g.hasA = true) :
    (g.dense = true → ∃ s, exec Cell.ext (entry (small g) 0) (cleanup false) = .ok s ∧
      ((List.range s.heap.next).filter s.heap.live).length = 9) ∧
    (g.dense = false → exec Cell.ext (entry (small g) 0) (cleanup true) = .error .caller) := by
  refine ⟨fun hd => ?_, C29_mismatch_frees_caller g⟩
  obtain ⟨s, h1, h2⟩ := C29_mismatch_leaks g hd
  exact ⟨s, h1, by rw [h2, hA]; rfl⟩

end Mem

/-! ## Interfaces -/

/-- C44 for the Python call of the demo. -/
example : ∃ d s q0 f q1, method_qpSWIFT failAmd pyDemo = .ok (.dict d) ∧ PyUses pyDemo.dict s ∧
    QP_SETUP_dense failAmd (pyDemo.setupArgs pyDemoPb.n pyDemoPb.m pyDemoPb.p) = .ok q0 ∧
    QP_SOLVE { q0 with options := s } = .ok (f, q1) := by
  have hd : pyDemo.DictOk := by unfold PyArgs.DictOk; decide
  obtain ⟨d, _, _, _, _, _, h1, _⟩ := C43_accepted pyDemo_shaped hd pyDemo_valid
    pyDemo_describes failAmd_safe (Or.inr (by decide))
  obtain ⟨_, s, q0, f, q1, h2, h3, h4, _⟩ := C44_result pyDemo_shaped hd h1
  exact ⟨d, s, q0, f, q1, h1, h2, h3, h4⟩

/-- C45: without the field the ordering is left to the setup. -/
example (amd : Amd) : mexFunction amd (mexDemo [("MAXITER", mxDense 1 1 [50])]) =
    mexRun amd (mexDemo [("MAXITER", mxDense 1 1 [50])]) none := by
  refine C45_no_permutation (by decide +kernel) ?_ amd
  intro l hl e he
  cases hl
  simp only [List.mem_singleton] at he
  subst he
  decide

/-- C46: from 1.9 s to 3.1 s. -/
example : (tocDiff ⟨1, 900000000⟩ ⟨3, 100000000⟩).total = 1200000000 := by
  obtain ⟨_, _, h⟩ := C46_borrow (t1 := ⟨1, 900000000⟩) (t2 := ⟨3, 100000000⟩)
    (by simp [Timespec.Normal]) (by simp [Timespec.Normal]) (by simp [Timespec.total])
  rw [h]
  simp [Timespec.total]

/-- Minimise `x0 + x1²/2` subject to `x0 + x1 + x2 ≤ 1`, as the Simulink block receives it. -/
def sfPb : Problem ℚ :=
  denseProblem COLUMN_MAJOR_ORDERING 3 1 0 (fun i => if i = 4 then 1 else 0) (fun _ => 0) (fun _ => 1)
    (fun i => if i = 0 then 1 else 0) (fun _ => 0) (fun _ => 1)

/-- C47: the block returns the first three unknowns of a solve of this program. -/
example : ∃ a q0 f q1 x y z s, Started failAmd a sfPb q0 ∧ QP_SOLVE q0 = .ok (f, q1) ∧
    q1.Iter sfPb x y z s ∧ mdlOutputs failAmd 3 1 0 (Buf.ofFn 9 (fun i => if i = 4 then 1 else 0)) none
      (Buf.ofFn 3 (fun _ => 1)) (Buf.ofFn 3 (fun i => if i = 0 then 1 else 0)) (Buf.ofFn 1 (fun _ => 1)) none
      = .ok { x := [some (x 0), some (x 1), some (x 2)], exitflag := f
              iter := q1.stats.IterationCount } := by
  have hw : sfPb.WF := by
    refine denseProblem_wf Nat.zero_lt_one (fun r hr => ⟨0, by decide, ?_⟩)
    interval_cases r
    decide +kernel
  have hg : SfGive sfPb (Buf.ofFn 9 (fun i => if i = 4 then 1 else 0)) none
      (Buf.ofFn 3 (fun _ => 1)) (Buf.ofFn 3 (fun i => if i = 0 then 1 else 0)) (Buf.ofFn 1 (fun _ => 1))
      none := by
    refine denseProblem_give (K := ℚ) _ rfl rfl (Buf.has_ofFn _ _) (Buf.has_ofFn _ _) (Buf.has_ofFn _ _)
      (Buf.has_ofFn _ _) (by decide) ?_
    exact Or.inr ⟨Or.inl rfl, rfl⟩
  exact C47_three_or_more failAmd_safe hw hg (by decide)

/-- C67: three arguments; the demo with four results asked for. -/
example (amd : Amd) : (∃ e, mexEntry amd 1 ((mexDemoList []).take 3) = .ok (.error e)) ∧
    ∃ e, mexEntry amd 4 (mexDemoList []) = .ok (.error e) :=
  ⟨C67_wrong_number amd (by decide) (Or.inl (by decide)),
    C67_wrong_number amd (by decide) (Or.inr (Or.inr (Or.inr (by decide))))⟩

/-- C67: the demo with an inadmissible number of iterations. -/
example (l : List (String × MxArr ℚ)) (hl : l = [("MAXITER", mxDense 1 1 [201])]) :
    (∃ e, mexEntry failAmd (mexDemo l).nlhs (mexDemoList l) = .ok (.error e)) ∧
    ∀ e, mexFunction failAmd (mexDemo l) = .ok (.error e) →
      mexEntry failAmd (mexDemo l).nlhs (mexDemoList l) = .ok (.error e) := by
  refine ⟨C67_invalid_options failAmd_safe (by simp [mexDemo]) (by simp [mexDemo]) (mexDemo_listed _)
    (mexDemo_describes ?_) (Or.inl ?_) ?_ ?_,
    (C67_listed failAmd (by simp [mexDemo]) (by simp [mexDemo]) (mexDemo_listed _)).1⟩ <;> subst hl
  · exact mexDemo_absent rfl
  · exact mexDemo_absent rfl
  · exact mexDemo_readable 201
  · intro hv
    have := (hv.maxit 201 ((mexDemo_value rfl).mpr rfl)).2
    exact absurd this (by decide +kernel)

/-! ## Orderings -/

/-- C40: a pattern with a row index out of range, a missing array, and the status for any input. -/
example (mem : AmdMem) (dense0 : Int → Int) : AMD_valid (3 : Nat) (2 : Nat)
      (some (Buf.ofFn 3 (fun i => ([0, 2, 3] : List Int).getD i 0)))
      (some (Buf.ofFn 3 (fun i => ([0, 3, 1] : List Int).getD i 0))) = .ok AMD_INVALID ∧
    AMD_valid 3 2 none (some (malloc 3)) = .ok AMD_INVALID ∧
    ∀ st P', AMD_order mem dense0 true 2 [some 0, some 1, some 2] [some 1, some 0] (malloc 2) = .ok (st, P') →
      st ≠ -3 := by
  refine ⟨?_, C40_null _ _ _ _ (Or.inr (Or.inr (Or.inl rfl))), fun st P' h =>
    (C40_status mem dense0 true _ _ _ _ h).2⟩
  rw [C40_valid (m := 3) (n := 2) (nz := 3) (Buf.has_ofFn _ _) (Buf.has_ofFn _ _)
    (by intro j hj; interval_cases j <;> decide), if_pos]
  intro h
  have := h.2.2 1 (by decide)
  exact absurd this (by decide)

/-- C39: the ordering may be used in every setup of the demo. -/
example (mem : AmdMem) : AmdSafe (AMD_order mem (fun _ => 10) true) := C39_safe mem (fun _ => 10) true

/-- C42: the forest of `Props/AmdPost.lean` without its non-node. -/
example : ∃ O rest, AMD_postorder (3 : Nat) (Buf.ofFn 3 (fun i => ([2, 2, -1] : List Int).getD i 0))
      (Buf.ofFn 3 (fun _ => 1)) (Buf.ofFn 3 (fun _ => 1)) (malloc 3) (malloc 3) (malloc 3) (malloc 3)
      = .ok (O, rest) ∧ ∃ num : Nat → Int, Buf.Has O 3 num ∧ num 0 < num 2 ∧ num 1 < num 2 := by
  have hf : IsForest 3 (fun i => ([2, 2, -1] : List Int).getD i 0) (fun _ => 1) := by
    constructor
    · intro j hj _
      interval_cases j
      exacts [Or.inr ⟨2, by decide, by decide, by decide⟩, Or.inr ⟨2, by decide, by decide, by decide⟩,
        Or.inl rfl]
    · intro j hj hc
      have key : ∀ a b : Nat, Relation.TransGen (fun a b : Nat => a < 3 ∧ 0 < (1 : Int) ∧
          ([2, 2, -1] : List Int).getD a 0 = (b : Int)) a b → a < b := by
        intro a b h
        induction h with
        | single h =>
          obtain ⟨h1, _, h3⟩ := h
          interval_cases a <;> simp at h3 <;> omega
        | tail _ h ih =>
          rename_i b c _
          obtain ⟨h1, _, h3⟩ := h
          interval_cases b <;> simp at h3 <;> omega
      exact absurd (key j j hc) (by omega)
  obtain ⟨O, rest, h1, k, num, h2, _, _, _, h3⟩ := C42_postorder (by norm_num) hf (fs := fun _ => 1) (fun _ _ _ => by decide)
    (Buf.has_ofFn 3 _) (by decide) (Buf.has_ofFn 3 _) (by decide) (Buf.has_ofFn 3 _) (by decide)
    (Order := malloc 3) (by decide) (Child := malloc 3) (by decide) (Sibling := malloc 3) (by decide)
    (Stack := malloc 3) (by decide)
  exact ⟨O, rest, h1, num, h2, h3 0 2 (by decide) (by decide) rfl, h3 1 2 (by decide) (by decide) rfl⟩

/-! ## Certificates -/

/-- C58 for two clashing bounds and any call of solve whose state has not yet reported 0. -/
example {amd : Amd} {a : SetupArgs ℝ} {q0 qp qp' : QP ℝ} (h : Started amd a (clashPb ℝ) q0)
    (hr : Reach q0 qp) (hf : qp.stats.Flag ≠ 0) {f : Int} (hs : QP_SOLVE qp = .ok (f, qp'))
    (ht : qp.options.reltol ≤ 1) : f ≠ 0 := by
  obtain ⟨t, h0, h3⟩ := sqrt3_exists (K := ℝ)
  have ht1 : 1 ≤ t := by nlinarith
  refine C58_infeasible h hr hf hs h0 h3 clashPb_cert (ny := 0) (nz := 5 / 7) ⟨le_rfl, by
      rw [show (clashPb ℝ).p = 0 from rfl]; simp [dot]⟩
    ⟨by norm_num, by
      unfold dot
      rw [show (clashPb ℝ).m = 2 from rfl, sum_range_succ, sum_range_one]
      norm_num⟩ ?_
  have : qp.options.reltol / t ≤ 1 := by
    rw [div_le_one (by linarith)]
    linarith
  linarith

/-- C58 for a program that is unbounded below. -/
example {amd : Amd} {a : SetupArgs ℝ} {q0 qp qp' : QP ℝ} (h : Started amd a (freeLp ℝ) q0)
    (hr : Reach q0 qp) (hf : qp.stats.Flag ≠ 0) {f : Int} (hs : QP_SOLVE qp = .ok (f, qp'))
    (ht : qp.options.reltol ≤ 1) : f ≠ 0 := by
  obtain ⟨t, h0, h3⟩ := sqrt3_exists (K := ℝ)
  have ht1 : 1 ≤ t := by nlinarith
  refine C58_unbounded h hr hf freeLp_symm hs h0 h3 freeLp_cert (nd := 1) ⟨by norm_num, by
      rw [show (freeLp ℝ).n = 1 from rfl]; simp [dot]⟩ ?_
  have : qp.options.reltol / t ≤ 1 := by
    rw [div_le_one (by linarith)]
    linarith
  linarith

/-! ## Rounding -/

/-- C60 and C65 for a run in double precision that ends with code 0. -/
example : ∃ q0 q1 x y z s mu, Started failAmd (dblPb.args none) dblPb q0 ∧ QP_SOLVE q0 = .ok (0, q1) ∧
    q1.Iter dblPb x y z s ∧ Scalar.ltb mu q0.options.abstol = true ∧ fin (s 0) := by
  obtain ⟨q0, h⟩ := dblPb_started
  have hrun := dblSolve_true
  unfold dblSolve at hrun
  rw [h.ok] at hrun
  dsimp only at hrun
  split at hrun
  case h_2 => exact absurd hrun Bool.false_ne_true
  case h_1 q1 hq1 =>
  simp only [Bool.and_eq_true, bne_iff_ne, ne_eq, beq_iff_eq] at hrun
  obtain ⟨⟨c1, c2⟩, c3⟩ := hrun
  obtain ⟨x, y, z, s, hi, nx, ny, nz, mu, _, _, _, _, h1, _⟩ :=
    C60_exit_zero h .start c1 hq1 (F64.ok_fin c2).1
  obtain ⟨x', y', z', s', hi', h2, _⟩ := C65_exit_zero h .start c1 hq1 (by
    have : dblPb.N = 2 := rfl
    omega) (by
    have : dblPb.P.nnz + dblPb.A.nnz + dblPb.G.nnz = 2 := rfl
    omega) (F64.ok_fin c2).1
  exact ⟨q0, q1, x', y', z', s', mu, h, hq1, hi', h1, h2 0 (by show 0 < 1; norm_num)⟩

/-- C60: the statistics of the first iteration in double precision. -/
example : ∃ q0 qp x y z s, ∃ nx nz mu : F64, Started failAmd (dblPb.args none) dblPb q0 ∧
    solveBody q0 = .ok (qp, false) ∧ q0.Iter dblPb x y z s ∧ qp.stats.n_rx = some nx ∧
    qp.stats.n_rz = some nz ∧ qp.stats.n_mu = some mu := by
  obtain ⟨q0, h⟩ := dblPb_started
  have hrun := dblRun_true
  unfold dblRun at hrun
  rw [h.ok] at hrun
  dsimp only at hrun
  split at hrun
  case h_2 => exact absurd hrun Bool.false_ne_true
  case h_1 q1 hq1 =>
  obtain ⟨p, q, hi, _⟩ := h.sinv .start
  obtain ⟨x, y, z, s, hit⟩ := hi.iter
  obtain ⟨nx, ny, nz, mu, h1, _, h2, h3, _⟩ := C60_statistics h .start hq1 hit
  exact ⟨q0, q1, x, y, z, s, nx, nz, mu, h, hq1, hit, h1, h2, h3⟩

/-- C60: what the test of a computed norm says about the exact one, for `(3, 4)` and the tolerance 6. -/
example : (1 - u F64) ^ 2 * ((2 - (1 + u F64) ^ (2 * 2)) * 25 - 2 * (1 + u F64) ^ (2 * 2) * eta F64)
    ≤ 6 ^ 2 := by
  have hd : dot 2 (fun i => ([3, 4] : List ℝ).getD i 0) (fun i => ([3, 4] : List ℝ).getD i 0) = 25 := by
    simp [dot, sum_range_succ]
    norm_num
  have h5 : √(25 : ℝ) = 5 := by
    rw [show (25 : ℝ) = 5 * 5 by norm_num, Real.sqrt_mul_self (by norm_num)]
  have h := IsRoundedNorm.bound (K := F64) (n := 2) (r := fun i => ([3, 4] : List ℝ).getD i 0) (v := 5) (t := 6)
    ⟨25, by norm_num, by
      rw [hd, sub_self, abs_zero]
      exact errBound_nonneg Ieee.u_nonneg Ieee.eta_nonneg (by norm_num) _, by
      rw [h5, sub_self, abs_zero]
      exact mul_nonneg (Ieee.u_nonneg) (by norm_num)⟩ (by norm_num)
  rw [hd] at h
  exact_mod_cast h

/-- all elements are below 100 -/
def Buf.below (b : Buf F64) : Bool :=
  b.all (fun o => match o with | some v => Scalar.ltb v (Scalar.dec 100 0) | none => false)

/-- setup: slacks and multipliers are above `0.1` and below 100 -/
def startRun : Bool :=
  match QP_SETUP failAmd (dblPb.args none) with
  | .ok q0 => q0.s.above && q0.z.above && q0.s.below && q0.z.below
  | .error _ => false

theorem startRun_true : startRun = true := by decide +kernel

/-- C66, the starting point of a run in double precision. -/
example : ∃ q0 x y z s, Started failAmd (dblPb.args none) dblPb q0 ∧ q0.Iter dblPb x y z s ∧
    0 < toR (s 0) ∧ 0 < toR (z 0) := by
  obtain ⟨q0, h⟩ := dblPb_started
  have hrun := startRun_true
  unfold startRun at hrun
  rw [h.ok] at hrun
  simp only [Bool.and_eq_true] at hrun
  obtain ⟨⟨⟨c1, c2⟩, c3⟩, c4⟩ := hrun
  obtain ⟨p, q, hi, _⟩ := h.sinv .start
  obtain ⟨x, y, z, s, hit⟩ := hi.iter
  have key : ∀ {b : Buf F64} {f : Nat → F64}, b.above = true → b.below = true → Buf.Has b dblPb.m f →
      ∀ i, i < dblPb.m → fin (f i) ∧ u F64 * |toR (f i)| ≤ 1 / 8 := by
    intro b f ha hb hf i hi'
    obtain ⟨g1, g2⟩ := Buf.above_has ha hf hi'
    have g3 := List.all_eq_true.mp hb _ (List.mem_of_getElem? (hf i hi'))
    obtain ⟨d1, d2⟩ := F64.toR_int 100 (by norm_num)
    have g4 := (Ieee.ltb _ _ g1 d1).mp g3
    have g4 : toR (f i) < 100 := by
      refine g4.trans_eq (Eq.trans d2 ?_)
      norm_num
    refine ⟨g1, ?_⟩
    rw [abs_of_nonneg (by linarith)]
    have g5 : u F64 ≤ 1 / 1000 := double_unit.1.trans (by norm_num)
    have g6 : (0 : ℝ) ≤ u F64 := Ieee.u_nonneg
    nlinarith
  have hs := key c1 c3 hit.s
  have hz := key c2 c4 hit.z
  have := (C66_start h double_unit.1 hit (fun i hi => ⟨(hs i hi).1, (hz i hi).1⟩)
    (fun i hi => ⟨(hs i hi).2, (hz i hi).2⟩)).1 0 (by show 0 < 1; norm_num)
  exact ⟨q0, x, y, z, s, h, hit, this.1, this.2⟩

end Verif
