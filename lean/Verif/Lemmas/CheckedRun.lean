import Verif.Lemmas.Checked
import Verif.Lemmas.Post

/-!
# Bounded integers: setup and solve
-/

set_option linter.unusedSectionVars false

namespace Verif

variable {K : Type} [Zero K] [One K] [Add K] [Sub K] [Mul K] [Div K] [Neg K] [Scalar K]

/-- What keeps the integers of the factorisation small. -/
structure KktUp (L N : Int) (k : Kkt K) : Prop where
  n : k.kktmatrix.n = N
  jc : Bnd 0 L k.kktmatrix.jc
  P : ∀ i v, 0 ≤ i → i < N → rd k.P i = .ok v → 0 ≤ v ∧ v < N
  lp : Bnd 0 L k.Lp
  num : NumUp L k.num

theorem callNumeric_chk {B L N : Int} {k : Kkt K} (hL : 8 * L ≤ 2 * B + 1) (hN0 : 0 ≤ N)
    (hN : N + 1 ≤ L) (h : KktUp L N k) :
    Chk (callNumericC B k) (callNumeric k) (fun r => KktUp L N r.2) := by
  unfold callNumericC callNumeric
  refine (LDL_numeric_chk (L := L) (by omega) (by omega) h.lp ?_ h.num).bind fun r _ hr =>
    Chk.pure ⟨h.n, h.jc, h.P, h.lp, hr⟩
  intro i v h0 h1 hv
  rw [h.n] at h1
  have := h.P i v h0 h1 hv
  omega

theorem ldlSolve_chk {B L N : Int} {k : Kkt K} {delta : Buf K} (hL : 8 * L ≤ 2 * B + 1)
    (hN0 : 0 ≤ N) (hN : N + 1 ≤ L) (h : k.kktmatrix.n = N) :
    Chk (ldlSolveC B k delta) (ldlSolve k delta) (fun _ => True) := by
  unfold ldlSolveC ldlSolve
  dsimp only
  refine Chk.step fun d _ => (LDL_lsolve_chk (by omega)).bind fun d _ _ => Chk.step fun d _ => ?_
  exact (LDL_ltsolve_chk (by omega) (by omega)).bind fun d _ _ => Chk.triv _

/-- What keeps the integers of a solve small. `c` is the iteration count. -/
structure QUp (L c : Int) (qp : QP K) : Prop where
  n0 : 0 ≤ qp.n
  m0 : 0 ≤ qp.m
  p0 : 0 ≤ qp.p
  sum : qp.n + qp.m + qp.p + 1 ≤ L
  P : qp.P.n ≤ L
  G : qp.G.n ≤ L
  A : ∀ S, qp.A = some S → S.n ≤ L
  kkt : KktUp L (qp.n + qp.m + qp.p) qp.kkt
  count : qp.stats.IterationCount = c

theorem kktsolve_1_chk {B L c : Int} {qp : QP K} (hL : 8 * L ≤ 2 * B + 1) (h : QUp L c qp) :
    Chk (kktsolve_1C B qp) (kktsolve_1 qp) (fun r => QUp L c r.2) := by
  have h1 := h.n0; have h2 := h.m0; have h3 := h.p0; have h4 := h.sum
  unfold kktsolve_1C kktsolve_1
  refine (callNumeric_chk hL (by omega) h4 h.kkt).bind fun r _ hr => ?_
  dsimp only
  refine Chk.ite (fun _ => ?_) (fun _ => Chk.pure ⟨h1, h2, h3, h4, h.P, h.G, h.A, hr, h.count⟩)
  refine (ldlSolve_chk hL (by omega) h4 hr.n).bind fun q _ _ => ?_
  refine Chk.chk (by omega) (Chk.chk (by omega) ?_)
  refine (copyOut_chk rfl h1 h3 (by omega)).bind fun dz _ _ => Chk.step fun ds _ => Chk.pure ?_
  exact ⟨h1, h2, h3, h4, h.P, h.G, h.A, ⟨hr.n, hr.jc, hr.P, hr.lp, hr.num⟩, h.count⟩

theorem kktsolve_2_chk {B L c : Int} {qp : QP K} (hL : 8 * L ≤ 2 * B + 1) (h : QUp L c qp) :
    Chk (kktsolve_2C B qp) (kktsolve_2 qp) (QUp L c) := by
  have h1 := h.n0; have h2 := h.m0; have h3 := h.p0; have h4 := h.sum
  unfold kktsolve_2C kktsolve_2
  refine Chk.step fun re _ => ?_
  refine Chk.bind (Q := KktUp L (qp.n + qp.m + qp.p)) ?_ fun k _ hk => ?_
  · refine Chk.ite (fun _ => ?_) (fun _ => Chk.pure h.kkt)
    exact (callNumeric_chk hL (by omega) h4 h.kkt).bind fun r _ hr => Chk.pure hr
  dsimp only
  refine (ldlSolve_chk hL (by omega) h4 hk.n).bind fun q _ _ => Chk.step fun dx _ => ?_
  refine Chk.chk (by omega) ?_
  refine (copyOut_chk (by omega) h1 le_rfl (by omega)).bind fun dy _ _ => Chk.chk (by omega) ?_
  refine (copyOut_chk rfl h1 h3 (by omega)).bind fun dz _ _ => Chk.step fun ds _ => Chk.pure ?_
  exact ⟨h1, h2, h3, h4, h.P, h.G, h.A, ⟨hk.n, hk.jc, hk.P, hk.lp, hk.num⟩, h.count⟩

theorem computeresiduals_chk {B L c : Int} {qp : QP K} (hL : 8 * L ≤ 2 * B + 1) (h : QUp L c qp) :
    Chk (computeresidualsC B qp) (computeresiduals qp) (QUp L c) := by
  have h1 := h.P; have h2 := h.G
  have h3 := h.sum; have h4 := h.n0; have h5 := h.m0; have h6 := h.p0
  unfold computeresidualsC computeresiduals
  refine (SparseMatrixMultiply_chk (by omega)).bind fun rx _ _ => ?_
  refine (SparseMatrixTransMultiply_chk (by omega)).bind fun rx _ _ => ?_
  refine Chk.bind (Q := fun _ => True) ?_ fun rx _ _ => ?_
  · refine Chk.ite (fun _ => Chk.step fun A hA => ?_) (fun _ => Chk.triv _)
    have : qp.A = some A := by
      cases hq : qp.A with
      | none => rw [hq] at hA; cases hA
      | some S => rw [hq] at hA; cases hA; rfl
    have := h.A A this
    exact SparseMatrixTransMultiply_chk (by omega)
  refine Chk.step fun rx _ => Chk.step fun n_rx _ => ?_
  dsimp only
  refine Chk.bind (Q := QUp L c) ?_ fun qp' _ hq => ?_
  · refine Chk.ite (fun _ => Chk.step fun A hA => ?_) (fun _ => Chk.pure ?_)
    · have : qp.A = some A := by
        cases hq : qp.A with
        | none => rw [hq] at hA; cases hA
        | some S => rw [hq] at hA; cases hA; rfl
      have := h.A A this
      refine (SparseMatrixMultiply_chk (by omega)).bind fun ry _ _ => Chk.step fun b _ =>
        Chk.step fun ry _ => Chk.step fun n_ry _ => Chk.pure ?_
      exact ⟨h4, h5, h6, h3, h.P, h.G, h.A, h.kkt, h.count⟩
    · exact ⟨h4, h5, h6, h3, h.P, h.G, h.A, h.kkt, h.count⟩
  have g := hq.G
  refine (SparseMatrixMultiply_chk (by omega)).bind fun rz _ _ => Chk.step fun rz _ =>
    Chk.step fun n_rz _ => Chk.step fun sz _ => Chk.pure ?_
  exact ⟨hq.n0, hq.m0, hq.p0, hq.sum, hq.P, hq.G, hq.A, hq.kkt, hq.count⟩

theorem evaluate_chk {B L c : Int} {qp : QP K} (hL : 8 * L ≤ 2 * B + 1) (h : QUp L c qp) :
    Chk (evaluateC B qp) (evaluate qp) (QUp L c) := by
  unfold evaluateC evaluate
  refine (computeresiduals_chk hL h).bind fun q _ hq => ?_
  have h1 := hq.P; have h2 := hq.sum; have h3 := hq.n0; have h5 := hq.m0; have h6 := hq.p0
  refine (obj_value_chk (by omega)).bind fun f _ _ => Chk.pure ?_
  exact ⟨hq.n0, hq.m0, hq.p0, hq.sum, hq.P, hq.G, hq.A, hq.kkt, hq.count⟩

theorem directions_chk {B L c : Int} {qp : QP K} {mu : K} (hL : 8 * L ≤ 2 * B + 1)
    (h : QUp L c qp) :
    Chk (directionsC B qp mu) (directions qp mu) (fun r => QUp L c r.1) := by
  have h1 := h.n0; have h2 := h.m0; have h3 := h.p0; have h4 := h.sum
  unfold directionsC directions
  refine Chk.ite (fun _ => ?_) (fun _ => ?_)
  · refine Chk.step fun ds _ => ?_
    refine (updatekktmatrix_chk h2 h1 h3 (by omega) h.kkt.jc (by omega)).bind fun kpr _ _ => ?_
    refine (updatekktmatrix_b_chk h2 h1 h3 (by omega)).bind fun kb _ _ => ?_
    dsimp only
    refine (kktsolve_1_chk hL (c := c) ?_).bind fun r _ hr => ?_
    · exact ⟨h1, h2, h3, h4, h.P, h.G, h.A, ⟨h.kkt.n, h.kkt.jc, h.kkt.P, h.kkt.lp, h.kkt.num⟩,
        h.count⟩
    have g1 := hr.n0; have g2 := hr.m0; have g3 := hr.p0; have g4 := hr.sum
    refine Chk.ite (fun _ => Chk.pure ?_) (fun _ => ?_)
    · exact ⟨g1, g2, g3, g4, hr.P, hr.G, hr.A, hr.kkt, hr.count⟩
    · refine Chk.step fun a _ => Chk.step fun rho _ => Chk.step fun ds _ => ?_
      refine (updatekktmatrix_b_chk g2 g1 g3 (by omega)).bind fun kb _ _ => Chk.pure ?_
      exact ⟨g1, g2, g3, g4, hr.P, hr.G, hr.A,
        ⟨hr.kkt.n, hr.kkt.jc, hr.kkt.P, hr.kkt.lp, hr.kkt.num⟩, hr.count⟩
  · refine Chk.step fun ds _ => ?_
    refine (updatekktmatrix_chk h2 h1 h3 (by omega) h.kkt.jc (by omega)).bind fun kpr _ _ => ?_
    refine (updatekktmatrix_b_chk h2 h1 h3 (by omega)).bind fun kb _ _ => Chk.pure ?_
    exact ⟨h1, h2, h3, h4, h.P, h.G, h.A, ⟨h.kkt.n, h.kkt.jc, h.kkt.P, h.kkt.lp, h.kkt.num⟩,
      h.count⟩

theorem takeStep_chk {B L c : Int} {qp : QP K} (hL : 8 * L ≤ 2 * B + 1) (h : QUp L c qp)
    (hc : -B - 1 ≤ c + 1 ∧ c + 1 ≤ B) :
    Chk (takeStepC B qp) (takeStep qp) (QUp L (c + 1)) := by
  unfold takeStepC takeStep
  refine (kktsolve_2_chk hL h).bind fun q _ hq => ?_
  refine Chk.step fun a _ => Chk.step fun x _ => Chk.step fun y _ => Chk.step fun s _ =>
    Chk.step fun z _ => Chk.chk (by rw [hq.count]; exact hc) (Chk.pure ?_)
  exact ⟨hq.n0, hq.m0, hq.p0, hq.sum, hq.P, hq.G, hq.A, hq.kkt,
    by show q.stats.IterationCount + 1 = _; rw [hq.count]⟩

theorem advance_chk {B L c : Int} {qp : QP K} (hL : 8 * L ≤ 2 * B + 1) (h : QUp L c qp)
    (hc : -B - 1 ≤ c + 1 ∧ c + 1 ≤ B) :
    Chk (advanceC B qp) (advance qp)
      (fun r => if r.2 then QUp L c r.1 else QUp L (c + 1) r.1) := by
  unfold advanceC advance
  refine Chk.step fun la _ => Chk.step fun ll _ => ?_
  dsimp only
  refine (directions_chk hL (c := c) ?_).bind fun d _ hd => ?_
  · exact ⟨h.n0, h.m0, h.p0, h.sum, h.P, h.G, h.A, h.kkt, h.count⟩
  refine Chk.ite (fun _ => Chk.pure ?_) (fun _ => ?_)
  · simpa using hd
  · exact (takeStep_chk hL hd hc).bind fun q _ hq => Chk.pure (by simpa using hq)

theorem solveBody_chk {B L c : Int} {qp : QP K} (hL : 8 * L ≤ 2 * B + 1) (h : QUp L c qp)
    (hc : -B - 1 ≤ c + 1 ∧ c + 1 ≤ B) :
    Chk (solveBodyC B qp) (solveBody qp)
      (fun r => if r.2 then QUp L c r.1 else QUp L (c + 1) r.1) := by
  unfold solveBodyC solveBody
  refine (evaluate_chk hL h).bind fun q _ hq => Chk.step fun _ _ => Chk.step fun opt _ => ?_
  refine Chk.ite (fun _ => Chk.pure ?_) (fun _ => advance_chk hL hq hc)
  simp only [if_true]
  exact ⟨hq.n0, hq.m0, hq.p0, hq.sum, hq.P, hq.G, hq.A, hq.kkt, hq.count⟩

theorem QP_SOLVE_chk {B L c : Int} {qp : QP K} (hL : 8 * L ≤ 2 * B + 1) (h : QUp L c qp)
    (hc0 : 0 ≤ c) (hc : c + qp.options.maxit ≤ B) :
    Chk (QP_SOLVEC B qp) (QP_SOLVE qp) (fun r => ∃ c', QUp L c' r.2 ∧ c ≤ c') := by
  have hB : 0 ≤ B := by have := h.sum; have := h.n0; have := h.m0; have := h.p0; omega
  unfold QP_SOLVEC QP_SOLVE
  refine Chk.bind (Q := fun q => ∃ c', QUp L c' q ∧ c ≤ c') ?_ fun q _ hq => Chk.pure ?_
  · refine Chk.ite (fun _ => ?_) (fun _ => Chk.pure ⟨c, h, le_rfl⟩)
    refine Chk.bind (Q := fun r : QP K × Bool => ∃ c', QUp L c' r.1 ∧ c ≤ c') ?_ fun r _ hr => ?_
    · unfold forBrk
      by_cases hm : 0 ≤ qp.options.maxit
      · refine Chk.forBrkN (I := fun j q => QUp L (c + j) q ∧ 0 ≤ j) (hi := qp.options.maxit)
          (Q := fun q => ∃ c', QUp L c' q ∧ c ≤ c') (fun j q hq => ⟨_, hq.1, by omega⟩) _ _ _
          (by omega) ⟨by simpa using h, le_rfl⟩ ?_
        intro j q h1 h2 hI
        refine (solveBody_chk hL hI.1 (by omega)).mono fun r _ hr => ?_
        cases hb : r.2 with
        | false =>
          rw [hb] at hr
          simp only [Bool.false_eq_true, if_false] at hr
          exact ⟨fun _ => ⟨by rw [← add_assoc]; exact hr, by omega⟩, _, hr, by omega⟩
        | true =>
          rw [hb] at hr
          simp only [if_true] at hr
          exact ⟨fun e => (by cases e), _, hr, by omega⟩
      · rw [show (qp.options.maxit - 0).toNat = 0 by omega]
        exact Chk.ok ⟨c, h, le_rfl⟩
    · obtain ⟨c', hr, hle⟩ := hr
      refine Chk.ite (fun _ => Chk.pure ?_) (fun _ => Chk.pure ⟨c', hr, hle⟩)
      exact ⟨c', ⟨hr.n0, hr.m0, hr.p0, hr.sum, hr.P, hr.G, hr.A, hr.kkt, hr.count⟩, hle⟩
  · exact hq

end Verif
