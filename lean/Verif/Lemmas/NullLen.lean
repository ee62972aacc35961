import Verif.Lemmas.Post

/-!
# The solver keeps the sizes of the iterate
-/

set_option linter.unusedSectionVars false

namespace Verif

variable {K : Type} [Zero K] [One K] [Add K] [Sub K] [Mul K] [Div K] [Neg K] [Scalar K]

/-- The arrays of the iterate have the same sizes. -/
structure SameLen (q r : QP K) : Prop where
  x : r.x.length = q.x.length
  y : r.y.length = q.y.length
  z : r.z.length = q.z.length
  s : r.s.length = q.s.length

theorem SameLen.trans {a b c : QP K} (h : SameLen b c) (k : SameLen a b) : SameLen a c :=
  ⟨h.x.trans k.x, h.y.trans k.y, h.z.trans k.z, h.s.trans k.s⟩

theorem SameLen.rfl {a : QP K} : SameLen a a := ⟨Eq.refl _, Eq.refl _, Eq.refl _, Eq.refl _⟩

theorem kktsolve_1_same {qp : QP K} : Post (kktsolve_1 qp) (fun r => SameLen qp r.2) := by
  unfold kktsolve_1
  refine Post.next fun _ => ?_
  refine Post.ite (fun _ => ?_) (fun _ => Post.pure ⟨rfl, rfl, rfl, rfl⟩)
  exact Post.next fun _ => Post.next fun _ => Post.next fun _ => Post.pure ⟨rfl, rfl, rfl, rfl⟩

theorem kktsolve_2_same {qp : QP K} : Post (kktsolve_2 qp) (fun r => SameLen qp r) := by
  unfold kktsolve_2
  exact Post.next fun _ => Post.next fun _ => Post.next fun _ => Post.next fun _ => Post.next fun _ =>
    Post.next fun _ => Post.next fun _ => Post.pure ⟨rfl, rfl, rfl, rfl⟩

theorem directions_same {qp : QP K} {mu : K} :
    Post (directions qp mu) (fun r => SameLen qp r.1) := by
  unfold directions
  refine Post.ite (fun _ => ?_) (fun _ => ?_)
  · refine Post.next fun _ => Post.next fun _ => Post.next fun _ => ?_
    refine kktsolve_1_same.bind fun r hr => ?_
    have hr : SameLen qp r.2 := ⟨hr.x, hr.y, hr.z, hr.s⟩
    refine Post.ite (fun _ => Post.pure ⟨hr.x, hr.y, hr.z, hr.s⟩) (fun _ => ?_)
    exact Post.next fun _ => Post.next fun _ => Post.next fun _ => Post.next fun _ =>
      Post.pure ⟨hr.x, hr.y, hr.z, hr.s⟩
  · exact Post.next fun _ => Post.next fun _ => Post.next fun _ => Post.pure ⟨rfl, rfl, rfl, rfl⟩

theorem takeStep_same {qp : QP K} : Post (takeStep qp) (fun r => SameLen qp r) := by
  unfold takeStep
  refine kktsolve_2_same.bind fun q hq => Post.next fun _ => ?_
  refine updatevariables_length.bind fun x hx => ?_
  refine updatevariables_length.bind fun y hy => ?_
  refine updatevariables_length.bind fun s hs => ?_
  refine updatevariables_length.bind fun z hz => ?_
  exact Post.pure ⟨hx.trans hq.x, hy.trans hq.y, hz.trans hq.z, hs.trans hq.s⟩

theorem evaluate_same {qp : QP K} : Post (evaluate qp) (fun r => SameLen qp r) := by
  unfold evaluate
  have h : Post (computeresiduals qp) (fun r => SameLen qp r) := by
    unfold computeresiduals
    refine Post.next fun _ => Post.next fun _ => Post.next fun _ => Post.next fun _ =>
      Post.next fun _ => ?_
    refine Post.bind (Q := fun q : QP K => SameLen qp q) ?_ fun q hq => ?_
    · refine Post.ite (fun _ => ?_) (fun _ => Post.pure ⟨rfl, rfl, rfl, rfl⟩)
      exact Post.next fun _ => Post.next fun _ => Post.next fun _ => Post.next fun _ =>
        Post.next fun _ => Post.pure ⟨rfl, rfl, rfl, rfl⟩
    · exact Post.next fun _ => Post.next fun _ => Post.next fun _ => Post.next fun _ =>
        Post.pure ⟨hq.x, hq.y, hq.z, hq.s⟩
  exact h.bind fun q hq => Post.next fun _ => Post.pure ⟨hq.x, hq.y, hq.z, hq.s⟩

theorem solveBody_same {qp : QP K} : Post (solveBody qp) (fun r => SameLen qp r.1) := by
  unfold solveBody
  refine evaluate_same.bind fun q hq => Post.next fun _ => Post.next fun _ => ?_
  refine Post.ite (fun _ => Post.pure ⟨hq.x, hq.y, hq.z, hq.s⟩) (fun _ => ?_)
  unfold advance
  refine Post.next fun _ => Post.next fun _ => ?_
  refine directions_same.bind fun d hd => ?_
  have hd : SameLen qp d.1 := ⟨hd.x.trans hq.x, hd.y.trans hq.y, hd.z.trans hq.z, hd.s.trans hq.s⟩
  refine Post.ite (fun _ => Post.pure hd) (fun _ => ?_)
  exact takeStep_same.bind fun r hr => Post.pure (hr.trans hd)

/-- The solver keeps the sizes of the arrays of the iterate. -/
theorem QP_SOLVE_same {qp : QP K} : Post (QP_SOLVE qp) (fun r => SameLen qp r.2) := by
  unfold QP_SOLVE
  refine Post.bind (Q := fun q : QP K => SameLen qp q) ?_ fun q hq => Post.pure hq
  refine Post.ite (fun _ => ?_) (fun _ => Post.pure .rfl)
  refine Post.bind (Q := fun r : QP K × Bool => SameLen qp r.1)
    (Post.forBrkN (I := fun q : QP K => SameLen qp q)
      (fun i s hs a ha => (solveBody_same a ha).trans hs) _ _ _ .rfl) fun r hr => ?_
  exact Post.ite (fun _ => Post.pure ⟨hr.x, hr.y, hr.z, hr.s⟩) (fun _ => Post.pure hr)

end Verif
