import Verif.Model.Solver

/-!
# Partial correctness, and the exact size of the array `x`

`SInv` bounds the sizes of arrays from below. That the array `x` has exactly `n` elements needs no
invariant: it holds for every successful run.
-/

set_option linter.unusedSectionVars false

namespace Verif

/-- If `m` succeeds, its result satisfies `Q`. -/
def Post {α : Type} (m : M α) (Q : α → Prop) : Prop := ∀ a, m = .ok a → Q a

theorem Post.any {α : Type} (m : M α) : Post m (fun _ => True) := fun _ _ => trivial

theorem Post.ok {α : Type} {a : α} {Q : α → Prop} (h : Q a) : Post (.ok a : M α) Q := by
  intro b hb
  cases hb
  exact h

theorem Post.pure {α : Type} {a : α} {Q : α → Prop} (h : Q a) : Post (Pure.pure a : M α) Q :=
  Post.ok h

theorem Post.bind {α β : Type} {m : M α} {f : α → M β} {Q : α → Prop} {R : β → Prop}
    (h : Post m Q) (hf : ∀ a, Q a → Post (f a) R) : Post (m >>= f) R := by
  intro b hb
  cases hm : m with
  | error e => rw [hm] at hb; cases hb
  | ok a => rw [hm] at hb; exact hf a (h a hm) b hb

theorem Post.next {α β : Type} {m : M α} {f : α → M β} {R : β → Prop}
    (hf : ∀ a, Post (f a) R) : Post (m >>= f) R :=
  (Post.any m).bind (fun a _ => hf a)

theorem Post.ite {α : Type} {c : Prop} [Decidable c] {m₁ m₂ : M α} {Q : α → Prop}
    (h₁ : c → Post m₁ Q) (h₂ : ¬c → Post m₂ Q) : Post (if c then m₁ else m₂) Q := by
  split
  · exact h₁ ‹_›
  · exact h₂ ‹_›

theorem Post.wr {α : Type} {b : Buf α} {i : Int} {v : α} :
    Post (wr b i v) (fun b' => b'.length = b.length) := by
  intro b' hb
  unfold Verif.wr at hb
  split at hb
  · cases hb
  · split at hb
    · cases hb; simp
    · cases hb

theorem Post.forN {σ : Type} {I : σ → Prop} {f : Int → σ → M σ}
    (hf : ∀ i s, I s → Post (f i s) I) : ∀ k i s, I s → Post (forN k i s f) I := by
  intro k
  induction k with
  | zero => intro i s hs; exact Post.ok hs
  | succ k ih => intro i s hs; exact (hf i s hs).bind (fun a ha => ih _ a ha)

theorem Post.forI {σ : Type} {I : σ → Prop} {lo hi : Int} {s : σ} {f : Int → σ → M σ}
    (hs : I s) (hf : ∀ i s, I s → Post (f i s) I) : Post (forI lo hi s f) I :=
  Post.forN hf _ _ _ hs

theorem Post.forBrkN {σ : Type} {I : σ → Prop} {f : Int → σ → M (σ × Bool)}
    (hf : ∀ i s, I s → Post (f i s) (fun r => I r.1)) :
    ∀ k i s, I s → Post (forBrkN k i s f) (fun r => I r.1) := by
  intro k
  induction k with
  | zero => intro i s hs; exact Post.ok hs
  | succ k ih =>
    intro i s hs
    refine (hf i s hs).bind (fun a ha => ?_)
    exact Post.ite (fun _ => Post.ok ha) (fun _ => ih _ _ ha)

variable {K : Type} [Zero K] [One K] [Add K] [Sub K] [Mul K] [Div K] [Neg K] [Scalar K]

theorem copyOut_length {dst src : Buf K} {lo hi : Int} :
    Post (copyOut dst src lo hi) (fun b => b.length = dst.length) := by
  refine Post.forI rfl (fun i s hs => Post.next fun v => ?_)
  intro a ha
  rw [Post.wr a ha, hs]

theorem updatevariables_length {x d : Buf K} {a : K} {n : Int} :
    Post (updatevariables x d a n) (fun b => b.length = x.length) := by
  refine Post.forI rfl (fun i s hs => Post.next fun v => Post.next fun w => ?_)
  intro a ha
  rw [Post.wr a ha, hs]

theorem kkt_initialize_x {qp : QP K} :
    Post (kkt_initialize qp) (fun r => r.2.x.length = qp.x.length) := by
  unfold kkt_initialize
  refine Post.next fun _ => Post.next fun _ => Post.next fun _ => Post.next fun r => ?_
  refine Post.ite (fun _ => ?_) (fun _ => Post.pure rfl)
  refine copyOut_length.bind fun x hx => ?_
  refine Post.next fun _ => Post.next fun _ => Post.next fun _ => Post.next fun _ => Post.next fun _ =>
    Post.next fun _ => Post.pure hx

theorem setupTail_x {amd : Amd} {si : SetupIn K} :
    Post (setupTail amd si) (fun q => q.x.length = si.argn.toNat) := by
  unfold setupTail
  refine Post.next fun _ => Post.next fun _ => Post.next fun _ => Post.next fun _ => ?_
  refine kkt_initialize_x.bind fun r hr => ?_
  have hr' : r.2.x.length = si.argn.toNat := by rw [hr]; simp [malloc]
  exact Post.ite (fun _ => Post.pure hr') (fun _ => Post.pure hr')

theorem QP_SETUP_x {amd : Amd} {a : SetupArgs K} :
    Post (QP_SETUP amd a) (fun q => q.x.length = a.n.toNat) := by
  unfold QP_SETUP
  exact Post.next fun _ => Post.next fun _ => Post.next fun _ => setupTail_x

theorem QP_SETUP_dense_x {amd : Amd} {a : DenseArgs K} :
    Post (QP_SETUP_dense amd a) (fun q => q.x.length = a.n.toNat) := by
  unfold QP_SETUP_dense
  exact Post.next fun _ => Post.next fun _ => Post.next fun _ => setupTail_x

theorem kktsolve_1_x {qp : QP K} : Post (kktsolve_1 qp) (fun r => r.2.x.length = qp.x.length) := by
  unfold kktsolve_1
  refine Post.next fun _ => ?_
  refine Post.ite (fun _ => ?_) (fun _ => Post.pure rfl)
  exact Post.next fun _ => Post.next fun _ => Post.next fun _ => Post.pure rfl

theorem kktsolve_2_x {qp : QP K} : Post (kktsolve_2 qp) (fun r => r.x.length = qp.x.length) := by
  unfold kktsolve_2
  exact Post.next fun _ => Post.next fun _ => Post.next fun _ => Post.next fun _ => Post.next fun _ =>
    Post.next fun _ => Post.next fun _ => Post.pure rfl

theorem directions_x {qp : QP K} {mu : K} :
    Post (directions qp mu) (fun r => r.1.x.length = qp.x.length) := by
  unfold directions
  refine Post.ite (fun _ => ?_) (fun _ => ?_)
  · refine Post.next fun _ => Post.next fun _ => Post.next fun _ => ?_
    refine kktsolve_1_x.bind fun r hr => ?_
    refine Post.ite (fun _ => Post.pure hr) (fun _ => ?_)
    exact Post.next fun _ => Post.next fun _ => Post.next fun _ => Post.next fun _ => Post.pure hr
  · exact Post.next fun _ => Post.next fun _ => Post.next fun _ => Post.pure rfl

theorem takeStep_x {qp : QP K} : Post (takeStep qp) (fun r => r.x.length = qp.x.length) := by
  unfold takeStep
  refine kktsolve_2_x.bind fun q hq => Post.next fun _ => ?_
  refine updatevariables_length.bind fun x hx => ?_
  exact Post.next fun _ => Post.next fun _ => Post.next fun _ => Post.pure (hx.trans hq)

theorem evaluate_x {qp : QP K} : Post (evaluate qp) (fun r => r.x.length = qp.x.length) := by
  unfold evaluate
  have h : Post (computeresiduals qp) (fun r => r.x.length = qp.x.length) := by
    unfold computeresiduals
    refine Post.next fun _ => Post.next fun _ => Post.next fun _ => Post.next fun _ =>
      Post.next fun _ => ?_
    refine Post.bind (Q := fun q : QP K => q.x.length = qp.x.length) ?_ fun q hq => ?_
    · refine Post.ite (fun _ => ?_) (fun _ => Post.pure rfl)
      exact Post.next fun _ => Post.next fun _ => Post.next fun _ => Post.next fun _ =>
        Post.next fun _ => Post.pure rfl
    · exact Post.next fun _ => Post.next fun _ => Post.next fun _ => Post.next fun _ => Post.pure hq
  exact h.bind fun q hq => Post.next fun _ => Post.pure hq

theorem solveBody_x {qp : QP K} : Post (solveBody qp) (fun r => r.1.x.length = qp.x.length) := by
  unfold solveBody
  refine evaluate_x.bind fun q hq => Post.next fun _ => Post.next fun _ => ?_
  refine Post.ite (fun _ => Post.pure hq) (fun _ => ?_)
  unfold advance
  refine Post.next fun _ => Post.next fun _ => ?_
  refine directions_x.bind fun d hd => ?_
  refine Post.ite (fun _ => Post.pure (hd.trans hq)) (fun _ => ?_)
  exact takeStep_x.bind fun r hr => Post.pure (hr.trans (hd.trans hq))

/-- The solver keeps the size of `x`. -/
theorem QP_SOLVE_x {qp : QP K} : Post (QP_SOLVE qp) (fun r => r.2.x.length = qp.x.length) := by
  unfold QP_SOLVE
  refine Post.bind (Q := fun q : QP K => q.x.length = qp.x.length) ?_ fun q hq => Post.pure hq
  refine Post.ite (fun _ => ?_) (fun _ => Post.pure rfl)
  refine Post.bind (Q := fun r : QP K × Bool => r.1.x.length = qp.x.length)
    (Post.forBrkN (I := fun q : QP K => q.x.length = qp.x.length)
      (fun i s hs a ha => (solveBody_x a ha).trans hs) _ _ _ rfl) fun r hr => ?_
  exact Post.ite (fun _ => Post.pure hr) (fun _ => Post.pure hr)

/-! The objective value is set by every iteration. -/

theorem kktsolve_1_f {qp : QP K} : Post (kktsolve_1 qp) (fun r => r.2.stats.fval = qp.stats.fval) := by
  unfold kktsolve_1
  refine Post.next fun _ => ?_
  refine Post.ite (fun _ => ?_) (fun _ => Post.pure rfl)
  exact Post.next fun _ => Post.next fun _ => Post.next fun _ => Post.pure rfl

theorem kktsolve_2_f {qp : QP K} : Post (kktsolve_2 qp) (fun r => r.stats.fval = qp.stats.fval) := by
  unfold kktsolve_2
  exact Post.next fun _ => Post.next fun _ => Post.next fun _ => Post.next fun _ => Post.next fun _ =>
    Post.next fun _ => Post.next fun _ => Post.pure rfl

theorem directions_f {qp : QP K} {mu : K} :
    Post (directions qp mu) (fun r => r.1.stats.fval = qp.stats.fval) := by
  unfold directions
  refine Post.ite (fun _ => ?_) (fun _ => ?_)
  · refine Post.next fun _ => Post.next fun _ => Post.next fun _ => ?_
    refine kktsolve_1_f.bind fun r hr => ?_
    refine Post.ite (fun _ => Post.pure hr) (fun _ => ?_)
    exact Post.next fun _ => Post.next fun _ => Post.next fun _ => Post.next fun _ => Post.pure hr
  · exact Post.next fun _ => Post.next fun _ => Post.next fun _ => Post.pure rfl

theorem takeStep_f {qp : QP K} : Post (takeStep qp) (fun r => r.stats.fval = qp.stats.fval) := by
  unfold takeStep
  refine kktsolve_2_f.bind fun q hq => Post.next fun _ => ?_
  exact Post.next fun _ => Post.next fun _ => Post.next fun _ => Post.next fun _ => Post.pure hq

theorem solveBody_fval {qp : QP K} :
    Post (solveBody qp) (fun r => ∃ v, r.1.stats.fval = some v) := by
  unfold solveBody
  refine Post.bind (Q := fun q : QP K => ∃ v, q.stats.fval = some v) ?_ fun q hq => ?_
  · unfold evaluate
    exact Post.next fun _ => Post.next fun _ => Post.pure ⟨_, rfl⟩
  obtain ⟨v, hv⟩ := hq
  refine Post.next fun _ => Post.next fun _ => ?_
  refine Post.ite (fun _ => Post.pure ⟨v, hv⟩) (fun _ => ?_)
  unfold advance
  refine Post.next fun _ => Post.next fun _ => ?_
  refine directions_f.bind fun d hd => ?_
  refine Post.ite (fun _ => Post.pure ⟨v, hd.trans hv⟩) (fun _ => ?_)
  exact takeStep_f.bind fun r hr => Post.pure ⟨v, hr.trans (hd.trans hv)⟩

end Verif
