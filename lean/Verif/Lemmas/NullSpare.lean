import Verif.Lemmas.NullPass

/-!
# The solver does not access `UPattern`
-/

set_option linter.unusedSectionVars false

namespace Verif

variable {K : Type} [Zero K] [One K] [Add K] [Sub K] [Mul K] [Div K] [Neg K] [Scalar K]

/-- The state with another array `UPattern`. -/
def QP.setU (u : Buf Int) (q : QP K) : QP K := { q with kkt := { q.kkt with UPattern := u } }

theorem bind_mapOk {α β γ δ : Type} {m : M α} {m' : M γ} {f : α → M β} {g : γ → M δ} {j : α → γ}
    {k : β → δ} (hm : m' = M.mapOk j m) (h : ∀ a, g (j a) = M.mapOk k (f a)) :
    (m' >>= g) = M.mapOk k (m >>= f) := by
  subst hm
  cases m with
  | error e => rfl
  | ok a => exact h a

variable (u : Buf Int)

theorem callNumeric_setU (k : Kkt K) :
    callNumeric { k with UPattern := u }
      = M.mapOk (fun r => (r.1, { r.2 with UPattern := u })) (callNumeric k) := by
  unfold callNumeric
  exact mapOk_bind fun r => rfl

theorem kktsolve_1_setU (q : QP K) :
    kktsolve_1 (q.setU u) = M.mapOk (fun r => (r.1, r.2.setU u)) (kktsolve_1 q) := by
  unfold kktsolve_1
  refine bind_mapOk (callNumeric_setU u q.kkt) fun r => ?_
  refine mapOk_ite ?_ rfl
  exact mapOk_bind fun _ => mapOk_bind fun _ => mapOk_bind fun _ => rfl

theorem kktsolve_2_setU (q : QP K) :
    kktsolve_2 (q.setU u) = M.mapOk (QP.setU u) (kktsolve_2 q) := by
  unfold kktsolve_2
  refine mapOk_bind fun re => ?_
  refine bind_mapOk (j := fun k : Kkt K => { k with UPattern := u }) ?_ fun k => ?_
  · refine mapOk_ite ?_ rfl
    exact bind_mapOk (callNumeric_setU u q.kkt) fun r => rfl
  · exact mapOk_bind fun _ => mapOk_bind fun _ => mapOk_bind fun _ => mapOk_bind fun _ =>
      mapOk_bind fun _ => rfl

theorem directions_setU (q : QP K) (mu : K) :
    directions (q.setU u) mu = M.mapOk (fun r => (r.1.setU u, r.2)) (directions q mu) := by
  unfold directions
  refine mapOk_ite ?_ ?_
  · refine mapOk_bind fun ds => mapOk_bind fun kpr => mapOk_bind fun kb => ?_
    refine bind_mapOk (kktsolve_1_setU (K := K) u
      { q with ds := ds, kkt := { q.kkt with b := kb, kktmatrix := { q.kkt.kktmatrix with pr := kpr } } })
      fun r => ?_
    refine mapOk_ite rfl ?_
    exact mapOk_bind fun _ => mapOk_bind fun _ => mapOk_bind fun _ => mapOk_bind fun _ => rfl
  · exact mapOk_bind fun _ => mapOk_bind fun _ => mapOk_bind fun _ => rfl

theorem takeStep_setU (q : QP K) : takeStep (q.setU u) = M.mapOk (QP.setU u) (takeStep q) := by
  unfold takeStep
  refine bind_mapOk (kktsolve_2_setU u q) fun q => ?_
  exact mapOk_bind fun _ => mapOk_bind fun _ => mapOk_bind fun _ => mapOk_bind fun _ =>
    mapOk_bind fun _ => rfl

theorem evaluate_setU (q : QP K) : evaluate (q.setU u) = M.mapOk (QP.setU u) (evaluate q) := by
  unfold evaluate
  have h : computeresiduals (q.setU u) = M.mapOk (QP.setU u) (computeresiduals q) := by
    unfold computeresiduals
    refine mapOk_bind fun _ => mapOk_bind fun _ => mapOk_bind fun _ => mapOk_bind fun _ =>
      mapOk_bind fun _ => ?_
    refine bind_mapOk (j := QP.setU u) ?_ fun q => ?_
    · refine mapOk_ite ?_ rfl
      exact mapOk_bind fun _ => mapOk_bind fun _ => mapOk_bind fun _ => mapOk_bind fun _ =>
        mapOk_bind fun _ => rfl
    · exact mapOk_bind fun _ => mapOk_bind fun _ => mapOk_bind fun _ => mapOk_bind fun _ => rfl
  exact bind_mapOk h fun q => mapOk_bind fun _ => rfl

theorem solveBody_setU (q : QP K) :
    solveBody (q.setU u) = M.mapOk (fun r => (r.1.setU u, r.2)) (solveBody q) := by
  unfold solveBody
  refine bind_mapOk (evaluate_setU u q) fun q => mapOk_bind fun _ => mapOk_bind fun _ => ?_
  refine mapOk_ite rfl ?_
  unfold advance
  refine mapOk_bind fun l => mapOk_bind fun ll => ?_
  refine bind_mapOk (directions_setU (K := K) u
    { q with lambda := l, mu := some (ll / Scalar.ofInt q.m) } (ll / Scalar.ofInt q.m)) fun d => ?_
  refine mapOk_ite rfl ?_
  exact bind_mapOk (takeStep_setU (K := K) u d.1) fun q => rfl

theorem forBrkN_setU {f : Int → QP K → M (QP K × Bool)}
    (h : ∀ i q, f i (q.setU u) = M.mapOk (fun r => (r.1.setU u, r.2)) (f i q)) :
    ∀ (k : Nat) (lo : Int) (q : QP K), forBrkN k lo (q.setU u) f
      = M.mapOk (fun r => (r.1.setU u, r.2)) (forBrkN k lo q f) := by
  intro k
  induction k with
  | zero => intro lo q; rfl
  | succ k ih =>
    intro lo q
    unfold forBrkN
    refine bind_mapOk (h lo q) fun r => ?_
    exact mapOk_ite rfl (ih _ _)

/-- The solver does not access `UPattern`. -/
theorem QP_SOLVE_setU (q : QP K) :
    QP_SOLVE (q.setU u) = M.mapOk (fun r => (r.1, r.2.setU u)) (QP_SOLVE q) := by
  unfold QP_SOLVE
  refine bind_mapOk (j := QP.setU u) ?_ fun q => rfl
  refine mapOk_ite ?_ rfl
  refine bind_mapOk (forBrkN_setU (K := K) u (f := fun _ q => solveBody q)
    (fun _ q => solveBody_setU u q) (q.options.maxit - 0).toNat 0 q) fun r => ?_
  exact mapOk_ite rfl rfl

end Verif
