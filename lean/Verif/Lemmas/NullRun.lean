import Verif.Lemmas.NullLdl
import Verif.Lemmas.Post

/-! # Null arrays: setup and solve -/

set_option linter.unusedSectionVars false

namespace Verif

variable {K : Type} [Zero K] [One K] [Add K] [Sub K] [Mul K] [Div K] [Neg K] [Scalar K]

instance nullKkt : Nullable (Kkt K) where
  le a b := a.kktmatrix ≼ b.kktmatrix ∧ a.b ≼ b.b ∧ a.Parent ≼ b.Parent ∧ a.Flag ≼ b.Flag ∧
    a.Lnz ≼ b.Lnz ∧ a.Li ≼ b.Li ∧ a.Lp ≼ b.Lp ∧ a.Lti ≼ b.Lti ∧ a.Ltp ≼ b.Ltp ∧
    a.Pattern ≼ b.Pattern ∧ a.UPattern ≼ b.UPattern ∧ a.Y ≼ b.Y ∧ a.Lx ≼ b.Lx ∧ a.D ≼ b.D ∧
    a.P ≼ b.P ∧ a.Pinv ≼ b.Pinv
  refl _ := by refine ⟨?_, ?_, ?_, ?_, ?_, ?_, ?_, ?_, ?_, ?_, ?_, ?_, ?_, ?_, ?_, ?_⟩ <;>
    exact Nullable.refl _

/-- The members of `QP` that are numbers are equal; the arrays may be null. -/
structure QpLe (q r : QP K) : Prop where
  n : q.n = r.n
  m : q.m = r.m
  p : q.p = r.p
  sigma_d : q.sigma_d = r.sigma_d
  mu : q.mu = r.mu
  rho : q.rho = r.rho
  x : q.x ≼ r.x
  y : q.y ≼ r.y
  z : q.z ≼ r.z
  s : q.s ≼ r.s
  rx : q.rx ≼ r.rx
  ry : q.ry ≼ r.ry
  rz : q.rz ≼ r.rz
  delta : q.delta ≼ r.delta
  delta_x : q.delta_x ≼ r.delta_x
  delta_y : q.delta_y ≼ r.delta_y
  delta_z : q.delta_z ≼ r.delta_z
  delta_s : q.delta_s ≼ r.delta_s
  ds : q.ds ≼ r.ds
  lambda : q.lambda ≼ r.lambda
  temp : q.temp ≼ r.temp
  P : q.P ≼ r.P
  c : q.c ≼ r.c
  G : q.G ≼ r.G
  h : q.h ≼ r.h
  A : q.A ≼ r.A
  b : q.b ≼ r.b
  At : q.At ≼ r.At
  Gt : q.Gt ≼ r.Gt
  kkt : q.kkt ≼ r.kkt
  options : q.options = r.options
  stats : q.stats = r.stats

instance nullQP : Nullable (QP K) where
  le := QpLe
  refl _ := by constructor <;> first | rfl | exact Nullable.refl _

/-- Proves `QpLe` for structures obtained from related ones by changing members. -/
macro "qple" h:term : tactic => `(tactic| (
  show QpLe _ _
  constructor <;> (try dsimp only) <;> first
  | rfl
  | assumption
  | exact (QpLe.n $h) | exact (QpLe.m $h) | exact (QpLe.p $h) | exact (QpLe.sigma_d $h)
  | exact (QpLe.mu $h) | exact (QpLe.rho $h) | exact (QpLe.x $h) | exact (QpLe.y $h)
  | exact (QpLe.z $h) | exact (QpLe.s $h) | exact (QpLe.rx $h) | exact (QpLe.ry $h)
  | exact (QpLe.rz $h) | exact (QpLe.delta $h) | exact (QpLe.delta_x $h)
  | exact (QpLe.delta_y $h) | exact (QpLe.delta_z $h) | exact (QpLe.delta_s $h)
  | exact (QpLe.ds $h) | exact (QpLe.lambda $h) | exact (QpLe.temp $h) | exact (QpLe.P $h)
  | exact (QpLe.c $h) | exact (QpLe.G $h) | exact (QpLe.h $h) | exact (QpLe.A $h)
  | exact (QpLe.b $h) | exact (QpLe.At $h) | exact (QpLe.Gt $h) | exact (QpLe.kkt $h)
  | exact (QpLe.options $h) | exact (QpLe.stats $h)
  | rw [QpLe.stats $h] | rw [QpLe.options $h]))

theorem sim_callNumeric {k k' : Kkt K} (h : k ≼ k') : Sim (callNumeric k) (callNumeric k') := by
  obtain ⟨⟨j1, j2, j3, j4, j5, j6⟩, h2, h3, h4, h5, h6, h7, h8, h9, h10, h11, h12, h13, h14, h15,
    h16⟩ := h
  unfold callNumeric
  rw [j4]
  refine (sim_numeric _ j1 j2 j3 h7 h3 h15 h16 (show k.num ≼ k'.num from
    ⟨h5, h6, h13, h14, h12, h10, h4⟩)).bind ?_
  rintro ⟨r, s⟩ ⟨r', s'⟩ ⟨e, e1, e2, e3, e4, e5, e6, e7⟩
  exact Sim.pure ⟨e, ⟨j1, j2, j3, j4, j5, j6⟩, h2, h3, e7, e1, e2, h7, h8, h9, e6, h11, e5, e3, e4,
    h15, h16⟩

theorem sim_ldlSolve {k k' : Kkt K} (h : k ≼ k') {d d' : Buf K} (hd : d ≼ d') :
    Sim (ldlSolve k d) (ldlSolve k' d') := by
  obtain ⟨⟨j1, j2, j3, j4, j5, j6⟩, h2, h3, h4, h5, h6, h7, h8, h9, h10, h11, h12, h13, h14, h15,
    h16⟩ := h
  unfold ldlSolve
  simp only [j4]
  refine (sim_perm _ hd h2 h15).bind fun _ _ e => (sim_lsolve _ e h7 h6 h13).bind fun _ _ e =>
    (sim_dsolve _ e h14).bind fun _ _ e => (sim_ltsolve _ e h7 h6 h13).bind fun _ _ e =>
    (sim_permt _ h2 e h15).bind fun _ _ e2 => Sim.pure ⟨e, e2⟩

theorem Sim.ite2 {α : Type} [Nullable α] {c c' : Prop} [Decidable c] [Decidable c']
    {m₁ m₂ m₁' m₂' : M α} (hc : c ↔ c') (h₁ : Sim m₁ m₁') (h₂ : Sim m₂ m₂') :
    Sim (if c then m₁ else m₂) (if c' then m₁' else m₂') := by
  by_cases h : c
  · rw [if_pos h, if_pos (hc.1 h)]; exact h₁
  · rw [if_neg h, if_neg (fun h' => h (hc.2 h'))]; exact h₂

theorem sim_copyOut {a a' b b' : Buf K} (h : a ≼ a') (h2 : b ≼ b') {lo hi lo' hi' : Int}
    (e1 : lo = lo') (e2 : hi = hi') : Sim (copyOut a b lo hi) (copyOut a' b' lo' hi') := by
  subst e1 e2
  unfold copyOut
  sims

theorem sim_formDeltaS {q q' : QP K} (h : QpLe q q') {d d' : Buf K} (hd : d ≼ d') :
    Sim (formDeltaS q d) (formDeltaS q' d') := by
  have h1 := h.delta_s
  have h2 := h.ds
  have h3 := h.s
  have h4 := h.z
  unfold formDeltaS
  rw [h.m]
  sims

theorem sim_kktsolve_1 {q q' : QP K} (h : QpLe q q') : Sim (kktsolve_1 q) (kktsolve_1 q') := by
  unfold kktsolve_1
  refine (sim_callNumeric h.kkt).bind ?_
  rintro ⟨r, k⟩ ⟨r', k'⟩ ⟨hr, hk⟩
  have hr : r = r' := hr
  subst hr
  have hk : k ≼ k' := hk
  have hkn : k.kktmatrix.n = k'.kktmatrix.n := hk.1.2.2.2.1
  refine Sim.ite2 (by dsimp only; rw [hkn]) ?_ (Sim.pure ⟨rfl, { h with kkt := hk }⟩)
  refine (sim_ldlSolve hk h.delta).bind ?_
  rintro ⟨a, b⟩ ⟨a', b'⟩ ⟨ha, hb⟩
  have hk2 : { k with b := b } ≼ { k' with b := b' } := ⟨hk.1, hb, hk.2.2⟩
  have hq : QpLe { q with delta := a, kkt := { k with b := b } }
      { q' with delta := a', kkt := { k' with b := b' } } := { h with delta := ha, kkt := hk2 }
  refine (sim_copyOut h.delta_z hb (by dsimp only; rw [h.n, h.p])
    (by dsimp only; rw [h.n, h.p, h.m])).bind fun dz dz' hdz => ?_
  refine (sim_formDeltaS hq hdz).bind fun d d' hd => ?_
  exact Sim.pure ⟨rfl, { hq with delta_z := hdz, delta_s := hd }⟩

theorem sim_kktsolve_2 {q q' : QP K} (h : QpLe q q') : Sim (kktsolve_2 q) (kktsolve_2 q') := by
  unfold kktsolve_2
  refine Sim.val (fun _ e => by rw [← h.stats]; exact e) fun re => ?_
  refine Sim.bind (Sim.ite ((sim_callNumeric h.kkt).bind fun _ _ h => Sim.pure h.2)
    (Sim.pure h.kkt)) fun k k' hk => ?_
  refine (sim_ldlSolve hk h.delta).bind ?_
  rintro ⟨a, b⟩ ⟨a', b'⟩ ⟨ha, hb⟩
  have hk2 : { k with b := b } ≼ { k' with b := b' } := ⟨hk.1, hb, hk.2.2⟩
  have hq : QpLe { q with delta := a, kkt := { k with b := b } }
      { q' with delta := a', kkt := { k' with b := b' } } := { h with delta := ha, kkt := hk2 }
  refine (sim_copyOut h.delta_x hb rfl h.n).bind fun dx dx' hdx => ?_
  refine (sim_copyOut h.delta_y hb h.n (by dsimp only; rw [h.n, h.p])).bind fun dy dy' hdy => ?_
  refine (sim_copyOut h.delta_z hb (by dsimp only; rw [h.n, h.p])
    (by dsimp only; rw [h.n, h.p, h.m])).bind fun dz dz' hdz => ?_
  refine (sim_formDeltaS hq hdz).bind fun d d' hd => ?_
  exact Sim.pure { hq with delta_x := hdx, delta_y := hdy, delta_z := hdz, delta_s := hd }

theorem sim_ldlinitialsolve {al : Site → Bool} {k k' : Kkt K} (h : k ≼ k') {d d' : Buf K}
    (hd : d ≼ d') : Sim (ldlinitialsolveF al k d) (ldlinitialsolve k' d') := by
  obtain ⟨⟨j1, j2, j3, j4, j5, j6⟩, h2, h3, h4, h5, h6, h7, h8, h9, h10, h11, h12, h13, h14, h15,
    h16⟩ := h
  unfold ldlinitialsolveF ldlinitialsolve
  simp only [j4]
  refine (sim_symbolic _ j1 j2 null_mallocF null_mallocF null_mallocF null_mallocF h15 h16).bind ?_
  rintro ⟨a1, a2, a3, a4, a5⟩ ⟨b1, b2, b3, b4, b5⟩ ⟨e1, e2, e3, e4, e5⟩
  refine Sim.deref e5 fun Q Q' hQ => ?_
  refine Sim.rd e1 fun lnz => ?_
  refine (sim_callNumeric ?_).bind ?_
  · exact ⟨⟨j1, j2, j3, j4, j5, j6⟩, h2, e2, e4, e3, null_mallocF, e1, h8, h9, null_mallocF, h11,
      null_mallocF, null_mallocF, null_mallocF, h15, hQ⟩
  rintro ⟨r, K1⟩ ⟨r', K2⟩ ⟨hr, hk⟩
  have hr : r = r' := hr
  subst hr
  obtain ⟨⟨j1, j2, j3, j4, j5, j6⟩, h2, h3, h4, h5, h6, h7, h8, h9, h10, h11, h12, h13, h14, h15,
    h16⟩ := hk
  refine (sim_transposeRowCount h6 h7 null_mallocF null_mallocF _ _).bind ?_
  rintro ⟨t, u⟩ ⟨t', u'⟩ ⟨ht, hu⟩
  have hk2 : ({ K1 with Lti := t, Ltp := u } : Kkt K) ≼ { K2 with Lti := t', Ltp := u' } :=
    ⟨⟨j1, j2, j3, j4, j5, j6⟩, h2, h3, h4, h5, h6, h7, ht, hu, h10, h11, h12, h13, h14, h15, h16⟩
  refine Sim.ite ?_ (Sim.pure ⟨rfl, hk2, hd⟩)
  refine (sim_ldlSolve hk2 hd).bind ?_
  rintro ⟨a, b⟩ ⟨a', b'⟩ ⟨ha, hb⟩
  exact Sim.pure ⟨rfl, ⟨hk2.1, hb, hk2.2.2⟩, ha⟩

theorem sim_computeresiduals {q q' : QP K} (h : QpLe q q') :
    Sim (computeresiduals q) (computeresiduals q') := by
  unfold computeresiduals
  rw [h.p, h.n, h.m, h.stats]
  refine (sim_multiply h.P h.x h.rx 1).bind fun _ _ e => ?_
  refine (sim_transMultiply h.G h.z e 0).bind fun _ _ e => ?_
  refine Sim.bind (Sim.ite (Sim.deref h.A fun _ _ hA => sim_transMultiply hA h.y e 0)
    (Sim.pure e)) fun _ _ e => ?_
  refine (sim_updatevariables e h.c _ _).bind fun rx rx' e => ?_
  refine Sim.val (sim_norm e _) fun n_rx => ?_
  refine Sim.bind (α := QP K) (Sim.ite ?_ (Sim.pure (by qple h))) fun r r' hr => ?_
  · refine Sim.deref h.A fun _ _ hA => (sim_multiply hA h.x h.ry 1).bind fun _ _ e => ?_
    refine Sim.deref h.b fun _ _ hb => ?_
    refine (sim_updatevariables e hb _ _).bind fun _ _ e => ?_
    refine Sim.val (sim_norm e _) fun n_ry => ?_
    exact Sim.pure (α := QP K) (by qple h)
  · have hr : QpLe r r' := hr
    refine (sim_multiply hr.G hr.x hr.rz 1).bind fun _ _ e => ?_
    have h1 := hr.h
    have h2 := hr.s
    rw [hr.m]
    refine Sim.bind (by sims) fun _ _ e => ?_
    refine Sim.val (sim_norm e _) fun n_rz => ?_
    refine Sim.val (sim_innerproduct hr.s hr.z _) fun sz => ?_
    exact Sim.pure (α := QP K) (by qple hr)

theorem sim_evaluate {q q' : QP K} (h : QpLe q q') : Sim (evaluate q) (evaluate q') := by
  unfold evaluate
  refine (sim_computeresiduals h).bind fun r r' hr => ?_
  have hr : QpLe r r' := hr
  refine (sim_obj_value hr.P hr.c hr.x hr.temp).bind ?_
  rintro ⟨f, t⟩ ⟨f', t'⟩ ⟨hf, ht⟩
  have hf : f = f' := hf
  subst hf
  exact Sim.pure (α := QP K) (by qple hr)

theorem sim_directions {q q' : QP K} (h : QpLe q q') (mu : K) :
    Sim (directions q mu) (directions q' mu) := by
  unfold directions
  rw [h.sigma_d, h.options, h.m, h.n, h.p, h.stats]
  refine Sim.ite ?_ ?_
  · refine (sim_form_ds h.ds h.lambda h.delta_s h.delta_z _ _ _ _).bind fun ds ds' hds => ?_
    refine (sim_updatekktmatrix h.kkt.1 h.s h.z _ _ _).bind fun kp kp' hkp => ?_
    refine (sim_updatekktmatrix_b h.kkt.2.1 h.rx h.ry h.rz hds h.z _ _ _).bind fun kb kb' hkb => ?_
    have hkm : ({ q.kkt.kktmatrix with pr := kp } : Smat K) ≼
        { q'.kkt.kktmatrix with pr := kp' } := ⟨h.kkt.1.1, h.kkt.1.2.1, hkp, h.kkt.1.2.2.2⟩
    have hkk : ({ q.kkt with b := kb, kktmatrix := { q.kkt.kktmatrix with pr := kp } } : Kkt K) ≼
        { q'.kkt with b := kb', kktmatrix := { q'.kkt.kktmatrix with pr := kp' } } :=
      ⟨hkm, hkb, h.kkt.2.2⟩
    refine (sim_kktsolve_1 (by qple h)).bind ?_
    rintro ⟨f, r⟩ ⟨f', r'⟩ ⟨hf, hr⟩
    have hf : f = f' := hf
    subst hf
    have hr : QpLe r r' := hr
    refine Sim.ite (Sim.pure (α := QP K × Bool) ⟨by qple hr, rfl⟩) ?_
    dsimp only
    rw [hr.m, hr.n, hr.p]
    refine Sim.val (sim_findsteplength hr.s hr.delta_s hr.z hr.delta_z _) fun a => ?_
    refine Sim.val (sim_formrho hr.s hr.delta_s hr.z hr.delta_z _ _ _) fun rho => ?_
    rw [hr.sigma_d]
    refine (sim_form_ds hr.ds hr.lambda hr.delta_s hr.delta_z _ _ _ _).bind fun e e' he => ?_
    refine (sim_updatekktmatrix_b hr.kkt.2.1 hr.rx hr.ry hr.rz he hr.z _ _ _).bind
      fun kb kb' hkb => ?_
    have hkk : ({ r.kkt with b := kb } : Kkt K) ≼ { r'.kkt with b := kb' } :=
      ⟨hr.kkt.1, hkb, hr.kkt.2.2⟩
    exact Sim.pure (α := QP K × Bool) ⟨by qple hr, rfl⟩
  · refine (sim_form_ds h.ds h.lambda h.delta_s h.delta_z _ _ _ _).bind fun ds ds' hds => ?_
    refine (sim_updatekktmatrix h.kkt.1 h.s h.z _ _ _).bind fun kp kp' hkp => ?_
    refine (sim_updatekktmatrix_b h.kkt.2.1 h.rx h.ry h.rz hds h.z _ _ _).bind fun kb kb' hkb => ?_
    have hkm : ({ q.kkt.kktmatrix with pr := kp } : Smat K) ≼
        { q'.kkt.kktmatrix with pr := kp' } := ⟨h.kkt.1.1, h.kkt.1.2.1, hkp, h.kkt.1.2.2.2⟩
    have hkk : ({ q.kkt with b := kb, kktmatrix := { q.kkt.kktmatrix with pr := kp } } : Kkt K) ≼
        { q'.kkt with b := kb', kktmatrix := { q'.kkt.kktmatrix with pr := kp' } } :=
      ⟨hkm, hkb, h.kkt.2.2⟩
    exact Sim.pure (α := QP K × Bool) ⟨by qple h, rfl⟩

theorem sim_takeStep {q q' : QP K} (h : QpLe q q') : Sim (takeStep q) (takeStep q') := by
  unfold takeStep
  refine (sim_kktsolve_2 h).bind fun r r' hr => ?_
  have hr : QpLe r r' := hr
  rw [hr.m, hr.n, hr.p]
  refine Sim.val (sim_findsteplength hr.s hr.delta_s hr.z hr.delta_z _) fun a => ?_
  dsimp only
  refine (sim_updatevariables hr.x hr.delta_x _ _).bind fun x x' hx => ?_
  refine (sim_updatevariables hr.y hr.delta_y _ _).bind fun y y' hy => ?_
  refine (sim_updatevariables hr.s hr.delta_s _ _).bind fun s s' hs => ?_
  refine (sim_updatevariables hr.z hr.delta_z _ _).bind fun z z' hz => ?_
  exact Sim.pure (α := QP K) (by qple hr)

theorem sim_advance {q q' : QP K} (h : QpLe q q') : Sim (advance q) (advance q') := by
  unfold advance
  rw [h.m]
  refine (sim_formlambda h.lambda h.s h.z _).bind fun l l' hl => ?_
  refine Sim.val (sim_innerproduct hl hl _) fun ll => ?_
  refine (sim_directions (by qple h) _).bind ?_
  rintro ⟨r, t⟩ ⟨r', t'⟩ ⟨hr, ht⟩
  have ht : t = t' := ht
  subst ht
  exact Sim.ite (Sim.pure ⟨hr, rfl⟩) ((sim_takeStep hr).bind fun _ _ e => Sim.pure ⟨e, rfl⟩)

theorem sim_solveBody {q q' : QP K} (h : QpLe q q') : Sim (solveBody q) (solveBody q') := by
  unfold solveBody
  refine (sim_evaluate h).bind fun r r' hr => ?_
  have hr : QpLe r r' := hr
  rw [hr.options, hr.stats]
  refine Sim.val (fun _ h => h) fun _ => ?_
  refine Sim.val (m' := exitTest r') (fun a ha => ?_) fun t => ?_
  · unfold exitTest at ha ⊢
    rw [hr.stats, hr.options, hr.p] at ha
    exact ha
  · exact Sim.ite (Sim.pure (α := QP K × Bool)
      ⟨by qple hr, rfl⟩) (sim_advance (by qple hr))

/-- A successful solve with null arrays does what the solve with all arrays does. -/
theorem sim_solve {q q' : QP K} (h : QpLe q q') : Sim (QP_SOLVE q) (QP_SOLVE q') := by
  unfold QP_SOLVE
  rw [h.stats, h.options]
  refine Sim.bind (Sim.ite ?_ (Sim.pure (α := QP K) (by qple h))) fun r r' hr => ?_
  · refine Sim.bind (Sim.forBrk (α := QP K) (by qple h) fun _ r r' hr => sim_solveBody hr) ?_
    rintro ⟨r, t⟩ ⟨r', t'⟩ ⟨hr, -⟩
    have hr : QpLe r r' := hr
    dsimp only
    rw [hr.stats, hr.options]
    exact Sim.ite (Sim.pure (α := QP K) (by qple hr)) (Sim.pure (α := QP K) (by qple hr))
  · have hr : QpLe r r' := hr
    exact Sim.pure ⟨by rw [hr.stats]; rfl, hr⟩

/-! ## Setup -/

theorem sim_structF {β : Type} [Nullable β] {t : Bool} {m m' : M β} (h : t = true → Sim m m') :
    Sim (structF t >>= fun _ => m) m' := by
  unfold structF
  split
  · exact h ‹_›
  · exact Sim.error _ _

theorem sim_kkt_initialize {al : Site → Bool} {q q' : QP K} (h : QpLe q q') :
    Sim (kkt_initializeF al q) (kkt_initialize q') := by
  unfold kkt_initializeF kkt_initialize
  have h1 := h.kkt.2.1
  have h2 := h.c
  have h3 := h.h
  dsimp only
  rw [h.n, h.m, h.p]
  refine Sim.bind (by sims) fun b1 b1' e1 => ?_
  refine Sim.bind (Sim.forI e1 fun _ _ _ _ => Sim.deref h.b fun _ _ _ => by sims)
    fun b2 b2' e2 => ?_
  refine Sim.bind (by sims) fun b3 b3' e3 => ?_
  have hk : ({ q.kkt with b := b3 } : Kkt K) ≼ { q'.kkt with b := b3' } :=
    ⟨h.kkt.1, e3, h.kkt.2.2⟩
  refine (sim_ldlinitialsolve hk h.delta).bind ?_
  rintro ⟨f, k, d⟩ ⟨f', k', d'⟩ ⟨hf, hk, hd⟩
  have hf : f = f' := hf
  subst hf
  dsimp only at hk hd
  refine Sim.ite ?_ (Sim.pure ⟨rfl, by qple h⟩)
  refine (sim_copyOut h.x hk.2.1 rfl rfl).bind fun x x' hx => ?_
  refine (sim_copyOut h.y hk.2.1 rfl rfl).bind fun y y' hy => ?_
  refine (sim_multiply h.G hx null_mallocF 1).bind fun t t' ht => ?_
  refine (sim_updatevariables ht h.h _ _).bind fun t t' ht => ?_
  refine Sim.val (sim_findminmax ht _) fun mm => ?_
  have h4 := h.s
  have h5 := h.z
  refine Sim.bind (Sim.ite (by sims) (by sims)) fun s s' hs => ?_
  refine Sim.bind (Sim.ite (by sims) (by sims)) fun z z' hz => ?_
  exact Sim.pure ⟨rfl, by qple h⟩

/-- Every iteration of a loop that succeeds was entered in a state satisfying the invariant, and
succeeded. -/
theorem forN_iter {σ : Type} {I : σ → Prop} {f : Int → σ → M σ}
    (hf : ∀ i s, I s → Post (f i s) I) : ∀ (k : Nat) (i : Int) (s t : σ), I s →
    forN k i s f = .ok t → ∀ j : Int, i ≤ j → j < i + k → ∃ u v, I u ∧ f j u = .ok v := by
  intro k
  induction k with
  | zero => intro i s t _ _ j h1 h2; simp at h2; omega
  | succ k ih =>
    intro i s t hs h j h1 h2
    simp only [forN] at h
    cases hm : f i s with
    | error e => rw [hm] at h; cases h
    | ok a =>
      rw [hm] at h
      by_cases e : j = i
      · subst e; exact ⟨s, a, hs, hm⟩
      · exact ih (i + 1) a t (hf i s hs a hm) h j (by omega) (by push_cast at h2; omega)

theorem forI_iter {σ : Type} {I : σ → Prop} {lo hi : Int} {f : Int → σ → M σ} {s t : σ}
    (hs : I s) (hf : ∀ i s, I s → Post (f i s) I) (h : forI lo hi s f = .ok t) {j : Int}
    (h1 : lo ≤ j) (h2 : j < hi) : ∃ u v, I u ∧ f j u = .ok v :=
  forN_iter hf _ _ _ _ hs h j h1 (by omega)

/-- The first step of a run that succeeds. -/
theorem bind_ok {α β : Type} {m : M α} {f : α → M β} {b : β} (h : (m >>= f) = .ok b) :
    ∃ a, m = .ok a ∧ f a = .ok b := by
  cases hm : m with
  | error e => rw [hm] at h; cases h
  | ok a => rw [hm] at h; exact ⟨a, rfl, h⟩

theorem wr_nil {α : Type} {i : Int} {v : α} {c : Buf α} : wr ([] : Buf α) i v ≠ .ok c := by
  unfold wr
  split
  · intro h; cases h
  · simp

theorem rd_nil {α : Type} {i : Int} {v : α} : rd ([] : Buf α) i ≠ .ok v := by
  unfold rd
  split
  · intro h; cases h
  · simp

/-- Sizes of the arrays under construction. -/
def Lens (a b c : Nat) (st : KktBuild K) : Prop :=
  st.jc.length = a ∧ st.ir.length = b ∧ st.pr.length = c

theorem lens_appendCol {a b c : Nat} {src : Smat K} {off i : Int} {st : KktBuild K}
    (h : Lens a b c st) : Post (kktAppendCol src off i st) (Lens a b c) := by
  refine Post.next fun _ => Post.next fun _ => Post.forI h fun j st hst => ?_
  refine Post.next fun _ => Post.wr.bind fun _ h1 => Post.next fun _ => Post.wr.bind fun _ h2 => ?_
  exact Post.pure ⟨hst.1, h2.trans hst.2.1, h1.trans hst.2.2⟩

theorem lens_appendGt {a b c : Nat} {src : Smat K} {off i : Int} {st : KktBuild K}
    (h : Lens a b c st) : Post (kktAppendGt src off i st) (Lens a b c) := by
  refine Post.next fun _ => Post.next fun _ => Post.forI h fun j st hst => ?_
  refine Post.next fun _ => Post.wr.bind fun _ h1 => Post.next fun _ => Post.wr.bind fun _ h2 => ?_
  refine Post.ite (fun _ => ?_) (fun _ => Post.pure ⟨hst.1, h1.trans hst.2.1, h2.trans hst.2.2⟩)
  refine Post.wr.bind fun _ h3 => Post.wr.bind fun _ h4 => ?_
  exact Post.pure ⟨hst.1, h3.trans (h1.trans hst.2.1), h4.trans (h2.trans hst.2.2)⟩

/-- A column with an entry cannot be appended to null arrays. -/
theorem appendCol_null {src : Smat K} {off i : Int} {st st' : KktBuild K}
    (hlt : ∀ lo hi, rd src.jc i = .ok lo → rd src.jc (i + 1) = .ok hi → lo < hi)
    (h : kktAppendCol src off i st = .ok st') : st.ir ≠ [] ∧ st.pr ≠ [] := by
  unfold kktAppendCol at h
  obtain ⟨lo, h1, h⟩ := bind_ok h
  obtain ⟨hi, h2, h⟩ := bind_ok h
  obtain ⟨u, v, hu, hv⟩ := forI_iter (I := Lens st.jc.length st.ir.length st.pr.length)
    ⟨rfl, rfl, rfl⟩ (by
      intro j st hst
      refine Post.next fun _ => Post.wr.bind fun _ h1 => Post.next fun _ => Post.wr.bind
        fun _ h2 => ?_
      exact Post.pure ⟨hst.1, h2.trans hst.2.1, h1.trans hst.2.2⟩) h le_rfl (hlt lo hi h1 h2)
  obtain ⟨a, h3, hv⟩ := bind_ok hv
  obtain ⟨b, h4, hv⟩ := bind_ok hv
  obtain ⟨c, h5, hv⟩ := bind_ok hv
  obtain ⟨d, h6, hv⟩ := bind_ok hv
  constructor
  · intro e
    have : u.ir = [] := List.length_eq_zero_iff.1 (by rw [hu.2.1, e]; rfl)
    rw [this] at h6
    exact wr_nil h6
  · intro e
    have : u.pr = [] := List.length_eq_zero_iff.1 (by rw [hu.2.2, e]; rfl)
    rw [this] at h4
    exact wr_nil h4

/-- Sizes of the arrays of a sparse matrix. -/
def SLens (a b c : Nat) (A : Smat K) : Prop :=
  A.jc.length = a ∧ A.ir.length = b ∧ A.pr.length = c

/-- Assembly of the KKT matrix keeps the sizes of its arrays. -/
theorem lens_formkkt {P G Gt k : Smat K} {A At : Option (Smat K)} {a b c : Nat}
    (hk : SLens a b c k) : Post (formkktmatrix_full P G A Gt At k) (SLens a b c) := by
  have two : Post (formkktmatrix_full P G none Gt At k) (SLens a b c) := by
    refine Post.wr.bind fun jc hjc => ?_
    refine (Post.forI (I := Lens a b c) ⟨hjc.trans hk.1, hk.2.1, hk.2.2⟩ fun i st hst => ?_).bind
      fun st hst => ?_
    · refine (lens_appendCol hst).bind fun _ hst => (lens_appendCol hst).bind fun _ hst => ?_
      refine Post.next fun _ => Post.next fun _ => Post.wr.bind fun _ h => ?_
      exact Post.pure ⟨h.trans hst.1, hst.2.1, hst.2.2⟩
    · refine (Post.forI hst fun i st hst => ?_).bind fun st hst => Post.pure hst
      refine (lens_appendGt hst).bind fun _ hst => Post.wr.bind fun _ h => ?_
      exact Post.pure ⟨h.trans hst.1, hst.2.1, hst.2.2⟩
  rcases A with _ | A
  · exact two
  · rcases At with _ | At
    · exact two
    · refine Post.wr.bind fun jc hjc => ?_
      refine (Post.forI (I := Lens a b c) ⟨hjc.trans hk.1, hk.2.1, hk.2.2⟩ fun i st hst => ?_).bind
        fun st hst => ?_
      · refine (lens_appendCol hst).bind fun _ hst => (lens_appendCol hst).bind fun _ hst =>
          (lens_appendCol hst).bind fun _ hst => ?_
        refine Post.next fun _ => Post.next fun _ => Post.next fun _ => Post.wr.bind fun _ h => ?_
        exact Post.pure ⟨h.trans hst.1, hst.2.1, hst.2.2⟩
      · refine (Post.forI hst fun i st hst => ?_).bind fun st hst => ?_
        · refine (lens_appendCol hst).bind fun _ hst => Post.wr.bind fun _ h => ?_
          exact Post.pure ⟨h.trans hst.1, hst.2.1, hst.2.2⟩
        · refine (Post.forI hst fun i st hst => ?_).bind fun st hst => Post.pure hst
          refine (lens_appendGt hst).bind fun _ hst => Post.wr.bind fun _ h => ?_
          exact Post.pure ⟨h.trans hst.1, hst.2.1, hst.2.2⟩

/-- Assembly of the KKT matrix writes all its arrays. -/
theorem formkkt_null {P G Gt k r : Smat K} {A At : Option (Smat K)} {i : Int} (h0 : 0 ≤ i)
    (hi : i < P.n)
    (hlt : ∀ lo hi, rd G.jc i = .ok lo → rd G.jc (i + 1) = .ok hi → lo < hi)
    (h : formkktmatrix_full P G A Gt At k = .ok r) : k.jc ≠ [] ∧ k.ir ≠ [] ∧ k.pr ≠ [] := by
  have key : ∀ {u : KktBuild K} {st st' : KktBuild K} {off : Int},
      Lens st.jc.length k.ir.length k.pr.length u →
      kktAppendCol G off i u = .ok st' → k.ir ≠ [] ∧ k.pr ≠ [] := by
    intro u st st' off hu hv
    obtain ⟨e1, e2⟩ := appendCol_null hlt hv
    constructor
    · intro e
      exact e1 (List.length_eq_zero_iff.1 (by rw [hu.2.1, e]; rfl))
    · intro e
      exact e2 (List.length_eq_zero_iff.1 (by rw [hu.2.2, e]; rfl))
  have two : formkktmatrix_full P G none Gt At k = .ok r → k.jc ≠ [] ∧ k.ir ≠ [] ∧ k.pr ≠ [] := by
    intro h
    unfold formkktmatrix_full at h
    obtain ⟨jc, h1, h⟩ := bind_ok h
    obtain ⟨st, h2, h⟩ := bind_ok h
    refine ⟨fun e => wr_nil (e ▸ h1), ?_⟩
    obtain ⟨u, v, hu, hv⟩ := forI_iter (I := Lens jc.length k.ir.length k.pr.length)
      ⟨rfl, rfl, rfl⟩ (fun i st hst => by
        refine (lens_appendCol hst).bind fun _ hst => (lens_appendCol hst).bind fun _ hst => ?_
        refine Post.next fun _ => Post.next fun _ => Post.wr.bind fun _ h => ?_
        exact Post.pure ⟨h.trans hst.1, hst.2.1, hst.2.2⟩) h2 h0 hi
    obtain ⟨s1, g1, hv⟩ := bind_ok hv
    obtain ⟨s2, g2, hv⟩ := bind_ok hv
    exact key (st := ⟨jc, [], [], 0⟩) (lens_appendCol hu _ g1) g2
  rcases A with _ | A
  · exact two h
  · rcases At with _ | At
    · exact two h
    · unfold formkktmatrix_full at h
      obtain ⟨jc, h1, h⟩ := bind_ok h
      obtain ⟨st, h2, h⟩ := bind_ok h
      refine ⟨fun e => wr_nil (e ▸ h1), ?_⟩
      obtain ⟨u, v, hu, hv⟩ := forI_iter (I := Lens jc.length k.ir.length k.pr.length)
        ⟨rfl, rfl, rfl⟩ (fun i st hst => by
          refine (lens_appendCol hst).bind fun _ hst => (lens_appendCol hst).bind fun _ hst =>
            (lens_appendCol hst).bind fun _ hst => ?_
          refine Post.next fun _ => Post.next fun _ => Post.next fun _ => Post.wr.bind
            fun _ h => ?_
          exact Post.pure ⟨h.trans hst.1, hst.2.1, hst.2.2⟩) h2 h0 hi
      obtain ⟨s1, g1, hv⟩ := bind_ok hv
      obtain ⟨s2, g2, hv⟩ := bind_ok hv
      obtain ⟨s3, g3, hv⟩ := bind_ok hv
      exact key (st := ⟨jc, [], [], 0⟩) (lens_appendCol (lens_appendCol hu _ g1) _ g2) g3

theorem mallocF_ne {α : Type} {t : Bool} {n : Int} (h : (mallocF t n : Buf α) ≠ []) :
    t = true ∧ 0 < n := by
  unfold mallocF malloc at h
  cases t with
  | false => simp at h
  | true => exact ⟨rfl, by simpa using h⟩

theorem null_ne {α : Type} {b b' : Buf α} (h : b ≼ b') (hb : b ≠ []) : b = b' := by
  rcases h with h | h
  · exact h
  · exact absurd h hb

/-- The two inputs of the common part of setup. -/
structure SiLe (q r : SetupIn K) : Prop where
  argn : q.argn = r.argn
  argm : q.argm = r.argm
  argp : q.argp = r.argp
  p : q.p = r.p
  P : q.P ≼ r.P
  G : q.G ≼ r.G
  A : q.A ≼ r.A
  c : q.c ≼ r.c
  h : q.h ≼ r.h
  b : q.b ≼ r.b
  sigma_d : q.sigma_d = r.sigma_d
  Permut : q.Permut = r.Permut

theorem sim_choosePerm {al : Site → Bool} {amd : Amd} {si si' : SetupIn K} (h : SiLe si si')
    {k k' : Smat K} (hn : k.n = k'.n) (hjc : k.jc = k'.jc) (hir : k.ir = k'.ir)
    (h1 : al .kktjc = true) (h2 : al .kktir = true)
    (hpos : si'.Permut = none → al .kktP = true)
    (dim : Int) : Sim (choosePermF al amd si k dim) (choosePerm amd si' k' dim) := by
  unfold choosePermF choosePerm
  rw [h.Permut]
  cases hP : si'.Permut with
  | some Q => exact Sim.pure (Nullable.refl _)
  | none =>
    dsimp only
    simp only [h1, h2, hpos hP, Bool.and_self, if_true, mallocF, hn, hjc, hir, h.argn, h.argm,
      h.argp]
    exact Sim.refl _

/-- A successful setup with null arrays does what the setup with all arrays does. -/
theorem sim_setupTail {al : Site → Bool} {amd : Amd} {si si' : SetupIn K} (h : SiLe si si')
    (hpos : si'.Permut = none → al .kktP = true) {i : Int} (h0 : 0 ≤ i) (hi : i < si'.P.n)
    (hlt : ∀ lo hi, rd si'.G.jc i = .ok lo → rd si'.G.jc (i + 1) = .ok hi → lo < hi) :
    Sim (setupTailF al amd si) (setupTail amd si') := by
  have gm : si.G.m = si'.G.m := h.G.2.2.2.2.1
  have gn : si.G.n = si'.G.n := h.G.2.2.2.1
  have gz : si.G.nnz = si'.G.nnz := h.G.2.2.2.2.2
  have pz : si.P.nnz = si'.P.nnz := h.P.2.2.2.2.2
  have pn : si.P.n = si'.P.n := h.P.2.2.2.1
  unfold setupTailF setupTail
  dsimp only
  refine Sim.bind (α := Option (Smat K)) ?_ fun At At' hAt => ?_
  · have hA := h.A
    revert hA
    cases si.A with
    | none =>
      cases si'.A with
      | none => exact fun _ => Sim.pure trivial
      | some _ => exact fun e => e.elim
    | some A =>
      cases si'.A with
      | none => exact fun e => e.elim
      | some A' =>
        intro hA
        have hA : A ≼ A' := hA
        refine Sim.bind ?_ fun t t' ht => Sim.pure (show some t ≼ some t' from ht)
        unfold transposeAF allocTranspose
        refine sim_structF fun _ => ?_
        rw [← hA.2.2.2.1, ← hA.2.2.2.2.1, ← hA.2.2.2.2.2]
        exact sim_transpose hA ⟨null_mallocF, null_mallocF, null_mallocF, rfl, rfl, rfl⟩
  refine Sim.bind (α := Smat K) ?_ fun Gt Gt' hGt => ?_
  · unfold transposeGF allocTranspose
    refine sim_structF fun _ => ?_
    rw [← gn, ← gm, ← gz]
    exact sim_transpose h.G ⟨null_mallocF, null_mallocF, null_mallocF, rfl, rfl, rfl⟩
  have tail : ∀ (A A' : Option (Smat K)) (D : Int × Int) (yb : Site → Buf K) (yb' : Buf K),
      A ≼ A' → (∀ t, yb t ≼ yb') →
      Sim (do
        structF (al .kkt)
        structF (al .kktmatrix)
        let kktmatrix ← formkktmatrix_full si.P si.G A Gt At
          (SparseMatrixSetup D.2 D.2 D.1 (mallocF (al .kktjc) (D.2 + 1))
            (mallocF (al .kktir) D.1) (mallocF (al .kktpr) D.1))
        let pr ← choosePermF al amd si kktmatrix (si.argm + si.argn + si.p)
        let r ← kkt_initializeF al
          { n := si.argn, m := si.argm, p := si.p, sigma_d := si.sigma_d, mu := none, rho := none
            x := mallocF (al .x) si.argn, y := yb .y, z := mallocF (al .z) si.argm
            s := mallocF (al .s) si.argm
            rx := mallocF (al .rx) si.argn, ry := yb .ry, rz := mallocF (al .rz) si.argm
            delta := mallocF (al .delta) (si.argn + si.argm + si.p)
            delta_x := mallocF (al .delta_x) si.argn
            delta_y := yb .delta_y
            delta_z := mallocF (al .delta_z) si.argm, delta_s := mallocF (al .delta_s) si.argm
            ds := mallocF (al .ds) si.argm, lambda := mallocF (al .lambda) si.argm
            temp := mallocF (al .temp) si.argn
            P := si.P, c := si.c, G := si.G, h := si.h, A := A, b := si.b, At := At, Gt := Gt
            kkt :=
              { kktmatrix := kktmatrix, b := mallocF (al .kktb) (si.argm + si.argn + si.p)
                P := pr.2, Pinv := mallocF (al .Pinv) (si.argm + si.argn + si.p)
                UPattern := mallocF (al .UPattern) (si.argm + si.argn + si.p), Parent := []
                Flag := [], Lnz := [], Li := [], Lp := [], Lti := [], Ltp := []
                Pattern := [], Y := [], Lx := [], D := [] }
            options := defaultSettings
            stats := { (initialStats : Stats K) with AMD_RESULT := pr.1 } }
        if r.1 = 0 then
          pure { r.2 with stats := { r.2.stats with Flag := QP_KKTFAIL } }
        else pure r.2)
      (do
        let kktmatrix ← formkktmatrix_full si'.P si'.G A' Gt' At'
          (SparseMatrixSetup D.2 D.2 D.1 (malloc (D.2 + 1)) (malloc D.1) (malloc D.1))
        let pr ← choosePerm amd si' kktmatrix (si'.argm + si'.argn + si'.p)
        let r ← kkt_initialize
          { n := si'.argn, m := si'.argm, p := si'.p, sigma_d := si'.sigma_d, mu := none
            rho := none
            x := malloc si'.argn, y := yb', z := malloc si'.argm, s := malloc si'.argm
            rx := malloc si'.argn, ry := yb', rz := malloc si'.argm
            delta := malloc (si'.argn + si'.argm + si'.p), delta_x := malloc si'.argn
            delta_y := yb'
            delta_z := malloc si'.argm, delta_s := malloc si'.argm, ds := malloc si'.argm
            lambda := malloc si'.argm, temp := malloc si'.argn
            P := si'.P, c := si'.c, G := si'.G, h := si'.h, A := A', b := si'.b, At := At'
            Gt := Gt'
            kkt :=
              { kktmatrix := kktmatrix, b := malloc (si'.argm + si'.argn + si'.p)
                P := pr.2, Pinv := malloc (si'.argm + si'.argn + si'.p)
                UPattern := malloc (si'.argm + si'.argn + si'.p), Parent := []
                Flag := [], Lnz := [], Li := [], Lp := [], Lti := [], Ltp := []
                Pattern := [], Y := [], Lx := [], D := [] }
            options := defaultSettings
            stats := { (initialStats : Stats K) with AMD_RESULT := pr.1 } }
        if r.1 = 0 then
          pure { r.2 with stats := { r.2.stats with Flag := QP_KKTFAIL } }
        else pure r.2) := by
    intro A A' D yb yb' hA hyb
    refine sim_structF fun _ => sim_structF fun _ => ?_
    have hk0 : (SparseMatrixSetup D.2 D.2 D.1 (mallocF (al .kktjc) (D.2 + 1))
        (mallocF (al .kktir) D.1) (mallocF (al .kktpr) D.1) : Smat K) ≼
        SparseMatrixSetup D.2 D.2 D.1 (malloc (D.2 + 1)) (malloc D.1) (malloc D.1) :=
      ⟨null_mallocF, null_mallocF, null_mallocF, rfl, rfl, rfl⟩
    intro q hq0
    obtain ⟨k, hk, hq⟩ := bind_ok hq0
    clear hq0
    obtain ⟨k', hk', hkk⟩ := sim_formkkt h.P h.G hA hGt hAt hk0 k hk
    have hkk : k ≼ k' := hkk
    obtain ⟨n1, n2, n3⟩ := formkkt_null h0 (by rw [pn]; exact hi) (fun lo hi e1 e2 =>
      hlt lo hi (rd_null h.G.1 _ e1) (rd_null h.G.1 _ e2)) hk
    obtain ⟨l1, l2, l3⟩ := lens_formkkt ⟨rfl, rfl, rfl⟩ k hk
    have e1 : k.jc ≠ [] := fun e => n1 (List.length_eq_zero_iff.1 (by rw [← l1, e]; rfl))
    have e2 : k.ir ≠ [] := fun e => n2 (List.length_eq_zero_iff.1 (by rw [← l2, e]; rfl))
    have hrest := sim_choosePerm (amd := amd) h hkk.2.2.2.1 (null_ne hkk.1 e1)
      (null_ne hkk.2.1 e2) (mallocF_ne n1).1 (mallocF_ne n2).1 hpos (si.argm + si.argn + si.p)
    rw [hk', ok_bind]
    revert q
    change Sim (α := QP K) _ _
    rw [← h.argn, ← h.argm, ← h.p, ← h.sigma_d]
    refine hrest.bind ?_
    rintro ⟨f, Q⟩ ⟨f', Q'⟩ ⟨hf, hQ⟩
    have hf : f = f' := hf
    subst hf
    have hQ : Q ≼ Q' := hQ
    refine (sim_kkt_initialize ?_).bind ?_
    · constructor <;> (try dsimp only) <;> first
        | rfl | exact null_mallocF | exact hyb _ | exact h.P | exact h.c | exact h.G | exact h.h
        | exact hA | exact h.b | exact hAt | exact hGt | skip
      exact ⟨hkk, null_mallocF, Nullable.refl _, Nullable.refl _, Nullable.refl _,
        Nullable.refl _, Nullable.refl _, Nullable.refl _, Nullable.refl _, Nullable.refl _,
        null_mallocF, Nullable.refl _, Nullable.refl _, Nullable.refl _, hQ, null_mallocF⟩
    · rintro ⟨t, r⟩ ⟨t', r'⟩ ⟨ht, hr⟩
      have ht : t = t' := ht
      subst ht
      have hr : QpLe r r' := hr
      exact Sim.ite (Sim.pure (α := QP K) (by qple hr)) (Sim.pure (α := QP K) (by qple hr))
  have hA := h.A
  cases e1 : si.A with
  | none =>
    cases e2 : si'.A with
    | none =>
      have := tail none none (si'.P.nnz + 2 * si'.G.nnz + si'.G.m, si'.P.n + si'.G.m) (fun _ => [])
        [] trivial (fun _ => Nullable.refl _)
      simp only [gm, gz, pz, pn]
      exact this
    | some A' => rw [e1, e2] at hA; exact hA.elim
  | some A =>
    cases e2 : si'.A with
    | none => rw [e1, e2] at hA; exact hA.elim
    | some A' =>
      rw [e1, e2] at hA
      have hA : A ≼ A' := hA
      have am : A.m = A'.m := hA.2.2.2.2.1
      have az : A.nnz = A'.nnz := hA.2.2.2.2.2
      have := tail (some A) (some A')
        (si'.P.nnz + 2 * si'.G.nnz + si'.G.m + 2 * A'.nnz, si'.P.n + A'.m + si'.G.m)
        (fun t => mallocF (al t) si.p) (malloc si'.p) hA
        (fun _ => by rw [← h.p]; exact null_mallocF)
      simp only [gm, gz, pz, pn, am, az]
      exact this

end Verif
