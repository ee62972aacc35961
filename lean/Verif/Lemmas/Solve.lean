import Verif.Lemmas.Setup

/-!
# The main loop, for any arithmetic
-/

set_option linter.unusedSectionVars false

namespace Verif

variable {K : Type} [Zero K] [One K] [Add K] [Sub K] [Mul K] [Div K] [Neg K] [Scalar K]

/-- Result of one execution of the loop body from the iterate `x, y, z, s`. -/
structure BodyOut (pk pb : Problem K) (p q : Nat → Nat) (qp : QP K) (x y z s : Nat → K)
    (r : QP K × Bool) : Prop where
  inv : QInv pk pb p q r.1
  frame : qp.Frame r.1
  brk : r.2 = exitF pb qp.options x y z s
  stop : r.2 = true → r.1.Iter pb x y z s ∧ r.1.Res pb x y z s ∧ r.1.options = qp.options ∧
    r.1.stats = { evalStats pb x y z s qp.stats with Flag := QP_OPTIMAL } ∧
    ∃ rx ry rz temp st, r.1 = { qp with
        rx := rx, ry := ry, rz := rz, temp := temp, stats := st }
  step : r.2 = false → ∃ t : FSt K,
    StepTo pk pb p q t x y z s qp.options.sigma r.1 ∧
    r.1.options = { qp.options with sigma := sigF pb p q t x y z s qp.options.sigma } ∧
    ∃ re, r.1.stats = { evalStats pb x y z s qp.stats with
      alpha_p := alphaP pb s (stepDir pb p q t x y z s qp.options.sigma)
      alpha_d := alphaD pb z (stepDir pb p q t x y z s qp.options.sigma)
      resolve_kkt := re
      IterationCount := qp.stats.IterationCount + 1 }

theorem solveBody_spec {pk pb : Problem K} (hpb : pb.WF) {p q : Nat → Nat} {qp : QP K}
    (h : QInv pk pb p q qp) {x y z s : Nat → K} (hi : qp.Iter pb x y z s) (hv : PrintOk pb qp) :
    Spec (solveBody qp) (BodyOut pk pb p q qp x y z s) := by
  unfold solveBody
  refine Spec.bind (evaluate_spec hpb h hi) ?_
  rintro qp1 ⟨h1, h2, h3, h4, rx, ry, rz, temp, h5⟩
  have hopt : qp1.options = qp.options := by rw [h5]
  have hfr : qp.Frame qp1 := by
    rw [h5]
    refine { QP.Frame.refl qp with amd := ?_ }
    show qp1.stats.AMD_RESULT = _
    rw [h4]
    rfl
  have hpr : (if 0 < qp1.options.verbose then printReads qp1.stats else pure ()) = .ok () := by
    split
    · next hvb =>
      have hry : ∃ v, qp1.stats.n_ry = some v := by
        rw [hopt] at hvb
        rw [h4]
        unfold evalStats
        simp only
        rcases hv with hv | hv | ⟨v, hv⟩
        · omega
        · rw [if_neg hv]; exact ⟨_, rfl⟩
        · split
          · exact ⟨v, hv⟩
          · exact ⟨_, rfl⟩
      obtain ⟨v, hry⟩ := hry
      unfold printReads
      rw [hry, h4]
      rfl
    · rfl
  have hxt := exitTest_eq h1 h4
  rw [hopt] at hxt
  rw [hpr, ok_bind, hxt, ok_bind]
  by_cases hex : exitF pb qp.options x y z s = true
  · rw [hex]
    simp only [if_true]
    refine Spec.pure ⟨{ h1 with }, ?_, hex.symm, fun _ => ⟨⟨h2.x, h2.y, h2.z, h2.s⟩,
      ⟨h3.rx, h3.ry, h3.rz⟩, hopt, ?_, rx, ry, rz, temp,
      { qp1.stats with Flag := QP_OPTIMAL }, ?_⟩, fun hc => by simp at hc⟩
    · exact hfr.trans { QP.Frame.refl qp1 with }
    · simp only [h4]
    · rw [h5]
  · rw [Bool.not_eq_true] at hex
    rw [hex]
    simp only [Bool.false_eq_true, if_false]
    refine (advance_spec h1 h2 h3).mono ?_
    rintro r ⟨g1, g2, g3, t, g4, g5, re, g6⟩
    rw [hopt] at g4 g5 g6
    refine ⟨g2, hfr.trans g3, by rw [g1, hex], fun hc => by rw [g1] at hc; simp at hc,
      fun _ => ⟨t, g4, g5, re, ?_⟩⟩
    rw [g6, h4]
    rfl

/-! ## Iterations -/

/-- What holds of the structure between two iterations. -/
structure SInv (pk pb : Problem K) (p q : Nat → Nat) (qp : QP K) : Prop where
  inv : QInv pk pb p q qp
  iter : ∃ x y z s, qp.Iter pb x y z s
  flag : qp.stats.Flag = QP_OPTIMAL ∨ qp.stats.Flag = QP_MAXIT ∨ qp.stats.Flag = QP_FATAL
  count : 0 ≤ qp.stats.IterationCount

theorem BodyOut.flag {pk pb : Problem K} {p q : Nat → Nat} {qp : QP K} {x y z s : Nat → K}
    {r : QP K × Bool} (h : BodyOut pk pb p q qp x y z s r) :
    r.1.stats.Flag = if r.2 then QP_OPTIMAL else qp.stats.Flag := by
  cases hb : r.2
  · obtain ⟨t, _, _, re, h1⟩ := h.step hb
    rw [h1]
    rfl
  · obtain ⟨_, _, _, h1, _⟩ := h.stop hb
    rw [h1]
    rfl

theorem BodyOut.count {pk pb : Problem K} {p q : Nat → Nat} {qp : QP K} {x y z s : Nat → K}
    {r : QP K × Bool} (h : BodyOut pk pb p q qp x y z s r) :
    r.1.stats.IterationCount = qp.stats.IterationCount + if r.2 then 0 else 1 := by
  cases hb : r.2
  · obtain ⟨t, _, _, re, h1⟩ := h.step hb
    rw [h1]
    rfl
  · obtain ⟨_, _, _, h1, _⟩ := h.stop hb
    rw [h1]
    simp [evalStats]

theorem BodyOut.sinv {pk pb : Problem K} {p q : Nat → Nat} {qp : QP K} {x y z s : Nat → K}
    {r : QP K × Bool} (h : BodyOut pk pb p q qp x y z s r) (hs : SInv pk pb p q qp) :
    SInv pk pb p q r.1 := by
  refine ⟨h.inv, ?_, ?_, ?_⟩
  · cases hb : r.2
    · obtain ⟨t, h1, _⟩ := h.step hb
      exact ⟨_, _, _, _, h1.iter⟩
    · exact ⟨x, y, z, s, (h.stop hb).1⟩
  · rw [h.flag]
    split
    · exact Or.inl rfl
    · exact hs.flag
  · rw [h.count]
    have := hs.count
    split <;> omega

theorem BodyOut.printOk {pk pb : Problem K} {p q : Nat → Nat} {qp : QP K} {x y z s : Nat → K}
    {r : QP K × Bool} (h : BodyOut pk pb p q qp x y z s r) (hv : PrintOk pb qp) :
    PrintOk pb r.1 := by
  rcases hv with hv | hv | ⟨v, hv⟩
  · exact Or.inl (by rw [h.frame.verbose]; exact hv)
  · exact Or.inr (Or.inl hv)
  · by_cases hp : pb.p = 0
    · refine Or.inr (Or.inr ⟨v, ?_⟩)
      cases hb : r.2
      · obtain ⟨t, _, _, re, h1⟩ := h.step hb
        rw [h1]
        simp only [evalStats, hp, if_true]
        exact hv
      · obtain ⟨_, _, _, h1, _⟩ := h.stop hb
        rw [h1]
        simp only [evalStats, hp, if_true]
        exact hv
    · exact Or.inr (Or.inl hp)

/-- The body never fails between iterations. -/
theorem SInv.body {pk pb : Problem K} (hpb : pb.WF) {p q : Nat → Nat} {qp : QP K}
    (h : SInv pk pb p q qp) (hv : PrintOk pb qp) :
    ∃ x y z s r, qp.Iter pb x y z s ∧ solveBody qp = .ok r ∧ BodyOut pk pb p q qp x y z s r := by
  obtain ⟨x, y, z, s, hi⟩ := h.iter
  obtain ⟨r, h1, h2⟩ := solveBody_spec hpb h.inv hi hv
  exact ⟨x, y, z, s, r, hi, h1, h2⟩

/-- Printing the statistic that setup leaves uninitialised. -/
theorem solveBody_uninit {pk pb : Problem K} (hpb : pb.WF) {p q : Nat → Nat} {qp : QP K}
    (h : SInv pk pb p q qp) (hv : ¬ PrintOk pb qp) : solveBody qp = .error .uninit := by
  unfold PrintOk at hv
  push Not at hv
  obtain ⟨h1, h2, h3⟩ := hv
  obtain ⟨x, y, z, s, hi⟩ := h.iter
  obtain ⟨qp1, e1, _, _, _, h4, rx, ry, rz, temp, h5⟩ := evaluate_spec hpb h.inv hi
  unfold solveBody
  rw [e1, ok_bind]
  have hopt : qp1.options = qp.options := by rw [h5]
  have hn : qp1.stats.n_ry = none := by
    rw [h4]
    simp only [evalStats, h2, if_true]
    cases hc : qp.stats.n_ry
    · rfl
    · exact absurd hc (h3 _)
  have : printReads qp1.stats = .error .uninit := by
    unfold printReads
    rw [hn, h4]
    rfl
  rw [hopt, if_pos h1, this]
  rfl

/-- The converse direction: a body that succeeded did what `solveBody_spec` says (the cell for the
uninitialised statistic may then be assumed harmless). -/
theorem solveBody_printOk {pk pb : Problem K} (hpb : pb.WF) {p q : Nat → Nat} {qp : QP K}
    (h : SInv pk pb p q qp) {r : QP K × Bool} (hr : solveBody qp = .ok r) : PrintOk pb qp := by
  by_contra hv
  rw [solveBody_uninit hpb h hv] at hr
  cases hr

theorem SInv.bodyOut {pk pb : Problem K} (hpb : pb.WF) {p q : Nat → Nat} {qp : QP K}
    (h : SInv pk pb p q qp) {r : QP K × Bool} (hr : solveBody qp = .ok r) {x y z s : Nat → K}
    (hi : qp.Iter pb x y z s) : BodyOut pk pb p q qp x y z s r :=
  (solveBody_spec hpb h.inv hi (solveBody_printOk hpb h hr)).elim hr

/-- The loop of `QP_SOLVE`: some number of full iterations, then a `break` or the bound. -/
theorem loop_spec (f : QP K → M (QP K × Bool)) (I : QP K → Prop)
    (hf : ∀ s, I s → ∃ r, f s = .ok r ∧ I r.1) (hfe : f = solveBody) :
    ∀ (k : Nat) (i : Int) (s : QP K), I s → ∃ j s' r, Iterations j s s' ∧ I s' ∧
      forBrkN k i s (fun _ => f) = .ok r ∧ I r.1 ∧
      ((j = k ∧ r = (s', false)) ∨ (j < k ∧ r.2 = true ∧ f s' = .ok r)) := by
  subst hfe
  have gen : ∀ (k : Nat) (i : Int) (s0 s : QP K) (j0 : Nat), Iterations j0 s0 s → I s →
      ∃ j s' r, Iterations (j0 + j) s0 s' ∧ I s' ∧ forBrkN k i s (fun _ => solveBody) = .ok r ∧
        I r.1 ∧ ((j = k ∧ r = (s', false)) ∨ (j < k ∧ r.2 = true ∧ solveBody s' = .ok r)) := by
    intro k
    induction k with
    | zero => intro i s0 s j0 hj hs; exact ⟨0, s, (s, false), hj, hs, rfl, hs, Or.inl ⟨rfl, rfl⟩⟩
    | succ k ih =>
      intro i s0 s j0 hj hs
      obtain ⟨r, h1, h2⟩ := hf s hs
      simp only [forBrkN, h1, ok_bind]
      obtain ⟨s1, b⟩ := r
      cases b with
      | true => exact ⟨0, s, (s1, true), hj, hs, rfl, h2, Or.inr ⟨Nat.succ_pos k, rfl, h1⟩⟩
      | false =>
        obtain ⟨j, s', r, g1, g2, g3, g4, g5⟩ := ih (i + 1) s0 s1 (j0 + 1) (hj.succ h1) h2
        refine ⟨j + 1, s', r, by rw [← Nat.add_assoc, Nat.add_right_comm]; exact g1, g2, g3, g4, ?_⟩
        rcases g5 with ⟨a, b⟩ | ⟨a, b⟩
        · exact Or.inl ⟨by omega, b⟩
        · exact Or.inr ⟨by omega, b⟩
  intro k i s hs
  obtain ⟨j, s', r, h⟩ := gen k i s s 0 (.zero s) hs
  rw [Nat.zero_add] at h
  exact ⟨j, s', r, h⟩

theorem Iterations.facts {pk pb : Problem K} (hpb : pb.WF) {p q : Nat → Nat} {k : Nat} {a b : QP K}
    (h : Iterations k a b) (ha : SInv pk pb p q a) :
    SInv pk pb p q b ∧ a.Frame b ∧ b.stats.Flag = a.stats.Flag ∧
      b.stats.IterationCount = a.stats.IterationCount + k := by
  induction h with
  | zero qp => exact ⟨ha, QP.Frame.refl _, rfl, by simp⟩
  | succ _ hs ih =>
    obtain ⟨h1, h2, h3, h4⟩ := ih ha
    obtain ⟨x, y, z, s, hi⟩ := h1.iter
    have hb := h1.bodyOut hpb hs hi
    refine ⟨hb.sinv h1, h2.trans hb.frame, ?_, ?_⟩
    · have := hb.flag
      simp only [Bool.false_eq_true, if_false] at this
      rw [this, h3]
    · have := hb.count
      simp only [Bool.false_eq_true, if_false] at this
      rw [this, h4]
      push_cast
      ring

/-- How a call of `QP_SOLVE` proceeds: `k` full iterations from `qp` to `qk`; then either the test
of iteration `k + 1` succeeded, or the bound `maxit` was reached. -/
structure SolveRun (qp : QP K) (k : Nat) (qk : QP K) (f : Int) (qp' : QP K) : Prop where
  its : Iterations k qp qk
  stop : ∃ r : QP K, ((k < qp.options.maxit.toNat ∧ solveBody qk = .ok (r, true)) ∨
      (k = qp.options.maxit.toNat ∧ r = qk)) ∧
    qp' = if r.stats.IterationCount = r.options.maxit then
      { r with stats := { r.stats with Flag := QP_MAXIT } } else r
  ret : f = qp'.stats.Flag

theorem QP_SOLVE_run {pk pb : Problem K} (hpb : pb.WF) {p q : Nat → Nat} {qp : QP K}
    (h : SInv pk pb p q qp) (hv : PrintOk pb qp) :
    ∃ k qk f qp', QP_SOLVE qp = .ok (f, qp') ∧ SolveRun qp k qk f qp' := by
  have hfl : qp.stats.Flag ≠ QP_KKTFAIL := by
    rcases h.flag with h | h | h <;> rw [h] <;> decide
  obtain ⟨k, qk, r, h1, h2, h3, h4, h5⟩ := loop_spec solveBody
    (fun qp => SInv pk pb p q qp ∧ PrintOk pb qp) (by
      rintro s ⟨hs, hp⟩
      obtain ⟨x, y, z, s, r, h1, h2, h3⟩ := hs.body hpb hp
      exact ⟨r, h2, h3.sinv hs, h3.printOk hp⟩) rfl (qp.options.maxit - 0).toNat 0 qp ⟨h, hv⟩
  rw [Int.sub_zero] at h3 h5
  refine ⟨k, qk, _, _, ?_, h1, ⟨r.1, ?_, rfl⟩, rfl⟩
  · unfold QP_SOLVE
    rw [if_pos hfl]
    unfold forBrk
    rw [Int.sub_zero, h3]
    simp only [ok_bind]
    split <;> rfl
  · rcases h5 with ⟨a, b⟩ | ⟨a, b, c⟩
    · exact Or.inr ⟨a, by rw [b]⟩
    · refine Or.inl ⟨a, ?_⟩
      rw [c, ← b]

/-- A solve that returned went this way. -/
theorem QP_SOLVE_inv {pk pb : Problem K} (hpb : pb.WF) {p q : Nat → Nat} {qp : QP K}
    (h : SInv pk pb p q qp) {f : Int} {qp' : QP K} (hr : QP_SOLVE qp = .ok (f, qp')) :
    ∃ k qk, SolveRun qp k qk f qp' := by
  have hfl : qp.stats.Flag ≠ QP_KKTFAIL := by
    rcases h.flag with h | h | h <;> rw [h] <;> decide
  by_cases hv : PrintOk pb qp
  · obtain ⟨k, qk, f', qp'', h1, h2⟩ := QP_SOLVE_run hpb h hv
    rw [hr] at h1
    cases h1
    exact ⟨k, qk, h2⟩
  · -- the body fails, so the loop has no iteration
    have hm : qp.options.maxit.toNat = 0 := by
      by_contra hm
      obtain ⟨k, hk⟩ : ∃ k, qp.options.maxit.toNat = k + 1 := ⟨_, (Nat.succ_pred_eq_of_ne_zero hm).symm⟩
      unfold QP_SOLVE forBrk at hr
      rw [if_pos hfl, Int.sub_zero, hk] at hr
      simp only [forBrkN] at hr
      cases hb : solveBody qp with
      | error e => rw [hb] at hr; cases hr
      | ok r => exact hv (solveBody_printOk hpb h hb)
    unfold QP_SOLVE forBrk at hr
    rw [if_pos hfl, Int.sub_zero, hm] at hr
    simp only [forBrkN, ok_bind, pure_eq_ok] at hr
    refine ⟨0, qp, .zero _, ⟨qp, Or.inr ⟨hm.symm, rfl⟩, ?_⟩, ?_⟩
    · split at hr
      · next hc => rw [if_pos hc]; cases hr; rfl
      · next hc => rw [if_neg hc]; cases hr; rfl
    · split at hr <;> cases hr <;> rfl

theorem SolveRun.facts {pk pb : Problem K} (hpb : pb.WF) {p q : Nat → Nat} {qp : QP K}
    (h : SInv pk pb p q qp) {k : Nat} {qk : QP K} {f : Int} {qp' : QP K}
    (hr : SolveRun qp k qk f qp') : SInv pk pb p q qp' ∧ qp.Frame qp' := by
  obtain ⟨h1, h2, h3, h4⟩ := hr.its.facts hpb h
  obtain ⟨r, h5, rfl⟩ := hr.stop
  have key : SInv pk pb p q r ∧ qp.Frame r := by
    rcases h5 with ⟨_, hb⟩ | ⟨_, rfl⟩
    · obtain ⟨x, y, z, s, hi⟩ := h1.iter
      have := h1.bodyOut hpb hb hi
      exact ⟨this.sinv h1, h2.trans this.frame⟩
    · exact ⟨h1, h2⟩
  obtain ⟨k1, k2⟩ := key
  split
  · obtain ⟨x, y, z, s, hi⟩ := k1.iter
    exact ⟨⟨{ k1.inv with }, ⟨x, y, z, s, hi.x, hi.y, hi.z, hi.s⟩, Or.inr (Or.inl rfl), k1.count⟩,
      k2.trans { QP.Frame.refl r with }⟩
  · exact ⟨k1, k2⟩

/-! ## Reachable states -/

theorem Reach.sinv {pk pb : Problem K} (hpb : pb.WF) {p q : Nat → Nat} {q0 qp : QP K}
    (h0 : SInv pk pb p q q0) (h : Reach q0 qp) : SInv pk pb p q qp ∧ q0.SameData qp := by
  induction h with
  | start => exact ⟨h0, (QP.Frame.refl _).same⟩
  | options o _ ih =>
    obtain ⟨h1, h2⟩ := ih
    obtain ⟨x, y, z, s, hi⟩ := h1.iter
    exact ⟨⟨{ h1.inv with }, ⟨x, y, z, s, hi.x, hi.y, hi.z, hi.s⟩, h1.flag, h1.count⟩, { h2 with }⟩
  | cell v _ ih =>
    obtain ⟨h1, h2⟩ := ih
    obtain ⟨x, y, z, s, hi⟩ := h1.iter
    exact ⟨⟨{ h1.inv with }, ⟨x, y, z, s, hi.x, hi.y, hi.z, hi.s⟩, h1.flag, h1.count⟩, { h2 with }⟩
  | iteration _ hb ih =>
    obtain ⟨h1, h2⟩ := ih
    obtain ⟨x, y, z, s, hi⟩ := h1.iter
    have := h1.bodyOut hpb hb hi
    exact ⟨this.sinv h1, h2.trans this.frame.same⟩
  | solve _ hb ih =>
    obtain ⟨h1, h2⟩ := ih
    obtain ⟨k, qk, hr⟩ := QP_SOLVE_inv hpb h1 hb
    have := hr.facts hpb h1
    exact ⟨this.1, h2.trans this.2.same⟩

theorem Reach.iterations {q0 a b : QP K} {k : Nat} (h : Reach q0 a) (hi : Iterations k a b) :
    Reach q0 b := by
  induction hi with
  | zero => exact h
  | succ _ hs ih => exact (ih h).iteration hs

theorem SetupDone.sinv {pb : Problem K} {si : SetupIn K} {p q : Nat → Nat} {qp : QP K}
    (h : SetupDone pb si p q qp) : SInv pb pb p q qp := by
  obtain ⟨t, _, _, hi⟩ := h.iter
  obtain ⟨r, hr⟩ := h.stats
  refine ⟨h.inv, ⟨_, _, _, _, hi⟩, ?_, ?_⟩
  · rw [hr]; exact Or.inr (Or.inr rfl)
  · rw [hr]; exact le_rfl

theorem Started.done {amd : Amd} {a : SetupArgs K} {pb : Problem K} {q0 : QP K}
    (h : Started amd a pb q0) : ∃ p q, SetupDone pb (a.toIn pb) p q q0 :=
  (QP_SETUP_spec h.wf h.give h.perm).elim h.ok

/-- Induction over the reachable states. -/
theorem Reach.induct {pk pb : Problem K} (hpb : pb.WF) {p q : Nat → Nat} {q0 qp : QP K}
    (h0 : SInv pk pb p q q0) (Q : QP K → Prop) (base : Q q0)
    (opt : ∀ qp o, Q qp → Q { qp with options := o })
    (st : ∀ qp t, Q qp → Q { qp with stats := t })
    (body : ∀ qp r, SInv pk pb p q qp → Q qp → solveBody qp = .ok r → Q r.1)
    (h : Reach q0 qp) : Q qp := by
  induction h with
  | start => exact base
  | options o _ ih => exact opt _ o ih
  | cell v _ ih => exact st _ _ ih
  | iteration hr hb ih => exact body _ _ (hr.sinv hpb h0).1 ih hb
  | solve hr hb ih =>
    have h1 := (hr.sinv hpb h0).1
    obtain ⟨k, qk, hk⟩ := QP_SOLVE_inv hpb h1 hb
    have hits : ∀ {k : Nat} {a b : QP K}, Iterations k a b → SInv pk pb p q a → Q a → Q b := by
      intro k a b hi
      induction hi with
      | zero => intro _ h; exact h
      | succ hi hs ih => intro g1 g2; exact body _ _ (hi.facts hpb g1).1 (ih g1 g2) hs
    have g := hits hk.its h1 ih
    obtain ⟨r, h5, rfl⟩ := hk.stop
    have key : Q r := by
      rcases h5 with ⟨_, hb⟩ | ⟨_, rfl⟩
      · exact body _ _ (hk.its.facts hpb h1).1 g hb
      · exact g
    split
    · exact st _ _ key
    · exact key

end Verif
