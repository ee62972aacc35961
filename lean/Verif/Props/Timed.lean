import Verif.Model.Timed
import Verif.Props.Front
import Verif.Props.StepEffect

/-!
# Timers and output

C82: neither the clock nor the output has any influence on the result; what is printed and the times
reported are right.
-/

set_option linter.unusedSectionVars false

namespace Verif

open Finset

section

variable {K : Type} [Zero K] [One K] [Add K] [Sub K] [Mul K] [Div K] [Neg K] [Scalar K]

theorem M.bind_assoc {α β γ : Type} (m : M α) (f : α → M β) (g : β → M γ) :
    (m >>= f) >>= g = m >>= fun a => f a >>= g := by cases m <;> rfl

theorem M.bind_congr {α β : Type} {m : M α} {f g : α → M β} (h : ∀ a, m = .ok a → f a = g a) :
    m >>= f = m >>= g := by
  cases m with
  | error e => rfl
  | ok a => exact h a rfl

theorem M.ite_bind {α β : Type} {c : Prop} [Decidable c] (a b : M α) (f : α → M β) :
    (if c then a else b) >>= f = if c then a >>= f else b >>= f := by split <;> rfl

/-- The state after `kktsolve_1`. -/
def Timed.lap (clk : Nat → Timespec) (t : Timed K) (l : K) (qp : QP K) : Timed K :=
  { t with
    qp := qp, io := t.io.tick.tick
    times := { t.times with ldl_numeric := some (l + toc (clk t.io.now) (clk (t.io.now + 1))) } }

theorem kktsolve_1T_eq (clk : Nat → Timespec) {t : Timed K} {l : K}
    (hl : t.times.ldl_numeric = some l) :
    kktsolve_1T clk t = kktsolve_1 t.qp >>= fun r => .ok (r.1, t.lap clk l r.2) := by
  unfold kktsolve_1T kktsolve_1
  rw [M.bind_assoc]
  refine M.bind_congr fun r _ => ?_
  simp only [hl, rdCell, ok_bind, M.ite_bind, M.bind_assoc, pure_eq_ok]
  rfl

/-- The state after the directions are computed. -/
def Timed.turn (clk : Nat → Timespec) (t : Timed K) (l : K) (r : QP K × Bool) : Timed K :=
  if Scalar.ltb t.qp.sigma_d t.qp.options.sigma then
    if r.2 then
      { t with
        qp := r.1, io := t.io.tick.tick.tick
        times := { t.times with
          ldl_numeric := some (l + toc (clk (t.io.now + 1)) (clk (t.io.now + 2))) } }
    else
      { t with
        qp := r.1, io := t.io.tick.tick.tick.tick
        acc := t.acc + toc (clk t.io.now) (clk (t.io.now + 3))
        times := { t.times with
          ldl_numeric := some (l + toc (clk (t.io.now + 1)) (clk (t.io.now + 2))) } }
  else { t with qp := r.1 }

theorem directionsT_eq (clk : Nat → Timespec) {t : Timed K} {l : K} (mu : K)
    (hl : t.times.ldl_numeric = some l) :
    directionsT clk t mu = directions t.qp mu >>= fun r => .ok (t.turn clk l r, r.2) := by
  unfold directionsT directions Timed.turn
  dsimp only
  split
  · next hc =>
    simp only [M.bind_assoc]
    refine M.bind_congr fun ds _ => M.bind_congr fun kpr _ => M.bind_congr fun kb _ => ?_
    rw [kktsolve_1T_eq (l := l) clk (by exact hl), M.bind_assoc]
    refine M.bind_congr fun r _ => ?_
    simp only [ok_bind, M.ite_bind, M.bind_assoc, pure_eq_ok, Timed.lap]
    split
    · rfl
    · rfl
  · simp only [M.bind_assoc]
    refine M.bind_congr fun ds _ => M.bind_congr fun kpr _ => M.bind_congr fun kb _ => ?_
    rfl

/-- The state after a step. -/
def Timed.stepped (clk : Nat → Timespec) (t : Timed K) (qp : QP K) : Timed K :=
  { t with
    qp := qp, acc := t.acc + toc (clk t.io.now) (clk (t.io.now + 1))
    io := if 0 < qp.options.verbose then
      t.io.tick.tick.print [.step qp.stats.alpha_p qp.stats.alpha_d] else t.io.tick.tick }

theorem takeStepT_eq (clk : Nat → Timespec) (t : Timed K) :
    takeStepT clk t = takeStep t.qp >>= fun qp => .ok (t.stepped clk qp) := by
  unfold takeStepT takeStep Timed.stepped
  simp only [M.bind_assoc]
  refine M.bind_congr fun qp _ => M.bind_congr fun a _ => M.bind_congr fun x _ =>
    M.bind_congr fun y _ => M.bind_congr fun s _ => M.bind_congr fun z _ => ?_
  rfl

/-- The values printed at the start of an iteration. -/
def Stats.line [Inhabited K] (st : Stats K) : Line K :=
  .iter st.IterationCount (st.fval.getD default) (st.n_rx.getD default) (st.n_ry.getD default)
    (st.n_rz.getD default) (st.n_mu.getD default)

theorem printIter_eq [Inhabited K] (st : Stats K) :
    printIter st = printReads st >>= fun _ => .ok st.line := by
  unfold printIter printReads Stats.line
  cases st.fval <;> cases st.n_rx <;> cases st.n_ry <;> cases st.n_rz <;> cases st.n_mu <;> rfl

theorem evaluate_keeps {qp : QP K} :
    Post (evaluate qp) (fun qe => qe.options = qp.options ∧ qe.sigma_d = qp.sigma_d) := by
  unfold evaluate
  refine Post.bind (Q := fun qe => qe.options = qp.options ∧ qe.sigma_d = qp.sigma_d) ?_
    fun q hq => Post.next fun _ => Post.pure hq
  unfold computeresiduals
  refine Post.next fun _ => Post.next fun _ => Post.next fun _ => Post.next fun _ =>
    Post.next fun _ => Post.bind
      (Q := fun qe => qe.options = qp.options ∧ qe.sigma_d = qp.sigma_d) ?_ fun q hq =>
        Post.next fun _ => Post.next fun _ => Post.next fun _ => Post.next fun _ => Post.pure hq
  refine Post.ite (fun _ => ?_) (fun _ => Post.pure ⟨rfl, rfl⟩)
  exact Post.next fun _ => Post.next fun _ => Post.next fun _ => Post.next fun _ =>
    Post.next fun _ => Post.pure ⟨rfl, rfl⟩

/-- The loop is left between the two directions only with the flag of a failed factorisation. -/
theorem directions_flag {qp : QP K} {mu : K} :
    Post (directions qp mu) (fun r => r.2 = true → r.1.stats.Flag = QP_KKTFAIL) := by
  unfold directions
  refine Post.ite (fun _ => ?_) (fun _ => ?_)
  · refine Post.next fun _ => Post.next fun _ => Post.next fun _ => Post.next fun _ =>
      Post.ite (fun _ => Post.pure fun _ => rfl) (fun _ => ?_)
    exact Post.next fun _ => Post.next fun _ => Post.next fun _ => Post.next fun _ =>
      Post.pure fun h => by cases h
  · exact Post.next fun _ => Post.next fun _ => Post.next fun _ => Post.pure fun h => by cases h

/-- What one execution of the loop body does to the clock, the times and the output. `qe` is the
state after the residuals are computed, `l` the time for factorisations so far. -/
structure Timed.Body [Inhabited K] (clk : Nat → Timespec) (t : Timed K) (l : K) (qe : QP K)
    (t' : Timed K) (brk : Bool) : Prop where
  times : t'.times = { t.times with ldl_numeric := t'.times.ldl_numeric }
  out : t'.io.out = t.io.out ++ (if 0 < qe.options.verbose then [qe.stats.line] else []) ++
    (if brk = false ∧ 0 < t'.qp.options.verbose then
      [.step t'.qp.stats.alpha_p t'.qp.stats.alpha_d] else [])
  clock :
    (brk = true ∧ t'.io.now = t.io.now ∧ t'.acc = t.acc ∧ t'.times.ldl_numeric = some l) ∨
    (brk = true ∧ t'.qp.stats.Flag = QP_KKTFAIL ∧ t'.io.now = t.io.now + 3 ∧ t'.acc = t.acc ∧
      t'.times.ldl_numeric = some (l + toc (clk (t.io.now + 1)) (clk (t.io.now + 2)))) ∨
    (brk = false ∧ Scalar.ltb t.qp.sigma_d t.qp.options.sigma = true ∧ t'.io.now = t.io.now + 6 ∧
      t'.acc = t.acc + toc (clk t.io.now) (clk (t.io.now + 3)) +
        toc (clk (t.io.now + 4)) (clk (t.io.now + 5)) ∧
      t'.times.ldl_numeric = some (l + toc (clk (t.io.now + 1)) (clk (t.io.now + 2)))) ∨
    (brk = false ∧ Scalar.ltb t.qp.sigma_d t.qp.options.sigma = false ∧
      t'.io.now = t.io.now + 2 ∧ t'.acc = t.acc + toc (clk t.io.now) (clk (t.io.now + 1)) ∧
      t'.times.ldl_numeric = some l)

theorem Timed.Body.some [Inhabited K] {clk : Nat → Timespec} {t t' : Timed K} {l : K} {qe : QP K}
    {brk : Bool} (h : t.Body clk l qe t' brk) : ∃ l', t'.times.ldl_numeric = Option.some l' := by
  rcases h.clock with h | h | h | h <;> exact ⟨_, by tauto⟩

theorem advanceT_spec [Inhabited K] (clk : Nat → Timespec) {t : Timed K} {l : K}
    (hl : t.times.ldl_numeric = some l) :
    (∀ e, advance t.qp = .error e → advanceT clk t = .error e) ∧
    ∀ r, advance t.qp = .ok r → ∃ t', advanceT clk t = .ok (t', r.2) ∧ t'.qp = r.1 ∧
      t'.times = { t.times with ldl_numeric := t'.times.ldl_numeric } ∧
      t'.io.out = t.io.out ++ (if r.2 = false ∧ 0 < t'.qp.options.verbose then
        [.step t'.qp.stats.alpha_p t'.qp.stats.alpha_d] else []) ∧
    ((r.2 = true ∧ t'.io.now = t.io.now ∧ t'.acc = t.acc ∧ t'.times.ldl_numeric = some l) ∨
    (r.2 = true ∧ t'.qp.stats.Flag = QP_KKTFAIL ∧ t'.io.now = t.io.now + 3 ∧ t'.acc = t.acc ∧
      t'.times.ldl_numeric = some (l + toc (clk (t.io.now + 1)) (clk (t.io.now + 2)))) ∨
    (r.2 = false ∧ Scalar.ltb t.qp.sigma_d t.qp.options.sigma = true ∧ t'.io.now = t.io.now + 6 ∧
      t'.acc = t.acc + toc (clk t.io.now) (clk (t.io.now + 3)) +
        toc (clk (t.io.now + 4)) (clk (t.io.now + 5)) ∧
      t'.times.ldl_numeric = some (l + toc (clk (t.io.now + 1)) (clk (t.io.now + 2)))) ∨
    (r.2 = false ∧ Scalar.ltb t.qp.sigma_d t.qp.options.sigma = false ∧
      t'.io.now = t.io.now + 2 ∧ t'.acc = t.acc + toc (clk t.io.now) (clk (t.io.now + 1)) ∧
      t'.times.ldl_numeric = some l)) := by
  have ht : t.times = { t.times with ldl_numeric := some l } := by rw [← hl]
  unfold advance advanceT
  dsimp only
  cases h1 : formlambda t.qp.lambda t.qp.s t.qp.z t.qp.m with
  | error e => exact ⟨fun e' h => (by cases h; rfl), fun r h => by cases h⟩
  | ok lam =>
    simp only [ok_bind]
    cases h2 : innerproduct lam lam t.qp.m with
    | error e => exact ⟨fun e' h => (by cases h; rfl), fun r h => by cases h⟩
    | ok ll =>
      simp only [ok_bind]
      rw [directionsT_eq (l := l) clk _ (by exact hl)]
      dsimp only
      cases h3 : directions { t.qp with lambda := lam, mu := some (ll / Scalar.ofInt t.qp.m) }
          (ll / Scalar.ofInt t.qp.m) with
      | error e => exact ⟨fun e' h => (by cases h; rfl), fun r h => by cases h⟩
      | ok d =>
        simp only [ok_bind]
        rcases d with ⟨qd, bd⟩
        cases bd with
        | true =>
          refine ⟨fun e' h => (by cases h), fun r h => ?_⟩
          cases h
          refine ⟨_, rfl, ?_⟩
          unfold Timed.turn
          dsimp only
          have hfl : qd.stats.Flag = QP_KKTFAIL := directions_flag _ h3 rfl
          by_cases hc : Scalar.ltb t.qp.sigma_d t.qp.options.sigma = true
          · simp [hc, hfl, Io.tick]
          · simp [hc, hl, ← ht]
        | false =>
          simp only [Bool.false_eq_true, if_false]
          rw [takeStepT_eq]
          have hq : (Timed.turn clk { t with qp := { t.qp with
              lambda := lam, mu := some (ll / Scalar.ofInt t.qp.m) } } l (qd, false)).qp = qd := by
            unfold Timed.turn
            simp only [Bool.false_eq_true, if_false]
            split <;> rfl
          rw [hq]
          cases h4 : takeStep qd with
          | error e => exact ⟨fun e' h => (by cases h; rfl), fun r h => by cases h⟩
          | ok qs =>
            refine ⟨fun e' h => (by cases h), fun r h => ?_⟩
            cases h
            refine ⟨_, rfl, ?_⟩
            unfold Timed.turn Timed.stepped
            dsimp only
            by_cases hc : Scalar.ltb t.qp.sigma_d t.qp.options.sigma = true <;>
              by_cases hv : 0 < qs.options.verbose <;> simp [hc, hl, hv, ← ht, Io.tick, Io.print]

/-- The loop body with clock and output computes the same state, fails in the same way, and does to
clock, times and output what `Timed.Body` says. -/
theorem solveBodyT_spec [Inhabited K] (clk : Nat → Timespec) {t : Timed K} {l : K}
    (hl : t.times.ldl_numeric = some l) :
    (∀ e, solveBody t.qp = .error e → solveBodyT clk t = .error e) ∧
    ∀ r, solveBody t.qp = .ok r → ∃ t' qe, solveBodyT clk t = .ok (t', r.2) ∧ t'.qp = r.1 ∧
      evaluate t.qp = .ok qe ∧ t.Body clk l qe t' r.2 := by
  unfold solveBody solveBodyT
  cases h1 : evaluate t.qp with
  | error e => exact ⟨fun e' h => (by cases h; rfl), fun r h => by cases h⟩
  | ok qe =>
    obtain ⟨ho, hs⟩ := evaluate_keeps qe h1
    simp only [ok_bind, printIter_eq]
    have key : ∀ io : Io K, io.now = t.io.now →
        io.out = t.io.out ++ (if 0 < qe.options.verbose then [qe.stats.line] else []) →
      (∀ e, (exitTest qe >>= fun opt => if opt = true then
          pure ({ qe with stats := { qe.stats with Flag := QP_OPTIMAL } }, true)
          else advance qe : M (QP K × Bool)) = .error e →
        (exitTest qe >>= fun opt => if opt = true then
          pure ({ t with qp := { qe with stats := { qe.stats with Flag := QP_OPTIMAL } }, io := io },
            true)
          else advanceT clk { t with qp := qe, io := io } : M (Timed K × Bool)) = .error e) ∧
      ∀ r, (exitTest qe >>= fun opt => if opt = true then
          pure ({ qe with stats := { qe.stats with Flag := QP_OPTIMAL } }, true)
          else advance qe : M (QP K × Bool)) = .ok r → ∃ t' qe', 
        (exitTest qe >>= fun opt => if opt = true then
          pure ({ t with qp := { qe with stats := { qe.stats with Flag := QP_OPTIMAL } }, io := io },
            true)
          else advanceT clk { t with qp := qe, io := io } : M (Timed K × Bool)) = .ok (t', r.2) ∧
        t'.qp = r.1 ∧ (.ok qe : M (QP K)) = .ok qe' ∧ t.Body clk l qe' t' r.2 := by
      intro io hnow hout
      cases h2 : exitTest qe with
      | error e => exact ⟨fun e' h => (by cases h; rfl), fun r h => by cases h⟩
      | ok opt =>
        simp only [ok_bind]
        cases opt with
        | true =>
          refine ⟨fun e' h => (by cases h), fun r h => ?_⟩
          cases h
          exact ⟨_, qe, rfl, rfl, rfl, rfl, by simp [hout], Or.inl ⟨rfl, hnow, rfl, hl⟩⟩
        | false =>
          simp only [Bool.false_eq_true, if_false]
          obtain ⟨ha, hb⟩ := advanceT_spec clk (t := { t with qp := qe, io := io }) (l := l) hl
          refine ⟨ha, fun r h => ?_⟩
          obtain ⟨t', e1, e2, e3, e4, e5⟩ := hb r h
          refine ⟨t', qe, e1, e2, rfl, e3, ?_, ?_⟩
          · rw [e4]; simp only [hout]
          · simp only [hnow, ho, hs] at e5; exact e5
    by_cases hv : 0 < qe.options.verbose
    · simp only [if_pos hv] at key ⊢
      cases h2 : printReads qe.stats with
      | error e => exact ⟨fun e' h => (by cases h; rfl), fun r h => by cases h⟩
      | ok u => exact key (t.io.print [qe.stats.line]) rfl rfl
    · simp only [if_neg hv] at key ⊢
      exact key t.io rfl (by simp)

/-- A state with clock and output, without them. -/
def eraseB (m : M (Timed K × Bool)) : M (QP K × Bool) := m >>= fun r => .ok (r.1.qp, r.2)

theorem solveBodyT_erase (clk : Nat → Timespec) {t : Timed K} {l : K}
    (hl : t.times.ldl_numeric = some l) :
    eraseB (solveBodyT clk t) = solveBody t.qp ∧
      ∀ t' b, solveBodyT clk t = .ok (t', b) → ∃ l', t'.times.ldl_numeric = some l' := by
  have : Inhabited K := ⟨l⟩
  obtain ⟨h1, h2⟩ := solveBodyT_spec clk hl
  cases h : solveBody t.qp with
  | error e =>
    rw [h1 e h]
    exact ⟨rfl, fun _ _ h => by cases h⟩
  | ok r =>
    obtain ⟨t', qe, e1, e2, -, e3⟩ := h2 r h
    rw [e1]
    refine ⟨?_, fun t'' b hb => ?_⟩
    · show (.ok (t'.qp, r.2) : M (QP K × Bool)) = _
      rw [e2]
    · cases hb
      exact e3.some

theorem loopT_erase (clk : Nat → Timespec) : ∀ (k : Nat) (i : Int) (t : Timed K) (l : K),
    t.times.ldl_numeric = some l →
    eraseB (forBrkN k i t fun _ t => solveBodyT clk t) = forBrkN k i t.qp (fun _ q => solveBody q) := by
  intro k
  induction k with
  | zero => intro i t l hl; rfl
  | succ k ih =>
    intro i t l hl
    obtain ⟨h1, h2⟩ := solveBodyT_erase clk hl
    unfold forBrkN
    dsimp only
    rw [← h1]
    unfold eraseB
    cases h : solveBodyT clk t with
    | error e => rfl
    | ok r =>
      obtain ⟨l', hl'⟩ := h2 r.1 r.2 h
      simp only [ok_bind]
      cases hb : r.2 with
      | true => rfl
      | false => exact ih (i + 1) r.1 l' hl'

/-- Full iterations with clock and output. -/
inductive Turns (clk : Nat → Timespec) : Nat → Timed K → Timed K → Prop
  | zero (t : Timed K) : Turns clk 0 t t
  | succ {k : Nat} {a b c : Timed K} : solveBodyT clk a = .ok (b, false) → Turns clk k b c →
      Turns clk (k + 1) a c

theorem loopT_runs (clk : Nat → Timespec) : ∀ (k : Nat) (i : Int) (t t' : Timed K) (b : Bool),
    forBrkN k i t (fun _ t => solveBodyT clk t) = .ok (t', b) →
    ∃ j u, Turns clk j t u ∧ ((b = true ∧ j < k ∧ solveBodyT clk u = .ok (t', true)) ∨
      (b = false ∧ j = k ∧ t' = u)) := by
  intro k
  induction k with
  | zero =>
    intro i t t' b h
    cases h
    exact ⟨0, t, .zero t, Or.inr ⟨rfl, rfl, rfl⟩⟩
  | succ k ih =>
    intro i t t' b h
    unfold forBrkN at h
    dsimp only at h
    cases hb : solveBodyT clk t with
    | error e => rw [hb] at h; cases h
    | ok r =>
      rw [hb] at h
      simp only [ok_bind] at h
      rcases r with ⟨u, bu⟩
      cases bu with
      | true =>
        cases h
        exact ⟨0, t, .zero t, Or.inl ⟨rfl, Nat.succ_pos _, hb⟩⟩
      | false =>
        obtain ⟨j, v, h1, h2⟩ := ih _ _ _ _ h
        refine ⟨j + 1, v, .succ hb h1, ?_⟩
        rcases h2 with ⟨e1, e2, e3⟩ | ⟨e1, e2, e3⟩
        · exact Or.inl ⟨e1, by omega, e3⟩
        · exact Or.inr ⟨e1, by omega, e3⟩

/-- The messages at the end of a solve, by exit code: 0, 2, 3 and 1. The times are in milliseconds;
after success the time of the setup is included. -/
def closing (flag : Int) (tsolve tsetup kkt ldl : K) (it : Int) : List (Line K) :=
  let ms : K := Scalar.dec 1000 0
  if flag = 0 then [.optimal ((tsolve + tsetup) * ms) (kkt * ms) (ldl * ms) it]
  else if flag = 2 then [.maxit (tsolve * ms) (kkt * ms) (ldl * ms) it]
  else if flag = 3 then [.fatal]
  else if flag = 1 then [.kktfail]
  else []

theorem printEnd_eq {qp : QP K} {ti : Times K} {ts tset kk l : K} (h1 : ti.tsolve = some ts)
    (h2 : ti.tsetup = some tset) (h3 : ti.kkt_time = some kk) (h4 : ti.ldl_numeric = some l) :
    printEnd qp ti = .ok (closing qp.stats.Flag ts tset kk l qp.stats.IterationCount) := by
  unfold printEnd closing QP_OPTIMAL QP_MAXIT QP_FATAL QP_KKTFAIL
  simp only [h1, h2, h3, h4, rdCell, ok_bind, pure_eq_ok]
  by_cases e0 : qp.stats.Flag = 0
  · simp [e0]
  by_cases e2 : qp.stats.Flag = 2
  · simp [e2]
  by_cases e3 : qp.stats.Flag = 3
  · simp [e3]
  by_cases e1 : qp.stats.Flag = 1
  · simp [e1]
  simp [e0, e1, e2, e3]

/-- The state when the loop of `QP_SOLVE` is entered. -/
def Timed.begin (mex : Bool) (t : Timed K) : Timed K :=
  { t with
    io := if !mex && decide (0 < t.qp.options.verbose) then t.io.tick.print [.title, .rule]
      else t.io.tick
    acc := Scalar.dec 0 0 }

/-- The state `u` of the end of the loop with the flag for too many iterations. -/
def Timed.capped (u : Timed K) : Timed K :=
  if u.qp.stats.IterationCount = u.qp.options.maxit then
    { u with qp := { u.qp with stats := { u.qp.stats with Flag := QP_MAXIT } } }
  else u

/-- The state after the times are stored and the messages printed. -/
def Timed.close (clk : Nat → Timespec) (i0 : Nat) (tset l : K) (u : Timed K) : Timed K :=
  { u with
    times := { u.times with
      tsolve := some (toc (clk i0) (clk u.io.now)), kkt_time := some u.acc }
    io := if 0 < u.qp.options.verbose then
        u.io.tick.print (closing u.qp.stats.Flag (toc (clk i0) (clk u.io.now)) tset u.acc l
          u.qp.stats.IterationCount)
      else u.io.tick }

theorem Timed.capped_times (u : Timed K) : u.capped.times = u.times := by
  unfold Timed.capped; split <;> rfl

theorem Timed.capped_io (u : Timed K) : u.capped.io = u.io := by
  unfold Timed.capped; split <;> rfl

theorem Timed.capped_acc (u : Timed K) : u.capped.acc = u.acc := by
  unfold Timed.capped; split <;> rfl

theorem Timed.begin_times (mex : Bool) (t : Timed K) : (t.begin mex).times = t.times := rfl

theorem Timed.begin_now (mex : Bool) (t : Timed K) : (t.begin mex).io.now = t.io.now + 1 := by
  unfold Timed.begin; dsimp only; split <;> rfl

/-- The solve with clock and output, given the result of its loop. -/
theorem QP_SOLVE_T_eq (mex : Bool) (clk : Nat → Timespec) {t u : Timed K} {b : Bool} {tset l : K}
    (hf : t.qp.stats.Flag ≠ QP_KKTFAIL)
    (hr : forBrkN t.qp.options.maxit.toNat 0 (t.begin mex) (fun _ t => solveBodyT clk t) = .ok (u, b))
    (ht : u.times.tsetup = some tset) (hl : u.times.ldl_numeric = some l) :
    QP_SOLVE_T mex clk t =
      .ok (u.capped.qp.stats.Flag, u.capped.close clk t.io.now tset l) := by
  have hr' : forBrk 0 t.qp.options.maxit (t.begin mex) (fun _ t => solveBodyT clk t) = .ok (u, b) := by
    unfold forBrk
    rw [Int.sub_zero]
    exact hr
  have ht' : u.capped.times.tsetup = some tset := by rw [u.capped_times]; exact ht
  have hl' : u.capped.times.ldl_numeric = some l := by rw [u.capped_times]; exact hl
  have h1 : QP_SOLVE_T mex clk t = (do
      let t1 ← (if t.qp.stats.Flag ≠ QP_KKTFAIL then do
          let r ← forBrk 0 t.qp.options.maxit (t.begin mex) fun _ t => solveBodyT clk t
          let t1 := r.1
          if t1.qp.stats.IterationCount = t1.qp.options.maxit then
            pure { t1 with qp := { t1.qp with stats := { t1.qp.stats with Flag := QP_MAXIT } } }
          else pure t1
        else pure (t.begin mex))
      let ts : K := toc (clk t.io.now) (clk t1.io.now)
      let t2 := { t1 with io := t1.io.tick
                          times := { t1.times with tsolve := some ts, kkt_time := some t1.acc } }
      let io ← (if 0 < t2.qp.options.verbose then do
          let l ← printEnd t2.qp t2.times
          pure (t2.io.print l)
        else pure t2.io)
      pure (t2.qp.stats.Flag, { t2 with io := io })) := rfl
  rw [h1, if_pos hf, hr', ok_bind]
  dsimp only
  have h2 : (if u.qp.stats.IterationCount = u.qp.options.maxit then
        pure { u with qp := { u.qp with stats := { u.qp.stats with Flag := QP_MAXIT } } }
      else pure u : M (Timed K)) = .ok u.capped := by
    unfold Timed.capped; split <;> rfl
  rw [h2, ok_bind]
  unfold Timed.close
  split
  · have he : ∀ ti : Times K, ti.tsolve = some (toc (clk t.io.now) (clk u.capped.io.now)) →
        ti.tsetup = some tset → ti.kkt_time = some u.capped.acc → ti.ldl_numeric = some l →
        printEnd u.capped.qp ti = .ok (closing u.capped.qp.stats.Flag
          (toc (clk t.io.now) (clk u.capped.io.now)) tset u.capped.acc l
          u.capped.qp.stats.IterationCount) := fun _ a b c d => printEnd_eq a b c d
    rw [he _ rfl (by exact ht') (by rfl) (by exact hl')]
    rfl
  · rfl

theorem Turns.times {clk : Nat → Timespec} {k : Nat} {t u : Timed K} (h : Turns clk k t u) :
    ∀ {l : K}, t.times.ldl_numeric = some l → u.times.tsetup = t.times.tsetup ∧
      ∃ l', u.times.ldl_numeric = some l' := by
  induction h with
  | zero t => intro l hl; exact ⟨rfl, l, hl⟩
  | succ hb _ ih =>
    intro l hl
    have : Inhabited K := ⟨l⟩
    obtain ⟨h1, h2⟩ := solveBodyT_spec clk hl
    rename_i a b c _
    cases hs : solveBody a.qp with
    | error e => rw [h1 e hs] at hb; cases hb
    | ok r =>
      obtain ⟨rq, rb⟩ := r
      obtain ⟨t', qe, e1, _, _, e3⟩ := h2 _ hs
      rw [e1] at hb
      cases hb
      obtain ⟨l', hl'⟩ := e3.some
      obtain ⟨g1, g2⟩ := ih hl'
      exact ⟨by rw [g1, e3.times], g2⟩

/-- What holds after the loop, too. -/
theorem loopT_times (clk : Nat → Timespec) {k : Nat} {i : Int} {t t' : Timed K} {b : Bool} {l : K}
    (hl : t.times.ldl_numeric = some l)
    (h : forBrkN k i t (fun _ t => solveBodyT clk t) = .ok (t', b)) :
    t'.times.tsetup = t.times.tsetup ∧ ∃ l', t'.times.ldl_numeric = some l' := by
  obtain ⟨j, u, hj, h2⟩ := loopT_runs clk _ _ _ _ _ h
  obtain ⟨g1, lu, g2⟩ := hj.times hl
  rcases h2 with ⟨_, _, e⟩ | ⟨_, _, rfl⟩
  · have : Turns clk 0 u u := .zero u
    have : Inhabited K := ⟨l⟩
    obtain ⟨h1, h2⟩ := solveBodyT_spec clk g2
    cases hs : solveBody u.qp with
    | error e' => rw [h1 e' hs] at e; cases e
    | ok r =>
      obtain ⟨rq, rb⟩ := r
      obtain ⟨t', qe, e1, _, _, e3⟩ := h2 _ hs
      rw [e1] at e
      cases e
      exact ⟨by rw [e3.times]; exact g1, e3.some⟩
  · exact ⟨g1, lu, g2⟩

theorem solveBodyT_ok {clk : Nat → Timespec} {t t' : Timed K} {b : Bool} {l : K}
    (hl : t.times.ldl_numeric = some l) (h : solveBodyT clk t = .ok (t', b)) :
    solveBody t.qp = .ok (t'.qp, b) := by
  rw [← (solveBodyT_erase clk hl).1, h]
  rfl

theorem solveBodyT_body [Inhabited K] {clk : Nat → Timespec} {t t' : Timed K} {b : Bool} {l : K}
    (hl : t.times.ldl_numeric = some l) (h : solveBodyT clk t = .ok (t', b)) :
    ∃ qe, evaluate t.qp = .ok qe ∧ t.Body clk l qe t' b := by
  obtain ⟨u, qe, e1, _, e2, e3⟩ := (solveBodyT_spec clk hl).2 _ (solveBodyT_ok hl h)
  rw [h] at e1
  cases e1
  exact ⟨qe, e2, e3⟩

/-- A solve that succeeds: some full iterations, perhaps the one that finds the tolerances met, and
the end. -/
theorem QP_SOLVE_T_runs {mex : Bool} {clk : Nat → Timespec} {t t' : Timed K} {f : Int} {tset l : K}
    (hf : t.qp.stats.Flag ≠ QP_KKTFAIL) (ht : t.times.tsetup = some tset)
    (hl : t.times.ldl_numeric = some l) (h : QP_SOLVE_T mex clk t = .ok (f, t')) :
    ∃ k v u lu, Turns clk k (t.begin mex) v ∧
      (solveBodyT clk v = .ok (u, true) ∨ u = v) ∧ u.times.ldl_numeric = some lu ∧
      u.times.tsetup = some tset ∧
      f = u.capped.qp.stats.Flag ∧ t' = u.capped.close clk t.io.now tset lu := by
  cases hr : forBrkN t.qp.options.maxit.toNat 0 (t.begin mex) (fun _ t => solveBodyT clk t) with
  | error e =>
    have hr' : forBrk 0 t.qp.options.maxit (t.begin mex) (fun _ t => solveBodyT clk t) = .error e := by
      unfold forBrk
      rw [Int.sub_zero]
      exact hr
    unfold QP_SOLVE_T at h
    simp only [ne_eq, hf, not_false_eq_true, if_true] at h
    unfold Timed.begin at hr'
    rw [hr'] at h
    cases h
  | ok r =>
    obtain ⟨u, b⟩ := r
    obtain ⟨g1, lu, g2⟩ := loopT_times clk (t := t.begin mex) hl hr
    have h1 := QP_SOLVE_T_eq mex clk hf hr (g1.trans ht) g2
    rw [h] at h1
    cases h1
    obtain ⟨k, v, h2, h3⟩ := loopT_runs clk _ _ _ _ _ hr
    exact ⟨k, v, u, lu, h2, h3.imp (fun h => h.2.2) (fun h => h.2.2), g2, g1.trans ht, rfl, rfl⟩

/-- **C82**, no influence: the solve with clock and output computes exactly what it computes without
them, whatever the clock returns and wherever the output goes; this includes every failure. -/
theorem C82_solve (mex : Bool) (clk : Nat → Timespec) {t : Timed K} {tset l : K}
    (ht : t.times.tsetup = some tset) (hl : t.times.ldl_numeric = some l) :
    (QP_SOLVE_T mex clk t >>= fun r => .ok (r.1, r.2.qp)) = QP_SOLVE t.qp := by
  by_cases hf : t.qp.stats.Flag = QP_KKTFAIL
  · unfold QP_SOLVE_T QP_SOLVE
    have hq : ∀ io : Io K, ({ t with io := io, acc := Scalar.dec 0 0 } : Timed K).qp = t.qp :=
      fun _ => rfl
    simp only [hf, ne_eq, not_true_eq_false, if_false, pure_eq_ok, ok_bind]
    split
    · have he : ∀ ti : Times K, ti.tsolve = some (toc (clk t.io.now) (clk (t.begin mex).io.now)) →
          ti.tsetup = some tset → ti.kkt_time = some (Scalar.dec 0 0) → ti.ldl_numeric = some l →
          printEnd t.qp ti = .ok (closing t.qp.stats.Flag
            (toc (clk t.io.now) (clk (t.begin mex).io.now)) tset (Scalar.dec 0 0) l
            t.qp.stats.IterationCount) := fun _ a b c d => printEnd_eq a b c d
      rw [he _ (by rfl) (by exact ht) (by rfl) (by exact hl)]
      simp only [ok_bind]
    · simp only [ok_bind]
  · have hl0 : (t.begin mex).times.ldl_numeric = some l := hl
    have he := loopT_erase clk t.qp.options.maxit.toNat 0 (t.begin mex) l hl0
    unfold QP_SOLVE
    rw [if_pos hf]
    unfold forBrk
    rw [Int.sub_zero]
    have hq : (t.begin mex).qp = t.qp := rfl
    rw [hq] at he
    rw [← he]
    cases hr : forBrkN t.qp.options.maxit.toNat 0 (t.begin mex) (fun _ t => solveBodyT clk t) with
    | error e =>
      have hr' : forBrk 0 t.qp.options.maxit (t.begin mex) (fun _ t => solveBodyT clk t) = .error e := by
        unfold forBrk
        rw [Int.sub_zero]
        exact hr
      unfold QP_SOLVE_T
      simp only [ne_eq, hf, not_false_eq_true, if_true]
      unfold Timed.begin at hr'
      rw [hr']
      rfl
    | ok r =>
      obtain ⟨u, b⟩ := r
      obtain ⟨g1, l', g2⟩ := loopT_times clk hl0 hr
      rw [QP_SOLVE_T_eq mex clk hf hr (g1.trans ht) g2]
      unfold eraseB Timed.capped
      simp only [ok_bind]
      split <;> rfl

/-- **C82**, no influence: the same for the setup. -/
theorem C82_setup (mex : Bool) (clk : Nat → Timespec) (amd : Amd) (a : SetupArgs K) (io : Io K) :
    (QP_SETUP_T mex clk amd a io >>= fun t => .ok t.qp) = QP_SETUP amd a := by
  unfold QP_SETUP_T
  cases QP_SETUP amd a <;> rfl

end

section

variable {K : Type} [Field K] [LinearOrder K] [IsStrictOrderedRing K] [Scalar K] [LawfulScalar K]

/-! ## The times -/

/-- The readings of a clock do not decrease. -/
def Monotonic (clk : Nat → Timespec) : Prop := ∀ i, (clk i).total ≤ (clk (i + 1)).total

/-- Seconds from the `i`-th to the `j`-th reading. -/
def elapsed (K : Type) [Field K] (clk : Nat → Timespec) (i j : Nat) : K :=
  (((clk j).total - (clk i).total : Int) : K) / 10 ^ 9

theorem toc_elapsed (clk : Nat → Timespec) (i j : Nat) :
    (toc (clk i) (clk j) : K) = elapsed K clk i j := C46_elapsed _ _

theorem Monotonic.le {clk : Nat → Timespec} (h : Monotonic clk) {i j : Nat} (hij : i ≤ j) :
    (clk i).total ≤ (clk j).total := by
  induction hij with
  | refl => exact le_rfl
  | step _ ih => exact ih.trans (h _)

theorem Monotonic.nonneg {clk : Nat → Timespec} (h : Monotonic clk) {i j : Nat} (hij : i ≤ j) :
    0 ≤ elapsed K clk i j := by
  unfold elapsed
  have := h.le hij
  have h1 : (0 : K) ≤ (((clk j).total - (clk i).total : Int) : K) := by
    exact_mod_cast (by omega : (0 : Int) ≤ (clk j).total - (clk i).total)
  positivity

theorem elapsed_add (clk : Nat → Timespec) (i j k : Nat) :
    elapsed K clk i j + elapsed K clk j k = elapsed K clk i k := by
  unfold elapsed
  push_cast
  ring

/-- **C82**, Windows: the timer returns the difference of the counter readings over the frequency. -/
theorem C82_windows (t1 t2 freq : Int) :
    (tocWin t1 t2 freq : K) = ((t2 - t1 : Int) : K) / (freq : K) := by
  unfold tocWin
  simp only [LawfulScalar.ofInt_eq]

/-- **C82**, macOS: `d` ticks after the first reading, even if the counter has wrapped in between, the
timer returns `d * numer / denom` nanoseconds, less what is cut off: at most a nanosecond. This needs
`d * numer` to fit 64 bits. -/
theorem C82_mac {t1 d numer denom : Nat} (h1 : t1 < 2 ^ 64) (hd : d * numer < 2 ^ 64)
    (hn : 0 < numer) (hm : 0 < denom) :
    (tocMac t1 ((t1 + d) % 2 ^ 64) numer denom : K) ≤ (d * numer : K) / denom / 10 ^ 9 ∧
      (d * numer : K) / denom / 10 ^ 9 <
        (tocMac t1 ((t1 + d) % 2 ^ 64) numer denom : K) + 1 / 10 ^ 9 := by
  have hd1 : d < 2 ^ 64 := lt_of_le_of_lt (Nat.le_mul_of_pos_right d hn) hd
  have e1 : ((t1 + d) % 2 ^ 64 + 2 ^ 64 - t1) % 2 ^ 64 = d := by
    norm_num at *
    omega
  have e2 : macDuration t1 ((t1 + d) % 2 ^ 64) numer denom = d * numer / denom := by
    unfold macDuration
    rw [e1, Nat.mod_eq_of_lt hd]
  have hmK : (0 : K) < denom := by exact_mod_cast hm
  have f1 : ((d * numer / denom : Nat) : K) ≤ (d * numer : K) / denom := by
    rw [le_div_iff₀ hmK]
    exact_mod_cast Nat.div_mul_le_self (d * numer) denom
  have f2 : (d * numer : K) / denom < ((d * numer / denom : Nat) : K) + 1 := by
    rw [div_lt_iff₀ hmK]
    have := Nat.lt_div_mul_add (a := d * numer) hm
    have h2 : d * numer < (d * numer / denom + 1) * denom := by rw [add_mul, one_mul]; exact this
    exact_mod_cast h2
  unfold tocMac
  rw [e2]
  simp only [LawfulScalar.ofInt_eq, Int.cast_natCast]
  have h9 : ((1000000000 : Int) : K) = 10 ^ 9 := by norm_num
  rw [h9]
  constructor
  · gcongr
  · rw [← add_div]
    gcongr

/-- **C82**, macOS, the limit: when `d * numer` does not fit the time returned is wrong. For
instance `2 ^ 58` ticks with `numer = 64` count as nothing. -/
theorem C82_mac_overflow : (tocMac 0 (2 ^ 58) 64 3 : K) = 0 := by
  unfold tocMac macDuration
  simp only [LawfulScalar.ofInt_eq]
  norm_num

/-- Three ticks across the wrap of the counter, time base 125/3: 125 ns. -/
example : (tocMac (2 ^ 64 - 1) 2 125 3 : ℚ) = 125 / 10 ^ 9 ∧
    (tocWin 1000 31000 10000000 : ℚ) = 3 / 1000 := by
  refine ⟨?_, ?_⟩
  · unfold tocMac macDuration
    simp only [LawfulScalar.ofInt_eq]
    norm_num
  · rw [C82_windows]
    norm_num

/-- What holds of clock and times in the loop: `n0` readings were made before it, and `l0` was the
time for factorisations. -/
structure Timed.Fair (clk : Nat → Timespec) (n0 : Nat) (l0 : K) (t : Timed K) : Prop where
  now : n0 ≤ t.io.now
  acc0 : 0 ≤ t.acc
  acc1 : t.acc ≤ elapsed K clk n0 t.io.now
  ldl : ∃ l, t.times.ldl_numeric = some l ∧ l0 ≤ l ∧ l - l0 ≤ t.acc

theorem Timed.Fair.body {clk : Nat → Timespec} (hc : Monotonic clk) {n0 : Nat} {l0 : K}
    {t t' : Timed K} (h : t.Fair clk n0 l0) {r : QP K × Bool} (hb : solveBody t.qp = .ok r)
    (hb' : solveBodyT clk t = .ok (t', r.2)) (hf : r.1.stats.Flag ≠ QP_KKTFAIL) :
    t'.Fair clk n0 l0 := by
  obtain ⟨hn, h0, h1, l, hl, h2, h3⟩ := h
  have : Inhabited K := ⟨l⟩
  obtain ⟨u, qe, e1, e2, _, e3⟩ := (solveBodyT_spec clk hl).2 r hb
  rw [hb'] at e1
  cases e1
  rcases e3.clock with ⟨_, c1, c2, c3⟩ | ⟨_, c0, _⟩ | ⟨_, _, c1, c2, c3⟩ | ⟨_, _, c1, c2, c3⟩
  · exact ⟨by omega, by rw [c2]; exact h0, by rw [c1, c2]; exact h1, l, c3, h2, by rw [c2]; exact h3⟩
  · rw [e2] at c0
    exact absurd c0 hf
  · simp only [toc_elapsed] at c2 c3
    have a1 := hc.nonneg (K := K) (show t.io.now ≤ t.io.now + 1 by omega)
    have a2 := hc.nonneg (K := K) (show t.io.now + 1 ≤ t.io.now + 2 by omega)
    have a3 := hc.nonneg (K := K) (show t.io.now + 2 ≤ t.io.now + 3 by omega)
    have a4 := hc.nonneg (K := K) (show t.io.now + 3 ≤ t.io.now + 4 by omega)
    have a5 := hc.nonneg (K := K) (show t.io.now + 4 ≤ t.io.now + 5 by omega)
    have a6 := hc.nonneg (K := K) (show t.io.now + 5 ≤ t.io.now + 6 by omega)
    have b1 := elapsed_add (K := K) clk n0 t.io.now (t.io.now + 3)
    have b2 := elapsed_add (K := K) clk n0 (t.io.now + 3) (t.io.now + 4)
    have b3 := elapsed_add (K := K) clk n0 (t.io.now + 4) (t.io.now + 5)
    have b4 := elapsed_add (K := K) clk n0 (t.io.now + 5) (t.io.now + 6)
    have b5 := elapsed_add (K := K) clk t.io.now (t.io.now + 1) (t.io.now + 3)
    have b6 := elapsed_add (K := K) clk (t.io.now + 1) (t.io.now + 2) (t.io.now + 3)
    refine ⟨by omega, ?_, ?_, _, c3, ?_, ?_⟩
    · rw [c2]; linarith
    · rw [c1, c2]; linarith
    · linarith
    · rw [c2]; linarith
  · simp only [toc_elapsed] at c2
    have a1 := hc.nonneg (K := K) (show t.io.now ≤ t.io.now + 1 by omega)
    have a2 := hc.nonneg (K := K) (show t.io.now + 1 ≤ t.io.now + 2 by omega)
    have b1 := elapsed_add (K := K) clk n0 t.io.now (t.io.now + 1)
    have b2 := elapsed_add (K := K) clk n0 (t.io.now + 1) (t.io.now + 2)
    refine ⟨by omega, ?_, ?_, l, c3, h2, ?_⟩
    · rw [c2]; linarith
    · rw [c1, c2]; linarith
    · rw [c2]; linarith

/-- Induction over the iterations of a solve. -/
theorem Turns.induct {q0 : QP K} {clk : Nat → Timespec} (Q : Timed K → Prop)
    (hQ : ∀ t t' : Timed K, Reach q0 t.qp → Q t → solveBody t.qp = .ok (t'.qp, false) →
      solveBodyT clk t = .ok (t', false) → Q t')
    {k : Nat} {t u : Timed K} (hk : Turns clk k t u) :
    ∀ {l : K}, t.times.ldl_numeric = some l → Reach q0 t.qp → Q t →
      Reach q0 u.qp ∧ Q u ∧ (∃ l, u.times.ldl_numeric = some l) ∧ Iterations k t.qp u.qp := by
  have front : ∀ {k : Nat} {a b c : QP K}, solveBody a = .ok (b, false) → Iterations k b c →
      Iterations (k + 1) a c := by
    intro k a b c hb hk
    induction hk with
    | zero => exact .succ (.zero _) hb
    | succ _ hs ih => exact .succ (ih hb) hs
  induction hk with
  | zero t => intro l hl hr hq; exact ⟨hr, hq, ⟨l, hl⟩, .zero _⟩
  | succ hb _ ih =>
    intro l hl hr hq
    have hb1 := solveBodyT_ok hl hb
    obtain ⟨l', hl'⟩ := (solveBodyT_erase clk hl).2 _ _ hb
    obtain ⟨g1, g2, g3, g4⟩ := ih hl' (hr.iteration hb1) (hQ _ _ hr hq hb1 hb)
    exact ⟨g1, g2, g3, front hb1 g4⟩

theorem Started.flag {amd : Amd} {a : SetupArgs K} {pb : Problem K} {q0 q : QP K}
    (h : Started amd a pb q0) (hr : Reach q0 q) : q.stats.Flag ≠ QP_KKTFAIL := by
  obtain ⟨p, q, hs, _⟩ := h.sinv hr
  rcases hs.flag with h | h | h <;> rw [h] <;> decide

/-- **C82**, times: for any clock that does not run backwards, in exact arithmetic, the reported time
of the solve is the time from the first to the last reading made during it; the reported time for
linear systems is part of it; and what is added to the time for factorisations is part of that. -/
theorem C82_times {amd : Amd} {a : SetupArgs K} {pb : Problem K} {q0 : QP K}
    (h : Started amd a pb q0) {mex : Bool} {clk : Nat → Timespec} (hc : Monotonic clk)
    {t t' : Timed K} {f : Int} {tset l0 : K} (hr : Reach q0 t.qp)
    (ht : t.times.tsetup = some tset) (hl : t.times.ldl_numeric = some l0)
    (hs : QP_SOLVE_T mex clk t = .ok (f, t')) :
    ∃ ts kk l, t'.times = ⟨some tset, some ts, some kk, some l⟩ ∧
      t.io.now + 2 ≤ t'.io.now ∧ ts = elapsed K clk t.io.now (t'.io.now - 1) ∧
      0 ≤ kk ∧ kk ≤ ts ∧ l0 ≤ l ∧ l - l0 ≤ kk := by
  obtain ⟨k, v, u, lu, h1, h2, h3, h4, h5, h6⟩ := QP_SOLVE_T_runs (h.flag hr) ht hl hs
  have hb0 : (t.begin mex).Fair clk (t.io.now + 1) l0 := by
    refine ⟨(t.begin_now mex).ge, ?_, ?_, l0, hl, le_rfl, ?_⟩ <;>
      simp [Timed.begin, LawfulScalar.dec_eq]
    exact hc.nonneg (by split <;> simp [Io.tick, Io.print])
  obtain ⟨g1, g2, ⟨lv, g3⟩, _⟩ := h1.induct (fun w => w.Fair clk (t.io.now + 1) l0)
    (fun w w' hr hq hb hb' => hq.body hc hb hb' (h.flag (hr.iteration hb))) hl hr hb0
  have hu : u.Fair clk (t.io.now + 1) l0 := by
    rcases h2 with h2 | rfl
    · have hb := solveBodyT_ok g3 h2
      exact g2.body hc hb h2 (h.flag (g1.iteration hb))
    · exact g2
  obtain ⟨u1, u2, u3, l, u4, u5, u6⟩ := hu
  rw [h3] at u4
  cases u4
  have e1 : t'.io.now = u.io.now + 1 := by
    rw [h6]
    unfold Timed.close
    rw [u.capped_io]
    dsimp only
    split <;> rfl
  have e2 : t'.times = ⟨some tset, some (elapsed K clk t.io.now u.io.now), some u.acc, some lu⟩ := by
    rw [h6]
    unfold Timed.close
    simp only [u.capped_times, u.capped_io, u.capped_acc, h3, h4, toc_elapsed]
  refine ⟨_, _, _, e2, by omega, by rw [e1]; rfl, u2, ?_, u5, u6⟩
  have a1 := elapsed_add (K := K) clk t.io.now (t.io.now + 1) u.io.now
  have a2 := hc.nonneg (K := K) (show t.io.now ≤ t.io.now + 1 by omega)
  linarith

/-- **C82**, times of the setup: the reported time is that between the two readings made. -/
theorem C82_setup_time {amd : Amd} {mex : Bool} {clk : Nat → Timespec} {a : SetupArgs K} {io : Io K}
    {t : Timed K} (hs : QP_SETUP_T mex clk amd a io = .ok t) :
    t.io.now = io.now + 2 ∧ t.times = ⟨some (elapsed K clk io.now (io.now + 1)), none, none, some 0⟩ := by
  unfold QP_SETUP_T at hs
  cases hq : QP_SETUP amd a with
  | error e => rw [hq] at hs; cases hs
  | ok q =>
    rw [hq] at hs
    simp only [ok_bind, pure_eq_ok] at hs
    cases hs
    have e : ∀ (c d : Prop) [Decidable c] [Decidable d] (l l' : List (Line K)),
        (if d then (if c then io.tick.print l else io.tick).print l'
          else (if c then io.tick.print l else io.tick)).now = io.now + 1 := by
      intro c d _ _ l l'
      split <;> split <;> rfl
    refine ⟨?_, ?_⟩
    · show (_ : Nat) + 1 = _
      rw [e]
    · simp only [toc_elapsed, e, LawfulScalar.dec_eq]
      simp

/-- Readings of the clock made by iterations; `true` stands for one with a predictor. -/
def lapReads : List Bool → Nat
  | [] => 0
  | true :: w => 6 + lapReads w
  | false :: w => 2 + lapReads w

/-- Time spent on linear systems by iterations, the first of which makes reading `i`. With a
predictor readings 0 to 3 are: start of the first linear system, start and end of its factorisation,
its end. Readings 4 and 5 are start and end of the second. Without a predictor there is one. -/
def lapKkt (K : Type) [Field K] (clk : Nat → Timespec) : Nat → List Bool → K
  | _, [] => 0
  | i, true :: w =>
    elapsed K clk i (i + 3) + elapsed K clk (i + 4) (i + 5) + lapKkt K clk (i + 6) w
  | i, false :: w => elapsed K clk i (i + 1) + lapKkt K clk (i + 2) w

/-- Time spent on the factorisations with a predictor. -/
def lapLdl (K : Type) [Field K] (clk : Nat → Timespec) : Nat → List Bool → K
  | _, [] => 0
  | i, true :: w => elapsed K clk (i + 1) (i + 2) + lapLdl K clk (i + 6) w
  | i, false :: w => lapLdl K clk (i + 2) w

/-- Iterations lead from `q` to `q'`; the list says for each whether `sigma` was above the desired
value. -/
inductive Laps (pb : Problem K) : List Bool → QP K → QP K → Prop
  | nil (q : QP K) : Laps pb [] q q
  | high {w : List Bool} {a b c : QP K} : solveBody a = .ok (b, false) →
      pb.sigma_d < a.options.sigma → Laps pb w b c → Laps pb (true :: w) a c
  | low {w : List Bool} {a b c : QP K} : solveBody a = .ok (b, false) →
      a.options.sigma ≤ pb.sigma_d → Laps pb w b c → Laps pb (false :: w) a c

theorem Turns.laps {amd : Amd} {a : SetupArgs K} {pb : Problem K} {q0 : QP K}
    (h : Started amd a pb q0) {clk : Nat → Timespec} {k : Nat} {t u : Timed K}
    (hk : Turns clk k t u) :
    ∀ {l : K}, t.times.ldl_numeric = some l → Reach q0 t.qp →
      ∃ w, Laps pb w t.qp u.qp ∧ w.length = k ∧ u.io.now = t.io.now + lapReads w ∧
        u.acc = t.acc + lapKkt K clk t.io.now w ∧
        u.times.ldl_numeric = some (l + lapLdl K clk t.io.now w) := by
  induction hk with
  | zero t =>
    intro l hl hr
    exact ⟨[], .nil _, rfl, rfl, (add_zero _).symm, by simp [hl, lapLdl]⟩
  | @succ k a1 b1 c1 hb _ ih =>
    intro l hl hr
    have : Inhabited K := ⟨l⟩
    have hb1 := solveBodyT_ok hl hb
    obtain ⟨p, q, hs, _⟩ := h.sinv hr
    have hsd : a1.qp.sigma_d = pb.sigma_d := hs.inv.sd
    obtain ⟨qe, _, hB⟩ := solveBodyT_body hl hb
    rcases hB.clock with ⟨c, _⟩ | ⟨c, _⟩ | ⟨_, c0, c1, c2, c3⟩ | ⟨_, c0, c1, c2, c3⟩
    · cases c
    · cases c
    · obtain ⟨w, g1, g2, g3, g4, g5⟩ := ih c3 (hr.iteration hb1)
      rw [hsd, LawfulScalar.ltb_iff] at c0
      simp only [toc_elapsed] at c2 c3 g5
      refine ⟨true :: w, .high hb1 c0 g1, by simp [g2], ?_, ?_, ?_⟩
      · rw [g3, c1]
        simp only [lapReads]
        omega
      · rw [g4, c2, c1]
        simp only [lapKkt]
        ring
      · rw [g5, c1]
        simp only [lapLdl, add_assoc]
    · obtain ⟨w, g1, g2, g3, g4, g5⟩ := ih c3 (hr.iteration hb1)
      rw [hsd, ← Bool.not_eq_true, LawfulScalar.ltb_iff, not_lt] at c0
      simp only [toc_elapsed] at c2
      refine ⟨false :: w, .low hb1 c0 g1, by simp [g2], ?_, ?_, ?_⟩
      · rw [g3, c1]
        simp only [lapReads]
        omega
      · rw [g4, c2, c1]
        simp only [lapKkt]
        ring
      · rw [g5, c1]
        simp only [lapLdl]

/-- **C82**, times, exactly: a solve is some full iterations, perhaps one that finds the tolerances
met, and the end. Its readings of the clock are one at the start, six for a full iteration with a
predictor and two for one without, and one at the end. The reported time for linear systems is the
time between start and end of each of them, and what is added to the time for factorisations is the
time between start and end of each factorisation in an iteration with a predictor. -/
theorem C82_laps {amd : Amd} {a : SetupArgs K} {pb : Problem K} {q0 : QP K}
    (h : Started amd a pb q0) {mex : Bool} {clk : Nat → Timespec}
    {t t' : Timed K} {f : Int} {tset l0 : K} (hr : Reach q0 t.qp)
    (ht : t.times.tsetup = some tset) (hl : t.times.ldl_numeric = some l0)
    (hs : QP_SOLVE_T mex clk t = .ok (f, t')) :
    ∃ w v, Laps pb w t.qp v ∧
      t'.qp.stats.IterationCount = t.qp.stats.IterationCount + w.length ∧
      t'.io.now = t.io.now + 1 + lapReads w + 1 ∧
      t'.times = ⟨some tset, some (elapsed K clk t.io.now (t.io.now + 1 + lapReads w)),
        some (lapKkt K clk (t.io.now + 1) w), some (l0 + lapLdl K clk (t.io.now + 1) w)⟩ := by
  obtain ⟨k, v, u, lu, h1, h2, h3, h4, h5, h6⟩ := QP_SOLVE_T_runs (h.flag hr) ht hl hs
  obtain ⟨w, g1, g2, g3, g4, g5⟩ := h1.laps h (l := l0) hl hr
  obtain ⟨r1, -, -, i1⟩ := h1.induct (fun _ => True) (fun _ _ _ _ _ _ => trivial) hl hr trivial
  have e0 : (t.begin mex).acc = 0 := by simp [Timed.begin, LawfulScalar.dec_eq]
  rw [t.begin_now] at g3 g4 g5
  rw [e0, zero_add] at g4
  obtain ⟨p, q, hsi, _⟩ := h.sinv hr
  have hcv : v.qp.stats.IterationCount = t.qp.stats.IterationCount + w.length := by
    rw [g2]; exact (i1.facts h.wf hsi).2.2.2
  have hu : u.io.now = v.io.now ∧ u.acc = v.acc ∧ u.times.ldl_numeric = v.times.ldl_numeric ∧
      u.qp.stats.IterationCount = v.qp.stats.IterationCount := by
    rcases h2 with h2 | rfl
    · have : Inhabited K := ⟨l0⟩
      have hb := solveBodyT_ok g5 h2
      obtain ⟨qe, _, hB⟩ := solveBodyT_body g5 h2
      obtain ⟨p, q, hsv, _⟩ := h.sinv r1
      obtain ⟨x, y, z, s, hi⟩ := hsv.iter
      have hc : u.qp.stats.IterationCount = v.qp.stats.IterationCount := by
        obtain ⟨_, _, _, e, _⟩ := (hsv.bodyOut h.wf hb hi).stop rfl
        simp only at e
        rw [e]
        rfl
      rcases hB.clock with ⟨_, c1, c2, c3⟩ | ⟨_, c, _⟩ | ⟨c, _⟩ | ⟨c, _⟩
      · exact ⟨c1, c2, c3.trans g5.symm, hc⟩
      · exact absurd c (h.flag (r1.iteration hb))
      · cases c
      · cases c
    · exact ⟨rfl, rfl, rfl, rfl⟩
  obtain ⟨u1, u2, u3, u4⟩ := hu
  rw [u3, g5] at h3
  injection h3 with h3
  refine ⟨w, v.qp, g1, ?_, ?_, ?_⟩
  · rw [h6, ← hcv, ← u4]
    unfold Timed.close Timed.capped
    dsimp only
    split <;> rfl
  · rw [h6]
    unfold Timed.close
    rw [u.capped_io]
    dsimp only
    rw [← g3, ← u1]
    split <;> rfl
  · rw [h6]
    unfold Timed.close
    simp only [u.capped_times, u.capped_io, u.capped_acc, u1, u2, u3, g3, g4, g5, h4, toc_elapsed]

/-- **C82**, output of the setup: it prints a message only when compiled for MATLAB, and then only
when the ordering was asked for and failed. -/
theorem C82_setup_output {amd : Amd} {a : SetupArgs K} {pb : Problem K} {q0 : QP K}
    (h : Started amd a pb q0) {mex : Bool} {clk : Nat → Timespec} {io : Io K} :
    ∃ t, QP_SETUP_T mex clk amd a io = .ok t ∧ t.qp = q0 ∧
      t.io.out = io.out ++
        (if mex = true ∧ a.Permut = none ∧ q0.stats.AMD_RESULT < 0 then [.amdFail] else []) := by
  have hfl := h.flag (.start : Reach q0 q0)
  refine ⟨_, by unfold QP_SETUP_T; rw [h.ok]; rfl, rfl, ?_⟩
  rw [if_neg hfl]
  dsimp only
  simp only [Bool.and_eq_true, decide_eq_true_eq, Option.isNone_iff_eq_none, and_assoc]
  split <;> simp [Io.tick, Io.print]

/-- **C82**, a limit of the times: once `sigma` has come down to its desired value the factorisations
are no longer counted. The reported time for factorisations then stays what it was. -/
theorem C82_ldl_not_counted {amd : Amd} {a : SetupArgs K} {pb : Problem K} {q0 : QP K}
    (h : Started amd a pb q0) {mex : Bool} {clk : Nat → Timespec}
    {t t' : Timed K} {f : Int} {tset l0 : K} (hr : Reach q0 t.qp)
    (ht : t.times.tsetup = some tset) (hl : t.times.ldl_numeric = some l0)
    (hsig : t.qp.options.sigma ≤ pb.sigma_d)
    (hs : QP_SOLVE_T mex clk t = .ok (f, t')) : t'.times.ldl_numeric = some l0 := by
  have : Inhabited K := ⟨l0⟩
  have hsd : ∀ q, Reach q0 q → q.sigma_d = pb.sigma_d := by
    intro q hq
    obtain ⟨p, q, hs, _⟩ := h.sinv hq
    exact hs.inv.sd
  have key : ∀ (w w' : Timed K) (b : Bool), Reach q0 w.qp →
      (w.times.ldl_numeric = some l0 ∧ w.qp.options.sigma ≤ pb.sigma_d) →
      solveBodyT clk w = .ok (w', b) → w'.times.ldl_numeric = some l0 := by
    intro w w' b hw hq hb'
    obtain ⟨qe, _, hB⟩ := solveBodyT_body hq.1 hb'
    rcases hB.clock with ⟨_, _, _, c⟩ | ⟨_, c, _⟩ | ⟨_, c, _⟩ | ⟨_, _, _, _, c⟩
    · exact c
    · exact absurd c (h.flag (hw.iteration (solveBodyT_ok hq.1 hb')))
    · rw [hsd _ hw, LawfulScalar.ltb_iff] at c
      exact absurd hq.2 (not_le.mpr c)
    · exact c
  obtain ⟨k, v, u, lu, h1, h2, h3, h4, h5, h6⟩ := QP_SOLVE_T_runs (h.flag hr) ht hl hs
  obtain ⟨g1, g2, _, _⟩ := h1.induct
    (fun w => w.times.ldl_numeric = some l0 ∧ w.qp.options.sigma ≤ pb.sigma_d)
    (fun w w' hr hq hb hb' => ⟨key w w' false hr hq hb',
      ((C32_sigma_step h hr hb).2.2 hq.2).le⟩) hl hr ⟨hl, hsig⟩
  rw [h6]
  unfold Timed.close
  dsimp only
  rw [u.capped_times]
  rcases h2 with h2 | rfl
  · exact key v u true g1 g2 h2
  · exact g2.1

end

section

variable {K : Type} [Field K] [LinearOrder K] [IsStrictOrderedRing K] [Scalar K] [LawfulScalar K]
  [LawfulSqrt K]

/-! ## The output -/

/-- `l` is the right line for the iterate held in `q`: its number, its objective value, the norms of
its residuals and its average complementarity. -/
def QP.Shown (pb : Problem K) (q : QP K) (l : Line K) : Prop :=
  ∃ x y z s nx ny nz, q.Iter pb x y z s ∧
    l = .iter q.stats.IterationCount (pb.obj x) nx ny nz (dot pb.m s z / (pb.m : K)) ∧
    IsNorm pb.n (pb.rx x y z) nx ∧ (pb.p ≠ 0 → IsNorm pb.p (pb.ry x) ny) ∧
    IsNorm pb.m (pb.rz x s) nz

/-- `l` is the right line for the step from `q` to `q'`: the lengths by which the iterate was moved
along the direction held in `q'`. -/
def QP.StepShown (pb : Problem K) (q q' : QP K) (l : Line K) : Prop :=
  ∃ x y z s dx dy dz ds ap ad, l = .step ap ad ∧ q.Iter pb x y z s ∧
    Buf.Has q'.delta_x pb.n dx ∧ Buf.Has q'.delta_y pb.p dy ∧ Buf.Has q'.delta_z pb.m dz ∧
    Buf.Has q'.delta_s pb.m ds ∧ q'.Iter pb (fun i => x i + ap * dx i) (fun i => y i + ad * dy i)
      (fun i => z i + ad * dz i) (fun i => s i + ap * ds i)

/-- The lines printed by the iterations leading from `q` to `q'`. -/
inductive Shown (pb : Problem K) : QP K → QP K → List (Line K) → Prop
  /-- no iteration -/
  | none (q : QP K) : Shown pb q q []
  /-- the iteration that finds the tolerances met -/
  | last {q q' : QP K} {l : Line K} : solveBody q = .ok (q', true) → q.Shown pb l →
      Shown pb q q' [l]
  /-- a full iteration, and others after it -/
  | more {q q1 q' : QP K} {l l' : Line K} {ls : List (Line K)} : solveBody q = .ok (q1, false) →
      q.Shown pb l → q.StepShown pb q1 l' → Shown pb q1 q' ls → Shown pb q q' (l :: l' :: ls)

theorem evaluate_shown [Inhabited K] {amd : Amd} {a : SetupArgs K} {pb : Problem K} {q0 q qe : QP K}
    (h : Started amd a pb q0) (hr : Reach q0 q) (he : evaluate q = .ok qe) :
    q.Shown pb qe.stats.line := by
  obtain ⟨p, q', hs, _⟩ := h.sinv hr
  obtain ⟨x, y, z, s, hi⟩ := hs.iter
  obtain ⟨_, _, _, e, _⟩ := (evaluate_spec h.wf hs.inv hi).elim he
  have ix := (nrmF_isNorm pb.n (rxF pb x y z)).congr (fun i hi => rxF_eq h.wf x y z hi)
  have iy := (nrmF_isNorm pb.p (ryF pb x)).congr (fun i _ => ryF_eq h.wf x i)
  have iz := (nrmF_isNorm pb.m (rzF pb x s)).congr (fun i _ => rzF_eq h.wf x s i)
  have e2 : qe.stats.line = .iter q.stats.IterationCount (objF pb.P pb.c x) (nrmF pb.n (rxF pb x y z))
      ((if pb.p = 0 then q.stats.n_ry else some (nrmF pb.p (ryF pb x))).getD default)
      (nrmF pb.m (rzF pb x s)) (gapF pb z s) := by
    rw [e]
    rfl
  rw [objF_eq h.wf, gapF_eq] at e2
  refine ⟨x, y, z, s, _, _, _, hi, e2, ix, ?_, iz⟩
  · intro hp
    simp only [if_neg hp, Option.getD_some]
    exact iy

/-- What the loop prints. -/
theorem Turns.shown {amd : Amd} {a : SetupArgs K} {pb : Problem K} {q0 : QP K}
    (h : Started amd a pb q0) {clk : Nat → Timespec} {k : Nat} {t v u : Timed K}
    (hk : Turns clk k t v) (hu : solveBodyT clk v = .ok (u, true) ∨ u = v) :
    ∀ {l : K}, t.times.ldl_numeric = some l → Reach q0 t.qp →
      u.qp.options.verbose = t.qp.options.verbose ∧
      (t.qp.options.verbose ≤ 0 → u.io.out = t.io.out) ∧
      (0 < t.qp.options.verbose → ∃ ls, Shown pb t.qp u.qp ls ∧ u.io.out = t.io.out ++ ls) := by
  have hv : ∀ {q q' : QP K} {b : Bool}, Reach q0 q → solveBody q = .ok (q', b) →
      q'.options.verbose = q.options.verbose := by
    intro q q' b hr hb
    obtain ⟨p, q', hs, _⟩ := h.sinv hr
    obtain ⟨x, y, z, s, hi⟩ := hs.iter
    exact (hs.bodyOut h.wf hb hi).frame.verbose
  induction hk with
  | zero t =>
    intro l hl hr
    rcases hu with hu | rfl
    · have : Inhabited K := ⟨l⟩
      have hb := solveBodyT_ok hl hu
      obtain ⟨qe, he, hB⟩ := solveBodyT_body hl hu
      have ho := hB.out
      rw [(evaluate_keeps qe he).1] at ho
      refine ⟨hv hr hb, fun h0 => ?_, fun h0 => ⟨_, .last hb (evaluate_shown h hr he), ?_⟩⟩
      · simpa [not_lt.mpr h0] using ho
      · simpa [h0] using ho
    · exact ⟨rfl, fun _ => rfl, fun _ => ⟨[], .none _, by simp⟩⟩
  | @succ k a1 b1 c1 hb _ ih =>
    intro l hl hr
    have : Inhabited K := ⟨l⟩
    obtain ⟨l', hl'⟩ := (solveBodyT_erase clk hl).2 _ _ hb
    obtain ⟨qe, he, hB⟩ := solveBodyT_body hl hb
    have hb1 := solveBodyT_ok hl hb
    have ho := hB.out
    rw [(evaluate_keeps qe he).1, hv hr hb1] at ho
    obtain ⟨g1, g2, g3⟩ := ih hu hl' (hr.iteration hb1)
    rw [hv hr hb1] at g1 g2 g3
    refine ⟨g1, fun h0 => ?_, fun h0 => ?_⟩
    · rw [g2 h0]
      simpa [not_lt.mpr h0] using ho
    · obtain ⟨ls, g4, g5⟩ := g3 h0
      refine ⟨_, .more (l' := .step b1.qp.stats.alpha_p b1.qp.stats.alpha_d) hb1
        (evaluate_shown h hr he) ?_ g4, ?_⟩
      rotate_left
      · rw [g5, ho]
        simp only [h0, if_true, and_self, List.append_assoc, List.cons_append, List.nil_append]
      · obtain ⟨p, q', hs, _⟩ := h.sinv hr
        obtain ⟨x, y, z, s, hi⟩ := hs.iter
        obtain ⟨_, _, _, _, dx, dy, dz, ds, _, _, i1, i2, i3, i4, _, _, _, _, i5⟩ :=
          C17_steps h hr hb1 hi
        exact ⟨x, y, z, s, dx, dy, dz, ds, _, _, rfl, hi, i1, i2, i3, i4, i5⟩

/-- **C82**, output: with `verbose ≤ 0` a solve prints nothing. Otherwise it prints the heading (not
when compiled for MATLAB), for every iteration the number, objective value, norms of residuals and
complementarity of its iterate and then the step lengths, and at the end the message that belongs to
the exit code, with the number of iterations and the reported times in milliseconds (after success
the time of the setup is added to that of the solve). -/
theorem C82_output {amd : Amd} {a : SetupArgs K} {pb : Problem K} {q0 : QP K}
    (h : Started amd a pb q0) {mex : Bool} {clk : Nat → Timespec}
    {t t' : Timed K} {f : Int} {tset l0 : K} (hr : Reach q0 t.qp)
    (ht : t.times.tsetup = some tset) (hl : t.times.ldl_numeric = some l0)
    (hs : QP_SOLVE_T mex clk t = .ok (f, t')) :
    (t.qp.options.verbose ≤ 0 → t'.io.out = t.io.out) ∧
    (0 < t.qp.options.verbose → ∃ ls q' ts kk l, Shown pb t.qp q' ls ∧
      (t'.qp = q' ∨ t'.qp = { q' with stats := { q'.stats with Flag := 2 } }) ∧
      t'.times = ⟨some tset, some ts, some kk, some l⟩ ∧
      t'.io.out = t.io.out ++ (if mex then [] else [.title, .rule]) ++ ls ++
        closing f ts tset kk l t'.qp.stats.IterationCount) := by
  obtain ⟨k, v, u, lu, h1, h2, h3, h4, h5, h6⟩ := QP_SOLVE_T_runs (h.flag hr) ht hl hs
  obtain ⟨g1, g2, g3⟩ := h1.shown h h2 (l := l0) hl hr
  have hq : (t.begin mex).qp = t.qp := rfl
  rw [hq] at g1 g2 g3
  have hcv : u.capped.qp.options.verbose = t.qp.options.verbose := by
    rw [← g1]
    unfold Timed.capped
    split <;> rfl
  constructor
  · intro h0
    have e0 := g2 h0
    have e1 : (t.begin mex).io.out = t.io.out := by
      unfold Timed.begin
      simp [not_lt.mpr h0, Io.tick]
    rw [h6]
    unfold Timed.close
    rw [hcv, if_neg (not_lt.mpr h0), u.capped_io]
    simp only [Io.tick, e0, e1]
  · intro h0
    obtain ⟨ls, e1, e2⟩ := g3 h0
    have e3 : (t.begin mex).io.out = t.io.out ++ (if mex then [] else [.title, .rule]) := by
      unfold Timed.begin
      cases mex <;> simp [h0, Io.tick, Io.print]
    refine ⟨ls, u.qp, toc (clk t.io.now) (clk u.io.now), u.acc, lu, e1, ?_, ?_, ?_⟩
    · rw [h6]
      unfold Timed.close Timed.capped
      dsimp only
      split
      · exact Or.inr rfl
      · exact Or.inl rfl
    · rw [h6]
      unfold Timed.close
      simp only [u.capped_times, u.capped_io, u.capped_acc, h3, h4]
    · rw [h6, h5]
      unfold Timed.close
      rw [hcv, if_pos h0, u.capped_io, u.capped_acc]
      simp only [Io.tick, Io.print, e2, e3]

theorem Shown.count {amd : Amd} {a : SetupArgs K} {pb : Problem K} {q0 q q' : QP K}
    (h : Started amd a pb q0) {ls : List (Line K)} (hs : Shown pb q q' ls) :
    Reach q0 q → q.stats.IterationCount ≤ q'.stats.IterationCount := by
  induction hs with
  | none => exact fun _ => le_rfl
  | last hb _ =>
    intro hr
    obtain ⟨p, q', hs, _⟩ := h.sinv hr
    obtain ⟨x, y, z, s, hi⟩ := hs.iter
    obtain ⟨_, _, _, e, _⟩ := (hs.bodyOut h.wf hb hi).stop rfl
    simp only at e
    rw [e]
    rfl
  | more hb _ _ _ ih =>
    intro hr
    obtain ⟨p, q', hs, _⟩ := h.sinv hr
    obtain ⟨x, y, z, s, hi⟩ := hs.iter
    obtain ⟨_, _, _, re, e⟩ := (hs.bodyOut h.wf hb hi).step rfl
    simp only at e
    have := ih (hr.iteration hb)
    rw [e] at this
    simp only at this
    omega

end

/-- A clock that advances by a second and a half with each reading. -/
def demoClock (i : Nat) : Timespec :=
  { tv_sec := 3 * i / 2, tv_nsec := if i % 2 = 0 then 0 else 500000000 }

theorem demoClock_total (i : Nat) : (demoClock i).total = i * 1500000000 := by
  unfold demoClock Timespec.total
  dsimp only
  split <;> omega

theorem demoClock_mono : Monotonic demoClock := by
  intro i
  rw [demoClock_total, demoClock_total]
  push_cast
  omega

/-- A first solve of the demonstration program with `verbose = 1`, one iteration allowed and
tolerances that cannot be met: all hypotheses of C82 hold, setup takes a second and a half, and
exactly five lines are printed: the heading (two), the iterate, the step, and the message that the
iterations are used up. As `sigma` is at its desired value already, no time is counted for the
factorisation made. -/
example : ∃ (q0 : QP ℝ) (t t' : Timed ℝ) (o : Settings ℝ) (l1 l2 l3 : Line ℝ),
    Started failAmd (demoArgs ℝ) (demoPb ℝ) q0 ∧ Monotonic demoClock ∧
    QP_SETUP_T false demoClock failAmd (demoArgs ℝ) ⟨0, []⟩ = .ok t ∧ t.qp = q0 ∧
    t.times.tsetup = some (3 / 2) ∧
    QP_SOLVE_T false demoClock { t with qp := { t.qp with options := o } } = .ok (2, t') ∧
    t'.io.out = [.title, .rule, l1, l2, l3] ∧
    { q0 with options := o }.Shown (demoPb ℝ) l1 ∧
    { q0 with options := o }.StepShown (demoPb ℝ) t'.qp l2 ∧
    ∃ ts kk l, l3 = .maxit (ts * 1000) (kk * 1000) (l * 1000) 1 ∧ l = 0 ∧ kk = 3 / 2 ∧
      ts = 9 / 2 := by
  obtain ⟨q0, h⟩ := demo_started ℝ
  set o : Settings ℝ := { maxit := 1, reltol := 0, abstol := 0, sigma := 0, verbose := 1 } with ho
  have hr0 : Reach q0 { q0 with options := o } := .options _ .start
  have e0 := C82_setup false demoClock failAmd (demoArgs ℝ) ⟨0, []⟩
  rw [h.ok] at e0
  cases e1 : QP_SETUP_T false demoClock failAmd (demoArgs ℝ) ⟨0, []⟩ with
  | error e => rw [e1] at e0; cases e0
  | ok t =>
  rw [e1] at e0
  have hq : t.qp = q0 := by injection e0
  obtain ⟨n1, n2⟩ := C82_setup_time e1
  have ht : t.times.tsetup = some (3 / 2) := by
    rw [n2]
    simp only [elapsed, demoClock_total]
    norm_num
  have hl : t.times.ldl_numeric = some 0 := by rw [n2]
  have hout : t.io.out = [] := by
    have hfl := h.flag (.start : Reach q0 q0)
    unfold QP_SETUP_T at e1
    rw [h.ok] at e1
    simp only [ok_bind, Bool.false_and, Bool.false_eq_true, if_false, if_neg hfl, pure_eq_ok] at e1
    cases e1
    rfl
  obtain ⟨f, q1, hs⟩ := C22_terminates h o (Or.inr (by decide))
  obtain ⟨k, qk, hk, hle, hc, h2⟩ := (C22_first_solve h _ hs).2 (by decide : (0 : Int) ≤ 1)
  have hnb : ∀ q r : QP ℝ, Reach q0 q → q.options.reltol ≤ 0 → solveBody q ≠ .ok (r, true) :=
    fun q r a b => no_break h a b
  obtain ⟨p, q, hsi, _⟩ := h.sinv hr0
  rcases h2 with ⟨rfl, e2, e3⟩ | ⟨_, _, hb⟩
  swap
  · refine absurd hb (hnb _ _ (hr0.iterations hk) ?_)
    rw [(hk.facts h.wf hsi).2.1.reltol]
  set tt : Timed ℝ := { t with qp := { t.qp with options := o } } with htt
  have hqq : tt.qp = { q0 with options := o } := by rw [htt]; simp only [hq]
  have e4 := C82_solve false demoClock (t := tt) (tset := 3 / 2) (l := 0) ht hl
  rw [hqq, hs] at e4
  cases e5 : QP_SOLVE_T false demoClock tt with
  | error e => rw [e5] at e4; cases e4
  | ok r =>
  obtain ⟨f', t'⟩ := r
  rw [e5] at e4
  have e6 : f' = 2 ∧ t'.qp = q1 := by
    simp only [ok_bind] at e4
    injection e4 with e4
    injection e4 with a b
    exact ⟨a, b⟩
  obtain ⟨rfl, e7⟩ := e6
  have hr1 : Reach q0 tt.qp := by rw [hqq]; exact hr0
  obtain ⟨ls, q', ts, kk, l, s1, s2, s3, s4⟩ := (C82_output h hr1 ht hl e5).2
    (by rw [hqq]; exact (by decide : (0 : Int) < 1))
  obtain ⟨w, v, c0, cw, _, c1⟩ := C82_laps h hr1 ht hl e5
  rw [s3] at c1
  have hcnt : t'.qp.stats.IterationCount = 1 := by rw [e7, hc]; exact e2
  have hcq : q'.stats.IterationCount = 1 := by
    rcases s2 with s2 | s2 <;> rw [s2] at hcnt <;> exact hcnt
  rw [hqq] at s1
  have hc0 : ({ q0 with options := o } : QP ℝ).stats.IterationCount = 0 := by
    have := (hk.facts h.wf hsi).2.2.2
    have e8 : q1.stats.IterationCount = qk.stats.IterationCount := by rw [e3]
    omega
  have hw : w = [false] := by
    rw [hcnt, hqq, hc0] at cw
    rw [hqq] at c0
    cases c0 with
    | nil => simp at cw
    | high _ c _ => exact absurd (le_rfl : (demoPb ℝ).sigma_d ≤ (demoPb ℝ).sigma_d) (not_le.mpr c)
    | @low w _ _ _ _ _ _ =>
      have : w.length = 0 := by simp only [List.length_cons] at cw; omega
      rw [List.length_eq_zero_iff.mp this]
  rw [hw] at c1
  injection c1 with _ c11 c12 c13
  have hel : ∀ i d : Nat, elapsed ℝ demoClock i (i + d) = d * (3 / 2) := by
    intro i d
    unfold elapsed
    rw [demoClock_total, demoClock_total]
    push_cast
    ring
  have hkk : kk = 3 / 2 := by
    rw [Option.some.inj c12, lapKkt, lapKkt, hel]
    norm_num
  have hts : ts = 9 / 2 := by
    rw [Option.some.inj c11, lapReads, lapReads, show ∀ i : Nat, i + 1 + (2 + 0) = i + 3 from fun _ => rfl,
      hel]
    norm_num
  cases s1 with
  | none => rw [hc0] at hcq; cases hcq
  | last hb _ => exact absurd hb (hnb _ _ hr0 le_rfl)
  | @more _ qa _ l1 l2 ls hb g1 g2 g3 =>
    have hra := hr0.iteration hb
    obtain ⟨x, y, z, s, hi⟩ := hsi.iter
    have hbo := hsi.bodyOut h.wf hb hi
    have hrel : qa.options.reltol ≤ 0 := (hbo.frame.reltol).le
    have hca : qa.stats.IterationCount = 1 := by
      obtain ⟨_, _, _, re, e⟩ := hbo.step rfl
      simp only at e
      rw [e]
      show q0.stats.IterationCount + 1 = 1
      have : q0.stats.IterationCount = 0 := hc0
      omega
    cases g3 with
    | none =>
      refine ⟨q0, t, t', o, l1, l2, _, h, demoClock_mono, rfl, hq, ht, e5, ?_, g1, ?_,
        ts, kk, l, rfl, ?_, hkk, hts⟩
      · rw [s4, hcnt]
        have : tt.io.out = [] := hout
        rw [this]
        have hd : (Scalar.dec 1000 0 : ℝ) = 1000 := by rw [LawfulScalar.dec_eq]; norm_num
        simp [closing, hd]
      · obtain ⟨x, y, z, s, dx, dy, dz, ds, ap, ad, i0, i1, i2, i3, i4, i5, i6⟩ := g2
        refine ⟨x, y, z, s, dx, dy, dz, ds, ap, ad, i0, i1, ?_⟩
        rcases s2 with s2 | s2 <;> rw [s2]
        · exact ⟨i2, i3, i4, i5, i6⟩
        · exact ⟨i2, i3, i4, i5, i6.x, i6.y, i6.z, i6.s⟩
      · have := C82_ldl_not_counted h hr1 ht hl (by rw [hqq]; exact le_rfl) e5
        rw [s3] at this
        injection this
    | last hb _ => exact absurd hb (hnb _ _ hra hrel)
    | @more _ qb _ _ _ _ hb' _ _ g3 =>
      obtain ⟨p', q'', hsa, _⟩ := h.sinv hra
      obtain ⟨x, y, z, s, hi⟩ := hsa.iter
      obtain ⟨_, _, _, re, e⟩ := (hsa.bodyOut h.wf hb' hi).step rfl
      simp only at e
      have h3 := g3.count h (hra.iteration hb')
      rw [e] at h3
      simp only at h3
      omega

end Verif
