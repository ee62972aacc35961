import Verif.Lemmas.Solve
import Verif.DemoQp

/-!
# Solving: exit codes, repeated solves, memory safety (C22-C26, C37)

All theorems here hold for any arithmetic.
-/

set_option linter.unusedSectionVars false

namespace Verif

variable {K : Type} [Zero K] [One K] [Add K] [Sub K] [Mul K] [Div K] [Neg K] [Scalar K]

/-! ## Small facts about reachable states -/

theorem Started.sinv {amd : Amd} {a : SetupArgs K} {pb : Problem K} {q0 qp : QP K}
    (h : Started amd a pb q0) (hr : Reach q0 qp) :
    ∃ p q, SInv pb pb p q qp ∧ q0.SameData qp := by
  obtain ⟨p, q, hd⟩ := h.done
  exact ⟨p, q, hr.sinv h.wf hd.sinv⟩

/-! ## C26 -/

/-- C26, setup: on a well-formed problem setup returns; no access outside an array, no
uninitialised read. -/
theorem C26_setup {amd : Amd} {a : SetupArgs K} {pb : Problem K} (hpb : pb.WF) (ha : a.Give pb)
    (hp : PermSource amd a.Permut a.p pb) : ∃ q0, QP_SETUP amd a = .ok q0 := by
  obtain ⟨q0, h, _⟩ := QP_SETUP_spec hpb ha hp
  exact ⟨q0, h⟩

/-- C26, solve: in every state reachable after setup, by any sequence of solves, iterations and
changes of the options, both the next iteration and a whole solve return, unless printing is
switched on for a problem without equality constraints (see C37). -/
theorem C26_solve {amd : Amd} {a : SetupArgs K} {pb : Problem K} {q0 qp : QP K}
    (h : Started amd a pb q0) (hr : Reach q0 qp) (hv : qp.options.verbose ≤ 0 ∨ pb.p ≠ 0) :
    (∃ r, solveBody qp = .ok r) ∧ ∃ f qp', QP_SOLVE qp = .ok (f, qp') := by
  obtain ⟨p, q, hs, _⟩ := h.sinv hr
  have hv' : PrintOk pb qp := hv.elim Or.inl (fun h => Or.inr (Or.inl h))
  obtain ⟨_, _, _, _, r, _, h1, _⟩ := hs.body h.wf hv'
  obtain ⟨_, _, f, qp', h2, _⟩ := QP_SOLVE_run h.wf hs hv'
  exact ⟨⟨r, h1⟩, f, qp', h2⟩

/-- The hypotheses of the theorems of this file are met by the demo program, over any field. -/
theorem demo_started (K : Type) [Field K] [Scalar K] : ∃ q0, Started failAmd (demoArgs K) (demoPb K) q0 := by
  obtain ⟨q0, h⟩ := C26_setup demoPb_wf demoArgs_give (demoArgs_perm (K := K) failAmd)
  exact ⟨q0, demoPb_wf, demoArgs_give, demoArgs_perm failAmd, h⟩

theorem demo_started0 (K : Type) [Field K] [Scalar K] :
    ∃ q0, Started failAmd (demoArgs0 K) (demoPb0 K) q0 := by
  obtain ⟨q0, h⟩ := C26_setup demoPb0_wf demoArgs0_give (demoArgs0_perm (K := K) failAmd)
  exact ⟨q0, demoPb0_wf, demoArgs0_give, demoArgs0_perm failAmd, h⟩

/-- C26 applied to the demo: two solves in a row, with any options in between. -/
example (o : Settings ℚ) (ho : o.verbose = 0) : ∃ q0 f q1 g q2,
    QP_SETUP failAmd (demoArgs ℚ) = .ok q0 ∧ QP_SOLVE q0 = .ok (f, q1) ∧
      QP_SOLVE { q1 with options := o } = .ok (g, q2) := by
  obtain ⟨q0, h⟩ := demo_started ℚ
  obtain ⟨_, f, q1, h1⟩ := C26_solve h .start (Or.inr (by simp [Problem.p, demoPb, Csc.lit]))
  obtain ⟨_, g, q2, h2⟩ := C26_solve h (.options o (.solve .start h1)) (Or.inl (by simp [ho]))
  exact ⟨q0, f, q1, g, q2, h.ok, h1, h2⟩

/-! ## C37 -/

/-- C37: with printing on and no equality constraints the first iteration reads an uninitialised
statistic. -/
theorem C37_verbose_uninit {amd : Amd} {a : SetupArgs K} {pb : Problem K} {q0 : QP K}
    (h : Started amd a pb q0) (hp : pb.p = 0) (o : Settings K) (hv : 0 < o.verbose)
    (hm : 0 < o.maxit) : QP_SOLVE { q0 with options := o } = .error .uninit := by
  obtain ⟨p, q, hd⟩ := h.done
  have hs := ((Reach.options o .start).sinv h.wf hd.sinv).1
  obtain ⟨r, hr⟩ := hd.stats
  have hpo : ¬ PrintOk pb { q0 with options := o } := by
    rintro (h1 | h1 | ⟨v, h1⟩)
    · exact absurd hv (not_lt.mpr h1)
    · exact h1 hp
    · rw [hr] at h1
      cases h1
  have hb := solveBody_uninit h.wf hs hpo
  obtain ⟨k, hk⟩ : ∃ k, o.maxit.toNat = k + 1 := ⟨o.maxit.toNat - 1, by omega⟩
  have hfl : q0.stats.Flag ≠ QP_KKTFAIL := by rw [hr]; exact (by decide : QP_FATAL ≠ QP_KKTFAIL)
  unfold QP_SOLVE forBrk
  rw [if_pos hfl, Int.sub_zero, hk]
  simp only [forBrkN, hb]
  rfl

/-- C37, the other direction: with equality constraints, or without printing, a solve never reads an
uninitialised statistic; it returns. -/
theorem C37_otherwise_safe {amd : Amd} {a : SetupArgs K} {pb : Problem K} {q0 : QP K}
    (h : Started amd a pb q0) (o : Settings K) (hv : o.verbose ≤ 0 ∨ pb.p ≠ 0) :
    ∃ f qp', QP_SOLVE { q0 with options := o } = .ok (f, qp') :=
  (C26_solve h (.options o .start) hv).2

/-- The demo without its equality constraint and with printing on. -/
example : ∃ q0, QP_SETUP failAmd (demoArgs0 ℚ) = .ok q0 ∧
    QP_SOLVE { q0 with options := { (defaultSettings : Settings ℚ) with verbose := 1 } }
      = .error .uninit := by
  obtain ⟨q0, h⟩ := demo_started0 ℚ
  exact ⟨q0, h.ok, C37_verbose_uninit h rfl _ (by decide) (by decide)⟩

/-! ## C25 -/

/-- C25: in every reachable state the arrays of the problem and the caller's permutation are those
passed to setup. -/
theorem C25_data_unchanged {amd : Amd} {a : SetupArgs K} {pb : Problem K} {q0 qp : QP K}
    (h : Started amd a pb q0) (hr : Reach q0 qp) :
    qp.P.jc = a.Pjc ∧ qp.P.ir = a.Pir ∧ qp.P.pr = a.Ppr ∧
    qp.G.jc = a.Gjc ∧ qp.G.ir = a.Gir ∧ qp.G.pr = a.Gpr ∧ qp.c = a.c ∧ qp.h = a.h ∧
    (0 < pb.p → ∃ SA, qp.A = some SA ∧ a.Ajc = some SA.jc ∧ a.Air = some SA.ir ∧
      a.Apr = some SA.pr ∧ qp.b = a.b) ∧
    (pb.p = 0 → qp.A = none ∧ qp.b = none) ∧
    ∀ B, a.Permut = some B → qp.kkt.P = B := by
  obtain ⟨p, q, hd⟩ := h.done
  obtain ⟨_, hf⟩ := hr.sinv h.wf hd.sinv
  refine ⟨?_, ?_, ?_, ?_, ?_, ?_, ?_, ?_, ?_, ?_, ?_⟩
  · rw [hf.P, hd.P]; rfl
  · rw [hf.P, hd.P]; rfl
  · rw [hf.P, hd.P]; rfl
  · rw [hf.G, hd.G]; rfl
  · rw [hf.G, hd.G]; rfl
  · rw [hf.G, hd.G]; rfl
  · rw [hf.c, hd.c]; rfl
  · rw [hf.h, hd.h]; rfl
  · intro hp
    rw [hf.A, hd.A, hf.b, hd.b]
    rcases h.give.eq with ⟨Ajc, Air, Apr, B, e1, e2, e3, e4, _⟩ | ⟨_, e⟩
    · simp only [SetupArgs.toIn]
      rw [if_neg (by omega), if_neg (by omega), e1, e2, e3]
      exact ⟨_, rfl, rfl, rfl, rfl, rfl⟩
    · rw [Problem.p, e] at hp
      exact absurd hp (lt_irrefl _)
  · intro hp
    rw [hf.A, hd.A, hf.b, hd.b]
    simp [SetupArgs.toIn, hp]
  · intro B hB
    rw [hf.perm]
    exact (hd.given B hB).1

/-! ## C22, C23 -/

/-- C22: a first solve. Whatever the options, it terminates unless it fails as in C37. -/
theorem C22_terminates {amd : Amd} {a : SetupArgs K} {pb : Problem K} {q0 : QP K}
    (h : Started amd a pb q0) (o : Settings K)
    (hv : o.verbose ≤ 0 ∨ pb.p ≠ 0) : ∃ f qp', QP_SOLVE { q0 with options := o } = .ok (f, qp') :=
  (C26_solve h (.options o .start) hv).2

/-- C22: what a first solve returns. With a negative `maxit` it returns 3 and does nothing.
Otherwise it performs some number `k ≤ maxit` of full iterations, none of which met the tolerances;
the iteration counter is `k`; it returns 2 if `k = maxit`, and 0 if `k < maxit`, in which case
iteration `k + 1` found the tolerances met and left the loop. -/
theorem C22_first_solve {amd : Amd} {a : SetupArgs K} {pb : Problem K} {q0 : QP K}
    (h : Started amd a pb q0) (o : Settings K) {f : Int} {qp' : QP K}
    (hs : QP_SOLVE { q0 with options := o } = .ok (f, qp')) :
    (o.maxit < 0 → f = 3 ∧ qp' = { q0 with options := o }) ∧
    (0 ≤ o.maxit → ∃ (k : Nat) (qk : QP K), Iterations k { q0 with options := o } qk ∧
      (k : Int) ≤ o.maxit ∧ qp'.stats.IterationCount = k ∧
      ((f = 2 ∧ (k : Int) = o.maxit ∧
          qp' = { qk with stats := { qk.stats with Flag := 2 } }) ∨
        (f = 0 ∧ (k : Int) < o.maxit ∧ solveBody qk = .ok (qp', true)))) := by
  obtain ⟨p, q, hd⟩ := h.done
  have hi := ((Reach.options o .start).sinv h.wf hd.sinv).1
  obtain ⟨re, hst⟩ := hd.stats
  have hc0 : q0.stats.IterationCount = 0 := by rw [hst]; rfl
  have hf0 : q0.stats.Flag = 3 := by rw [hst]; rfl
  obtain ⟨k, qk, hk⟩ := QP_SOLVE_inv h.wf hi hs
  obtain ⟨h1, h2, h3, h4⟩ := hk.its.facts h.wf hi
  obtain ⟨r, h5, h6⟩ := hk.stop
  have hret := hk.ret
  simp only [hc0, hf0, Int.zero_add] at h3 h4
  simp only at h5
  have hmk : qk.options.maxit = o.maxit := h2.maxit
  constructor
  · intro hm
    rcases h5 with ⟨hc, _⟩ | ⟨hc, rfl⟩
    · omega
    · have hk0 : k = 0 := by omega
      subst hk0
      have hqk : r = { q0 with options := o } := by
        cases hk.its
        rfl
      rw [if_neg (by rw [h4, hmk]; push_cast; omega)] at h6
      rw [hret, h6, h3]
      exact ⟨rfl, hqk⟩
  · intro hm
    refine ⟨k, qk, hk.its, ?_⟩
    rcases h5 with ⟨hc, hb⟩ | ⟨hc, rfl⟩
    · obtain ⟨x, y, z, s, hit⟩ := h1.iter
      have hbo := h1.bodyOut h.wf hb hit
      have hcnt := hbo.count
      have hfl := hbo.flag
      simp only [if_true] at hcnt hfl
      have hmr : r.options.maxit = o.maxit := hbo.frame.maxit.trans hmk
      rw [if_neg (by rw [hcnt, h4, hmr]; omega)] at h6
      subst h6
      refine ⟨by omega, by rw [hcnt, h4]; simp, Or.inr ⟨?_, by omega, hb⟩⟩
      rw [hret, hfl]
      rfl
    · rw [if_pos (by rw [h4, hmk]; omega)] at h6
      refine ⟨by omega, ?_, Or.inl ⟨?_, by omega, ?_⟩⟩
      · rw [h6]; exact h4
      · rw [hret, h6]; rfl
      · rw [h6]; rfl

/-- C22 in one line: the possible results. -/
theorem C22_codes {amd : Amd} {a : SetupArgs K} {pb : Problem K} {q0 : QP K}
    (h : Started amd a pb q0) (o : Settings K) {f : Int} {qp' : QP K}
    (hs : QP_SOLVE { q0 with options := o } = .ok (f, qp')) :
    (o.maxit < 0 ∧ f = 3) ∨ (0 ≤ o.maxit ∧ (f = 0 ∨ f = 2)) := by
  obtain ⟨h1, h2⟩ := C22_first_solve h o hs
  by_cases hm : o.maxit < 0
  · exact Or.inl ⟨hm, (h1 hm).1⟩
  · obtain ⟨k, qk, _, _, _, h3⟩ := h2 (by omega)
    exact Or.inr ⟨by omega, h3.elim (fun h => Or.inr h.1) (fun h => Or.inl h.1)⟩

/-- C23: no reachable state, in particular not the one after setup, has the flag 1, and no solve
returns it. -/
theorem C23_no_kktfail {amd : Amd} {a : SetupArgs K} {pb : Problem K} {q0 qp : QP K}
    (h : Started amd a pb q0) (hr : Reach q0 qp) :
    qp.stats.Flag ≠ 1 ∧ ∀ f qp', QP_SOLVE qp = .ok (f, qp') → f = 0 ∨ f = 2 ∨ f = 3 := by
  obtain ⟨p, q, hs, _⟩ := h.sinv hr
  refine ⟨?_, ?_⟩
  · rcases hs.flag with h | h | h <;> rw [h] <;> decide
  · intro f qp' hq
    obtain ⟨k, qk, hk⟩ := QP_SOLVE_inv h.wf hs hq
    rw [hk.ret]
    exact (hk.facts h.wf hs).1.flag

/-! ## C24 -/

/-- A sequence of calls of `QP_SOLVE` with their exit codes, leading from the first state to the
second. -/
inductive Calls : QP K → List Int → QP K → Prop
  | nil (qp : QP K) : Calls qp [] qp
  | snoc {a b c : QP K} {fs : List Int} {f : Int} : Calls a fs b → QP_SOLVE b = .ok (f, c) →
      Calls a (fs ++ [f]) c

/-- The point `x, y, z, s` and the iteration counter are the same. -/
structure QP.SamePoint (a b : QP K) : Prop where
  x : b.x = a.x
  y : b.y = a.y
  z : b.z = a.z
  s : b.s = a.s
  count : b.stats.IterationCount = a.stats.IterationCount

/-- A state in which the next solve leaves at once with code 0. -/
structure Settled (pb : Problem K) (p q : Nat → Nat) (qp : QP K) : Prop where
  inv : SInv pb pb p q qp
  print : PrintOk pb qp
  opt : ∃ x y z s, qp.Iter pb x y z s ∧ exitF pb qp.options x y z s = true
  pos : 0 < qp.options.maxit
  count : qp.stats.IterationCount ≠ qp.options.maxit

theorem Settled.solve {pb : Problem K} (hpb : pb.WF) {p q : Nat → Nat} {qp : QP K}
    (h : Settled pb p q qp) : ∃ qp', QP_SOLVE qp = .ok (0, qp') ∧ qp.SamePoint qp' ∧
      Settled pb p q qp' ∧ solveBody qp = .ok (qp', true) := by
  obtain ⟨x, y, z, s, hi, he⟩ := h.opt
  obtain ⟨⟨qp', b⟩, h1, h2⟩ := solveBody_spec hpb h.inv.inv hi h.print
  have hb : b = true := h2.brk.trans he
  subst hb
  obtain ⟨g1, g2, g3, g4, rx, ry, rz, temp, st, g5⟩ := h2.stop rfl
  have hcnt := h2.count
  have hfl := h2.flag
  simp only [if_true, Int.add_zero] at hcnt hfl g1 g2 g3 g4 g5
  have hne : qp'.stats.IterationCount ≠ qp'.options.maxit := by
    rw [hcnt, g3]
    exact h.count
  refine ⟨qp', ?_, ?_, ⟨h2.sinv h.inv, h2.printOk h.print, ⟨x, y, z, s, g1, ?_⟩, ?_, hne⟩, h1⟩
  · obtain ⟨k, hk⟩ : ∃ k, qp.options.maxit.toNat = k + 1 :=
      ⟨qp.options.maxit.toNat - 1, by have := h.pos; omega⟩
    have hfq : qp.stats.Flag ≠ QP_KKTFAIL := by
      rcases h.inv.flag with h | h | h <;> rw [h] <;> decide
    unfold QP_SOLVE forBrk
    rw [if_pos hfq, Int.sub_zero, hk]
    simp only [forBrkN, h1, ok_bind]
    simp only [if_true, pure_eq_ok, ok_bind]
    rw [if_neg hne]
    simp only [ok_bind]
    rw [hfl]
    rfl
  · exact ⟨by rw [g5], by rw [g5], by rw [g5], by rw [g5], hcnt⟩
  · rw [g3]; exact he
  · rw [g3]; exact h.pos

/-- A solve that left the loop by meeting the tolerances ends in a settled state. -/
theorem settled_of_zero {pb : Problem K} (hpb : pb.WF) {p q : Nat → Nat} {qp qp' : QP K}
    (h : SInv pb pb p q qp) (hf : qp.stats.Flag ≠ 0) (hs : QP_SOLVE qp = .ok (0, qp')) :
    Settled pb p q qp' := by
  obtain ⟨k, qk, hk⟩ := QP_SOLVE_inv hpb h hs
  obtain ⟨h1, h2, h3, h4⟩ := hk.its.facts hpb h
  obtain ⟨r, h5, h6⟩ := hk.stop
  have hret := hk.ret
  have hnm : r.stats.IterationCount ≠ r.options.maxit := by
    intro hc
    rw [if_pos hc] at h6
    rw [h6] at hret
    exact absurd hret (by decide : (0 : Int) ≠ QP_MAXIT)
  rw [if_neg hnm] at h6
  subst h6
  rcases h5 with ⟨hc, hb⟩ | ⟨_, rfl⟩
  · obtain ⟨x, y, z, s, hit⟩ := h1.iter
    have hbo := h1.bodyOut hpb hb hit
    obtain ⟨g1, g2, g3, _⟩ := hbo.stop rfl
    have hmr : qp'.options.maxit = qp.options.maxit := hbo.frame.maxit.trans h2.maxit
    refine ⟨hbo.sinv h1, hbo.printOk (solveBody_printOk hpb h1 hb), ⟨x, y, z, s, g1, ?_⟩, ?_, hnm⟩
    · rw [g3]; exact hbo.brk.symm
    · omega
  · rw [h3] at hret
    exact absurd hret.symm hf

/-- C24: after a solve that returned 0 (the flag was not already 0 before, for instance a first
solve), any number of further solves all return 0, perform no step and leave the point unchanged. -/
theorem C24_solve_again {amd : Amd} {a : SetupArgs K} {pb : Problem K} {q0 qp qp' : QP K}
    (h : Started amd a pb q0) (hr : Reach q0 qp) (hf : qp.stats.Flag ≠ 0)
    (hs : QP_SOLVE qp = .ok (0, qp')) :
    (∀ n, ∃ b, Calls qp' (List.replicate n 0) b) ∧
    ∀ fs b, Calls qp' fs b → (∀ f ∈ fs, f = 0) ∧ qp'.SamePoint b := by
  obtain ⟨p, q, hi, _⟩ := h.sinv hr
  have hset := settled_of_zero h.wf hi hf hs
  have key : ∀ fs b, Calls qp' fs b → (∀ f ∈ fs, f = 0) ∧ qp'.SamePoint b ∧ Settled pb p q b := by
    intro fs b hc
    have gen : ∀ (a b : QP K) (fs : List Int), Calls a fs b → Settled pb p q a →
        (∀ f ∈ fs, f = 0) ∧ a.SamePoint b ∧ Settled pb p q b := by
      intro a b fs hc
      induction hc with
      | nil => exact fun ha => ⟨by simp, ⟨rfl, rfl, rfl, rfl, rfl⟩, ha⟩
      | snoc _ hq ih =>
        intro ha
        obtain ⟨h1, h2, h3⟩ := ih ha
        obtain ⟨c', e1, e2, e3, _⟩ := h3.solve h.wf
        rw [hq] at e1
        cases e1
        refine ⟨?_, ⟨e2.x.trans h2.x, e2.y.trans h2.y, e2.z.trans h2.z, e2.s.trans h2.s,
          e2.count.trans h2.count⟩, e3⟩
        intro f hf
        rw [List.mem_append, List.mem_singleton] at hf
        exact hf.elim (h1 f) id
    exact gen _ _ _ hc hset
  refine ⟨?_, fun fs b hc => ⟨(key fs b hc).1, (key fs b hc).2.1⟩⟩
  intro n
  induction n with
  | zero => exact ⟨_, .nil _⟩
  | succ n ih =>
    obtain ⟨b, hb⟩ := ih
    obtain ⟨c, e1, _⟩ := (key _ _ hb).2.2.solve h.wf
    refine ⟨c, ?_⟩
    rw [List.replicate_succ']
    exact hb.snoc e1

/-- C24, stale counter: the counter is never reset, so if it already equals `maxit` (which is the
case after a first solve that returned 2) a call whose first test succeeds still returns 2. -/
theorem C24_stale_maxit {amd : Amd} {a : SetupArgs K} {pb : Problem K} {q0 qp r : QP K}
    (h : Started amd a pb q0) (hr : Reach q0 qp) (hc : qp.stats.IterationCount = qp.options.maxit)
    (hm : 0 < qp.options.maxit) (hb : solveBody qp = .ok (r, true)) :
    ∃ qp', QP_SOLVE qp = .ok (2, qp') ∧ qp.SamePoint qp' := by
  obtain ⟨p, q, hi, _⟩ := h.sinv hr
  obtain ⟨x, y, z, s, hit⟩ := hi.iter
  have h2 := hi.bodyOut h.wf hb hit
  obtain ⟨g1, g2, g3, g4, rx, ry, rz, temp, st, g5⟩ := h2.stop rfl
  have hcnt := h2.count
  simp only [if_true, Int.add_zero] at hcnt g3 g5
  refine ⟨{ r with stats := { r.stats with Flag := QP_MAXIT } }, ?_, ?_⟩
  · obtain ⟨k, hk⟩ : ∃ k, qp.options.maxit.toNat = k + 1 := ⟨qp.options.maxit.toNat - 1, by omega⟩
    have hfq : qp.stats.Flag ≠ QP_KKTFAIL := by
      rcases hi.flag with h | h | h <;> rw [h] <;> decide
    unfold QP_SOLVE forBrk
    rw [if_pos hfq, Int.sub_zero, hk]
    simp only [forBrkN, hb, ok_bind]
    simp only [if_true, pure_eq_ok, ok_bind]
    rw [if_pos (by rw [hcnt, g3]; exact hc)]
    rfl
  · refine ⟨?_, ?_, ?_, ?_, hcnt⟩ <;> show _ = _ <;> rw [g5]

/-- C24, stale flag: if an earlier call returned 0 after at least one step, a later call that
performs `maxit` iterations without ever meeting the tolerances still returns 0. -/
theorem C24_stale_optimal {amd : Amd} {a : SetupArgs K} {pb : Problem K} {q0 qp qk : QP K}
    (h : Started amd a pb q0) (hr : Reach q0 qp) (hf : qp.stats.Flag = 0)
    (hc : 0 < qp.stats.IterationCount) (hm : 0 ≤ qp.options.maxit)
    (hk : Iterations qp.options.maxit.toNat qp qk) : QP_SOLVE qp = .ok (0, qk) := by
  obtain ⟨p, q, hi, _⟩ := h.sinv hr
  obtain ⟨h1, h2, h3, h4⟩ := hk.facts h.wf hi
  have gen : ∀ {k : Nat} {a b : QP K}, Iterations k a b → ∀ (j : Nat) (i : Int),
      forBrkN (k + j) i a (fun _ => solveBody) = forBrkN j (i + k) b (fun _ => solveBody) := by
    intro k a b hk
    induction hk with
    | zero => intro j i; simp
    | succ hk hs ih =>
      next k a b c =>
      intro j i
      have := ih (j + 1) i
      rw [show k + (j + 1) = k + 1 + j by omega] at this
      rw [this]
      simp only [forBrkN, hs, ok_bind]
      simp only [Bool.false_eq_true, if_false]
      congr 1
      push_cast
      ring
  have hfq : qp.stats.Flag ≠ QP_KKTFAIL := by rw [hf]; decide
  have := gen hk 0 0
  rw [Nat.add_zero] at this
  unfold QP_SOLVE forBrk
  rw [if_pos hfq, Int.sub_zero, this]
  simp only [forBrkN, pure_eq_ok, ok_bind]
  rw [if_neg (by rw [h4, h2.maxit]; omega)]
  simp only [ok_bind]
  rw [h3, hf]

end Verif
