import Verif.Lemmas.Round
import Verif.Fl
import Verif.Props.Iterates
import Verif.DemoQp

/-!
# The termination test in rounded arithmetic (C60)

For every arithmetic with the properties `Ieee` (IEEE-754 doubles or singles, with overflow, NaN and
gradual underflow) the residual norms compared with the tolerances are the norms of the exact
residuals up to explicit rounding errors, and exit code 0 implies that they are finite and below
the tolerance.
-/

set_option linter.unusedSectionVars false

namespace Verif

open Finset Ieee

section

variable {K : Type} [Zero K] [One K] [Add K] [Sub K] [Mul K] [Div K] [Neg K] [Scalar K] [Ieee K]

theorem Problem.WF.real_wf {pb : Problem K} (h : pb.WF) : pb.real.P.WF ∧ pb.real.A.WF ∧ pb.real.G.WF :=
  ⟨Csc.map_wf h.P, Csc.map_wf h.A, Csc.map_wf h.G⟩

theorem rxF_acc {pb : Problem K} (hpb : pb.WF) (x y z : Nat → K) {i : Nat} (hi : i < pb.n) :
    Acc (rxF pb x y z i) (pb.P.rowNnz i + pb.G.colNnz i + pb.A.colNnz i + 1)
      (pb.real.rx (fun j => toR (x j)) (fun j => toR (y j)) (fun j => toR (z j)) i)
      (pb.rxSize x y z i) := by
  have h1 := Acc.smmF hpb.P x (fun _ => 0) i (Acc.zero (K := K))
  have h2 := Acc.stmmF hpb.G z _ (show i < pb.G.n by rw [hpb.Gn]; exact hi) h1
  have h3 := Acc.stmmF hpb.A y _ (show i < pb.A.n by rw [hpb.An]; exact hi) h2
  have h4 := h3.add (mul_term (pb.c i) (Scalar.dec (-1) 0))
  have hl := (Ieee.dec_int (K := K) (-1) (by decide)).2
  unfold rxF
  refine (cast ?_ h4)
  rw [hl]
  congr 1
  · omega
  · unfold Problem.rx Problem.real Problem.map
    simp only
    push_cast
    ring
  · unfold Problem.rxSize Problem.abs Problem.map
    simp only
    push_cast
    rw [mul_neg, mul_one, abs_neg]
    ring

theorem ryF_acc {pb : Problem K} (hpb : pb.WF) (x : Nat → K) (i : Nat) :
    Acc (ryF pb x i) (pb.A.rowNnz i + 1) (pb.real.ry (fun j => toR (x j)) i) (pb.rySize x i) := by
  have h1 := Acc.smmF hpb.A x (fun _ => 0) i (Acc.zero (K := K))
  have h4 := h1.add (mul_term (pb.b i) (Scalar.dec 1 0))
  have hl := (Ieee.dec_int (K := K) 1 (by decide)).2
  unfold ryF
  refine (cast ?_ h4)
  rw [hl]
  congr 1
  · omega
  · unfold Problem.ry Problem.real Problem.map
    simp only
    push_cast
    ring
  · unfold Problem.rySize Problem.abs Problem.map
    simp only
    push_cast
    rw [mul_one]
    ring

theorem rzF_acc {pb : Problem K} (hpb : pb.WF) (x s : Nat → K) (i : Nat) :
    Acc (rzF pb x s i) (pb.G.rowNnz i + 1)
      (pb.real.rz (fun j => toR (x j)) (fun j => toR (s j)) i) (pb.rzSize x s i) := by
  have h1 := Acc.smmF hpb.G x (fun _ => 0) i (Acc.zero (K := K))
  have h4 := h1.add (m := pb.h i - s i) (t := toR (pb.h i) - toR (s i)) (fun hf =>
    (Ieee.sub _ _ hf).2.2.trans (le_add_of_nonneg_right eta_nonneg))
  unfold rzF
  refine (cast ?_ h4)
  congr 1
  · omega
  · unfold Problem.rz Problem.real Problem.map
    simp only
    ring
  · unfold Problem.rzSize Problem.abs Problem.map
    simp only
    ring

theorem fin_dotF {n : Nat} {x y : Nat → K} (h : fin (dotF n x y)) :
    ∀ i, i < n → fin (x i) ∧ fin (y i) := by
  unfold dotF at h
  induction n with
  | zero => intro i hi; omega
  | succ n ih =>
    rw [foldI_succ (Nat.zero_le n)] at h
    obtain ⟨h1, h2, _⟩ := Ieee.add _ _ h
    obtain ⟨h3, h4, _⟩ := Ieee.mul _ _ h2
    intro i hi
    rcases Nat.lt_succ_iff_lt_or_eq.mp hi with hi | rfl
    · exact ih h1 i hi
    · exact ⟨h3, h4⟩

theorem dotF_self_nonneg {n : Nat} {x : Nat → K} (h : fin (dotF n x x)) : 0 ≤ toR (dotF n x x) := by
  unfold dotF at h ⊢
  induction n with
  | zero => simp [(Ieee.zero (K := K)).2]
  | succ n ih =>
    rw [foldI_succ (Nat.zero_le n)] at h ⊢
    obtain ⟨h1, h2, h3⟩ := Ieee.add _ _ h
    have a1 := ih h1
    have a2 := Ieee.mulNonneg _ _ h2 (mul_self_nonneg _)
    rw [abs_of_nonneg (add_nonneg a1 a2)] at h3
    have := neg_le_of_abs_le h3
    have hu := u_lt_one (K := K)
    nlinarith [add_nonneg a1 a2]

/-- A finite computed norm is a rounded norm of finite components. -/
theorem nrmF_rounded {n : Nat} {f : Nat → K} (h : fin (nrmF n f)) :
    (∀ i, i < n → fin (f i)) ∧ IsRoundedNorm K n (fun i => toR (f i)) (toR (nrmF n f)) := by
  unfold nrmF at h ⊢
  obtain ⟨h1, h3⟩ := Ieee.sqrt _ h
  have h2 := dotF_self_nonneg h1
  refine ⟨fun i hi => (fin_dotF h1 i hi).1, _, h2, ?_, h3 h2⟩
  have e : dot n (fun i => |toR (f i)|) (fun i => |toR (f i)|)
      = dot n (fun i => toR (f i)) (fun i => toR (f i)) :=
    sum_congr rfl fun i _ => abs_mul_abs_self _
  have := (Acc.dotF n f f h1).2
  rwa [e] at this

theorem gapF_rounded {pb : Problem K} (hpb : pb.WF) {z s : Nat → K} (hm : fin (Scalar.ofInt pb.m : K))
    (h : fin (gapF pb z s)) : pb.RoundedGap z s (toR (gapF pb z s)) := by
  unfold gapF at h ⊢
  have h4 := Ieee.ofInt (K := K) pb.m hm
  have : |(pb.m : ℝ)| = pb.m := Nat.abs_cast _
  push_cast at h4
  rw [this] at h4
  have h2 : toR (Scalar.ofInt pb.m : K) ≠ 0 := by
    have hp : (0 : ℝ) < pb.m := by exact_mod_cast hpb.m_pos
    have := neg_le_of_abs_le h4
    have hu := u_lt_one (K := K)
    have : 0 < toR (Scalar.ofInt pb.m : K) := by nlinarith
    exact this.ne'
  obtain ⟨h1, h3⟩ := Ieee.div _ _ h hm h2
  exact ⟨_, _, (Acc.dotF pb.m s z h1).2, h4, h2, h3⟩

/-- What a small rounded norm says about the vector: up to factors close to 1 and underflow, its
norm is below the same bound. -/
theorem IsRoundedNorm.bound {n : Nat} {r : Nat → ℝ} {v t : ℝ} (h : IsRoundedNorm K n r v)
    (hv : v < t) : (1 - u K) ^ 2 * ((2 - (1 + u K) ^ (2 * n)) * dot n r r
      - n * (1 + u K) ^ (2 * n) * eta K) ≤ t ^ 2 := by
  obtain ⟨d, h0, h1, h2⟩ := h
  have hu := u_lt_one (K := K)
  have hd := Real.sqrt_nonneg d
  have e1 := neg_le_of_abs_le h2
  have e2 : (1 - u K) * √d ≤ t := by linarith
  have e3 : ((1 - u K) * √d) ^ 2 ≤ t ^ 2 :=
    pow_le_pow_left₀ (mul_nonneg (by linarith) hd) e2 2
  rw [mul_pow, Real.sq_sqrt h0] at e3
  refine le_trans (mul_le_mul_of_nonneg_left ?_ (sq_nonneg _)) e3
  have e4 := neg_le_of_abs_le h1
  unfold Ieee.err errBound at e4
  linarith

/-- **C60**, every iteration: the reported norms, when finite, are the norms of the residuals of the
iterate up to rounding, and so is the average complementarity. -/
theorem C60_statistics {amd : Amd} {a : SetupArgs K} {pb : Problem K} {q0 qp qp' : QP K} {brk : Bool}
    (h : Started amd a pb q0) (hr : Reach q0 qp) (hb : solveBody qp = .ok (qp', brk))
    {x y z s : Nat → K} (hi : qp.Iter pb x y z s) :
    ∃ nx ny nz mu : K, qp'.stats.n_rx = some nx ∧ (pb.p ≠ 0 → qp'.stats.n_ry = some ny) ∧
      qp'.stats.n_rz = some nz ∧ qp'.stats.n_mu = some mu ∧
      (fin nx → fin ny → fin nz → pb.RoundedNorms x y z s (toR nx) (toR ny) (toR nz)) ∧
      (fin (Scalar.ofInt pb.m : K) → fin mu → pb.RoundedGap z s (toR mu)) := by
  obtain ⟨p, q, hs, _⟩ := h.sinv hr
  have hbo := hs.bodyOut h.wf hb hi
  have hst : ∃ ap ad re ic fl, qp'.stats = { evalStats pb x y z s qp.stats with
      alpha_p := ap, alpha_d := ad, resolve_kkt := re, IterationCount := ic, Flag := fl } := by
    cases brk
    · obtain ⟨t, _, _, re, e⟩ := hbo.step rfl
      exact ⟨_, _, _, _, _, e⟩
    · obtain ⟨_, _, _, e, _⟩ := hbo.stop rfl
      exact ⟨_, _, _, _, _, e⟩
  obtain ⟨ap, ad, re, ic, fl, hst⟩ := hst
  refine ⟨nrmF pb.n (rxF pb x y z), nrmF pb.p (ryF pb x), nrmF pb.m (rzF pb x s), gapF pb z s,
    by rw [hst]; rfl, fun hp => by rw [hst]; simp [evalStats, hp], by rw [hst]; rfl,
    by rw [hst]; rfl, fun fx fy fz => ?_, fun hm hf => gapF_rounded h.wf hm hf⟩
  obtain ⟨a1, b1⟩ := nrmF_rounded fx
  obtain ⟨a2, b2⟩ := nrmF_rounded fy
  obtain ⟨a3, b3⟩ := nrmF_rounded fz
  exact ⟨⟨_, b1, fun i hi => (rxF_acc h.wf x y z hi (a1 i hi)).2⟩,
    ⟨_, b2, fun i hi => (ryF_acc h.wf x i (a2 i hi)).2⟩,
    ⟨_, b3, fun i hi => (rzF_acc h.wf x s i (a3 i hi)).2⟩⟩

/-- A solve does not change the tolerances. -/
theorem solve_tolerances {amd : Amd} {a : SetupArgs K} {pb : Problem K} {q0 qp qp' : QP K} {f : Int}
    (h : Started amd a pb q0) (hr : Reach q0 qp) (hs : QP_SOLVE qp = .ok (f, qp')) :
    qp'.options.reltol = qp.options.reltol ∧ qp'.options.abstol = qp.options.abstol := by
  obtain ⟨p, q, hi, _⟩ := h.sinv hr
  obtain ⟨k, qk, hk⟩ := QP_SOLVE_inv h.wf hi hs
  obtain ⟨g1, g2, _⟩ := hk.its.facts h.wf hi
  obtain ⟨r, h5, h6⟩ := hk.stop
  have e : qp'.options = r.options := by
    rw [h6]
    split <;> rfl
  have e2 : r.options = qk.options := by
    rcases h5 with ⟨_, hb⟩ | ⟨_, rfl⟩
    · obtain ⟨x, y, z, s, hit⟩ := g1.iter
      exact ((g1.bodyOut h.wf hb hit).stop rfl).2.2.1
    · rfl
  rw [e, e2]
  exact ⟨g2.reltol, g2.abstol⟩

/-- **C60**, exit code 0: a solve (whose flag was not already 0) that returns 0 leaves a point whose
computed residual norms are finite, below the tolerance, and the norms of the exact residuals up to
rounding. -/
theorem C60_exit_zero {amd : Amd} {a : SetupArgs K} {pb : Problem K} {q0 qp qp' : QP K}
    (h : Started amd a pb q0) (hr : Reach q0 qp) (hf : qp.stats.Flag ≠ 0)
    (hs : QP_SOLVE qp = .ok (0, qp'))
    (htol : fin (qp.options.reltol / Scalar.sqrt (Scalar.dec 3 0))) :
    ∃ x y z s, qp'.Iter pb x y z s ∧ ∃ nx ny nz mu : K,
      pb.RoundedNorms x y z s (toR nx) (toR ny) (toR nz) ∧
      toR nx < toR (qp.options.reltol / Scalar.sqrt (Scalar.dec 3 0)) ∧
      (pb.p ≠ 0 → toR ny < toR (qp.options.reltol / Scalar.sqrt (Scalar.dec 3 0))) ∧
      toR nz < toR (qp.options.reltol / Scalar.sqrt (Scalar.dec 3 0)) ∧
      Scalar.ltb mu qp.options.abstol = true ∧
      (fin (Scalar.ofInt pb.m : K) → fin mu → pb.RoundedGap z s (toR mu)) ∧
      (∀ i, i < pb.m → fin (s i)) := by
  obtain ⟨p, q, hinv, _⟩ := h.sinv hr
  obtain ⟨x, y, z, s, hi, he⟩ := (settled_of_zero h.wf hinv hf hs).opt
  obtain ⟨o1, o2⟩ := solve_tolerances h hr hs
  unfold exitF at he
  simp only [o1, o2] at he
  set tol := qp.options.reltol / Scalar.sqrt (Scalar.dec 3 0)
  have hall : Scalar.ltb (nrmF pb.n (rxF pb x y z)) tol = true ∧
      Scalar.ltb (nrmF pb.m (rzF pb x s)) tol = true ∧
      (pb.p ≠ 0 → Scalar.ltb (nrmF pb.p (ryF pb x)) tol = true) ∧
      Scalar.ltb (gapF pb z s) qp.options.abstol = true := by
    by_cases hp : pb.p = 0
    · rw [if_pos hp] at he
      simp only [Bool.and_eq_true] at he
      exact ⟨he.1.1, he.1.2, fun h => absurd hp h, he.2⟩
    · rw [if_neg hp] at he
      simp only [Bool.and_eq_true] at he
      exact ⟨he.1.1.1, he.1.1.2, fun _ => he.1.2, he.2⟩
  obtain ⟨e1, e2, e3, e4⟩ := hall
  have fx := Ieee.sqrt_ltb _ _ htol e1
  have fz := Ieee.sqrt_ltb _ _ htol e2
  obtain ⟨a1, b1⟩ := nrmF_rounded fx
  obtain ⟨a3, b3⟩ := nrmF_rounded fz
  obtain ⟨ny, hny, hyt⟩ : ∃ ny : K, (∃ r, IsRoundedNorm K pb.p r (toR ny) ∧ ∀ i, i < pb.p →
      |r i - pb.real.ry (fun j => toR (x j)) i| ≤ Ieee.err K (pb.A.rowNnz i + 1) (pb.rySize x i)) ∧
      (pb.p ≠ 0 → toR ny < toR tol) := by
    by_cases hp : pb.p = 0
    · refine ⟨0, ⟨fun _ => 0, ⟨0, le_rfl, ?_, ?_⟩, fun i hi => by omega⟩, fun h => absurd hp h⟩
      · rw [hp]
        simp [dot, Ieee.err, errBound_zero]
      · rw [(Ieee.zero (K := K)).2]
        simp
    · have fy := Ieee.sqrt_ltb _ _ htol (e3 hp)
      obtain ⟨a2, b2⟩ := nrmF_rounded fy
      exact ⟨nrmF pb.p (ryF pb x), ⟨_, b2, fun i hi => (ryF_acc h.wf x i (a2 i hi)).2⟩,
        fun hp => (Ieee.ltb _ _ fy htol).mp (e3 hp)⟩
  refine ⟨x, y, z, s, hi, nrmF pb.n (rxF pb x y z), ny, nrmF pb.m (rzF pb x s),
    gapF pb z s, ⟨⟨_, b1, fun i hi => (rxF_acc h.wf x y z hi (a1 i hi)).2⟩, hny,
    ⟨_, b3, fun i hi => (rzF_acc h.wf x s i (a3 i hi)).2⟩⟩, (Ieee.ltb _ _ fx htol).mp e1, hyt,
    (Ieee.ltb _ _ fz htol).mp e2, e4, fun hm hf => gapF_rounded h.wf hm hf, fun i hi => ?_⟩
  have := a3 i hi
  unfold rzF at this
  obtain ⟨_, h2, _⟩ := Ieee.add _ _ this
  exact (Ieee.sub _ _ h2).2.1

end

/-! ## Examples -/

/-- `minimise x²/2 + x subject to x ≤ 1` in 53-bit arithmetic. -/
noncomputable def flPb : Problem Fl where
  P := .lit 1 1 [0, 1] [0] [1]
  A := Csc.empty 1
  G := .lit 1 1 [0, 1] [0] [1]
  c := fun _ => 1
  b := fun _ => 0
  h := fun _ => 1
  sigma_d := 0

theorem flPb_wf : flPb.WF where
  P := by
    refine ⟨rfl, ?_, ?_⟩
    · intro c hc; simp only [flPb, Csc.lit] at hc ⊢; interval_cases c; decide
    · intro k hk
      have hk : k < 1 := hk
      interval_cases k; exact Nat.zero_lt_one
  A := ⟨rfl, fun _ _ => le_rfl, fun _ hk => absurd hk (by simp [flPb, Csc.empty])⟩
  G := by
    refine ⟨rfl, ?_, ?_⟩
    · intro c hc; simp only [flPb, Csc.lit] at hc ⊢; interval_cases c; decide
    · intro k hk
      have hk : k < 1 := hk
      interval_cases k; exact Nat.zero_lt_one
  Pm := rfl
  An := rfl
  Gn := rfl
  rows := by
    intro r hr
    simp only [flPb, Csc.lit] at hr
    interval_cases r
    exact ⟨0, by simp [flPb, Csc.lit], rfl⟩
  m_pos := by simp [flPb, Csc.lit]

/-- C60, statistics: setup and a first iteration in 53-bit arithmetic, a case that is not exact. -/
example : ∃ q0 r x y z s,
    Started failAmd (flPb.args (some (Buf.ofFn 2 (fun i => (i : Int))))) flPb q0 ∧
    solveBody { q0 with options := { maxit := 1, reltol := 0, abstol := 0, sigma := 0, verbose := 0 } }
      = .ok r ∧ q0.Iter flPb x y z s ∧ Ieee.u Fl ≠ 0 := by
  have hp : PermSource failAmd (some (Buf.ofFn 2 (fun i => (i : Int))))
      (flPb.args (some (Buf.ofFn 2 (fun i => (i : Int))))).p flPb :=
    Or.inl ⟨_, _, _, rfl, idPair 2, Buf.has_ofFn _ _⟩
  have hg := Problem.args_give flPb (some (Buf.ofFn 2 (fun i => (i : Int)))) (fun _ => rfl)
  obtain ⟨q0, h⟩ := C26_setup flPb_wf hg hp
  have hs : Started failAmd _ flPb q0 := ⟨flPb_wf, hg, hp, h⟩
  obtain ⟨⟨r, hr⟩, _⟩ := C26_solve hs
    (Reach.options ({ maxit := 1, reltol := 0, abstol := 0, sigma := 0, verbose := 0 } : Settings Fl)
      .start) (Or.inl (le_refl (0 : Int)))
  obtain ⟨p, q, hi, _⟩ := hs.sinv .start
  obtain ⟨x, y, z, s, hit⟩ := hi.iter
  exact ⟨q0, r, x, y, z, s, hs, hr, hit, by norm_num [Ieee.u]⟩

/-- C60, exit code 0: every problem over the reals has a run that meets the hypotheses. -/
example {amd : Amd} {a : SetupArgs ℝ} {pb : Problem ℝ} {q0 : QP ℝ} (h : Started amd a pb q0) :
    ∃ o qp', q0.stats.Flag ≠ 0 ∧ QP_SOLVE { q0 with options := o } = .ok (0, qp') ∧
      fin (o.reltol / Scalar.sqrt (Scalar.dec 3 0)) := by
  obtain ⟨o, q1, h1⟩ := first_zero_exists h
  obtain ⟨p, q, hd⟩ := h.done
  obtain ⟨re, hst⟩ := hd.stats
  exact ⟨o, q1, by rw [hst]; exact (by decide : (3 : Int) ≠ 0), h1, trivial⟩

end Verif
