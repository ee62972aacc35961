import Verif.Props.Directions

/-!
# A one-dimensional program worked out by hand

`minimise x²/2 + x subject to x ≤ 1`, in exact arithmetic: every factorisation of every reachable
state is exact (a case meeting the hypotheses of C30 and C31), and one iteration from the starting
point gives the existence half of C21.
-/

set_option linter.unusedSectionVars false

namespace Verif

open Finset

/-- `minimise x²/2 + x subject to x ≤ 1`. -/
def tinyPb (K : Type) [Field K] : Problem K where
  P := .lit 1 1 [0, 1] [0] [1]
  A := Csc.empty 1
  G := .lit 1 1 [0, 1] [0] [1]
  c := fun _ => 1
  b := fun _ => 0
  h := fun _ => 1
  sigma_d := 0

/-- Arguments of setup for it, with the identity permutation. -/
def tinyArgs (K : Type) [Field K] : SetupArgs K := (tinyPb K).args (some (Buf.ofFn 2 (fun i => (i : Int))))

section

variable {K : Type} [Field K]

theorem tinyPb_wf : (tinyPb K).WF where
  P := by
    refine ⟨rfl, ?_, ?_⟩
    · intro c hc; simp only [tinyPb, Csc.lit] at hc ⊢; interval_cases c; decide
    · intro k hk
      have hk : k < 1 := hk
      interval_cases k; exact Nat.zero_lt_one
  A := ⟨rfl, fun _ _ => le_rfl, fun _ hk => absurd hk (by simp [tinyPb, Csc.empty])⟩
  G := by
    refine ⟨rfl, ?_, ?_⟩
    · intro c hc; simp only [tinyPb, Csc.lit] at hc ⊢; interval_cases c; decide
    · intro k hk
      have hk : k < 1 := hk
      interval_cases k; exact Nat.zero_lt_one
  Pm := rfl
  An := rfl
  Gn := rfl
  rows := by
    intro r hr
    simp only [tinyPb, Csc.lit] at hr
    interval_cases r
    exact ⟨0, by simp [tinyPb, Csc.lit], rfl⟩
  m_pos := by simp [tinyPb, Csc.lit]

theorem tinyArgs_give : (tinyArgs K).Give (tinyPb K) := Problem.args_give _ _ (fun _ => rfl)

theorem tinyArgs_perm (amd : Amd) : PermSource amd (tinyArgs K).Permut (tinyArgs K).p (tinyPb K) :=
  Or.inl ⟨_, _, _, rfl, idPair 2, Buf.has_ofFn _ _⟩

theorem tiny_started (K : Type) [Field K] [Scalar K] :
    ∃ q0, Started failAmd (tinyArgs K) (tinyPb K) q0 := by
  obtain ⟨q0, h⟩ := C26_setup tinyPb_wf tinyArgs_give (tinyArgs_perm (K := K) failAmd)
  exact ⟨q0, tinyPb_wf, tinyArgs_give, tinyArgs_perm failAmd, h⟩

theorem tiny_symm : (tinyPb K).P.Symm := by
  intro r c hr hc
  simp only [tinyPb, Csc.lit] at hr hc
  interval_cases r; interval_cases c; rfl

theorem tiny_P : (tinyPb K).P.entry 0 0 = 1 := by
  simp [tinyPb, Csc.lit, Csc.entry]

theorem tiny_G : (tinyPb K).G.entry 0 0 = 1 := by
  simp [tinyPb, Csc.lit, Csc.entry]

end

variable {K : Type} [Field K] [LinearOrder K] [IsStrictOrderedRing K] [Scalar K] [LawfulScalar K]

theorem tiny_kkt (d : Nat → K) :
    (kktCsc (tinyPb K).P (tinyPb K).A (tinyPb K).G d).entry 0 0 = 1 ∧
    (kktCsc (tinyPb K).P (tinyPb K).A (tinyPb K).G d).entry 0 1 = 1 ∧
    (kktCsc (tinyPb K).P (tinyPb K).A (tinyPb K).G d).entry 1 1 = d 0 := by
  have hpb := tinyPb_wf (K := K)
  have ent : ∀ r c, c < 2 → (kktCsc (tinyPb K).P (tinyPb K).A (tinyPb K).G d).entry r c
      = kktEntry (tinyPb K).P (tinyPb K).A (tinyPb K).G d r c := fun r c hc =>
    kktCsc_entry hpb.P hpb.A hpb.G hpb.Pm hpb.An hpb.Gn hpb.rows _ hc
  refine ⟨?_, ?_, ?_⟩
  · rw [ent 0 0 (by omega)]; exact tiny_P
  · rw [ent 0 1 (by omega)]; exact tiny_G
  · rw [ent 1 1 (by omega)]; rfl

/-- With the natural order and a negative slack block no pivot is changed. -/
theorem tiny_noreg {d : Nat → K} (hd : d 0 ≤ 0) {p q : Nat → Nat} (hp : PermPair 2 p q)
    (hid : ∀ i, i < 2 → p i = i) {t : FSt K} {raw : Nat → K}
    (hr : RowsInv (permCol (kktCsc (tinyPb K).P (tinyPb K).A (tinyPb K).G d) p q) 2 t raw) :
    ∀ r, r < 2 → t.D r - raw r = 0 := by
  obtain ⟨k1, k2, k3⟩ := tiny_kkt d
  have wf := tinyPb_wf.kktCsc_wf d
  obtain ⟨_, g2⟩ := factor_exact wf rfl rfl hp hr
  have col : ∀ i r, i < 2 → r < 2 → colSum (permCol (kktCsc (tinyPb K).P (tinyPb K).A (tinyPb K).G d)
      p q r) i = (kktCsc (tinyPb K).P (tinyPb K).A (tinyPb K).G d).entry i r := by
    intro i r h1 h2
    rw [colSum_permCol wf rfl rfl hp h1 h2, hid i h1, hid r h2]
  have l00 : lent t 0 0 = 1 := by simp [lent]
  have l11 : lent t 1 1 = 1 := by simp [lent]
  have e00 := hr.ldl 0 (by omega) 0 le_rfl
  have e01 := hr.ldl 1 (by omega) 0 (by omega)
  have e11 := hr.ldl 1 (by omega) 1 le_rfl
  rw [← hr.D 0 (by omega)] at e00
  rw [← hr.D 1 (by omega)] at e11
  simp only [sum_range_succ, sum_range_zero, col 0 0 (by omega) (by omega), k1, l00, if_true] at e00
  simp only [sum_range_succ, sum_range_zero, col 0 1 (by omega) (by omega), k2, l00] at e01
  simp only [sum_range_succ, sum_range_zero, col 1 1 (by omega) (by omega), k3, l11, if_true] at e11
  have r0 : raw 0 = 1 := by linear_combination e00
  have d0 : t.D 0 = 1 := by
    rw [g2 0 Nat.zero_lt_two, r0]
    norm_num
  rw [d0] at e01
  have l10 : lent t 1 0 = 1 := by simpa using e01
  rw [d0, l10] at e11
  have r1 : raw 1 = d 0 - 1 := by linear_combination e11
  have d1 : t.D 1 = raw 1 := by
    rw [g2 1 Nat.one_lt_two, if_neg]
    rw [r1, abs_of_nonpos (by linarith), not_le]
    have : (1 : K) / 10 ^ 14 < 1 := by norm_num
    linarith
  intro r hr'
  interval_cases r
  · rw [d0, r0, sub_self]
  · rw [d1, sub_self]

theorem tiny_perm {amd : Amd} {q0 qp : QP K} (h : Started amd (tinyArgs K) (tinyPb K) q0)
    (hr : Reach q0 qp) {p : Nat → Nat} (hP : Buf.Has qp.kkt.P 2 (fun i => (p i : Int))) :
    ∀ i, i < 2 → p i = i := by
  intro i hi
  obtain ⟨_, _, _, _, _, _, _, _, _, _, hg⟩ := C25_data_unchanged h hr
  rw [hg _ rfl] at hP
  have := hP.unique (Buf.has_ofFn 2 (fun i => (i : Int))) hi
  exact_mod_cast this

/-- Every step of every history of this program is made with an exact factorisation. -/
theorem tiny_exact {amd : Amd} {q0 qp qp' : QP K} (h : Started amd (tinyArgs K) (tinyPb K) q0)
    (hr : Reach q0 qp) (hb : solveBody qp = .ok (qp', false)) : qp'.kkt.Exact (tinyPb K).N := by
  obtain ⟨p, q, hs, _⟩ := h.sinv hr
  obtain ⟨x, y, z, s, hi⟩ := hs.iter
  have hpos := C16_positive h hr hi 0 Nat.zero_lt_one
  obtain ⟨t, hst, hopt, _⟩ := (hs.bodyOut h.wf hb hi).step rfl
  simp only at hst
  obtain ⟨raw, hraw⟩ := hst.fac.1.inv
  have hp := hst.sym.perm
  have hid := tiny_perm h (.iteration hr hb) hst.sym.P
  have hneg : slackD z s 0 ≤ 0 := by
    unfold slackD
    exact div_nonpos_of_nonpos_of_nonneg (by linarith [hpos.1]) hpos.2.le
  have hno := tiny_noreg hneg hp hid hraw
  obtain ⟨g1, _⟩ := factor_exact hst.sym.wf hst.sym.an hst.sym.am hp hraw
  refine ⟨_, p, facCsc _ t, t.D, hst.sym.wf, hst.sym.an, hst.sym.mat, hst.sym.P,
    hst.fac.2.factor hst.sym.lp, ?_⟩
  intro r hr'
  rw [g1 r hr' r le_rfl, if_pos rfl, hno r hr']

/-- The starting point: `x = 0`, `s = z = 1`. -/
theorem tiny_start {amd : Amd} {q0 : QP K} (h : Started amd (tinyArgs K) (tinyPb K) q0)
    {x y z s : Nat → K} (hi : q0.Iter (tinyPb K) x y z s) : x 0 = 0 ∧ z 0 = 1 ∧ s 0 = 1 := by
  obtain ⟨p, q, hd⟩ := h.done
  obtain ⟨t, hfac, _, hit⟩ := hd.iter
  obtain ⟨raw, hraw⟩ := hfac.1.inv
  have hp := hd.kkt.perm
  have hid := tiny_perm h .start hd.kkt.P
  have hno := tiny_noreg (by simp [dec_neg_one]) hp hid hraw
  have wf := hd.kkt.wf
  obtain ⟨k1, k2, k3⟩ := tiny_kkt (K := K) (fun _ => Scalar.dec (-1) 0)
  have hpb := tinyPb_wf (K := K)
  have ent : ∀ r c, c < 2 → (kktCsc (tinyPb K).P (tinyPb K).A (tinyPb K).G
      (fun _ => Scalar.dec (-1) 0)).entry r c
      = kktEntry (tinyPb K).P (tinyPb K).A (tinyPb K).G (fun _ => Scalar.dec (-1) 0) r c :=
    fun r c hc => kktCsc_entry hpb.P hpb.A hpb.G hpb.Pm hpb.An hpb.Gn hpb.rows _ hc
  have hsym : ∀ r c, r < 2 → c < 2 → (kktCsc (tinyPb K).P (tinyPb K).A (tinyPb K).G
      (fun _ => Scalar.dec (-1) 0)).entry r c = (kktCsc (tinyPb K).P (tinyPb K).A (tinyPb K).G
      (fun _ => Scalar.dec (-1) 0)).entry c r := by
    intro r c h1 h2
    rw [ent r c h2, ent c r h1]
    exact kktEntry_symm tiny_symm _ _ _
  have s0 := hraw.solve (n := 2) wf rfl rfl hp hsym (rhs0 (tinyPb K)) (r := 0) (by omega)
  have s1 := hraw.solve (n := 2) wf rfl rfl hp hsym (rhs0 (tinyPb K)) (r := 1) (by omega)
  have hno' : ∀ r, r < 2 → regDiag t raw q r = 0 := fun r hr =>
    hno _ (hp.q_lt r hr)
  rw [hno' 0 (by omega)] at s0
  rw [hno' 1 (by omega)] at s1
  rw [sum_range_succ, sum_range_succ, sum_range_zero, k1, k2] at s0
  rw [sum_range_succ, sum_range_succ, sum_range_zero, hsym 1 0 (by omega) (by omega), k2, k3] at s1
  have b0 : rhs0 (tinyPb K) 0 = -1 := rfl
  have b1 : rhs0 (tinyPb K) 1 = 1 := rfl
  rw [b0] at s0
  rw [b1, dec_neg_one] at s1
  have hx : sol0 (tinyPb K) p q t 0 = 0 := by
    show solveF 2 t p q _ 0 = 0
    linarith
  have hin : interF (tinyPb K) (sol0 (tinyPb K) p q t) 0 = 1 := by
    unfold interF
    rw [smmF_eq hpb.G]
    simp [Csc.mulVec, tinyPb, Csc.lit, dec_one_zero]
    right
    exact hx
  have hmm : minmaxF (tinyPb K).m (interF (tinyPb K) (sol0 (tinyPb K) p q t)) = (1, 1) := by
    show (interF (tinyPb K) (sol0 (tinyPb K) p q t) 0, _) = _
    rw [hin]
  refine ⟨(hi.x.unique hit.x Nat.zero_lt_one).trans hx, (hi.z.unique hit.z Nat.zero_lt_one).trans ?_,
    (hi.s.unique hit.s Nat.zero_lt_one).trans ?_⟩
  · unfold initZ
    rw [hmm, hin]
    dsimp only
    rw [ltb_eq, dec_one_zero]
    norm_num
  · unfold initS
    rw [hmm, hin]
    dsimp only
    rw [ltb_eq]
    norm_num

/-- C30 and C31 apply to every step of this program. -/
example {q0 qp qp' : QP ℝ} (h : Started failAmd (tinyArgs ℝ) (tinyPb ℝ) q0) (hr : Reach q0 qp)
    (hb : solveBody qp = .ok (qp', false)) {x y z s x' y' z' s' : Nat → ℝ}
    (hi : qp.Iter (tinyPb ℝ) x y z s) (hi' : qp'.Iter (tinyPb ℝ) x' y' z' s') :=
  And.intro (C30_contract h tiny_symm hr hb (tiny_exact h hr hb) hi hi')
    (C31_directions h tiny_symm hr hb hi)

/-- C21, existence: there are a program and options for which a first solve returns 2 and the
reported objective value differs from that of the returned point. -/
theorem C21_fval_differs (K : Type) [Field K] [LinearOrder K] [IsStrictOrderedRing K] [Scalar K]
    [LawfulScalar K] [LawfulSqrt K] : ∃ (a : SetupArgs K) (pb : Problem K) (q0 q1 : QP K)
    (o : Settings K) (x y z s : Nat → K) (v : K), Started failAmd a pb q0 ∧
    QP_SOLVE { q0 with options := o } = .ok (2, q1) ∧ q1.Iter pb x y z s ∧
    q1.stats.fval = some v ∧ v ≠ pb.obj x := by
  obtain ⟨q0, h⟩ := tiny_started K
  set o : Settings K := { maxit := 1, reltol := 0, abstol := 0, sigma := 0, verbose := 0 } with ho
  obtain ⟨f, q1, h1⟩ := C22_terminates h o (Or.inl le_rfl)
  obtain ⟨k, qk, hk, hle, hc, h2⟩ := (C22_first_solve h _ h1).2 (by decide : (0 : Int) ≤ 1)
  have hr : Reach q0 { q0 with options := o } := .options _ .start
  obtain ⟨p, q, hs, _⟩ := h.sinv hr
  rcases h2 with ⟨rfl, e1, e2⟩ | ⟨_, _, hb⟩
  swap
  · refine absurd hb (no_break h (hr.iterations hk) ?_)
    rw [(hk.facts h.wf hs).2.1.reltol]
  have hk1 : k = 1 := by
    have e1 : (k : Int) = 1 := e1
    exact_mod_cast e1
  subst hk1
  cases hk with
  | @succ _ _ b _ hk hb =>
  cases hk
  obtain ⟨x, y, z, s, hi⟩ := hs.iter
  obtain ⟨x0, z0, s0⟩ := tiny_start h ⟨hi.x, hi.y, hi.z, hi.s⟩
  have hfv := fval_eq h hr hb hi
  obtain ⟨_, _, _, _, dx, dy, dz, ds, ap, ad, j1, j2, j3, j4, f1, f2, a1, a2, hi'⟩ :=
    C17_steps h hr hb hi
  obtain ⟨e, dx', dy', dz', ds', tgt, i1, i2, i3, i4, _, he, hlin, ht, _⟩ :=
    C31_directions h tiny_symm hr hb hi
  have he := he (tiny_exact h hr hb)
  have ht := (ht le_rfl).2 0 Nat.zero_lt_one
  have r1 := hlin.rx 0 Nat.zero_lt_one
  have r2 := hlin.rz 0 Nat.zero_lt_one
  have r3 := hlin.comp 0 Nat.zero_lt_one
  have hN : (tinyPb K).N = 2 := rfl
  have hn : (tinyPb K).n = 1 := rfl
  have hpp : (tinyPb K).p = 0 := rfl
  have hm : (tinyPb K).m = 1 := rfl
  have mP : ∀ v : Nat → K, (tinyPb K).P.mulVec v 0 = v 0 := fun v => by
    unfold Csc.mulVec
    rw [show (tinyPb K).P.n = 1 from rfl, sum_range_one, tiny_P, one_mul]
  have mG : ∀ v : Nat → K, (tinyPb K).G.mulVec v 0 = v 0 := fun v => by
    unfold Csc.mulVec
    rw [show (tinyPb K).G.n = 1 from rfl, sum_range_one, tiny_G, one_mul]
  have tG : ∀ v : Nat → K, (tinyPb K).G.tmulVec v 0 = v 0 := fun v => by
    unfold Csc.tmulVec
    rw [show (tinyPb K).G.m = 1 from rfl, sum_range_one, tiny_G, one_mul]
  have tA : ∀ v : Nat → K, (tinyPb K).A.tmulVec v 0 = 0 := fun v => rfl
  have eob : ∀ v : Nat → K, (tinyPb K).obj v = 1 / 2 * (v 0 * v 0) + v 0 := fun v => by
    unfold Problem.obj dot
    rw [hn, sum_range_one, sum_range_one, mP]
    show _ + 1 * v 0 = _
    rw [one_mul]
  unfold Problem.rx at r1
  unfold Problem.rz at r2
  rw [he 0 Nat.zero_lt_two, mP, mP, tA, tA, tG, tG, x0, z0] at r1
  rw [hn, hpp, he (1 + 0 + 0) Nat.one_lt_two, mG, mG, x0, s0] at r2
  rw [ht, s0, z0] at r3
  have hsd : (tinyPb K).sigma_d = 0 := rfl
  have hc1 : (tinyPb K).c 0 = 1 := rfl
  have hh1 : (tinyPb K).h 0 = 1 := rfl
  rw [hsd] at r3
  rw [hc1] at r1
  rw [hh1] at r2
  have vdx : dx 0 = -1 / 2 := by
    rw [j1.unique i1 Nat.zero_lt_one]
    linarith
  have vds : ds 0 = 1 / 2 := by
    rw [j4.unique i4 Nat.zero_lt_one]
    have : dx' 0 = -1 / 2 := by linarith
    linarith
  have hap : ap = 1 := by
    rcases f1.longest with ⟨_, i, hi1, _, hi2⟩ | ⟨h', _⟩
    swap
    · exact h'
    · have : i = 0 := by omega
      subst this
      have := f1.pos
      rw [s0, vds] at hi2
      linarith
  rw [hap] at a1
  have hf : q1.stats.fval = some ((tinyPb K).obj x) := by
    rw [e2]
    exact hfv
  have hi2 : q1.Iter (tinyPb K) (fun i => x i + qk.stats.alpha_p * dx i)
      (fun i => y i + qk.stats.alpha_d * dy i) (fun i => z i + qk.stats.alpha_d * dz i)
      (fun i => s i + qk.stats.alpha_p * ds i) := by
    rw [e2]
    exact ⟨hi'.x, hi'.y, hi'.z, hi'.s⟩
  refine ⟨_, _, q0, q1, o, _, _, _, _, _, h, h1, hi2, hf, ?_⟩
  rw [eob, eob, x0, a1, vdx]
  norm_num

end Verif
