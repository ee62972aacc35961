import Verif.Lemmas.Quasi
import Verif.Props.Start

/-!
# Signs of the pivots, and which pivots the rule of `LDL_numeric` changes

C55 is about strongly convex problems: whatever the ordering, the pivots of the variables are
positive and never changed, those of the constraints are negative. C56 is about problems with a zero
on the diagonal of `P`.
-/

set_option linter.unusedSectionVars false

namespace Verif

open Finset

variable {K : Type} [Field K] [LinearOrder K] [IsStrictOrderedRing K] [Scalar K] [LawfulScalar K]

theorem lent_self (t : FSt K) (i : Nat) : lent t i i = 1 := by
  unfold lent; rw [if_pos rfl]

/-- Pivots of a KKT matrix with a strongly convex `P` and a nonpositive last block. -/
theorem kkt_pivots {pb : Problem K} (hpb : pb.WF) (hsym : pb.P.Symm) {eps : K}
    (heps : 1 / 10 ^ 14 < eps) (hP : pb.Strong eps) {dd : Nat → K} (hdd : ∀ i, i < pb.m → dd i ≤ 0)
    {p q : Nat → Nat} (hp : PermPair pb.N p q) {k : Kkt K} {t : FSt K}
    (hk : KktSym pb.N (kktCsc pb.P pb.A pb.G dd) p q k)
    (hf : KktFac pb.N (kktCsc pb.P pb.A pb.G dd) p q t k) :
    ∃ L e, k.Factored pb.N (kktCsc pb.P pb.A pb.G dd) p L t.D e ∧
      (∀ r, r < pb.N → p r < pb.n → eps ≤ t.D r) ∧ (∀ r, r < pb.N → pb.n ≤ p r → t.D r < 0) ∧
      (∀ i, i < pb.n → e i = 0) ∧
      (∀ i, pb.n ≤ i → i < pb.N → -(1 / 10 ^ 7) ≤ e i ∧ e i ≤ 0) ∧
      (∀ i, i < pb.m → 1 / 10 ^ 14 < -(dd i) → e (pb.n + pb.p + i) = 0) := by
  obtain ⟨raw, hraw⟩ := hf.1.inv
  obtain ⟨g1, g2⟩ := factor_exact hk.wf hk.an hk.am hp hraw
  have ent : ∀ r c, c < pb.N → (kktCsc pb.P pb.A pb.G dd).entry r c
      = kktEntry pb.P pb.A pb.G dd r c := fun r c hc =>
    kktCsc_entry hpb.P hpb.A hpb.G hpb.Pm hpb.An hpb.Gn hpb.rows _ hc
  have eN : pb.N = pb.n + pb.p + pb.m := rfl
  have low := (hf.2.factor hk.lp).lower
  have hq := quasi_pivots (N := pb.N) (n := pb.n) (by omega) (M := kktEntry pb.P pb.A pb.G dd) hp
    (u := fun i j => if j < pb.N then (facCsc pb.N t).unitEntry i j else if i = j then 1 else 0)
    (d := t.D) (raw := raw) (f := fun c => if c < pb.n + pb.p then 0 else -(dd (c - pb.n - pb.p)))
    (by
      intro i
      show (if i < pb.N then (facCsc pb.N t).unitEntry i i else if i = i then 1 else 0) = (1 : K)
      split
      · unfold Csc.unitEntry; rw [if_pos rfl]
      · rw [if_pos rfl])
    (by
      intro i j hij
      show (if j < pb.N then (facCsc pb.N t).unitEntry i j else if i = j then 1 else 0) = (0 : K)
      split
      · rename_i h
        unfold Csc.unitEntry
        rw [if_neg (by omega)]
        unfold Csc.entry
        refine sum_eq_zero fun k hk' => ?_
        rw [if_neg]
        intro e
        have := low j h i ⟨k, by
          have := mem_Ico.mp hk'; exact this.1, (mem_Ico.mp hk').2, e⟩
        omega
      · rw [if_neg (by omega)])
    (by
      intro r hr i hi
      rw [← ent _ _ (hp.p_lt r hr), ← g1 r hr i hi]
      unfold ldltEntry
      refine sum_congr rfl fun j hj => ?_
      simp only [if_pos (mem_range.mp hj)])
    g2 (fun r c => kktEntry_symm hsym dd r c) heps
    (by
      intro x
      have := hP x
      unfold dot Csc.mulVec at this
      refine this.trans (le_of_eq (sum_congr rfl fun i hi => ?_))
      congr 1
      refine sum_congr rfl fun j hj => ?_
      have hi := mem_range.mp hi
      have hj := mem_range.mp hj
      have hi' : i < pb.P.n := hi
      have hj' : j < pb.P.n := hj
      simp only [kktEntry, if_pos hi', if_pos hj'])
    (by
      intro i j hi hj hiN hjN
      have hi' : ¬ i < pb.P.n := Nat.not_lt.mpr hi
      have hj' : ¬ j < pb.P.n := Nat.not_lt.mpr hj
      simp only [kktEntry, if_neg hi', if_neg hj']
      show (if i < pb.n + pb.p then 0 else if i = j then dd (i - pb.n - pb.p) else 0) = _
      by_cases h1 : i < pb.n + pb.p
      · simp [h1]
      · by_cases h2 : i = j
        · subst h2; simp [h1]
        · simp [h1, h2])
    (by
      intro i hi hiN
      show (0 : K) ≤ if i < pb.n + pb.p then 0 else -(dd (i - pb.n - pb.p))
      split
      · exact le_rfl
      · have := hdd (i - pb.n - pb.p) (by omega)
        linarith)
  refine ⟨facCsc pb.N t, regDiag t raw q, ⟨hk.wf, hk.an, hk.mat, hk.P, hf.2.factor hk.lp, ?_⟩,
    ?_, ?_, ?_, ?_, ?_⟩
  · intro r hr'
    rw [g1 r hr' r le_rfl, if_pos rfl]
    unfold regDiag
    rw [hp.qp r hr']
  · intro r hr h
    obtain ⟨h1, h2⟩ := (hq r hr).1 h
    rw [h2]; exact h1
  · exact fun r hr h => ((hq r hr).2 h).2.1
  · intro i hi
    have hiN : i < pb.N := by omega
    have := ((hq (q i) (hp.q_lt i hiN)).1 (by rw [hp.pq i hiN]; exact hi)).2
    unfold regDiag
    rw [this, sub_self]
  · intro i hi hiN
    obtain ⟨_, _, h1, h2⟩ := (hq (q i) (hp.q_lt i hiN)).2 (by rw [hp.pq i hiN]; exact hi)
    unfold regDiag
    constructor <;> linarith
  · intro i hi hpos
    have hiN : pb.n + pb.p + i < pb.N := by omega
    obtain ⟨h1, _⟩ := (hq (q (pb.n + pb.p + i)) (hp.q_lt _ hiN)).2 (by rw [hp.pq _ hiN]; omega)
    rw [hp.pq _ hiN] at h1
    simp only [if_neg (by omega : ¬ pb.n + pb.p + i < pb.n + pb.p),
      show pb.n + pb.p + i - pb.n - pb.p = i by omega] at h1
    unfold regDiag
    have := g2 _ (hp.q_lt _ hiN)
    rw [this, if_neg, sub_self]
    have h14 : (0 : K) < 1 / 10 ^ 14 := by positivity
    rw [abs_of_neg (by linarith)]
    linarith

/-- **C55**, setup: with `P` symmetric and strongly convex (modulus above `1e-14`), whatever the
ordering, the factor computed by setup has positive pivots, at least the modulus, for the variables
and negative ones for the constraints. The pivot rule changes no pivot of a variable or of an
inequality. Pivots of equalities are lowered, by at most `1e-7`. -/
theorem C55_pivots_setup {amd : Amd} {a : SetupArgs K} {pb : Problem K} {q0 : QP K}
    (h : Started amd a pb q0) (hsym : pb.P.Symm) {eps : K} (heps : 1 / 10 ^ 14 < eps)
    (hP : pb.Strong eps) :
    ∃ M p L d e, q0.kkt.Factored pb.N M p L d e ∧ IsPerm pb.N (fun i => (p i : Int)) ∧
      (∀ r c, r < pb.N → c < pb.N →
        M.entry r c = kktEntry pb.P pb.A pb.G (fun _ => -1) r c) ∧
      (∀ r, r < pb.N → p r < pb.n → eps ≤ d r) ∧ (∀ r, r < pb.N → pb.n ≤ p r → d r < 0) ∧
      (∀ i, i < pb.n → e i = 0) ∧
      (∀ i, i < pb.p → -(1 / 10 ^ 7) ≤ e (pb.n + i) ∧ e (pb.n + i) ≤ 0) ∧
      (∀ i, i < pb.m → e (pb.n + pb.p + i) = 0) := by
  obtain ⟨p, q, hd⟩ := h.done
  obtain ⟨t, hfac, _⟩ := hd.iter
  have hpb := h.wf
  have hp := hd.kkt.perm
  have eN : pb.N = pb.n + pb.p + pb.m := rfl
  obtain ⟨L, e, f1, f2, f3, f4, f5, f6⟩ := kkt_pivots hpb hsym heps hP
    (dd := fun _ => Scalar.dec (-1) 0) (by intro i _; simp [dec_neg_one]) hp hd.kkt hfac
  refine ⟨_, p, L, t.D, e, f1, hp.isPerm, ?_, f2, f3, f4, fun i hi => f5 _ (by omega) (by omega), ?_⟩
  · intro r c _ hc
    rw [kktCsc_entry hpb.P hpb.A hpb.G hpb.Pm hpb.An hpb.Gn hpb.rows _ hc]
    simp only [dec_neg_one]
  · intro i hi
    refine f6 i hi ?_
    simp only [dec_neg_one, neg_neg]
    rw [div_lt_one (by positivity)]; norm_num

/-- **C55**, iterations: the same for every factorisation made in the loop of a solve. An
inequality's pivot is changed only if its ratio of slack to multiplier is at most `1e-14`. -/
theorem C55_pivots_step {amd : Amd} {a : SetupArgs K} {pb : Problem K} {q0 qp qp' : QP K}
    (h : Started amd a pb q0) (hsym : pb.P.Symm) {eps : K} (heps : 1 / 10 ^ 14 < eps)
    (hP : pb.Strong eps) (hr : Reach q0 qp) (hb : solveBody qp = .ok (qp', false))
    {x y z s : Nat → K} (hi : qp.Iter pb x y z s) :
    ∃ M p L d e, qp'.kkt.Factored pb.N M p L d e ∧ IsPerm pb.N (fun i => (p i : Int)) ∧
      (∀ r c, r < pb.N → c < pb.N →
        M.entry r c = kktEntry pb.P pb.A pb.G (fun i => -(s i / z i)) r c) ∧
      (∀ r, r < pb.N → p r < pb.n → eps ≤ d r) ∧ (∀ r, r < pb.N → pb.n ≤ p r → d r < 0) ∧
      (∀ i, i < pb.n → e i = 0) ∧
      (∀ i, pb.n ≤ i → i < pb.N → -(1 / 10 ^ 7) ≤ e i ∧ e i ≤ 0) ∧
      (∀ i, i < pb.m → 1 / 10 ^ 14 < s i / z i → e (pb.n + pb.p + i) = 0) := by
  have hpos := C16_positive h hr hi
  have hpb := h.wf
  obtain ⟨p, q, hs, _⟩ := h.sinv hr
  obtain ⟨t, hst, _⟩ := (hs.bodyOut h.wf hb hi).step rfl
  simp only at hst
  have hp := hst.sym.perm
  have esl : slackD z s = fun i => -(s i / z i) := by
    funext i; unfold slackD; rw [neg_div]
  obtain ⟨L, e, f1, f2, f3, f4, f5, f6⟩ := kkt_pivots hpb hsym heps hP
    (dd := slackD z s) (by
      intro i hm
      rw [esl]
      have := div_pos (hpos i hm).1 (hpos i hm).2
      simp only; linarith) hp hst.sym hst.fac
  refine ⟨_, p, L, t.D, e, f1, hp.isPerm, ?_, f2, f3, f4, f5, ?_⟩
  · intro r c _ hc
    rw [kktCsc_entry hpb.P hpb.A hpb.G hpb.Pm hpb.An hpb.Gn hpb.rows _ hc, esl]
  · intro i hi hlt
    refine f6 i hi ?_
    rw [esl]
    simp only [neg_neg]; exact hlt

theorem Kkt.Factored.exact {k : Kkt K} {N : Nat} {M : Csc K} {p : Nat → Nat} {L : Csc K}
    {d e : Nat → K} (h : k.Factored N M p L d e) (hp : ∀ r, r < N → p r < N)
    (he : ∀ i, i < N → e i = 0) : k.Exact N :=
  ⟨M, p, L, d, h.wf, h.mn, h.mat, h.perm, h.fac, fun r hr => by
    rw [h.diff r hr, he _ (hp r hr)]⟩

/-- **C55**, consequence: without equality constraints the factorisation of setup is exact. -/
theorem C55_exact_setup {amd : Amd} {a : SetupArgs K} {pb : Problem K} {q0 : QP K}
    (h : Started amd a pb q0) (hsym : pb.P.Symm) {eps : K} (heps : 1 / 10 ^ 14 < eps)
    (hP : pb.Strong eps) (hp0 : pb.p = 0) : q0.kkt.Exact pb.N := by
  obtain ⟨M, p, L, d, e, f1, f2, _, _, _, f4, _, f6⟩ := C55_pivots_setup h hsym heps hP
  have eN : pb.N = pb.n + pb.p + pb.m := rfl
  refine f1.exact (fun r hr => by have := (f2.1 r hr).2; simpa using this) fun i hi => ?_
  by_cases hn : i < pb.n
  · exact f4 i hn
  · have := f6 (i - pb.n - pb.p) (by omega)
    rwa [show pb.n + pb.p + (i - pb.n - pb.p) = i by omega] at this

/-- **C55**, consequence: without equality constraints, an iteration from a point whose ratios of
slack to multiplier exceed `1e-14` uses an exact factorisation. -/
theorem C55_exact_step {amd : Amd} {a : SetupArgs K} {pb : Problem K} {q0 qp qp' : QP K}
    (h : Started amd a pb q0) (hsym : pb.P.Symm) {eps : K} (heps : 1 / 10 ^ 14 < eps)
    (hP : pb.Strong eps) (hp0 : pb.p = 0) (hr : Reach q0 qp)
    (hb : solveBody qp = .ok (qp', false)) {x y z s : Nat → K} (hi : qp.Iter pb x y z s)
    (hsz : ∀ i, i < pb.m → 1 / 10 ^ 14 < s i / z i) : qp'.kkt.Exact pb.N := by
  obtain ⟨M, p, L, d, e, f1, f2, _, _, _, f4, _, f6⟩ := C55_pivots_step h hsym heps hP hr hb hi
  have eN : pb.N = pb.n + pb.p + pb.m := rfl
  refine f1.exact (fun r hr => by have := (f2.1 r hr).2; simpa using this) fun i hi => ?_
  by_cases hn : i < pb.n
  · exact f4 i hn
  · have := f6 (i - pb.n - pb.p) (by omega) (hsz _ (by omega))
    rwa [show pb.n + pb.p + (i - pb.n - pb.p) = i by omega] at this

/-! ## C56 -/

/-- The first pivot when the first diagonal entry is zero. -/
theorem first_pivot {pb : Problem K} (hpb : pb.WF) {dd : Nat → K} {p q : Nat → Nat}
    {k : Kkt K} {t : FSt K} (hk : KktSym pb.N (kktCsc pb.P pb.A pb.G dd) p q k)
    (hf : KktFac pb.N (kktCsc pb.P pb.A pb.G dd) p q t k) (hj : p 0 < pb.n)
    (hz : pb.P.entry (p 0) (p 0) = 0) :
    ∃ L e, k.Factored pb.N (kktCsc pb.P pb.A pb.G dd) p L t.D e ∧ t.D 0 = -(1 / 10 ^ 7) ∧
      e (p 0) = -(1 / 10 ^ 7) := by
  obtain ⟨raw, hraw⟩ := hf.1.inv
  have hp := hk.perm
  obtain ⟨g1, g2⟩ := factor_exact hk.wf hk.an hk.am hp hraw
  have eN : pb.N = pb.n + pb.p + pb.m := rfl
  have hN : 0 < pb.N := by have := hpb.m_pos; have : 0 < pb.m := this; omega
  have hdiff : ∀ r, r < pb.N → ldltEntry pb.N (facCsc pb.N t) t.D r r
      = (kktCsc pb.P pb.A pb.G dd).entry (p r) (p r) + regDiag t raw q (p r) := by
    intro r hr'
    rw [g1 r hr' r le_rfl, if_pos rfl]
    unfold regDiag
    rw [hp.qp r hr']
  have e0 : (kktCsc pb.P pb.A pb.G dd).entry (p 0) (p 0) = 0 := by
    rw [kktCsc_entry hpb.P hpb.A hpb.G hpb.Pm hpb.An hpb.Gn hpb.rows _ (hp.p_lt 0 hN)]
    have hj' : p 0 < pb.P.n := hj
    simp only [kktEntry, if_pos hj', hz]
  have l0 := hraw.ldl 0 hN 0 le_rfl
  rw [sum_range_one, lent_self, if_pos rfl, ← hraw.D 0 hN, one_mul, mul_one,
    colSum_permCol hk.wf hk.an hk.am hp hN hN, e0] at l0
  have r0 : raw 0 = 0 := by linear_combination l0
  have d0 : t.D 0 = -(1 / 10 ^ 7) := by
    have h14 : (0 : K) ≤ 1 / 10 ^ 14 := by positivity
    rw [g2 0 hN, r0, abs_zero, if_pos h14, if_pos le_rfl]
  refine ⟨facCsc pb.N t, regDiag t raw q, ⟨hk.wf, hk.an, hk.mat, hk.P, hf.2.factor hk.lp, hdiff⟩,
    d0, ?_⟩
  unfold regDiag
  rw [hp.qp 0 hN, d0, r0, sub_zero]

/-- **C56**, setup: if the ordering given by the caller starts with a variable `j` whose diagonal
entry `P[j,j]` is zero, the first pivot of the factor is `-1e-7`: the matrix factored is the one
with `P[j,j]` replaced by a negative number. -/
theorem C56_zero_diagonal_setup {amd : Amd} {a : SetupArgs K} {pb : Problem K} {q0 : QP K}
    (h : Started amd a pb q0) {B : Buf Int} {j : Nat} (hB : a.Permut = some B)
    (hB0 : rd B 0 = .ok (j : Int)) (hj : j < pb.n) (hz : pb.P.entry j j = 0) :
    ∃ M p L d e, q0.kkt.Factored pb.N M p L d e ∧
      (∀ r c, r < pb.N → c < pb.N →
        M.entry r c = kktEntry pb.P pb.A pb.G (fun _ => -1) r c) ∧
      p 0 = j ∧ d 0 = -(1 / 10 ^ 7) ∧ e j = -(1 / 10 ^ 7) := by
  obtain ⟨p, q, hd⟩ := h.done
  obtain ⟨t, hfac, _⟩ := hd.iter
  have hpb := h.wf
  have eN : pb.N = pb.n + pb.p + pb.m := rfl
  obtain ⟨_, _, _, _, _, _, _, _, _, _, hg⟩ := C25_data_unchanged h .start
  have hP0 := hd.kkt.P.rd (i := 0) (by omega)
  have hpj : p 0 = j := by
    rw [hg _ hB] at hP0
    rw [show ((0 : Nat) : Int) = 0 from rfl, hB0] at hP0
    have := Except.ok.inj hP0
    exact_mod_cast this.symm
  subst hpj
  obtain ⟨L, e, f1, f2, f3⟩ := first_pivot hpb hd.kkt hfac hj hz
  refine ⟨_, p, L, t.D, e, f1, ?_, rfl, f2, f3⟩
  intro r c _ hc
  rw [kktCsc_entry hpb.P hpb.A hpb.G hpb.Pm hpb.An hpb.Gn hpb.rows _ hc]
  simp only [dec_neg_one]

/-- **C56**, iterations: the same in every iteration of every solve. The direction computed then
satisfies the linearised conditions of the problem with `P[j,j] = -1e-7`. -/
theorem C56_zero_diagonal_step {amd : Amd} {a : SetupArgs K} {pb : Problem K} {q0 qp qp' : QP K}
    (h : Started amd a pb q0) (hsym : pb.P.Symm) {B : Buf Int} {j : Nat} (hB : a.Permut = some B)
    (hB0 : rd B 0 = .ok (j : Int)) (hj : j < pb.n) (hz : pb.P.entry j j = 0) (hr : Reach q0 qp)
    (hb : solveBody qp = .ok (qp', false)) {x y z s : Nat → K} (hi : qp.Iter pb x y z s) :
    ∃ e dx dy dz ds tgt : Nat → K, (∃ M p L d, qp'.kkt.Factored pb.N M p L d e ∧ p 0 = j ∧
        d 0 = -(1 / 10 ^ 7)) ∧
      Buf.Has qp'.delta_x pb.n dx ∧ Buf.Has qp'.delta_y pb.p dy ∧
      Buf.Has qp'.delta_z pb.m dz ∧ Buf.Has qp'.delta_s pb.m ds ∧
      pb.Linearised e x y z s tgt dx dy dz ds ∧
      pb.P.mulVec dx j + pb.A.tmulVec dy j + pb.G.tmulVec dz j - 1 / 10 ^ 7 * dx j
        = pb.rx x y z j := by
  have hpb := h.wf
  have eN : pb.N = pb.n + pb.p + pb.m := rfl
  obtain ⟨p, q, t, e, piv, M, L, hst, _, hfac, hp, _, hlin⟩ := step_linearised h hsym hr hb hi
  obtain ⟨_, _, _, _, _, _, _, _, _, _, hg⟩ := C25_data_unchanged h (.iteration hr hb)
  have hP0 := hst.sym.P.rd (i := 0) (by omega)
  have hpj : p 0 = j := by
    rw [hg _ hB] at hP0
    rw [show ((0 : Nat) : Int) = 0 from rfl, hB0] at hP0
    have := Except.ok.inj hP0
    exact_mod_cast this.symm
  subst hpj
  obtain ⟨L', e', f1, f2, f3⟩ := first_pivot hpb hst.sym hst.fac hj hz
  have he : e (p 0) = -(1 / 10 ^ 7) := by
    rw [hfac.unique f1 hp (by omega), f3]
  have hl := hlin (tgtF pb p q t x y z s qp.options.sigma)
  refine ⟨e, _, _, _, _, _, ⟨M, p, L, t.D, hfac, rfl, f2⟩, hst.dx, hst.dy, hst.dz, hst.ds, hl, ?_⟩
  have := hl.rx (p 0) hj
  rw [he] at this
  rw [← this]
  show _ = _ + -(1 / 10 ^ 7) * (stepDir pb p q t x y z s qp.options.sigma).dx (p 0)
  unfold stepDir
  ring

/-! ## Examples -/

/-- From every reachable state some options make the next iteration take a step, so the hypotheses
of the theorems on steps can be met for every problem. -/
theorem step_exists {amd : Amd} {a : SetupArgs K} {pb : Problem K} {q0 qp : QP K}
    (h : Started amd a pb q0) (hr : Reach q0 qp) :
    ∃ (o : Settings K) (qp' : QP K) (x y z s : Nat → K),
      { qp with options := o }.Iter pb x y z s ∧
      solveBody { qp with options := o } = .ok (qp', false) := by
  obtain ⟨p, q, hs, _⟩ := h.sinv hr
  obtain ⟨x, y, z, s, hi⟩ := hs.iter
  set o : Settings K := { qp.options with abstol := gapF pb z s, verbose := 0 } with ho
  obtain ⟨p, q, hs', _⟩ := h.sinv (.options o hr)
  have hi' : { qp with options := o }.Iter pb x y z s := ⟨hi.x, hi.y, hi.z, hi.s⟩
  obtain ⟨⟨qp', b⟩, h1, h2⟩ := solveBody_spec h.wf hs'.inv hi' (Or.inl le_rfl)
  have hb := h2.brk
  have : exitF pb o x y z s = false := by
    unfold exitF
    have : Scalar.ltb (gapF pb z s) o.abstol = false := by
      rw [ltb_eq, ho]; simp
    simp [this]
  simp only at hb
  rw [this] at hb
  exact ⟨o, qp', x, y, z, s, hi', by rw [h1, hb]⟩

theorem demoPb_strong : (demoPb K).Strong 1 := by
  intro v
  have e : dot (demoPb K).n v ((demoPb K).P.mulVec v) =
      5 * (v 0 * v 0) + 2 * (v 0 * v 1) + 2 * (v 1 * v 1) + 2 * (v 1 * v 2) + 4 * (v 2 * v 2) := by
    simp [dot, Csc.mulVec, Problem.n, demoPb, Csc.lit, Csc.entry, sum_Ico_eq_sum_range,
      sum_range_succ]
    ring
  have e2 : dot (demoPb K).n v v = v 0 * v 0 + v 1 * v 1 + v 2 * v 2 := by
    simp [dot, Problem.n, demoPb, Csc.lit, sum_range_succ]
  rw [e, e2]
  nlinarith [mul_self_nonneg (2 * v 0 + v 1), mul_self_nonneg (v 1 + 2 * v 2),
    mul_self_nonneg (v 0), mul_self_nonneg (v 2)]

theorem tinyPb_strong : (tinyPb K).Strong 1 := by
  intro v
  simp [dot, Csc.mulVec, Problem.n, tinyPb, Csc.lit, Csc.entry, sum_Ico_eq_sum_range]

theorem one_gt_small : (1 : K) / 10 ^ 14 < 1 := by
  rw [div_lt_one (by positivity)]; norm_num

/-- C55 for the demo, which has an equality constraint and an ordering that is not the identity. -/
example : ∃ (q0 qp' : QP ℝ) (o : Settings ℝ), Started failAmd (demoArgs ℝ) (demoPb ℝ) q0 ∧
    solveBody { q0 with options := o } = .ok (qp', false) ∧
    ∃ M p L d e, qp'.kkt.Factored (demoPb ℝ).N M p L d e ∧
      (∀ r, r < (demoPb ℝ).N → p r < 3 → 1 ≤ d r) ∧
      (∀ r, r < (demoPb ℝ).N → 3 ≤ p r → d r < 0) := by
  obtain ⟨q0, h⟩ := demo_started ℝ
  obtain ⟨o, qp', x, y, z, s, hi, hb⟩ := step_exists h .start
  obtain ⟨M, p, L, d, e, f1, _, _, f2, f3, _⟩ := C55_pivots_step h demoPb_symm one_gt_small
    demoPb_strong (.options o .start) hb hi
  exact ⟨q0, qp', o, h, hb, M, p, L, d, e, f1, f2, f3⟩

/-- C55 for the one-variable program: the factorisation of setup is exact. -/
example : ∃ q0 : QP ℝ, Started failAmd (tinyArgs ℝ) (tinyPb ℝ) q0 ∧
    q0.kkt.Exact (tinyPb ℝ).N := by
  obtain ⟨q0, h⟩ := tiny_started ℝ
  exact ⟨q0, h, C55_exact_setup h tiny_symm one_gt_small tinyPb_strong rfl⟩

/-- `minimise -x subject to x ≤ 1`, a linear program: `P` stores nothing. -/
def tinyLp (K : Type) [Field K] : Problem K :=
  { tinyPb K with P := .lit 1 1 [0, 0] [] [], c := fun _ => -1 }

theorem tinyLp_wf : (tinyLp K).WF where
  P := by
    refine ⟨rfl, ?_, ?_⟩
    · intro c hc; simp only [tinyLp, Csc.lit] at hc ⊢; interval_cases c; decide
    · intro k hk
      have hk : k < 0 := hk
      omega
  A := tinyPb_wf.A
  G := tinyPb_wf.G
  Pm := rfl
  An := rfl
  Gn := rfl
  rows := tinyPb_wf.rows
  m_pos := tinyPb_wf.m_pos

/-- C56 for it, with the natural ordering: setup works with the pivot `-1e-7`, and so does a first
iteration. -/
example : ∃ (q0 qp' : QP ℝ) (o : Settings ℝ), QP_SETUP failAmd
      ((tinyLp ℝ).args (some (Buf.ofFn 2 (fun i => (i : Int))))) = .ok q0 ∧
    solveBody { q0 with options := o } = .ok (qp', false) ∧
    (∃ M p L d e, q0.kkt.Factored 2 M p L d e ∧ d 0 = -(1 / 10 ^ 7)) ∧
    ∃ M p L d e, qp'.kkt.Factored 2 M p L d e ∧ d 0 = -(1 / 10 ^ 7) := by
  have hg : ((tinyLp ℝ).args (some (Buf.ofFn 2 (fun i => (i : Int))))).Give (tinyLp ℝ) :=
    Problem.args_give _ _ (fun _ => rfl)
  have hs : PermSource failAmd (some (Buf.ofFn 2 (fun i => (i : Int))))
      ((tinyLp ℝ).args (some (Buf.ofFn 2 (fun i => (i : Int))))).p (tinyLp ℝ) :=
    Or.inl ⟨_, _, _, rfl, idPair 2, Buf.has_ofFn _ _⟩
  obtain ⟨q0, h0⟩ := C26_setup tinyLp_wf hg hs
  have h : Started failAmd ((tinyLp ℝ).args (some (Buf.ofFn 2 (fun i => (i : Int)))))
    (tinyLp ℝ) q0 := ⟨tinyLp_wf, hg, hs, h0⟩
  obtain ⟨o, qp', x, y, z, s, hi, hb⟩ := step_exists h .start
  have hsym : (tinyLp ℝ).P.Symm := by
    intro r c hr hc
    simp only [tinyLp, Csc.lit] at hr hc
    interval_cases r; interval_cases c; rfl
  have hz : (tinyLp ℝ).P.entry 0 0 = 0 := by simp [tinyLp, Csc.lit, Csc.entry]
  obtain ⟨M, p, L, d, e, f1, _, _, f2, _⟩ :=
    C56_zero_diagonal_setup (j := 0) h rfl rfl Nat.zero_lt_one hz
  obtain ⟨e', _, _, _, _, _, ⟨M', p', L', d', k1, _, k2⟩, _⟩ :=
    C56_zero_diagonal_step (j := 0) h hsym rfl rfl Nat.zero_lt_one hz (.options o .start) hb hi
  exact ⟨q0, qp', o, h0, hb, ⟨M, p, L, d, e, f1, f2⟩, M', p', L', d', e', k1, k2⟩

end Verif
