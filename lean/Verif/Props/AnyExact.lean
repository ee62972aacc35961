import Verif.Props.EqExact

/-!
# C99: exactly when the factorisation is exact, for any symmetric `P`
-/

set_option linter.unusedSectionVars false

namespace Verif

open Finset

/-! ## Specification -/

section Spec

variable {K : Type} [Field K] [LinearOrder K]

/-- Row `i` of the KKT matrix with diagonal `dd` in its last block, times the vector `v`. -/
def Problem.kktRow (pb : Problem K) (dd v : Nat → K) (i : Nat) : K :=
  ∑ c ∈ range pb.N, kktEntry pb.P pb.A pb.G dd i c * v c

/-- `v` is the elimination vector of row `i`, which is at position `r` of the order `P`: one at the row, zero at later
rows, and annihilated by all earlier rows. -/
structure Problem.Eliminates (pb : Problem K) (P : Buf Int) (dd : Nat → K) (r i : Nat) (v : Nat → K) : Prop where
  one : v i = 1
  supp : ∀ c, c < pb.N → c ≠ i → ¬ Earlier P r c → v c = 0
  row : ∀ c, c < pb.N → Earlier P r c → pb.kktRow dd v c = 0

/-- The product of every row with its elimination vector, the pivot of exact elimination, exceeds `1e-14` in
magnitude. -/
def Problem.PivotsOk (pb : Problem K) (P : Buf Int) (dd : Nat → K) : Prop :=
  ∀ r i v, r < pb.N → i < pb.N → P[r]? = some (some (i : Int)) → pb.Eliminates P dd r i v →
    1 / 10 ^ 14 < |pb.kktRow dd v i|

end Spec

section Exact

variable {K : Type} [Field K] [LinearOrder K] [IsStrictOrderedRing K] [Scalar K] [LawfulScalar K]

/-- The facts about elimination vectors of one row, in the order of the factorisation. -/
theorem eliminates_iff {pb : Problem K} {dd : Nat → K} {p q : Nat → Nat} {P : Buf Int} (hp : PermPair pb.N p q)
    (hP : Buf.Has P pb.N (fun i => ((p i : Nat) : Int))) {r : Nat} (hr : r < pb.N) {v : Nat → K} :
    pb.Eliminates P dd r (p r) v ↔ v (p r) = 1 ∧ (∀ c, c < pb.N → r < q c → v c = 0) ∧
      ∀ c, c < pb.N → q c < r → ∑ c' ∈ range pb.N, kktEntry pb.P pb.A pb.G dd c c' * v c' = 0 := by
  constructor
  · intro h
    refine ⟨h.one, fun c hc hq => h.supp c hc ?_ ?_, fun c hc hq => h.row c hc ((earlier_iff hp hP hr hc).mpr hq)⟩
    · rintro rfl
      rw [hp.qp r hr] at hq
      omega
    · rw [earlier_iff hp hP hr hc]; omega
  · rintro ⟨h1, h2, h3⟩
    refine ⟨h1, fun c hc hne hE => h2 c hc ?_, fun c hc hE => h3 c hc ((earlier_iff hp hP hr hc).mp hE)⟩
    rw [earlier_iff hp hP hr hc] at hE
    rcases Nat.lt_trichotomy (q c) r with h | h | h
    · exact absurd h hE
    · exact absurd (by rw [← h, hp.pq c hc]) hne
    · exact h

theorem kkt_any_iff {pb : Problem K} (hpb : pb.WF) (hsym : pb.P.Symm) {dd : Nat → K}
    {p q : Nat → Nat} {k : Kkt K} {t : FSt K}
    (hk : KktSym pb.N (kktCsc pb.P pb.A pb.G dd) p q k)
    (hf : KktFac pb.N (kktCsc pb.P pb.A pb.G dd) p q t k) :
    (k.Exact pb.N ↔ pb.PivotsOk k.P dd) ∧
    (k.Exact pb.N → ∃ d, Buf.Has k.D pb.N d ∧ ∀ r i v, r < pb.N → k.P[r]? = some (some ((i : Nat) : Int)) →
      pb.Eliminates k.P dd r i v → d r = pb.kktRow dd v i) := by
  have hp := hk.perm
  have hs : ∀ r c, kktEntry pb.P pb.A pb.G dd r c = kktEntry pb.P pb.A pb.G dd c r :=
    fun r c => kktEntry_symm hsym dd r c
  obtain ⟨raw, hF, u1, u0, hM, g2⟩ := kkt_raw hpb hk hf
  have hkeep : k.Exact pb.N → ∀ r, r < pb.N → t.D r = raw r := by
    rintro ⟨M', p', L', d', hf'⟩ r hr
    have h2 := hF.unique hf' hp (hp.p_lt r hr)
    unfold regDiag at h2
    rw [hp.qp r hr] at h2
    exact sub_eq_zero.mp h2
  have at_r : ∀ r i : Nat, r < pb.N → k.P[r]? = some (some ((i : Nat) : Int)) → i = p r := by
    intro r i hr h
    rw [hk.P r hr] at h
    have := Option.some.inj (Option.some.inj h)
    simp only at this
    omega
  have val : k.Exact pb.N → ∀ r v, r < pb.N → pb.Eliminates k.P dd r (p r) v → raw r = pb.kktRow dd v (p r) := by
    intro hex r v hr he
    obtain ⟨v1, v0, row⟩ := (eliminates_iff hp hk.P hr).mp he
    exact (pivot_any hp u1 u0 hM hs hr (fun s hs' => hkeep hex s (by omega))).2 v v1 v0 row
  refine ⟨⟨?_, ?_⟩, ?_⟩
  · intro hex r i v hr hi hpr he
    obtain rfl := at_r r i hr hpr
    rw [← val hex r v hr he]
    by_contra hcon
    rw [not_lt] at hcon
    have h2 := g2 r hr
    rw [if_pos hcon, hkeep hex r hr] at h2
    split at h2
    · rw [h2, abs_neg, abs_of_pos (by positivity)] at hcon
      norm_num at hcon
    · rw [h2, abs_of_pos (by positivity)] at hcon
      norm_num at hcon
  · intro hok
    have keep : ∀ r, r < pb.N → t.D r = raw r := by
      intro r
      induction r using Nat.strong_induction_on with
      | _ r ih =>
      intro hr
      obtain ⟨⟨v, hv⟩, huse⟩ := pivot_any hp u1 u0 hM hs hr (fun s hs' => ih s hs' (by omega))
      have h1 := hok r (p r) v hr (hp.p_lt r hr) (hk.P r hr) ((eliminates_iff hp hk.P hr).mpr hv)
      rw [g2 r hr, if_neg]
      rw [huse v hv.1 hv.2.1 hv.2.2, not_le]
      exact h1
    refine hF.exact (fun r hr => hp.p_lt r hr) fun i hi => ?_
    unfold regDiag
    rw [keep _ (hp.q_lt i hi), sub_self]
  · intro hex
    refine ⟨t.D, hF.fac.D, fun r i v hr hpr he => ?_⟩
    obtain rfl := at_r r i hr hpr
    rw [hkeep hex r hr, val hex r v hr he]

/-- **C99**, setup: the factorisation is exact if and only if all pivots of exact elimination exceed `1e-14` in
magnitude, and then these are the pivots stored. -/
theorem C99_setup {amd : Amd} {a : SetupArgs K} {pb : Problem K} {q0 : QP K}
    (h : Started amd a pb q0) (hsym : pb.P.Symm) :
    (q0.kkt.Exact pb.N ↔ pb.PivotsOk q0.kkt.P (fun _ => -1)) ∧
    (q0.kkt.Exact pb.N → ∃ d, Buf.Has q0.kkt.D pb.N d ∧ ∀ r i v, r < pb.N →
      q0.kkt.P[r]? = some (some ((i : Nat) : Int)) → pb.Eliminates q0.kkt.P (fun _ => -1) r i v →
      d r = pb.kktRow (fun _ => -1) v i) := by
  obtain ⟨p, q, hd⟩ := h.done
  obtain ⟨t, hfac, _⟩ := hd.iter
  have := kkt_any_iff h.wf hsym (dd := fun _ => Scalar.dec (-1) 0) hd.kkt hfac
  simpa only [dec_neg_one] using this

/-- **C99**, iterations: the same for every iteration that takes a step. -/
theorem C99_step {amd : Amd} {a : SetupArgs K} {pb : Problem K} {q0 qp qp' : QP K}
    (h : Started amd a pb q0) (hsym : pb.P.Symm) (hr : Reach q0 qp)
    (hb : solveBody qp = .ok (qp', false)) {x y z s : Nat → K} (hi : qp.Iter pb x y z s) :
    (qp'.kkt.Exact pb.N ↔ pb.PivotsOk q0.kkt.P (fun i => -(s i / z i))) ∧
    (qp'.kkt.Exact pb.N → ∃ d, Buf.Has qp'.kkt.D pb.N d ∧ ∀ r i v, r < pb.N →
      q0.kkt.P[r]? = some (some ((i : Nat) : Int)) → pb.Eliminates q0.kkt.P (fun i => -(s i / z i)) r i v →
      d r = pb.kktRow (fun i => -(s i / z i)) v i) := by
  obtain ⟨p, q, hs, _⟩ := h.sinv hr
  obtain ⟨_, _, _, hsd⟩ := h.sinv (.iteration hr hb)
  obtain ⟨t, hst, _⟩ := (hs.bodyOut h.wf hb hi).step rfl
  simp only at hst
  have esl : slackD z s = fun i => -(s i / z i) := by
    funext i; unfold slackD; rw [neg_div]
  have := kkt_any_iff h.wf hsym (dd := slackD z s) hst.sym hst.fac
  rw [hsd.perm, esl] at this
  exact this

end Exact

/-! ## Examples -/

theorem tinyLp_symm : (tinyLp ℝ).P.Symm := by
  intro r c hr hc
  simp only [tinyLp, Csc.lit] at hr hc
  interval_cases r; interval_cases c; rfl

theorem tinyLp_row (dd v : Nat → ℝ) : (tinyLp ℝ).kktRow dd v 0 = v 1 ∧ (tinyLp ℝ).kktRow dd v 1 = v 0 + dd 0 * v 1 := by
  constructor <;>
  simp [Problem.kktRow, Problem.N, Problem.n, Problem.p, Problem.m, kktEntry, tinyLp, tinyPb, Csc.lit, Csc.empty,
    Csc.entry, sum_Ico_eq_sum_range, sum_range_succ]

/-- The linear program `max x, x ≤ 1` with its constraint eliminated first. -/
theorem tinyLp_started (p q : Nat → Nat) (hp : PermPair 2 p q) :
    ∃ q0, Started failAmd ((tinyLp ℝ).args (some (Buf.ofFn 2 (fun i => (p i : Int))))) (tinyLp ℝ) q0 ∧
      Buf.Has q0.kkt.P 2 (fun i => ((p i : Nat) : Int)) := by
  have hg : ((tinyLp ℝ).args (some (Buf.ofFn 2 (fun i => (p i : Int))))).Give (tinyLp ℝ) :=
    Problem.args_give _ _ (fun _ => rfl)
  have hs : PermSource failAmd (some (Buf.ofFn 2 (fun i => (p i : Int))))
      ((tinyLp ℝ).args (some (Buf.ofFn 2 (fun i => (p i : Int))))).p (tinyLp ℝ) :=
    Or.inl ⟨_, _, _, rfl, hp, Buf.has_ofFn _ _⟩
  obtain ⟨q0, h0⟩ := C26_setup tinyLp_wf hg hs
  have h : Started failAmd _ (tinyLp ℝ) q0 := ⟨tinyLp_wf, hg, hs, h0⟩
  refine ⟨q0, h, ?_⟩
  rw [((C54_ordering_used h).1 _ rfl).1]
  exact Buf.has_ofFn _ _

/-- C99 for a linear program: exact in setup and in the first iteration if the constraint is eliminated first, not
exact if the variable is. -/
example : (∃ (q0 qp qp' : QP ℝ) (a : SetupArgs ℝ), Started failAmd a (tinyLp ℝ) q0 ∧ q0.kkt.Exact 2 ∧ Reach q0 qp ∧
      solveBody qp = .ok (qp', false) ∧ ((∀ x y z s, qp.Iter (tinyLp ℝ) x y z s →
        1 / 10 ^ 14 < s 0 / z 0 ∧ s 0 / z 0 < 10 ^ 14) → qp'.kkt.Exact 2)) ∧
    ∃ (q0 : QP ℝ) (a : SetupArgs ℝ), Started failAmd a (tinyLp ℝ) q0 ∧ ¬ q0.kkt.Exact 2 := by
  have hN : (tinyLp ℝ).N = 2 := rfl
  constructor
  · have hpp : PermPair 2 (fun i => 1 - i) (fun i => 1 - i) :=
      ⟨fun i hi => by omega, fun i hi => by omega, fun i hi => by omega, fun i hi => by omega⟩
    obtain ⟨q0, h, hP⟩ := tinyLp_started _ _ hpp
    have ok : ∀ dd : Nat → ℝ, 1 / 10 ^ 14 < -(dd 0) → -(dd 0) < 10 ^ 14 → (tinyLp ℝ).PivotsOk q0.kkt.P dd := by
      intro dd d1 d2 r i v hr hi hpr he
      have dneg : dd 0 < 0 := by
        have : (0 : ℝ) < 1 / 10 ^ 14 := by positivity
        linarith
      have hr : r < 2 := hr
      rw [hP r hr] at hpr
      have e := Option.some.inj (Option.some.inj hpr)
      simp only at e
      have e : 1 - r = i := by omega
      subst e
      obtain ⟨v1, v0, row⟩ := (eliminates_iff (pb := tinyLp ℝ) (p := fun i => 1 - i) (q := fun i => 1 - i) hpp hP hr).mp he
      have hsum : ∀ c, ∑ c' ∈ range (tinyLp ℝ).N, kktEntry (tinyLp ℝ).P (tinyLp ℝ).A (tinyLp ℝ).G dd c c' * v c'
        = (tinyLp ℝ).kktRow dd v c := fun _ => rfl
      interval_cases r
      · have z0 : v 0 = 0 := v0 0 (by decide) (by decide)
        have o1 : v 1 = 1 := v1
        show _ < |(tinyLp ℝ).kktRow dd v 1|
        rw [(tinyLp_row dd v).2, z0, o1, zero_add, mul_one, abs_of_neg dneg]
        exact d1
      · have o0 : v 0 = 1 := v1
        have z1 := row 1 (by decide) (by decide)
        rw [hsum, (tinyLp_row dd v).2, o0] at z1
        show _ < |(tinyLp ℝ).kktRow dd v 0|
        rw [(tinyLp_row dd v).1]
        have hv : v 1 = 1 / (-(dd 0)) := by
          rw [eq_div_iff (by linarith)]; linarith
        rw [hv, abs_of_pos (by apply one_div_pos.mpr; linarith)]
        exact one_div_lt_one_div_of_lt (by linarith) d2
    obtain ⟨o, qp', x, y, z, s, hi, hb⟩ := step_exists h .start
    refine ⟨q0, _, qp', _, h, (C99_setup h tinyLp_symm).1.mpr (ok _ (by norm_num) (by norm_num)), .options o .start, hb,
      fun hrat => ?_⟩
    obtain ⟨r1, r2⟩ := hrat x y z s hi
    exact (C99_step h tinyLp_symm (.options o .start) hb hi).1.mpr (ok _ (by simpa using r1) (by simpa using r2))
  · obtain ⟨q0, h, hP⟩ := tinyLp_started _ _ (idPair 2)
    refine ⟨q0, _, h, fun hex => ?_⟩
    have := (C99_setup h tinyLp_symm).1.mp hex 0 0 (fun c => if c = 0 then 1 else 0) (by decide) (by decide)
      (hP 0 (by decide))
      { one := by simp
        supp := fun c _ hne _ => by simp [hne]
        row := fun c _ ⟨t, ht, _⟩ => absurd ht (by omega) }
    rw [(tinyLp_row _ _).1] at this
    simp at this
    norm_num at this

end Verif
