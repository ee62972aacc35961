import Verif.SpecRatio
import Verif.Props.Round
import Verif.Lemmas.Steps
import Verif.Props.Safety

/-!
# Slacks and multipliers stay positive in rounded arithmetic (C66)
-/

set_option linter.unusedSectionVars false

namespace Verif

open Ieee

section

variable {K : Type} [Zero K] [One K] [Add K] [Sub K] [Mul K] [Div K] [Neg K] [Scalar K] [Ieee K]
  [IeeeRatio K]

/-- The loop of the ratio test. -/
theorem ratio_round (m : Nat) (s d : Nat → K) (hs : ∀ i, i < m → fin (s i) ∧ 0 < toR (s i))
    (hd : ∀ i, i < m → fin (d i)) (hu : u K ≤ 1 / 2 ^ 20) (he : eta K ≤ 1 / 10 ^ 15) :
    let r := foldI 0 m ((Scalar.dec 10000000000 0 : K), (0 : Int)) (ratioStep s d)
    fin r.1 ∧ |toR r.1| ≤ 10 ^ 10 ∧ (r.2 = 0 → toR r.1 = 10 ^ 10) ∧
      ∀ i, i < m → toR (d i) < 0 → 10 ^ 12 ≤ toR (s i) / -toR (d i) ∨
        toR r.1 ≤ (1 + u K) * (toR (s i) / -toR (d i)) + eta K := by
  have he0 := eta_nonneg (K := K)
  have hu0 := u_nonneg (K := K)
  refine foldI_induct (lo := 0) (hi := m) (Nat.zero_le _)
    (fun j (r : K × Int) => fin r.1 ∧ |toR r.1| ≤ 10 ^ 10 ∧ (r.2 = 0 → toR r.1 = 10 ^ 10) ∧
      ∀ i, i < j → toR (d i) < 0 → 10 ^ 12 ≤ toR (s i) / -toR (d i) ∨
        toR r.1 ≤ (1 + u K) * (toR (s i) / -toR (d i)) + eta K) ?_ ?_
  · obtain ⟨h1, h2⟩ := IeeeRatio.big (K := K)
    refine ⟨h1, ?_, fun _ => h2, by simp⟩
    rw [h2]
    norm_num
  · rintro j ⟨a, fl⟩ _ hj ⟨h1, h2, h3, h4⟩
    simp only at h1 h2 h3 h4
    obtain ⟨hsf, hs0⟩ := hs j hj
    have hdf := hd j hj
    have hz := zero (K := K)
    unfold ratioStep
    by_cases hd0 : toR (d j) < 0
    · have eR : toR (-(s j)) / toR (d j) = toR (s j) / -toR (d j) := by
        rw [(neg _ (IeeeRatio.neg_fin _ hsf)).2, neg_div, div_neg]
      have hR : 0 < toR (s j) / -toR (d j) := div_pos hs0 (by linarith)
      have c1 : Scalar.ltb (d j) (0 : K) = true := (ltb _ _ hdf hz.1).mpr (by rw [hz.2]; exact hd0)
      by_cases hf : fin (-(s j) / d j)
      · have hq := (div _ _ hf hdf hd0.ne).2
        rw [eR, abs_of_pos hR] at hq
        obtain ⟨q1, q2⟩ := abs_le.mp hq
        by_cases c2 : Scalar.ltb (-(s j) / d j) a = true
        · have c3 := (ltb _ _ hf h1).mp c2
          obtain ⟨n1, n2⟩ := IeeeRatio.neg_div _ _ hf
          simp only [c1, c2, Bool.and_self, if_true]
          rw [n2]
          refine ⟨n1, ?_, by simp, ?_⟩
          · rw [abs_le] at h2 ⊢
            have : u K * (toR (s j) / -toR (d j)) ≤ toR (s j) / -toR (d j) :=
              mul_le_of_le_one_left hR.le (hu.trans (by norm_num))
            have h5 : (1 : ℝ) / 10 ^ 15 ≤ 10 ^ 10 := by norm_num
            constructor <;> linarith [h2.2]
          · intro i hi hdi
            rcases Nat.lt_succ_iff_lt_or_eq.mp hi with h | rfl
            · rcases h4 i h hdi with h5 | h5
              · exact Or.inl h5
              · exact Or.inr (by linarith)
            · exact Or.inr (by linarith)
        · have c3 : ¬ toR (-(s j) / d j) < toR a := fun hc => c2 ((ltb _ _ hf h1).mpr hc)
          have c2' : Scalar.ltb (-(s j) / d j) a = false := by simpa using c2
          simp only [c1, c2', Bool.and_false, Bool.false_eq_true, if_false]
          refine ⟨h1, h2, h3, ?_⟩
          intro i hi hdi
          rcases Nat.lt_succ_iff_lt_or_eq.mp hi with h | rfl
          · exact h4 i h hdi
          · exact Or.inr (by linarith)
      · obtain ⟨b1, b2⟩ := IeeeRatio.div_big _ _ (IeeeRatio.neg_fin _ hsf) hdf hd0.ne hf
        rw [eR] at b1 b2
        have c2 := b2 hR.le a h1
        simp only [c1, c2, Bool.and_false, Bool.false_eq_true, if_false]
        refine ⟨h1, h2, h3, ?_⟩
        intro i hi hdi
        rcases Nat.lt_succ_iff_lt_or_eq.mp hi with h | rfl
        · exact h4 i h hdi
        · rw [abs_of_pos hR] at b1
          exact Or.inl b1
    · have c1 : Scalar.ltb (d j) (0 : K) = false := by
        by_contra hc
        have hc : Scalar.ltb (d j) (0 : K) = true := by simpa using hc
        have := (ltb _ _ hdf hz.1).mp hc
        rw [hz.2] at this
        exact hd0 this
      simp only [c1, Bool.false_and, Bool.false_eq_true, if_false]
      refine ⟨h1, h2, h3, ?_⟩
      intro i hi hdi
      rcases Nat.lt_succ_iff_lt_or_eq.mp hi with h | rfl
      · exact h4 i h hdi
      · exact absurd hdi hd0

/-- The full step of the ratio test. -/
theorem stepF_round (m : Nat) (s d : Nat → K) (hs : ∀ i, i < m → fin (s i) ∧ 0 < toR (s i))
    (hd : ∀ i, i < m → fin (d i)) (hu : u K ≤ 1 / 2 ^ 20) (he : eta K ≤ 1 / 10 ^ 15) :
    fin (stepF m s d) ∧ |toR (stepF m s d)| ≤ 10 ^ 10 ∧
      ∀ i, i < m → toR (d i) < 0 → 10 ^ 9 ≤ toR (s i) / -toR (d i) ∨
        toR (stepF m s d) ≤ (1 + u K) * (toR (s i) / -toR (d i)) + eta K := by
  have h := ratio_round m s d hs hd hu he
  dsimp only at h
  obtain ⟨h1, h2, h3, h4⟩ := h
  have he0 := eta_nonneg (K := K)
  have hu0 := u_nonneg (K := K)
  unfold stepF
  dsimp only
  split
  · rename_i hfl
    obtain ⟨o1, o2⟩ := IeeeRatio.one (K := K)
    refine ⟨o1, by rw [o2]; norm_num, ?_⟩
    intro i hi hdi
    left
    have hR : 0 < toR (s i) / -toR (d i) := div_pos (hs i hi).2 (by linarith)
    rcases h4 i hi hdi with h5 | h5
    · exact le_trans (by norm_num) h5
    · rw [h3 hfl] at h5
      have : u K * (toR (s i) / -toR (d i)) ≤ 1 * (toR (s i) / -toR (d i)) :=
        mul_le_mul_of_nonneg_right (hu.trans (by norm_num)) hR.le
      have h6 : (1 : ℝ) / 10 ^ 15 ≤ 1 := by norm_num
      have h7 : (10 : ℝ) ^ 10 = 10 * 10 ^ 9 := by norm_num
      linarith
  · refine ⟨h1, h2, ?_⟩
    intro i hi hdi
    rcases h4 i hi hdi with h5 | h5
    · exact Or.inl (le_trans (by norm_num) h5)
    · exact Or.inr h5

/-- The accepted step length is at most one and at most the rounded product with `0.99`. -/
theorem acceptF_round {a : K} (ha : fin a) (hb : |toR a| ≤ 10 ^ 10) (hu : u K ≤ 1 / 2 ^ 20)
    (he : eta K ≤ 1 / 10 ^ 15) :
    fin (acceptF a) ∧ toR (acceptF a) ≤ 1 ∧ fin (Scalar.dec 99 2 * a) ∧
      toR (acceptF a) ≤ toR (Scalar.dec 99 2 * a) := by
  have he0 := eta_nonneg (K := K)
  have hu0 := u_nonneg (K := K)
  obtain ⟨t1, t2⟩ := dec (K := K) 99 2 (by norm_num)
  obtain ⟨o1, o2⟩ := dec_int (K := K) 1 (by norm_num)
  rw [Int.cast_one] at o2
  have t3 : |toR (Scalar.dec 99 2 : K)| ≤ 1 := by
    obtain ⟨t4, t5⟩ := abs_le.mp t2
    have e1 : |(((99 : ℤ) : ℝ)) / 10 ^ 2| = 99 / 100 := by norm_num
    have e2 : (((99 : ℤ) : ℝ)) / 10 ^ 2 = 99 / 100 := by norm_num
    rw [e1, e2] at t4 t5
    rw [abs_le]
    have h1 : u K * (99 / 100) ≤ 1 / 2 ^ 20 * (99 / 100) := mul_le_mul_of_nonneg_right hu (by norm_num)
    have h2 : (1 : ℝ) / 2 ^ 20 * (99 / 100) + 1 / 10 ^ 15 ≤ 1 / 100 := by norm_num
    constructor <;> linarith
  have f := IeeeRatio.mul_small _ _ t1 ha t3 (hb.trans (by norm_num))
  unfold acceptF fmin
  by_cases hc : Scalar.ltb (Scalar.dec 99 2 * a) (Scalar.dec 1 0 : K) = true
  · rw [if_pos hc]
    have := (ltb _ _ f o1).mp hc
    rw [o2] at this
    exact ⟨f, this.le, f, le_rfl⟩
  · rw [if_neg hc]
    refine ⟨o1, o2.le, f, ?_⟩
    by_contra h
    exact hc ((ltb _ _ f o1).mpr (not_le.mp h))

/-- After a step along `d`, shortened by the ratio test, a component keeps at least a two-hundredth of its
value, if neither it nor the step length is near the underflow threshold. -/
theorem accept_round {m : Nat} {s d : Nat → K} (hs : ∀ i, i < m → fin (s i) ∧ 0 < toR (s i))
    (hu : u K ≤ 1 / 2 ^ 20) (he : eta K ≤ 1 / 10 ^ 15)
    (hf : ∀ i, i < m → fin (s i + d i * acceptF (stepF m s d)))
    (ha : 10 ^ 4 * eta K ≤ toR (acceptF (stepF m s d))) {i : Nat} (hi : i < m)
    (hse : 10 ^ 4 * eta K ≤ toR (s i)) :
    toR (s i) / 200 ≤ toR (s i + d i * acceptF (stepF m s d)) := by
  have he0 := eta_nonneg (K := K)
  have hu0 := u_nonneg (K := K)
  have hd : ∀ i, i < m → fin (d i) := fun i hi => (mul _ _ (add _ _ (hf i hi)).2.1).1
  obtain ⟨f1, f2, f3⟩ := stepF_round m s d hs hd hu he
  obtain ⟨g1, g2, g3, g4⟩ := acceptF_round f1 f2 hu he
  set al := acceptF (stepF m s d) with hal
  set A := stepF m s d with hA
  obtain ⟨-, hpf, ha1⟩ := add _ _ (hf i hi)
  obtain ⟨-, -, hm1⟩ := mul _ _ hpf
  obtain ⟨hsf, hs0⟩ := hs i hi
  have hal0 : 0 ≤ toR al := le_trans (by positivity) ha
  have hU : (1 : ℝ) / 2 ^ 20 ≤ 1 / 10 ^ 6 := by norm_num
  have hu' : u K ≤ 1 / 10 ^ 6 := hu.trans hU
  -- enough: the rounded product removes at most 99.2 percent
  have key : -(992 / 1000) * toR (s i) ≤ toR (d i * al) := by
    by_cases hd0 : toR (d i) < 0
    · have hR : 0 < toR (s i) / -toR (d i) := div_pos hs0 (by linarith)
      set R := toR (s i) / -toR (d i) with hRd
      have eS : toR (d i) * R = -toR (s i) := by
        have h0 : -toR (d i) ≠ 0 := by linarith
        rw [hRd, mul_div_assoc', div_eq_iff h0]
        ring
      -- the step length is at most 99.1 percent of the ratio
      have hle : toR al ≤ 991 / 1000 * R := by
        rcases f3 i hi hd0 with h5 | h5
        · have : (1 : ℝ) ≤ 991 / 1000 * 10 ^ 9 := by norm_num
          nlinarith
        · obtain ⟨-, -, q⟩ := mul _ _ g3
          obtain ⟨t1, t2⟩ := dec (K := K) 99 2 (by norm_num)
          have e1 : |(((99 : ℤ) : ℝ)) / 10 ^ 2| = 99 / 100 := by norm_num
          have e2 : (((99 : ℤ) : ℝ)) / 10 ^ 2 = 99 / 100 := by norm_num
          rw [e1, e2] at t2
          obtain ⟨t4, t5⟩ := abs_le.mp t2
          set t := toR (Scalar.dec 99 2 : K) with ht
          have hE : (1 : ℝ) / 10 ^ 15 ≤ 1 / 10 ^ 6 := by norm_num
          have ht0 : 0 < t := by nlinarith
          have ht1 : t ≤ 990003 / 1000000 := by nlinarith
          by_cases hA0 : 0 ≤ toR A
          · rw [abs_of_nonneg (mul_nonneg ht0.le hA0)] at q
            have q2 := (abs_le.mp q).2
            have b1 : toR al ≤ (1 + u K) * (t * toR A) + eta K := by linarith
            have b2 : t * toR A ≤ t * ((1 + u K) * R + eta K) := mul_le_mul_of_nonneg_left h5 ht0.le
            have b3 : t * ((1 + u K) * R + eta K) ≤ 990003 / 1000000 * ((1 + u K) * R + eta K) :=
              mul_le_mul_of_nonneg_right ht1 (by positivity)
            have b4 : (1 + u K) * R ≤ (1 + 1 / 10 ^ 6) * R :=
              mul_le_mul_of_nonneg_right (by linarith) hR.le
            have b5 : t * toR A ≤ 990003 / 1000000 * ((1 + 1 / 10 ^ 6) * R + eta K) := by linarith
            have b6 : (1 + u K) * (t * toR A)
                ≤ (1 + 1 / 10 ^ 6) * (990003 / 1000000 * ((1 + 1 / 10 ^ 6) * R + eta K)) :=
              mul_le_mul (by linarith) b5 (mul_nonneg ht0.le hA0) (by norm_num)
            norm_num at b6 ha
            nlinarith
          · exfalso
            have hA0 := not_le.mp hA0
            rw [abs_of_neg (mul_neg_of_pos_of_neg ht0 hA0)] at q
            have q2 := (abs_le.mp q).2
            have b1 : t * toR A < 0 := mul_neg_of_pos_of_neg ht0 hA0
            have b2 : u K * -(t * toR A) ≤ 1 / 10 ^ 6 * -(t * toR A) :=
              mul_le_mul_of_nonneg_right hu' (by linarith)
            norm_num at ha b2
            linarith
      have hprod : -(991 / 1000) * toR (s i) ≤ toR (d i) * toR al := by
        have := mul_le_mul_of_nonpos_left hle hd0.le
        have e : toR (d i) * (991 / 1000 * R) = 991 / 1000 * (toR (d i) * R) := by ring
        rw [e, eS] at this
        linarith
      have hnp : toR (d i) * toR al ≤ 0 := mul_nonpos_of_nonpos_of_nonneg hd0.le hal0
      rw [abs_of_nonpos hnp] at hm1
      have q1 := (abs_le.mp hm1).1
      have b2 : u K * -(toR (d i) * toR al) ≤ 1 / 10 ^ 6 * -(toR (d i) * toR al) :=
        mul_le_mul_of_nonneg_right hu' (by linarith)
      norm_num at hse b2
      linarith
    · have := mulNonneg _ _ hpf (mul_nonneg (not_lt.mp hd0) hal0)
      linarith
  have hsum : 8 / 1000 * toR (s i) ≤ toR (s i) + toR (d i * al) := by linarith
  have hpos : 0 ≤ toR (s i) + toR (d i * al) := le_trans (by positivity) hsum
  rw [abs_of_nonneg hpos] at ha1
  have q1 := (abs_le.mp ha1).1
  have : u K * (toR (s i) + toR (d i * al)) ≤ 1 / 10 ^ 6 * (toR (s i) + toR (d i * al)) :=
    mul_le_mul_of_nonneg_right hu' hpos
  norm_num at this
  linarith

/-! ## One iteration -/

/-- **C66**, one iteration: if before the iteration slacks and multipliers are positive and well above the
underflow threshold, the step lengths reported are well above it too, and the new slacks and multipliers are
finite, then each of them is at least a two-hundredth of its old value. -/
theorem C66_step {amd : Amd} {a : SetupArgs K} {pb : Problem K} {q0 qp qp' : QP K}
    (h : Started amd a pb q0) (hu : u K ≤ 1 / 2 ^ 20) (he : eta K ≤ 1 / 10 ^ 15)
    (hr : Reach q0 qp) (hb : solveBody qp = .ok (qp', false))
    {x y z s x' y' z' s' : Nat → K} (hi : qp.Iter pb x y z s) (hi' : qp'.Iter pb x' y' z' s')
    (hpos : ∀ i, i < pb.m → 0 < toR (s i) ∧ 0 < toR (z i))
    (hbig : ∀ i, i < pb.m → 10 ^ 4 * eta K ≤ toR (s i) ∧ 10 ^ 4 * eta K ≤ toR (z i))
    (hap : 10 ^ 4 * eta K ≤ toR qp'.stats.alpha_p) (had : 10 ^ 4 * eta K ≤ toR qp'.stats.alpha_d)
    (hfin : ∀ i, i < pb.m → fin (s' i) ∧ fin (z' i)) :
    ∀ i, i < pb.m → fin (s i) ∧ fin (z i) ∧ toR (s i) / 200 ≤ toR (s' i) ∧
      toR (z i) / 200 ≤ toR (z' i) := by
  obtain ⟨p, q, hs, _⟩ := h.sinv hr
  obtain ⟨t, hst, hopt, re, hstat⟩ := (hs.bodyOut h.wf hb hi).step rfl
  simp only at hst hopt hstat
  set D := stepDir pb p q t x y z s qp.options.sigma
  have eP : qp'.stats.alpha_p = alphaP pb s D := by rw [hstat]
  have eD : qp'.stats.alpha_d = alphaD pb z D := by rw [hstat]
  rw [eP] at hap
  rw [eD] at had
  have es : ∀ i, i < pb.m → s' i = s i + D.ds i * acceptF (stepF pb.m s D.ds) :=
    fun i hm => hi'.s.unique hst.iter.s hm
  have ez : ∀ i, i < pb.m → z' i = z i + D.dz i * acceptF (stepF pb.m z D.dz) :=
    fun i hm => hi'.z.unique hst.iter.z hm
  have fs : ∀ i, i < pb.m → fin (s i + D.ds i * acceptF (stepF pb.m s D.ds)) :=
    fun i hm => es i hm ▸ (hfin i hm).1
  have fz : ∀ i, i < pb.m → fin (z i + D.dz i * acceptF (stepF pb.m z D.dz)) :=
    fun i hm => ez i hm ▸ (hfin i hm).2
  have gs : ∀ i, i < pb.m → fin (s i) ∧ 0 < toR (s i) :=
    fun i hm => ⟨(add _ _ (fs i hm)).1, (hpos i hm).1⟩
  have gz : ∀ i, i < pb.m → fin (z i) ∧ 0 < toR (z i) :=
    fun i hm => ⟨(add _ _ (fz i hm)).1, (hpos i hm).2⟩
  intro i hm
  rw [es i hm, ez i hm]
  exact ⟨(gs i hm).1, (gz i hm).1, accept_round gs hu he fs hap hm (hbig i hm).1,
    accept_round gz hu he fz had hm (hbig i hm).2⟩

/-- **C66**, any number of iterations: after `k` iterations that end with finite slacks and multipliers, each
is at least `200^-k` of its first value and hence positive, if the first values are above `200^k` times the
underflow threshold and no step length falls near the threshold. -/
theorem C66_iterations {amd : Amd} {a : SetupArgs K} {pb : Problem K} {q0 qp qk : QP K}
    (h : Started amd a pb q0) (hu : u K ≤ 1 / 2 ^ 20) (he : eta K ≤ 1 / 10 ^ 15)
    (hr : Reach q0 qp) {k : Nat} (hk : Iterations k qp qk)
    (hal : ∀ j qj, 0 < j → j ≤ k → Iterations j qp qj →
      10 ^ 4 * eta K ≤ toR qj.stats.alpha_p ∧ 10 ^ 4 * eta K ≤ toR qj.stats.alpha_d)
    {x y z s x' y' z' s' : Nat → K} (hi : qp.Iter pb x y z s) (hi' : qk.Iter pb x' y' z' s')
    (hpos : ∀ i, i < pb.m → 0 < toR (s i) ∧ 0 < toR (z i))
    (hbig : ∀ i, i < pb.m → 200 ^ k * (10 ^ 4 * eta K) ≤ toR (s i) ∧
      200 ^ k * (10 ^ 4 * eta K) ≤ toR (z i))
    (hfin : ∀ i, i < pb.m → fin (s' i) ∧ fin (z' i)) :
    ∀ i, i < pb.m → 0 < toR (s' i) ∧ toR (s i) / 200 ^ k ≤ toR (s' i) ∧
      0 < toR (z' i) ∧ toR (z i) / 200 ^ k ≤ toR (z' i) := by
  have he0 := eta_nonneg (K := K)
  induction k generalizing qk x' y' z' s' with
  | zero =>
    cases hk
    intro i hm
    rw [hi'.s.unique hi.s hm, hi'.z.unique hi.z hm]
    simp only [pow_zero, div_one]
    exact ⟨(hpos i hm).1, le_rfl, (hpos i hm).2, le_rfl⟩
  | succ k ih =>
    cases hk with
    | @succ _ _ b _ h1 h2 =>
      have hrb := hr.iterations h1
      obtain ⟨p, q, hs, _⟩ := h.sinv hrb
      obtain ⟨xb, yb, zb, sb, hib⟩ := hs.iter
      have hfb : ∀ i, i < pb.m → fin (sb i) ∧ fin (zb i) := by
        obtain ⟨t, hst, _⟩ := (hs.bodyOut h.wf h2 hib).step rfl
        intro i hm
        obtain ⟨f1, f2⟩ := hfin i hm
        rw [hi'.s.unique hst.iter.s hm] at f1
        rw [hi'.z.unique hst.iter.z hm] at f2
        exact ⟨(add _ _ f1).1, (add _ _ f2).1⟩
      have hpow : (200 : ℝ) ^ k * (10 ^ 4 * eta K) ≤ 200 ^ (k + 1) * (10 ^ 4 * eta K) :=
        mul_le_mul_of_nonneg_right (pow_le_pow_right₀ (by norm_num) (by omega)) (by positivity)
      have ihb := ih h1 (fun j qj h0 hj => hal j qj h0 (by omega)) hib
        (fun i hm => ⟨hpow.trans (hbig i hm).1, hpow.trans (hbig i hm).2⟩) hfb
      obtain ⟨al1, al2⟩ := hal (k + 1) qk (by omega) le_rfl (.succ h1 h2)
      have hp200 : (0 : ℝ) < 200 ^ k := by positivity
      have low : ∀ v w : ℝ, 200 ^ (k + 1) * (10 ^ 4 * eta K) ≤ v → v / 200 ^ k ≤ w →
          10 ^ 4 * eta K ≤ w := by
        intro v w h3 h4
        refine le_trans ?_ h4
        rw [le_div_iff₀ hp200]
        refine le_trans ?_ h3
        rw [mul_comm]
        exact hpow
      have hst := C66_step h hu he hrb h2 hib hi' (fun i hm => ⟨(ihb i hm).1, (ihb i hm).2.2.1⟩)
        (fun i hm => ⟨low _ _ (hbig i hm).1 (ihb i hm).2.1, low _ _ (hbig i hm).2 (ihb i hm).2.2.2⟩)
        al1 al2 hfin
      intro i hm
      obtain ⟨-, -, g1, g2⟩ := hst i hm
      obtain ⟨b1, b2, b3, b4⟩ := ihb i hm
      have e : ∀ v : ℝ, v / 200 ^ (k + 1) = v / 200 ^ k / 200 := by
        intro v
        rw [pow_succ, div_div]
      refine ⟨by linarith, ?_, by linarith, ?_⟩
      · rw [e]
        linarith
      · rw [e]
        linarith

/-! ## The start -/

theorem minmaxF_round {m : Nat} (hm : 0 < m) {v : Nat → K} (hv : ∀ i, i < m → fin (v i)) :
    ((∃ i, i < m ∧ (minmaxF m v).1 = v i) ∧ ∀ i, i < m → toR (minmaxF m v).1 ≤ toR (v i)) ∧
    (∃ i, i < m ∧ (minmaxF m v).2 = v i) ∧ ∀ i, i < m → toR (v i) ≤ toR (minmaxF m v).2 := by
  unfold minmaxF
  refine foldI_induct (lo := 1) (hi := m) hm (fun j (mm : K × K) =>
    ((∃ i, i < m ∧ mm.1 = v i) ∧ ∀ i, i < j → toR mm.1 ≤ toR (v i)) ∧
    (∃ i, i < m ∧ mm.2 = v i) ∧ ∀ i, i < j → toR (v i) ≤ toR mm.2) ?_ ?_
  · refine ⟨⟨⟨0, hm, rfl⟩, ?_⟩, ⟨0, hm, rfl⟩, ?_⟩ <;>
    · intro i hi
      have : i = 0 := by omega
      subst this
      exact le_rfl
  · rintro j ⟨mn, mx⟩ h1 hj ⟨⟨⟨i1, hi1, e1⟩, l1⟩, ⟨i2, hi2, e2⟩, l2⟩
    dsimp only at e1 e2 l1 l2 ⊢
    have f1 : fin mn := e1 ▸ hv i1 hi1
    have f2 : fin mx := e2 ▸ hv i2 hi2
    have fj := hv j hj
    constructor
    · by_cases hc : Scalar.ltb (v j) mn = true
      · have hlt := (ltb _ _ fj f1).mp hc
        rw [if_pos hc]
        refine ⟨⟨j, hj, rfl⟩, fun i hi => ?_⟩
        rcases Nat.lt_succ_iff_lt_or_eq.mp hi with h | rfl
        · have := l1 i h
          linarith
        · exact le_rfl
      · have hlt : ¬ toR (v j) < toR mn := fun h => hc ((ltb _ _ fj f1).mpr h)
        rw [if_neg hc]
        refine ⟨⟨i1, hi1, e1⟩, fun i hi => ?_⟩
        rcases Nat.lt_succ_iff_lt_or_eq.mp hi with h | rfl
        · exact l1 i h
        · exact not_lt.mp hlt
    · by_cases hc : Scalar.ltb mx (v j) = true
      · have hlt := (ltb _ _ f2 fj).mp hc
        rw [if_pos hc]
        refine ⟨⟨j, hj, rfl⟩, fun i hi => ?_⟩
        rcases Nat.lt_succ_iff_lt_or_eq.mp hi with h | rfl
        · have := l2 i h
          linarith
        · exact le_rfl
      · have hlt : ¬ toR mx < toR (v j) := fun h => hc ((ltb _ _ f2 fj).mpr h)
        rw [if_neg hc]
        refine ⟨⟨i2, hi2, e2⟩, fun i hi => ?_⟩
        rcases Nat.lt_succ_iff_lt_or_eq.mp hi with h | rfl
        · exact l2 i h
        · exact not_lt.mp hlt

/-- A shifted entry: `v + (1 + a)` with `-a ≤ v`, `a ≥ 0`. -/
theorem shift_round {v a : K} (hf : fin (v + (Scalar.dec 1 0 + a))) (ha : 0 ≤ toR a)
    (hv : -toR a ≤ toR v) (hu : u K ≤ 1 / 2 ^ 20) :
    fin v ∧ fin a ∧
      (0 ≤ 1 - u K * (1 + toR a) →
        (1 - u K) * (1 - u K * (1 + toR a)) ≤ toR (v + (Scalar.dec 1 0 + a))) ∧
      (0 ≤ toR v → (1 - u K) * toR v ≤ toR (v + (Scalar.dec 1 0 + a))) := by
  have hu0 := u_nonneg (K := K)
  obtain ⟨o1, o2⟩ := dec_int (K := K) 1 (by norm_num)
  rw [Int.cast_one] at o2
  obtain ⟨f1, f2, f3⟩ := add _ _ hf
  obtain ⟨-, f4, f5⟩ := add _ _ f2
  rw [o2, abs_of_nonneg (show 0 ≤ 1 + toR a by linarith)] at f5
  have g1 := (abs_le.mp f5).1
  have hU : (1 : ℝ) / 2 ^ 20 ≤ 1 / 10 ^ 6 := by norm_num
  have hu1 : 0 ≤ 1 - u K := by linarith
  have hup : ∀ w : ℝ, 0 ≤ w → w ≤ toR v + toR (Scalar.dec 1 0 + a) →
      (1 - u K) * w ≤ toR (v + (Scalar.dec 1 0 + a)) := by
    intro w hw hle
    have hnn : 0 ≤ toR v + toR (Scalar.dec 1 0 + a) := hw.trans hle
    rw [abs_of_nonneg hnn] at f3
    have g2 := (abs_le.mp f3).1
    have := mul_le_mul_of_nonneg_left hle hu1
    linarith
  refine ⟨f1, f4, fun hw => hup _ hw (by linarith), fun h0 => hup _ h0 ?_⟩
  · have : 0 ≤ (1 - u K) * (1 + toR a) := mul_nonneg hu1 (by linarith)
    linarith

/-- **C66**, the start: if the starting slacks and multipliers are finite and of size at most `1 / (8 u)`
(`2^50` for doubles), they are positive, and either all slacks or all multipliers are at least one half. -/
theorem C66_start {amd : Amd} {a : SetupArgs K} {pb : Problem K} {q0 : QP K}
    (h : Started amd a pb q0) (hu : u K ≤ 1 / 2 ^ 20) {x y z s : Nat → K} (hi : q0.Iter pb x y z s)
    (hfin : ∀ i, i < pb.m → fin (s i) ∧ fin (z i))
    (hsize : ∀ i, i < pb.m → u K * |toR (s i)| ≤ 1 / 8 ∧ u K * |toR (z i)| ≤ 1 / 8) :
    (∀ i, i < pb.m → 0 < toR (s i) ∧ 0 < toR (z i)) ∧
      ((∀ i, i < pb.m → 1 / 2 ≤ toR (s i)) ∨ ∀ i, i < pb.m → 1 / 2 ≤ toR (z i)) := by
  obtain ⟨p, q, hd⟩ := h.done
  obtain ⟨t, _, _, hit⟩ := hd.iter
  have hm := h.wf.m_pos
  have hu0 := u_nonneg (K := K)
  have hU : (1 : ℝ) / 2 ^ 20 ≤ 1 / 10 ^ 6 := by norm_num
  have hu' := hu.trans hU
  obtain ⟨z1, z2⟩ := zero (K := K)
  set v := interF pb (sol0 pb p q t) with hv
  have es : ∀ i, i < pb.m → s i = if Scalar.ltb (-(minmaxF pb.m v).1) 0 then v i
      else v i + (Scalar.dec 1 0 + -(minmaxF pb.m v).1) := fun i hm => hi.s.unique hit.s hm
  have ez : ∀ i, i < pb.m → z i = if Scalar.ltb (minmaxF pb.m v).2 0 then -(v i)
      else -(v i) + (Scalar.dec 1 0 + (minmaxF pb.m v).2) := fun i hm => hi.z.unique hit.z hm
  have fv : ∀ i, i < pb.m → fin (v i) := by
    intro i hm
    have := (hfin i hm).1
    rw [es i hm] at this
    split at this
    · exact this
    · exact (add _ _ this).1
  obtain ⟨⟨⟨il, hil, el⟩, hl⟩, ⟨iu, hiu, eu⟩, hg⟩ := minmaxF_round (m := pb.m) hm fv
  set lo := (minmaxF pb.m v).1
  set hi' := (minmaxF pb.m v).2
  have flo : fin lo := el ▸ fv il hil
  have fhi : fin hi' := eu ▸ fv iu hiu
  obtain ⟨-, nlo⟩ := neg _ (IeeeRatio.neg_fin _ flo)
  have nv : ∀ i, i < pb.m → toR (-(v i)) = -toR (v i) := fun i hm =>
    (neg _ (IeeeRatio.neg_fin _ (fv i hm))).2
  have cl : Scalar.ltb (-lo) (0 : K) = true ↔ 0 < toR lo := by
    rw [ltb _ _ (IeeeRatio.neg_fin _ flo) z1, nlo, z2]
    constructor <;> intro h <;> linarith
  have cu : Scalar.ltb hi' (0 : K) = true ↔ toR hi' < 0 := by
    rw [ltb _ _ fhi z1, z2]
  have hlu : toR lo ≤ toR hi' := (hl iu hiu).trans (hg iu hiu)
  -- values in the two cases
  have sPos : 0 < toR lo → ∀ i, i < pb.m → s i = v i := fun h0 i hm => by
    rw [es i hm, if_pos (cl.mpr h0)]
  have sNeg : ¬ 0 < toR lo → ∀ i, i < pb.m → s i = v i + (Scalar.dec 1 0 + -lo) := fun h0 i hm => by
    rw [es i hm, if_neg (fun h => h0 (cl.mp h))]
  have zNeg : toR hi' < 0 → ∀ i, i < pb.m → z i = -(v i) := fun h0 i hm => by
    rw [ez i hm, if_pos (cu.mpr h0)]
  have zPos : ¬ toR hi' < 0 → ∀ i, i < pb.m → z i = -(v i) + (Scalar.dec 1 0 + hi') := fun h0 i hm => by
    rw [ez i hm, if_neg (fun h => h0 (cu.mp h))]
  have shS : ¬ 0 < toR lo → ∀ i, i < pb.m →
      (0 ≤ 1 - u K * (1 + -toR lo) → (1 - u K) * (1 - u K * (1 + -toR lo)) ≤ toR (s i)) ∧
        (0 ≤ toR (v i) → (1 - u K) * toR (v i) ≤ toR (s i)) := by
    intro h0 i hm
    have e := sNeg h0 i hm
    have := shift_round (e ▸ (hfin i hm).1) (by rw [nlo]; linarith) (by rw [nlo]; linarith [hl i hm]) hu
    rw [e]
    rw [nlo] at this
    exact this.2.2
  have shZ : ¬ toR hi' < 0 → ∀ i, i < pb.m →
      (0 ≤ 1 - u K * (1 + toR hi') → (1 - u K) * (1 - u K * (1 + toR hi')) ≤ toR (z i)) ∧
        (0 ≤ -toR (v i) → (1 - u K) * -toR (v i) ≤ toR (z i)) := by
    intro h0 i hm
    have e := zPos h0 i hm
    have := shift_round (e ▸ (hfin i hm).2) (by linarith) (by rw [nv i hm]; linarith [hg i hm]) hu
    rw [e]
    rw [nv i hm] at this
    exact this.2.2
  -- size of the extreme entries
  have bnd : ∀ w r : ℝ, 0 ≤ w → (1 - u K) * w ≤ r → u K * |r| ≤ 1 / 8 → u K * w ≤ 1 / 7 := by
    intro w r hw h1 h2
    have h3 : u K * r ≤ 1 / 8 := le_trans (mul_le_mul_of_nonneg_left (le_abs_self r) hu0) h2
    have h4 : u K * ((1 - u K) * w) ≤ u K * r := mul_le_mul_of_nonneg_left h1 hu0
    have h5 : 0 ≤ u K * w := mul_nonneg hu0 hw
    have h6 : u K * (u K * w) ≤ 1 / 10 ^ 6 * (u K * w) := mul_le_mul_of_nonneg_right hu' h5
    norm_num at h6
    nlinarith
  have half : ∀ w r : ℝ, u K * w ≤ 1 / 7 →
      (0 ≤ 1 - u K * (1 + w) → (1 - u K) * (1 - u K * (1 + w)) ≤ r) → 1 / 2 ≤ r := by
    intro w r h1 h2
    norm_num at hu'
    have h3 := h2 (by nlinarith)
    nlinarith
  have hS : ¬ 0 < toR lo → ∀ i, i < pb.m → 1 / 2 ≤ toR (s i) := by
    intro h0 i hm
    refine half _ _ ?_ (shS h0 i hm).1
    have h1 : 0 ≤ -toR lo := by linarith
    refine bnd _ (toR (z il)) h1 ?_ (hsize il hil).2
    by_cases h2 : toR hi' < 0
    · rw [zNeg h2 il hil, nv il hil, ← el]
      nlinarith
    · have := (shZ h2 il hil).2
      rw [← el] at this
      exact this h1
  have hZ : ¬ toR hi' < 0 → ∀ i, i < pb.m → 1 / 2 ≤ toR (z i) := by
    intro h0 i hm
    refine half _ _ ?_ (shZ h0 i hm).1
    have h1 : 0 ≤ toR hi' := by linarith
    refine bnd _ (toR (s iu)) h1 ?_ (hsize iu hiu).1
    by_cases h2 : 0 < toR lo
    · rw [sPos h2 iu hiu, ← eu]
      nlinarith
    · have := (shS h2 iu hiu).2
      rw [← eu] at this
      exact this h1
  refine ⟨fun i hm => ⟨?_, ?_⟩, ?_⟩
  · by_cases h0 : 0 < toR lo
    · rw [sPos h0 i hm]
      exact lt_of_lt_of_le h0 (hl i hm)
    · linarith [hS h0 i hm]
  · by_cases h0 : toR hi' < 0
    · rw [zNeg h0 i hm, nv i hm]
      linarith [hg i hm]
    · linarith [hZ h0 i hm]
  · by_cases h0 : 0 < toR lo
    · exact Or.inr (hZ (by linarith))
    · exact Or.inl (hS h0)

end

end Verif
