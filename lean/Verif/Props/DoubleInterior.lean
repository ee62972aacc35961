import Verif.Props.Interior
import Verif.Props.DoubleRun

/-!
# Positivity of slacks and multipliers in IEEE double precision (C66)
-/

set_option exponentiation.threshold 2200

set_option linter.unusedSectionVars false

namespace Verif

open Ieee

namespace F64

theorem exact_int (m : Int) (h : m.natAbs ≤ 2 ^ 53) : ∃ h', (Scalar.dec m 0 : F64)
    = num (decide (m < 0)) (m.natAbs * unit) h' := by
  have hr : Rep (m.natAbs * unit) := by
    rw [unit_eq]
    exact rep_mul h
  have hh : m.natAbs * unit < huge := by
    rw [unit_eq, huge_eq]
    calc m.natAbs * 2 ^ 1074 ≤ 2 ^ 53 * 2 ^ 1074 := Nat.mul_le_mul_right _ h
      _ = 2 ^ 1127 := by rw [← Nat.pow_add]
      _ < 2 ^ 2098 := Nat.pow_lt_pow_right (by norm_num) (by norm_num)
  refine ⟨⟨hr, hh⟩, ?_⟩
  have e : rndNat (m.natAbs * unit) (10 ^ 0) = m.natAbs * unit := hr.rnd
  exact pack_eq (rndNat_rep _ _) e _

theorem toR_int (m : Int) (h : m.natAbs ≤ 2 ^ 53) : fin (Scalar.dec m 0 : F64) ∧
    toR (Scalar.dec m 0 : F64) = m := by
  obtain ⟨h', e⟩ := exact_int m h
  rw [e]
  refine ⟨trivial, ?_⟩
  have hU := unit_pos'
  show sgn _ * (((m.natAbs * unit : ℕ) : ℝ) / unit) = m
  push_cast
  rw [mul_div_assoc, div_self hU.ne', mul_one]
  exact sgn_lt m

theorem one_eq : (1 : F64) = Scalar.dec 1 0 := by
  show mk false unit 1 = mk (decide ((1 : Int) < 0)) ((1 : Int).natAbs * unit) (10 ^ 0)
  simp

theorem mk_not_fin {a : Bool} {n d : Nat} (h : ¬ (mk a n d).fin) :
    huge ≤ rndNat n d ∧ mk a n d = inf a := by
  unfold mk pack at h ⊢
  split at h
  · exact absurd trivial h
  · rename_i hh
    exact ⟨not_lt.mp hh, dif_neg hh⟩

end F64

open F64 in
instance : IeeeRatio F64 where
  one := by
    rw [one_eq]
    obtain ⟨h1, h2⟩ := toR_int 1 (by norm_num)
    rw [Int.cast_one] at h2
    exact ⟨h1, h2⟩
  big := by
    obtain ⟨h1, h2⟩ := toR_int 10000000000 (by norm_num)
    refine ⟨h1, ?_⟩
    have : ((10000000000 : ℤ) : ℝ) = 10 ^ 10 := by norm_num
    rw [← this]
    exact h2
  neg_fin a h := by
    cases a with
    | num a k hk => exact trivial
    | inf a => exact absurd h id
    | nan => exact absurd h id
  neg_div a b h := by
    have e : -(a / b) = -a / b := by
      cases a with
      | nan => cases b <;> rfl
      | inf a =>
        cases b with
        | nan => rfl
        | inf b => rfl
        | num b l hl => cases a <;> cases b <;> rfl
      | num a k hk =>
        cases b with
        | nan => rfl
        | inf b => cases a <;> cases b <;> rfl
        | num b l hl =>
          have hx : ((!a) != b) = !(a != b) := by cases a <;> cases b <;> rfl
          show F64.neg (if l = 0 then if k = 0 then nan else inf (a != b) else mk (a != b) (k * unit) l)
            = if l = 0 then if k = 0 then nan else inf ((!a) != b) else mk ((!a) != b) (k * unit) l
          rw [hx]
          split
          · split <;> rfl
          · unfold F64.mk pack
            split <;> rfl
    rw [e]
    exact ⟨h, rfl⟩
  div_big a b ha hb hb0 hf := by
    cases a with
    | nan => exact absurd ha id
    | inf a => exact absurd ha id
    | num a k hk =>
      cases b with
      | nan => exact absurd hb id
      | inf b => exact absurd hb id
      | num b l hl =>
        have hl0 : l ≠ 0 := by
          intro h0
          subst h0
          exact hb0 (by simp [Ieee.toR, F64.toR])
        have hl1 : 0 < l := Nat.pos_of_ne_zero hl0
        have hl' : (0 : ℝ) < l := by exact_mod_cast hl1
        have hU := unit_pos'
        have e : (num a k hk / num b l hl : F64) = mk (a != b) (k * unit) l := if_neg hl0
        rw [e] at hf ⊢
        obtain ⟨hh, einf⟩ := mk_not_fin hf
        have q : Ieee.toR (num a k hk) / Ieee.toR (num b l hl) = sgn (a != b) * (k / l) := by
          show sgn a * (k / unit) / (sgn b * (l / unit)) = _
          rw [sgn_xor]
          have hs : sgn b * sgn b = 1 := by cases b <;> simp [sgn]
          have hs0 : sgn b ≠ 0 := fun h => by rw [h] at hs; simp at hs
          rw [div_eq_iff (by positivity)]
          rw [show sgn a * sgn b * (k / l) * (sgn b * (l / unit)) = sgn a * (sgn b * sgn b) * (k / l * (l / unit)) by ring,
            hs]
          field_simp
        have hbig : (10 : ℝ) ^ 12 ≤ k / l := by
          have h1 := rndNat_err (n := k * unit) (d := l) hl1
          have h2 : (if l ∣ k * unit then (0 : ℝ) else 1 / 2) ≤ 1 := by split <;> norm_num
          have h3 := (abs_le.mp h1).2
          have h4 : (huge : ℝ) ≤ rndNat (k * unit) l := by exact_mod_cast hh
          have h5 : ((k * unit : ℕ) : ℝ) / l = k / l * unit := by push_cast; ring
          rw [h5] at h3
          have h6 : (0 : ℝ) ≤ k / l * unit := by positivity
          have h7 : (2⁻¹ : ℝ) ^ 53 * (k / l * unit) ≤ 1 * (k / l * unit) :=
            mul_le_mul_of_nonneg_right (by norm_num) h6
          have h8 : (huge : ℝ) ≤ 2 * (k / l * unit) + 1 := by linarith
          have h9 : (2 : ℝ) ^ 1024 * unit = huge := by
            rw [unit_eq, huge_eq, Nat.cast_pow, Nat.cast_pow, Nat.cast_ofNat, ← pow_add]
          have h10 : (1 : ℝ) ≤ unit := by exact_mod_cast unit_pos
          by_contra hc
          have hc := not_le.mp hc
          have h11 : k / l * (unit : ℝ) < 10 ^ 12 * unit := mul_lt_mul_of_pos_right hc hU
          have h12 : ((2 : ℝ) * 10 ^ 12 + 1) * unit ≤ 2 ^ 1024 * unit :=
            mul_le_mul_of_nonneg_right (by norm_num) hU.le
          linarith
        rw [q, einf]
        refine ⟨?_, ?_⟩
        · rw [abs_mul, abs_sgn, one_mul, abs_of_nonneg (le_trans (by norm_num) hbig)]
          exact hbig
        · intro h0 c hc
          have hs : (a != b) = false := by
            by_contra hne
            have hne : (a != b) = true := by simpa using hne
            rw [hne] at h0
            simp only [sgn, if_true] at h0
            have : (0 : ℝ) < k / l := lt_of_lt_of_le (by norm_num) hbig
            linarith
          rw [hs]
          cases c with
          | num c j hj => rfl
          | inf c => exact absurd hc id
          | nan => exact absurd hc id
  mul_small a b ha hb ha1 hb1 := by
    cases a with
    | nan => exact absurd ha id
    | inf a => exact absurd ha id
    | num a k hk =>
      cases b with
      | nan => exact absurd hb id
      | inf b => exact absurd hb id
      | num b l hl =>
        have hU := unit_pos'
        by_contra hf
        have hf' : ¬ (mk (a != b) (k * l) unit).fin := hf
        obtain ⟨hh, -⟩ := mk_not_fin hf'
        have a1 : (k : ℝ) / unit ≤ 1 := by
          have : |sgn a * ((k : ℝ) / unit)| ≤ 1 := ha1
          rwa [abs_mul, abs_sgn, one_mul, abs_of_nonneg (by positivity)] at this
        have b1 : (l : ℝ) / unit ≤ 10 ^ 12 := by
          have : |sgn b * ((l : ℝ) / unit)| ≤ 10 ^ 12 := hb1
          rwa [abs_mul, abs_sgn, one_mul, abs_of_nonneg (by positivity)] at this
        have h1 := rndNat_err (n := k * l) (d := unit) unit_pos
        have h2 : (if unit ∣ k * l then (0 : ℝ) else 1 / 2) ≤ 1 := by split <;> norm_num
        have h3 := (abs_le.mp h1).2
        have h4 : (huge : ℝ) ≤ rndNat (k * l) unit := by exact_mod_cast hh
        have h5 : ((k * l : ℕ) : ℝ) / unit = k / unit * (l / unit) * unit := by
          push_cast
          field_simp
        have h6 : (k : ℝ) / unit * (l / unit) ≤ 1 * 10 ^ 12 :=
          mul_le_mul a1 b1 (by positivity) (by norm_num)
        have h7 : ((k * l : ℕ) : ℝ) / unit ≤ 10 ^ 12 * unit := by
          rw [h5]
          exact mul_le_mul_of_nonneg_right (by linarith) hU.le
        have h7' : (0 : ℝ) ≤ ((k * l : ℕ) : ℝ) / unit := by positivity
        have h8 : (2⁻¹ : ℝ) ^ 53 * (((k * l : ℕ) : ℝ) / unit) ≤ 1 * (((k * l : ℕ) : ℝ) / unit) :=
          mul_le_mul_of_nonneg_right (by norm_num) h7'
        have h9 : (2 : ℝ) ^ 1024 * unit = huge := by
          rw [unit_eq, huge_eq, Nat.cast_pow, Nat.cast_pow, Nat.cast_ofNat, ← pow_add]
        have h10 : (1 : ℝ) ≤ unit := by exact_mod_cast unit_pos
        have h12 : ((2 : ℝ) * 10 ^ 12 + 2) * unit ≤ 2 ^ 1024 * unit :=
          mul_le_mul_of_nonneg_right (by norm_num) hU.le
        linarith

/-- Exact arithmetic. -/
instance : IeeeRatio ℝ where
  one := ⟨trivial, rfl⟩
  big := ⟨trivial, by simp [Ieee.toR, Scalar.dec]; norm_num⟩
  neg_fin _ _ := trivial
  neg_div a b _ := ⟨trivial, (neg_div b a).symm⟩
  div_big _ _ _ _ _ h := absurd trivial h
  mul_small _ _ _ _ _ _ := trivial

theorem eta_double : eta F64 = 1 / 2 ^ 1075 := by
  have e2 : eta F64 = 1 / 2 / unit := rfl
  rw [e2, unit_eq, Nat.cast_pow, Nat.cast_ofNat, div_div, ← pow_succ']

theorem double_unit : u F64 ≤ 1 / 2 ^ 20 ∧ eta F64 ≤ 1 / 10 ^ 15 := by
  constructor
  · have e1 : u F64 = 2⁻¹ ^ 53 := rfl
    rw [e1]
    norm_num
  · rw [eta_double]
    exact one_div_le_one_div_of_le (by norm_num) (by norm_num)

/-- **C66** for IEEE doubles: in at most 100 iterations (the default limit) from slacks and multipliers of at
least `1e-80`, with step lengths reported that are at least `1e-300`, all slacks and multipliers stay positive
as long as they are finite. -/
theorem C66_double {amd : Amd} {a : SetupArgs F64} {pb : Problem F64} {q0 qp qk : QP F64}
    (h : Started amd a pb q0) (hr : Reach q0 qp) {k : Nat} (hk : Iterations k qp qk) (h100 : k ≤ 100)
    (hal : ∀ j qj, 0 < j → j ≤ k → Iterations j qp qj →
      1 / 10 ^ 300 ≤ toR qj.stats.alpha_p ∧ 1 / 10 ^ 300 ≤ toR qj.stats.alpha_d)
    {x y z s x' y' z' s' : Nat → F64} (hi : qp.Iter pb x y z s) (hi' : qk.Iter pb x' y' z' s')
    (hbig : ∀ i, i < pb.m → 1 / 10 ^ 80 ≤ toR (s i) ∧ 1 / 10 ^ 80 ≤ toR (z i))
    (hfin : ∀ i, i < pb.m → fin (s' i) ∧ fin (z' i)) :
    ∀ i, i < pb.m → 0 < toR (s' i) ∧ 0 < toR (z' i) := by
  obtain ⟨h1, h2⟩ := double_unit
  have e1 : 10 ^ 4 * eta F64 ≤ 1 / 10 ^ 300 := by
    rw [eta_double, mul_one_div, div_le_div_iff₀ (by positivity) (by positivity)]
    norm_num
  have e2 : 200 ^ k * (10 ^ 4 * eta F64) ≤ 1 / 10 ^ 80 := by
    have h3 : (200 : ℝ) ^ k ≤ 200 ^ 100 := pow_le_pow_right₀ (by norm_num) h100
    have h4 : (0 : ℝ) ≤ 10 ^ 4 * eta F64 := mul_nonneg (by norm_num) eta_nonneg
    refine (mul_le_mul_of_nonneg_right h3 h4).trans ?_
    rw [eta_double, mul_one_div, mul_div_assoc', div_le_div_iff₀ (by positivity) (by positivity)]
    norm_num
  have h0 : (0 : ℝ) < 1 / 10 ^ 80 := by positivity
  have := C66_iterations h h1 h2 hr hk
    (fun j qj g1 g2 g3 => ⟨e1.trans (hal j qj g1 g2 g3).1, e1.trans (hal j qj g1 g2 g3).2⟩) hi hi'
    (fun i hm => ⟨lt_of_lt_of_le h0 (hbig i hm).1, lt_of_lt_of_le h0 (hbig i hm).2⟩)
    (fun i hm => ⟨e2.trans (hbig i hm).1, e2.trans (hbig i hm).2⟩) hfin
  intro i hm
  exact ⟨(this i hm).1, (this i hm).2.2.1⟩

/-! ## Examples -/

/-- all elements are finite and above `0.1` -/
def Buf.above (b : Buf F64) : Bool :=
  b.all (fun o => match o with | some v => v.ok true && Scalar.ltb (Scalar.dec 1 1) v | none => false)

theorem above_tenth {v : F64} (h : (v.ok true && Scalar.ltb (Scalar.dec 1 1) v) = true) :
    fin v ∧ 1 / 20 ≤ toR v := by
  rw [Bool.and_eq_true] at h
  have hf := (F64.ok_fin h.1).1
  refine ⟨hf, ?_⟩
  obtain ⟨d1, d2⟩ := dec (K := F64) 1 1 (by norm_num)
  have h1 := (ltb _ _ d1 hf).mp h.2
  obtain ⟨h2, h3⟩ := double_unit
  have h4 := (abs_le.mp d2).1
  have e : |((1 : ℤ) : ℝ) / 10 ^ 1| = 1 / 10 := by norm_num
  have e' : ((1 : ℤ) : ℝ) / 10 ^ 1 = 1 / 10 := by norm_num
  rw [e, e'] at h4
  have h5 : (1 : ℝ) / 2 ^ 20 ≤ 1 / 1000 := by norm_num
  have h6 : (1 : ℝ) / 10 ^ 15 ≤ 1 / 1000 := by norm_num
  linarith

theorem Buf.above_has {b : Buf F64} (h : b.above = true) {n : Nat} {f : Nat → F64} (hb : Buf.Has b n f)
    {i : Nat} (hi : i < n) : fin (f i) ∧ 1 / 20 ≤ toR (f i) := by
  have h1 := hb i hi
  have h2 : some (f i) ∈ b := List.mem_of_getElem? h1
  exact above_tenth (List.all_eq_true.mp h _ h2)

/-- setup and one iteration: slacks, multipliers and step lengths are above `0.1` -/
def intRun : Bool :=
  match QP_SETUP failAmd (dblPb.args none) with
  | .ok q0 => match solveBody q0 with
    | .ok (q1, false) => q0.s.above && q0.z.above && q1.s.allOk true && q1.z.allOk true &&
        Buf.above [some q1.stats.alpha_p, some q1.stats.alpha_d]
    | _ => false
  | .error _ => false

theorem intRun_true : intRun = true := by decide +kernel

/-- C66: a run in double precision that meets all hypotheses. -/
example : ∃ q0 q1 x y z s x' y' z' s', Started failAmd (dblPb.args none) dblPb q0 ∧
    Iterations 1 q0 q1 ∧ q0.Iter dblPb x y z s ∧ q1.Iter dblPb x' y' z' s' ∧
    (∀ j qj, 0 < j → j ≤ 1 → Iterations j q0 qj →
      1 / 10 ^ 300 ≤ toR qj.stats.alpha_p ∧ 1 / 10 ^ 300 ≤ toR qj.stats.alpha_d) ∧
    (∀ i, i < dblPb.m → 1 / 10 ^ 80 ≤ toR (s i) ∧ 1 / 10 ^ 80 ≤ toR (z i)) ∧
    (∀ i, i < dblPb.m → fin (s' i) ∧ fin (z' i)) ∧ 0 < toR (s' 0) ∧ 0 < toR (z' 0) := by
  obtain ⟨q0, h⟩ := dblPb_started
  have hrun := intRun_true
  unfold intRun at hrun
  rw [h.ok] at hrun
  dsimp only at hrun
  split at hrun
  case h_2 => exact absurd hrun Bool.false_ne_true
  case h_1 q1 hq1 =>
  simp only [Bool.and_eq_true] at hrun
  obtain ⟨⟨⟨⟨c1, c2⟩, c3⟩, c4⟩, c5⟩ := hrun
  obtain ⟨p, q, hi, _⟩ := h.sinv .start
  obtain ⟨x, y, z, s, hit⟩ := hi.iter
  obtain ⟨p', q', hi1, _⟩ := h.sinv (.iteration .start hq1)
  obtain ⟨x', y', z', s', hit'⟩ := hi1.iter
  have hit1 : Iterations 1 q0 q1 := .succ (.zero _) hq1
  have low : ∀ v : ℝ, 1 / 20 ≤ v → 1 / 10 ^ 300 ≤ v ∧ 1 / 10 ^ 80 ≤ v := by
    intro v hv
    have e1 : (1 : ℝ) / 10 ^ 300 ≤ 1 / 20 := one_div_le_one_div_of_le (by norm_num) (by norm_num)
    have e2 : (1 : ℝ) / 10 ^ 80 ≤ 1 / 20 := one_div_le_one_div_of_le (by norm_num) (by norm_num)
    exact ⟨e1.trans hv, e2.trans hv⟩
  have hal : ∀ j qj, 0 < j → j ≤ 1 → Iterations j q0 qj →
      1 / 10 ^ 300 ≤ toR qj.stats.alpha_p ∧ 1 / 10 ^ 300 ≤ toR qj.stats.alpha_d := by
    intro j qj h0 h1 hj
    have e : j = 1 := by omega
    subst e
    cases hj with
    | succ g1 g2 =>
      cases g1
      rw [hq1] at g2
      injection g2 with g3
      injection g3 with g4
      subst g4
      have c6 : ∀ i, i < 2 → 1 / 20 ≤ toR (([q1.stats.alpha_p, q1.stats.alpha_d][i]?).getD 0) := by
        intro i hi'
        refine (Buf.above_has c5 (n := 2) (f := fun i => ([q1.stats.alpha_p, q1.stats.alpha_d][i]?).getD 0)
          ?_ hi').2
        intro i hi'
        interval_cases i <;> rfl
      exact ⟨(low _ (c6 0 (by norm_num))).1, (low _ (c6 1 (by norm_num))).1⟩
  have hbig : ∀ i, i < dblPb.m → 1 / 10 ^ 80 ≤ toR (s i) ∧ 1 / 10 ^ 80 ≤ toR (z i) := fun i hm =>
    ⟨(low _ (Buf.above_has c1 hit.s hm).2).2, (low _ (Buf.above_has c2 hit.z hm).2).2⟩
  have hfin : ∀ i, i < dblPb.m → fin (s' i) ∧ fin (z' i) := fun i hm =>
    ⟨(Buf.allOk_has c3 hit'.s hm).1, (Buf.allOk_has c4 hit'.z hm).1⟩
  have := C66_double h .start hit1 (by norm_num) hal hit hit' hbig hfin 0 (by show 0 < 1; norm_num)
  exact ⟨q0, q1, x, y, z, s, x', y', z', s', h, hit1, hit, hit', hal, hbig, hfin, this⟩

/-- `min x²/2` subject to `x ≤ -2^61` -/
def farPb : Problem F64 where
  P := .lit 1 1 [0, 1] [0] [Scalar.dec 1 0]
  A := Csc.empty 1
  G := .lit 1 1 [0, 1] [0] [Scalar.dec 1 0]
  c := fun _ => 0
  b := fun _ => 0
  h := fun _ => Scalar.dec (-2305843009213693952) 0
  sigma_d := 0

/-- setup makes the slack zero; a complete solve ends at the iteration limit with NaN as solution -/
def farRun : Bool :=
  match QP_SETUP failAmd (farPb.args none) with
  | .ok q0 => q0.s.all (fun o => match o with | some (.num false 0 _) => true | _ => false) &&
    q0.s.length == 1 &&
    match QP_SOLVE q0 with
    | .ok (f, q1) => f == QP_MAXIT && q1.stats.IterationCount == 100 &&
        q1.x.all (fun o => match o with | some .nan => true | _ => false) && q1.x.length == 1
    | _ => false
  | .error _ => false

/-- The bound on the size in `C66_start` is needed: in double precision a strictly convex, feasible problem with
large data starts from a slack that is exactly zero, all numbers become NaN, and the solver stops at the
iteration limit. -/
theorem C66_zero_slack : farRun = true := by decide +kernel

end Verif
