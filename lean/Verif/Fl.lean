import Verif.SpecRound
import Mathlib.Data.Int.Log
import Mathlib.Algebra.Order.Round
import Mathlib.Tactic.Linarith
import Mathlib.Tactic.Positivity

/-!
# Instances of `Ieee`

Exact real arithmetic, and `Fl`: numbers rounded to 53 significant bits, with overflow and invalid
operations giving a non-number. They show that the rounding theorems are not vacuous.
-/

namespace Verif

/-- Exact arithmetic has no rounding errors. -/
noncomputable instance : Ieee ℝ where
  toR := id
  fin _ := True
  u := 0
  eta := 0
  u_nonneg := le_rfl
  u_lt_one := one_pos
  eta_nonneg := le_rfl
  zero := ⟨trivial, rfl⟩
  neg _ _ := ⟨trivial, rfl⟩
  add _ _ _ := ⟨trivial, trivial, by simp⟩
  sub _ _ _ := ⟨trivial, trivial, by simp⟩
  mul _ _ _ := ⟨trivial, trivial, by simp⟩
  mulNonneg _ _ _ h := h
  mulSign m a _ _ := ⟨trivial, by simp [Scalar.dec]⟩
  div _ _ _ _ _ := ⟨trivial, by simp⟩
  sqrt _ _ := ⟨trivial, fun _ => by simp [Scalar.sqrt]⟩
  ltb a b _ _ := by simp [Scalar.ltb]
  leb a b _ _ := by simp [Scalar.leb]
  nonfin a h := absurd trivial h
  sqrt_ltb _ _ _ _ := trivial
  dec_int m _ := ⟨trivial, by simp [Scalar.dec]⟩
  dec m e _ := ⟨trivial, by simp [Scalar.dec]⟩
  ofInt i _ := by simp [Scalar.ofInt]

/-- Rounding to 53 significant bits. -/
noncomputable def rnd (x : ℝ) : ℝ :=
  (round (x * (2 : ℝ) ^ (52 - Int.log 2 |x|)) : ℝ) * (2 : ℝ) ^ (Int.log 2 |x| - 52)

theorem rnd_err (x : ℝ) : |rnd x - x| ≤ 2⁻¹ ^ 53 * |x| := by
  by_cases hx : x = 0
  · subst hx; simp [rnd]
  have hp : 0 < |x| := abs_pos.mpr hx
  have hl : (2 : ℝ) ^ Int.log 2 |x| ≤ |x| := Int.zpow_log_le_self (by norm_num) hp
  set e := Int.log 2 |x| with he
  have hb : (0 : ℝ) < (2 : ℝ) ^ (e - 52) := zpow_pos (by norm_num) _
  have e1 : x = x * (2 : ℝ) ^ (52 - e) * (2 : ℝ) ^ (e - 52) := by
    rw [mul_assoc, ← zpow_add₀ (by norm_num)]
    simp
  have e2 : rnd x - x = (round (x * (2 : ℝ) ^ (52 - e)) - x * (2 : ℝ) ^ (52 - e))
      * (2 : ℝ) ^ (e - 52) := by
    unfold rnd
    rw [← he, sub_mul, ← e1]
  rw [e2, abs_mul, abs_of_pos hb, abs_sub_comm]
  have e3 := abs_sub_round (x * (2 : ℝ) ^ (52 - e))
  calc _ ≤ 1 / 2 * (2 : ℝ) ^ (e - 52) := mul_le_mul_of_nonneg_right e3 hb.le
    _ = 2⁻¹ ^ 53 * (2 : ℝ) ^ e := by
      rw [zpow_sub₀ (by norm_num)]
      norm_num
      ring
    _ ≤ _ := mul_le_mul_of_nonneg_left hl (by positivity)

theorem rnd_nonneg {x : ℝ} (h : 0 ≤ x) : 0 ≤ rnd x := by
  have e := rnd_err x
  rw [abs_of_nonneg h] at e
  have := neg_le_of_abs_le e
  have : (2 : ℝ)⁻¹ ^ 53 ≤ 1 := by norm_num
  nlinarith

/-- A number of 53 bits, or the result of an overflow or of an invalid operation. -/
inductive Fl where
  | num (x : ℝ)
  | bad

namespace Fl

/-- the number, if any -/
noncomputable def toR : Fl → ℝ
  | num x => x
  | bad => 0

/-- it is a number -/
def fin : Fl → Prop
  | num _ => True
  | bad => False

open Classical in
/-- the rounded number unless it overflows -/
noncomputable def mk (x : ℝ) : Fl := if |x| ≤ 2 ^ 1023 then num (rnd x) else bad

theorem mk_fin {x : ℝ} (h : (mk x).fin) : mk x = num (rnd x) := by
  by_cases hx : |x| ≤ 2 ^ 1023
  · exact if_pos hx
  · rw [mk, if_neg hx] at h
    exact absurd h id

theorem mk_err {x : ℝ} (h : (mk x).fin) : |(mk x).toR - x| ≤ 2⁻¹ ^ 53 * |x| := by
  rw [mk_fin h]
  exact rnd_err x

/-- lift of a binary operation -/
noncomputable def op2 (f : ℝ → ℝ → ℝ) : Fl → Fl → Fl
  | num a, num b => mk (f a b)
  | _, _ => bad

theorem op2_err {f : ℝ → ℝ → ℝ} {a b : Fl} (h : (op2 f a b).fin) :
    a.fin ∧ b.fin ∧ |(op2 f a b).toR - f a.toR b.toR| ≤ 2⁻¹ ^ 53 * |f a.toR b.toR| := by
  cases a <;> cases b
  · exact ⟨trivial, trivial, mk_err h⟩
  all_goals exact absurd h id

theorem op2_spec {f : ℝ → ℝ → ℝ} {a b : Fl} (h : (op2 f a b).fin) :
    a.fin ∧ b.fin ∧ op2 f a b = mk (f a.toR b.toR) := by
  cases a <;> cases b
  · exact ⟨trivial, trivial, rfl⟩
  all_goals exact absurd h id

open Classical in
/-- product; a factor one or minus one is exact -/
noncomputable def mul : Fl → Fl → Fl
  | num a, num b => if |a| = 1 then num (a * b) else mk (a * b)
  | _, _ => bad

theorem mul_spec {a b : Fl} (h : (mul a b).fin) : a.fin ∧ b.fin ∧
    ((mul a b).toR = a.toR * b.toR ∨ (mul a b).toR = rnd (a.toR * b.toR)) := by
  cases a with
  | bad => exact absurd h id
  | num x =>
    cases b with
    | bad => exact absurd h id
    | num y =>
      refine ⟨trivial, trivial, ?_⟩
      by_cases hx : |x| = 1
      · refine Or.inl ?_
        have : mul (num x) (num y) = num (x * y) := if_pos hx
        rw [this]
        rfl
      · have e : mul (num x) (num y) = mk (x * y) := if_neg hx
        rw [e] at h ⊢
        rw [mk_fin h]
        exact Or.inr rfl

noncomputable instance : Zero Fl := ⟨num 0⟩
noncomputable instance : One Fl := ⟨num 1⟩
noncomputable instance : Add Fl := ⟨op2 (· + ·)⟩
noncomputable instance : Sub Fl := ⟨op2 (· - ·)⟩
noncomputable instance : Mul Fl := ⟨Fl.mul⟩
open Classical in
noncomputable instance : Div Fl := ⟨fun a b => if b.toR = 0 then bad else op2 (· / ·) a b⟩
noncomputable instance : Neg Fl := ⟨fun a => match a with | num x => num (-x) | bad => bad⟩

open Classical in
noncomputable instance : Scalar Fl where
  sqrt a := match a with
    | num x => if 0 ≤ x then mk √x else bad
    | bad => bad
  ltb a b := match a, b with
    | num x, num y => decide (x < y)
    | _, _ => false
  leb a b := match a, b with
    | num x, num y => decide (x ≤ y)
    | _, _ => false
  eqb a b := match a, b with
    | num x, num y => decide (x = y)
    | _, _ => false
  ofInt i := mk i
  dec m e := if m.natAbs ≤ 1000 ∧ e = 0 then num m else mk (m / 10 ^ e)

noncomputable instance : Ieee Fl where
  toR := toR
  fin := fin
  u := 2⁻¹ ^ 53
  eta := 0
  u_nonneg := by positivity
  u_lt_one := by norm_num
  eta_nonneg := le_rfl
  zero := ⟨trivial, rfl⟩
  neg a h := by
    cases a
    · exact ⟨trivial, rfl⟩
    · exact absurd h id
  add a b h := op2_err (f := (· + ·)) h
  sub a b h := op2_err (f := (· - ·)) h
  mul a b h := by
    obtain ⟨h1, h2, h3⟩ := mul_spec h
    change (a * b).toR = _ ∨ (a * b).toR = _ at h3
    refine ⟨h1, h2, ?_⟩
    rw [add_zero]
    rcases h3 with h3 | h3
    · rw [h3]
      simp only [sub_self, abs_zero]
      positivity
    · rw [h3]
      exact rnd_err _
  mulNonneg a b h h0 := by
    obtain ⟨h1, h2, h3⟩ := mul_spec h
    change (a * b).toR = _ ∨ (a * b).toR = _ at h3
    rcases h3 with h3 | h3
    · rw [h3]
      exact h0
    · rw [h3]
      exact rnd_nonneg h0
  mulSign m a hm h := by
    cases a with
    | bad => exact absurd h id
    | num x =>
      have e : (Scalar.dec m 0 : Fl) = num m :=
        if_pos ⟨by rcases hm with hm | hm <;> rw [hm] <;> decide, rfl⟩
      rw [e]
      have e2 : (num m * num x : Fl) = num (m * x) := by
        show Fl.mul (num m) (num x) = _
        unfold Fl.mul
        exact if_pos (by rcases hm with hm | hm <;> rw [hm] <;> simp)
      rw [e2]
      exact ⟨trivial, rfl⟩
  div a b h _ h0 := by
    have e : a / b = op2 (· / ·) a b := if_neg h0
    rw [e] at h ⊢
    rw [add_zero]
    exact ⟨(op2_err h).1, (op2_err h).2.2⟩
  sqrt a h := by
    cases a with
    | bad => exact absurd h id
    | num x =>
      refine ⟨trivial, fun h0 => ?_⟩
      have h0 : 0 ≤ x := h0
      have e : Scalar.sqrt (num x) = mk √x := if_pos h0
      rw [e] at h ⊢
      have := mk_err h
      rwa [abs_of_nonneg (Real.sqrt_nonneg x)] at this
  ltb a b h1 h2 := by
    cases a
    · cases b
      · simp [Scalar.ltb, toR]
      · exact absurd h2 id
    · exact absurd h1 id
  leb a b h1 h2 := by
    cases a
    · cases b
      · simp [Scalar.leb, toR]
      · exact absurd h2 id
    · exact absurd h1 id
  nonfin a h := by
    cases a with
    | num x => exact absurd trivial h
    | bad =>
      refine Or.inl fun b _ => ⟨rfl, ?_⟩
      have e : (Scalar.dec 1 0 : Fl) * bad = bad := by
        cases (Scalar.dec 1 0 : Fl) <;> rfl
      rw [e]
      rfl
  sqrt_ltb a b _ h := by
    cases hs : Scalar.sqrt a with
    | num x => exact trivial
    | bad => rw [hs] at h; exact absurd h (by simp [Scalar.ltb])
  dec_int m h := by
    have e : (Scalar.dec m 0 : Fl) = num m := if_pos ⟨h, rfl⟩
    rw [e]
    exact ⟨trivial, rfl⟩
  dec m e h := by
    by_cases hc : m.natAbs ≤ 1000 ∧ e = 0
    · have e1 : (Scalar.dec m e : Fl) = num m := if_pos hc
      rw [e1, hc.2]
      exact ⟨trivial, by simp [toR]⟩
    · have e1 : (Scalar.dec m e : Fl) = mk (m / 10 ^ e) := if_neg hc
      rw [e1, add_zero]
      have hb : |(m : ℝ) / 10 ^ e| ≤ 2 ^ 1023 := by
        have h1 : |(m : ℝ)| ≤ 1000 := by
          have : ((m.natAbs : ℤ) : ℝ) ≤ 1000 := by exact_mod_cast h
          rwa [Int.natCast_natAbs, Int.cast_abs] at this
        have h2 : (1 : ℝ) ≤ 10 ^ e := one_le_pow₀ (by norm_num)
        rw [abs_div, abs_of_pos (by positivity : (0 : ℝ) < 10 ^ e)]
        calc |(m : ℝ)| / 10 ^ e ≤ 1000 / 1 := div_le_div₀ (by norm_num) h1 one_pos h2
          _ ≤ 2 ^ 10 := by norm_num
          _ ≤ 2 ^ 1023 := pow_le_pow_right₀ (by norm_num) (by norm_num)
      have hf : (mk ((m : ℝ) / 10 ^ e)).fin := by
        unfold mk
        rw [if_pos hb]
        trivial
      exact ⟨hf, mk_err hf⟩
  ofInt i h := mk_err h

end Fl

end Verif
