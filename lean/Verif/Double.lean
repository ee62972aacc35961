import Verif.SpecRound
import Mathlib.Data.Nat.Cast.Field
import Mathlib.Data.Nat.Cast.Order.Field
import Mathlib.Tactic.Linarith
import Mathlib.Tactic.Positivity
import Mathlib.Tactic.Ring
import Mathlib.Tactic.FieldSimp

/-!
# IEEE-754 double precision

`F64` is the binary64 format: sign and magnitude in units of `2⁻¹⁰⁷⁴`, infinities and one NaN;
operations are rounded to nearest, ties to even, with gradual underflow and overflow. It is
executable, and it has the properties `Ieee` with `u = 2⁻⁵³` and `eta = 2⁻¹⁰⁷⁵`. NaN payloads and
the sign of a NaN are not represented.
-/

set_option exponentiation.threshold 2200

namespace Verif

/-- Nearest integer to `n / d`, ties to even. -/
def roundDiv (n d : Nat) : Nat :=
  if 2 * (n % d) < d then n / d
  else if d < 2 * (n % d) then n / d + 1
  else n / d + n / d % 2

theorem roundDiv_le (n d : Nat) : roundDiv n d ≤ n / d + 1 := by
  unfold roundDiv
  have := Nat.mod_lt (n / d) (by decide : 0 < 2)
  split
  · omega
  · split <;> omega

theorem roundDiv_dvd {n d : Nat} (hd : 0 < d) (h : d ∣ n) : roundDiv n d = n / d := by
  unfold roundDiv
  rw [Nat.mod_eq_zero_of_dvd h, if_pos (by omega)]

theorem roundDiv_one (n : Nat) : roundDiv n 1 = n := by
  rw [roundDiv_dvd one_pos (one_dvd n), Nat.div_one]

theorem roundDiv_mul {c : Nat} (hc : 0 < c) (n d : Nat) : roundDiv (c * n) (c * d) = roundDiv n d := by
  unfold roundDiv
  rw [Nat.mul_mod_mul_left, Nat.mul_div_mul_left _ _ hc]
  have h1 : 2 * (c * (n % d)) < c * d ↔ 2 * (n % d) < d := by
    rw [show 2 * (c * (n % d)) = c * (2 * (n % d)) by ring]
    exact Nat.mul_lt_mul_left hc
  have h2 : c * d < 2 * (c * (n % d)) ↔ d < 2 * (n % d) := by
    rw [show 2 * (c * (n % d)) = c * (2 * (n % d)) by ring]
    exact Nat.mul_lt_mul_left hc
  simp only [h1, h2]

theorem roundDiv_err {n d : Nat} (hd : 0 < d) : |(roundDiv n d : ℝ) - n / d| ≤ 1 / 2 := by
  have hd' : (0 : ℝ) < d := by exact_mod_cast hd
  have e : (n : ℝ) = d * (n / d : ℕ) + (n % d : ℕ) := by exact_mod_cast (Nat.div_add_mod n d).symm
  have e1 : (n : ℝ) / d = (n / d : ℕ) + (n % d : ℕ) / d := by
    rw [e]
    field_simp
  have hlt := Nat.mod_lt n hd
  set r := n % d with hr
  set q := n / d with hq
  have hr0 : (0 : ℝ) ≤ (r : ℝ) / d := by positivity
  have hr1 : (r : ℝ) / d < 1 := by
    rw [div_lt_one hd']
    exact_mod_cast hlt
  rw [e1]
  unfold roundDiv
  rw [← hr, ← hq]
  split
  · rename_i h
    have : (r : ℝ) / d ≤ 1 / 2 := by
      rw [div_le_div_iff₀ hd' (by norm_num)]
      have : ((2 * r : ℕ) : ℝ) < d := by exact_mod_cast h
      push_cast at this
      linarith
    rw [abs_le]
    constructor <;> linarith
  · rename_i h
    have h' : (1 : ℝ) / 2 ≤ (r : ℝ) / d := by
      rw [div_le_div_iff₀ (by norm_num) hd']
      have : (d : ℝ) ≤ ((2 * r : ℕ) : ℝ) := by exact_mod_cast not_lt.mp h
      push_cast at this
      linarith
    split
    · push_cast
      rw [abs_le]
      constructor <;> linarith
    · rename_i h2
      have h2' : (r : ℝ) / d = 1 / 2 := by
        rw [div_eq_div_iff hd'.ne' (by norm_num)]
        have : 2 * r = d := by omega
        have : ((2 * r : ℕ) : ℝ) = d := by exact_mod_cast this
        push_cast at this
        linarith
      have h3 : q % 2 = 0 ∨ q % 2 = 1 := by omega
      rw [h2']
      rcases h3 with h3 | h3
      · rw [h3]
        push_cast
        rw [abs_le]
        constructor <;> linarith
      · rw [h3]
        push_cast
        rw [abs_le]
        constructor <;> linarith

/-- `n / d` rounded to an integer with 53 significant bits. -/
def rndNat (n d : Nat) : Nat :=
  let s := Nat.log2 (n / d) - 52
  roundDiv n (d * 2 ^ s) * 2 ^ s

theorem rndNat_mul {c : Nat} (hc : 0 < c) (n d : Nat) : rndNat (c * n) (c * d) = rndNat n d := by
  unfold rndNat
  simp only [Nat.mul_div_mul_left _ _ hc, Nat.mul_assoc]
  rw [roundDiv_mul hc]

/-- An integer with at most 53 significant bits. -/
def Rep (k : Nat) : Prop := 2 ^ (Nat.log2 k - 52) ∣ k

theorem Rep.rnd {k : Nat} (h : Rep k) : rndNat k 1 = k := by
  unfold rndNat
  simp only [Nat.div_one, Nat.one_mul]
  rw [roundDiv_dvd (by positivity) h, Nat.div_mul_cancel h]

theorem rep_mul {m s : Nat} (hm : m ≤ 2 ^ 53) : Rep (m * 2 ^ s) := by
  unfold Rep
  rcases Nat.lt_or_ge m (2 ^ 53) with h | h
  · refine dvd_trans (pow_dvd_pow 2 ?_) (dvd_mul_left _ _)
    by_cases h0 : m * 2 ^ s = 0
    · rw [h0, Nat.log2_zero]; omega
    have : Nat.log2 (m * 2 ^ s) < 53 + s := by
      rw [Nat.log2_lt h0, Nat.pow_add]
      exact Nat.mul_lt_mul_of_pos_right h (by positivity)
    omega
  · have : m = 2 ^ 53 := le_antisymm hm h
    rw [this, ← Nat.pow_add, Nat.log2_two_pow]
    exact pow_dvd_pow 2 (by omega)

theorem rndNat_rep (n d : Nat) : Rep (rndNat n d) := by
  unfold rndNat
  refine rep_mul ?_
  set q := n / d with hq
  set s := Nat.log2 q - 52 with hs
  have h1 : n / (d * 2 ^ s) < 2 ^ 53 := by
    rw [← Nat.div_div_eq_div_mul, ← hq, Nat.div_lt_iff_lt_mul (by positivity), ← Nat.pow_add]
    by_cases h0 : q = 0
    · rw [h0]; positivity
    · rw [← Nat.log2_lt h0]
      omega
  have := roundDiv_le n (d * 2 ^ s)
  omega

theorem rndNat_err {n d : Nat} (hd : 0 < d) :
    |(rndNat n d : ℝ) - n / d| ≤ 2⁻¹ ^ 53 * (n / d) + (if d ∣ n then 0 else 1 / 2) := by
  have hd' : (0 : ℝ) < d := by exact_mod_cast hd
  have hn0 : (0 : ℝ) ≤ (n : ℝ) / d := by positivity
  unfold rndNat
  set q := n / d with hq
  set s := Nat.log2 q - 52 with hs
  have hp : (0 : ℝ) < 2 ^ s := by positivity
  by_cases h0 : s = 0
  · simp only [h0, pow_zero, mul_one]
    split
    · rename_i h
      rw [roundDiv_dvd hd h, Nat.cast_div h hd'.ne']
      simp only [sub_self, abs_zero]
      positivity
    · refine (roundDiv_err hd).trans ?_
      have : (0 : ℝ) ≤ 2⁻¹ ^ 53 * ((n : ℝ) / d) := by positivity
      linarith
  · have hq0 : q ≠ 0 := by
      intro h
      rw [h, Nat.log2_zero] at hs
      omega
    have hlow : 2 ^ (s + 52) ≤ q := by
      rw [← Nat.le_log2 hq0]
      omega
    have hlow' : (2 : ℝ) ^ (s + 52) ≤ (n : ℝ) / d := by
      have h1 : ((2 ^ (s + 52) : ℕ) : ℝ) ≤ q := by exact_mod_cast hlow
      have h2 : (q : ℝ) ≤ (n : ℝ) / d := Nat.cast_div_le
      push_cast at h1
      linarith
    have h1 := roundDiv_err (n := n) (d := d * 2 ^ s) (by positivity)
    push_cast at h1 ⊢
    have e : (roundDiv n (d * 2 ^ s) : ℝ) * 2 ^ s - n / d
        = ((roundDiv n (d * 2 ^ s) : ℝ) - n / (d * 2 ^ s)) * 2 ^ s := by
      field_simp
    rw [e, abs_mul, abs_of_pos hp]
    have h2 := mul_le_mul_of_nonneg_right h1 hp.le
    refine h2.trans ?_
    have h3 : (1 : ℝ) / 2 * 2 ^ s = 2⁻¹ ^ 53 * 2 ^ (s + 52) := by
      rw [pow_add]
      norm_num
      ring
    rw [h3]
    have h4 := mul_le_mul_of_nonneg_left hlow' (by positivity : (0 : ℝ) ≤ 2⁻¹ ^ 53)
    split <;> linarith

/-- Integer square root, bit by bit: the largest `r` with `r² ≤ n` among those that agree with `acc`
above bit `b`. -/
def isqrtGo (n : Nat) : Nat → Nat → Nat
  | 0, acc => acc
  | b + 1, acc => isqrtGo n b (if (acc + 2 ^ b) ^ 2 ≤ n then acc + 2 ^ b else acc)

/-- Integer square root. -/
def isqrt (n : Nat) : Nat := isqrtGo n (Nat.log2 n / 2 + 1) 0

theorem isqrtGo_spec (n b acc : Nat) (h1 : acc ^ 2 ≤ n) (h2 : n < (acc + 2 ^ b) ^ 2) :
    isqrtGo n b acc ^ 2 ≤ n ∧ n < (isqrtGo n b acc + 1) ^ 2 := by
  induction b generalizing acc with
  | zero => exact ⟨h1, by simpa [isqrtGo] using h2⟩
  | succ b ih =>
    unfold isqrtGo
    split
    · rename_i h
      refine ih _ h ?_
      rwa [add_assoc, ← two_mul, ← pow_succ']
    · rename_i h
      exact ih _ h1 (not_le.mp h)

theorem isqrt_spec (n : Nat) : isqrt n ^ 2 ≤ n ∧ n < (isqrt n + 1) ^ 2 := by
  refine isqrtGo_spec n _ 0 (by simp) ?_
  rw [zero_add, ← pow_mul]
  by_cases h : n = 0
  · rw [h]; positivity
  rw [← Nat.log2_lt h]
  omega

/-- `√n` rounded to 53 significant bits. -/
def rndSqrt (n : Nat) : Nat :=
  let s := Nat.log2 (isqrt n) - 52
  let m := isqrt (n / 4 ^ s)
  (if (2 * m + 1) ^ 2 * 4 ^ s < 4 * n then m + 1 else m) * 2 ^ s

theorem rndSqrt_rep (n : Nat) : Rep (rndSqrt n) := by
  unfold rndSqrt
  refine rep_mul ?_
  set s := Nat.log2 (isqrt n) - 52 with hs
  have h1 : isqrt (n / 4 ^ s) < 2 ^ 53 := by
    have h2 := (isqrt_spec (n / 4 ^ s)).1
    have h3 : n < (2 ^ (53 + s)) ^ 2 := by
      refine (isqrt_spec n).2.trans_le (Nat.pow_le_pow_left ?_ 2)
      by_cases h0 : isqrt n = 0
      · rw [h0]
        have : 0 < 2 ^ (53 + s) := by positivity
        omega
      · have : isqrt n < 2 ^ (53 + s) := by
          rw [← Nat.log2_lt h0]
          omega
        omega
    by_contra hc
    have h4 : (2 ^ 53) ^ 2 ≤ n / 4 ^ s := (Nat.pow_le_pow_left (not_lt.mp hc) 2).trans h2
    rw [Nat.le_div_iff_mul_le (by positivity)] at h4
    have h5 : (2 ^ (53 + s)) ^ 2 = (2 ^ 53) ^ 2 * 4 ^ s := by
      rw [pow_add, mul_pow]
      congr 1
      rw [← pow_mul, mul_comm, pow_mul]
      norm_num
    omega
  split <;> omega

theorem rndSqrt_err {n : Nat} (hn : 2 ^ 106 ≤ n) :
    |(rndSqrt n : ℝ) - √(n : ℝ)| ≤ 2⁻¹ ^ 53 * √(n : ℝ) := by
  unfold rndSqrt
  set s := Nat.log2 (isqrt n) - 52 with hs
  set m := isqrt (n / 4 ^ s) with hm
  obtain ⟨a1, a2⟩ := isqrt_spec n
  obtain ⟨b1, b2⟩ := isqrt_spec (n / 4 ^ s)
  rw [← hm] at b1 b2
  have hp : (0 : ℝ) < 2 ^ s := by positivity
  have h4 : (4 : ℝ) ^ s = (2 ^ s) ^ 2 := by
    rw [← pow_mul, mul_comm, pow_mul]; norm_num
  have hq0 : isqrt n ≠ 0 := by
    intro h
    rw [h] at a2
    omega
  -- lower bound of the root
  have hq53 : 2 ^ 53 ≤ isqrt n := by
    by_contra hc
    have : (isqrt n + 1) ^ 2 ≤ (2 ^ 53) ^ 2 := Nat.pow_le_pow_left (by omega) 2
    omega
  have hlog : 53 ≤ Nat.log2 (isqrt n) := (Nat.le_log2 hq0).mpr hq53
  have hlow : 2 ^ (s + 52) ≤ isqrt n := by
    rw [← Nat.le_log2 hq0]
    omega
  have hlow' : (2 : ℝ) ^ (s + 52) ≤ √(n : ℝ) := by
    refine Real.le_sqrt_of_sq_le ?_
    have : (2 ^ (s + 52)) ^ 2 ≤ n := (Nat.pow_le_pow_left hlow 2).trans a1
    exact_mod_cast this
  -- the root in units of `2^s`
  set t := √(n : ℝ) / 2 ^ s with ht
  have hst : √(n : ℝ) = t * 2 ^ s := by rw [ht]; field_simp
  have ht0 : 0 ≤ t := by positivity
  have ht2 : t ^ 2 * 4 ^ s = n := by
    rw [ht, div_pow, Real.sq_sqrt (by positivity), h4]
    field_simp
  have c1 : (m : ℝ) ≤ t := by
    have h1 : m ^ 2 * 4 ^ s ≤ n := by
      rw [← Nat.le_div_iff_mul_le (by positivity)]
      exact b1
    have h2 : (m : ℝ) ^ 2 * 4 ^ s ≤ t ^ 2 * 4 ^ s := by
      rw [ht2]
      exact_mod_cast h1
    have h3 : (m : ℝ) ^ 2 ≤ t ^ 2 := le_of_mul_le_mul_right h2 (by positivity)
    exact (abs_le_of_sq_le_sq' h3 ht0).2
  have c2 : t < m + 1 := by
    have h1 : n < (m + 1) ^ 2 * 4 ^ s := by
      rw [← Nat.div_lt_iff_lt_mul (by positivity)]
      exact b2
    have h2 : t ^ 2 * 4 ^ s < ((m : ℝ) + 1) ^ 2 * 4 ^ s := by
      rw [ht2]
      exact_mod_cast h1
    have h3 : t ^ 2 < ((m : ℝ) + 1) ^ 2 := lt_of_mul_lt_mul_right h2 (by positivity)
    exact (abs_lt_of_sq_lt_sq' h3 (by positivity)).2
  have key : |((if (2 * m + 1) ^ 2 * 4 ^ s < 4 * n then m + 1 else m : ℕ) : ℝ) - t| ≤ 1 / 2 := by
    have h1 : (2 * m + 1) ^ 2 * 4 ^ s < 4 * n ↔ (m : ℝ) + 1 / 2 < t := by
      have e1 : (2 * m + 1) ^ 2 * 4 ^ s < 4 * n ↔ (2 * (m : ℝ) + 1) ^ 2 * 4 ^ s < 4 * (t ^ 2 * 4 ^ s) := by
        rw [ht2]
        exact_mod_cast Iff.rfl
      rw [e1]
      have e2 : (4 : ℝ) * (t ^ 2 * 4 ^ s) = (2 * t) ^ 2 * 4 ^ s := by ring
      rw [e2, mul_lt_mul_iff_left₀ (by positivity), sq_lt_sq₀ (by positivity) (by positivity)]
      constructor <;> intro h <;> linarith
    split
    · rename_i h
      have := h1.mp h
      push_cast
      rw [abs_le]
      constructor <;> linarith
    · rename_i h
      have := not_lt.mp (fun h' => h (h1.mpr h'))
      rw [abs_le]
      constructor <;> linarith
  rw [Nat.cast_mul, hst]
  push_cast at key ⊢
  rw [← sub_mul, abs_mul, abs_of_pos hp, ← hst]
  refine (mul_le_mul_of_nonneg_right key hp.le).trans ?_
  have h3 : (1 : ℝ) / 2 * 2 ^ s = 2⁻¹ ^ 53 * 2 ^ (s + 52) := by
    rw [pow_add]
    norm_num
    ring
  rw [h3]
  exact mul_le_mul_of_nonneg_left hlow' (by positivity)

/-- Numbers are integer multiples of `1 / unit`. -/
def unit : Nat := 2 ^ 1074

/-- Magnitudes from `huge` on overflow. -/
def huge : Nat := 2 ^ 2098

theorem unit_eq : unit = 2 ^ 1074 := rfl
theorem huge_eq : huge = 2 ^ 2098 := rfl
theorem unit_pos : 0 < unit := Nat.two_pow_pos _
theorem huge_pos : 0 < huge := Nat.two_pow_pos _

attribute [irreducible] unit huge

/-- A double: `±k / unit`, an infinity, or NaN. -/
inductive F64 where
  | num (neg : Bool) (k : Nat) (h : Rep k ∧ k < huge)
  | inf (neg : Bool)
  | nan

namespace F64

/-- A rounded magnitude with a sign. -/
def pack (neg : Bool) (k : Nat) (h : Rep k) : F64 :=
  if hk : k < huge then num neg k ⟨h, hk⟩ else inf neg

theorem pack_eq {a : Bool} {n k : Nat} (h : Rep n) (e : n = k) (hk : Rep k ∧ k < huge) :
    pack a n h = num a k hk := by
  subst e
  exact dif_pos hk.2

/-- `±(n / d) / unit`, rounded. -/
def mk (neg : Bool) (n d : Nat) : F64 := pack neg (rndNat n d) (rndNat_rep n d)

/-- signed magnitude -/
def int (neg : Bool) (k : Nat) : Int := if neg then -(k : Int) else k

def neg : F64 → F64
  | num a k h => num (!a) k h
  | inf a => inf (!a)
  | nan => nan

def add : F64 → F64 → F64
  | num a k _, num b l _ =>
    if a = b then mk a (k + l) 1
    else if l ≤ k then mk (if k = l then false else a) (k - l) 1 else mk b (l - k) 1
  | num _ _ _, inf b => inf b
  | inf a, num _ _ _ => inf a
  | inf a, inf b => if a = b then inf a else nan
  | _, _ => nan

def mul : F64 → F64 → F64
  | num a k _, num b l _ => mk (a != b) (k * l) unit
  | num a k _, inf b => if k = 0 then nan else inf (a != b)
  | inf a, num b l _ => if l = 0 then nan else inf (a != b)
  | inf a, inf b => inf (a != b)
  | _, _ => nan

theorem rep_zero : Rep 0 ∧ 0 < huge := ⟨dvd_zero _, huge_pos⟩

def div : F64 → F64 → F64
  | num a k _, num b l _ =>
    if l = 0 then (if k = 0 then nan else inf (a != b)) else mk (a != b) (k * unit) l
  | num a _ _, inf b => num (a != b) 0 rep_zero
  | inf a, num b _ _ => inf (a != b)
  | _, _ => nan

def sqrt : F64 → F64
  | num a k h =>
    if a = false then pack false (rndSqrt (k * unit)) (rndSqrt_rep _)
    else if k = 0 then num a k h else nan
  | inf false => inf false
  | _ => nan

def ltb : F64 → F64 → Bool
  | num a k _, num b l _ => decide (int a k < int b l)
  | num _ _ _, inf b => !b
  | inf a, num _ _ _ => a
  | inf a, inf b => a && !b
  | _, _ => false

def leb : F64 → F64 → Bool
  | num a k _, num b l _ => decide (int a k ≤ int b l)
  | num _ _ _, inf b => !b
  | inf a, num _ _ _ => a
  | inf a, inf b => a || !b
  | _, _ => false

def eqb : F64 → F64 → Bool
  | num a k _, num b l _ => decide (int a k = int b l)
  | inf a, inf b => a == b
  | _, _ => false

instance : Zero F64 := ⟨num false 0 rep_zero⟩
instance : One F64 := ⟨mk false unit 1⟩
instance : Neg F64 := ⟨neg⟩
instance : Add F64 := ⟨add⟩
instance : Sub F64 := ⟨fun a b => add a (neg b)⟩
instance : Mul F64 := ⟨mul⟩
instance : Div F64 := ⟨div⟩

instance : Scalar F64 where
  sqrt := sqrt
  ltb := ltb
  leb := leb
  eqb := eqb
  ofInt i := mk (decide (i < 0)) (i.natAbs * unit) 1
  dec m e := mk (decide (m < 0)) (m.natAbs * unit) (10 ^ e)

/-- sign as a number -/
noncomputable def sgn (neg : Bool) : ℝ := if neg then -1 else 1

theorem abs_sgn (a : Bool) : |sgn a| = 1 := by cases a <;> simp [sgn]
theorem sgn_xor (a b : Bool) : sgn (a != b) = sgn a * sgn b := by cases a <;> cases b <;> simp [sgn]
theorem sgn_not (a : Bool) : sgn (!a) = -sgn a := by cases a <;> simp [sgn]
theorem sgn_lt (i : Int) : sgn (decide (i < 0)) * (i.natAbs : ℝ) = i := by
  unfold sgn
  by_cases h : i < 0
  · have : ((i.natAbs : ℤ) : ℝ) = ((-i : ℤ) : ℝ) := by congr 1; omega
    simp only [h, decide_true, if_true]
    rw [← Int.cast_natCast, this]
    push_cast
    ring
  · have : ((i.natAbs : ℤ) : ℝ) = (i : ℝ) := by congr 1; omega
    simp only [h, decide_false, Bool.false_eq_true, if_false]
    rw [← Int.cast_natCast, this]
    ring

/-- value -/
noncomputable def toR : F64 → ℝ
  | num a k _ => sgn a * (k / unit)
  | _ => 0

/-- finite -/
def fin : F64 → Prop
  | num _ _ _ => True
  | _ => False

theorem unit_pos' : (0 : ℝ) < (unit : ℝ) := by exact_mod_cast unit_pos

theorem pack_fin {a : Bool} {k : Nat} {h : Rep k} (hf : (pack a k h).fin) :
    (pack a k h).toR = sgn a * (k / unit) := by
  unfold pack at hf ⊢
  by_cases hk : k < huge
  · rw [dif_pos hk]
    rfl
  · rw [dif_neg hk] at hf
    exact absurd hf id

theorem mk_err {a : Bool} {n d : Nat} (hd : 0 < d) (hf : (mk a n d).fin) {x : ℝ}
    (hx : x = sgn a * (n / d / unit)) :
    |(mk a n d).toR - x| ≤ 2⁻¹ ^ 53 * |x| + (if d ∣ n then (0 : ℝ) else 1 / 2 / unit) := by
  have hU := unit_pos'
  have e1 : (mk a n d).toR = sgn a * (rndNat n d / unit) := pack_fin hf
  rw [e1, hx]
  have e2 : sgn a * ((rndNat n d : ℝ) / unit) - sgn a * ((n : ℝ) / d / unit)
      = sgn a * (((rndNat n d : ℝ) - n / d) / unit) := by ring
  have h1 : (0 : ℝ) ≤ (n : ℝ) / d := by positivity
  rw [e2, abs_mul, abs_sgn, one_mul, abs_mul, abs_sgn, one_mul, abs_div, abs_of_pos hU,
    abs_of_nonneg (by positivity : (0 : ℝ) ≤ (n : ℝ) / d / unit)]
  have h2 := div_le_div_of_nonneg_right (rndNat_err (n := n) hd) hU.le
  refine h2.trans (le_of_eq ?_)
  rw [add_div, mul_div_assoc]
  congr 1
  split
  · exact zero_div _
  · rfl

theorem mk_err' {a : Bool} {n d : Nat} (hd : 0 < d) (hf : (mk a n d).fin) {x : ℝ}
    (hx : x = sgn a * (n / d / unit)) :
    |(mk a n d).toR - x| ≤ 2⁻¹ ^ 53 * |x| + 1 / 2 / unit := by
  refine (mk_err hd hf hx).trans (add_le_add le_rfl ?_)
  have hU := unit_pos'
  split
  · positivity
  · exact le_rfl

theorem mk_err_one {a : Bool} {n : Nat} (hf : (mk a n 1).fin) {x : ℝ}
    (hx : x = sgn a * (n / unit)) : |(mk a n 1).toR - x| ≤ 2⁻¹ ^ 53 * |x| := by
  have := mk_err one_pos hf (x := x) (by rw [hx]; simp)
  rwa [if_pos (one_dvd n), add_zero] at this

theorem add_spec {a b : F64} (hf : (add a b).fin) : a.fin ∧ b.fin ∧
    |(add a b).toR - (a.toR + b.toR)| ≤ 2⁻¹ ^ 53 * |a.toR + b.toR| := by
  cases a with
  | nan => exact absurd hf id
  | inf a =>
    cases b with
    | num b l _ => exact absurd hf id
    | inf b =>
      exfalso
      change (if a = b then inf a else nan).fin at hf
      split at hf <;> exact hf
    | nan => exact absurd hf id
  | num a k _ =>
    cases b with
    | nan => exact absurd hf id
    | inf b => exact absurd hf id
    | num b l _ =>
      refine ⟨trivial, trivial, ?_⟩
      simp only [toR, add] at hf ⊢
      have hU := unit_pos'
      by_cases hab : a = b
      · subst hab
        rw [if_pos rfl] at hf ⊢
        exact mk_err_one hf (by push_cast; ring)
      · have hs : sgn b = -sgn a := by
          cases a <;> cases b <;> simp_all [sgn]
        rw [if_neg hab] at hf ⊢
        by_cases hkl : l ≤ k
        · rw [if_pos hkl] at hf ⊢
          refine mk_err_one hf ?_
          rw [Nat.cast_sub hkl, hs]
          by_cases he : k = l
          · subst he
            simp
          · rw [if_neg he]
            ring
        · rw [if_neg hkl] at hf ⊢
          refine mk_err_one hf ?_
          rw [Nat.cast_sub (by omega), hs]
          ring

theorem neg_fin {a : F64} (h : a.neg.fin) : a.fin ∧ a.neg.toR = -a.toR := by
  cases a with
  | num a k h =>
    refine ⟨trivial, ?_⟩
    simp only [neg, toR, sgn_not]
    ring
  | inf a => exact absurd h id
  | nan => exact absurd h id

theorem mul_spec {a b : F64} (hf : (mul a b).fin) : a.fin ∧ b.fin ∧
    |(mul a b).toR - a.toR * b.toR| ≤ 2⁻¹ ^ 53 * |a.toR * b.toR| + 1 / 2 / unit := by
  cases a with
  | nan => exact absurd hf id
  | inf a =>
    cases b with
    | num b l _ =>
      exfalso
      change (if l = 0 then nan else inf (a != b)).fin at hf
      split at hf <;> exact hf
    | inf b => exact absurd hf id
    | nan => exact absurd hf id
  | num a k _ =>
    cases b with
    | nan => exact absurd hf id
    | inf b =>
      exfalso
      change (if k = 0 then nan else inf (a != b)).fin at hf
      split at hf <;> exact hf
    | num b l _ =>
      refine ⟨trivial, trivial, ?_⟩
      simp only [toR, mul] at hf ⊢
      refine mk_err' unit_pos hf ?_
      rw [sgn_xor]
      push_cast
      ring

theorem int_eq (a : Bool) (k : Nat) : ((int a k : ℤ) : ℝ) = sgn a * k := by
  cases a <;> simp [int, sgn]

theorem small_int (m : Int) (h : m.natAbs ≤ 1000) : ∃ h', (Scalar.dec m 0 : F64)
    = num (decide (m < 0)) (m.natAbs * unit) h' := by
  have hr : Rep (m.natAbs * unit) := by
    rw [unit_eq]
    exact rep_mul (h.trans (by norm_num))
  have hh : m.natAbs * unit < huge := by
    rw [unit_eq, huge_eq]
    calc m.natAbs * 2 ^ 1074 ≤ 2 ^ 10 * 2 ^ 1074 := Nat.mul_le_mul_right _ (h.trans (by norm_num))
      _ = 2 ^ 1084 := by rw [← Nat.pow_add]
      _ < 2 ^ 2098 := Nat.pow_lt_pow_right (by norm_num) (by norm_num)
  refine ⟨⟨hr, hh⟩, ?_⟩
  have e : rndNat (m.natAbs * unit) (10 ^ 0) = m.natAbs * unit := hr.rnd
  exact pack_eq (rndNat_rep _ _) e _

end F64

open F64 in
noncomputable instance : Ieee F64 where
  toR := toR
  fin := fin
  u := 2⁻¹ ^ 53
  eta := 1 / 2 / unit
  u_nonneg := by positivity
  u_lt_one := by norm_num
  eta_nonneg := by have := unit_pos'; positivity
  zero := ⟨trivial, by show sgn false * ((0 : ℕ) / unit) = 0; simp⟩
  neg a h := neg_fin h
  add a b h := add_spec h
  sub a b h := by
    obtain ⟨h1, h2, h3⟩ := add_spec h
    obtain ⟨h4, h5⟩ := neg_fin h2
    rw [h5] at h3
    rw [← sub_eq_add_neg] at h3
    exact ⟨h1, h4, h3⟩
  mul a b h := mul_spec h
  mulNonneg a b h h0 := by
    cases a with
    | num a k _ =>
      cases b with
      | num b l _ =>
        have hU := unit_pos'
        have e : (F64.mul (num a k ‹_›) (num b l ‹_›)).toR = sgn (a != b) * (rndNat (k * l) unit / unit) :=
          pack_fin (h := rndNat_rep _ _) h
        show 0 ≤ (F64.mul (num a k ‹_›) (num b l ‹_›)).toR
        rw [e]
        have h1 : sgn (a != b) * ((k : ℝ) / unit * (l / unit)) = toR (num a k ‹_›) * toR (num b l ‹_›) := by
          rw [sgn_xor]
          simp only [toR]
          ring
        rw [← h1] at h0
        cases hab : (a != b)
        · simp only [sgn, Bool.false_eq_true, if_false, one_mul]
          positivity
        · rw [hab] at h0
          simp only [sgn, if_true] at h0 ⊢
          have h2 : (k : ℝ) * l = 0 := by
            have : (0 : ℝ) ≤ (k : ℝ) / unit * (l / unit) := by positivity
            have h3 : (k : ℝ) / unit * (l / unit) = 0 := by linarith
            have h4 : (k : ℝ) * l / (unit * unit) = 0 := by rw [← h3]; ring
            rcases div_eq_zero_iff.mp h4 with h5 | h5
            · exact h5
            · exact absurd h5 (by positivity)
          have h3 : k * l = 0 := by exact_mod_cast h2
          have h4 : rndNat 0 unit = 0 := by
            unfold rndNat roundDiv
            simp [unit_pos]
          rw [h3, h4]
          simp
      | inf b => exact absurd (mul_spec h).2.1 id
      | nan => exact absurd (mul_spec h).2.1 id
    | inf a => exact absurd (mul_spec h).1 id
    | nan => exact absurd (mul_spec h).1 id
  mulSign m a hm h := by
    cases a with
    | nan => exact absurd h id
    | inf a => exact absurd h id
    | num a k hk =>
      have hm1 : m.natAbs = 1 := by omega
      obtain ⟨h', e⟩ := small_int m (by omega)
      rw [e]
      have e2 : (num (decide (m < 0)) (m.natAbs * unit) h' * num a k hk : F64)
          = num (decide (m < 0) != a) k hk := by
        have e3 : rndNat (m.natAbs * unit * k) unit = k := by
          have := rndNat_mul unit_pos k 1
          rw [hm1, Nat.one_mul]
          rw [Nat.mul_one] at this
          rw [this]
          exact hk.1.rnd
        exact pack_eq (rndNat_rep _ _) e3 _
      rw [e2]
      refine ⟨trivial, ?_⟩
      have := sgn_lt m
      rw [hm1] at this
      simp only [toR, sgn_xor]
      rw [← this]
      push_cast
      ring
  div a b h hb hb0 := by
    cases b with
    | nan => exact absurd hb id
    | inf b => exact absurd hb id
    | num b l hl =>
      have hl0 : l ≠ 0 := by
        intro h0
        subst h0
        exact hb0 (by simp [toR])
      cases a with
      | nan => exact absurd h id
      | inf a => exact absurd h id
      | num a k hk =>
        refine ⟨trivial, ?_⟩
        have e : (num a k hk / num b l hl : F64) = mk (a != b) (k * unit) l := if_neg hl0
        rw [e] at h ⊢
        have hU := unit_pos'
        have hl' : (0 : ℝ) < l := by exact_mod_cast Nat.pos_of_ne_zero hl0
        refine mk_err' (Nat.pos_of_ne_zero hl0) h ?_
        rw [sgn_xor]
        simp only [toR]
        have hs : sgn b * sgn b = 1 := by cases b <;> simp [sgn]
        have hs0 : sgn b ≠ 0 := fun h => by rw [h] at hs; simp at hs
        have hs1 : sgn b = 1 / sgn b := by field_simp; nlinarith
        rw [show sgn a * (k / unit) / (sgn b * (l / unit)) = sgn a * (1 / sgn b) * ((k / unit) / (l / unit)) by
          field_simp, ← hs1]
        push_cast
        field_simp
  sqrt a h := by
    cases a with
    | nan => exact absurd h id
    | inf a => cases a <;> exact absurd h id
    | num a k hk =>
      refine ⟨trivial, fun h0 => ?_⟩
      have hU := unit_pos'
      cases a
      · have e : (Scalar.sqrt (num false k hk) : F64) = pack false (rndSqrt (k * unit)) (rndSqrt_rep _) := by
          show F64.sqrt _ = _
          simp only [F64.sqrt, if_true]
        rw [e] at h ⊢
        rw [pack_fin h]
        simp only [toR, sgn, Bool.false_eq_true, if_false, one_mul]
        have hroot : √((k : ℝ) / unit) = √((k * unit : ℕ) : ℝ) / unit := by
          push_cast
          rw [show (k : ℝ) * unit = k / unit * (unit * unit) by field_simp,
            Real.sqrt_mul (by positivity), Real.sqrt_mul_self hU.le]
          field_simp
        rw [hroot]
        by_cases hk0 : k = 0
        · subst hk0
          have : rndSqrt (0 * unit) = 0 := by rw [Nat.zero_mul]; decide
          rw [this]
          simp
        · have hbig : 2 ^ 106 ≤ k * unit := by
            calc 2 ^ 106 ≤ 2 ^ 1074 := Nat.pow_le_pow_right (by norm_num) (by norm_num)
              _ = 1 * unit := by rw [unit_eq, Nat.one_mul]
              _ ≤ k * unit := Nat.mul_le_mul_right _ (Nat.pos_of_ne_zero hk0)
          have := div_le_div_of_nonneg_right (rndSqrt_err hbig) hU.le
          rw [← sub_div, abs_div, abs_of_pos hU]
          exact this.trans (le_of_eq (mul_div_assoc _ _ _))
      · by_cases hk0 : k = 0
        · subst hk0
          have e : (Scalar.sqrt (num true 0 hk) : F64) = num true 0 hk := by
            show F64.sqrt _ = _
            simp [F64.sqrt]
          rw [e]
          simp [toR]
        · exfalso
          have : (0 : ℝ) < k := by exact_mod_cast Nat.pos_of_ne_zero hk0
          have h2 : (0 : ℝ) < (k : ℝ) / unit := by positivity
          simp only [toR, sgn, if_true] at h0
          linarith
  ltb a b h1 h2 := by
    cases a with
    | nan => exact absurd h1 id
    | inf a => exact absurd h1 id
    | num a k _ =>
      cases b with
      | nan => exact absurd h2 id
      | inf b => exact absurd h2 id
      | num b l _ =>
        have hU := unit_pos'
        show decide (int a k < int b l) = true ↔ sgn a * (k / unit) < sgn b * (l / unit)
        rw [decide_eq_true_iff, ← Int.cast_lt (R := ℝ), int_eq, int_eq, ← mul_div_assoc, ← mul_div_assoc,
          div_lt_div_iff_of_pos_right hU]
  leb a b h1 h2 := by
    cases a with
    | nan => exact absurd h1 id
    | inf a => exact absurd h1 id
    | num a k _ =>
      cases b with
      | nan => exact absurd h2 id
      | inf b => exact absurd h2 id
      | num b l _ =>
        have hU := unit_pos'
        show decide (int a k ≤ int b l) = true ↔ sgn a * (k / unit) ≤ sgn b * (l / unit)
        rw [decide_eq_true_iff, ← Int.cast_le (R := ℝ), int_eq, int_eq, ← mul_div_assoc, ← mul_div_assoc,
          div_le_div_iff_of_pos_right hU]
  nonfin a h := by
    obtain ⟨g1, e1⟩ := small_int 1 (by norm_num)
    obtain ⟨g2, e2⟩ := small_int (-1) (by norm_num)
    have hne : (1 : Int).natAbs * unit ≠ 0 := by have := unit_pos; simp; omega
    have hne' : (-1 : Int).natAbs * unit ≠ 0 := by have := unit_pos; simp; omega
    cases a with
    | num a k _ => exact absurd trivial h
    | nan =>
      refine Or.inl fun b _ => ⟨rfl, ?_⟩
      rw [e1]
      rfl
    | inf a =>
      cases a
      · refine Or.inl fun b hb => ?_
        cases b with
        | num b l _ =>
          refine ⟨rfl, ?_⟩
          rw [e1]
          have : (num (decide ((1 : Int) < 0)) ((1 : Int).natAbs * unit) g1 * inf false : F64) = inf false :=
            if_neg hne
          rw [this]
          rfl
        | inf b => exact absurd hb id
        | nan => exact absurd hb id
      · refine Or.inr fun b hb => ?_
        cases b with
        | num b l _ =>
          refine ⟨rfl, ?_⟩
          rw [e2]
          have : (num (decide ((-1 : Int) < 0)) ((-1 : Int).natAbs * unit) g2 * inf true : F64) = inf false :=
            if_neg hne'
          rw [this]
          rfl
        | inf b => exact absurd hb id
        | nan => exact absurd hb id
  sqrt_ltb a b hb h := by
    have h' : F64.ltb (Scalar.sqrt a) b = true := h
    cases b with
    | nan => exact absurd hb id
    | inf b => exact absurd hb id
    | num b l _ =>
      cases hs : (Scalar.sqrt a : F64) with
      | num c k _ => exact trivial
      | nan => rw [hs] at h'; exact absurd h' (by simp [F64.ltb])
      | inf c =>
        cases c
        · rw [hs] at h'; exact absurd h' (by simp [F64.ltb])
        · exfalso
          have hs' : F64.sqrt a = inf true := hs
          cases a with
          | nan => simp [F64.sqrt] at hs'
          | inf a => cases a <;> simp [F64.sqrt] at hs'
          | num a k hk =>
            simp only [F64.sqrt] at hs'
            split at hs'
            · unfold pack at hs'
              split at hs' <;> simp at hs'
            · split at hs' <;> simp at hs'
  dec_int m h := by
    obtain ⟨h', e⟩ := small_int m h
    rw [e]
    refine ⟨trivial, ?_⟩
    have hU := unit_pos'
    show sgn _ * (((m.natAbs * unit : ℕ) : ℝ) / unit) = m
    push_cast
    rw [mul_div_assoc, div_self hU.ne', mul_one]
    exact sgn_lt m
  dec m e h := by
    have hU := unit_pos'
    have hf : (mk (decide (m < 0)) (m.natAbs * unit) (10 ^ e)).fin := by
      unfold mk pack
      rw [dif_pos]
      · trivial
      · have h1 := rndNat_err (n := m.natAbs * unit) (d := 10 ^ e) (by positivity)
        have h2 : (if 10 ^ e ∣ m.natAbs * unit then (0 : ℝ) else 1 / 2) ≤ 1 := by split <;> norm_num
        have h3 := (abs_le.mp h1).2
        have h4 : ((m.natAbs * unit : ℕ) : ℝ) / (10 ^ e : ℕ) ≤ 1000 * unit := by
          have : (1 : ℝ) ≤ ((10 ^ e : ℕ) : ℝ) := by exact_mod_cast Nat.one_le_pow _ _ (by norm_num)
          have h5 : ((m.natAbs * unit : ℕ) : ℝ) ≤ 1000 * unit := by
            push_cast
            exact mul_le_mul_of_nonneg_right (by exact_mod_cast h) hU.le
          exact (div_le_self (by positivity) this).trans h5
        have h6 : (1 : ℝ) ≤ unit := by exact_mod_cast unit_pos
        have h7 : (rndNat (m.natAbs * unit) (10 ^ e) : ℝ) < 2 ^ 12 * unit := by
          have : (2⁻¹ : ℝ) ^ 53 ≤ 1 := by norm_num
          nlinarith
        have h8 : rndNat (m.natAbs * unit) (10 ^ e) < 2 ^ 12 * unit := by exact_mod_cast h7
        refine h8.trans ?_
        rw [unit_eq, huge_eq, ← Nat.pow_add]
        exact Nat.pow_lt_pow_right (by norm_num) (by norm_num)
    refine ⟨hf, mk_err' (by positivity) hf ?_⟩
    have := sgn_lt m
    rw [← this]
    push_cast
    field_simp
  ofInt i h := by
    have hU := unit_pos'
    refine mk_err_one h ?_
    have := sgn_lt i
    rw [← this]
    push_cast
    field_simp

end Verif
