import Verif.SpecRound

/-!
# More properties of rounded arithmetic

Used for the ratio test and the positivity of slacks and multipliers in rounded arithmetic (C66).
-/

namespace Verif

/-- Properties of IEEE-754 binary arithmetic with rounding to nearest that concern signs, overflow and
underflow. -/
class IeeeRatio (K : Type) [Zero K] [One K] [Add K] [Sub K] [Mul K] [Div K] [Neg K] [Scalar K]
    [Ieee K] : Prop where
  one : Ieee.fin (1 : K) ∧ Ieee.toR (1 : K) = 1
  /-- the constant `1e10` of the ratio test is exact -/
  big : Ieee.fin (Scalar.dec 10000000000 0 : K) ∧ Ieee.toR (Scalar.dec 10000000000 0 : K) = 10 ^ 10
  /-- the negative of a finite number is finite -/
  neg_fin : ∀ a : K, Ieee.fin a → Ieee.fin (-a)
  /-- rounding is symmetric -/
  neg_div : ∀ a b : K, Ieee.fin (-a / b) →
    Ieee.fin (-(a / b)) ∧ Ieee.toR (-(a / b)) = Ieee.toR (-a / b)
  /-- a quotient of finite numbers overflows only if it is large, and to infinity of the right sign -/
  div_big : ∀ a b : K, Ieee.fin a → Ieee.fin b → Ieee.toR b ≠ 0 → ¬ Ieee.fin (a / b) →
    10 ^ 12 ≤ |Ieee.toR a / Ieee.toR b| ∧
    (0 ≤ Ieee.toR a / Ieee.toR b → ∀ c : K, Ieee.fin c → Scalar.ltb (a / b) c = false)
  /-- small products do not overflow -/
  mul_small : ∀ a b : K, Ieee.fin a → Ieee.fin b → |Ieee.toR a| ≤ 1 → |Ieee.toR b| ≤ 10 ^ 12 →
    Ieee.fin (a * b)

end Verif
