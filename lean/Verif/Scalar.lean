import Mathlib.Algebra.Order.Field.Basic
import Mathlib.Algebra.Order.Ring.Rat
import Mathlib.Analysis.Real.Sqrt

/-!
# Number interface

The model is generic in the number type. `Scalar` provides the operations beyond
`+ - * / 0 1` that the C code applies to `qp_real`. The class carries no laws: an instance can be
IEEE double arithmetic. `LawfulScalar` says that the operations are those of an ordered field
(exact arithmetic), `LawfulSqrt` that `sqrt` is the real square root.
-/

namespace Verif

/-- Operations on `qp_real` besides the ring and field operations. -/
class Scalar (K : Type) where
  /-- `sqrt` of `math.h` -/
  sqrt : K → K
  /-- `a < b` -/
  ltb : K → K → Bool
  /-- `a <= b` -/
  leb : K → K → Bool
  /-- `a == b` -/
  eqb : K → K → Bool
  /-- conversion from `qp_int` -/
  ofInt : Int → K
  /-- decimal literal `m * 10^(-e)` -/
  dec : Int → Nat → K

/-- Exact arithmetic: the comparisons and literals are those of an ordered field. -/
class LawfulScalar (K : Type) [Field K] [LinearOrder K] [Scalar K] : Prop where
  ltb_iff : ∀ a b : K, Scalar.ltb a b = true ↔ a < b
  leb_iff : ∀ a b : K, Scalar.leb a b = true ↔ a ≤ b
  eqb_iff : ∀ a b : K, Scalar.eqb a b = true ↔ a = b
  ofInt_eq : ∀ i : Int, (Scalar.ofInt i : K) = (i : K)
  dec_eq : ∀ (m : Int) (e : Nat), (Scalar.dec m e : K) = (m : K) / 10 ^ e

/-- `sqrt` is the nonnegative square root on nonnegative numbers. -/
class LawfulSqrt (K : Type) [Field K] [LinearOrder K] [Scalar K] : Prop where
  sqrt_nonneg : ∀ a : K, 0 ≤ (Scalar.sqrt a : K)
  sqrt_mul_self : ∀ a : K, 0 ≤ a → (Scalar.sqrt a : K) * Scalar.sqrt a = a

/-- Exact real arithmetic. -/
noncomputable instance : Scalar ℝ where
  sqrt := Real.sqrt
  ltb a b := decide (a < b)
  leb a b := decide (a ≤ b)
  eqb a b := decide (a = b)
  ofInt i := (i : ℝ)
  dec m e := (m : ℝ) / 10 ^ e

instance : LawfulScalar ℝ where
  ltb_iff a b := by simp [Scalar.ltb]
  leb_iff a b := by simp [Scalar.leb]
  eqb_iff a b := by simp [Scalar.eqb]
  ofInt_eq _ := rfl
  dec_eq _ _ := rfl

instance : LawfulSqrt ℝ where
  sqrt_nonneg := Real.sqrt_nonneg
  sqrt_mul_self _ h := Real.mul_self_sqrt h

/-- Exact rational arithmetic, used for executable examples of the routines that need no square
root (the square root is a dummy, `LawfulSqrt ℚ` is not claimed). -/
instance : Scalar ℚ where
  sqrt a := a
  ltb a b := decide (a < b)
  leb a b := decide (a ≤ b)
  eqb a b := decide (a = b)
  ofInt i := (i : ℚ)
  dec m e := (m : ℚ) / 10 ^ e

instance : LawfulScalar ℚ where
  ltb_iff a b := by simp [Scalar.ltb]
  leb_iff a b := by simp [Scalar.leb]
  eqb_iff a b := by simp [Scalar.eqb]
  ofInt_eq _ := rfl
  dec_eq _ _ := rfl

/-- IEEE double arithmetic as provided by Lean's `Float`. Only the law-free theorems apply. -/
instance : Scalar Float where
  sqrt := Float.sqrt
  ltb a b := a < b
  leb a b := a ≤ b
  eqb a b := a == b
  ofInt i := Float.ofInt i
  dec m e := Float.ofInt m / (10.0 ^ e.toFloat)

instance : Zero Float := ⟨0.0⟩
instance : One Float := ⟨1.0⟩

end Verif
