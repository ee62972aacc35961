import Verif.SpecQp
import Mathlib.Data.Real.Basic
import Mathlib.Data.Nat.Log

/-!
# Rounded arithmetic

`Ieee K` lists properties of IEEE-754 binary arithmetic that the rounding-error theorems use:
operations are correct up to a relative error `u`, products, quotients also up to an absolute error
`eta` (gradual underflow), results may be infinite or NaN (`fin` fails), and a finite result of a
sum, difference, product or square root has finite operands. Exact arithmetic is the case
`u = eta = 0`.
-/

namespace Verif

/-- Rounded arithmetic with overflow and gradual underflow. -/
class Ieee (K : Type) [Zero K] [Add K] [Sub K] [Mul K] [Div K] [Neg K] [Scalar K] where
  /-- value of a finite number -/
  toR : K → ℝ
  /-- the number is finite (neither infinite nor NaN) -/
  fin : K → Prop
  /-- unit roundoff -/
  u : ℝ
  /-- underflow threshold -/
  eta : ℝ
  u_nonneg : 0 ≤ u
  u_lt_one : u < 1
  eta_nonneg : 0 ≤ eta
  zero : fin 0 ∧ toR 0 = 0
  neg : ∀ a : K, fin (-a) → fin a ∧ toR (-a) = -toR a
  add : ∀ a b : K, fin (a + b) → fin a ∧ fin b ∧
    |toR (a + b) - (toR a + toR b)| ≤ u * |toR a + toR b|
  sub : ∀ a b : K, fin (a - b) → fin a ∧ fin b ∧
    |toR (a - b) - (toR a - toR b)| ≤ u * |toR a - toR b|
  mul : ∀ a b : K, fin (a * b) → fin a ∧ fin b ∧
    |toR (a * b) - toR a * toR b| ≤ u * |toR a * toR b| + eta
  mulNonneg : ∀ a b : K, fin (a * b) → 0 ≤ toR a * toR b → 0 ≤ toR (a * b)
  /-- multiplication by one or minus one is exact -/
  mulSign : ∀ (m : Int) (a : K), m = 1 ∨ m = -1 → fin a →
    fin (Scalar.dec m 0 * a) ∧ toR (Scalar.dec m 0 * a) = m * toR a
  /-- a finite number divided by an infinite one is zero, hence the second hypothesis -/
  div : ∀ a b : K, fin (a / b) → fin b → toR b ≠ 0 → fin a ∧
    |toR (a / b) - toR a / toR b| ≤ u * |toR a / toR b| + eta
  sqrt : ∀ a : K, fin (Scalar.sqrt a) → fin a ∧ (0 ≤ toR a →
    |toR (Scalar.sqrt a) - √(toR a)| ≤ u * √(toR a))
  ltb : ∀ a b : K, fin a → fin b → (Scalar.ltb a b = true ↔ toR a < toR b)
  leb : ∀ a b : K, fin a → fin b → (Scalar.leb a b = true ↔ toR a ≤ toR b)
  /-- comparisons of NaN and of plus infinity with a number are false (first case); minus infinity is
  below every number and its negative is plus infinity (second case) -/
  nonfin : ∀ a : K, ¬ fin a →
    (∀ b : K, fin b → Scalar.leb a b = false ∧ Scalar.leb (Scalar.dec 1 0 * a) b = false) ∨
    (∀ b : K, fin b → Scalar.leb a b = true ∧ Scalar.leb (Scalar.dec (-1) 0 * a) b = false)
  /-- a square root is never minus infinity, and comparisons with NaN are false -/
  sqrt_ltb : ∀ a b : K, fin b → Scalar.ltb (Scalar.sqrt a) b = true → fin (Scalar.sqrt a)
  /-- small integer literals are exact -/
  dec_int : ∀ m : Int, m.natAbs ≤ 1000 → fin (Scalar.dec m 0 : K) ∧ toR (Scalar.dec m 0 : K) = m
  /-- decimal literals are rounded -/
  dec : ∀ (m : Int) (e : Nat), m.natAbs ≤ 1000 → fin (Scalar.dec m e : K) ∧
    |toR (Scalar.dec m e : K) - m / 10 ^ e| ≤ u * |(m : ℝ) / 10 ^ e| + eta
  ofInt : ∀ i : Int, fin (Scalar.ofInt i : K) →
    |toR (Scalar.ofInt i : K) - i| ≤ u * |(i : ℝ)|

/-- The same pattern with values `f`. -/
def Csc.map {K L : Type} (f : K → L) (A : Csc K) : Csc L :=
  { m := A.m, n := A.n, jc := A.jc, ir := A.ir, pr := fun k => f (A.pr k) }

/-- The same problem with converted numbers. -/
def Problem.map {K L : Type} (f : K → L) (pb : Problem K) : Problem L :=
  { P := pb.P.map f, A := pb.A.map f, G := pb.G.map f, c := fun i => f (pb.c i),
    b := fun i => f (pb.b i), h := fun i => f (pb.h i), sigma_d := f pb.sigma_d }

/-- Number of stored entries in row `r`. -/
def Csc.rowNnz {K : Type} (A : Csc K) (r : Nat) : Nat :=
  ∑ c ∈ Finset.range A.n, ((Finset.Ico (A.jc c) (A.jc (c + 1))).filter (fun k => A.ir k = r)).card

/-- Number of stored entries in column `c`. -/
def Csc.colNnz {K : Type} (A : Csc K) (c : Nat) : Nat := A.jc (c + 1) - A.jc c

/-- Bound on the error of a sum of `k` rounded products whose absolute values add up to `w`:
`((1+u)^(2k) - 1) w + k (1+u)^(2k) eta`. -/
noncomputable def errBound (u eta : ℝ) (k : Nat) (w : ℝ) : ℝ :=
  ((1 + u) ^ (2 * k) - 1) * w + k * (1 + u) ^ (2 * k) * eta

/-- Number of stored entries in row `r` of column `c`. -/
def Csc.cellNnz {K : Type} (A : Csc K) (r c : Nat) : Nat :=
  ((Finset.Ico (A.jc c) (A.jc (c + 1))).filter (fun k => A.ir k = r)).card

/-- Bound on the error of an entry of `L D Lᵀ` computed with `k` rounded operations: `a` is the size
of the entry of the matrix, `w` that of `|L| |D| |Lᵀ|`, `v` that of `|L| |D|`. -/
noncomputable def ldlBound (u eta : ℝ) (k : Nat) (a w v : ℝ) : ℝ :=
  ((1 + u) ^ (2 * k) - 1) * a + ((1 + u) ^ (2 * k) - 1 + u) / (1 - u) * w
    + (1 + u) ^ (2 * k) / (1 - u) * (eta * v) + k * (1 + u) ^ (2 * k) * eta

/-- Bound on the residual of the three triangular solves with the factor `L D Lᵀ` of size `n`, at row
`i`. `L`, `d`, `w` are the absolute values of the strict lower triangle, of the diagonal and of the
computed solution. With `e = (1+u)^(2n) - 1` the leading term is `(4e + u) |L| |D| |Lᵀ| |w|`; the
other terms are of higher order or multiples of the underflow threshold. -/
noncomputable def solveBound (u eta : ℝ) (n : Nat) (L : Csc ℝ) (d w : Nat → ℝ) (i : Nat) : ℝ :=
  let e := (1 + u) ^ (2 * n) - 1
  let a := n * (1 + u) ^ (2 * n) * eta
  let T := fun t => ∑ r ∈ Finset.range n, L.unitEntry r t * w r
  let Y := fun t => d t * (((1 + e) * T t + a) / (1 - e) + eta) / (1 - u)
  (2 * e * ∑ t ∈ Finset.range n, L.unitEntry i t * Y t + a) / (1 - e)
    + ∑ t ∈ Finset.range n, L.unitEntry i t *
        (u * Y t + eta * d t + d t * ((2 * e * T t + a) / (1 - e)))

/-- `d` is the pivot stored for the computed pivot `raw`: `raw` itself if it is larger than the
threshold `t` in size, else `v` with the sign of `raw` (minus for zero). Thresholds are the rounded
decimal numbers `1e-14` and `1e-7`. -/
def StoredPivot (u eta raw d : ℝ) : Prop :=
  ∃ t v : ℝ, |t - 1 / 10 ^ 14| ≤ u * (1 / 10 ^ 14) + eta ∧ |v - 1 / 10 ^ 7| ≤ u * (1 / 10 ^ 7) + eta ∧
    d = if |raw| ≤ t then (if raw ≤ 0 then -v else v) else raw

section

variable (K : Type) [Zero K] [Add K] [Sub K] [Mul K] [Div K] [Neg K] [Scalar K] [Ieee K]

/-- `errBound` for the arithmetic `K`. -/
noncomputable def Ieee.err (k : Nat) (w : ℝ) : ℝ := errBound (Ieee.u K) (Ieee.eta K) k w

/-- `v` is the Euclidean norm of the first `n` components of `r`, up to the rounding of `n`
products, their sum and a square root. -/
def IsRoundedNorm (n : Nat) (r : Nat → ℝ) (v : ℝ) : Prop :=
  ∃ d, 0 ≤ d ∧ |d - dot n r r| ≤ Ieee.err K n (dot n r r) ∧ |v - √d| ≤ Ieee.u K * √d

end

section

variable {K : Type} [Zero K] [Add K] [Sub K] [Mul K] [Div K] [Neg K] [Scalar K] [Ieee K]

open Ieee

/-- Bound on the error of entry `i ≤ r` of the factorisation `L D Lᵀ` of `A` permuted by `p`. -/
noncomputable def ldlErr (n : Nat) (A : Csc K) (p : Nat → Nat) (L : Csc K) (d : Nat → K)
    (i r : Nat) : ℝ :=
  ldlBound (u K) (eta K) (A.cellNnz (p i) (p r) + i) ((A.map (fun a => |toR a|)).entry (p i) (p r))
    (ldltEntry n (L.map (fun a => |toR a|)) (fun t => |toR (d t)|) i r)
    (∑ t ∈ Finset.range n, (L.map (fun a => |toR a|)).unitEntry i t * |toR (d t)|)

/-- Bound on the residual, in row `r`, of the solution `x` of a system with the matrix `A`, permuted by
`p` (inverse `q`), factored as `L D Lᵀ`: errors of the factorisation and of the solves. -/
noncomputable def kktErr (n : Nat) (A : Csc K) (p q : Nat → Nat) (L : Csc K) (d x : Nat → K)
    (r : Nat) : ℝ :=
  (∑ c ∈ Finset.range n, ldlErr n A p L d (min (q r) (q c)) (max (q r) (q c)) * |toR (x c)|)
    + solveBound (u K) (eta K) n (L.map (fun a => |toR a|)) (fun t => |toR (d t)|)
        (fun t => |toR (x (p t))|) (q r)

/-- Vectors of length `n`, `p` and more, one after the other. -/
def joinV (n p : Nat) (dx dy dz : Nat → K) (i : Nat) : K :=
  if i < n then dx i else if i < n + p then dy (i - n) else dz (i - n - p)

/-- Rounding error of the complementarity equation `z ds + s dz = t`. -/
noncomputable def compErr (t z s dz : K) : ℝ :=
  (1 + u K) * Ieee.err K 1 (|toR t| + |toR s * toR dz|) + u K * (|toR t| + |toR s * toR dz|)
    + eta K * |toR z|

/-- Rounding error made by eliminating `ds` from an equation of the inequality block with
right-hand side `r`. -/
noncomputable def slackErr (t z s r dz : K) : ℝ :=
  (u K * |toR s / toR z| + eta K) * |toR dz|
    + ((1 + u K) * (u K * |toR t / toR z| + eta K) + u K * |toR r - toR t / toR z|)
    + compErr t z s dz / |toR z|

/-- The problem with its numbers read as real numbers. -/
def Problem.real (pb : Problem K) : Problem ℝ := pb.map toR

/-- The problem with the absolute values of its numbers. -/
def Problem.abs (pb : Problem K) : Problem ℝ := pb.map (fun a => |toR a|)

/-- `(|P| |x| + |Gᵀ| |z| + |Aᵀ| |y| + |c|)_i` -/
def Problem.rxSize (pb : Problem K) (x y z : Nat → K) (i : Nat) : ℝ :=
  pb.abs.P.mulVec (fun j => |toR (x j)|) i + pb.abs.G.tmulVec (fun j => |toR (z j)|) i
    + pb.abs.A.tmulVec (fun j => |toR (y j)|) i + |toR (pb.c i)|

/-- `(|A| |x| + |b|)_i` -/
def Problem.rySize (pb : Problem K) (x : Nat → K) (i : Nat) : ℝ :=
  pb.abs.A.mulVec (fun j => |toR (x j)|) i + |toR (pb.b i)|

/-- `(|G| |x| + |h - s|)_i` -/
def Problem.rzSize (pb : Problem K) (x s : Nat → K) (i : Nat) : ℝ :=
  pb.abs.G.mulVec (fun j => |toR (x j)|) i + |toR (pb.h i) - toR (s i)|

/-- `nx`, `ny`, `nz` are the norms of the residuals of the point `x, y, z, s` up to rounding: they
are rounded norms of vectors that differ from the exact residuals, component by component, by at
most the rounding error of as many products as there are entries in the row. -/
structure Problem.RoundedNorms (pb : Problem K) (x y z s : Nat → K) (nx ny nz : ℝ) : Prop where
  rx : ∃ r, IsRoundedNorm K pb.n r nx ∧ ∀ i, i < pb.n →
    |r i - pb.real.rx (fun j => toR (x j)) (fun j => toR (y j)) (fun j => toR (z j)) i|
      ≤ Ieee.err K (pb.P.rowNnz i + pb.G.colNnz i + pb.A.colNnz i + 1) (pb.rxSize x y z i)
  ry : ∃ r, IsRoundedNorm K pb.p r ny ∧ ∀ i, i < pb.p →
    |r i - pb.real.ry (fun j => toR (x j)) i| ≤ Ieee.err K (pb.A.rowNnz i + 1) (pb.rySize x i)
  rz : ∃ r, IsRoundedNorm K pb.m r nz ∧ ∀ i, i < pb.m →
    |r i - pb.real.rz (fun j => toR (x j)) (fun j => toR (s j)) i|
      ≤ Ieee.err K (pb.G.rowNnz i + 1) (pb.rzSize x s i)

/-- `rx`, `ry`, `rz` are the residuals of the point `x, y, z, s` up to rounding. -/
structure Problem.RoundedResiduals (pb : Problem K) (x y z s rx ry rz : Nat → K) : Prop where
  rx : ∀ i, i < pb.n →
    |toR (rx i) - pb.real.rx (fun j => toR (x j)) (fun j => toR (y j)) (fun j => toR (z j)) i|
      ≤ Ieee.err K (pb.P.rowNnz i + pb.G.colNnz i + pb.A.colNnz i + 1) (pb.rxSize x y z i)
  ry : ∀ i, i < pb.p → |toR (ry i) - pb.real.ry (fun j => toR (x j)) i|
    ≤ Ieee.err K (pb.A.rowNnz i + 1) (pb.rySize x i)
  rz : ∀ i, i < pb.m → |toR (rz i) - pb.real.rz (fun j => toR (x j)) (fun j => toR (s j)) i|
    ≤ Ieee.err K (pb.G.rowNnz i + 1) (pb.rzSize x s i)

/-- Rounding error of the update `x + d a`. -/
noncomputable def stepErr (x d a : K) : ℝ := Ieee.err K 1 (|toR x| + |toR d * toR a|)

/-- The step of lengths `ap`, `ad` along `dx, dy, dz, ds` from `x, y, z, s` to `x', y', z', s'`
multiplies the primal residuals by `1 - ap`, and the dual one by `1 - ad` up to the term due to the
different step lengths, with errors from the linear solver (`F`), the diagonal perturbation (`e`), the
computed residuals and the update. -/
structure Problem.RoundedContraction (pb : Problem K) (F e : Nat → ℝ) (ap ad : K)
    (rz tgt x y z s dx dy dz ds x' y' z' s' : Nat → K) : Prop where
  rx : ∀ i, i < pb.n →
    |pb.real.rx (fun j => toR (x' j)) (fun j => toR (y' j)) (fun j => toR (z' j)) i
      - ((1 - toR ad) * pb.real.rx (fun j => toR (x j)) (fun j => toR (y j)) (fun j => toR (z j)) i
        + (toR ad - toR ap) * pb.real.P.mulVec (fun j => toR (dx j)) i)|
    ≤ |toR ad| * (F i + |e i * toR (dx i)|
        + Ieee.err K (pb.P.rowNnz i + pb.G.colNnz i + pb.A.colNnz i + 1) (pb.rxSize x y z i))
      + pb.abs.P.mulVec (fun j => stepErr (x j) (dx j) ap) i
      + pb.abs.G.tmulVec (fun j => stepErr (z j) (dz j) ad) i
      + pb.abs.A.tmulVec (fun j => stepErr (y j) (dy j) ad) i
  ry : ∀ i, i < pb.p →
    |pb.real.ry (fun j => toR (x' j)) i - (1 - toR ap) * pb.real.ry (fun j => toR (x j)) i|
    ≤ |toR ap| * (F (pb.n + i) + |e (pb.n + i) * toR (dy i)|
        + Ieee.err K (pb.A.rowNnz i + 1) (pb.rySize x i))
      + pb.abs.A.mulVec (fun j => stepErr (x j) (dx j) ap) i
  rz : ∀ i, i < pb.m →
    |pb.real.rz (fun j => toR (x' j)) (fun j => toR (s' j)) i
      - (1 - toR ap) * pb.real.rz (fun j => toR (x j)) (fun j => toR (s j)) i|
    ≤ |toR ap| * (F (pb.n + pb.p + i) + slackErr (tgt i) (z i) (s i) (rz i) (dz i)
        + |e (pb.n + pb.p + i) * toR (dz i)| + Ieee.err K (pb.G.rowNnz i + 1) (pb.rzSize x s i))
      + pb.abs.G.mulVec (fun j => stepErr (x j) (dx j) ap) i + stepErr (s i) (ds i) ap

/-- The direction `dx, dy, dz, ds` solves the Newton equations at the point with multipliers `z` and
slacks `s`, for the computed residuals `rx`, `ry`, `rz` and the complementarity targets `tgt`, with
the diagonal perturbation `e`, up to the error `F` of the linear solver and to rounding errors. -/
structure Problem.RoundedNewton (pb : Problem K) (F e : Nat → ℝ) (rx ry rz tgt z s dx dy dz ds : Nat → K) :
    Prop where
  /-- `(P + e) dx + Aᵀ dy + Gᵀ dz = rx` -/
  rx : ∀ i, i < pb.n → |pb.real.P.mulVec (fun j => toR (dx j)) i
    + pb.real.A.tmulVec (fun j => toR (dy j)) i + pb.real.G.tmulVec (fun j => toR (dz j)) i
    + e i * toR (dx i) - toR (rx i)| ≤ F i
  /-- `A dx + e dy = ry` -/
  ry : ∀ i, i < pb.p → |pb.real.A.mulVec (fun j => toR (dx j)) i + e (pb.n + i) * toR (dy i)
    - toR (ry i)| ≤ F (pb.n + i)
  /-- `G dx + ds + e dz = rz` -/
  rz : ∀ i, i < pb.m → |pb.real.G.mulVec (fun j => toR (dx j)) i + toR (ds i)
    + e (pb.n + pb.p + i) * toR (dz i) - toR (rz i)|
      ≤ F (pb.n + pb.p + i) + slackErr (tgt i) (z i) (s i) (rz i) (dz i)
  /-- `z ds + s dz = tgt` -/
  comp : ∀ i, i < pb.m → |toR (z i) * toR (ds i) + toR (s i) * toR (dz i) - toR (tgt i)|
    ≤ compErr (tgt i) (z i) (s i) (dz i)

/-- `mu` is the average complementarity up to rounding: `d/k`, rounded, where `d` is the rounded
inner product and `k` the rounded number of constraints. -/
def Problem.RoundedGap (pb : Problem K) (z s : Nat → K) (mu : ℝ) : Prop :=
  ∃ d k : ℝ, |d - dot pb.m (fun i => toR (s i)) (fun i => toR (z i))|
      ≤ Ieee.err K pb.m (dot pb.m (fun i => |toR (s i)|) (fun i => |toR (z i)|)) ∧
    |k - pb.m| ≤ Ieee.u K * pb.m ∧ k ≠ 0 ∧ |mu - d / k| ≤ Ieee.u K * |d / k| + Ieee.eta K

end

end Verif
