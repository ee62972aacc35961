import Mathlib.Algebra.BigOperators.Group.Finset.Basic
import Mathlib.Algebra.BigOperators.Intervals
import Mathlib.Algebra.Order.BigOperators.Group.Finset
import Verif.Model.Auxilary

/-!
# Mathematical vocabulary of the property statements

Nothing here depends on how the code computes; these are the notions a reader of the English
properties has in mind.
-/

namespace Verif

open Finset

/-- A matrix in compressed-column form, as mathematical functions: column `c` consists of the
entries number `jc c, …, jc (c+1) - 1`, entry `k` sits in row `ir k` and has value `pr k`. -/
structure Csc (K : Type) where
  /-- number of rows -/
  m : Nat
  /-- number of columns -/
  n : Nat
  jc : Nat → Nat
  ir : Nat → Nat
  pr : Nat → K

namespace Csc

variable {K : Type}

/-- The same matrix with its values forgotten. -/
def pattern (A : Csc K) : Csc Unit :=
  { m := A.m, n := A.n, jc := A.jc, ir := A.ir, pr := fun _ => () }

/-- Number of stored entries. -/
def nnz (A : Csc K) : Nat := A.jc A.n

/-- The pattern is well formed: column pointers start at 0 and do not decrease, row indices are
in range. (Entries of a column may be unsorted or repeated.) -/
structure WF (A : Csc K) : Prop where
  jc0 : A.jc 0 = 0
  mono : ∀ c, c < A.n → A.jc c ≤ A.jc (c + 1)
  ir_lt : ∀ k, k < A.jc A.n → A.ir k < A.m

/-- Row indices increase strictly inside every column. -/
def Sorted (A : Csc K) : Prop :=
  ∀ c, c < A.n → ∀ k, A.jc c ≤ k → k + 1 < A.jc (c + 1) → A.ir k < A.ir (k + 1)

/-- Value of the matrix in row `r` and column `c` (repeated entries add up). -/
def entry [AddCommMonoid K] (A : Csc K) (r c : Nat) : K :=
  ∑ k ∈ Ico (A.jc c) (A.jc (c + 1)), if A.ir k = r then A.pr k else 0

/-- Every row has a stored entry. -/
def RowsNonempty (A : Csc K) : Prop := ∀ r, r < A.m → ∃ k, k < A.jc A.n ∧ A.ir k = r

/-- Row `r` of `A x`. -/
def mulVec [NonUnitalNonAssocSemiring K] (A : Csc K) (x : Nat → K) (r : Nat) : K :=
  ∑ c ∈ range A.n, A.entry r c * x c

/-- Row `c` of `Aᵀ z`. -/
def tmulVec [NonUnitalNonAssocSemiring K] (A : Csc K) (z : Nat → K) (c : Nat) : K :=
  ∑ r ∈ range A.m, A.entry r c * z r

end Csc

/-- The arrays of the C structure hold exactly the matrix `A`. -/
structure Smat.Is {K : Type} (S : Smat K) (A : Csc K) : Prop where
  m : S.m = A.m
  n : S.n = A.n
  nnz : S.nnz = A.nnz
  jc : Buf.Has S.jc (A.n + 1) (fun i => (A.jc i : Int))
  ir : Buf.Has S.ir A.nnz (fun k => (A.ir k : Int))
  pr : Buf.Has S.pr A.nnz A.pr

/-- A fully initialised array. -/
def Buf.ofFn {α : Type} (n : Nat) (f : Nat → α) : Buf α := (List.range n).map (fun i => some (f i))

theorem Buf.has_ofFn {α : Type} (n : Nat) (f : Nat → α) : Buf.Has (Buf.ofFn n f) n f := by
  intro i hi
  simp [Buf.ofFn, hi]

@[simp] theorem Buf.length_ofFn {α : Type} (n : Nat) (f : Nat → α) :
    (Buf.ofFn n f).length = n := by simp [Buf.ofFn]

/-- The C representation of a matrix. -/
def Csc.toSmat {K : Type} (A : Csc K) : Smat K :=
  { jc := Buf.ofFn (A.n + 1) (fun i => (A.jc i : Int))
    ir := Buf.ofFn A.nnz (fun k => (A.ir k : Int))
    pr := Buf.ofFn A.nnz A.pr
    n := A.n, m := A.m, nnz := A.nnz }

theorem Csc.toSmat_is {K : Type} (A : Csc K) : A.toSmat.Is A where
  m := rfl
  n := rfl
  nnz := rfl
  jc := Buf.has_ofFn _ _
  ir := Buf.has_ofFn _ _
  pr := Buf.has_ofFn _ _

/-- Inner product of the first `n` components. -/
def dot {K : Type} [NonUnitalNonAssocSemiring K] (n : Nat) (x y : Nat → K) : K :=
  ∑ i ∈ range n, x i * y i

/-- The matrix without rows. -/
def Csc.empty {K : Type} [Zero K] (n : Nat) : Csc K :=
  { m := 0, n := n, jc := fun _ => 0, ir := fun _ => 0, pr := fun _ => 0 }

/-- Entry `(r, c)` of the KKT matrix `[P Aᵀ Gᵀ; A 0 0; G 0 diag(d)]`. The block sizes are
`P.n`, `A.m`, `G.m`. -/
def kktEntry {K : Type} [AddCommMonoid K] (P A G : Csc K) (d : Nat → K) (r c : Nat) : K :=
  let n := P.n
  let p := A.m
  if r < n then
    if c < n then P.entry r c
    else if c < n + p then A.entry (c - n) r
    else G.entry (c - n - p) r
  else if r < n + p then
    if c < n then A.entry (r - n) c else 0
  else
    if c < n then G.entry (r - n - p) c
    else if r = c then d (r - n - p) else 0

/-- `f 0, …, f (n-1)` is a permutation of `0, …, n-1`. -/
def IsPerm (n : Nat) (f : Nat → Int) : Prop :=
  (∀ k, k < n → 0 ≤ f k ∧ f k < n) ∧ ∀ j k, j < n → k < n → f j = f k → j = k

/-- `p` and `q` are inverse permutations of `0, …, n-1`. -/
structure PermPair (n : Nat) (p q : Nat → Nat) : Prop where
  p_lt : ∀ i, i < n → p i < n
  q_lt : ∀ i, i < n → q i < n
  qp : ∀ i, i < n → q (p i) = i
  pq : ∀ i, i < n → p (q i) = i

/-- An optional permutation array (NULL stands for the identity) holds `p`. -/
def PermArg (n : Nat) (P : Option (Buf Int)) (p : Nat → Nat) : Prop :=
  match P with
  | some b => Buf.Has b n (fun i => (p i : Int))
  | none => ∀ i, i < n → p i = i

/-- Hypotheses on the arguments shared by symbolic and numeric factorisation: the arrays hold the
square matrix `A`, `p` and `q` are inverse permutations. -/
structure LdlArgs {K : Type} (n : Nat) (A : Csc K) (p q : Nat → Nat) (Ap Ai : Buf Int)
    (P : Option (Buf Int)) : Prop where
  wf : A.WF
  an : A.n = n
  am : A.m = n
  perm : PermPair n p q
  ap : Buf.Has Ap (n + 1) (fun i => (A.jc i : Int))
  ai : Buf.Has Ai A.nnz (fun i => (A.ir i : Int))
  p : PermArg n P p

/-- `A` has a stored entry in row `r` and column `c`. -/
def Csc.Stored {K : Type} (A : Csc K) (r c : Nat) : Prop :=
  ∃ k, A.jc c ≤ k ∧ k < A.jc (c + 1) ∧ A.ir k = r

/-- Positions below the diagonal where the factor `L` of a symmetric matrix has entries. `S j k`
says that the upper triangle of the matrix has an entry in row `j` and column `k`. Position
`(k, j)` is in the factor if the matrix has an entry there, or if an earlier column `t` has entries
in rows `j` and `k` (fill-in). -/
inductive LPattern (S : Nat → Nat → Prop) : Nat → Nat → Prop
  | entry {k j : Nat} : j < k → S j k → LPattern S k j
  | fill {k j t : Nat} : t < j → j < k → LPattern S k t → LPattern S j t → LPattern S k j

open Classical in
/-- Number of entries below the diagonal in column `j` of the `n × n` factor. -/
noncomputable def colCount (n : Nat) (S : Nat → Nat → Prop) (j : Nat) : Nat :=
  ((range n).filter (fun k => LPattern S k j)).card

/-- Entry of the unit lower triangular matrix whose part below the diagonal is `L`. -/
def Csc.unitEntry {K : Type} [AddCommMonoid K] [One K] (L : Csc K) (i j : Nat) : K :=
  if i = j then 1 else L.entry i j

/-- The arrays `Lp`, `Li`, `Lx`, `D` hold a factor: a strictly lower triangular `n × n` matrix `L`
with sorted columns, and a diagonal `d`. -/
structure HoldsFactor {K : Type} (n : Nat) (Lp Li : Buf Int) (Lx D : Buf K) (L : Csc K)
    (d : Nat → K) : Prop where
  wf : L.WF
  lm : L.m = n
  ln : L.n = n
  sorted : L.Sorted
  lower : ∀ c, c < n → ∀ r, L.Stored r c → c < r
  lp : Buf.Has Lp (n + 1) (fun j => (L.jc j : Int))
  li : Buf.Has Li L.nnz (fun k => (L.ir k : Int))
  lx : Buf.Has Lx L.nnz L.pr
  D : Buf.Has D n d

/-- Entry `(i, r)` of `L D Lᵀ` for a unit lower triangular matrix with strict part `L`. -/
def ldltEntry {K : Type} [Semiring K] (n : Nat) (L : Csc K) (d : Nat → K) (i r : Nat) : K :=
  ∑ t ∈ range n, L.unitEntry i t * d t * L.unitEntry r t

/-- No pivot was changed: the diagonal of `L D Lᵀ` is that of the matrix permuted by `p`. -/
def NoReg {K : Type} [Semiring K] (n : Nat) (A : Csc K) (p : Nat → Nat) (L : Csc K)
    (d : Nat → K) : Prop :=
  ∀ r, r < n → ldltEntry n L d r r = A.entry (p r) (p r)

/-- `x` solves `A x = b`. -/
def Csc.Solves {K : Type} [Semiring K] (A : Csc K) (x b : Nat → K) : Prop :=
  ∀ r, r < A.m → A.mulVec x r = b r

/-- The matrix is symmetric. -/
def Csc.Symm {K : Type} [AddCommMonoid K] (A : Csc K) : Prop :=
  ∀ r c, r < A.n → c < A.n → A.entry r c = A.entry c r

end Verif
