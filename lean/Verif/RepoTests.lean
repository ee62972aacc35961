import Verif.Double
import Verif.Model.Solver

/-!
# The unit tests of the repository, run on the model in double precision

Not proofs about the code, but a check of the model: `/repo/tests/stdaln.cpp` and
`/repo/tests/stdalnT.cpp` list expected results of the auxiliary functions; the model computes them.
-/

namespace Verif.RepoTests

/-- An integer as a double. -/
def d (i : Int) : F64 := Scalar.ofInt i

/-- An array of integers as doubles. -/
def v (l : List Int) : Buf F64 := l.map (fun i => some (d i))

/-- An array of integers. -/
def w (l : List Int) : Buf Int := l.map some

/-- The same number. -/
def eq (a b : F64) : Bool := Scalar.leb a b && Scalar.leb b a

/-- `ASSERT_NEAR(b, a, 1e-10)` -/
def near (b : Int) (r : M F64) : Bool :=
  match r with
  | .ok a => Scalar.leb (a - d b) (Scalar.dec 1 10) && Scalar.leb (d b - a) (Scalar.dec 1 10)
  | .error _ => false

/-- All elements are the given integers. -/
def is (l : List Int) (r : M (Buf F64)) : Bool :=
  match r with
  | .ok a => a.length == l.length && (a.zip l).all (fun e => match e.1 with
      | some x => eq x (d e.2)
      | none => false)
  | .error _ => false

/-- The matrix has the given arrays. -/
def isMat (jc ir : List Int) (pr : List F64) (r : M (Smat F64)) : Bool :=
  match r with
  | .ok a => a.jc == w jc && a.ir == w ir && a.pr.length == pr.length &&
      (a.pr.zip pr).all (fun e => match e.1 with
        | some x => eq x e.2
        | none => false)
  | .error _ => false

/-- The run stops with an access outside an array. -/
def outOfBounds {α : Type} (r : M α) : Bool :=
  match r with
  | .error .oob => true
  | _ => false

/-! ## stdaln.cpp -/

/-- lines 3-15 -/
example : (near 14 (innerproduct (v [1, 2, 3]) (v [1, 2, 3]) 3) &&
    near (-14) (innerproduct (v [1, 2, 3]) (v [-1, -2, -3]) 3) &&
    near (-14) (innerproduct (v [-1, -2, -3]) (v [1, 2, 3]) 3) &&
    near 14 (innerproduct (v [-1, -2, -3]) (v [-1, -2, -3]) 3) &&
    near 0 (innerproduct (v [0, 0, 0]) (v [0, 0, 0]) 3)) = true := by decide +kernel

/-- lines 17-27 -/
example : (near 0 (do
      let x ← updatevariables (v [1, 2, 3, 4]) (v [-1, -2, -3, -4]) (d 1) 4
      innerproduct x (v [-1, -2, -3, -4]) 3) &&
    near 14 (do
      let x ← updatevariables (v [1, 2, 3, 4]) (v [-1, -2, -3, -4]) (d 1) 4
      let x ← updatevariables x (v [-1, -2, -3, -4]) (d 1) 4
      innerproduct x (v [-1, -2, -3, -4]) 3)) = true := by decide +kernel

/-- `formrho` for the vectors of lines 31-35 -/
def rho (a b : Int) (n : Int) : M F64 :=
  formrho (v [1, 2, 3]) (v [-1, -2, -3]) (v [-1, -2, -3]) (v [1, 2, 3]) (d a) (d b) n

/-- lines 29-43: the expected results, with the length 3 of the arrays -/
example : (near 1 (rho 0 0 3) && near 0 (rho 1 0 3) && near 0 (rho 0 1 3) && near 0 (rho 1 1 3) &&
    near 4 (rho (-1) (-1) 3) && near 9 (rho (-2) (-2) 3)) = true := by decide +kernel

/-- lines 37-42 call `formrho` with length 4: the tests read beyond the end of their arrays -/
example : ([(0, 0), (1, 0), (0, 1), (1, 1), (-1, -1), (-2, -2)].all
    (fun e => outOfBounds (rho e.1 e.2 4))) = true := by decide +kernel

/-- `innerproduct(lambda, lambda, 3)` after `formlambda` -/
def lam (s z : List Int) : M F64 := do
  let l ← formlambda (malloc 3) (v s) (v z) 3
  innerproduct l l 3

/-- lines 45-64 -/
example : (near 14 (lam [1, 2, 3] [1, 2, 3]) && near 14 (lam [3, 2, 1] [3, 2, 1]) &&
    near 10 (lam [1, 2, 3] [3, 2, 1]) &&
    is [0, 0, 0] (formlambda (malloc 3) (v [1, 2, 3]) (v [0, 0, 0]) 3)) = true := by decide +kernel

/-- lines 66-93 call `form_ds` with selectors 1, 2, 3, as documented in Auxilary.c 309-312, and check only
that `lambda` is unchanged; GlobalOptions.h 62-64 define the selectors 0, 1, 2, so that selector 3 stores
nothing -/
example : (is [-1, -4, -9] (form_ds (malloc 3) (v [1, 2, 3]) (v [-1, -2, -3]) (v [1, 2, 3]) (d 100) (d 0) 3 0) &&
    is [0, 0, 0] (form_ds (malloc 3) (v [1, 2, 3]) (v [-1, -2, -3]) (v [1, 2, 3]) (d 100) (d 0) 3 1) &&
    is [-1, -4, -9] (form_ds (malloc 3) (v [1, 2, 3]) (v [-1, -2, -3]) (v [1, 2, 3]) (d 100) (d 0) 3 2) &&
    is [7, 8, 9] (form_ds (v [7, 8, 9]) (v [1, 2, 3]) (v [-1, -2, -3]) (v [1, 2, 3]) (d 100) (d 0) 3 3))
    = true := by decide +kernel

/-- lines 95-113 -/
example : ([3, 2, 1].all (fun n =>
    match findsteplength (v [1, 2, 3]) (v [-1, -2, -3]) (v [-1, -2, -3]) (v [1, 2, 3]) n with
    | .ok a => near 1 (.ok a.1) && near 1 (.ok a.2)
    | .error _ => false)) = true := by decide +kernel

/-! ## stdalnT.cpp -/

/-- `A` of test.hpp -/
def A : Smat F64 := SparseMatrixSetup 2 2 4 (w [0, 2, 4]) (w [0, 1, 0, 1]) (v [1, 3, 2, 4])

/-- `P` of test.hpp -/
def P : Smat F64 := SparseMatrixSetup 2 2 2 (w [0, 1, 2]) (w [0, 1]) (v [1, 1])

/-- lines 4-26 -/
example : (is [-3, -7] (SparseMatrixMultiply A (v [1, 1]) (malloc 2) 1) &&
    is [0, 0] (SparseMatrixMultiply A (v [1, 1]) (v [3, 7]) 0)) = true := by decide +kernel

/-- lines 28-50 -/
example : (is [-4, -6] (SparseMatrixTransMultiply A (v [1, 1]) (malloc 2) 1) &&
    is [0, 0] (SparseMatrixTransMultiply A (v [1, 1]) (v [4, 6]) 0)) = true := by decide +kernel

/-- lines 52-72 -/
example : (near 3 (do
      let r ← obj_value P (v [1, 1]) (v [1, 1]) (malloc 2)
      pure r.1) &&
    near (-1) (do
      let r ← obj_value P (v [1, 1]) (v [-1, -1]) (malloc 2)
      pure r.1)) = true := by decide +kernel

/-- lines 74-103; `1.1` and `0.1` are rounded decimal numbers -/
example : (isMat [0, 2, 4, 6] [0, 2, 0, 2, 0, 2] [d 1, d 2, d 3, Scalar.dec 11 1, Scalar.dec 1 1, d 3]
      (densetosparse 3 3 ([d 1, d 0, d 2, d 3, d 0, Scalar.dec 11 1, Scalar.dec 1 1, d 0, d 3].map some)) &&
    isMat [0, 1] [1] [d 1] (densetosparse 3 1 (v [0, 1, 0]))) = true := by decide +kernel

/-- lines 105-134 -/
example : (isMat [0, 3, 3, 6] [0, 1, 2, 0, 1, 2] [d 1, d 3, Scalar.dec 1 1, d 2, Scalar.dec 11 1, d 3]
      (densetosparse_ROWMAJOR 3 3
        ([d 1, d 0, d 2, d 3, d 0, Scalar.dec 11 1, Scalar.dec 1 1, d 0, d 3].map some)) &&
    isMat [0, 1] [1] [d 1] (densetosparse_ROWMAJOR 3 1 (v [0, 1, 0]))) = true := by decide +kernel

/-- lines 136-170 -/
example : (isMat [0, 2, 4] [0, 1, 0, 1] [d 1, d 2, d 3, d 4]
      (SparseMatrixTranspose A (SparseMatrixSetup 2 2 4 (malloc 3) (malloc 4) (malloc 4))) &&
    isMat [0, 2, 4] [0, 1, 1, 2] [d 1, d 2, d 3, d 4]
      (SparseMatrixTranspose (SparseMatrixSetup 2 3 4 (w [0, 1, 3, 4]) (w [0, 0, 1, 1]) (v [1, 2, 3, 4]))
        (SparseMatrixSetup 3 2 4 (malloc 3) (malloc 4) (malloc 4)))) = true := by decide +kernel

end Verif.RepoTests
