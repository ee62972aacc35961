import Verif.Model.Auxilary

/-!
# The checks of the project's own tests

`/repo/tests/include/test.hpp`. A check that returns `false` with a message in `msg` is modelled by
`some msg`, one that returns `true` by `none`. `check_matrix_symmetric`, `validate_kktmatrix` (called only by tests
that are commented out), `check_updatekktmatrix` (has no content) and `print_smat` are not modelled.
-/

namespace Verif

variable {K : Type} [Zero K] [One K] [Add K] [Sub K] [Mul K] [Div K] [Neg K] [Scalar K]

/-- `validate_smat`, lines 72-123. `finite` is `std::isfinite` (which implies the other two conditions of line
113). -/
def validate_smat (finite : K → Bool) (A : Smat K) : M (Option String) := do
  if A.nnz > A.m * A.n ∨ A.nnz ≤ 0 ∨ A.m ≤ 0 ∨ A.n ≤ 0 then pure (some "Size Check failed\n")
  else do
    let r ← forBrk 0 A.nnz () fun i _ => do
      let v ← rd A.ir i
      pure ((), decide (v < 0 ∨ v ≥ A.m))
    if r.2 then pure (some "Data integrity failed in ir\n")
    else do
      let r ← forBrk 0 A.n () fun i _ => do
        let v ← rd A.jc (i + 1)
        let w ← rd A.jc i
        pure ((), decide (v < w ∨ w > A.nnz))
      if r.2 then pure (some "Data integrity failed in jc\n")
      else do
        let v ← rd A.jc A.n
        if v ≠ A.nnz then pure (some "Data integrity failed in jc;jc[n]~=nnz\n")
        else do
          let r ← forBrk 0 A.nnz () fun i _ => do
            let v ← rd A.pr i
            pure ((), !finite v)
          if r.2 then pure (some "Data integrity failed in pr\n") else pure none

/-- The loops of lines 128-140 and 149-161, with `at' j i` the index of the dense entry; the state is `idx`. -/
def compareDense (at' : Int → Int → Int) (A : Smat K) (pr : Buf K) (m n : Int) : M Bool := do
  let r ← forBrk 0 n (0 : Int) fun j idx =>
    forBrk 0 m idx fun i idx => do
      let v ← rd pr (at' j i)
      if Scalar.eqb v 0 then pure (idx, false)
      else do
        let w ← rd A.pr idx
        pure (idx + 1, !Scalar.eqb v w)
  pure (!r.2)

/-- `compare_dmat_C_smat`, lines 125-144. -/
def compare_dmat_C_smat (A : Smat K) (pr : Buf K) (m n : Int) : M Bool :=
  compareDense (fun j i => j * m + i) A pr m n

/-- `compare_dmat_R_smat`, lines 146-165. -/
def compare_dmat_R_smat (A : Smat K) (pr : Buf K) (m n : Int) : M Bool :=
  compareDense (fun j i => i * n + j) A pr m n

/-- `validate_smat_smatT`, lines 167-244. The state of the last loops is `count` and the message. -/
def validate_smat_smatT (A At : Smat K) : M (Option String) := do
  let count : Buf Int := malloc At.m
  let count ← forI 0 At.m count fun i count => wr count i 0
  if A.nnz ≠ At.nnz then pure (some "Number of NonZeros do not match\n")
  else if A.m ≠ At.n ∨ A.n ≠ At.m then pure (some "Number of rows and cols do not match\n")
  else do
    let count ← forI 0 At.n count fun i count => do
      let lo ← rd At.jc i
      let hi ← rd At.jc (i + 1)
      forI lo hi count fun j count => do
        let k ← rd At.ir j
        let c ← rd count k
        wr count k (c + 1)
    let r ← forBrk 0 A.n () fun i _ => do
      let a ← rd A.jc (i + 1)
      let b ← rd A.jc i
      let c ← rd count i
      pure ((), decide (a - b ≠ c))
    if r.2 then pure (some "Data integrity failed in jc pointer \n")
    else do
      let count ← forI 0 At.m count fun j count => wr count j 0
      let r ← forBrk 0 At.n (count, (none : Option String)) fun i st => do
        let lo ← rd At.jc i
        let hi ← rd At.jc (i + 1)
        forBrk lo hi st fun j st => do
          let k ← rd At.ir j
          let a ← rd A.jc k
          let c ← rd st.1 k
          let idx := a + c
          let r ← rd A.ir idx
          if r ≠ i then pure ((st.1, some "Data integrity failed in ir pointer\n"), true)
          else do
            let v ← rd A.pr idx
            let w ← rd At.pr j
            if Scalar.eqb v w then do
              let count ← wr st.1 k (c + 1)
              pure ((count, st.2), false)
            else pure ((st.1, some "Data integrity failed in pr pointer\n"), true)
      pure r.1.2

/-- `check_vector`, lines 246-270. Different lengths (line 252) only set the message. -/
def check_vector (a_start a_end : Int) (a : Buf K) (b_start : Int) (b : Buf K) : M Bool := do
  let r ← forBrk a_start a_end b_start fun idx_a idx_b => do
    let v ← rd a idx_a
    let w ← rd b idx_b
    pure (idx_b + 1, !Scalar.eqb v w)
  pure (!r.2)

/-- `check_updatekktmatrix_b`, lines 272-308. The condition of the loop in line 292 is the assignment
`idx = m`. -/
def check_updatekktmatrix_b (b rx ry rz ds z : Buf K) (n m p : Int) : M (Option String) := do
  let r ← check_vector 0 n b 0 rx
  if r then pure (some "rx vector values and b vector values are not comparable")
  else do
    let r ← check_vector n (n + p) b 0 ry
    if !r then pure (some "ry vector values and b vector values are not comparable")
    else do
      let st ← whileM 1 (fun _ => pure (decide (m ≠ 0)))
        (fun st : Int × Buf K => do
          let idx := m
          let c ← rd rz idx
          let d ← rd ds idx
          let e ← rd z idx
          let temp ← wr st.2 idx (c - d / e)
          pure (idx + 1, temp))
        (0, malloc m)
      let r ← check_vector (n + p) (n + m + p) b 0 st.2
      if r then pure (some "rz vectors values and b values are not comparable") else pure none

end Verif
