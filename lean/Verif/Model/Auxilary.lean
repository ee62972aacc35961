import Verif.Basic
import Verif.Scalar

/-!
# Model of `src/Auxilary.c`, part 1: vectors and sparse matrices

Line numbers refer to `/repo/src/Auxilary.c` unless another file is named.
Functions that write through pointer arguments return the new contents instead.
-/

namespace Verif

/-- `smat`, include/Auxilary.h lines 18-26. `n` is the number of columns, `m` of rows. -/
structure Smat (K : Type) where
  jc : Buf Int
  ir : Buf Int
  pr : Buf K
  n : Int
  m : Int
  nnz : Int

variable {K : Type} [Zero K] [One K] [Add K] [Sub K] [Mul K] [Div K] [Neg K] [Scalar K]

/-- State of the loops of `formkktmatrix_full`: the three arrays of the matrix under
construction and the running counter `kkt_nnz`. -/
structure KktBuild (K : Type) where
  jc : Buf Int
  ir : Buf Int
  pr : Buf K
  nnz : Int

/-- Lines 84-89, 91-96, 98-103, 147-152, 154-159, 110-115: the inner loops that append column
`i` of `src`, row indices shifted by `off` (0, `P->m` or `P->m + A->m`), to the KKT matrix.
Simplified: the six textually separate loops are instances of this one; where the C code adds no
offset, `off` is 0. -/
def kktAppendCol (src : Smat K) (off : Int) (i : Int) (st : KktBuild K) : M (KktBuild K) := do
  let lo ← rd src.jc i
  let hi ← rd src.jc (i + 1)
  forI lo hi st fun j st => do
    let v ← rd src.pr j
    let pr ← wr st.pr st.nnz v
    let r ← rd src.ir j
    let ir ← wr st.ir st.nnz (off + r)
    pure { st with pr := pr, ir := ir, nnz := st.nnz + 1 }

/-- Lines 121-132 and 166-177: append column `i` of `G'` and, when the last entry of the column
has been copied, the diagonal entry `-1.0` in row `off + i`. -/
def kktAppendGt (Gt : Smat K) (off : Int) (i : Int) (st : KktBuild K) : M (KktBuild K) := do
  let lo ← rd Gt.jc i
  let hi ← rd Gt.jc (i + 1)
  forI lo hi st fun j st => do
    let r ← rd Gt.ir j
    let ir ← wr st.ir st.nnz r
    let v ← rd Gt.pr j
    let pr ← wr st.pr st.nnz v
    let st := { st with pr := pr, ir := ir, nnz := st.nnz + 1 }
    if j = hi - 1 then do
      let ir ← wr st.ir st.nnz (off + i)
      let pr ← wr st.pr st.nnz (Scalar.dec (-1) 0)
      pure { st with pr := pr, ir := ir, nnz := st.nnz + 1 }
    else pure st

/-- `formkktmatrix_full`, lines 71-181. `A` and `At` are `none` for NULL. -/
def formkktmatrix_full (P G : Smat K) (A : Option (Smat K)) (Gt : Smat K)
    (At : Option (Smat K)) (kkt : Smat K) : M (Smat K) := do
  match A, At with
  | some A, some At =>
    let jc ← wr kkt.jc 0 0
    let st : KktBuild K := { jc := jc, ir := kkt.ir, pr := kkt.pr, nnz := 0 }
    let st ← forI 0 P.n st fun i st => do
      let st ← kktAppendCol P 0 i st
      let st ← kktAppendCol A P.m i st
      let st ← kktAppendCol G (P.m + A.m) i st
      let pj ← rd P.jc (i + 1)
      let gj ← rd G.jc (i + 1)
      let aj ← rd A.jc (i + 1)
      let jc ← wr st.jc (i + 1) (pj + gj + aj)
      pure { st with jc := jc }
    let st ← forI 0 At.n st fun i st => do
      let st ← kktAppendCol At 0 i st
      let jc ← wr st.jc (i + 1 + P.n) st.nnz
      pure { st with jc := jc }
    let st ← forI 0 Gt.n st fun i st => do
      let st ← kktAppendGt Gt (P.m + A.m) i st
      let jc ← wr st.jc (i + 1 + P.n + At.n) st.nnz
      pure { st with jc := jc }
    pure { kkt with jc := st.jc, ir := st.ir, pr := st.pr }
  | _, _ =>
    let jc ← wr kkt.jc 0 0
    let st : KktBuild K := { jc := jc, ir := kkt.ir, pr := kkt.pr, nnz := 0 }
    let st ← forI 0 P.n st fun i st => do
      let st ← kktAppendCol P 0 i st
      let st ← kktAppendCol G P.m i st
      let pj ← rd P.jc (i + 1)
      let gj ← rd G.jc (i + 1)
      let jc ← wr st.jc (i + 1) (pj + gj)
      pure { st with jc := jc }
    let st ← forI 0 Gt.n st fun i st => do
      let st ← kktAppendGt Gt P.m i st
      let jc ← wr st.jc (i + 1 + P.n) st.nnz
      pure { st with jc := jc }
    pure { kkt with jc := st.jc, ir := st.ir, pr := st.pr }

/-- `updatekktmatrix`, lines 205-233, for `indicator = 0`, the only value passed by `QP_SOLVE`
(src/qpSWIFT.c lines 546, 550, 576). Returns the new `kkt->pr`. -/
def updatekktmatrix (kkt : Smat K) (s z : Buf K) (m n p : Int) : M (Buf K) :=
  forI (n + p) (n + m + p) kkt.pr fun i pr => do
    let e ← rd kkt.jc (i + 1)
    let index := e - 1
    let si ← rd s (i - n - p)
    let zi ← rd z (i - n - p)
    wr pr index (-si / zi)

/-- `updatevariables`, lines 246-254. -/
def updatevariables (x delta_x : Buf K) (alpha : K) (count : Int) : M (Buf K) :=
  forI 0 count x fun i x => do
    let xi ← rd x i
    let di ← rd delta_x i
    wr x i (xi + di * alpha)

/-- `updatekktmatrix_b`, lines 274-295. -/
def updatekktmatrix_b (b rx ry rz ds z : Buf K) (n m p : Int) : M (Buf K) := do
  let b ← forI 0 n b fun i b => do
    let v ← rd rx i
    wr b i v
  let b ← forI n (n + p) b fun i b => do
    let v ← rd ry (i - n)
    wr b i v
  forI (n + p) (n + m + p) b fun i b => do
    let r ← rd rz (i - n - p)
    let d ← rd ds (i - n - p)
    let zi ← rd z (i - n - p)
    wr b i (r - d / zi)

/-- Step selectors, include/GlobalOptions.h. -/
def QP_PURE_NEWTON_STEP : Int := 0
@[inherit_doc QP_PURE_NEWTON_STEP] def QP_CENTERING_CORRECTOR_STEP : Int := 1
@[inherit_doc QP_PURE_NEWTON_STEP] def QP_CENTERING_STEP : Int := 2

/-- `form_ds`, lines 315-345. -/
def form_ds (ds lambda delta_s delta_z : Buf K) (sigma mu : K) (m selector : Int) :
    M (Buf K) := do
  let ds ← (if selector = QP_PURE_NEWTON_STEP then
      forI 0 m ds fun i ds => do
        let l ← rd lambda i
        wr ds i (-l * l)
    else pure ds)
  let ds ← (if selector = QP_CENTERING_CORRECTOR_STEP then
      forI 0 m ds fun i ds => do
        let l ← rd lambda i
        let a ← rd delta_s i
        let b ← rd delta_z i
        wr ds i (-(l * l) - a * b + sigma * mu)
    else pure ds)
  if selector = QP_CENTERING_STEP then
    forI 0 m ds fun i ds => do
      let l ← rd lambda i
      wr ds i (-(l * l) + sigma * mu)
  else pure ds

/-- State of the loop of `findsteplength`. -/
structure StepSt (K : Type) where
  alpha_p : K
  alpha_d : K
  Flag1 : Int
  Flag2 : Int

/-- `findsteplength`, lines 359-393. Returns `(alpha_p, alpha_d)`. -/
def findsteplength (s delta_s z delta_z : Buf K) (m : Int) : M (K × K) := do
  let st : StepSt K :=
    { alpha_p := Scalar.dec 10000000000 0, alpha_d := Scalar.dec 10000000000 0,
      Flag1 := 0, Flag2 := 0 }
  let st ← forI 0 m st fun i st => do
    let di ← rd delta_s i
    let si ← rd s i
    let st :=
      if Scalar.ltb di 0 && Scalar.ltb (-si / di) st.alpha_p then
        { st with alpha_p := -(si / di), Flag1 := 1 }
      else st
    let ei ← rd delta_z i
    let zi ← rd z i
    let st :=
      if Scalar.ltb ei 0 && Scalar.ltb (-zi / ei) st.alpha_d then
        { st with alpha_d := -(zi / ei), Flag2 := 1 }
      else st
    pure st
  let alpha_p := if st.Flag1 = 0 then 1 else st.alpha_p
  let alpha_d := if st.Flag2 = 0 then 1 else st.alpha_d
  pure (alpha_p, alpha_d)

/-- `checksign`, lines 404-420 (not called by the library). -/
def checksign (x delta_x : Buf K) (alpha : K) (count : Int) : M Int := do
  let r ← forBrk 0 count (0 : Int) fun i flag => do
    let xi ← rd x i
    let di ← rd delta_x i
    if Scalar.ltb xi (-alpha * di) then pure (1, true) else pure (flag, false)
  pure r.1

/-- `norm`, lines 430-440. -/
def norm (p : Buf K) (n : Int) : M K := do
  let k ← forI 0 n (0 : K) fun i k => do
    let v ← rd p i
    pure (k + v * v)
  pure (Scalar.sqrt k)

/-- `innerproduct`, lines 451-462. -/
def innerproduct (x y : Buf K) (n : Int) : M K :=
  forI 0 n (0 : K) fun i sum => do
    let a ← rd x i
    let b ← rd y i
    pure (sum + a * b)

/-- `formlambda`, lines 638-646. -/
def formlambda (lambda s z : Buf K) (n : Int) : M (Buf K) :=
  forI 0 n lambda fun i lambda => do
    let a ← rd s i
    let b ← rd z i
    wr lambda i (Scalar.sqrt (a * b))

/-- `SparseMatrixSetup`, lines 660-669. -/
def SparseMatrixSetup (m n nnz : Int) (jc ir : Buf Int) (pr : Buf K) : Smat K :=
  { jc := jc, ir := ir, pr := pr, n := n, m := m, nnz := nnz }

/-- `Transpose_Row_Count`, lines 683-732. Returns `(Lti, Ltp)`. -/
def Transpose_Row_Count (m n : Int) (Li Lp Lti Ltp : Buf Int) : M (Buf Int × Buf Int) := do
  let count : Buf Int := malloc m
  let count ← forI 0 m count fun j count => wr count j 0
  let count ← forI 0 n count fun i count => do
    let lo ← rd Lp i
    let hi ← rd Lp (i + 1)
    forI lo hi count fun j count => do
      let k ← rd Li j
      let c ← rd count k
      wr count k (c + 1)
  let Ltp ← wr Ltp 0 0
  let Ltp ← forI 0 m Ltp fun j Ltp => do
    let a ← rd Ltp j
    let c ← rd count j
    wr Ltp (j + 1) (a + c)
  let count ← forI 0 m count fun j count => wr count j 0
  let st ← forI 0 n (count, Lti) fun i st => do
    let lo ← rd Lp i
    let hi ← rd Lp (i + 1)
    forI lo hi st fun j st => do
      let k ← rd Li j
      let a ← rd Ltp k
      let c ← rd st.1 k
      let index := a + c
      let Lti ← wr st.2 index i
      let count ← wr st.1 k (c + 1)
      pure (count, Lti)
  pure (st.2, Ltp)

/-- `SparseMatrixTransMultiply`, lines 802-823. -/
def SparseMatrixTransMultiply (A : Smat K) (x y : Buf K) (start : Int) : M (Buf K) := do
  let y ← (if start ≠ 0 then forI 0 A.n y fun i y => wr y i 0 else pure y)
  forI 0 A.n y fun j y => do
    let lo ← rd A.jc j
    let hi ← rd A.jc (j + 1)
    forI lo hi y fun k y => do
      let yj ← rd y j
      let a ← rd A.pr k
      let r ← rd A.ir k
      let xr ← rd x r
      wr y j (yj - a * xr)

/-- `SparseMatrixMultiply`, lines 839-860. -/
def SparseMatrixMultiply (A : Smat K) (x y : Buf K) (start : Int) : M (Buf K) := do
  let y ← (if start ≠ 0 then forI 0 A.m y fun i y => wr y i 0 else pure y)
  forI 0 A.n y fun i y => do
    let lo ← rd A.jc i
    let hi ← rd A.jc (i + 1)
    forI lo hi y fun j y => do
      let r ← rd A.ir j
      let yr ← rd y r
      let xi ← rd x i
      let a ← rd A.pr j
      wr y r (yr - xi * a)

/-- `formrho`, lines 879-892. -/
def formrho (s delta_s z delta_z : Buf K) (alpha_p alpha_d : K) (n : Int) : M K := do
  let sum ← forI 0 n (0 : K) fun i sum => do
    let si ← rd s i
    let di ← rd delta_s i
    let zi ← rd z i
    let ei ← rd delta_z i
    pure (sum + (si + alpha_p * di) * (zi + alpha_d * ei))
  let ip ← innerproduct s z n
  pure (sum / ip)

/-- `SparseMatrixTranspose`, lines 901-951. `At` enters with allocated arrays; the result is
`At` with its arrays filled. -/
def SparseMatrixTranspose (A At : Smat K) : M (Smat K) := do
  let count : Buf Int := malloc A.m
  let count ← forI 0 A.m count fun j count => wr count j 0
  let count ← forI 0 A.n count fun i count => do
    let lo ← rd A.jc i
    let hi ← rd A.jc (i + 1)
    forI lo hi count fun j count => do
      let k ← rd A.ir j
      let c ← rd count k
      wr count k (c + 1)
  let tjc ← wr At.jc 0 0
  let tjc ← forI 0 A.m tjc fun j tjc => do
    let a ← rd tjc j
    let c ← rd count j
    wr tjc (j + 1) (a + c)
  let count ← forI 0 A.m count fun j count => wr count j 0
  let st ← forI 0 A.n (count, At.ir, At.pr) fun i st => do
    let lo ← rd A.jc i
    let hi ← rd A.jc (i + 1)
    forI lo hi st fun j st => do
      let k ← rd A.ir j
      let a ← rd tjc k
      let c ← rd st.1 k
      let index := a + c
      let ir ← wr st.2.1 index i
      let v ← rd A.pr j
      let pr ← wr st.2.2 index v
      let count ← wr st.1 k (c + 1)
      pure (count, ir, pr)
  pure { At with jc := tjc, ir := st.2.1, pr := st.2.2 }

/-- `findminmax`, lines 962-979. Returns `(min, max)`. -/
def findminmax (z : Buf K) (n : Int) : M (K × K) := do
  let a ← rd z 0
  forI 1 n (a, a) fun i mm => do
    let v ← rd z i
    let mn := if Scalar.ltb v mm.1 then v else mm.1
    let mx := if Scalar.ltb mm.2 v then v else mm.2
    pure (mn, mx)

/-- `obj_value`, lines 1133-1141. Returns the value and the new `temp`. -/
def obj_value (P : Smat K) (c x temp : Buf K) : M (K × Buf K) := do
  let temp ← SparseMatrixMultiply P x temp 1
  let a ← innerproduct temp x P.n
  let b ← innerproduct c x P.n
  pure (-(Scalar.dec 5 1) * a + b, temp)

/-- `densetosparse`, lines 1154-1206. Column-major conversion. -/
def densetosparse (m n : Int) (pr : Buf K) : M (Smat K) := do
  let Ap : Buf Int := malloc (n + 1)
  let Ap ← forI 0 (n + 1) Ap fun i Ap => wr Ap i 0
  let st ← forI 0 n (Ap, (0 : Int)) fun j st => do
    let count ← forI 0 m st.2 fun i count => do
      let v ← rd pr (j * m + i)
      if Scalar.eqb v 0 then pure count else pure (count + 1)
    let Ap ← wr st.1 (j + 1) count
    pure (Ap, count)
  let Ap := st.1
  let count := st.2
  let Ai : Buf Int := malloc count
  let Ax : Buf K := malloc count
  let st ← forI 0 n (Ai, Ax, (0 : Int)) fun j st =>
    forI 0 m st fun i st => do
      let v ← rd pr (j * m + i)
      if Scalar.eqb v 0 then pure st
      else do
        let Ai ← wr st.1 st.2.2 i
        let v ← rd pr (j * m + i)
        let Ax ← wr st.2.1 st.2.2 v
        pure (Ai, Ax, st.2.2 + 1)
  pure { ir := st.1, jc := Ap, pr := st.2.1, m := m, n := n, nnz := st.2.2 }

/-- `densetosparse_ROWMAJOR`, lines 1219-1273. -/
def densetosparse_ROWMAJOR (m n : Int) (pr : Buf K) : M (Smat K) := do
  let Ap : Buf Int := malloc (n + 1)
  let Ap ← forI 0 (n + 1) Ap fun i Ap => wr Ap i 0
  let st ← forI 0 m (Ap, (0 : Int)) fun i st =>
    forI 0 n st fun j st => do
      let v ← rd pr (i * n + j)
      if Scalar.eqb v 0 then pure st
      else do
        let a ← rd st.1 (j + 1)
        let Ap ← wr st.1 (j + 1) (a + 1)
        pure (Ap, st.2 + 1)
  let Ap := st.1
  let count := st.2
  let Ai : Buf Int := malloc count
  let Ax : Buf K := malloc count
  let st ← forI 0 n (Ap, Ai, Ax, (0 : Int)) fun j st => do
    let st ← forI 0 m st fun i st => do
      let temp ← rd pr (i * n + j)
      if Scalar.eqb temp 0 then pure st
      else do
        let Ai ← wr st.2.1 st.2.2.2 i
        let Ax ← wr st.2.2.1 st.2.2.2 temp
        pure (st.1, Ai, Ax, st.2.2.2 + 1)
    let a ← rd st.1 (j + 1)
    let b ← rd st.1 j
    let Ap ← wr st.1 (j + 1) (a + b)
    pure (Ap, st.2)
  pure { ir := st.2.1, jc := st.1, pr := st.2.2.1, m := m, n := n, nnz := st.2.2.2 }

end Verif
