import Verif.Model.Solver

/-!
# The library with bounded integers

The functions of `Model/Ldl.lean`, `Model/Auxilary.lean` and `Model/Solver.lean` that compute with
integers, once more, for integers of the C type `qp_int` whose largest value is `B` and whose
smallest is `-B - 1` (`long`: include/GlobalOptions.h). Every integer operation of the C code is a
`chk`, which gives `Err.overflow` if the mathematical result is not a value of the type, and every
allocation checks that its size in bytes, 8 times the number of cells, is a `size_t`, whose largest
value is `2 B + 1`. Apart from that the text is that of the unbounded models, from which the citations
are repeated. Functions without integer arithmetic other than loop counters (which never pass the
loop's bound) are used from there.
-/

namespace Verif

/-- `MALLOC(n * sizeof(qp_int))` or `MALLOC(n * sizeof(qp_real))`. -/
def mallocC {α : Type} (B n : Int) : M (Buf α) :=
  if 0 ≤ n ∧ 8 * n ≤ 2 * B + 1 then .ok (malloc n) else .error .overflow

/-! ## src/ldl.c -/

/-- ldl.c lines 224-230. -/
def symPathC (B : Int) (n : Int) (k i : Int) (st : SymSt) : M SymSt := do
  let r ← whileM n.toNat
    (fun s : Int × SymSt => do
      let f ← rd s.2.Flag s.1
      pure (decide (f ≠ k)))
    (fun s => do
      let par ← rd s.2.Parent s.1
      let Parent ← (if par = -1 then wr s.2.Parent s.1 k else pure s.2.Parent)
      let c ← rd s.2.Lnz s.1
      let c' ← chk B (c + 1)
      let Lnz ← wr s.2.Lnz s.1 c'
      let Flag ← wr s.2.Flag s.1 k
      let next ← rd Parent s.1
      pure (next, { Parent := Parent, Lnz := Lnz, Flag := Flag }))
    (i, st)
  pure r.2

/-- `LDL_symbolic`, ldl.c lines 187-240. -/
def LDL_symbolicC (B : Int) (n : Int) (Ap Ai Lp Parent Lnz Flag : Buf Int)
    (P Pinv : Option (Buf Int)) : M SymOut := do
  let Pinv ← (match P with
    | some P => do
      let Q ← deref Pinv
      let Q ← forI 0 n Q fun k Q => do
        let j ← rd P k
        wr Q j k
      pure (some Q)
    | none => pure Pinv)
  let st ← forI 0 n ({ Parent := Parent, Lnz := Lnz, Flag := Flag } : SymSt) fun k st => do
    let Parent ← wr st.Parent k (-1)
    let Flag ← wr st.Flag k k
    let Lnz ← wr st.Lnz k 0
    let kk ← permAt P k
    let kk1 ← chk B (kk + 1)
    let p2 ← rd Ap kk1
    let p1 ← rd Ap kk
    forI p1 p2 ({ Parent := Parent, Lnz := Lnz, Flag := Flag } : SymSt) fun p st => do
      let a ← rd Ai p
      let i ← permAt Pinv a
      if i < k then symPathC B n k i st else pure st
  let Lp ← wr Lp 0 0
  let Lp ← forI 0 n Lp fun k Lp => do
    let a ← rd Lp k
    let c ← rd st.Lnz k
    let k1 ← chk B (k + 1)
    let v ← chk B (a + c)
    wr Lp k1 v
  pure { Lp := Lp, Parent := st.Parent, Lnz := st.Lnz, Flag := st.Flag, Pinv := Pinv }

variable {K : Type} [Zero K] [One K] [Add K] [Sub K] [Mul K] [Div K] [Neg K] [Scalar K]

/-- ldl.c lines 291-295. -/
def numPathC (B : Int) (n : Int) (Parent : Buf Int) (k i : Int) (Pattern Flag : Buf Int) :
    M (Int × Int × Buf Int × Buf Int) :=
  whileM n.toNat
    (fun s : Int × Int × Buf Int × Buf Int => do
      let f ← rd s.2.2.2 s.1
      pure (decide (f ≠ k)))
    (fun s => do
      let len ← chk B (s.2.1 + 1)
      let Pattern ← wr s.2.2.1 s.2.1 s.1
      let Flag ← wr s.2.2.2 s.1 k
      let next ← rd Parent s.1
      pure (next, len, Pattern, Flag))
    (i, 0, Pattern, Flag)

/-- ldl.c line 296. -/
def numMoveC (B : Int) (n : Int) (len top : Int) (Pattern : Buf Int) : M (Int × Buf Int) := do
  let r ← whileM n.toNat
    (fun s : Int × Int × Buf Int => pure (decide (0 < s.1)))
    (fun s => do
      let len ← chk B (s.1 - 1)
      let top ← chk B (s.2.1 - 1)
      let v ← rd s.2.2 len
      let Pattern ← wr s.2.2 top v
      pure (len, top, Pattern))
    (len, top, Pattern)
  pure r.2

/-- ldl.c lines 303-318, body. -/
def numNodeC (B : Int) (Lp : Buf Int) (k top : Int) (st : NumSt K) : M (NumSt K) := do
  let i ← rd st.Pattern top
  let yi ← rd st.Y i
  let Y ← wr st.Y i 0
  let lp ← rd Lp i
  let c ← rd st.Lnz i
  let p2 ← chk B (lp + c)
  let Y ← forI lp p2 Y fun p Y => do
    let r ← rd st.Li p
    let y ← rd Y r
    let l ← rd st.Lx p
    wr Y r (y - l * yi)
  let p := if lp < p2 then p2 else lp
  let di ← rd st.D i
  let l_ki := yi / di
  let dk ← rd st.D k
  let D ← wr st.D k (dk - l_ki * yi)
  let Li ← wr st.Li p k
  let Lx ← wr st.Lx p l_ki
  let c' ← chk B (c + 1)
  let Lnz ← wr st.Lnz i c'
  pure { st with Y := Y, D := D, Li := Li, Lx := Lx, Lnz := Lnz }

/-- ldl.c lines 276-321, body. -/
def numRowC (B : Int) (n : Int) (Ap Ai : Buf Int) (Ax : Buf K) (Lp Parent : Buf Int)
    (P Pinv : Option (Buf Int)) (k : Int) (st : NumSt K) : M (NumSt K) := do
  let Y ← wr st.Y k 0
  let Flag ← wr st.Flag k k
  let Lnz ← wr st.Lnz k 0
  let kk ← permAt P k
  let kk1 ← chk B (kk + 1)
  let p2 ← rd Ap kk1
  let p1 ← rd Ap kk
  let r ← forI p1 p2 (n, Y, st.Pattern, Flag) fun p s => do
    let a ← rd Ai p
    let i ← permAt Pinv a
    if i ≤ k then do
      let y ← rd s.2.1 i
      let v ← rd Ax p
      let Y ← wr s.2.1 i (y + v)
      let q ← numPathC B n Parent k i s.2.2.1 s.2.2.2
      let t ← numMoveC B n q.2.1 s.1 q.2.2.1
      pure (t.1, Y, t.2, q.2.2.2)
    else pure s
  let yk ← rd r.2.1 k
  let D ← wr st.D k yk
  let Y ← wr r.2.1 k 0
  let st : NumSt K :=
    { Lnz := Lnz, Li := st.Li, Lx := st.Lx, D := D, Y := Y, Pattern := r.2.2.1, Flag := r.2.2.2 }
  let st ← forI r.1 n st fun top st => numNodeC B Lp k top st
  let dk ← rd st.D k
  let D ← wr st.D k (regPivot dk)
  pure { st with D := D }

/-- `LDL_numeric`, ldl.c lines 253-326. -/
def LDL_numericC (B : Int) (n : Int) (Ap Ai : Buf Int) (Ax : Buf K) (Lp Parent : Buf Int)
    (st : NumSt K) (P Pinv : Option (Buf Int)) : M (Int × NumSt K) := do
  let st ← forI 0 n st fun k st => numRowC B n Ap Ai Ax Lp Parent P Pinv k st
  pure (n, st)

/-- `LDL_lsolve`, ldl.c lines 495-513. -/
def LDL_lsolveC (B : Int) (n : Int) (X : Buf K) (Lp Li : Buf Int) (Lx : Buf K) : M (Buf K) :=
  forI 0 n X fun j X => do
    let j1 ← chk B (j + 1)
    let p2 ← rd Lp j1
    let p1 ← rd Lp j
    forI p1 p2 X fun p X => do
      let r ← rd Li p
      let xr ← rd X r
      let l ← rd Lx p
      let xj ← rd X j
      wr X r (xr - l * xj)

/-- `LDL_ltsolve`, ldl.c lines 539-557. The loop starts at `n - 1`. -/
def LDL_ltsolveC (B : Int) (n : Int) (X : Buf K) (Lp Li : Buf Int) (Lx : Buf K) : M (Buf K) := do
  let _ ← chk B (n - 1)
  forDown n X fun j X => do
    let j1 ← chk B (j + 1)
    let p2 ← rd Lp j1
    let p1 ← rd Lp j
    forI p1 p2 X fun p X => do
      let xj ← rd X j
      let l ← rd Lx p
      let r ← rd Li p
      let xr ← rd X r
      wr X j (xj - l * xr)

/-! ## src/Auxilary.c -/

/-- Auxilary.c lines 84-89, 91-96, 98-103, 147-152, 154-159, 110-115. -/
def kktAppendColC (B : Int) (src : Smat K) (off : Int) (i : Int) (st : KktBuild K) :
    M (KktBuild K) := do
  let lo ← rd src.jc i
  let i1 ← chk B (i + 1)
  let hi ← rd src.jc i1
  forI lo hi st fun j st => do
    let v ← rd src.pr j
    let pr ← wr st.pr st.nnz v
    let r ← rd src.ir j
    let row ← chk B (off + r)
    let ir ← wr st.ir st.nnz row
    let nnz ← chk B (st.nnz + 1)
    pure { st with pr := pr, ir := ir, nnz := nnz }

/-- Auxilary.c lines 121-132 and 166-177. -/
def kktAppendGtC (B : Int) (Gt : Smat K) (off : Int) (i : Int) (st : KktBuild K) :
    M (KktBuild K) := do
  let lo ← rd Gt.jc i
  let i1 ← chk B (i + 1)
  let hi ← rd Gt.jc i1
  forI lo hi st fun j st => do
    let r ← rd Gt.ir j
    let ir ← wr st.ir st.nnz r
    let v ← rd Gt.pr j
    let pr ← wr st.pr st.nnz v
    let nnz ← chk B (st.nnz + 1)
    let st := { st with pr := pr, ir := ir, nnz := nnz }
    let last ← chk B (hi - 1)
    if j = last then do
      let row ← chk B (off + i)
      let ir ← wr st.ir st.nnz row
      let pr ← wr st.pr st.nnz (Scalar.dec (-1) 0)
      let nnz ← chk B (st.nnz + 1)
      pure { st with pr := pr, ir := ir, nnz := nnz }
    else pure st

/-- `formkktmatrix_full`, Auxilary.c lines 71-181. -/
def formkktmatrix_fullC (B : Int) (P G : Smat K) (A : Option (Smat K)) (Gt : Smat K)
    (At : Option (Smat K)) (kkt : Smat K) : M (Smat K) := do
  match A, At with
  | some A, some At =>
    let jc ← wr kkt.jc 0 0
    let st : KktBuild K := { jc := jc, ir := kkt.ir, pr := kkt.pr, nnz := 0 }
    let off ← chk B (P.m + A.m)
    let st ← forI 0 P.n st fun i st => do
      let st ← kktAppendColC B P 0 i st
      let st ← kktAppendColC B A P.m i st
      let st ← kktAppendColC B G off i st
      let i1 ← chk B (i + 1)
      let pj ← rd P.jc i1
      let gj ← rd G.jc i1
      let s1 ← chk B (pj + gj)
      let aj ← rd A.jc i1
      let s2 ← chk B (s1 + aj)
      let jc ← wr st.jc i1 s2
      pure { st with jc := jc }
    let st ← forI 0 At.n st fun i st => do
      let st ← kktAppendColC B At 0 i st
      let i1 ← chk B (i + 1)
      let i2 ← chk B (i1 + P.n)
      let jc ← wr st.jc i2 st.nnz
      pure { st with jc := jc }
    let st ← forI 0 Gt.n st fun i st => do
      let st ← kktAppendGtC B Gt off i st
      let i1 ← chk B (i + 1)
      let i2 ← chk B (i1 + P.n)
      let i3 ← chk B (i2 + At.n)
      let jc ← wr st.jc i3 st.nnz
      pure { st with jc := jc }
    pure { kkt with jc := st.jc, ir := st.ir, pr := st.pr }
  | _, _ =>
    let jc ← wr kkt.jc 0 0
    let st : KktBuild K := { jc := jc, ir := kkt.ir, pr := kkt.pr, nnz := 0 }
    let st ← forI 0 P.n st fun i st => do
      let st ← kktAppendColC B P 0 i st
      let st ← kktAppendColC B G P.m i st
      let i1 ← chk B (i + 1)
      let pj ← rd P.jc i1
      let gj ← rd G.jc i1
      let s1 ← chk B (pj + gj)
      let jc ← wr st.jc i1 s1
      pure { st with jc := jc }
    let st ← forI 0 Gt.n st fun i st => do
      let st ← kktAppendGtC B Gt P.m i st
      let i1 ← chk B (i + 1)
      let i2 ← chk B (i1 + P.n)
      let jc ← wr st.jc i2 st.nnz
      pure { st with jc := jc }
    pure { kkt with jc := st.jc, ir := st.ir, pr := st.pr }

/-- `updatekktmatrix`, Auxilary.c lines 205-216. -/
def updatekktmatrixC (B : Int) (kkt : Smat K) (s z : Buf K) (m n p : Int) : M (Buf K) := do
  let lo ← chk B (n + p)
  let h1 ← chk B (n + m)
  let hi ← chk B (h1 + p)
  forI lo hi kkt.pr fun i pr => do
    let i1 ← chk B (i + 1)
    let e ← rd kkt.jc i1
    let index ← chk B (e - 1)
    let j1 ← chk B (i - n)
    let j ← chk B (j1 - p)
    let si ← rd s j
    let zi ← rd z j
    wr pr index (-si / zi)

/-- `updatekktmatrix_b`, Auxilary.c lines 274-295. -/
def updatekktmatrix_bC (B : Int) (b rx ry rz ds z : Buf K) (n m p : Int) : M (Buf K) := do
  let b ← forI 0 n b fun i b => do
    let v ← rd rx i
    wr b i v
  let np ← chk B (n + p)
  let b ← forI n np b fun i b => do
    let j ← chk B (i - n)
    let v ← rd ry j
    wr b i v
  let h1 ← chk B (n + m)
  let hi ← chk B (h1 + p)
  forI np hi b fun i b => do
    let j1 ← chk B (i - n)
    let j ← chk B (j1 - p)
    let r ← rd rz j
    let d ← rd ds j
    let zi ← rd z j
    wr b i (r - d / zi)

/-- `Transpose_Row_Count`, Auxilary.c lines 683-732. -/
def Transpose_Row_CountC (B : Int) (m n : Int) (Li Lp Lti Ltp : Buf Int) :
    M (Buf Int × Buf Int) := do
  let count : Buf Int ← mallocC B m
  let count ← forI 0 m count fun j count => wr count j 0
  let count ← forI 0 n count fun i count => do
    let lo ← rd Lp i
    let i1 ← chk B (i + 1)
    let hi ← rd Lp i1
    forI lo hi count fun j count => do
      let k ← rd Li j
      let c ← rd count k
      let c' ← chk B (c + 1)
      wr count k c'
  let Ltp ← wr Ltp 0 0
  let Ltp ← forI 0 m Ltp fun j Ltp => do
    let a ← rd Ltp j
    let c ← rd count j
    let j1 ← chk B (j + 1)
    let v ← chk B (a + c)
    wr Ltp j1 v
  let count ← forI 0 m count fun j count => wr count j 0
  let st ← forI 0 n (count, Lti) fun i st => do
    let lo ← rd Lp i
    let i1 ← chk B (i + 1)
    let hi ← rd Lp i1
    forI lo hi st fun j st => do
      let k ← rd Li j
      let a ← rd Ltp k
      let c ← rd st.1 k
      let index ← chk B (a + c)
      let Lti ← wr st.2 index i
      let c' ← chk B (c + 1)
      let count ← wr st.1 k c'
      pure (count, Lti)
  pure (st.2, Ltp)

/-- `SparseMatrixTransMultiply`, Auxilary.c lines 802-823. -/
def SparseMatrixTransMultiplyC (B : Int) (A : Smat K) (x y : Buf K) (start : Int) :
    M (Buf K) := do
  let y ← (if start ≠ 0 then forI 0 A.n y fun i y => wr y i 0 else pure y)
  forI 0 A.n y fun j y => do
    let lo ← rd A.jc j
    let j1 ← chk B (j + 1)
    let hi ← rd A.jc j1
    forI lo hi y fun k y => do
      let yj ← rd y j
      let a ← rd A.pr k
      let r ← rd A.ir k
      let xr ← rd x r
      wr y j (yj - a * xr)

/-- `SparseMatrixMultiply`, Auxilary.c lines 839-860. -/
def SparseMatrixMultiplyC (B : Int) (A : Smat K) (x y : Buf K) (start : Int) : M (Buf K) := do
  let y ← (if start ≠ 0 then forI 0 A.m y fun i y => wr y i 0 else pure y)
  forI 0 A.n y fun i y => do
    let lo ← rd A.jc i
    let i1 ← chk B (i + 1)
    let hi ← rd A.jc i1
    forI lo hi y fun j y => do
      let r ← rd A.ir j
      let yr ← rd y r
      let xi ← rd x i
      let a ← rd A.pr j
      wr y r (yr - xi * a)

/-- `SparseMatrixTranspose`, Auxilary.c lines 901-951. -/
def SparseMatrixTransposeC (B : Int) (A At : Smat K) : M (Smat K) := do
  let count : Buf Int ← mallocC B A.m
  let count ← forI 0 A.m count fun j count => wr count j 0
  let count ← forI 0 A.n count fun i count => do
    let lo ← rd A.jc i
    let i1 ← chk B (i + 1)
    let hi ← rd A.jc i1
    forI lo hi count fun j count => do
      let k ← rd A.ir j
      let c ← rd count k
      let c' ← chk B (c + 1)
      wr count k c'
  let tjc ← wr At.jc 0 0
  let tjc ← forI 0 A.m tjc fun j tjc => do
    let a ← rd tjc j
    let c ← rd count j
    let j1 ← chk B (j + 1)
    let v ← chk B (a + c)
    wr tjc j1 v
  let count ← forI 0 A.m count fun j count => wr count j 0
  let st ← forI 0 A.n (count, At.ir, At.pr) fun i st => do
    let lo ← rd A.jc i
    let i1 ← chk B (i + 1)
    let hi ← rd A.jc i1
    forI lo hi st fun j st => do
      let k ← rd A.ir j
      let a ← rd tjc k
      let c ← rd st.1 k
      let index ← chk B (a + c)
      let ir ← wr st.2.1 index i
      let v ← rd A.pr j
      let pr ← wr st.2.2 index v
      let c' ← chk B (c + 1)
      let count ← wr st.1 k c'
      pure (count, ir, pr)
  pure { At with jc := tjc, ir := st.2.1, pr := st.2.2 }

/-- `obj_value`, Auxilary.c lines 1133-1141. -/
def obj_valueC (B : Int) (P : Smat K) (c x temp : Buf K) : M (K × Buf K) := do
  let temp ← SparseMatrixMultiplyC B P x temp 1
  let a ← innerproduct temp x P.n
  let b ← innerproduct c x P.n
  pure (-(Scalar.dec 5 1) * a + b, temp)

/-- `densetosparse`, Auxilary.c lines 1154-1206. -/
def densetosparseC (B : Int) (m n : Int) (pr : Buf K) : M (Smat K) := do
  let n1 ← chk B (n + 1)
  let Ap : Buf Int ← mallocC B n1
  let Ap ← forI 0 n1 Ap fun i Ap => wr Ap i 0
  let st ← forI 0 n (Ap, (0 : Int)) fun j st => do
    let count ← forI 0 m st.2 fun i count => do
      let q ← chk B (j * m)
      let e ← chk B (q + i)
      let v ← rd pr e
      if Scalar.eqb v 0 then pure count else chk B (count + 1)
    let j1 ← chk B (j + 1)
    let Ap ← wr st.1 j1 count
    pure (Ap, count)
  let Ap := st.1
  let count := st.2
  let Ai : Buf Int ← mallocC B count
  let Ax : Buf K ← mallocC B count
  let st ← forI 0 n (Ai, Ax, (0 : Int)) fun j st =>
    forI 0 m st fun i st => do
      let q ← chk B (j * m)
      let e ← chk B (q + i)
      let v ← rd pr e
      if Scalar.eqb v 0 then pure st
      else do
        let Ai ← wr st.1 st.2.2 i
        let v ← rd pr e
        let Ax ← wr st.2.1 st.2.2 v
        let c' ← chk B (st.2.2 + 1)
        pure (Ai, Ax, c')
  pure { ir := st.1, jc := Ap, pr := st.2.1, m := m, n := n, nnz := st.2.2 }

/-- `densetosparse_ROWMAJOR`, Auxilary.c lines 1219-1273. -/
def densetosparse_ROWMAJORC (B : Int) (m n : Int) (pr : Buf K) : M (Smat K) := do
  let n1 ← chk B (n + 1)
  let Ap : Buf Int ← mallocC B n1
  let Ap ← forI 0 n1 Ap fun i Ap => wr Ap i 0
  let st ← forI 0 m (Ap, (0 : Int)) fun i st =>
    forI 0 n st fun j st => do
      let q ← chk B (i * n)
      let e ← chk B (q + j)
      let v ← rd pr e
      if Scalar.eqb v 0 then pure st
      else do
        let c' ← chk B (st.2 + 1)
        let j1 ← chk B (j + 1)
        let a ← rd st.1 j1
        let a' ← chk B (a + 1)
        let Ap ← wr st.1 j1 a'
        pure (Ap, c')
  let Ap := st.1
  let count := st.2
  let Ai : Buf Int ← mallocC B count
  let Ax : Buf K ← mallocC B count
  let st ← forI 0 n (Ap, Ai, Ax, (0 : Int)) fun j st => do
    let st ← forI 0 m st fun i st => do
      let q ← chk B (i * n)
      let e ← chk B (q + j)
      let temp ← rd pr e
      if Scalar.eqb temp 0 then pure st
      else do
        let Ai ← wr st.2.1 st.2.2.2 i
        let Ax ← wr st.2.2.1 st.2.2.2 temp
        let c' ← chk B (st.2.2.2 + 1)
        pure (st.1, Ai, Ax, c')
    let j1 ← chk B (j + 1)
    let a ← rd st.1 j1
    let b ← rd st.1 j
    let v ← chk B (a + b)
    let Ap ← wr st.1 j1 v
    pure (Ap, st.2)
  pure { ir := st.2.1, jc := st.1, pr := st.2.2.1, m := m, n := n, nnz := st.2.2.2 }

/-- Auxilary.c lines 478, 532, 604. -/
def callNumericC (B : Int) (k : Kkt K) : M (Int × Kkt K) := do
  let r ← LDL_numericC B k.kktmatrix.n k.kktmatrix.jc k.kktmatrix.ir k.kktmatrix.pr k.Lp k.Parent
    k.num (some k.P) (some k.Pinv)
  pure (r.1, k.withNum r.2)

/-- Auxilary.c lines 488-492, 535-539, 614-618. -/
def ldlSolveC (B : Int) (k : Kkt K) (delta : Buf K) : M (Buf K × Buf K) := do
  let n := k.kktmatrix.n
  let delta ← LDL_perm n delta k.b k.P
  let delta ← LDL_lsolveC B n delta k.Lp k.Li k.Lx
  let delta ← LDL_dsolve n delta k.D
  let delta ← LDL_ltsolveC B n delta k.Lp k.Li k.Lx
  let b ← LDL_permt n k.b delta k.P
  pure (delta, b)

/-- `for (i = lo; i < hi; i++) dst[i - a - b] = src[i];` (Auxilary.c lines 502-505, 541-556,
1030-1039). -/
def copyOutC (B : Int) (a b : Int) (dst src : Buf K) (lo hi : Int) : M (Buf K) :=
  forI lo hi dst fun i dst => do
    let v ← rd src i
    let j1 ← chk B (i - a)
    let j ← chk B (j1 - b)
    wr dst j v

/-- `kktsolve_1`, Auxilary.c lines 471-515. -/
def kktsolve_1C (B : Int) (qp : QP K) : M (Int × QP K) := do
  let r ← callNumericC B qp.kkt
  let qp := { qp with kkt := r.2 }
  if r.1 = qp.kkt.kktmatrix.n then do
    let q ← ldlSolveC B qp.kkt qp.delta
    let qp := { qp with delta := q.1, kkt := { qp.kkt with b := q.2 } }
    let lo ← chk B (qp.n + qp.p)
    let hi ← chk B (lo + qp.m)
    let delta_z ← copyOutC B qp.n qp.p qp.delta_z qp.kkt.b lo hi
    let delta_s ← formDeltaS qp delta_z
    pure (1, { qp with delta_z := delta_z, delta_s := delta_s })
  else pure (0, qp)

/-- `kktsolve_2`, Auxilary.c lines 524-564. -/
def kktsolve_2C (B : Int) (qp : QP K) : M (QP K) := do
  let re ← rdCell qp.stats.resolve_kkt
  let k ← (if re ≠ 0 then do
      let r ← callNumericC B qp.kkt
      pure r.2
    else pure qp.kkt)
  let qp := { qp with kkt := k }
  let q ← ldlSolveC B qp.kkt qp.delta
  let qp := { qp with delta := q.1, kkt := { qp.kkt with b := q.2 } }
  let delta_x ← copyOut qp.delta_x qp.kkt.b 0 qp.n
  let lo ← chk B (qp.n + qp.p)
  let delta_y ← copyOutC B qp.n 0 qp.delta_y qp.kkt.b qp.n lo
  let hi ← chk B (lo + qp.m)
  let delta_z ← copyOutC B qp.n qp.p qp.delta_z qp.kkt.b lo hi
  let delta_s ← formDeltaS qp delta_z
  pure { qp with delta_x := delta_x, delta_y := delta_y, delta_z := delta_z, delta_s := delta_s }

/-- `ldlinitialsolve`, Auxilary.c lines 578-625. -/
def ldlinitialsolveC (B : Int) (k : Kkt K) (delta : Buf K) : M (Int × Kkt K × Buf K) := do
  let n := k.kktmatrix.n
  let Y ← mallocC B n
  let D ← mallocC B n
  let n1 ← chk B (n + 1)
  let Lp ← mallocC B n1
  let Parent ← mallocC B n
  let Pattern ← mallocC B n
  let Flag ← mallocC B n
  let Lnz ← mallocC B n
  let k := { k with Y := Y, D := D, Lp := Lp, Parent := Parent,
                    Pattern := Pattern, Flag := Flag, Lnz := Lnz }
  let sy ← LDL_symbolicC B n k.kktmatrix.jc k.kktmatrix.ir k.Lp k.Parent k.Lnz k.Flag
    (some k.P) (some k.Pinv)
  let Pinv ← deref sy.Pinv
  let k := { k with Lp := sy.Lp, Parent := sy.Parent, Lnz := sy.Lnz, Flag := sy.Flag,
                    Pinv := Pinv }
  let lnz ← rd k.Lp n
  let lnz1 ← chk B (lnz + 1)
  let Li ← mallocC B lnz1
  let Lx ← mallocC B lnz1
  let k := { k with Li := Li, Lx := Lx }
  let r ← callNumericC B k
  let k := r.2
  let Lti ← mallocC B lnz
  let Ltp ← mallocC B n1
  let t ← Transpose_Row_CountC B n n k.Li k.Lp Lti Ltp
  let k := { k with Lti := t.1, Ltp := t.2 }
  if r.1 = n then do
    let q ← ldlSolveC B k delta
    pure (1, { k with b := q.2 }, q.1)
  else pure (0, k, delta)

/-- `computeresiduals`, Auxilary.c lines 745-786. -/
def computeresidualsC (B : Int) (qp : QP K) : M (QP K) := do
  let rx ← SparseMatrixMultiplyC B qp.P qp.x qp.rx 1
  let rx ← SparseMatrixTransMultiplyC B qp.G qp.z rx 0
  let rx ← (if qp.p ≠ 0 then do
      let A ← deref qp.A
      SparseMatrixTransMultiplyC B A qp.y rx 0
    else pure rx)
  let rx ← updatevariables rx qp.c (Scalar.dec (-1) 0) qp.n
  let n_rx ← norm rx qp.n
  let qp := { qp with rx := rx, stats := { qp.stats with n_rx := some n_rx } }
  let qp ← (if qp.p ≠ 0 then do
      let A ← deref qp.A
      let ry ← SparseMatrixMultiplyC B A qp.x qp.ry 1
      let b ← deref qp.b
      let ry ← updatevariables ry b (Scalar.dec 1 0) qp.p
      let n_ry ← norm ry qp.p
      pure { qp with ry := ry, stats := { qp.stats with n_ry := some n_ry } }
    else pure qp)
  let rz ← SparseMatrixMultiplyC B qp.G qp.x qp.rz 1
  let rz ← forI 0 qp.m rz fun i rz => do
    let r ← rd rz i
    let h ← rd qp.h i
    let s ← rd qp.s i
    wr rz i (r + (h - s))
  let n_rz ← norm rz qp.m
  let sz ← innerproduct qp.s qp.z qp.m
  pure { qp with
    rz := rz
    stats := { qp.stats with n_rz := some n_rz, n_mu := some (sz / Scalar.ofInt qp.m) } }

/-- `kkt_initialize`, Auxilary.c lines 992-1089. -/
def kkt_initializeC (B : Int) (qp : QP K) : M (Int × QP K) := do
  let n := qp.n
  let m := qp.m
  let p := qp.p
  let z_inter : Buf K ← mallocC B m
  let b ← forI 0 n qp.kkt.b fun i b => do
    let v ← rd qp.c i
    wr b i (-v)
  let np ← chk B (n + p)
  let b ← forI n np b fun i b => do
    let ub ← deref qp.b
    let j ← chk B (i - n)
    let v ← rd ub j
    wr b i v
  let hi ← chk B (np + m)
  let b ← forI np hi b fun i b => do
    let j1 ← chk B (i - n)
    let j ← chk B (j1 - p)
    let v ← rd qp.h j
    wr b i v
  let r ← ldlinitialsolveC B { qp.kkt with b := b } qp.delta
  let qp := { qp with kkt := r.2.1, delta := r.2.2 }
  if r.1 ≠ 0 then do
    let x ← copyOut qp.x qp.kkt.b 0 n
    let y ← copyOutC B n 0 qp.y qp.kkt.b n np
    let z_inter ← SparseMatrixMultiplyC B qp.G x z_inter 1
    let z_inter ← updatevariables z_inter qp.h (Scalar.dec 1 0) m
    let mm ← findminmax z_inter m
    let alpha_p := -mm.1
    let alpha_d := mm.2
    let s ← (if Scalar.ltb alpha_p 0 then
        forI 0 m qp.s fun i s => do
          let v ← rd z_inter i
          wr s i v
      else
        forI 0 m qp.s fun i s => do
          let v ← rd z_inter i
          wr s i (v + (Scalar.dec 1 0 + alpha_p)))
    let z ← (if Scalar.ltb alpha_d 0 then
        forI 0 m qp.z fun i z => do
          let v ← rd z_inter i
          wr z i (-v)
      else
        forI 0 m qp.z fun i z => do
          let v ← rd z_inter i
          wr z i (-v + (Scalar.dec 1 0 + alpha_d)))
    pure (r.1, { qp with x := x, y := y, s := s, z := z })
  else pure (r.1, qp)

/-! ## src/qpSWIFT.c -/

/-- qpSWIFT.c lines 117-122, 125-130. -/
def allocTransposeC (B : Int) (A : Smat K) : M (Smat K) := do
  let m1 ← chk B (A.m + 1)
  let jc ← mallocC B m1
  let ir ← mallocC B A.nnz
  let pr ← mallocC B A.nnz
  SparseMatrixTransposeC B A (SparseMatrixSetup A.n A.m A.nnz jc ir pr)

/-- qpSWIFT.c lines 194-219 (and 416-441). `dim` is `m + n + p` of the structure. -/
def choosePermC (B : Int) (amd : Amd) (si : SetupIn K) (kktmatrix : Smat K) (dim : Int) :
    M (Int × Buf Int) := do
  match si.Permut with
  | some Permut => pure (-3, Permut)
  | none => do
    let P : Buf Int ← mallocC B dim
    let r ← amd kktmatrix.n kktmatrix.jc kktmatrix.ir P
    if r.1 < 0 then do
      let s1 ← chk B (si.argn + si.argm)
      let s2 ← chk B (s1 + si.argp)
      let P ← forI 0 s2 r.2 fun idx P => wr P idx idx
      pure (r.1, P)
    else pure r

/-- qpSWIFT.c lines 167-177: the sizes of the KKT matrix, `(kkt_nnz, kkt_m)`. -/
def kktDimsC (B : Int) (si : SetupIn K) : M (Int × Int) := do
  let g2 ← chk B (2 * si.G.nnz)
  let s1 ← chk B (si.P.nnz + g2)
  let s2 ← chk B (s1 + si.G.m)
  match si.A with
  | some A =>
    let a2 ← chk B (2 * A.nnz)
    let s3 ← chk B (s2 + a2)
    let t1 ← chk B (si.P.n + A.m)
    let t2 ← chk B (t1 + si.G.m)
    pure (s3, t2)
  | none =>
    let t2 ← chk B (si.P.n + si.G.m)
    pure (s2, t2)

/-- qpSWIFT.c lines 114-233, identical to lines 336-455. The blocks of `y`, `ry` and `delta_y`, of
`x`, `rx`, `delta_x` and `temp`, and of `z`, `s`, `rz`, `delta_z`, `delta_s`, `ds` and `lambda` have the
same sizes, which are checked once. -/
def setupTailC (B : Int) (amd : Amd) (si : SetupIn K) : M (QP K) := do
  let n := si.argn
  let m := si.argm
  let p := si.p
  let At ← (match si.A with
    | some A => do
      let At ← allocTransposeC B A
      pure (some At)
    | none => pure none)
  let Gt ← allocTransposeC B si.G
  let xbuf : Buf K ← mallocC B n
  let ybuf : Buf K ← (match si.A with
    | some _ => mallocC B p
    | none => pure [])
  let zbuf : Buf K ← mallocC B m
  let d1 ← chk B (n + m)
  let d2 ← chk B (d1 + p)
  let delta : Buf K ← mallocC B d2
  let dims ← kktDimsC B si
  let kkt_nnz := dims.1
  let kkt_m := dims.2
  let kkt_m1 ← chk B (kkt_m + 1)
  let kjc ← mallocC B kkt_m1
  let kpr ← mallocC B kkt_nnz
  let kir ← mallocC B kkt_nnz
  let kktmatrix : Smat K := SparseMatrixSetup kkt_m kkt_m kkt_nnz kjc kir kpr
  let kktmatrix ← formkktmatrix_fullC B si.P si.G si.A Gt At kktmatrix
  let e1 ← chk B (m + n)
  let dim ← chk B (e1 + p)
  let kb ← mallocC B dim
  let pr ← choosePermC B amd si kktmatrix dim
  let Pinv ← mallocC B dim
  let UPattern ← mallocC B dim
  let kkt : Kkt K :=
    { kktmatrix := kktmatrix, b := kb, P := pr.2, Pinv := Pinv,
      UPattern := UPattern, Parent := [], Flag := [], Lnz := [], Li := [], Lp := [], Lti := [],
      Ltp := [], Pattern := [], Y := [], Lx := [], D := [] }
  let qp : QP K :=
    { n := n, m := m, p := p, sigma_d := si.sigma_d, mu := none, rho := none
      x := xbuf, y := ybuf, z := zbuf, s := zbuf
      rx := xbuf, ry := ybuf, rz := zbuf
      delta := delta, delta_x := xbuf, delta_y := ybuf
      delta_z := zbuf, delta_s := zbuf, ds := zbuf, lambda := zbuf
      temp := xbuf
      P := si.P, c := si.c, G := si.G, h := si.h, A := si.A, b := si.b, At := At, Gt := Gt
      kkt := kkt, options := defaultSettings
      stats := { (initialStats : Stats K) with AMD_RESULT := pr.1 } }
  let r ← kkt_initializeC B qp
  if r.1 = 0 then
    pure { r.2 with stats := { r.2.stats with Flag := QP_KKTFAIL } }
  else pure r.2

/-- `QP_SETUP`, qpSWIFT.c lines 60-234. -/
def QP_SETUPC (B : Int) (amd : Amd) (a : SetupArgs K) : M (QP K) := do
  let eq : Int × Option (Smat K) × Option (Buf K) ← (
    match a.Apr, a.Ajc, a.Air, a.b with
    | some Apr, some Ajc, some Air, some b =>
      if a.p ≠ 0 then do
        let nz ← rd Ajc a.n
        pure (a.p, some (SparseMatrixSetup a.p a.n nz Ajc Air Apr), some b)
      else pure (0, none, none)
    | _, _, _, _ => pure (0, none, none))
  let pz ← rd a.Pjc a.n
  let P : Smat K := SparseMatrixSetup a.n a.n pz a.Pjc a.Pir a.Ppr
  let gz ← rd a.Gjc a.n
  let G : Smat K := SparseMatrixSetup a.m a.n gz a.Gjc a.Gir a.Gpr
  setupTailC B amd
    { argn := a.n, argm := a.m, argp := a.p, p := eq.1, P := P, G := G, A := eq.2.1, c := a.c,
      h := a.h, b := eq.2.2, sigma_d := a.sigma_d, Permut := a.Permut }

/-- qpSWIFT.c lines 297-304, 315-322, 324-331. -/
def convertDenseC (B : Int) (ordering rows cols : Int) (pr : Buf K) : M (Smat K) :=
  if ordering = COLUMN_MAJOR_ORDERING then densetosparseC B rows cols pr
  else densetosparse_ROWMAJORC B rows cols pr

/-- `QP_SETUP_dense`, qpSWIFT.c lines 260-456. -/
def QP_SETUP_denseC (B : Int) (amd : Amd) (a : DenseArgs K) : M (QP K) := do
  let eq : Int × Option (Smat K) × Option (Buf K) ← (
    match a.Apr, a.b with
    | some Apr, some b =>
      if a.p ≠ 0 then do
        let A ← convertDenseC B a.ordering a.p a.n Apr
        pure (a.p, some A, some b)
      else pure (0, none, none)
    | _, _ => pure (0, none, none))
  let P ← convertDenseC B a.ordering a.n a.n a.Ppr
  let G ← convertDenseC B a.ordering a.m a.n a.Gpr
  setupTailC B amd
    { argn := a.n, argm := a.m, argp := a.p, p := eq.1, P := P, G := G, A := eq.2.1, c := a.c,
      h := a.h, b := eq.2.2, sigma_d := Scalar.dec 0 0, Permut := a.Permut }

/-- qpSWIFT.c lines 540-579. -/
def directionsC (B : Int) (qp : QP K) (mu : K) : M (QP K × Bool) := do
  if Scalar.ltb qp.sigma_d qp.options.sigma then do
    let ds ← form_ds qp.ds qp.lambda qp.delta_s qp.delta_z qp.options.sigma mu qp.m
      QP_PURE_NEWTON_STEP
    let kpr ← updatekktmatrixC B qp.kkt.kktmatrix qp.s qp.z qp.m qp.n qp.p
    let kb ← updatekktmatrix_bC B qp.kkt.b qp.rx qp.ry qp.rz ds qp.z qp.n qp.m qp.p
    let qp := { qp with
      ds := ds
      kkt := { qp.kkt with b := kb, kktmatrix := { qp.kkt.kktmatrix with pr := kpr } } }
    let r ← kktsolve_1C B qp
    let qp := r.2
    if r.1 = 0 then
      pure ({ qp with stats := { qp.stats with Flag := QP_KKTFAIL } }, true)
    else do
      let a ← findsteplength qp.s qp.delta_s qp.z qp.delta_z qp.m
      let rho ← formrho qp.s qp.delta_s qp.z qp.delta_z a.1 a.2 qp.m
      let r1 := fmin (Scalar.dec 1 0) rho
      let sigma := fmax qp.sigma_d (r1 * r1 * r1)
      let ds ← form_ds qp.ds qp.lambda qp.delta_s qp.delta_z sigma mu qp.m
        QP_CENTERING_CORRECTOR_STEP
      let kb ← updatekktmatrix_bC B qp.kkt.b qp.rx qp.ry qp.rz ds qp.z qp.n qp.m qp.p
      pure ({ qp with
        rho := some rho
        ds := ds
        kkt := { qp.kkt with b := kb }
        options := { qp.options with sigma := sigma }
        stats := { qp.stats with alpha_p := a.1, alpha_d := a.2, resolve_kkt := some 0 } }, false)
  else do
    let sigma := qp.sigma_d
    let ds ← form_ds qp.ds qp.lambda qp.delta_s qp.delta_z sigma mu qp.m QP_CENTERING_STEP
    let kpr ← updatekktmatrixC B qp.kkt.kktmatrix qp.s qp.z qp.m qp.n qp.p
    let kb ← updatekktmatrix_bC B qp.kkt.b qp.rx qp.ry qp.rz ds qp.z qp.n qp.m qp.p
    pure ({ qp with
      ds := ds
      kkt := { qp.kkt with b := kb, kktmatrix := { qp.kkt.kktmatrix with pr := kpr } }
      options := { qp.options with sigma := sigma }
      stats := { qp.stats with resolve_kkt := some 1 } }, false)

/-- qpSWIFT.c lines 583-596. -/
def takeStepC (B : Int) (qp : QP K) : M (QP K) := do
  let qp ← kktsolve_2C B qp
  let a ← findsteplength qp.s qp.delta_s qp.z qp.delta_z qp.m
  let alpha_p := fmin (Scalar.dec 99 2 * a.1) (Scalar.dec 1 0)
  let alpha_d := fmin (Scalar.dec 99 2 * a.2) (Scalar.dec 1 0)
  let x ← updatevariables qp.x qp.delta_x alpha_p qp.n
  let y ← updatevariables qp.y qp.delta_y alpha_d qp.p
  let s ← updatevariables qp.s qp.delta_s alpha_p qp.m
  let z ← updatevariables qp.z qp.delta_z alpha_d qp.m
  let count ← chk B (qp.stats.IterationCount + 1)
  pure { qp with
    x := x, y := y, s := s, z := z
    stats := { qp.stats with
      alpha_p := alpha_p, alpha_d := alpha_d, IterationCount := count } }

/-- qpSWIFT.c lines 505-511. -/
def evaluateC (B : Int) (qp : QP K) : M (QP K) := do
  let qp ← computeresidualsC B qp
  let f ← obj_valueC B qp.P qp.c qp.x qp.temp
  pure { qp with temp := f.2, stats := { qp.stats with fval := some f.1 } }

/-- qpSWIFT.c lines 537-596. -/
def advanceC (B : Int) (qp : QP K) : M (QP K × Bool) := do
  let lambda ← formlambda qp.lambda qp.s qp.z qp.m
  let ll ← innerproduct lambda lambda qp.m
  let mu := ll / Scalar.ofInt qp.m
  let d ← directionsC B { qp with lambda := lambda, mu := some mu } mu
  if d.2 then pure (d.1, true)
  else do
    let qp ← takeStepC B d.1
    pure (qp, false)

/-- qpSWIFT.c lines 503-602. -/
def solveBodyC (B : Int) (qp : QP K) : M (QP K × Bool) := do
  let qp ← evaluateC B qp
  let _ ← (if 0 < qp.options.verbose then printReads qp.stats else pure ())
  let opt ← exitTest qp
  if opt then pure ({ qp with stats := { qp.stats with Flag := QP_OPTIMAL } }, true)
  else advanceC B qp

/-- `QP_SOLVE`, qpSWIFT.c lines 473-644. -/
def QP_SOLVEC (B : Int) (qp : QP K) : M (Int × QP K) := do
  let qp ← (if qp.stats.Flag ≠ QP_KKTFAIL then do
      let r ← forBrk 0 qp.options.maxit qp fun _ qp => solveBodyC B qp
      let qp := r.1
      if qp.stats.IterationCount = qp.options.maxit then
        pure { qp with stats := { qp.stats with Flag := QP_MAXIT } }
      else pure qp
    else pure qp)
  pure (qp.stats.Flag, qp)

end Verif
