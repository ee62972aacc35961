import Verif.Model.Ldl
import Verif.Model.Auxilary

/-!
# Exported functions that the solver does not call

`LDL_cache_numeric`, `LDL_row_cache_numeric` (`/repo/src/ldl.c`), `test_reach` and
`formkktmatrix_U` (`/repo/src/Auxilary.c`) are declared in the headers; the calls in `kktsolve_1`
(`Auxilary.c`, lines 480 and 482) and `kkt_initialize` (`Auxilary.c`, line 1026) are commented out
(the commented call of `LDL_cache_numeric` passes one argument too many). The first three refactorise only the rows of the
factor that depend on the inequality block of the KKT matrix.
-/

namespace Verif

variable {K : Type} [Zero K] [One K] [Add K] [Sub K] [Mul K] [Div K] [Neg K] [Scalar K]

/-- Arrays written by `LDL_row_cache_numeric`. -/
structure CacheSt (K : Type) where
  Lx : Buf K
  D : Buf K
  Y : Buf K

/-- `ldl.c` lines 471-483, body: process entry `Lti[jj]` of row `k`. The loop of line 476 is bounded
by the values found in `Li` only. -/
def cacheNode (n : Int) (Lp Li Lti : Buf Int) (k jj : Int) (st : CacheSt K) : M (CacheSt K) := do
  let i ← rd Lti jj
  let yi ← rd st.Y i
  let Y ← wr st.Y i 0
  let lp ← rd Lp i
  let r ← whileM n.toNat
    (fun s : Int × Buf K => do
      let r ← rd Li s.1
      pure (decide (r < k)))
    (fun s => do
      let r ← rd Li s.1
      let y ← rd s.2 r
      let l ← rd st.Lx s.1
      let Y ← wr s.2 r (y - l * yi)
      pure (s.1 + 1, Y))
    (lp, Y)
  let di ← rd st.D i
  let l_ki := yi / di
  let dk ← rd st.D k
  let D ← wr st.D k (dk - l_ki * yi)
  let Lx ← wr st.Lx r.1 l_ki
  pure { Lx := Lx, D := D, Y := r.2 }

/-- `ldl.c` lines 457-487: recompute row `k`. -/
def cacheRow (n : Int) (Ap Ai : Buf Int) (Ax : Buf K) (Ltp Lti Li Lp : Buf Int)
    (P Pinv : Option (Buf Int)) (k : Int) (st : CacheSt K) : M (CacheSt K) := do
  let Y ← wr st.Y k 0
  let kk ← permAt P k
  let p2 ← rd Ap (kk + 1)
  let p1 ← rd Ap kk
  let Y ← forI p1 p2 Y fun p Y => do
    let a ← rd Ai p
    let i ← permAt Pinv a
    if i ≤ k then do
      let y ← rd Y i
      let v ← rd Ax p
      wr Y i (y + v)
    else pure Y
  let yk ← rd Y k
  let D ← wr st.D k yk
  let Y ← wr Y k 0
  let j2 ← rd Ltp (k + 1)
  let j1 ← rd Ltp k
  let st : CacheSt K := { Lx := st.Lx, D := D, Y := Y }
  let st ← forI j1 j2 st fun jj st => cacheNode n Lp Li Lti k jj st
  let dk ← rd st.D k
  let D ← wr st.D k (regPivot dk)
  pure { st with D := D }

/-- `LDL_row_cache_numeric`, `ldl.c` lines 431-489: recompute the rows `k` with
`UPattern[k] == n`. Returns the return value and the written arrays. -/
def LDL_row_cache_numeric (n : Int) (Ap Ai : Buf Int) (Ax : Buf K) (Ltp Lti Li Lp : Buf Int)
    (st : CacheSt K) (P Pinv : Option (Buf Int)) (UPattern : Buf Int) : M (Int × CacheSt K) := do
  let st ← forI 0 n st fun k st => do
    let u ← rd UPattern k
    if u = n then cacheRow n Ap Ai Ax Ltp Lti Li Lp P Pinv k st else pure st
  pure (n, st)

/-- Arrays written by `LDL_cache_numeric`, with its work array. -/
structure LeftSt (K : Type) where
  Lx : Buf K
  D : Buf K
  Y : Buf K
  work : Buf Int

/-- `ldl.c` lines 386-393: subtract the multiple of column `Lti[jj]` from `Y`. -/
def leftNode (Lp Li Lti : Buf Int) (jj : Int) (st : LeftSt K) : M (LeftSt K) := do
  let c ← rd Lti jj
  let tt ← rd st.work c
  let work ← wr st.work c (tt + 1)
  let l ← rd st.Lx tt
  let d ← rd st.D c
  let lki := l * d
  let hi ← rd Lp (c + 1)
  let Y ← forI tt hi st.Y fun tt Y => do
    let r ← rd Li tt
    let l ← rd st.Lx tt
    let y ← rd Y r
    wr Y r (y - l * lki)
  pure { st with Y := Y, work := work }

/-- `ldl.c` lines 376-404: recompute column `k`. -/
def leftCol (Ap Ai : Buf Int) (Ax : Buf K) (Ltp Lti Li Lp : Buf Int)
    (P Pinv : Option (Buf Int)) (k : Int) (st : LeftSt K) : M (LeftSt K) := do
  let kk ← permAt P k
  let p2 ← rd Ap (kk + 1)
  let p1 ← rd Ap kk
  let Y ← forI p1 p2 st.Y fun p Y => do
    let a ← rd Ai p
    let i ← permAt Pinv a
    if k ≤ i then do
      let v ← rd Ax p
      wr Y i v
    else pure Y
  let j2 ← rd Ltp (k + 1)
  let j1 ← rd Ltp k
  let st : LeftSt K := { st with Y := Y }
  let st ← forI j1 j2 st fun jj st => leftNode Lp Li Lti jj st
  let yk ← rd st.Y k
  let D ← wr st.D k (regPivot yk)
  let Y ← wr st.Y k 0
  let lki ← rd D k
  let t1 ← rd Lp k
  let t2 ← rd Lp (k + 1)
  let r ← forI t1 t2 (st.Lx, Y) fun tt (s : Buf K × Buf K) => do
    let r ← rd Li tt
    let y ← rd s.2 r
    let Lx ← wr s.1 tt (y / lki)
    let Y ← wr s.2 r 0
    pure (Lx, Y)
  pure { st with D := D, Lx := r.1, Y := r.2 }

/-- `ldl.c` line 409: skip the entries of column `k` in rows that are not recomputed.
`Li[jj]` is read before `jj < Lp[k + 1]` is tested. -/
def leftSkip (n : Int) (Li Lp UPattern : Buf Int) (k : Int) (work : Buf Int) : M (Buf Int) := do
  let t1 ← rd Lp k
  let t2 ← rd Lp (k + 1)
  let r ← whileM n.toNat
    (fun s : Int × Buf Int => do
      let r ← rd Li s.1
      let u ← rd UPattern r
      pure (decide (u ≠ n) && decide (s.1 < t2)))
    (fun s => do
      let w ← rd s.2 k
      let work ← wr s.2 k (w + 1)
      pure (s.1 + 1, work))
    (t1, work)
  pure r.2

/-- `LDL_cache_numeric`, `ldl.c` lines 342-415: recompute the columns `k` with
`UPattern[k] == n`. Returns the return value and the written arrays. -/
def LDL_cache_numeric (n : Int) (Ap Ai : Buf Int) (Ax : Buf K) (Ltp Lti Li Lp : Buf Int)
    (Lx D Y : Buf K) (P Pinv : Option (Buf Int)) (UPattern : Buf Int) : M (Int × LeftSt K) := do
  let work ← forI 0 n (malloc n.toNat) fun k work => do
    let v ← rd Lp k
    wr work k v
  let st : LeftSt K := { Lx := Lx, D := D, Y := Y, work := work }
  let st ← forI 0 n st fun k st => do
    let u ← rd UPattern k
    if u = n then leftCol Ap Ai Ax Ltp Lti Li Lp P Pinv k st
    else do
      let work ← leftSkip n Li Lp UPattern k st.work
      pure { st with work := work }
  pure (n, st)

/-- `Auxilary.c` lines 1114-1117: mark the path from `i` upwards. `UPattern[i]` is read before
`i != -1` is tested. -/
def reachPath (top : Int) (Parent : Buf Int) (i : Int) (UPattern : Buf Int) : M (Buf Int) := do
  let r ← whileM top.toNat
    (fun s : Int × Buf Int => do
      let u ← rd s.2 s.1
      pure (decide (u ≠ top) && decide (s.1 ≠ -1)))
    (fun s => do
      let U ← wr s.2 s.1 top
      let next ← rd Parent s.1
      pure (next, U))
    (i, UPattern)
  pure r.2

/-- `test_reach`, `Auxilary.c` lines 1104-1119. -/
def test_reach (Parent Pinv UPattern : Buf Int) (n m p : Int) : M (Buf Int) := do
  let top := n + m + p
  let UPattern ← wr UPattern (n + m + p - 1) top
  forI (n + p) (n + p + m) UPattern fun j UPattern => do
    let i ← rd Pinv j
    reachPath top Parent i UPattern

/-- `Auxilary.c` lines 24-33: append the entries of column `i` of `P` whose row is at most `i`. -/
def kktAppendUpper (P : Smat K) (i : Int) (st : KktBuild K) : M (KktBuild K) := do
  let lo ← rd P.jc i
  let hi ← rd P.jc (i + 1)
  forI lo hi st fun j st => do
    let k ← rd P.ir j
    if k ≤ i then do
      let ir ← wr st.ir st.nnz k
      let v ← rd P.pr j
      let pr ← wr st.pr st.nnz v
      pure { st with pr := pr, ir := ir, nnz := st.nnz + 1 }
    else pure st

/-- `formkktmatrix_U`, `Auxilary.c` lines 14-53 (marked inactive in the source). The columns of the
inequality block are copied as in `formkktmatrix_full`. The argument `G` is not used. -/
def formkktmatrix_U (P _G Gt kkt : Smat K) : M (Smat K) := do
  let jc ← wr kkt.jc 0 0
  let st : KktBuild K := { jc := jc, ir := kkt.ir, pr := kkt.pr, nnz := 0 }
  let st ← forI 0 P.n st fun i st => do
    let st ← kktAppendUpper P i st
    let jc ← wr st.jc (i + 1) st.nnz
    pure { st with jc := jc }
  let st ← forI 0 Gt.n st fun i st => do
    let st ← kktAppendGt Gt P.n i st
    let jc ← wr st.jc (i + 1 + P.n) st.nnz
    pure { st with jc := jc }
  pure { kkt with jc := st.jc, ir := st.ir, pr := st.pr }

end Verif
