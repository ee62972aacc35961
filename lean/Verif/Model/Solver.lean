import Verif.Model.Auxilary
import Verif.Model.Ldl

/-!
# Model of the solver state, `src/qpSWIFT.c` and the solver part of `src/Auxilary.c`

Clock readings and the text printed are not modelled; the reads performed by `PRINT` are.
-/

namespace Verif

/-- `kkt`, include/Auxilary.h lines 31-50. Arrays not yet allocated are empty. -/
structure Kkt (K : Type) where
  kktmatrix : Smat K
  b : Buf K
  Parent : Buf Int
  Flag : Buf Int
  Lnz : Buf Int
  Li : Buf Int
  Lp : Buf Int
  Lti : Buf Int
  Ltp : Buf Int
  Pattern : Buf Int
  UPattern : Buf Int
  Y : Buf K
  Lx : Buf K
  D : Buf K
  P : Buf Int
  Pinv : Buf Int

/-- `stats`, include/Auxilary.h lines 55-84, without the timing members. Members that setup does
not initialise are `Option`s. -/
structure Stats (K : Type) where
  IterationCount : Int
  n_rx : Option K
  n_ry : Option K
  n_rz : Option K
  n_mu : Option K
  alpha_p : K
  alpha_d : K
  fval : Option K
  Flag : Int
  AMD_RESULT : Int
  resolve_kkt : Option Int

/-- `settings`, include/Auxilary.h lines 89-100. -/
structure Settings (K : Type) where
  maxit : Int
  reltol : K
  abstol : K
  sigma : K
  verbose : Int

/-- `QP`, include/Auxilary.h lines 106-151. `A`, `At`, `b` are `none` for NULL. The arrays `y`,
`ry`, `delta_y`, which are not allocated without equality constraints, are empty in that case. -/
structure QP (K : Type) where
  n : Int
  m : Int
  p : Int
  sigma_d : K
  mu : Option K
  rho : Option K
  x : Buf K
  y : Buf K
  z : Buf K
  s : Buf K
  rx : Buf K
  ry : Buf K
  rz : Buf K
  delta : Buf K
  delta_x : Buf K
  delta_y : Buf K
  delta_z : Buf K
  delta_s : Buf K
  ds : Buf K
  lambda : Buf K
  temp : Buf K
  P : Smat K
  c : Buf K
  G : Smat K
  h : Buf K
  A : Option (Smat K)
  b : Option (Buf K)
  At : Option (Smat K)
  Gt : Smat K
  kkt : Kkt K
  options : Settings K
  stats : Stats K

/-- Exit codes, include/GlobalOptions.h lines 54-57. -/
def QP_OPTIMAL : Int := 0
@[inherit_doc QP_OPTIMAL] def QP_KKTFAIL : Int := 1
@[inherit_doc QP_OPTIMAL] def QP_MAXIT : Int := 2
@[inherit_doc QP_OPTIMAL] def QP_FATAL : Int := 3
/-- Dense storage orders, include/GlobalOptions.h lines 59-60. -/
def ROW_MAJOR_ORDERING : Int := 20
@[inherit_doc ROW_MAJOR_ORDERING] def COLUMN_MAJOR_ORDERING : Int := 30

variable {K : Type} [Zero K] [One K] [Add K] [Sub K] [Mul K] [Div K] [Neg K] [Scalar K]

/-- `MAX(a,b)` as defined in include/amd_internal.h line 124, which overrides the definition of
GlobalOptions.h in src/qpSWIFT.c. -/
def fmax (a b : K) : K := if Scalar.ltb b a then a else b
/-- `MIN(a,b)`, include/amd_internal.h line 125. -/
def fmin (a b : K) : K := if Scalar.ltb a b then a else b

/-- Default settings, src/qpSWIFT.c lines 70-75 and GlobalOptions.h lines 46-50. -/
def defaultSettings : Settings K :=
  { abstol := Scalar.dec 1 6, reltol := Scalar.dec 1 6, maxit := 100,
    sigma := Scalar.dec 100 0, verbose := 0 }

/-- Initial statistics, src/qpSWIFT.c lines 79-83. -/
def initialStats : Stats K :=
  { Flag := QP_FATAL, IterationCount := 0, alpha_p := Scalar.dec 0 0, alpha_d := Scalar.dec 0 0,
    n_rx := none, n_ry := none, n_rz := none, n_mu := none, fval := none, AMD_RESULT := 0,
    resolve_kkt := none }

/-- The arguments `Lnz, Li, Lx, D, Y, Pattern, Flag` of `LDL_numeric` taken from the structure. -/
def Kkt.num (k : Kkt K) : NumSt K :=
  { Lnz := k.Lnz, Li := k.Li, Lx := k.Lx, D := k.D, Y := k.Y, Pattern := k.Pattern,
    Flag := k.Flag }

/-- Store the arrays written by `LDL_numeric` back into the structure. -/
def Kkt.withNum (k : Kkt K) (s : NumSt K) : Kkt K :=
  { k with Lnz := s.Lnz, Li := s.Li, Lx := s.Lx, D := s.D, Y := s.Y, Pattern := s.Pattern,
           Flag := s.Flag }

/-- The call of `LDL_numeric` in src/Auxilary.c lines 478, 532, 604. -/
def callNumeric (k : Kkt K) : M (Int × Kkt K) := do
  let r ← LDL_numeric k.kktmatrix.n k.kktmatrix.jc k.kktmatrix.ir k.kktmatrix.pr k.Lp k.Parent
    k.num (some k.P) (some k.Pinv)
  pure (r.1, k.withNum r.2)

/-- src/Auxilary.c lines 488-492, 535-539, 614-618: permute, solve, un-permute, overwriting `b`
with the solution. Returns `(delta, b)`. -/
def ldlSolve (k : Kkt K) (delta : Buf K) : M (Buf K × Buf K) := do
  let n := k.kktmatrix.n
  let delta ← LDL_perm n delta k.b k.P
  let delta ← LDL_lsolve n delta k.Lp k.Li k.Lx
  let delta ← LDL_dsolve n delta k.D
  let delta ← LDL_ltsolve n delta k.Lp k.Li k.Lx
  let b ← LDL_permt n k.b delta k.P
  pure (delta, b)

/-- `for (i = lo; i < hi; i++) dst[i - lo] = src[i];` (src/Auxilary.c lines 502-505, 541-556,
1030-1039). -/
def copyOut (dst src : Buf K) (lo hi : Int) : M (Buf K) :=
  forI lo hi dst fun i dst => do
    let v ← rd src i
    wr dst (i - lo) v

/-- src/Auxilary.c lines 508-511, 559-562: `delta_s = (ds - s*delta_z)/z`. -/
def formDeltaS (qp : QP K) (delta_z : Buf K) : M (Buf K) :=
  forI 0 qp.m qp.delta_s fun i delta_s => do
    let d ← rd qp.ds i
    let s ← rd qp.s i
    let dz ← rd delta_z i
    let z ← rd qp.z i
    wr delta_s i ((d - s * dz) / z)

/-- `kktsolve_1`, src/Auxilary.c lines 471-515. Returns the flag and the new structure. -/
def kktsolve_1 (qp : QP K) : M (Int × QP K) := do
  let r ← callNumeric qp.kkt
  let qp := { qp with kkt := r.2 }
  if r.1 = qp.kkt.kktmatrix.n then do
    let q ← ldlSolve qp.kkt qp.delta
    let qp := { qp with delta := q.1, kkt := { qp.kkt with b := q.2 } }
    let delta_z ← copyOut qp.delta_z qp.kkt.b (qp.n + qp.p) (qp.n + qp.p + qp.m)
    let delta_s ← formDeltaS qp delta_z
    pure (1, { qp with delta_z := delta_z, delta_s := delta_s })
  else pure (0, qp)

/-- `kktsolve_2`, src/Auxilary.c lines 524-564. -/
def kktsolve_2 (qp : QP K) : M (QP K) := do
  let re ← rdCell qp.stats.resolve_kkt
  let k ← (if re ≠ 0 then do
      let r ← callNumeric qp.kkt
      pure r.2
    else pure qp.kkt)
  let qp := { qp with kkt := k }
  let q ← ldlSolve qp.kkt qp.delta
  let qp := { qp with delta := q.1, kkt := { qp.kkt with b := q.2 } }
  let delta_x ← copyOut qp.delta_x qp.kkt.b 0 qp.n
  let delta_y ← copyOut qp.delta_y qp.kkt.b qp.n (qp.n + qp.p)
  let delta_z ← copyOut qp.delta_z qp.kkt.b (qp.n + qp.p) (qp.n + qp.p + qp.m)
  let delta_s ← formDeltaS qp delta_z
  pure { qp with delta_x := delta_x, delta_y := delta_y, delta_z := delta_z, delta_s := delta_s }

/-- `ldlinitialsolve`, src/Auxilary.c lines 578-625. Returns the flag, the new KKT structure and
the new `delta`. -/
def ldlinitialsolve (k : Kkt K) (delta : Buf K) : M (Int × Kkt K × Buf K) := do
  let n := k.kktmatrix.n
  let k := { k with Y := malloc n, D := malloc n, Lp := malloc (n + 1), Parent := malloc n,
                    Pattern := malloc n, Flag := malloc n, Lnz := malloc n }
  let sy ← LDL_symbolic n k.kktmatrix.jc k.kktmatrix.ir k.Lp k.Parent k.Lnz k.Flag
    (some k.P) (some k.Pinv)
  let Pinv ← deref sy.Pinv
  let k := { k with Lp := sy.Lp, Parent := sy.Parent, Lnz := sy.Lnz, Flag := sy.Flag,
                    Pinv := Pinv }
  let lnz ← rd k.Lp n
  let k := { k with Li := malloc (lnz + 1), Lx := malloc (lnz + 1) }
  let r ← callNumeric k
  let k := r.2
  let t ← Transpose_Row_Count n n k.Li k.Lp (malloc lnz) (malloc (n + 1))
  let k := { k with Lti := t.1, Ltp := t.2 }
  if r.1 = n then do
    let q ← ldlSolve k delta
    pure (1, { k with b := q.2 }, q.1)
  else pure (0, k, delta)

/-- `computeresiduals`, src/Auxilary.c lines 745-786. -/
def computeresiduals (qp : QP K) : M (QP K) := do
  let rx ← SparseMatrixMultiply qp.P qp.x qp.rx 1
  let rx ← SparseMatrixTransMultiply qp.G qp.z rx 0
  let rx ← (if qp.p ≠ 0 then do
      let A ← deref qp.A
      SparseMatrixTransMultiply A qp.y rx 0
    else pure rx)
  let rx ← updatevariables rx qp.c (Scalar.dec (-1) 0) qp.n
  let n_rx ← norm rx qp.n
  let qp := { qp with rx := rx, stats := { qp.stats with n_rx := some n_rx } }
  let qp ← (if qp.p ≠ 0 then do
      let A ← deref qp.A
      let ry ← SparseMatrixMultiply A qp.x qp.ry 1
      let b ← deref qp.b
      let ry ← updatevariables ry b (Scalar.dec 1 0) qp.p
      let n_ry ← norm ry qp.p
      pure { qp with ry := ry, stats := { qp.stats with n_ry := some n_ry } }
    else pure qp)
  let rz ← SparseMatrixMultiply qp.G qp.x qp.rz 1
  let rz ← forI 0 qp.m rz fun i rz => do
    let r ← rd rz i
    let h ← rd qp.h i
    let s ← rd qp.s i
    wr rz i (r + (h - s))
  let n_rz ← norm rz qp.m
  let sz ← innerproduct qp.s qp.z qp.m
  pure { qp with
    rz := rz
    stats := { qp.stats with n_rz := some n_rz, n_mu := some (sz / Scalar.ofInt qp.m) } }

/-- `kkt_initialize`, src/Auxilary.c lines 992-1089. Returns the flag and the new structure. -/
def kkt_initialize (qp : QP K) : M (Int × QP K) := do
  let n := qp.n
  let m := qp.m
  let p := qp.p
  let z_inter : Buf K := malloc m
  let b ← forI 0 n qp.kkt.b fun i b => do
    let v ← rd qp.c i
    wr b i (-v)
  let b ← forI n (n + p) b fun i b => do
    let ub ← deref qp.b
    let v ← rd ub (i - n)
    wr b i v
  let b ← forI (n + p) (n + p + m) b fun i b => do
    let v ← rd qp.h (i - n - p)
    wr b i v
  let r ← ldlinitialsolve { qp.kkt with b := b } qp.delta
  let qp := { qp with kkt := r.2.1, delta := r.2.2 }
  if r.1 ≠ 0 then do
    let x ← copyOut qp.x qp.kkt.b 0 n
    let y ← copyOut qp.y qp.kkt.b n (n + p)
    let z_inter ← SparseMatrixMultiply qp.G x z_inter 1
    let z_inter ← updatevariables z_inter qp.h (Scalar.dec 1 0) m
    let mm ← findminmax z_inter m
    let alpha_p := -mm.1
    let alpha_d := mm.2
    let s ← (if Scalar.ltb alpha_p 0 then
        forI 0 m qp.s fun i s => do
          let v ← rd z_inter i
          wr s i v
      else
        forI 0 m qp.s fun i s => do
          let v ← rd z_inter i
          wr s i (v + (Scalar.dec 1 0 + alpha_p)))
    let z ← (if Scalar.ltb alpha_d 0 then
        forI 0 m qp.z fun i z => do
          let v ← rd z_inter i
          wr z i (-v)
      else
        forI 0 m qp.z fun i z => do
          let v ← rd z_inter i
          wr z i (-v + (Scalar.dec 1 0 + alpha_d)))
    pure (r.1, { qp with x := x, y := y, s := s, z := z })
  else pure (r.1, qp)

/-- The ordering routine `amd_l_order(n, Ap, Ai, P, Control, Info)` as called by setup (src/qpSWIFT.c
line 205): takes `n`, `Ap`, `Ai` and the output array, returns the status and the new output array.
The setup model is parameterised by it. -/
abbrev Amd := Int → Buf Int → Buf Int → Buf Int → M (Int × Buf Int)

/-- Everything the two setup routines compute before their common tail. -/
structure SetupIn (K : Type) where
  /-- the arguments `n`, `m`, `p` of the call -/
  argn : Int
  argm : Int
  argp : Int
  /-- `myQP->p` -/
  p : Int
  P : Smat K
  G : Smat K
  A : Option (Smat K)
  c : Buf K
  h : Buf K
  b : Option (Buf K)
  sigma_d : K
  Permut : Option (Buf Int)

/-- Allocate `At`/`Gt` and transpose, src/qpSWIFT.c lines 117-122, 125-130. -/
def allocTranspose (A : Smat K) : M (Smat K) :=
  SparseMatrixTranspose A
    (SparseMatrixSetup A.n A.m A.nnz (malloc (A.m + 1)) (malloc A.nnz) (malloc A.nnz))

/-- src/qpSWIFT.c lines 194-219 (and 416-441): the permutation. Returns `(AMD_RESULT, P)`. -/
def choosePerm (amd : Amd) (si : SetupIn K) (kktmatrix : Smat K) (dim : Int) :
    M (Int × Buf Int) := do
  match si.Permut with
  | some Permut => pure (-3, Permut)
  | none => do
    let P : Buf Int := malloc dim
    let r ← amd kktmatrix.n kktmatrix.jc kktmatrix.ir P
    if r.1 < 0 then do
      let P ← forI 0 (si.argn + si.argm + si.argp) r.2 fun idx P => wr P idx idx
      pure (r.1, P)
    else pure r

/-- src/qpSWIFT.c lines 114-233, identical to lines 336-455. -/
def setupTail (amd : Amd) (si : SetupIn K) : M (QP K) := do
  let n := si.argn
  let m := si.argm
  let p := si.p
  let At ← (match si.A with
    | some A => do
      let At ← allocTranspose A
      pure (some At)
    | none => pure none)
  let Gt ← allocTranspose si.G
  let ybuf : Buf K := match si.A with
    | some _ => malloc p
    | none => []
  let dims : Int × Int := match si.A with
    | some A => (si.P.nnz + 2 * si.G.nnz + si.G.m + 2 * A.nnz, si.P.n + A.m + si.G.m)
    | none => (si.P.nnz + 2 * si.G.nnz + si.G.m, si.P.n + si.G.m)
  let kkt_nnz := dims.1
  let kkt_m := dims.2
  let kktmatrix : Smat K :=
    SparseMatrixSetup kkt_m kkt_m kkt_nnz (malloc (kkt_m + 1)) (malloc kkt_nnz) (malloc kkt_nnz)
  let kktmatrix ← formkktmatrix_full si.P si.G si.A Gt At kktmatrix
  let dim := m + n + p
  let pr ← choosePerm amd si kktmatrix dim
  let kkt : Kkt K :=
    { kktmatrix := kktmatrix, b := malloc dim, P := pr.2, Pinv := malloc dim,
      UPattern := malloc dim, Parent := [], Flag := [], Lnz := [], Li := [], Lp := [], Lti := [],
      Ltp := [], Pattern := [], Y := [], Lx := [], D := [] }
  let qp : QP K :=
    { n := n, m := m, p := p, sigma_d := si.sigma_d, mu := none, rho := none
      x := malloc n, y := ybuf, z := malloc m, s := malloc m
      rx := malloc n, ry := ybuf, rz := malloc m
      delta := malloc (n + m + p), delta_x := malloc n, delta_y := ybuf
      delta_z := malloc m, delta_s := malloc m, ds := malloc m, lambda := malloc m
      temp := malloc n
      P := si.P, c := si.c, G := si.G, h := si.h, A := si.A, b := si.b, At := At, Gt := Gt
      kkt := kkt, options := defaultSettings
      stats := { (initialStats : Stats K) with AMD_RESULT := pr.1 } }
  let r ← kkt_initialize qp
  if r.1 = 0 then
    pure { r.2 with stats := { r.2.stats with Flag := QP_KKTFAIL } }
  else pure r.2

/-- Arguments of `QP_SETUP`; arrays that may be NULL are `Option`s. -/
structure SetupArgs (K : Type) where
  n : Int
  m : Int
  p : Int
  Pjc : Buf Int
  Pir : Buf Int
  Ppr : Buf K
  Ajc : Option (Buf Int)
  Air : Option (Buf Int)
  Apr : Option (Buf K)
  Gjc : Buf Int
  Gir : Buf Int
  Gpr : Buf K
  c : Buf K
  h : Buf K
  b : Option (Buf K)
  sigma_d : K
  Permut : Option (Buf Int)

/-- `QP_SETUP`, src/qpSWIFT.c lines 60-234. -/
def QP_SETUP (amd : Amd) (a : SetupArgs K) : M (QP K) := do
  let eq : Int × Option (Smat K) × Option (Buf K) ← (
    match a.Apr, a.Ajc, a.Air, a.b with
    | some Apr, some Ajc, some Air, some b =>
      if a.p ≠ 0 then do
        let nz ← rd Ajc a.n
        pure (a.p, some (SparseMatrixSetup a.p a.n nz Ajc Air Apr), some b)
      else pure (0, none, none)
    | _, _, _, _ => pure (0, none, none))
  let pz ← rd a.Pjc a.n
  let P : Smat K := SparseMatrixSetup a.n a.n pz a.Pjc a.Pir a.Ppr
  let gz ← rd a.Gjc a.n
  let G : Smat K := SparseMatrixSetup a.m a.n gz a.Gjc a.Gir a.Gpr
  setupTail amd
    { argn := a.n, argm := a.m, argp := a.p, p := eq.1, P := P, G := G, A := eq.2.1, c := a.c,
      h := a.h, b := eq.2.2, sigma_d := a.sigma_d, Permut := a.Permut }

/-- Arguments of `QP_SETUP_dense`. -/
structure DenseArgs (K : Type) where
  n : Int
  m : Int
  p : Int
  Ppr : Buf K
  Apr : Option (Buf K)
  Gpr : Buf K
  c : Buf K
  h : Buf K
  b : Option (Buf K)
  Permut : Option (Buf Int)
  ordering : Int

/-- src/qpSWIFT.c lines 297-304, 315-322, 324-331. -/
def convertDense (ordering rows cols : Int) (pr : Buf K) : M (Smat K) :=
  if ordering = COLUMN_MAJOR_ORDERING then densetosparse rows cols pr
  else densetosparse_ROWMAJOR rows cols pr

/-- `QP_SETUP_dense`, src/qpSWIFT.c lines 260-456. -/
def QP_SETUP_dense (amd : Amd) (a : DenseArgs K) : M (QP K) := do
  let eq : Int × Option (Smat K) × Option (Buf K) ← (
    match a.Apr, a.b with
    | some Apr, some b =>
      if a.p ≠ 0 then do
        let A ← convertDense a.ordering a.p a.n Apr
        pure (a.p, some A, some b)
      else pure (0, none, none)
    | _, _ => pure (0, none, none))
  let P ← convertDense a.ordering a.n a.n a.Ppr
  let G ← convertDense a.ordering a.m a.n a.Gpr
  setupTail amd
    { argn := a.n, argm := a.m, argp := a.p, p := eq.1, P := P, G := G, A := eq.2.1, c := a.c,
      h := a.h, b := eq.2.2, sigma_d := Scalar.dec 0 0, Permut := a.Permut }

/-- The reads of the `PRINT` at src/qpSWIFT.c line 515. -/
def printReads (st : Stats K) : M Unit := do
  let _ ← rdCell st.fval
  let _ ← rdCell st.n_rx
  let _ ← rdCell st.n_ry
  let _ ← rdCell st.n_rz
  let _ ← rdCell st.n_mu
  pure ()

/-- The termination test, src/qpSWIFT.c lines 519-534. -/
def exitTest (qp : QP K) : M Bool := do
  let n_rx ← rdCell qp.stats.n_rx
  let n_rz ← rdCell qp.stats.n_rz
  let n_mu ← rdCell qp.stats.n_mu
  let tol : K := qp.options.reltol / Scalar.sqrt (Scalar.dec 3 0)
  if qp.p ≠ 0 then do
    let n_ry ← rdCell qp.stats.n_ry
    pure (Scalar.ltb n_rx tol && Scalar.ltb n_rz tol && Scalar.ltb n_ry tol &&
      Scalar.ltb n_mu qp.options.abstol)
  else
    pure (Scalar.ltb n_rx tol && Scalar.ltb n_rz tol && Scalar.ltb n_mu qp.options.abstol)

/-- src/qpSWIFT.c lines 540-579: predictor and corrector right-hand sides. The Boolean is `true`
when the loop is left because the factorisation failed (line 556-560). -/
def directions (qp : QP K) (mu : K) : M (QP K × Bool) := do
  if Scalar.ltb qp.sigma_d qp.options.sigma then do
    let ds ← form_ds qp.ds qp.lambda qp.delta_s qp.delta_z qp.options.sigma mu qp.m
      QP_PURE_NEWTON_STEP
    let kpr ← updatekktmatrix qp.kkt.kktmatrix qp.s qp.z qp.m qp.n qp.p
    let kb ← updatekktmatrix_b qp.kkt.b qp.rx qp.ry qp.rz ds qp.z qp.n qp.m qp.p
    let qp := { qp with
      ds := ds
      kkt := { qp.kkt with b := kb, kktmatrix := { qp.kkt.kktmatrix with pr := kpr } } }
    let r ← kktsolve_1 qp
    let qp := r.2
    if r.1 = 0 then
      pure ({ qp with stats := { qp.stats with Flag := QP_KKTFAIL } }, true)
    else do
      let a ← findsteplength qp.s qp.delta_s qp.z qp.delta_z qp.m
      let rho ← formrho qp.s qp.delta_s qp.z qp.delta_z a.1 a.2 qp.m
      let r1 := fmin (Scalar.dec 1 0) rho
      let sigma := fmax qp.sigma_d (r1 * r1 * r1)
      let ds ← form_ds qp.ds qp.lambda qp.delta_s qp.delta_z sigma mu qp.m
        QP_CENTERING_CORRECTOR_STEP
      let kb ← updatekktmatrix_b qp.kkt.b qp.rx qp.ry qp.rz ds qp.z qp.n qp.m qp.p
      pure ({ qp with
        rho := some rho
        ds := ds
        kkt := { qp.kkt with b := kb }
        options := { qp.options with sigma := sigma }
        stats := { qp.stats with alpha_p := a.1, alpha_d := a.2, resolve_kkt := some 0 } }, false)
  else do
    let sigma := qp.sigma_d
    let ds ← form_ds qp.ds qp.lambda qp.delta_s qp.delta_z sigma mu qp.m QP_CENTERING_STEP
    let kpr ← updatekktmatrix qp.kkt.kktmatrix qp.s qp.z qp.m qp.n qp.p
    let kb ← updatekktmatrix_b qp.kkt.b qp.rx qp.ry qp.rz ds qp.z qp.n qp.m qp.p
    pure ({ qp with
      ds := ds
      kkt := { qp.kkt with b := kb, kktmatrix := { qp.kkt.kktmatrix with pr := kpr } }
      options := { qp.options with sigma := sigma }
      stats := { qp.stats with resolve_kkt := some 1 } }, false)

/-- src/qpSWIFT.c lines 583-596: solve, step length, update of the iterate. -/
def takeStep (qp : QP K) : M (QP K) := do
  let qp ← kktsolve_2 qp
  let a ← findsteplength qp.s qp.delta_s qp.z qp.delta_z qp.m
  let alpha_p := fmin (Scalar.dec 99 2 * a.1) (Scalar.dec 1 0)
  let alpha_d := fmin (Scalar.dec 99 2 * a.2) (Scalar.dec 1 0)
  let x ← updatevariables qp.x qp.delta_x alpha_p qp.n
  let y ← updatevariables qp.y qp.delta_y alpha_d qp.p
  let s ← updatevariables qp.s qp.delta_s alpha_p qp.m
  let z ← updatevariables qp.z qp.delta_z alpha_d qp.m
  pure { qp with
    x := x, y := y, s := s, z := z
    stats := { qp.stats with
      alpha_p := alpha_p, alpha_d := alpha_d, IterationCount := qp.stats.IterationCount + 1 } }

/-- src/qpSWIFT.c lines 505-511: residuals and objective value of the current iterate. -/
def evaluate (qp : QP K) : M (QP K) := do
  let qp ← computeresiduals qp
  let f ← obj_value qp.P qp.c qp.x qp.temp
  pure { qp with temp := f.2, stats := { qp.stats with fval := some f.1 } }

/-- src/qpSWIFT.c lines 537-596: the part of the loop body after the termination test. The Boolean
is `true` when the loop is left. -/
def advance (qp : QP K) : M (QP K × Bool) := do
  let lambda ← formlambda qp.lambda qp.s qp.z qp.m
  let ll ← innerproduct lambda lambda qp.m
  let mu := ll / Scalar.ofInt qp.m
  let d ← directions { qp with lambda := lambda, mu := some mu } mu
  if d.2 then pure (d.1, true)
  else do
    let qp ← takeStep d.1
    pure (qp, false)

/-- Body of the main loop, src/qpSWIFT.c lines 503-602. The Boolean is `true` for `break`. -/
def solveBody (qp : QP K) : M (QP K × Bool) := do
  let qp ← evaluate qp
  let _ ← (if 0 < qp.options.verbose then printReads qp.stats else pure ())
  let opt ← exitTest qp
  if opt then pure ({ qp with stats := { qp.stats with Flag := QP_OPTIMAL } }, true)
  else advance qp

/-- `QP_SOLVE`, src/qpSWIFT.c lines 473-644. Returns the exit code and the new structure. -/
def QP_SOLVE (qp : QP K) : M (Int × QP K) := do
  let qp ← (if qp.stats.Flag ≠ QP_KKTFAIL then do
      let r ← forBrk 0 qp.options.maxit qp fun _ qp => solveBody qp
      let qp := r.1
      if qp.stats.IterationCount = qp.options.maxit then
        pure { qp with stats := { qp.stats with Flag := QP_MAXIT } }
      else pure qp
    else pure qp)
  pure (qp.stats.Flag, qp)

end Verif
