import Verif.Model.Solver

/-!
# Setup with failing allocations

`/repo/src/qpSWIFT.c` and `/repo/src/Auxilary.c` never look at the result of `malloc` (only
`AMD_order` does, see `Model/Amd.lean`). Here every `malloc` of the two setup functions may return
NULL, as told by a function `al` from the call sites. A null array is modelled as an array without
cells, so that every access to it is an error; access to a structure through NULL is the error
`Err.null`. `QP_SOLVE` allocates nothing.

The functions repeat those of `Model/Auxilary.lean` and `Model/Solver.lean` that allocate;
functions that do not allocate are shared.
-/

namespace Verif

/-- The three matrices of the problem. -/
inductive Which | P | A | G
  deriving DecidableEq

/-- The calls of `malloc` in setup, named after the variable or member that receives the result:
src/qpSWIFT.c lines 67, 70, 79, 94, 106, 108, 117-120, 125-128, 133-162, 176-181, 192, 202, 221-222
(in `QP_SETUP_dense` lines 268-444), src/Auxilary.c lines 586-593, 601-602, 606-607
(`ldlinitialsolve`), 689 (`countL`), 907 (`Acount`, `Gcount`), 1004 (`z_inter`), 1162, 1183-1184,
1227, 1248-1249 (`Ap`, `Ai`, `Ax` of a dense matrix). -/
inductive Site
  | myQP | options | stats | mat (w : Which)
  | At | Atjc | Atir | Atpr | Acount | Gt | Gtjc | Gtir | Gtpr | Gcount
  | x | y | z | s | rx | ry | rz | delta | delta_x | delta_y | delta_z | delta_s | ds | lambda
  | temp | kkt | kktmatrix | kktjc | kktpr | kktir | kktb | kktP | Pinv | UPattern
  | z_inter | Y | D | Lp | Parent | Pattern | Flag | Lnz | Li | Lx | Lti | Ltp | countL
  | Ap (w : Which) | Ai (w : Which) | Ax (w : Which)
  deriving DecidableEq

/-- The result of a `malloc` for an array: NULL if it fails. -/
def mallocF {α : Type} (ok : Bool) (n : Int) : Buf α := if ok then malloc n else []

/-- `malloc` of a structure whose members are written immediately afterwards. -/
def structF (ok : Bool) : M Unit := if ok then .ok () else .error .null

variable {K : Type} [Zero K] [One K] [Add K] [Sub K] [Mul K] [Div K] [Neg K] [Scalar K]

/-- `Transpose_Row_Count`, src/Auxilary.c lines 683-732. Returns `(Lti, Ltp)`. -/
def Transpose_Row_CountF (al : Site → Bool) (m n : Int) (Li Lp Lti Ltp : Buf Int) :
    M (Buf Int × Buf Int) := do
  let count : Buf Int := mallocF (al .countL) m
  let count ← forI 0 m count fun j count => wr count j 0
  let count ← forI 0 n count fun i count => do
    let lo ← rd Lp i
    let hi ← rd Lp (i + 1)
    forI lo hi count fun j count => do
      let k ← rd Li j
      let c ← rd count k
      wr count k (c + 1)
  let Ltp ← wr Ltp 0 0
  let Ltp ← forI 0 m Ltp fun j Ltp => do
    let a ← rd Ltp j
    let c ← rd count j
    wr Ltp (j + 1) (a + c)
  let count ← forI 0 m count fun j count => wr count j 0
  let st ← forI 0 n (count, Lti) fun i st => do
    let lo ← rd Lp i
    let hi ← rd Lp (i + 1)
    forI lo hi st fun j st => do
      let k ← rd Li j
      let a ← rd Ltp k
      let c ← rd st.1 k
      let index := a + c
      let Lti ← wr st.2 index i
      let count ← wr st.1 k (c + 1)
      pure (count, Lti)
  pure (st.2, Ltp)

/-- `SparseMatrixTranspose`, src/Auxilary.c lines 901-951. -/
def SparseMatrixTransposeF (ok : Bool) (A At : Smat K) : M (Smat K) := do
  let count : Buf Int := mallocF ok A.m
  let count ← forI 0 A.m count fun j count => wr count j 0
  let count ← forI 0 A.n count fun i count => do
    let lo ← rd A.jc i
    let hi ← rd A.jc (i + 1)
    forI lo hi count fun j count => do
      let k ← rd A.ir j
      let c ← rd count k
      wr count k (c + 1)
  let tjc ← wr At.jc 0 0
  let tjc ← forI 0 A.m tjc fun j tjc => do
    let a ← rd tjc j
    let c ← rd count j
    wr tjc (j + 1) (a + c)
  let count ← forI 0 A.m count fun j count => wr count j 0
  let st ← forI 0 A.n (count, At.ir, At.pr) fun i st => do
    let lo ← rd A.jc i
    let hi ← rd A.jc (i + 1)
    forI lo hi st fun j st => do
      let k ← rd A.ir j
      let a ← rd tjc k
      let c ← rd st.1 k
      let index := a + c
      let ir ← wr st.2.1 index i
      let v ← rd A.pr j
      let pr ← wr st.2.2 index v
      let count ← wr st.1 k (c + 1)
      pure (count, ir, pr)
  pure { At with jc := tjc, ir := st.2.1, pr := st.2.2 }

/-- `densetosparse`, src/Auxilary.c lines 1154-1206. Column-major conversion. -/
def densetosparseF (al : Site → Bool) (w : Which) (m n : Int) (pr : Buf K) : M (Smat K) := do
  let Ap : Buf Int := mallocF (al (.Ap w)) (n + 1)
  let Ap ← forI 0 (n + 1) Ap fun i Ap => wr Ap i 0
  let st ← forI 0 n (Ap, (0 : Int)) fun j st => do
    let count ← forI 0 m st.2 fun i count => do
      let v ← rd pr (j * m + i)
      if Scalar.eqb v 0 then pure count else pure (count + 1)
    let Ap ← wr st.1 (j + 1) count
    pure (Ap, count)
  let Ap := st.1
  let count := st.2
  let Ai : Buf Int := mallocF (al (.Ai w)) count
  let Ax : Buf K := mallocF (al (.Ax w)) count
  let st ← forI 0 n (Ai, Ax, (0 : Int)) fun j st =>
    forI 0 m st fun i st => do
      let v ← rd pr (j * m + i)
      if Scalar.eqb v 0 then pure st
      else do
        let Ai ← wr st.1 st.2.2 i
        let v ← rd pr (j * m + i)
        let Ax ← wr st.2.1 st.2.2 v
        pure (Ai, Ax, st.2.2 + 1)
  pure { ir := st.1, jc := Ap, pr := st.2.1, m := m, n := n, nnz := st.2.2 }

/-- `densetosparse_ROWMAJOR`, src/Auxilary.c lines 1219-1273. -/
def densetosparse_ROWMAJORF (al : Site → Bool) (w : Which) (m n : Int) (pr : Buf K) :
    M (Smat K) := do
  let Ap : Buf Int := mallocF (al (.Ap w)) (n + 1)
  let Ap ← forI 0 (n + 1) Ap fun i Ap => wr Ap i 0
  let st ← forI 0 m (Ap, (0 : Int)) fun i st =>
    forI 0 n st fun j st => do
      let v ← rd pr (i * n + j)
      if Scalar.eqb v 0 then pure st
      else do
        let a ← rd st.1 (j + 1)
        let Ap ← wr st.1 (j + 1) (a + 1)
        pure (Ap, st.2 + 1)
  let Ap := st.1
  let count := st.2
  let Ai : Buf Int := mallocF (al (.Ai w)) count
  let Ax : Buf K := mallocF (al (.Ax w)) count
  let st ← forI 0 n (Ap, Ai, Ax, (0 : Int)) fun j st => do
    let st ← forI 0 m st fun i st => do
      let temp ← rd pr (i * n + j)
      if Scalar.eqb temp 0 then pure st
      else do
        let Ai ← wr st.2.1 st.2.2.2 i
        let Ax ← wr st.2.2.1 st.2.2.2 temp
        pure (st.1, Ai, Ax, st.2.2.2 + 1)
    let a ← rd st.1 (j + 1)
    let b ← rd st.1 j
    let Ap ← wr st.1 (j + 1) (a + b)
    pure (Ap, st.2)
  pure { ir := st.2.1, jc := st.1, pr := st.2.2.1, m := m, n := n, nnz := st.2.2.2 }

/-- `ldlinitialsolve`, src/Auxilary.c lines 578-625. Returns the flag, the new KKT structure and
the new `delta`. -/
def ldlinitialsolveF (al : Site → Bool) (k : Kkt K) (delta : Buf K) :
    M (Int × Kkt K × Buf K) := do
  let n := k.kktmatrix.n
  let k := { k with Y := mallocF (al .Y) n, D := mallocF (al .D) n,
                    Lp := mallocF (al .Lp) (n + 1), Parent := mallocF (al .Parent) n,
                    Pattern := mallocF (al .Pattern) n, Flag := mallocF (al .Flag) n,
                    Lnz := mallocF (al .Lnz) n }
  let sy ← LDL_symbolic n k.kktmatrix.jc k.kktmatrix.ir k.Lp k.Parent k.Lnz k.Flag
    (some k.P) (some k.Pinv)
  let Pinv ← deref sy.Pinv
  let k := { k with Lp := sy.Lp, Parent := sy.Parent, Lnz := sy.Lnz, Flag := sy.Flag,
                    Pinv := Pinv }
  let lnz ← rd k.Lp n
  let k := { k with Li := mallocF (al .Li) (lnz + 1), Lx := mallocF (al .Lx) (lnz + 1) }
  let r ← callNumeric k
  let k := r.2
  let t ← Transpose_Row_CountF al n n k.Li k.Lp (mallocF (al .Lti) lnz)
    (mallocF (al .Ltp) (n + 1))
  let k := { k with Lti := t.1, Ltp := t.2 }
  if r.1 = n then do
    let q ← ldlSolve k delta
    pure (1, { k with b := q.2 }, q.1)
  else pure (0, k, delta)

/-- `kkt_initialize`, src/Auxilary.c lines 992-1089. Returns the flag and the new structure. -/
def kkt_initializeF (al : Site → Bool) (qp : QP K) : M (Int × QP K) := do
  let n := qp.n
  let m := qp.m
  let p := qp.p
  let z_inter : Buf K := mallocF (al .z_inter) m
  let b ← forI 0 n qp.kkt.b fun i b => do
    let v ← rd qp.c i
    wr b i (-v)
  let b ← forI n (n + p) b fun i b => do
    let ub ← deref qp.b
    let v ← rd ub (i - n)
    wr b i v
  let b ← forI (n + p) (n + p + m) b fun i b => do
    let v ← rd qp.h (i - n - p)
    wr b i v
  let r ← ldlinitialsolveF al { qp.kkt with b := b } qp.delta
  let qp := { qp with kkt := r.2.1, delta := r.2.2 }
  if r.1 ≠ 0 then do
    let x ← copyOut qp.x qp.kkt.b 0 n
    let y ← copyOut qp.y qp.kkt.b n (n + p)
    let z_inter ← SparseMatrixMultiply qp.G x z_inter 1
    let z_inter ← updatevariables z_inter qp.h (Scalar.dec 1 0) m
    let mm ← findminmax z_inter m
    let alpha_p := -mm.1
    let alpha_d := mm.2
    let s ← (if Scalar.ltb alpha_p 0 then
        forI 0 m qp.s fun i s => do
          let v ← rd z_inter i
          wr s i v
      else
        forI 0 m qp.s fun i s => do
          let v ← rd z_inter i
          wr s i (v + (Scalar.dec 1 0 + alpha_p)))
    let z ← (if Scalar.ltb alpha_d 0 then
        forI 0 m qp.z fun i z => do
          let v ← rd z_inter i
          wr z i (-v)
      else
        forI 0 m qp.z fun i z => do
          let v ← rd z_inter i
          wr z i (-v + (Scalar.dec 1 0 + alpha_d)))
    pure (r.1, { qp with x := x, y := y, s := s, z := z })
  else pure (r.1, qp)

/-- `At`, src/qpSWIFT.c lines 117-122. -/
def transposeAF (al : Site → Bool) (A : Smat K) : M (Smat K) := do
  structF (al .At)
  SparseMatrixTransposeF (al .Acount) A
    (SparseMatrixSetup A.n A.m A.nnz (mallocF (al .Atjc) (A.m + 1)) (mallocF (al .Atir) A.nnz)
      (mallocF (al .Atpr) A.nnz))

/-- `Gt`, src/qpSWIFT.c lines 125-130. -/
def transposeGF (al : Site → Bool) (G : Smat K) : M (Smat K) := do
  structF (al .Gt)
  SparseMatrixTransposeF (al .Gcount) G
    (SparseMatrixSetup G.n G.m G.nnz (mallocF (al .Gtjc) (G.m + 1)) (mallocF (al .Gtir) G.nnz)
      (mallocF (al .Gtpr) G.nnz))

/-- src/qpSWIFT.c lines 195-219. The ordering is only entered with
non-null arrays: for a NULL argument it returns `AMD_INVALID` (-2) at once (src/amd_order.c lines
52-56). -/
def choosePermF (al : Site → Bool) (amd : Amd) (si : SetupIn K) (kktmatrix : Smat K)
    (dim : Int) : M (Int × Buf Int) := do
  match si.Permut with
  | some Permut => pure (-3, Permut)
  | none => do
    let P : Buf Int := mallocF (al .kktP) dim
    let r ← (if al .kktP && al .kktjc && al .kktir then
        amd kktmatrix.n kktmatrix.jc kktmatrix.ir P
      else pure (-2, P))
    if r.1 < 0 then do
      let P ← forI 0 (si.argn + si.argm + si.argp) r.2 fun idx P => wr P idx idx
      pure (r.1, P)
    else pure r

/-- src/qpSWIFT.c lines 114-233, identical to lines 336-455. -/
def setupTailF (al : Site → Bool) (amd : Amd) (si : SetupIn K) : M (QP K) := do
  let n := si.argn
  let m := si.argm
  let p := si.p
  let At ← (match si.A with
    | some A => do
      let At ← transposeAF al A
      pure (some At)
    | none => pure none)
  let Gt ← transposeGF al si.G
  let ybuf (t : Site) : Buf K := match si.A with
    | some _ => mallocF (al t) p
    | none => []
  let dims : Int × Int := match si.A with
    | some A => (si.P.nnz + 2 * si.G.nnz + si.G.m + 2 * A.nnz, si.P.n + A.m + si.G.m)
    | none => (si.P.nnz + 2 * si.G.nnz + si.G.m, si.P.n + si.G.m)
  let kkt_nnz := dims.1
  let kkt_m := dims.2
  structF (al .kkt)
  structF (al .kktmatrix)
  let kktmatrix : Smat K :=
    SparseMatrixSetup kkt_m kkt_m kkt_nnz (mallocF (al .kktjc) (kkt_m + 1))
      (mallocF (al .kktir) kkt_nnz) (mallocF (al .kktpr) kkt_nnz)
  let kktmatrix ← formkktmatrix_full si.P si.G si.A Gt At kktmatrix
  let dim := m + n + p
  let pr ← choosePermF al amd si kktmatrix dim
  let kkt : Kkt K :=
    { kktmatrix := kktmatrix, b := mallocF (al .kktb) dim, P := pr.2,
      Pinv := mallocF (al .Pinv) dim, UPattern := mallocF (al .UPattern) dim, Parent := [],
      Flag := [], Lnz := [], Li := [], Lp := [], Lti := [], Ltp := [],
      Pattern := [], Y := [], Lx := [], D := [] }
  let qp : QP K :=
    { n := n, m := m, p := p, sigma_d := si.sigma_d, mu := none, rho := none
      x := mallocF (al .x) n, y := ybuf .y, z := mallocF (al .z) m, s := mallocF (al .s) m
      rx := mallocF (al .rx) n, ry := ybuf .ry, rz := mallocF (al .rz) m
      delta := mallocF (al .delta) (n + m + p), delta_x := mallocF (al .delta_x) n
      delta_y := ybuf .delta_y
      delta_z := mallocF (al .delta_z) m, delta_s := mallocF (al .delta_s) m
      ds := mallocF (al .ds) m, lambda := mallocF (al .lambda) m, temp := mallocF (al .temp) n
      P := si.P, c := si.c, G := si.G, h := si.h, A := si.A, b := si.b, At := At, Gt := Gt
      kkt := kkt, options := defaultSettings
      stats := { (initialStats : Stats K) with AMD_RESULT := pr.1 } }
  let r ← kkt_initializeF al qp
  if r.1 = 0 then
    pure { r.2 with stats := { r.2.stats with Flag := QP_KKTFAIL } }
  else pure r.2

/-- `QP_SETUP`, src/qpSWIFT.c lines 60-234. -/
def QP_SETUPF (al : Site → Bool) (amd : Amd) (a : SetupArgs K) : M (QP K) := do
  structF (al .myQP)
  structF (al .options)
  structF (al .stats)
  let eq : Int × Option (Smat K) × Option (Buf K) ← (
    match a.Apr, a.Ajc, a.Air, a.b with
    | some Apr, some Ajc, some Air, some b =>
      if a.p ≠ 0 then do
        structF (al (.mat .A))
        let nz ← rd Ajc a.n
        pure (a.p, some (SparseMatrixSetup a.p a.n nz Ajc Air Apr), some b)
      else pure (0, none, none)
    | _, _, _, _ => pure (0, none, none))
  structF (al (.mat .P))
  let pz ← rd a.Pjc a.n
  let P : Smat K := SparseMatrixSetup a.n a.n pz a.Pjc a.Pir a.Ppr
  structF (al (.mat .G))
  let gz ← rd a.Gjc a.n
  let G : Smat K := SparseMatrixSetup a.m a.n gz a.Gjc a.Gir a.Gpr
  setupTailF al amd
    { argn := a.n, argm := a.m, argp := a.p, p := eq.1, P := P, G := G, A := eq.2.1, c := a.c,
      h := a.h, b := eq.2.2, sigma_d := a.sigma_d, Permut := a.Permut }

/-- src/qpSWIFT.c lines 297-304, 315-322, 324-331. -/
def convertDenseF (al : Site → Bool) (w : Which) (ordering rows cols : Int) (pr : Buf K) :
    M (Smat K) :=
  if ordering = COLUMN_MAJOR_ORDERING then densetosparseF al w rows cols pr
  else densetosparse_ROWMAJORF al w rows cols pr

/-- `QP_SETUP_dense`, src/qpSWIFT.c lines 260-456. -/
def QP_SETUP_denseF (al : Site → Bool) (amd : Amd) (a : DenseArgs K) : M (QP K) := do
  structF (al .myQP)
  structF (al .options)
  structF (al .stats)
  let eq : Int × Option (Smat K) × Option (Buf K) ← (
    match a.Apr, a.b with
    | some Apr, some b =>
      if a.p ≠ 0 then do
        structF (al (.mat .A))
        let A ← convertDenseF al .A a.ordering a.p a.n Apr
        pure (a.p, some A, some b)
      else pure (0, none, none)
    | _, _ => pure (0, none, none))
  structF (al (.mat .P))
  let P ← convertDenseF al .P a.ordering a.n a.n a.Ppr
  structF (al (.mat .G))
  let G ← convertDenseF al .G a.ordering a.m a.n a.Gpr
  setupTailF al amd
    { argn := a.n, argm := a.m, argp := a.p, p := eq.1, P := P, G := G, A := eq.2.1, c := a.c,
      h := a.h, b := eq.2.2, sigma_d := Scalar.dec 0 0, Permut := a.Permut }

end Verif
