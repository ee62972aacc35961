import Verif.Model.Solver

/-!
# Model of the timer and of the Simulink, Python and MATLAB entry points

`src/timer.c`, `simulink/qpSWIFT_sfunc.c`, `simulink/qpSWIFT_sfunc_e.c`, `python/pyqpSWIFT.c`,
`matlab/qpSWIFT_mex.c`. Times measured and texts printed are left out. The conversion of numbers
to integers is the operation `ToInt.trunc`.
-/

namespace Verif

/-- Conversion of `double` to an integer type. -/
class ToInt (K : Type) where
  /-- `(qp_int) x` -/
  trunc : K → Int

variable {K : Type} [Zero K] [One K] [Add K] [Sub K] [Mul K] [Div K] [Neg K] [Scalar K]

/-! ## Timer -/

/-- `struct timespec` -/
structure Timespec where
  tv_sec : Int
  tv_nsec : Int

/-- The variable `temp` of `toc`, src/timer.c lines 58-65. -/
def tocDiff (tic toc : Timespec) : Timespec :=
  if toc.tv_nsec - tic.tv_nsec < 0 then
    { tv_sec := toc.tv_sec - tic.tv_sec - 1
      tv_nsec := 1000000000 + toc.tv_nsec - tic.tv_nsec }
  else
    { tv_sec := toc.tv_sec - tic.tv_sec
      tv_nsec := toc.tv_nsec - tic.tv_nsec }

/-- `toc` for POSIX systems, src/timer.c lines 52-67, with the two clock readings. -/
def toc (tic toc : Timespec) : K :=
  let temp := tocDiff tic toc
  Scalar.ofInt temp.tv_sec + Scalar.ofInt temp.tv_nsec / Scalar.ofInt 1000000000

/-! ## Simulink -/

/-- `NV`, qpSWIFT_sfunc.c line 13. -/
def NV : Int := 3

/-- Output signals (without the times). -/
structure SfOut (K : Type) where
  x : Buf K
  exitflag : Int
  iter : Int

/-- Copy of the solution, qpSWIFT_sfunc_e.c lines 158-161. -/
def sfCopy (out_x x : Buf K) : M (Buf K) :=
  forI 0 NV out_x fun idx out_x => do
    let v ← rd x idx
    wr out_x idx v

/-- `mdlOutputs`, qpSWIFT_sfunc_e.c lines 101-179, and qpSWIFT_sfunc.c with `p = 0` and NULL for
`A` and `b`. The branch for a null pointer is not modelled: setup does not return one. -/
def mdlOutputs (amd : Amd) (n m p : Int) (P : Buf K) (A : Option (Buf K)) (G c h : Buf K)
    (b : Option (Buf K)) : M (SfOut K) := do
  let myQP ← QP_SETUP_dense amd
    { n := n, m := m, p := p, Ppr := P, Apr := A, Gpr := G, c := c, h := h, b := b, Permut := none,
      ordering := COLUMN_MAJOR_ORDERING }
  let r ← QP_SOLVE myQP
  let out_x ← sfCopy (malloc NV) r.2.x
  pure { x := out_x, exitflag := r.1, iter := r.2.stats.IterationCount }

/-! ## Python -/

/-- A numpy array: whether its type is floating point, its dimensions, and its elements in row
order, converted to `double` (what `getptr`, pyqpSWIFT.c lines 15-35, produces). -/
structure PyArr (K : Type) where
  isFloat : Bool
  dims : List Int
  data : Buf K

/-- `PyArray_DIMS(a)[0]`: an access outside the array of dimensions for an array without
dimensions. -/
def PyArr.dim0 (a : PyArr K) : M Int :=
  match a.dims with
  | [] => .error .oob
  | d :: _ => .ok d

/-- `PyArray_DIM(a, i)` -/
def PyArr.dim (a : PyArr K) (i : Nat) : M Int :=
  match a.dims[i]? with
  | none => .error .oob
  | some d => .ok d

/-- A Python object given as an option. -/
inductive PyVal (K : Type)
  | int (v : Int)
  | float (v : K)
  | other

/-- Arguments after parsing (lines 74-85). `opts` lists the dictionary. -/
structure PyArgs (K : Type) where
  c : PyArr K
  h : PyArr K
  P : PyArr K
  G : PyArr K
  A : Option (PyArr K)
  b : Option (PyArr K)
  opts : Option (List (String × PyVal K))

/-- `PyDict_GetItemString` -/
def pyGet (opts : List (String × PyVal K)) (key : String) : Option (PyVal K) :=
  (opts.find? (fun e => e.1 = key)).map (·.2)

/-- `PyLong_AsLong`: -1 for numbers that do not fit into a `long`. -/
def pyLong (v : Int) : Int := if -2 ^ 63 ≤ v ∧ v < 2 ^ 63 then v else -1

/-- Result: an exception, or the dictionaries. -/
structure PyBasic where
  exitFlag : Int
  iterations : Int

@[inherit_doc PyBasic]
structure PyAdv (K : Type) where
  fval : K
  y : Option (Buf K)
  z : Buf K
  s : Buf K

@[inherit_doc PyBasic]
structure PyOut (K : Type) where
  sol : Buf K
  basicInfo : Option PyBasic
  advInfo : Option (PyAdv K)

@[inherit_doc PyBasic]
inductive PyRes (K : Type)
  | typeError (msg : String)
  | dict (d : PyOut K)

/-- Lines 87-100: the dimensions. -/
def pyDims (a : PyArgs K) : M (Int × Int × Int) := do
  let n ← a.c.dim0
  let m ← a.h.dim0
  let p ← (match a.b, a.A with
    | some b, some _ => b.dim0
    | _, _ => pure 0)
  pure (n, m, p)

/-- A matrix check such as lines 146-156 (`msg1`: not a floating matrix, `msg2`: dimensions). -/
def pyMatrix (a : PyArr K) (rows cols : Int) (msg1 msg2 : String) : M (Option String) := do
  if !a.isFloat || a.dims.length ≠ 2 then pure (some msg1)
  else do
    let d0 ← a.dim 0
    if d0 ≠ rows then pure (some msg2)
    else do
      let d1 ← a.dim 1
      if d1 ≠ cols then pure (some msg2) else pure none

/-- Run the next check when the previous one found nothing. -/
def andThen (r : Option String) (k : M (Option String)) : M (Option String) :=
  match r with
  | some e => pure (some e)
  | none => k

/-- Lines 102-171: checks of the arrays. Returns the message of the exception, if any. -/
def pyCheck (a : PyArgs K) (n m p : Int) : M (Option String) := do
  if !a.c.isFloat || a.c.dims.length ≠ 1 then
    pure (some "c must be a floating array with one dimension")
  else if !a.h.isFloat || a.h.dims.length ≠ 1 then
    pure (some "h must be a floating array with one dimension")
  else do
    let r ← (match a.b, a.A with
      | some b, some A =>
        if !b.isFloat || b.dims.length ≠ 1 then
          pure (some "b must be a floating array with one dimension")
        else pyMatrix A p n "A must be a floating matrix with two dimensions"
          "b and A do not have compatible dimensions"
      | _, _ => pure none)
    let r ← andThen r (pyMatrix a.G m n "G must be a floating matrix with two dimensions"
      "h and G do not have compatible dimensions")
    andThen r (pyMatrix a.P n n "P must be a floating matrix with two dimensions"
      "c and P do not have compatible dimensions")

/-- Lines 186-201 -/
def pyMaxit (o : List (String × PyVal K)) (s : Settings K) : Except String (Settings K) :=
  match pyGet o "MAXITER" with
  | none => .ok s
  | some (.int v) =>
    if pyLong v < 200 ∧ pyLong v > 0 then .ok { s with maxit := pyLong v }
    else .error "max iterations must be between 0 and 200, using the default value of 100"
  | some _ => .error "max iterations must be between 0 and 200, using the default value of 100"

/-- Lines 203-218 -/
def pyAbstol (o : List (String × PyVal K)) (s : Settings K) : Except String (Settings K) :=
  match pyGet o "ABSTOL" with
  | none => .ok s
  | some (.float v) =>
    if Scalar.ltb v (Scalar.dec 1 0) && Scalar.ltb (Scalar.dec 0 0) v then
      .ok { s with abstol := v }
    else .error "absolute tolerance must be between 0 and 1, using the default value"
  | some _ => .error "absolute tolerance must be between 0 and 1, using the default value"

/-- Lines 220-235 -/
def pyReltol (o : List (String × PyVal K)) (s : Settings K) : Except String (Settings K) :=
  match pyGet o "RELTOL" with
  | none => .ok s
  | some (.float v) =>
    if Scalar.ltb v (Scalar.dec 1 0) && Scalar.ltb (Scalar.dec 0 0) v then
      .ok { s with reltol := v }
    else .error "realtive tolerance must be between 0 and 1, using the default value"
  | some _ => .error "realtive tolerance must be between 0 and 1, using the default value"

/-- Lines 237-252 -/
def pySigma (o : List (String × PyVal K)) (s : Settings K) : Except String (Settings K) :=
  match pyGet o "SIGMA" with
  | none => .ok s
  | some (.float v) =>
    if Scalar.ltb (Scalar.dec 0 0) v then .ok { s with sigma := v }
    else .error "sigma must be positive, using the default value"
  | some _ => .error "sigma must be positive, using the default value"

/-- Lines 254-270 -/
def pyVerbose (o : List (String × PyVal K)) (s : Settings K) : Except String (Settings K) :=
  match pyGet o "VERBOSE" with
  | none => .ok s
  | some (.int v) =>
    if pyLong v ≥ 0 then .ok { s with verbose := pyLong v }
    else .error "verbose must be non-negative integer, using the default value"
  | some _ => .error "verbose must be non-negative integer, using the default value"

/-- Lines 47, 272-288: an invalid value only causes a warning. -/
def pyOutput (o : List (String × PyVal K)) : Int :=
  match pyGet o "OUTPUT" with
  | some (.int v) => if pyLong v ≥ 0 then pyLong v else 10
  | _ => 10

/-- Lines 176-289: the settings and the output level. -/
def pyOptions (opts : Option (List (String × PyVal K))) : Except String (Settings K × Int) :=
  match opts with
  | none => .ok (defaultSettings, 10)
  | some o => do
    let s ← pyMaxit o defaultSettings
    let s ← pyAbstol o s
    let s ← pyReltol o s
    let s ← pySigma o s
    let s ← pyVerbose o s
    pure (s, pyOutput o)

/-- A loop copying `n` numbers into a new array, as in lines 344-350. -/
def pyCopy (src : Buf K) (n : Int) : M (Buf K) :=
  forI 0 n (malloc n) fun i dst => do
    let v ← rd src i
    wr dst i v

/-- Lines 344-442: the result. -/
def pyResult (level : Int) (hasEq : Bool) (ExitCode : Int) (myQP : QP K) : M (PyOut K) := do
  let sol ← pyCopy myQP.x myQP.n
  let basic : PyBasic := ⟨ExitCode, myQP.stats.IterationCount⟩
  if level = 1 then pure { sol := sol, basicInfo := some basic, advInfo := none }
  else if level = 2 then do
    let fval ← rdCell myQP.stats.fval
    let y ← (if hasEq then do
        let y ← pyCopy myQP.y myQP.p
        pure (some y)
      else pure none)
    let z ← pyCopy myQP.z myQP.m
    let s ← pyCopy myQP.s myQP.m
    pure { sol := sol, basicInfo := some basic
           advInfo := some { fval := fval, y := y, z := z, s := s } }
  else pure { sol := sol, basicInfo := none, advInfo := none }

/-- Both `A` and `b` were given (`if (b && A)`). -/
def PyArgs.hasEq (a : PyArgs K) : Bool := a.b.isSome && a.A.isSome

/-- Lines 295-316: the call of setup. -/
def pySetup (amd : Amd) (a : PyArgs K) (n m p : Int) : M (QP K) :=
  QP_SETUP_dense amd
    { n := n, m := m, p := p, Ppr := a.P.data
      Apr := if a.hasEq then a.A.map (·.data) else none
      Gpr := a.G.data, c := a.c.data, h := a.h.data
      b := if a.hasEq then a.b.map (·.data) else none
      Permut := none, ordering := ROW_MAJOR_ORDERING }

/-- `method_qpSWIFT`, lines 37-463. -/
def method_qpSWIFT (amd : Amd) (a : PyArgs K) : M (PyRes K) := do
  let d ← pyDims a
  let bad ← pyCheck a d.1 d.2.1 d.2.2
  match bad with
  | some e => pure (.typeError e)
  | none =>
    match pyOptions a.opts with
    | .error e => pure (.typeError e)
    | .ok o => do
      let myQP ← pySetup amd a d.1 d.2.1 d.2.2
      let r ← QP_SOLVE { myQP with options := o.1 }
      let out ← pyResult o.2 a.hasEq r.1 r.2
      pure (.dict out)

/-! ## MATLAB -/

/-- A MATLAB matrix. -/
structure MxArr (K : Type) where
  isDouble : Bool
  isSparse : Bool
  isComplex : Bool
  rows : Int
  cols : Int
  pr : Buf K
  ir : Buf Int
  jc : Buf Int

/-- Arguments of `mexFunction` (lines 193-247): `A` and `b` are given together (6 or 7 arguments)
or not at all (4 or 5); `sttgs` lists the fields of the options (5 or 7 arguments); `nlhs` is the
number of results asked for. -/
structure MexArgs (K : Type) where
  nlhs : Int
  P : MxArr K
  c : MxArr K
  Ab : Option (MxArr K × MxArr K)
  G : MxArr K
  h : MxArr K
  sttgs : Option (List (String × MxArr K))

/-- `MAX` of GlobalOptions.h on dimensions. -/
def imax (a b : Int) : Int := if b < a then a else b
@[inherit_doc imax] def imin (a b : Int) : Int := if a < b then a else b

/-- `sttgs ? mxGetField(sttgs, 0, name) : 0` with two spellings, lines 315-349. -/
def mxOption (a : MexArgs K) (upper lower : String) : Option (MxArr K) :=
  match a.sttgs with
  | none => none
  | some l =>
    match l.find? (fun e => e.1 = upper) with
    | some e => some e.2
    | none => (l.find? (fun e => e.1 = lower)).map (·.2)

/-- Lines 249-260 -/
def MexArgs.n (a : MexArgs K) : Int := imax a.c.rows a.c.cols
@[inherit_doc MexArgs.n] def MexArgs.m (a : MexArgs K) : Int := imax a.h.rows a.h.cols
@[inherit_doc MexArgs.n] def MexArgs.p (a : MexArgs K) : Int :=
  match a.Ab with
  | some (_, b) => imax b.rows b.cols
  | none => 0

/-- `!mxIsDouble(x) || !mxIsSparse(x) || mxIsComplex(x)` -/
def MxArr.notSparse (a : MxArr K) : Bool := !a.isDouble || !a.isSparse || a.isComplex
/-- `!mxIsDouble(x) || mxIsSparse(x) || mxIsComplex(x)` -/
def MxArr.notDense (a : MxArr K) : Bool := !a.isDouble || a.isSparse || a.isComplex

/-- Lines 264-363: checks, in order. -/
def mexChecks (a : MexArgs K) : List (Bool × String) :=
  [(a.P.notSparse, "P should be a real sparse matrix"),
   (decide (a.P.rows ≠ a.P.cols), "P should be a square matrix"),
   (decide (a.P.rows ≠ a.n), "Dimensions of P and c do not match"),
   (a.G.notSparse, "G should be a real sparse matrix"),
   (decide (a.G.rows ≠ a.m), "Dimensions of G and h do not match"),
   (decide (a.G.cols ≠ a.n), "Dimensions of G and c do not match")] ++
  (match a.Ab with
   | some (A, _) =>
     [(A.notSparse, "A should be a real sparse matrix"),
      (decide (A.rows ≠ a.p), "Dimensions of A and b do not match"),
      (decide (A.cols ≠ a.n), "Dimensions of A and c do not match")]
   | none => []) ++
  [(a.c.notDense, "c should be a real dense vector"),
   (decide (imin a.c.rows a.c.cols ≠ 1), "c should be a column vector"),
   (a.h.notDense, "h should be a real dense vector"),
   (decide (imin a.h.rows a.h.cols ≠ 1), "h should be a column vector")] ++
  (match a.Ab with
   | some (_, b) =>
     [(b.notDense, "b should be a real dense vector"),
      (decide (imin b.cols b.rows ≠ 1), "b should be a column vector")]
   | none => []) ++
  (match mxOption a "PERMUT" "permut" with
   | some q =>
     [(q.notDense, "Permut should be a real dense vector"),
      (decide (imin q.cols q.rows ≠ 1), "Permut should be a column vector"),
      (decide (imax q.cols q.rows ≠ a.n + a.m + a.p),
        "The dimensions of Permutation vector are inconsistent")]
   | none => [])

/-- The message of the first check that fails. -/
def mexCheck (a : MexArgs K) : Option String := ((mexChecks a).find? (·.1)).map (·.2)

variable [ToInt K]

/-- Lines 403-422: the permutation. -/
def mexPermut (a : MexArgs K) : M (Except String (Option (Buf Int))) := do
  match mxOption a "PERMUT" "permut" with
  | none => pure (.ok none)
  | some q => do
    let N := a.n + a.m + a.p
    let Permutpr ← forI 0 N (malloc N : Buf Int) fun i Permutpr => do
      let v ← rd q.pr i
      wr Permutpr i (ToInt.trunc (v - Scalar.dec 1 0))
    let ok ← LDL_valid_perm N (some Permutpr) (some (malloc N))
    if ok = 0 then pure (.error "Not a Valid Permutation Vector")
    else pure (.ok (some Permutpr))

/-- Value of an option: `*mxGetPr(x)`. -/
def mxScalar (q : MxArr K) : M K := rd q.pr 0

/-- One of the options of lines 441-481: read the number, reject or apply it. -/
def mexOption (a : MexArgs K) (upper lower : String) (bad : K → Bool) (msg : String)
    (set : Settings K → K → Settings K) (s : Except String (Settings K)) :
    M (Except String (Settings K)) :=
  match s with
  | .error e => pure (.error e)
  | .ok s =>
    match mxOption a upper lower with
    | none => pure (.ok s)
    | some q => do
      let v ← mxScalar q
      if bad v then pure (.error msg) else pure (.ok (set s v))

/-- Lines 441-481. -/
def mexOptions (a : MexArgs K) (s : Settings K) : M (Except String (Settings K)) := do
  let r ← mexOption a "MAXITER" "maxiter"
    (fun v => Scalar.ltb v (Scalar.dec 0 0) || Scalar.ltb (Scalar.dec 200 0) v)
    "Iteration Number must be within 0 and 200" (fun s v => { s with maxit := ToInt.trunc v })
    (.ok s)
  let r ← mexOption a "ABSTOL" "abstol"
    (fun v => Scalar.ltb v (Scalar.dec 0 0) || Scalar.ltb (Scalar.dec 1 0) v)
    "Absolute Tolerance must be within 0 and 1" (fun s v => { s with abstol := v }) r
  let r ← mexOption a "RELTOL" "reltol"
    (fun v => Scalar.ltb v (Scalar.dec 0 0) || Scalar.ltb (Scalar.dec 1 0) v)
    "Relative Tolerance must be within 0 and 1" (fun s v => { s with reltol := v }) r
  let r ← mexOption a "SIGMA" "sigma" (fun v => Scalar.ltb v (Scalar.dec 0 0))
    "Sigma must be positive" (fun s v => { s with sigma := v }) r
  mexOption a "VERBOSE" "verbose" (fun v => Scalar.ltb v (Scalar.dec 0 0))
    "Verbose must be positive" (fun s v => { s with verbose := ToInt.trunc v }) r

/-- Results (without the times). -/
structure MexOut (K : Type) where
  sol : Buf K
  basic : Option (Int × Int)
  adv : Option (K × Option (Buf K) × Buf K × Buf K)

/-- Lines 510-593 -/
def mexResult (nlhs n m p : Int) (EXITCODE : Int) (myQP : QP K) : M (MexOut K) := do
  let sol ← pyCopy myQP.x n
  if nlhs = 1 then pure { sol := sol, basic := none, adv := none }
  else if nlhs = 2 then
    pure { sol := sol, basic := some (EXITCODE, myQP.stats.IterationCount), adv := none }
  else do
    let fval ← rdCell myQP.stats.fval
    let y ← (if p ≠ 0 then do
        let y ← pyCopy myQP.y p
        pure (some y)
      else pure none)
    let z ← pyCopy myQP.z m
    let s ← pyCopy myQP.s m
    pure { sol := sol, basic := some (EXITCODE, myQP.stats.IterationCount)
           adv := some (fval, y, z, s) }

/-- Lines 428-435: the arguments of setup. -/
def mexSetupArgs (a : MexArgs K) (Permut : Option (Buf Int)) : SetupArgs K :=
  { n := a.n, m := a.m, p := a.p
    Pjc := a.P.jc, Pir := a.P.ir, Ppr := a.P.pr
    Ajc := a.Ab.map (·.1.jc), Air := a.Ab.map (·.1.ir), Apr := a.Ab.map (·.1.pr)
    Gjc := a.G.jc, Gir := a.G.ir, Gpr := a.G.pr
    c := a.c.pr, h := a.h.pr, b := a.Ab.map (·.2.pr)
    sigma_d := Scalar.dec 0 0, Permut := Permut }

/-- `mexFunction` with one to three results, lines 102-606. -/
def mexFunction (amd : Amd) (a : MexArgs K) : M (Except String (MexOut K)) := do
  match mexCheck a with
  | some e => pure (.error e)
  | none => do
    let pm ← mexPermut a
    match pm with
    | .error e => pure (.error e)
    | .ok Permut => do
      let myQP ← QP_SETUP amd (mexSetupArgs a Permut)
      let o ← mexOptions a myQP.options
      match o with
      | .error e => pure (.error e)
      | .ok o => do
        let r ← QP_SOLVE { myQP with options := o }
        let out ← mexResult a.nlhs a.n a.m a.p r.1 r.2
        pure (.ok out)

end Verif
