import Verif.Model.Front
import Mathlib.Logic.Function.Basic

/-!
# Reference counts of the Python entry point

`python/pyqpSWIFT.c` once more, with the reference counts of the objects it handles. Objects of the caller
are numbers; two arguments may be the same object. Objects created by the call are numbered in the
order of their creation. Use of an object without references is the error `Err.null`.

Functions of Python and numpy are assumed to succeed and to follow their documentation:
`PyDict_GetItemString` returns a borrowed reference, `PyArray_GETCONTIGUOUS` a new reference to the
same array if it is contiguous and to a copy otherwise, `PyArray_Cast` and `PyArray_SimpleNew` a new array,
`Py_BuildValue` a new dictionary, which owns the keys and numbers it creates and gets a new reference to
every object passed with the format `O`. Keys and numbers are counted like any other object (Python
shares some of them). An exception that is pending does not disturb later calls.
-/

namespace Verif

/-- An object of the caller, or the `k`-th object created by the call. -/
inductive PyRef
  | old (i : Nat)
  | new (k : Nat)

/-- An object created by the call: the number of references to it and the references it owns. -/
structure PyObj where
  refs : Int
  owns : List PyRef

/-- The counts of the caller's objects, the objects created, and whether an exception is pending. -/
structure PySt where
  old : Nat → Int
  new : List PyObj
  exc : Bool

/-- `Py_INCREF` -/
def pyIncref (r : PyRef) (st : PySt) : M PySt :=
  match r with
  | .old i => if 0 < st.old i then pure { st with old := Function.update st.old i (st.old i + 1) }
    else .error .null
  | .new k => match st.new[k]? with
    | none => .error .null
    | some o => if 0 < o.refs then pure { st with new := st.new.set k { o with refs := o.refs + 1 } }
      else .error .null

/-- `Py_DECREF`: an object without references is destroyed and gives up the references it owns. The first
argument bounds the depth of the recursion. -/
def pyDecref : Nat → PyRef → PySt → M PySt
  | 0, _, _ => .error .diverge
  | d + 1, r, st =>
    match r with
    | .old i => if 0 < st.old i then pure { st with old := Function.update st.old i (st.old i - 1) }
      else .error .null
    | .new k => match st.new[k]? with
      | none => .error .null
      | some o =>
        if 1 < o.refs then pure { st with new := st.new.set k { o with refs := o.refs - 1 } }
        else if o.refs = 1 then
          o.owns.foldlM (fun st r => pyDecref d r st) { st with new := st.new.set k ⟨0, []⟩ }
        else .error .null

/-- `Py_DECREF`, for as many objects as there are. -/
def pyDrop (r : PyRef) (st : PySt) : M PySt := pyDecref (st.new.length + 1) r st

/-- A new object with one reference. -/
def pyCreate (owns : List PyRef) (st : PySt) : PyRef × PySt :=
  (.new st.new.length, { st with new := st.new ++ [⟨1, owns⟩] })

/-- The object is alive. -/
def pyAlive (r : PyRef) (st : PySt) : M Unit :=
  match r with
  | .old i => if 0 < st.old i then pure () else .error .null
  | .new k => match st.new[k]? with
    | none => .error .null
    | some o => if 0 < o.refs then pure () else .error .null

/-- `k` new objects. -/
def pyFresh : Nat → PySt → List PyRef × PySt
  | 0, st => ([], st)
  | k + 1, st =>
    let a := pyCreate [] st
    let b := pyFresh k a.2
    (a.1 :: b.1, b.2)

/-- `Py_BuildValue` of a dictionary with `k` keys and numbers and the objects `objs`. -/
def pyBuild (k : Nat) (objs : List PyRef) (st : PySt) : M (PyRef × PySt) := do
  let f := pyFresh k st
  let st ← objs.foldlM (fun st r => pyIncref r st) f.2
  pure (pyCreate (f.1 ++ objs) st)

/-- The arguments of the call. -/
inductive PyName
  | c | h | P | G | A | b
  | opt (key : String)

/-- What the model does not derive from the arguments: which objects the arguments are, which arrays are
contiguous, and whether a warning is turned into an exception. -/
structure PyEnv where
  id : PyName → Nat
  contig : PyName → Bool
  warnRaises : Bool

/-- `getptr`, lines 15-35. -/
def pyGetptr (e : PyEnv) (x : PyName) (st : PySt) : M (PyRef × PySt) := do
  let t ← (if e.contig x then do
      let st ← pyIncref (.old (e.id x)) st
      pure (PyRef.old (e.id x), st)
    else do
      pyAlive (.old (e.id x)) st
      pure (pyCreate [] st) : M (PyRef × PySt))
  pyAlive t.1 t.2
  let o := pyCreate [] t.2
  let st ← pyDrop t.1 o.2
  pure (o.1, st)

variable {K : Type} [Zero K] [One K] [Add K] [Sub K] [Mul K] [Div K] [Neg K] [Scalar K]

/-- One of the blocks of lines 186-270; `r` is the outcome of the check. -/
def pyOptRef (o : List (String × PyVal K)) (key : String) (r : Except String (Settings K)) (i : Nat)
    (st : PySt) : M (Except String (Settings K) × PySt) :=
  match pyGet o key with
  | none => pure (r, st)
  | some _ => do
    let st ← pyIncref (.old i) st
    match r with
    | .error e => pure (.error e, { st with exc := true })
    | .ok s => do
      let st ← pyDrop (.old i) st
      pure (.ok s, st)

/-- Lines 272-288. `PyLong_AsLong` raises an exception for a number that does not fit into a `long`. -/
def pyOutRef (e : PyEnv) (o : List (String × PyVal K)) (st : PySt) : M PySt :=
  match pyGet o "OUTPUT" with
  | none => pure st
  | some v => do
    let i := e.id (.opt "OUTPUT")
    let st ← pyIncref (.old i) st
    let st := (match v with
      | .int v => if -2 ^ 63 ≤ v ∧ v < 2 ^ 63 then
          (if v ≥ 0 then st else { st with exc := st.exc || e.warnRaises })
        else { st with exc := true }
      | _ => { st with exc := st.exc || e.warnRaises })
    pyDrop (.old i) st

/-- Continue with the next option if the value was accepted. -/
def pyThen (x : Except String (Settings K) × PySt)
    (f : Settings K → PySt → M (Except String (Settings K) × PySt)) : M (Except String (Settings K) × PySt) :=
  match x.1 with
  | .error e => pure (.error e, x.2)
  | .ok s => f s x.2

/-- Lines 176-289: the settings and the output level. -/
def pyOptionsR (e : PyEnv) (opts : Option (List (String × PyVal K))) (st : PySt) :
    M (Except String (Settings K × Int) × PySt) :=
  match opts with
  | none => pure (.ok (defaultSettings, 10), st)
  | some o => do
    let x ← pyOptRef o "MAXITER" (pyMaxit o defaultSettings) (e.id (.opt "MAXITER")) st
    let x ← pyThen x fun s st => pyOptRef o "ABSTOL" (pyAbstol o s) (e.id (.opt "ABSTOL")) st
    let x ← pyThen x fun s st => pyOptRef o "RELTOL" (pyReltol o s) (e.id (.opt "RELTOL")) st
    let x ← pyThen x fun s st => pyOptRef o "SIGMA" (pySigma o s) (e.id (.opt "SIGMA")) st
    let x ← pyThen x fun s st => pyOptRef o "VERBOSE" (pyVerbose o s) (e.id (.opt "VERBOSE")) st
    match x.1 with
    | .error m => pure (.error m, x.2)
    | .ok s => do
      let st ← pyOutRef e o x.2
      pure (.ok (s, pyOutput o), st)

/-- Lines 344-442: the dictionaries. Returns the result and the reference `sol_x`. -/
def pyResultR (level : Int) (hasEq : Bool) (st : PySt) : M (PyRef × PyRef × PySt) := do
  let x := pyCreate [] st
  if level = 1 then do
    let basic ← pyBuild 8 [] x.2
    let result ← pyBuild 2 [x.1, basic.1] basic.2
    let st ← pyDrop basic.1 result.2
    pure (result.1, x.1, st)
  else if level = 2 then do
    let basic ← pyBuild 8 [] x.2
    let y : Option PyRef × PySt := if hasEq then
        let y := pyCreate [] basic.2
        (some y.1, y.2)
      else (none, basic.2)
    let z := pyCreate [] y.2
    let s := pyCreate [] z.2
    let adv ← pyBuild (if hasEq then 9 else 8) (y.1.toList ++ [z.1, s.1]) s.2
    let result ← pyBuild 3 [x.1, basic.1, adv.1] adv.2
    let st ← pyDrop basic.1 result.2
    let st ← pyDrop adv.1 st
    let st ← (match y.1 with
      | some y => pyDrop y st
      | none => pure st)
    let st ← pyDrop z.1 st
    let st ← pyDrop s.1 st
    pure (result.1, x.1, st)
  else do
    let result ← pyBuild 1 [x.1] x.2
    pure (result.1, x.1, result.2)

/-- `method_qpSWIFT`, lines 37-463, with reference counts. Returns the result (`none`: NULL). The data of
`ctemp`, `htemp` and `btemp` are used until the solver has returned, those of the matrices until they
are converted. -/
def method_qpSWIFTR (e : PyEnv) (amd : Amd) (a : PyArgs K) (st : PySt) : M ((PyRes K × Option PyRef) × PySt) := do
  let d ← pyDims a
  let bad ← pyCheck a d.1 d.2.1 d.2.2
  match bad with
  | some m => pure ((.typeError m, none), { st with exc := true })
  | none => do
    let x ← pyOptionsR e a.opts st
    match x.1 with
    | .error m => pure ((.typeError m, none), x.2)
    | .ok o => do
      let c ← pyGetptr e .c x.2
      let h ← pyGetptr e .h c.2
      let bA ← (if a.hasEq then do
          let b ← pyGetptr e .b h.2
          let A ← pyGetptr e .A b.2
          pure ([b.1], [A.1], A.2)
        else pure ([], [], h.2) : M (List PyRef × List PyRef × PySt))
      let P ← pyGetptr e .P bA.2.2
      let G ← pyGetptr e .G P.2
      let st := G.2
      (bA.2.1 ++ [P.1, G.1]).forM fun r => pyAlive r st
      let myQP ← pySetup amd a d.1 d.2.1 d.2.2
      ([c.1, h.1] ++ bA.1).forM fun r => pyAlive r st
      let r ← QP_SOLVE { myQP with options := o.1 }
      let out ← pyResult o.2 a.hasEq r.1 r.2
      let res ← pyResultR o.2 a.hasEq st
      let st ← pyDrop res.2.1 res.2.2
      let st ← pyDrop P.1 st
      let st ← pyDrop c.1 st
      let st ← pyDrop G.1 st
      let st ← pyDrop h.1 st
      let st ← bA.2.1.foldlM (fun st r => pyDrop r st) st
      let st ← bA.1.foldlM (fun st r => pyDrop r st) st
      pure ((.dict out, some res.1), st)

end Verif
