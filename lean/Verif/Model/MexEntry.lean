import Verif.Model.Front

/-!
# Model of the arguments of the MATLAB function

`matlab/qpSWIFT_mex.c` lines 102-111 and 193-247: number of arguments and of results, and which
argument is which. The help text and the text printed when `VERBOSE` is positive are left out.
-/

namespace Verif

variable {K : Type} [Zero K] [One K] [Add K] [Sub K] [Mul K] [Div K] [Neg K] [Scalar K] [ToInt K]

/-- A MATLAB value: a matrix, or a structure. `fields` lists the fields of the first element of a
structure; for anything else it is empty and `mxGetField` returns NULL. Of a structure, `arr` only
gives class and dimensions. -/
structure MxVal (K : Type) where
  arr : MxArr K
  fields : List (String × MxArr K)

/-- What a call leads to: the help text, an error, or the results. -/
inductive MexRes (K : Type)
  | help
  | error (msg : String)
  | results (d : MexOut K)

/-- Lines 193-247: the arguments for `nrhs` equal to 4, 5, 6 and 7. -/
def mexAssign (nlhs : Int) (prhs : List (MxVal K)) : Option (MexArgs K) :=
  match prhs with
  | [P, c, G, h] =>
    some { nlhs := nlhs, P := P.arr, c := c.arr, Ab := none, G := G.arr, h := h.arr, sttgs := none }
  | [P, c, G, h, sttgs] =>
    some { nlhs := nlhs, P := P.arr, c := c.arr, Ab := none, G := G.arr, h := h.arr,
           sttgs := some sttgs.fields }
  | [P, c, A, b, G, h] =>
    some { nlhs := nlhs, P := P.arr, c := c.arr, Ab := some (A.arr, b.arr), G := G.arr, h := h.arr,
           sttgs := none }
  | [P, c, A, b, G, h, sttgs] =>
    some { nlhs := nlhs, P := P.arr, c := c.arr, Ab := some (A.arr, b.arr), G := G.arr, h := h.arr,
           sttgs := some sttgs.fields }
  | _ => none

/-- `mexFunction`, lines 99-606, from its arguments on. -/
def mexEntry (amd : Amd) (nlhs : Int) (prhs : List (MxVal K)) : M (MexRes K) :=
  if nlhs = 0 then pure .help
  else
    match mexAssign nlhs prhs with
    | none => pure (.error "Please enter the correct number of input arguments")
    | some a =>
      if nlhs < 0 ∨ nlhs > 3 then pure (.error "The number of outputs is restricted to 3")
      else do
        match ← mexFunction amd a with
        | .error e => pure (.error e)
        | .ok d => pure (.results d)

end Verif
