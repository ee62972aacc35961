import Verif.Model.Front

/-!
# Input ports of the Simulink blocks

`simulink/qpSWIFT_sfunc.c` and `simulink/qpSWIFT_sfunc_e.c`. `ssGetInputPortRealSignalPtrs` returns an array
with one pointer for each element of the signal; the elements need not be adjacent in memory unless the
block asks for that with `ssSetInputPortRequiredContiguous`, which neither block does. Memory is a list of objects
(arrays), and a pointer is the number of an object and a place in it.
-/

namespace Verif

variable {K : Type} [Zero K] [One K] [Add K] [Sub K] [Mul K] [Div K] [Neg K] [Scalar K]

/-- `InputRealPtrsType`: pointers to the elements of a signal. -/
abbrev Port := List (Nat × Nat)

/-- `*in`, used as a pointer to an array (qpSWIFT_sfunc_e.c line 140): the rest of the object that holds the
first element. -/
def Port.deref (mem : List (Buf K)) (in_ : Port) : M (Buf K) :=
  match in_[0]? with
  | none => .error .oob
  | some a =>
    match mem[a.1]? with
    | none => .error .oob
    | some o => .ok (o.drop a.2)

/-- The ports of a block; `eq` (the ports `A` and `b`) is missing in qpSWIFT_sfunc.c. -/
structure SfPorts where
  P : Port
  c : Port
  eq : Option (Port × Port)
  G : Port
  h : Port

/-- `mdlOutputs` with its ports, qpSWIFT_sfunc_e.c lines 118-179 and qpSWIFT_sfunc.c lines 114-180. The widths of the
ports `P`, `A` and `G` are read (lines 128-133) and not used. -/
def mdlOutputsPorts (amd : Amd) (mem : List (Buf K)) (i : SfPorts) : M (SfOut K) := do
  let P ← i.P.deref mem
  let c ← i.c.deref mem
  let G ← i.G.deref mem
  let h ← i.h.deref mem
  match i.eq with
  | none => mdlOutputs amd i.c.length i.h.length 0 P none G c h none
  | some eq => do
    let A ← eq.1.deref mem
    let b ← eq.2.deref mem
    mdlOutputs amd i.c.length i.h.length eq.2.length P (some A) G c h (some b)

end Verif
