import Verif.Model.Ldl

/-!
# `/repo/src/ldl.c` with its floating-point operations counted

As `Model/Ldl.lean`, with a counter of divisions and of pairs of a multiplication and a subtraction. The additions that
enter the column of the matrix (line 283) and the regularisation of the pivots are not counted.
-/

namespace Verif

/-- Divisions and multiplications with a subtraction. -/
structure Ops where
  div : Nat
  ms : Nat

def Ops.addDiv (o : Ops) : Ops := { o with div := o.div + 1 }
def Ops.addMs (o : Ops) : Ops := { o with ms := o.ms + 1 }

variable {K : Type} [Zero K] [One K] [Add K] [Sub K] [Mul K] [Div K] [Neg K] [Scalar K]

/-- Lines 303-318, body: process node `Pattern[top]` of row `k`. -/
def numNodeO (Lp : Buf Int) (k top : Int) (so : NumSt K × Ops) : M (NumSt K × Ops) := do
  let st := so.1
  let i ← rd st.Pattern top
  let yi ← rd st.Y i
  let Y ← wr st.Y i 0
  let lp ← rd Lp i
  let c ← rd st.Lnz i
  let p2 := lp + c
  let r ← forI lp p2 (Y, so.2) fun p s => do
    let r ← rd st.Li p
    let y ← rd s.1 r
    let l ← rd st.Lx p
    let Y ← wr s.1 r (y - l * yi)
    pure (Y, s.2.addMs)
  let p := if lp < p2 then p2 else lp
  let di ← rd st.D i
  let l_ki := yi / di
  let o := r.2.addDiv
  let dk ← rd st.D k
  let D ← wr st.D k (dk - l_ki * yi)
  let o := o.addMs
  let Li ← wr st.Li p k
  let Lx ← wr st.Lx p l_ki
  let Lnz ← wr st.Lnz i (c + 1)
  pure ({ st with Y := r.1, D := D, Li := Li, Lx := Lx, Lnz := Lnz }, o)

/-- Lines 276-321, body of the main loop of `LDL_numeric` for row `k`. -/
def numRowO (n : Int) (Ap Ai : Buf Int) (Ax : Buf K) (Lp Parent : Buf Int)
    (P Pinv : Option (Buf Int)) (k : Int) (so : NumSt K × Ops) : M (NumSt K × Ops) := do
  let st := so.1
  let Y ← wr st.Y k 0
  let Flag ← wr st.Flag k k
  let Lnz ← wr st.Lnz k 0
  let kk ← permAt P k
  let p2 ← rd Ap (kk + 1)
  let p1 ← rd Ap kk
  let r ← forI p1 p2 (n, Y, st.Pattern, Flag) fun p s => do
    let a ← rd Ai p
    let i ← permAt Pinv a
    if i ≤ k then do
      let y ← rd s.2.1 i
      let v ← rd Ax p
      let Y ← wr s.2.1 i (y + v)
      let q ← numPath n Parent k i s.2.2.1 s.2.2.2
      let t ← numMove n q.2.1 s.1 q.2.2.1
      pure (t.1, Y, t.2, q.2.2.2)
    else pure s
  let yk ← rd r.2.1 k
  let D ← wr st.D k yk
  let Y ← wr r.2.1 k 0
  let st : NumSt K :=
    { Lnz := Lnz, Li := st.Li, Lx := st.Lx, D := D, Y := Y, Pattern := r.2.2.1, Flag := r.2.2.2 }
  let so ← forI r.1 n (st, so.2) fun top so => numNodeO Lp k top so
  let dk ← rd so.1.D k
  let D ← wr so.1.D k (regPivot dk)
  pure ({ so.1 with D := D }, so.2)

/-- `LDL_numeric`, lines 253-326. -/
def LDL_numericO (n : Int) (Ap Ai : Buf Int) (Ax : Buf K) (Lp Parent : Buf Int) (st : NumSt K)
    (P Pinv : Option (Buf Int)) : M ((Int × NumSt K) × Ops) := do
  let so ← forI 0 n (st, ⟨0, 0⟩) fun k so => numRowO n Ap Ai Ax Lp Parent P Pinv k so
  pure ((n, so.1), so.2)

/-- `LDL_lsolve`, lines 495-513. -/
def LDL_lsolveO (n : Int) (X : Buf K) (Lp Li : Buf Int) (Lx : Buf K) (o : Ops) : M (Buf K × Ops) :=
  forI 0 n (X, o) fun j s => do
    let p2 ← rd Lp (j + 1)
    let p1 ← rd Lp j
    forI p1 p2 s fun p s => do
      let r ← rd Li p
      let xr ← rd s.1 r
      let l ← rd Lx p
      let xj ← rd s.1 j
      let X ← wr s.1 r (xr - l * xj)
      pure (X, s.2.addMs)

/-- `LDL_dsolve`, lines 520-532. -/
def LDL_dsolveO (n : Int) (X D : Buf K) (o : Ops) : M (Buf K × Ops) :=
  forI 0 n (X, o) fun j s => do
    let x ← rd s.1 j
    let d ← rd D j
    let X ← wr s.1 j (x / d)
    pure (X, s.2.addDiv)

/-- `LDL_ltsolve`, lines 539-557. -/
def LDL_ltsolveO (n : Int) (X : Buf K) (Lp Li : Buf Int) (Lx : Buf K) (o : Ops) : M (Buf K × Ops) :=
  forDown n (X, o) fun j s => do
    let p2 ← rd Lp (j + 1)
    let p1 ← rd Lp j
    forI p1 p2 s fun p s => do
      let xj ← rd s.1 j
      let l ← rd Lx p
      let r ← rd Li p
      let xr ← rd s.1 r
      let X ← wr s.1 j (xj - l * xr)
      pure (X, s.2.addMs)

end Verif
