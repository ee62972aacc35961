import Verif.Basic
import Verif.Scalar

/-!
# Model of `src/ldl.c`

Line numbers refer to `/repo/src/ldl.c`. Optional array arguments (NULL allowed) are `Option`s.
The step budget of the path-following loops is the matrix dimension; the theorems show that it is
never exhausted, so the C loops terminate.
-/

namespace Verif

/-- `(P) ? (P[k]) : (k)`, lines 215, 220, 283, 287. -/
def permAt (P : Option (Buf Int)) (k : Int) : M Int :=
  match P with
  | some P => rd P k
  | none => pure k

/-- Arrays written by the main loop of `LDL_symbolic`. -/
structure SymSt where
  Parent : Buf Int
  Lnz : Buf Int
  Flag : Buf Int

/-- Lines 224-230: follow the path from `i` to the root of the elimination tree. -/
def symPath (n : Int) (k i : Int) (st : SymSt) : M SymSt := do
  let r ← whileM n.toNat
    (fun s : Int × SymSt => do
      let f ← rd s.2.Flag s.1
      pure (decide (f ≠ k)))
    (fun s => do
      let par ← rd s.2.Parent s.1
      let Parent ← (if par = -1 then wr s.2.Parent s.1 k else pure s.2.Parent)
      let c ← rd s.2.Lnz s.1
      let Lnz ← wr s.2.Lnz s.1 (c + 1)
      let Flag ← wr s.2.Flag s.1 k
      let next ← rd Parent s.1
      pure (next, { Parent := Parent, Lnz := Lnz, Flag := Flag }))
    (i, st)
  pure r.2

/-- Output of `LDL_symbolic`. -/
structure SymOut where
  Lp : Buf Int
  Parent : Buf Int
  Lnz : Buf Int
  Flag : Buf Int
  Pinv : Option (Buf Int)
  deriving DecidableEq

/-- `LDL_symbolic`, lines 187-240. -/
def LDL_symbolic (n : Int) (Ap Ai Lp Parent Lnz Flag : Buf Int) (P Pinv : Option (Buf Int)) :
    M SymOut := do
  let Pinv ← (match P with
    | some P => do
      let Q ← deref Pinv
      let Q ← forI 0 n Q fun k Q => do
        let j ← rd P k
        wr Q j k
      pure (some Q)
    | none => pure Pinv)
  let st ← forI 0 n ({ Parent := Parent, Lnz := Lnz, Flag := Flag } : SymSt) fun k st => do
    let Parent ← wr st.Parent k (-1)
    let Flag ← wr st.Flag k k
    let Lnz ← wr st.Lnz k 0
    let kk ← permAt P k
    let p2 ← rd Ap (kk + 1)
    let p1 ← rd Ap kk
    forI p1 p2 ({ Parent := Parent, Lnz := Lnz, Flag := Flag } : SymSt) fun p st => do
      let a ← rd Ai p
      let i ← permAt Pinv a
      if i < k then symPath n k i st else pure st
  let Lp ← wr Lp 0 0
  let Lp ← forI 0 n Lp fun k Lp => do
    let a ← rd Lp k
    let c ← rd st.Lnz k
    wr Lp (k + 1) (a + c)
  pure { Lp := Lp, Parent := st.Parent, Lnz := st.Lnz, Flag := st.Flag, Pinv := Pinv }

variable {K : Type} [Zero K] [One K] [Add K] [Sub K] [Mul K] [Div K] [Neg K] [Scalar K]

/-- Arrays written by `LDL_numeric`. -/
structure NumSt (K : Type) where
  Lnz : Buf Int
  Li : Buf Int
  Lx : Buf K
  D : Buf K
  Y : Buf K
  Pattern : Buf Int
  Flag : Buf Int

/-- Lines 291-295: push the unflagged nodes of the path from `i` onto `Pattern[0..]`.
Result: `(i, len, Pattern, Flag)`. -/
def numPath (n : Int) (Parent : Buf Int) (k i : Int) (Pattern Flag : Buf Int) :
    M (Int × Int × Buf Int × Buf Int) :=
  whileM n.toNat
    (fun s : Int × Int × Buf Int × Buf Int => do
      let f ← rd s.2.2.2 s.1
      pure (decide (f ≠ k)))
    (fun s => do
      let Pattern ← wr s.2.2.1 s.2.1 s.1
      let Flag ← wr s.2.2.2 s.1 k
      let next ← rd Parent s.1
      pure (next, s.2.1 + 1, Pattern, Flag))
    (i, 0, Pattern, Flag)

/-- Line 296: `while (len > 0) Pattern[--top] = Pattern[--len];`. Result: `(top, Pattern)`. -/
def numMove (n : Int) (len top : Int) (Pattern : Buf Int) : M (Int × Buf Int) := do
  let r ← whileM n.toNat
    (fun s : Int × Int × Buf Int => pure (decide (0 < s.1)))
    (fun s => do
      let v ← rd s.2.2 (s.1 - 1)
      let Pattern ← wr s.2.2 (s.2.1 - 1) v
      pure (s.1 - 1, s.2.1 - 1, Pattern))
    (len, top, Pattern)
  pure r.2

/-- Lines 303-318, body: process node `Pattern[top]` of row `k`. -/
def numNode (Lp : Buf Int) (k top : Int) (st : NumSt K) : M (NumSt K) := do
  let i ← rd st.Pattern top
  let yi ← rd st.Y i
  let Y ← wr st.Y i 0
  let lp ← rd Lp i
  let c ← rd st.Lnz i
  let p2 := lp + c
  let Y ← forI lp p2 Y fun p Y => do
    let r ← rd st.Li p
    let y ← rd Y r
    let l ← rd st.Lx p
    wr Y r (y - l * yi)
  let p := if lp < p2 then p2 else lp
  let di ← rd st.D i
  let l_ki := yi / di
  let dk ← rd st.D k
  let D ← wr st.D k (dk - l_ki * yi)
  let Li ← wr st.Li p k
  let Lx ← wr st.Lx p l_ki
  let Lnz ← wr st.Lnz i (c + 1)
  pure { st with Y := Y, D := D, Li := Li, Lx := Lx, Lnz := Lnz }

/-- Lines 319-320: dynamic regularisation of a pivot. -/
def regPivot (d : K) : K :=
  let Sign : K := if Scalar.leb d 0 then Scalar.dec (-1) 0 else Scalar.dec 1 0
  if Scalar.leb (Sign * d) (Scalar.dec 1 14) then Sign * Scalar.dec 1 7 else d

/-- Lines 276-321, body of the main loop of `LDL_numeric` for row `k`. -/
def numRow (n : Int) (Ap Ai : Buf Int) (Ax : Buf K) (Lp Parent : Buf Int)
    (P Pinv : Option (Buf Int)) (k : Int) (st : NumSt K) : M (NumSt K) := do
  let Y ← wr st.Y k 0
  let Flag ← wr st.Flag k k
  let Lnz ← wr st.Lnz k 0
  let kk ← permAt P k
  let p2 ← rd Ap (kk + 1)
  let p1 ← rd Ap kk
  let r ← forI p1 p2 (n, Y, st.Pattern, Flag) fun p s => do
    let a ← rd Ai p
    let i ← permAt Pinv a
    if i ≤ k then do
      let y ← rd s.2.1 i
      let v ← rd Ax p
      let Y ← wr s.2.1 i (y + v)
      let q ← numPath n Parent k i s.2.2.1 s.2.2.2
      let t ← numMove n q.2.1 s.1 q.2.2.1
      pure (t.1, Y, t.2, q.2.2.2)
    else pure s
  let yk ← rd r.2.1 k
  let D ← wr st.D k yk
  let Y ← wr r.2.1 k 0
  let st : NumSt K :=
    { Lnz := Lnz, Li := st.Li, Lx := st.Lx, D := D, Y := Y, Pattern := r.2.2.1, Flag := r.2.2.2 }
  let st ← forI r.1 n st fun top st => numNode Lp k top st
  let dk ← rd st.D k
  let D ← wr st.D k (regPivot dk)
  pure { st with D := D }

/-- `LDL_numeric`, lines 253-326. Returns the return value and the written arrays. -/
def LDL_numeric (n : Int) (Ap Ai : Buf Int) (Ax : Buf K) (Lp Parent : Buf Int) (st : NumSt K)
    (P Pinv : Option (Buf Int)) : M (Int × NumSt K) := do
  let st ← forI 0 n st fun k st => numRow n Ap Ai Ax Lp Parent P Pinv k st
  pure (n, st)

/-- `LDL_lsolve`, lines 495-513. -/
def LDL_lsolve (n : Int) (X : Buf K) (Lp Li : Buf Int) (Lx : Buf K) : M (Buf K) :=
  forI 0 n X fun j X => do
    let p2 ← rd Lp (j + 1)
    let p1 ← rd Lp j
    forI p1 p2 X fun p X => do
      let r ← rd Li p
      let xr ← rd X r
      let l ← rd Lx p
      let xj ← rd X j
      wr X r (xr - l * xj)

/-- `LDL_dsolve`, lines 520-532. -/
def LDL_dsolve (n : Int) (X D : Buf K) : M (Buf K) :=
  forI 0 n X fun j X => do
    let x ← rd X j
    let d ← rd D j
    wr X j (x / d)

/-- `LDL_ltsolve`, lines 539-557. -/
def LDL_ltsolve (n : Int) (X : Buf K) (Lp Li : Buf Int) (Lx : Buf K) : M (Buf K) :=
  forDown n X fun j X => do
    let p2 ← rd Lp (j + 1)
    let p1 ← rd Lp j
    forI p1 p2 X fun p X => do
      let xj ← rd X j
      let l ← rd Lx p
      let r ← rd Li p
      let xr ← rd X r
      wr X j (xj - l * xr)

/-- `LDL_perm`, lines 564-577. -/
def LDL_perm (n : Int) (X B : Buf K) (P : Buf Int) : M (Buf K) :=
  forI 0 n X fun j X => do
    let i ← rd P j
    let v ← rd B i
    wr X j v

/-- `LDL_permt`, lines 584-597. -/
def LDL_permt (n : Int) (X B : Buf K) (P : Buf Int) : M (Buf K) :=
  forI 0 n X fun j X => do
    let i ← rd P j
    let v ← rd B j
    wr X i v

/-- `LDL_valid_perm`, lines 604-634. `Flag` and `P` may be NULL. -/
def LDL_valid_perm (n : Int) (P Flag : Option (Buf Int)) : M Int := do
  match Flag with
  | none => pure 0
  | some Flag =>
    if n < 0 then pure 0
    else match P with
      | none => pure 1
      | some P => do
        let Flag ← forI 0 n Flag fun j Flag => wr Flag j 0
        let r ← forBrk 0 n Flag fun k Flag => do
          let j ← rd P k
          if j < 0 || n ≤ j then pure (Flag, true)
          else do
            let f ← rd Flag j
            if f ≠ 0 then pure (Flag, true)
            else do
              let Flag ← wr Flag j 1
              pure (Flag, false)
        pure (if r.2 then 0 else 1)

/-- `LDL_valid_matrix`, lines 648-675. -/
def LDL_valid_matrix (n : Int) (Ap Ai : Option (Buf Int)) : M Int := do
  if n < 0 then pure 0
  else match Ap, Ai with
    | some Ap, some Ai => do
      let a0 ← rd Ap 0
      if a0 ≠ 0 then pure 0
      else do
        let r ← forBrk 0 n () fun j _ => do
          let a ← rd Ap j
          let b ← rd Ap (j + 1)
          pure ((), decide (b < a))
        if r.2 then pure 0
        else do
          let nz ← rd Ap n
          let r ← forBrk 0 nz () fun p _ => do
            let a ← rd Ai p
            pure ((), decide (a < 0) || decide (n ≤ a))
          pure (if r.2 then 0 else 1)
    | _, _ => pure 0

end Verif
