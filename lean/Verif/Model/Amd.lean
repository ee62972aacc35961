import Verif.Basic

/-!
# Model of the fill-reducing ordering (amd_*.c)

`Int` is `SuiteSparse_long` (include/amd_internal.h 172). Sums and differences of such integers are
checked: a result beyond `Int_MAX` or below `-Int_MAX - 1` is the error `overflow` (`ck`). Increments
of a counter that has just been found smaller than another integer are not. Debug code
(`ASSERT`, `AMD_DEBUGn`, compiled out by `NDEBUG`, amd_internal.h 51) is left out, and so are the
statistics written to `Info`, which nothing reads. The seven work arrays that amd_1.c 51–58 cuts out of
one block `S` are separate arrays once they are cut, so an access that would stray into a neighbouring
work array is an error of the model. `while` loops and walks along linked lists carry a step budget derived
from the array sizes; exceeding it is the error `diverge`.
-/

namespace Verif

/-- `SuiteSparse_long_max`, `Int_MAX`: include/amd_internal.h 174 -/
def Int_MAX : Int := 9223372036854775807

/-- The result of an operation on integers of type `Int`. -/
def ck (v : Int) : M Int := chk Int_MAX v

/-- include/amd_internal.h 119 -/
def EMPTY : Int := -1

/-- include/amd_internal.h 120 -/
def FLIP (i : Int) : Int := -i - 2

/-- include/amd.h 370 -/
def AMD_OK : Int := 0
/-- include/amd.h 371 -/
def AMD_OUT_OF_MEMORY : Int := -1
/-- include/amd.h 372 -/
def AMD_INVALID : Int := -2
/-- include/amd.h 373 -/
def AMD_OK_BUT_JUMBLED : Int := 1

/-- `a + b` for values of the unsigned type `size_t` -/
def addSize (a b : Int) : Int := (a + b) % 2 ^ 64

/-- `amd_malloc (n * sizeof (Int))` when it succeeds; a size that is not a `size_t` is an error. -/
def amdMalloc (n : Int) : M (Buf Int) :=
  if 0 ≤ n ∧ 8 * n < 2 ^ 64 then .ok (malloc n) else .error .overflow

/-- `b[i]++` -/
def incr (b : Buf Int) (i : Int) : M (Buf Int) := do
  let v ← rd b i
  let v' ← ck (v + 1)
  wr b i v'

/-- src/amd_valid.c 38–92 -/
def AMD_valid (n_row n_col : Int) (Ap Ai : Option (Buf Int)) : M Int :=
  if n_row < 0 ∨ n_col < 0 then pure AMD_INVALID
  else match Ap, Ai with
  | some Ap, some Ai => do
    let nz ← rd Ap n_col
    let ap0 ← rd Ap 0
    if ap0 ≠ 0 ∨ nz < 0 then pure AMD_INVALID
    else do
      let r ← forBrk 0 n_col AMD_OK (fun j result => do
        let p1 ← rd Ap j
        let p2 ← rd Ap (j + 1)
        if p1 > p2 then pure (AMD_INVALID, true)
        else do
          let q ← forBrk p1 p2 (result, EMPTY) (fun p s => do
            let i ← rd Ai p
            if i < 0 ∨ i ≥ n_row then pure ((AMD_INVALID, s.2), true)
            else pure ((if i ≤ s.2 then AMD_OK_BUT_JUMBLED else s.1, i), false))
          pure (q.1.1, q.2))
      pure r.1
  | _, _ => pure AMD_INVALID

/-- Body of the counting loop of amd_preprocess.c 63–73 for column `j`. -/
def preCountCol (Ap Ai : Buf Int) (j : Int) (st : Buf Int × Buf Int) : M (Buf Int × Buf Int) := do
  let p2 ← rd Ap (j + 1)
  let p1 ← rd Ap j
  forI p1 p2 st (fun p st => do
    let i ← rd Ai p
    let fl ← rd st.2 i
    if fl ≠ j then do
      let W ← incr st.1 i
      let Flag ← wr st.2 i j
      pure (W, Flag)
    else pure st)

/-- Body of the loop that builds `R` in amd_preprocess.c 98–108 for column `j`; the state is
`(Ri, W, Flag)`. -/
def preFillCol (Ap Ai : Buf Int) (j : Int) (st : Buf Int × Buf Int × Buf Int) :
    M (Buf Int × Buf Int × Buf Int) := do
  let p2 ← rd Ap (j + 1)
  let p1 ← rd Ap j
  forI p1 p2 st (fun p st => do
    let i ← rd Ai p
    let fl ← rd st.2.2 i
    if fl ≠ j then do
      let w ← rd st.2.1 i
      let w' ← ck (w + 1)
      let Ri ← wr st.1 w j
      let W ← wr st.2.1 i w'
      let Flag ← wr st.2.2 i j
      pure (Ri, W, Flag)
    else pure st)

/-- src/amd_preprocess.c 29–118. Arguments `Rp`, `Ri`, `W`, `Flag` are the caller's arrays; the
result is their new contents. -/
def AMD_preprocess (n : Int) (Ap Ai Rp Ri W Flag : Buf Int) :
    M (Buf Int × Buf Int × Buf Int × Buf Int) := do
  let st ← forI 0 n (W, Flag) (fun i st => do
    let W ← wr st.1 i 0
    let Flag ← wr st.2 i EMPTY
    pure (W, Flag))
  let st ← forI 0 n st (preCountCol Ap Ai)
  let Rp ← wr Rp 0 0
  let Rp ← forI 0 n Rp (fun i Rp => do
    let a ← rd Rp i
    let w ← rd st.1 i
    let v ← ck (a + w)
    wr Rp (i + 1) v)
  let st ← forI 0 n st (fun i st => do
    let a ← rd Rp i
    let W ← wr st.1 i a
    let Flag ← wr st.2 i EMPTY
    pure (W, Flag))
  let st ← forI 0 n (Ri, st.1, st.2) (preFillCol Ap Ai)
  pure (Rp, st.1, st.2.1, st.2.2)

/-- State of the loop of `AMD_post_tree`. -/
structure PostSt where
  head : Int
  k : Int
  Child : Buf Int
  Order : Buf Int
  Stack : Buf Int

/-- One iteration of the loop of amd_post_tree.c 64–104. -/
def postStep (Sibling : Buf Int) (s : PostSt) : M PostSt := do
  let i ← rd s.Stack s.head
  let c ← rd s.Child i
  if c ≠ EMPTY then do
    let r ← whileM Sibling.length (fun r => pure (decide (r.1 ≠ EMPTY))) (fun r => do
      let f ← rd Sibling r.1
      let h ← ck (r.2 + 1)
      pure (f, h)) (c, s.head)
    let head := r.2
    let r ← whileM Sibling.length (fun r => pure (decide (r.1 ≠ EMPTY))) (fun r => do
      let Stack ← wr r.2.2 r.2.1 r.1
      let f ← rd Sibling r.1
      let h ← ck (r.2.1 - 1)
      pure (f, h, Stack)) (c, head, s.Stack)
    let Child ← wr s.Child i EMPTY
    pure { s with head := head, Child := Child, Stack := r.2.2 }
  else do
    let Order ← wr s.Order i s.k
    let h ← ck (s.head - 1)
    let k ← ck (s.k + 1)
    pure { s with head := h, k := k, Order := Order }

/-- src/amd_post_tree.c 15–120 (the non-recursive version). -/
def AMD_post_tree (root k : Int) (Child Sibling Order Stack : Buf Int) : M PostSt := do
  let Stack ← wr Stack 0 root
  whileM (2 * Sibling.length) (fun s => pure (decide (s.head ≥ 0))) (postStep Sibling)
    { head := 0, k := k, Child := Child, Order := Order, Stack := Stack }

/-- amd_postorder.c 47–58: put node `j` at the head of the list of children of its parent. The
state is `(Child, Sibling)`. -/
def postLink (Parent Nv : Buf Int) (j : Int) (st : Buf Int × Buf Int) : M (Buf Int × Buf Int) := do
  let v ← rd Nv j
  if v > 0 then do
    let parent ← rd Parent j
    if parent ≠ EMPTY then do
      let c ← rd st.1 parent
      let Sibling ← wr st.2 j c
      let Child ← wr st.1 parent j
      pure (Child, Sibling)
    else pure st
  else pure st

/-- State of the search for the biggest child, amd_postorder.c 121–137. -/
structure BigSt where
  f : Int
  fprev : Int
  maxfrsize : Int
  bigfprev : Int
  bigf : Int

/-- amd_postorder.c 121–137 -/
def postBiggest (Fsize Sibling : Buf Int) (c : Int) : M BigSt :=
  whileM Sibling.length (fun s : BigSt => pure (decide (s.f ≠ EMPTY))) (fun s => do
    let frsize ← rd Fsize s.f
    let f ← rd Sibling s.f
    if frsize ≥ s.maxfrsize then
      pure { f := f, fprev := s.f, maxfrsize := frsize, bigfprev := s.fprev, bigf := s.f }
    else pure { s with f := f, fprev := s.f })
    { f := c, fprev := EMPTY, maxfrsize := EMPTY, bigfprev := EMPTY, bigf := EMPTY }

/-- amd_postorder.c 120–166: move the biggest child of `i` to the end of its list of children. -/
def postBigLast (Nv Fsize : Buf Int) (i : Int) (st : Buf Int × Buf Int) :
    M (Buf Int × Buf Int) := do
  let v ← rd Nv i
  if v > 0 then do
    let c ← rd st.1 i
    if c ≠ EMPTY then do
      let b ← postBiggest Fsize st.2 c
      let fnext ← rd st.2 b.bigf
      if fnext ≠ EMPTY then do
        let st ← (if b.bigfprev = EMPTY then do
            let Child ← wr st.1 i fnext
            pure (Child, st.2)
          else do
            let Sibling ← wr st.2 b.bigfprev fnext
            pure (st.1, Sibling) : M (Buf Int × Buf Int))
        let Sibling ← wr st.2 b.bigf EMPTY
        let Sibling ← wr Sibling b.fprev b.bigf
        pure (st.1, Sibling)
      else pure st
    else pure st
  else pure st

/-- src/amd_postorder.c 15–206; returns `(Order, Child, Sibling, Stack)`. -/
def AMD_postorder (nn : Int) (Parent Nv Fsize Order Child Sibling Stack : Buf Int) :
    M (Buf Int × Buf Int × Buf Int × Buf Int) := do
  let st ← forI 0 nn (Child, Sibling) (fun j st => do
    let Child ← wr st.1 j EMPTY
    let Sibling ← wr st.2 j EMPTY
    pure (Child, Sibling))
  let st ← forDown nn st (postLink Parent Nv)
  let st ← forI 0 nn st (postBigLast Nv Fsize)
  let Order ← forI 0 nn Order (fun i Order => wr Order i EMPTY)
  let r ← forI 0 nn ((0 : Int), st.1, Order, Stack) (fun i r => do
    let par ← rd Parent i
    if par = EMPTY then do
      let v ← rd Nv i
      if v > 0 then do
        let t ← AMD_post_tree i r.1 r.2.1 st.2 r.2.2.1 r.2.2.2
        pure (t.k, t.Child, t.Order, t.Stack)
      else pure r
    else pure r)
  pure (r.2.2.1, r.2.1, st.2, r.2.2.2)

/-! ## amd_aat.c -/

/-- `Len`, `nzdiag` and `nzboth`. -/
structure AatSt where
  Len : Buf Int
  nzdiag : Int
  nzboth : Int

/-- amd_aat.c 95–122: scan of the lower triangular part of column `j` up to row `k`; the state is that of the
counters and `pj`. -/
def aatLower (Ap Ai : Buf Int) (k j : Int) (g : AatSt) (pj : Int) : M (AatSt × Int) := do
  let pj2 ← rd Ap (j + 1)
  let r ← whileM Ai.length (fun s : (AatSt × Int) × Bool => pure (!s.2 && decide (s.1.2 < pj2)))
    (fun s => do
      let i ← rd Ai s.1.2
      if i < k then do
        let Len ← incr s.1.1.Len i
        let Len ← incr Len j
        pure (({ s.1.1 with Len := Len }, s.1.2 + 1), false)
      else if i = k then do
        let nb ← ck (s.1.1.nzboth + 1)
        pure (({ s.1.1 with nzboth := nb }, s.1.2 + 1), true)
      else pure (s.1, true)) ((g, pj), false)
  pure r.1

/-- amd_aat.c 61–125: column `k`; the state is that of the counters and `Tp`. -/
def aatCol (Ap Ai : Buf Int) (k : Int) (st : AatSt × Buf Int) : M (AatSt × Buf Int) := do
  let p1 ← rd Ap k
  let p2 ← rd Ap (k + 1)
  let r ← whileM Ai.length
    (fun s : ((AatSt × Buf Int) × Int) × Bool => pure (!s.2 && decide (s.1.2 < p2)))
    (fun s => do
      let j ← rd Ai s.1.2
      if j < k then do
        let Len ← incr s.1.1.1.Len j
        let Len ← incr Len k
        let pj ← rd s.1.1.2 j
        let q ← aatLower Ap Ai k j { s.1.1.1 with Len := Len } pj
        let Tp ← wr s.1.1.2 j q.2
        pure (((q.1, Tp), s.1.2 + 1), false)
      else if j = k then do
        let nd ← ck (s.1.1.1.nzdiag + 1)
        pure ((({ s.1.1.1 with nzdiag := nd }, s.1.1.2), s.1.2 + 1), true)
      else pure (s.1, true)) ((st, p1), false)
  let Tp ← wr r.1.1.2 k r.1.2
  pure (r.1.1.1, Tp)

/-- amd_aat.c 131–140: remaining entries of column `j`. -/
def aatRest (Ap Ai Tp : Buf Int) (j : Int) (g : AatSt) : M AatSt := do
  let pj ← rd Tp j
  let pj2 ← rd Ap (j + 1)
  forI pj pj2 g (fun pj g => do
    let i ← rd Ai pj
    let Len ← incr g.Len i
    let Len ← incr Len j
    pure { g with Len := Len })

/-- What amd_aat.c 174–181 writes to `Info`, besides `n`. -/
structure AatInfo where
  nz : Int
  symmetry : Rat
  nzdiag : Int
  nzaat : Int

/-- src/amd_aat.c 20–184; returns `(nzaat, Len, Tp)` and the statistics. The quotient `sym`, a double in
the code, is an exact fraction. -/
def AMD_aatI (n : Int) (Ap Ai Len Tp : Buf Int) : M ((Int × Buf Int × Buf Int) × AatInfo) := do
  let Len ← forI 0 n Len (fun k Len => wr Len k 0)
  let nz ← rd Ap n
  let st ← forI 0 n ({ Len := Len, nzdiag := 0, nzboth := 0 }, Tp) (aatCol Ap Ai)
  let g ← forI 0 n st.1 (aatRest Ap Ai st.2)
  let sym ← (if nz = g.nzdiag then pure 1 else do
    let d ← ck (nz - g.nzdiag)
    pure ((2 * g.nzboth : Rat) / d) : M Rat)
  let nzaat ← forI 0 n (0 : Int) (fun k acc => do
    let l ← rd g.Len k
    pure (addSize acc l))
  pure ((nzaat, g.Len, st.2), { nz := nz, symmetry := sym, nzdiag := g.nzdiag, nzaat := nzaat })

/-- src/amd_aat.c 20–184 without the statistics. -/
def AMD_aat (n : Int) (Ap Ai Len Tp : Buf Int) : M (Int × Buf Int × Buf Int) := do
  let r ← AMD_aatI n Ap Ai Len Tp
  pure r.1

/-! ## amd_1.c -/

/-- `Iw [Sp [a]++] = b` -/
def putNext (st : Buf Int × Buf Int) (a b : Int) : M (Buf Int × Buf Int) := do
  let q ← rd st.2 a
  let q' ← ck (q + 1)
  let Iw ← wr st.1 q b
  let Sp ← wr st.2 a q'
  pure (Iw, Sp)

/-- `Iw [Sp [a]++] = b ; Iw [Sp [b]++] = a`, amd_1.c 103–104, 131–132, 162–163; the state is
`(Iw, Sp)`. -/
def putPair (st : Buf Int × Buf Int) (a b : Int) : M (Buf Int × Buf Int) := do
  let st ← putNext st a b
  putNext st b a

/-- amd_1.c 121–147 -/
def amd1Lower (Ap Ai : Buf Int) (k j : Int) (g : Buf Int × Buf Int) (pj : Int) :
    M ((Buf Int × Buf Int) × Int) := do
  let pj2 ← rd Ap (j + 1)
  let r ← whileM Ai.length
    (fun s : ((Buf Int × Buf Int) × Int) × Bool => pure (!s.2 && decide (s.1.2 < pj2)))
    (fun s => do
      let i ← rd Ai s.1.2
      if i < k then do
        let g ← putPair s.1.1 i j
        pure ((g, s.1.2 + 1), false)
      else if i = k then pure ((s.1.1, s.1.2 + 1), true)
      else pure (s.1, true)) ((g, pj), false)
  pure r.1

/-- amd_1.c 89–149: column `k`; the state is `((Iw, Sp), Tp)`. -/
def amd1Col (Ap Ai : Buf Int) (k : Int) (st : (Buf Int × Buf Int) × Buf Int) :
    M ((Buf Int × Buf Int) × Buf Int) := do
  let p1 ← rd Ap k
  let p2 ← rd Ap (k + 1)
  let r ← whileM Ai.length
    (fun s : (((Buf Int × Buf Int) × Buf Int) × Int) × Bool =>
      pure (!s.2 && decide (s.1.2 < p2)))
    (fun s => do
      let j ← rd Ai s.1.2
      if j < k then do
        let g ← putPair s.1.1.1 j k
        let pj ← rd s.1.1.2 j
        let q ← amd1Lower Ap Ai k j g pj
        let Tp ← wr s.1.1.2 j q.2
        pure (((q.1, Tp), s.1.2 + 1), false)
      else if j = k then pure ((s.1.1, s.1.2 + 1), true)
      else pure (s.1, true)) ((st, p1), false)
  let Tp ← wr r.1.1.2 k r.1.2
  pure (r.1.1.1, Tp)

/-- amd_1.c 155–164 -/
def amd1Rest (Ap Ai Tp : Buf Int) (j : Int) (g : Buf Int × Buf Int) : M (Buf Int × Buf Int) := do
  let pj ← rd Tp j
  let pj2 ← rd Ap (j + 1)
  forI pj pj2 g (fun pj g => do
    let i ← rd Ai pj
    putPair g i j)

/-- amd_1.c 62–165: construct `A + A'` in `Iw`; returns `(Pe, Iw, Sp, Tp, pfree)`. -/
def amd1Build (n : Int) (Ap Ai Len Pe Sp Tp Iw : Buf Int) :
    M (Buf Int × Buf Int × Buf Int × Buf Int × Int) := do
  let r ← forI 0 n (Pe, Sp, (0 : Int)) (fun j r => do
    let Pe ← wr r.1 j r.2.2
    let Sp ← wr r.2.1 j r.2.2
    let l ← rd Len j
    let q ← ck (r.2.2 + l)
    pure (Pe, Sp, q))
  let st ← forI 0 n ((Iw, r.2.1), Tp) (amd1Col Ap Ai)
  let g ← forI 0 n st.1 (amd1Rest Ap Ai st.2)
  pure (r.1, g.1, g.2, st.2, r.2.2)

/-! ## amd_2.c -/

/-- amd_2.c 22–35 -/
def clear_flag (wflg wbig : Int) (W : Buf Int) (n : Int) : M (Int × Buf Int) :=
  if wflg < 2 ∨ wflg ≥ wbig then do
    let W ← forI 0 n W (fun x W => do
      let w ← rd W x
      if w ≠ 0 then wr W x 1 else pure W)
    pure (2, W)
  else pure (wflg, W)

/-- The arrays and the scalars that survive an iteration of the main loop of `AMD_2`. -/
structure Amd2 where
  Pe : Buf Int
  Iw : Buf Int
  Len : Buf Int
  Nv : Buf Int
  Next : Buf Int
  Last : Buf Int
  Head : Buf Int
  Elen : Buf Int
  Degree : Buf Int
  W : Buf Int
  pfree : Int
  nel : Int
  mindeg : Int
  wflg : Int
  lemax : Int

/-- amd_2.c 610–622: initial contents of the work arrays for node `i`. -/
def amd2InitNode (i : Int) (s : Amd2) : M Amd2 := do
  let Last ← wr s.Last i EMPTY
  let Head ← wr s.Head i EMPTY
  let Next ← wr s.Next i EMPTY
  let Nv ← wr s.Nv i 1
  let W ← wr s.W i 1
  let Elen ← wr s.Elen i 0
  let l ← rd s.Len i
  let Degree ← wr s.Degree i l
  pure { s with Last := Last, Head := Head, Next := Next, Nv := Nv, W := W, Elen := Elen
                Degree := Degree }

/-- Put `i` at the head of the list of degree `deg`: amd_2.c 685–689. -/
def degInsert (i deg : Int) (s : Amd2) : M Amd2 := do
  let inext ← rd s.Head deg
  let Last ← (if inext ≠ EMPTY then wr s.Last inext i else pure s.Last)
  let Next ← wr s.Next i inext
  let Head ← wr s.Head deg i
  pure { s with Last := Last, Next := Next, Head := Head }

/-- amd_2.c 640–692: node `i` is empty, dense, or enters a degree list. -/
def amd2Classify (dense : Int) (i : Int) (s : Amd2) : M Amd2 := do
  let deg ← rd s.Degree i
  if deg = 0 then do
    let Elen ← wr s.Elen i (FLIP 1)
    let nel ← ck (s.nel + 1)
    let Pe ← wr s.Pe i EMPTY
    let W ← wr s.W i 0
    pure { s with Elen := Elen, nel := nel, Pe := Pe, W := W }
  else if deg > dense then do
    let Nv ← wr s.Nv i 0
    let Elen ← wr s.Elen i EMPTY
    let nel ← ck (s.nel + 1)
    let Pe ← wr s.Pe i EMPTY
    pure { s with Nv := Nv, Elen := Elen, nel := nel, Pe := Pe }
  else degInsert i deg s

/-- Remove `i` from its degree list: amd_2.c 796–810 and 955–969. -/
def degRemove (i : Int) (s : Amd2) : M Amd2 := do
  let ilast ← rd s.Last i
  let inext ← rd s.Next i
  let Last ← (if inext ≠ EMPTY then wr s.Last inext ilast else pure s.Last)
  if ilast ≠ EMPTY then do
    let Next ← wr s.Next ilast inext
    pure { s with Last := Last, Next := Next }
  else do
    let d ← rd s.Degree i
    let Head ← wr s.Head d inext
    pure { s with Last := Last, Head := Head }

/-- amd_2.c 719–735: find the next pivot and take it off its degree list; returns `me`. -/
def amd2Pivot (n : Int) (s : Amd2) : M (Int × Amd2) := do
  let r ← forBrk s.mindeg n (s.mindeg, EMPTY) (fun deg _ => do
    let me ← rd s.Head deg
    if me ≠ EMPTY then pure ((deg, me), true) else pure ((deg + 1, me), false))
  let deg := r.1.1
  let me := r.1.2
  let inext ← rd s.Next me
  let Last ← (if inext ≠ EMPTY then wr s.Last inext EMPTY else pure s.Last)
  let Head ← wr s.Head deg inext
  pure (me, { s with Last := Last, Head := Head, mindeg := deg })

/-- amd_2.c 776–811, one step of the in-place construction; the state is
`(degme, pme2, workspace)`. -/
def amd2InPlaceStep (p : Int) (st : Int × Int × Amd2) : M (Int × Int × Amd2) := do
  let i ← rd st.2.2.Iw p
  let nvi ← rd st.2.2.Nv i
  if nvi > 0 then do
    let degme ← ck (st.1 + nvi)
    let nvi' ← ck (-nvi)
    let Nv ← wr st.2.2.Nv i nvi'
    let pme2 ← ck (st.2.1 + 1)
    let Iw ← wr st.2.2.Iw pme2 i
    let s ← degRemove i { st.2.2 with Nv := Nv, Iw := Iw }
    pure (degme, pme2, s)
  else pure st

/-- amd_2.c 893–902: FLIP the first entry of every object. -/
def gcMark (n : Int) (Pe Iw : Buf Int) : M (Buf Int × Buf Int) :=
  forI 0 n (Pe, Iw) (fun j st => do
    let pn ← rd st.1 j
    if pn ≥ 0 then do
      let v ← rd st.2 pn
      let Pe ← wr st.1 j v
      let f ← ck (FLIP j)
      let Iw ← wr st.2 pn f
      pure (Pe, Iw)
    else pure st)

/-- State of the compression loop. -/
structure GcSt where
  psrc : Int
  pdst : Int
  Pe : Buf Int
  Iw : Buf Int

/-- amd_2.c 912–924: one step of the compression loop. -/
def gcStep (Len : Buf Int) (s : GcSt) : M GcSt := do
  let v ← rd s.Iw s.psrc
  let psrc ← ck (s.psrc + 1)
  let j ← ck (FLIP v)
  if j ≥ 0 then do
    let pj ← rd s.Pe j
    let Iw ← wr s.Iw s.pdst pj
    let Pe ← wr s.Pe j s.pdst
    let pdst ← ck (s.pdst + 1)
    let lenj ← rd Len j
    let last ← ck (lenj - 2)
    let r ← forI 0 (last + 1) (psrc, pdst, Iw) (fun _ r => do
      let v ← rd r.2.2 r.1
      let Iw ← wr r.2.2 r.2.1 v
      let psrc ← ck (r.1 + 1)
      let pdst ← ck (r.2.1 + 1)
      pure (psrc, pdst, Iw))
    pure { psrc := r.1, pdst := r.2.1, Pe := Pe, Iw := r.2.2 }
  else pure { s with psrc := psrc }

/-- amd_2.c 905–934: compress `Iw` and move the new element; returns `(Pe, Iw, pme1, pfree)`. -/
def gcCompress (pme1 pfree : Int) (Pe Iw Len : Buf Int) : M (Buf Int × Buf Int × Int × Int) := do
  let pend ← ck (pme1 - 1)
  let g ← whileM Iw.length (fun s : GcSt => pure (decide (s.psrc ≤ pend))) (gcStep Len)
    { psrc := 0, pdst := 0, Pe := Pe, Iw := Iw }
  let last ← ck (pfree - 1)
  let r ← forI pme1 (last + 1) (g.pdst, g.Iw) (fun psrc r => do
    let v ← rd r.2 psrc
    let Iw ← wr r.2 r.1 v
    let pdst ← ck (r.1 + 1)
    pure (pdst, Iw))
  pure (g.Pe, r.2, g.pdst, r.1)

/-- State of the construction of an element in free space. -/
structure BuildSt where
  /-- position in the list of `me` -/
  p : Int
  /-- position in the list being searched -/
  pj : Int
  /-- start of the new element -/
  pme1 : Int
  degme : Int
  s : Amd2

/-- amd_2.c 870–938: garbage collection while constructing element `me` (searching list `e`). -/
def amd2Compress (n me e knt1 knt2 ln : Int) (b : BuildSt) : M BuildSt := do
  let s := b.s
  let Pe ← wr s.Pe me b.p
  let lme ← rd s.Len me
  let lme ← ck (lme - knt1)
  let Len ← wr s.Len me lme
  let lme ← rd Len me
  let Pe ← (if lme = 0 then wr Pe me EMPTY else pure Pe)
  let Pe ← wr Pe e b.pj
  let le ← ck (ln - knt2)
  let Len ← wr Len e le
  let le ← rd Len e
  let Pe ← (if le = 0 then wr Pe e EMPTY else pure Pe)
  let mk ← gcMark n Pe s.Iw
  let c ← gcCompress b.pme1 s.pfree mk.1 mk.2 Len
  let pj ← rd c.1 e
  let p ← rd c.1 me
  pure { b with p := p, pj := pj, pme1 := c.2.2.1
                s := { s with Pe := c.1, Iw := c.2.1, Len := Len, pfree := c.2.2.2 } }

/-- amd_2.c 857–970: one entry of the list being searched. -/
def amd2SearchStep (n iwlen me e knt1 ln : Int) (knt2 : Int) (b : BuildSt) : M BuildSt := do
  let i ← rd b.s.Iw b.pj
  let pj ← ck (b.pj + 1)
  let b := { b with pj := pj }
  let nvi ← rd b.s.Nv i
  if nvi > 0 then do
    let b ← (if b.s.pfree ≥ iwlen then amd2Compress n me e knt1 knt2 ln b else pure b)
    let degme ← ck (b.degme + nvi)
    let nvi' ← ck (-nvi)
    let Nv ← wr b.s.Nv i nvi'
    let Iw ← wr b.s.Iw b.s.pfree i
    let pfree ← ck (b.s.pfree + 1)
    let s ← degRemove i { b.s with Nv := Nv, Iw := Iw, pfree := pfree }
    pure { b with degme := degme, s := s }
  else pure b

/-- amd_2.c 826–981: one list (an element of `me`, or the variables of `me`). -/
def amd2SearchList (n iwlen me elenme slenme : Int) (knt1 : Int) (b : BuildSt) : M BuildSt := do
  let sel ← (if knt1 > elenme then pure (me, b.p, b.p, slenme)
    else do
      let e ← rd b.s.Iw b.p
      let p ← ck (b.p + 1)
      let pj ← rd b.s.Pe e
      let ln ← rd b.s.Len e
      pure (e, p, pj, ln) : M (Int × Int × Int × Int))
  let e := sel.1
  let ln := sel.2.2.2
  let top ← ck (ln + 1)
  let b ← forI 1 top { b with p := sel.2.1, pj := sel.2.2.1 }
    (amd2SearchStep n iwlen me e knt1 ln)
  if e ≠ me then do
    let f ← ck (FLIP me)
    let Pe ← wr b.s.Pe e f
    let W ← wr b.s.W e 0
    pure { b with s := { b.s with Pe := Pe, W := W } }
  else pure b

/-- amd_2.c 760–996: construct the element `me`. Returns `(pme1, pme2, degme, workspace)`. -/
def amd2Construct (n iwlen me elenme nvpiv : Int) (s : Amd2) : M (Int × Int × Int × Amd2) := do
  let nv ← ck (-nvpiv)
  let Nv ← wr s.Nv me nv
  let s := { s with Nv := Nv }
  let r ← (if elenme = 0 then do
      let pme1 ← rd s.Pe me
      let pme2 ← ck (pme1 - 1)
      let l ← rd s.Len me
      let top ← ck (pme1 + l)
      let r ← forI pme1 top (0, pme2, s) amd2InPlaceStep
      pure (pme1, r.2.1, r.1, r.2.2)
    else do
      let p ← rd s.Pe me
      let l ← rd s.Len me
      let slenme ← ck (l - elenme)
      let top ← ck (elenme + 2)
      let b ← forI 1 top { p := p, pj := 0, pme1 := s.pfree, degme := 0, s := s }
        (amd2SearchList n iwlen me elenme slenme)
      let pme2 ← ck (b.s.pfree - 1)
      pure (b.pme1, pme2, b.degme, b.s) : M (Int × Int × Int × Amd2))
  let s := r.2.2.2
  let Degree ← wr s.Degree me r.2.2.1
  let Pe ← wr s.Pe me r.1
  let d ← ck (r.2.1 - r.1)
  let l ← ck (d + 1)
  let Len ← wr s.Len me l
  let d ← ck (nvpiv + r.2.2.1)
  let f ← ck (FLIP d)
  let Elen ← wr s.Elen me f
  pure (r.1, r.2.1, r.2.2.1, { s with Degree := Degree, Pe := Pe, Len := Len, Elen := Elen })

/-- amd_2.c 1048–1066: external degree of element `e = Iw[p]` with respect to the pivot. -/
def amd2Scan1Elem (nvi wnvi wflg : Int) (Iw Degree : Buf Int) (p : Int) (W : Buf Int) :
    M (Buf Int) := do
  let e ← rd Iw p
  let we ← rd W e
  if we ≥ wflg then do
    let we ← ck (we - nvi)
    wr W e we
  else if we ≠ 0 then do
    let d ← rd Degree e
    let we ← ck (d + wnvi)
    wr W e we
  else wr W e we

/-- amd_2.c 1036–1068: scan 1 for the entry at `pme`. -/
def amd2Scan1 (pme : Int) (s : Amd2) : M Amd2 := do
  let i ← rd s.Iw pme
  let eln ← rd s.Elen i
  if eln > 0 then do
    let nv ← rd s.Nv i
    let nvi ← ck (-nv)
    let wnvi ← ck (s.wflg - nvi)
    let p ← rd s.Pe i
    let top ← ck (p + eln)
    let W ← forI p top s.W (amd2Scan1Elem nvi wnvi s.wflg s.Iw s.Degree)
    pure { s with W := W }
  else pure s

/-- Addition of integers of type `unsigned Int`, which wraps around. -/
def uadd (a b : Int) : Int := (a + b) % (2 * Int_MAX + 2)

/-- Accumulators of scan 2 for one variable. -/
structure Scan2St where
  pn : Int
  deg : Int
  hash : Int
  s : Amd2

/-- amd_2.c 1104–1128 (aggressive) and 1135–1148: one element of the list of `i`. -/
def amd2Scan2Elem (aggressive : Bool) (me p : Int) (a : Scan2St) : M Scan2St := do
  let e ← rd a.s.Iw p
  let we ← rd a.s.W e
  if we ≠ 0 then do
    let dext ← ck (we - a.s.wflg)
    if aggressive ∧ ¬ dext > 0 then do
      let f ← ck (FLIP me)
      let Pe ← wr a.s.Pe e f
      let W ← wr a.s.W e 0
      pure { a with s := { a.s with Pe := Pe, W := W } }
    else do
      let deg ← ck (a.deg + dext)
      let Iw ← wr a.s.Iw a.pn e
      let pn ← ck (a.pn + 1)
      pure { pn := pn, deg := deg, hash := uadd a.hash e, s := { a.s with Iw := Iw } }
  else pure a

/-- amd_2.c 1165–1177: one supervariable of the list of `i`. -/
def amd2Scan2Var (p : Int) (a : Scan2St) : M Scan2St := do
  let j ← rd a.s.Iw p
  let nvj ← rd a.s.Nv j
  if nvj > 0 then do
    let deg ← ck (a.deg + nvj)
    let Iw ← wr a.s.Iw a.pn j
    let pn ← ck (a.pn + 1)
    pure { pn := pn, deg := deg, hash := uadd a.hash j, s := { a.s with Iw := Iw } }
  else pure a

/-- amd_2.c 1258–1282: place `i` in the bucket of its hash key. -/
def hashInsert (n i hash : Int) (s : Amd2) : M Amd2 := do
  let hash := hash % n
  let j ← rd s.Head hash
  let s ← (if j ≤ EMPTY then do
      let f ← ck (FLIP j)
      let Next ← wr s.Next i f
      let f ← ck (FLIP i)
      let Head ← wr s.Head hash f
      pure { s with Next := Next, Head := Head }
    else do
      let l ← rd s.Last j
      let Next ← wr s.Next i l
      let Last ← wr s.Last j i
      pure { s with Next := Next, Last := Last } : M Amd2)
  let Last ← wr s.Last i hash
  pure { s with Last := Last }

/-- amd_2.c 1085–1283: scan 2 for the entry at `pme`; the state is `(degme, nvpiv, workspace)`. -/
def amd2Scan2 (aggressive : Bool) (n me : Int) (pme : Int) (st : Int × Int × Amd2) :
    M (Int × Int × Amd2) := do
  let s := st.2.2
  let i ← rd s.Iw pme
  let p1 ← rd s.Pe i
  let el ← rd s.Elen i
  let p2 ← ck (p1 + el)
  let a ← forI p1 p2 { pn := p1, deg := 0, hash := 0, s := s } (amd2Scan2Elem aggressive me)
  let d ← ck (a.pn - p1)
  let d ← ck (d + 1)
  let Elen ← wr a.s.Elen i d
  let p3 := a.pn
  let l ← rd a.s.Len i
  let p4 ← ck (p1 + l)
  let a ← forI p2 p4 { a with s := { a.s with Elen := Elen } } amd2Scan2Var
  let s := a.s
  let el ← rd s.Elen i
  if el = 1 ∧ p3 = a.pn then do
    let f ← ck (FLIP me)
    let Pe ← wr s.Pe i f
    let nv ← rd s.Nv i
    let nvi ← ck (-nv)
    let degme ← ck (st.1 - nvi)
    let nvpiv ← ck (st.2.1 + nvi)
    let nel ← ck (s.nel + nvi)
    let Nv ← wr s.Nv i 0
    let Elen ← wr s.Elen i EMPTY
    pure (degme, nvpiv, { s with Pe := Pe, Nv := Nv, Elen := Elen, nel := nel })
  else do
    let d ← rd s.Degree i
    let Degree ← wr s.Degree i (min d a.deg)
    let v ← rd s.Iw p3
    let Iw ← wr s.Iw a.pn v
    let v ← rd Iw p1
    let Iw ← wr Iw p3 v
    let Iw ← wr Iw p1 me
    let d ← ck (a.pn - p1)
    let d ← ck (d + 1)
    let Len ← wr s.Len i d
    let s ← hashInsert n i a.hash { s with Degree := Degree, Iw := Iw, Len := Len }
    pure (st.1, st.2.1, s)

/-- amd_2.c 1323–1340: take the bucket of hash key `hash` off; returns its first variable. -/
def hashTake (hash : Int) (s : Amd2) : M (Int × Amd2) := do
  let j ← rd s.Head hash
  if j = EMPTY then pure (EMPTY, s)
  else if j < EMPTY then do
    let i ← ck (FLIP j)
    let Head ← wr s.Head hash EMPTY
    pure (i, { s with Head := Head })
  else do
    let i ← rd s.Last j
    let Last ← wr s.Last j EMPTY
    pure (i, { s with Last := Last })

/-- amd_2.c 1389–1395: do `i` (scattered into `W`) and `j` have the same pattern? -/
def samePattern (ln eln j : Int) (s : Amd2) : M Bool := do
  let lj ← rd s.Len j
  let ej ← rd s.Elen j
  if lj = ln ∧ ej = eln then do
    let p ← rd s.Pe j
    let p1 ← ck (p + 1)
    let top ← ck (p + ln)
    let r ← forBrk p1 top () (fun p _ => do
      let x ← rd s.Iw p
      let w ← rd s.W x
      pure ((), decide (w ≠ s.wflg)))
    pure (!r.2)
  else pure false

/-- amd_2.c 1389–1422: compare `i` with `j`; the state is `(jlast, j, workspace)`. -/
def amd2Compare (ln eln i : Int) (st : Int × Int × Amd2) : M (Int × Int × Amd2) := do
  let s := st.2.2
  let j := st.2.1
  let ok ← samePattern ln eln j s
  if ok then do
    let f ← ck (FLIP i)
    let Pe ← wr s.Pe j f
    let nvi ← rd s.Nv i
    let nvj ← rd s.Nv j
    let nvi ← ck (nvi + nvj)
    let Nv ← wr s.Nv i nvi
    let Nv ← wr Nv j 0
    let Elen ← wr s.Elen j EMPTY
    let jn ← rd s.Next j
    let Next ← wr s.Next st.1 jn
    pure (st.1, jn, { s with Pe := Pe, Nv := Nv, Elen := Elen, Next := Next })
  else do
    let jn ← rd s.Next j
    pure (j, jn, s)

/-- amd_2.c 1359–1432: one variable `i` of a bucket; the state is `(i, workspace)`. -/
def amd2Bucket (n : Int) (st : Int × Amd2) : M (Int × Amd2) := do
  let s := st.2
  let i := st.1
  let ln ← rd s.Len i
  let eln ← rd s.Elen i
  let p ← rd s.Pe i
  let p1 ← ck (p + 1)
  let top ← ck (p + ln)
  let W ← forI p1 top s.W (fun p W => do
    let x ← rd s.Iw p
    wr W x s.wflg)
  let s := { s with W := W }
  let j ← rd s.Next i
  let r ← whileM n.toNat (fun r : Int × Int × Amd2 => pure (decide (r.2.1 ≠ EMPTY)))
    (amd2Compare ln eln i) (i, j, s)
  let wflg ← ck (r.2.2.wflg + 1)
  let s := { r.2.2 with wflg := wflg }
  let i ← rd s.Next i
  pure (i, s)

/-- amd_2.c 1305–1436: supervariable detection for the entry at `pme`. -/
def amd2Detect (n : Int) (pme : Int) (s : Amd2) : M Amd2 := do
  let i ← rd s.Iw pme
  let nv ← rd s.Nv i
  if nv < 0 then do
    let hash ← rd s.Last i
    let r ← hashTake hash s
    let r ← whileM n.toNat (fun r : Int × Amd2 =>
        if r.1 ≠ EMPTY then do
          let x ← rd r.2.Next r.1
          pure (decide (x ≠ EMPTY))
        else pure false) (amd2Bucket n) r
    pure r.2
  else pure s

/-- amd_2.c 1448–1490: restore variable at `pme`; the state is `(p, workspace)`. -/
def amd2Restore (nleft degme : Int) (pme : Int) (st : Int × Amd2) : M (Int × Amd2) := do
  let s := st.2
  let i ← rd s.Iw pme
  let nv ← rd s.Nv i
  let nvi ← ck (-nv)
  if nvi > 0 then do
    let Nv ← wr s.Nv i nvi
    let d ← rd s.Degree i
    let deg ← ck (d + degme)
    let deg ← ck (deg - nvi)
    let left ← ck (nleft - nvi)
    let deg := min deg left
    let inext ← rd s.Head deg
    let Last ← (if inext ≠ EMPTY then wr s.Last inext i else pure s.Last)
    let Next ← wr s.Next i inext
    let Last ← wr Last i EMPTY
    let Head ← wr s.Head deg i
    let Degree ← wr s.Degree i deg
    let Iw ← wr s.Iw st.1 i
    let p ← ck (st.1 + 1)
    pure (p, { s with Nv := Nv, Last := Last, Next := Next, Head := Head, mindeg := min s.mindeg deg,
                      Degree := Degree, Iw := Iw })
  else pure st

/-- amd_2.c 1499–1514: finalise element `me`; `p` is the end of its list. -/
def amd2Finish (me nvpiv pme1 elenme p : Int) (s : Amd2) : M Amd2 := do
  let Nv ← wr s.Nv me nvpiv
  let d ← ck (p - pme1)
  let Len ← wr s.Len me d
  let l ← rd Len me
  let s := { s with Nv := Nv, Len := Len }
  let s ← (if l = 0 then do
      let Pe ← wr s.Pe me EMPTY
      let W ← wr s.W me 0
      pure { s with Pe := Pe, W := W }
    else pure s : M Amd2)
  pure (if elenme ≠ 0 then { s with pfree := p } else s)

/-- amd_2.c 698–1514: one iteration of the main loop without the statistics; returns `degme`, `nvpiv` and
the state. -/
def amd2IterF (aggressive : Bool) (n iwlen wbig : Int) (s : Amd2) : M (Int × Int × Amd2) := do
  let r ← amd2Pivot n s
  let me := r.1
  let s := r.2
  let elenme ← rd s.Elen me
  let nvpiv ← rd s.Nv me
  let nel ← ck (s.nel + nvpiv)
  let c ← amd2Construct n iwlen me elenme nvpiv { s with nel := nel }
  let pme1 := c.1
  let pme2 := c.2.1
  let degme := c.2.2.1
  let s := c.2.2.2
  let f ← clear_flag s.wflg wbig s.W n
  let s := { s with wflg := f.1, W := f.2 }
  let top ← ck (pme2 + 1)
  let s ← forI pme1 top s amd2Scan1
  let r ← forI pme1 top (degme, nvpiv, s) (amd2Scan2 aggressive n me)
  let degme := r.1
  let nvpiv := r.2.1
  let s := r.2.2
  let Degree ← wr s.Degree me degme
  let lemax := max s.lemax degme
  let wflg ← ck (s.wflg + lemax)
  let f ← clear_flag wflg wbig s.W n
  let s := { s with Degree := Degree, lemax := lemax, wflg := f.1, W := f.2 }
  let s ← forI pme1 top s (amd2Detect n)
  let nleft ← ck (n - s.nel)
  let r ← forI pme1 top (pme1, s) (amd2Restore nleft degme)
  let s ← amd2Finish me nvpiv pme1 elenme r.1 r.2
  pure (degme, nvpiv, s)

/-- One iteration of the main loop; only the state. -/
def amd2Iter (aggressive : Bool) (n iwlen wbig : Int) (s : Amd2) : M Amd2 := do
  let r ← amd2IterF aggressive n iwlen wbig s
  pure r.2.2

/-- amd_2.c 1710–1759: path compression for the non-principal variable `i`. -/
def amd2Path (n : Int) (Nv : Buf Int) (i : Int) (Pe : Buf Int) : M (Buf Int) := do
  let v ← rd Nv i
  if v = 0 then do
    let j ← rd Pe i
    if j = EMPTY then pure Pe
    else do
      let e ← whileM n.toNat (fun j => do
          let v ← rd Nv j
          pure (decide (v = 0))) (fun j => rd Pe j) j
      let r ← whileM n.toNat (fun r : Int × Buf Int => do
          let v ← rd Nv r.1
          pure (decide (v = 0))) (fun r => do
          let jnext ← rd r.2 r.1
          let Pe ← wr r.2 r.1 e
          pure (jnext, Pe)) (i, Pe)
      pure r.2
  else pure Pe

/-- amd_2.c 1796–1804: first position of every element, in the order `Head`; the state is
`(Next, nel)`. -/
def amd2Starts (n : Int) (Nv Head Next : Buf Int) : M (Buf Int × Int) := do
  let r ← forBrk 0 n (Next, (0 : Int)) (fun k r => do
    let e ← rd Head k
    if e = EMPTY then pure (r, true)
    else do
      let Next ← wr r.1 e r.2
      let v ← rd Nv e
      let nel ← ck (r.2 + v)
      pure ((Next, nel), false))
  pure r.1

/-- amd_2.c 1810–1830: positions of the non-principal variables; the state is `(Next, nel)`. -/
def amd2Place (Nv Pe : Buf Int) (i : Int) (st : Buf Int × Int) : M (Buf Int × Int) := do
  let v ← rd Nv i
  if v = 0 then do
    let e ← rd Pe i
    if e ≠ EMPTY then do
      let k ← rd st.1 e
      let Next ← wr st.1 i k
      let Next ← incr Next e
      pure (Next, st.2)
    else do
      let Next ← wr st.1 i st.2
      let nel ← ck (st.2 + 1)
      pure (Next, nel)
  else pure st

/-- amd_2.c 1634–1842: from the assembly tree to the permutation; returns `(Last, Next)`. -/
def amd2Output (n : Int) (s : Amd2) : M (Buf Int × Buf Int) := do
  let Pe ← forI 0 n s.Pe (fun i Pe => do
    let v ← rd Pe i
    let f ← ck (FLIP v)
    wr Pe i f)
  let Elen ← forI 0 n s.Elen (fun i Elen => do
    let v ← rd Elen i
    let f ← ck (FLIP v)
    wr Elen i f)
  let Pe ← forI 0 n Pe (amd2Path n s.Nv)
  let po ← AMD_postorder n Pe s.Nv Elen s.W s.Head s.Next s.Last
  let W := po.1
  let st ← forI 0 n (po.2.1, po.2.2.1) (fun k st => do
    let Head ← wr st.1 k EMPTY
    let Next ← wr st.2 k EMPTY
    pure (Head, Next))
  let Head ← forI 0 n st.1 (fun e Head => do
    let k ← rd W e
    if k ≠ EMPTY then wr Head k e else pure Head)
  let r ← amd2Starts n s.Nv Head st.2
  let r ← forI 0 n r (amd2Place s.Nv Pe)
  let Last ← forI 0 n po.2.2.2 (fun i Last => do
    let k ← rd r.1 i
    wr Last k i)
  pure (Last, r.1)

/-- amd_2.c 579–692: initialisation. `dense0` is the value of `(Int)(alpha * sqrt ((double) n))`. -/
def amd2Init (n dense0 wbig : Int) (s : Amd2) : M Amd2 := do
  let dense := min n (max 16 dense0)
  let s ← forI 0 n s amd2InitNode
  let f ← clear_flag 0 wbig s.W n
  let s := { s with nel := 0, mindeg := 0, lemax := 0, wflg := f.1, W := f.2 }
  forI 0 n s (amd2Classify dense)

/-- src/amd_2.c 42–1842. The members `nel`, `mindeg`, `wflg`, `lemax` of `s` are local variables, set
by the initialisation. Returns `(Last, Next)`: the permutation and its inverse. -/
def AMD_2 (n dense0 iwlen : Int) (aggressive : Bool) (s : Amd2) : M (Buf Int × Buf Int) := do
  let wbig ← ck (Int_MAX - n)
  let s ← amd2Init n dense0 wbig s
  let s ← whileM n.toNat (fun s => pure (decide (s.nel < n))) (amd2Iter aggressive n iwlen wbig) s
  amd2Output n s

/-! ## amd_order.c -/

/-- `SIZE_T_MAX / sizeof (Int)` -/
def SIZE_T_MAX_8 : Int := 18446744073709551615 / 8

/-- `X = s ; s += n`, amd_1.c 54–61: the first `n` cells of the block and the rest of it. -/
def cut (S : Buf Int) (n : Int) : M (Buf Int × Buf Int) :=
  if 0 ≤ n ∧ n ≤ S.length then .ok (S.take n.toNat, S.drop n.toNat) else .error .oob

/-- src/amd_1.c 29–180; returns the contents of `P` and `Pinv`. -/
def AMD_1 (n : Int) (Ap Ai P Pinv Len : Buf Int) (slen : Int) (S : Buf Int) (dense0 : Int)
    (aggressive : Bool) : M (Buf Int × Buf Int) := do
  let t ← ck (6 * n)
  let iwlen ← ck (slen - t)
  let (Pe, S) ← cut S n
  let (Nv, S) ← cut S n
  let (Head, S) ← cut S n
  let (Elen, S) ← cut S n
  let (Degree, S) ← cut S n
  let (W, S) ← cut S n
  let (Iw, _) ← cut S iwlen
  let r ← amd1Build n Ap Ai Len Pe Nv W Iw
  AMD_2 n dense0 iwlen aggressive
    { Pe := r.1, Iw := r.2.1, Len := Len, Nv := r.2.2.1, Next := Pinv, Last := P
      Head := Head, Elen := Elen, Degree := Degree, W := r.2.2.2.1
      pfree := r.2.2.2.2, nel := 0, mindeg := 0, wflg := 0, lemax := 0 }

/-- Which of the allocations of `amd_order.c` (lines 92, 93, 109, 110, 163) succeed. -/
structure AmdMem where
  Len : Bool
  Pinv : Bool
  Rp : Bool
  Ri : Bool
  S : Bool

/-- amd_order.c 150–160: the size of the block `S`, computed in `size_t`, and the result of the checks
against overflow on the way. -/
def orderSize (n nzaat : Int) : M (Bool × Int) :=
  let slen := addSize nzaat (nzaat / 5)
  forI 0 7 (decide (slen ≥ nzaat), slen) (fun _ s =>
    if s.1 then pure (decide (addSize s.2 n > s.2), addSize s.2 n) else pure s)

/-- src/amd_order.c 21–199, for arguments that are not NULL. `mem` says which calls of `malloc`
succeed; the others return NULL. The control parameters are `dense0`, the value of
`(Int)(alpha * sqrt ((double) n))`, and `aggressive` (both are set by `amd_l_defaults`:
`alpha = 10`, `aggressive = 1`). Returns `(status, P)`. -/
def AMD_order (mem : AmdMem) (dense0 : Int → Int) (aggressive : Bool) (n : Int) (Ap Ai P : Buf Int) :
    M (Int × Buf Int) :=
  if n < 0 then pure (AMD_INVALID, P)
  else if n = 0 then pure (AMD_OK, P)
  else do
    let nz ← rd Ap n
    if nz < 0 then pure (AMD_INVALID, P)
    else if n ≥ SIZE_T_MAX_8 ∨ nz ≥ SIZE_T_MAX_8 then pure (AMD_OUT_OF_MEMORY, P)
    else do
      let status ← AMD_valid n n (some Ap) (some Ai)
      if status = AMD_INVALID then pure (AMD_INVALID, P)
      else do
        let Len ← amdMalloc n
        let Pinv ← amdMalloc n
        if !mem.Len || !mem.Pinv then pure (AMD_OUT_OF_MEMORY, P)
        else if status = AMD_OK_BUT_JUMBLED && (!mem.Rp || !mem.Ri) then pure (AMD_OUT_OF_MEMORY, P)
        else do
          let c ← (if status = AMD_OK_BUT_JUMBLED then do
              let n1 ← ck (n + 1)
              let Rp ← amdMalloc n1
              let Ri ← amdMalloc (max nz 1)
              AMD_preprocess n Ap Ai Rp Ri Len Pinv
            else pure (Ap, Ai, Len, Pinv) : M (Buf Int × Buf Int × Buf Int × Buf Int))
          let t ← AMD_aat n c.1 c.2.1 c.2.2.1 P
          let r ← orderSize n t.1
          if (r.1 = true ∧ r.2 < SIZE_T_MAX_8 ∧ r.2 < Int_MAX) ∧ mem.S = true then do
            let S ← amdMalloc r.2
            let o ← AMD_1 n c.1 c.2.1 t.2.2 c.2.2.2 t.2.1 r.2 S (dense0 n) aggressive
            pure (status, o.1)
          else pure (AMD_OUT_OF_MEMORY, t.2.2)

end Verif
