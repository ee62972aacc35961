import Verif.Model.Amd

/-!
# Statistics of the ordering routine

The part of `AMD_2` that fills `Info` (amd_2.c 572–576, 637, 662, 1523–1543, 1559–1603) and the entries
written by `AMD_aat` and `AMD_order` before. The code computes most values in `double`; here they are
exact integers. Not modelled: `Info [AMD_NCMPA]`; `Info [AMD_N]` and `Info [AMD_STATUS]` repeat the
argument and the result.
-/

namespace Verif

/-- `lnz`, `ndiv`, `nms_lu`, `nms_ldl` and `dmax`. -/
structure AmdStat where
  lnz : Int
  ndiv : Int
  nmsLu : Int
  nmsLdl : Int
  dmax : Int

/-- amd_2.c 572–576 -/
def AmdStat.init : AmdStat := { lnz := 0, ndiv := 0, nmsLu := 0, nmsLdl := 0, dmax := 1 }

/-- amd_2.c 1525–1542: an element with `f` pivots and a contribution block of size `r`; with `r = 0`
also lines 1563–1578. -/
def AmdStat.front (t : AmdStat) (f r : Int) : AmdStat :=
  let lnzme := f * r + (f - 1) * f / 2
  let s := f * r * r + r * (f - 1) * f + (f - 1) * f * (2 * f - 1) / 6
  { lnz := t.lnz + lnzme
    ndiv := t.ndiv + lnzme
    nmsLu := t.nmsLu + s
    nmsLdl := t.nmsLdl + (s + lnzme) / 2
    dmax := max t.dmax (f + r) }

/-- amd_2.c 640–692 with the counter of line 662; the state is `(ndense, s)`. -/
def amd2ClassifyI (dense : Int) (i : Int) (r : Int × Amd2) : M (Int × Amd2) := do
  let deg ← rd r.2.Degree i
  let nd ← (if deg = 0 then pure r.1 else if deg > dense then ck (r.1 + 1) else pure r.1 : M Int)
  let s ← amd2Classify dense i r.2
  pure (nd, s)

/-- amd_2.c 579–692: initialisation, with `ndense`. -/
def amd2InitI (n dense0 wbig : Int) (s : Amd2) : M (Int × Amd2) := do
  let dense := min n (max 16 dense0)
  let s ← forI 0 n s amd2InitNode
  let f ← clear_flag 0 wbig s.W n
  let s := { s with nel := 0, mindeg := 0, lemax := 0, wflg := f.1, W := f.2 }
  forI 0 n (0, s) (amd2ClassifyI dense)

/-- amd_2.c 698–1553: one iteration of the main loop, with the statistics. -/
def amd2IterI (aggressive : Bool) (n iwlen wbig nd : Int) (st : AmdStat × Amd2) : M (AmdStat × Amd2) := do
  let r ← amd2IterF aggressive n iwlen wbig st.2
  let d ← ck (r.1 + nd)
  pure (st.1.front r.2.1 d, r.2.2)

/-- src/amd_2.c 42–1842 for an `Info` that is not NULL. Returns the permutation and its inverse, the
statistics and `ndense`. -/
def AMD_2I (n dense0 iwlen : Int) (aggressive : Bool) (s : Amd2) :
    M ((Buf Int × Buf Int) × AmdStat × Int) := do
  let wbig ← ck (Int_MAX - n)
  let c ← amd2InitI n dense0 wbig s
  let r ← whileM n.toNat (fun r : AmdStat × Amd2 => pure (decide (r.2.nel < n)))
    (amd2IterI aggressive n iwlen wbig c.1) (AmdStat.init, c.2)
  let o ← amd2Output n r.2
  pure (o, r.1.front c.1 0, c.1)

/-- src/amd_1.c 29–180; see `AMD_1`. -/
def AMD_1I (n : Int) (Ap Ai P Pinv Len : Buf Int) (slen : Int) (S : Buf Int) (dense0 : Int)
    (aggressive : Bool) : M ((Buf Int × Buf Int) × AmdStat × Int) := do
  let t ← ck (6 * n)
  let iwlen ← ck (slen - t)
  let (Pe, S) ← cut S n
  let (Nv, S) ← cut S n
  let (Head, S) ← cut S n
  let (Elen, S) ← cut S n
  let (Degree, S) ← cut S n
  let (W, S) ← cut S n
  let (Iw, _) ← cut S iwlen
  let r ← amd1Build n Ap Ai Len Pe Nv W Iw
  AMD_2I n dense0 iwlen aggressive
    { Pe := r.1, Iw := r.2.1, Len := Len, Nv := r.2.2.1, Next := Pinv, Last := P
      Head := Head, Elen := Elen, Degree := Degree, W := r.2.2.2.1
      pfree := r.2.2.2.2, nel := 0, mindeg := 0, wflg := 0, lemax := 0 }

/-- The entries of `Info` after an ordering: those of `AMD_aat`, `AMD_MEMORY`, those of `AMD_2` and
`AMD_NDENSE`. -/
structure OrderInfo where
  aat : AatInfo
  memory : Int
  stat : AmdStat
  ndense : Int

/-- src/amd_order.c 21–199; see `AMD_order`. The statistics are `none` where `AMD_2` is not
reached. The sum `mem` (94–95, 111–112, 158, 179) is a double in the code. -/
def AMD_orderI (mem : AmdMem) (dense0 : Int → Int) (aggressive : Bool) (n : Int) (Ap Ai P : Buf Int) :
    M ((Int × Buf Int) × Option OrderInfo) :=
  if n < 0 then pure ((AMD_INVALID, P), none)
  else if n = 0 then pure ((AMD_OK, P), none)
  else do
    let nz ← rd Ap n
    if nz < 0 then pure ((AMD_INVALID, P), none)
    else if n ≥ SIZE_T_MAX_8 ∨ nz ≥ SIZE_T_MAX_8 then pure ((AMD_OUT_OF_MEMORY, P), none)
    else do
      let status ← AMD_valid n n (some Ap) (some Ai)
      if status = AMD_INVALID then pure ((AMD_INVALID, P), none)
      else do
        let Len ← amdMalloc n
        let Pinv ← amdMalloc n
        if !mem.Len || !mem.Pinv then pure ((AMD_OUT_OF_MEMORY, P), none)
        else if status = AMD_OK_BUT_JUMBLED && (!mem.Rp || !mem.Ri) then
          pure ((AMD_OUT_OF_MEMORY, P), none)
        else do
          let c ← (if status = AMD_OK_BUT_JUMBLED then do
              let n1 ← ck (n + 1)
              let Rp ← amdMalloc n1
              let Ri ← amdMalloc (max nz 1)
              AMD_preprocess n Ap Ai Rp Ri Len Pinv
            else pure (Ap, Ai, Len, Pinv) : M (Buf Int × Buf Int × Buf Int × Buf Int))
          let ti ← AMD_aatI n c.1 c.2.1 c.2.2.1 P
          let t := ti.1
          let r ← orderSize n t.1
          if (r.1 = true ∧ r.2 < SIZE_T_MAX_8 ∧ r.2 < Int_MAX) ∧ mem.S = true then do
            let S ← amdMalloc r.2
            let o ← AMD_1I n c.1 c.2.1 t.2.2 c.2.2.2 t.2.1 r.2 S (dense0 n) aggressive
            let mem := n + n + (if status = AMD_OK_BUT_JUMBLED then (n + 1) + max nz 1 else 0) + r.2
            pure ((status, o.1.1), some { aat := ti.2, memory := mem * 8, stat := o.2.1, ndense := o.2.2 })
          else pure ((AMD_OUT_OF_MEMORY, t.2.2), none)

end Verif
