import Verif.Model.Amd

/-!
# The states of the ordering routine

`AMD_order` with a record of the work arrays before the first and after every iteration of the main
loop of `AMD_2`. Nothing else is changed.
-/

namespace Verif

/-- amd_2.c 698–1553: one iteration of the main loop; the state after it is recorded. -/
def amd2IterT (aggressive : Bool) (n iwlen wbig : Int) (r : List Amd2 × Amd2) : M (List Amd2 × Amd2) := do
  let s ← amd2Iter aggressive n iwlen wbig r.2
  pure (r.1 ++ [s], s)

/-- src/amd_2.c 42–1842; see `AMD_2`. -/
def AMD_2T (n dense0 iwlen : Int) (aggressive : Bool) (s : Amd2) : M ((Buf Int × Buf Int) × List Amd2) := do
  let wbig ← ck (Int_MAX - n)
  let s ← amd2Init n dense0 wbig s
  let r ← whileM n.toNat (fun r : List Amd2 × Amd2 => pure (decide (r.2.nel < n)))
    (amd2IterT aggressive n iwlen wbig) ([s], s)
  let o ← amd2Output n r.2
  pure (o, r.1)

/-- src/amd_1.c 29–180; see `AMD_1`. -/
def AMD_1T (n : Int) (Ap Ai P Pinv Len : Buf Int) (slen : Int) (S : Buf Int) (dense0 : Int)
    (aggressive : Bool) : M ((Buf Int × Buf Int) × List Amd2) := do
  let t ← ck (6 * n)
  let iwlen ← ck (slen - t)
  let (Pe, S) ← cut S n
  let (Nv, S) ← cut S n
  let (Head, S) ← cut S n
  let (Elen, S) ← cut S n
  let (Degree, S) ← cut S n
  let (W, S) ← cut S n
  let (Iw, _) ← cut S iwlen
  let r ← amd1Build n Ap Ai Len Pe Nv W Iw
  AMD_2T n dense0 iwlen aggressive
    { Pe := r.1, Iw := r.2.1, Len := Len, Nv := r.2.2.1, Next := Pinv, Last := P
      Head := Head, Elen := Elen, Degree := Degree, W := r.2.2.2.1
      pfree := r.2.2.2.2, nel := 0, mindeg := 0, wflg := 0, lemax := 0 }

/-- src/amd_order.c 21–199; see `AMD_order`. The record is `none` where `AMD_2` is not reached. -/
def AMD_orderT (mem : AmdMem) (dense0 : Int → Int) (aggressive : Bool) (n : Int) (Ap Ai P : Buf Int) :
    M ((Int × Buf Int) × Option (List Amd2)) :=
  if n < 0 then pure ((AMD_INVALID, P), none)
  else if n = 0 then pure ((AMD_OK, P), none)
  else do
    let nz ← rd Ap n
    if nz < 0 then pure ((AMD_INVALID, P), none)
    else if n ≥ SIZE_T_MAX_8 ∨ nz ≥ SIZE_T_MAX_8 then pure ((AMD_OUT_OF_MEMORY, P), none)
    else do
      let status ← AMD_valid n n (some Ap) (some Ai)
      if status = AMD_INVALID then pure ((AMD_INVALID, P), none)
      else do
        let Len ← amdMalloc n
        let Pinv ← amdMalloc n
        if !mem.Len || !mem.Pinv then pure ((AMD_OUT_OF_MEMORY, P), none)
        else if status = AMD_OK_BUT_JUMBLED && (!mem.Rp || !mem.Ri) then
          pure ((AMD_OUT_OF_MEMORY, P), none)
        else do
          let c ← (if status = AMD_OK_BUT_JUMBLED then do
              let n1 ← ck (n + 1)
              let Rp ← amdMalloc n1
              let Ri ← amdMalloc (max nz 1)
              AMD_preprocess n Ap Ai Rp Ri Len Pinv
            else pure (Ap, Ai, Len, Pinv) : M (Buf Int × Buf Int × Buf Int × Buf Int))
          let t ← AMD_aat n c.1 c.2.1 c.2.2.1 P
          let r ← orderSize n t.1
          if (r.1 = true ∧ r.2 < SIZE_T_MAX_8 ∧ r.2 < Int_MAX) ∧ mem.S = true then do
            let S ← amdMalloc r.2
            let o ← AMD_1T n c.1 c.2.1 t.2.2 c.2.2.2 t.2.1 r.2 S (dense0 n) aggressive
            pure ((status, o.1.1), some o.2)
          else pure ((AMD_OUT_OF_MEMORY, t.2.2), none)

end Verif
