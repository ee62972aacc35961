import Verif.Model.Auxilary

/-!
# `updatekktmatrix` with every value of `indicator`

The solver passes `indicator = 0` only (`Model/Auxilary.lean`). The other values write differences of the
inequality diagonal, for a low-rank update of the factorisation.
-/

namespace Verif

variable {K : Type} [Zero K] [One K] [Add K] [Sub K] [Mul K] [Div K] [Neg K] [Scalar K]

/-- `updatekktmatrix`, `/repo/src/Auxilary.c` lines 205-233. Returns the new `kkt->pr`. -/
def updatekktmatrixI (kkt : Smat K) (s z delta_s delta_z : Buf K) (alpha_p alpha_d : K) (m n p indicator : Int) :
    M (Buf K) := do
  let pr ← (if indicator = 0 then
      forI (n + p) (n + m + p) kkt.pr fun i pr => do
        let e ← rd kkt.jc (i + 1)
        let index := e - 1
        let si ← rd s (i - n - p)
        let zi ← rd z (i - n - p)
        wr pr index (-si / zi)
    else pure kkt.pr)
  let pr ← (if indicator = 1 then
      forI (n + p) (n + m + p) pr fun i pr => do
        let e ← rd kkt.jc (i + 1)
        let index := e - 1
        let si ← rd s (i - n - p)
        let zi ← rd z (i - n - p)
        wr pr index (-(si / zi - Scalar.dec 1 0))
    else pure pr)
  if indicator = 2 then
    forI (n + p) (n + m + p) pr fun i pr => do
      let e ← rd kkt.jc (i + 1)
      let index := e - 1
      let si ← rd s (i - n - p)
      let zi ← rd z (i - n - p)
      let dsi ← rd delta_s (i - n - p)
      let dzi ← rd delta_z (i - n - p)
      wr pr index (-(si / zi - (si - alpha_p * dsi) / (zi - alpha_d * dzi)))
  else pure pr

end Verif
