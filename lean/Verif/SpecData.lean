import Verif.SpecQp

/-!
# Overwriting the problem data between calls

`QP_SETUP` keeps pointers to the caller's arrays: src/qpSWIFT.c line 95 (`b`), 96 (`A`), 107 (`P`),
109 (`G`), 110 (`c`), 111 (`h`), with `SparseMatrixSetup`, src/Auxilary.c lines 660-669. A caller
who writes to those arrays later changes the problem that the next call of `QP_SOLVE` sees. The
transposes and the KKT matrix, on the other hand, are copies made during setup. (`QP_SETUP_dense`
copies the matrices, lines 296-330, and keeps pointers to the vectors only.)
-/

set_option linter.unusedSectionVars false

namespace Verif

variable {K : Type}

/-- The two problems have the same dimensions, sparsity patterns and centering threshold; the values
of matrices and vectors may differ. -/
structure Problem.SamePattern (pk pb : Problem K) : Prop where
  P : ∃ v, pb.P = { pk.P with pr := v }
  A : ∃ v, pb.A = { pk.A with pr := v }
  G : ∃ v, pb.G = { pk.G with pr := v }
  sigma_d : pb.sigma_d = pk.sigma_d

/-- The two problems differ at most in the vectors `c`, `b`, `h`. -/
structure Problem.SameMatrices (pk pb : Problem K) : Prop where
  P : pb.P = pk.P
  A : pb.A = pk.A
  G : pb.G = pk.G
  sigma_d : pb.sigma_d = pk.sigma_d

/-- The arrays the structure points to for its data hold the problem `pb`. -/
structure QP.Holds (pb : Problem K) (qp : QP K) : Prop where
  P : qp.P.Is pb.P
  G : qp.G.Is pb.G
  A : pb.p ≠ 0 → ∃ S, qp.A = some S ∧ S.Is pb.A
  b : pb.p ≠ 0 → ∃ B, qp.b = some B ∧ Buf.Has B pb.p pb.b
  c : Buf.Has qp.c pb.n pb.c
  h : Buf.Has qp.h pb.m pb.h

/-- Between the two states only the contents of the caller's value arrays changed. -/
def QP.Overwritten (qp qp' : QP K) : Prop :=
  ∃ (c h b Ppr Gpr Apr : Buf K), qp' = { qp with
    c := c
    h := h
    b := qp.b.map fun _ => b
    P := { qp.P with pr := Ppr }
    G := { qp.G with pr := Gpr }
    A := qp.A.map fun S => { S with pr := Apr } }

variable [Zero K] [One K] [Add K] [Sub K] [Mul K] [Div K] [Neg K] [Scalar K]

/-- All histories after a setup with the problem `pk` that returned `q0`, with the problem the
caller's arrays hold at the end and the state of the structure: like `Reach`, and in addition the
caller may overwrite the values in their arrays at any time between two iterations. -/
inductive Session (pk : Problem K) (q0 : QP K) : Problem K → QP K → Prop
  | start : Session pk q0 pk q0
  | options {pb : Problem K} {qp : QP K} (o : Settings K) : Session pk q0 pb qp →
      Session pk q0 pb { qp with options := o }
  | cell {pb : Problem K} {qp : QP K} (v : K) : Session pk q0 pb qp →
      Session pk q0 pb { qp with stats := { qp.stats with n_ry := some v } }
  | iteration {pb : Problem K} {qp qp' : QP K} {brk : Bool} : Session pk q0 pb qp →
      solveBody qp = .ok (qp', brk) → Session pk q0 pb qp'
  | solve {pb : Problem K} {qp qp' : QP K} {f : Int} : Session pk q0 pb qp →
      QP_SOLVE qp = .ok (f, qp') → Session pk q0 pb qp'
  | write {pb pb' : Problem K} {qp qp' : QP K} : Session pk q0 pb qp → qp.Overwritten qp' →
      pk.SamePattern pb' → qp'.Holds pb' → Session pk q0 pb' qp'

end Verif
