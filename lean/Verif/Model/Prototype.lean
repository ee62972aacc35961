import Verif.SpecQp

/-!
# The MATLAB prototype

`matlab/prototype code/qpSWIFT_matlab.m` with `findsteplength.m`, `qpSWIFT_init.m`,
`my_inverse_diag_matrix.m` and `my_Trans_multiply_diag.m`, in exact arithmetic. It is modelled
directly on vectors and shares nothing with the model of the C code but the problem and the entries
of the KKT matrix. MATLAB's backslash is a relation: its value is any solution of the system. The
branches for `p == 0` are the general ones with empty blocks.

Not modelled: `qpSWIFT_checkinputs.m`, a starting point given by the caller (`nargin >= 8`), the
limit of 101 passes, the messages, `condest`.
-/

open Finset

namespace Verif

section

variable {K : Type} [Field K] [LinearOrder K] [Scalar K]

/-- The variables of the prototype's loop (qpSWIFT_matlab.m 13, 20-25). -/
structure ProtoSt (K : Type) where
  x : Nat → K
  y : Nat → K
  z : Nat → K
  s : Nat → K
  sigma : K

/-- `[u; v; w]` for blocks of length `n`, `p`, `m`. -/
def Problem.stack (pb : Problem K) (u v w : Nat → K) (r : Nat) : K :=
  if r < pb.n then u r else if r < pb.n + pb.p then v (r - pb.n) else w (r - pb.n - pb.p)

/-- `X = Phi \ rhs` with `Phi = [P A' G'; A 0 0; G 0 diag(d)]` (qpSWIFT_matlab.m 73-87, 105-118;
qpSWIFT_init.m 4-5, 9-10). -/
def Problem.Backslash (pb : Problem K) (d rhs X : Nat → K) : Prop :=
  ∀ r, r < pb.N → ∑ c ∈ range pb.N, kktEntry pb.P pb.A pb.G d r c * X c = rhs r

/-- `rx = P*x+A'*y+G'*z+c` (qpSWIFT_matlab.m 37, 40). -/
def Problem.protoRx (pb : Problem K) (t : ProtoSt K) (i : Nat) : K :=
  pb.P.mulVec t.x i + pb.A.tmulVec t.y i + pb.G.tmulVec t.z i + pb.c i

/-- `ry = A*x-b` (qpSWIFT_matlab.m 41). -/
def Problem.protoRy (pb : Problem K) (t : ProtoSt K) (i : Nat) : K := pb.A.mulVec t.x i - pb.b i

/-- `rz = s+G*x-h` (qpSWIFT_matlab.m 38, 42). -/
def Problem.protoRz (pb : Problem K) (t : ProtoSt K) (i : Nat) : K :=
  t.s i + pb.G.mulVec t.x i - pb.h i

/-- The diagonal of `W = diag(sqrt(s).*(1./sqrt(z)))` (qpSWIFT_matlab.m 61). -/
def ProtoSt.W (t : ProtoSt K) (i : Nat) : K := Scalar.sqrt (t.s i) * (1 / Scalar.sqrt (t.z i))

/-- `lambda = sqrt(s).*sqrt(z)` (qpSWIFT_matlab.m 62). -/
def ProtoSt.lambda (t : ProtoSt K) (i : Nat) : K := Scalar.sqrt (t.s i) * Scalar.sqrt (t.z i)

/-- `mu = lambda'*lambda/m` (qpSWIFT_matlab.m 63). -/
def Problem.protoMu (pb : Problem K) (t : ProtoSt K) : K :=
  dot pb.m t.lambda t.lambda / (pb.m : K)

/-- `Wlambda_dia_ds = W'*diag(1./lambda)*ds` (qpSWIFT_matlab.m 70, 103). -/
def ProtoSt.wld (t : ProtoSt K) (ds : Nat → K) (i : Nat) : K := t.W i * (1 / t.lambda i * ds i)

/-- The direction for the right-hand side `ds`: `Delta = Phi\[-rx;-ry;-rz-Wlambda_dia_ds]`,
`Delta_s = Wlambda_dia_ds-WTW*Delta_z` (qpSWIFT_matlab.m 64, 72-89, 105-121;
my_Trans_multiply_diag.m). -/
structure Problem.ProtoDir (pb : Problem K) (t : ProtoSt K) (ds D Ds : Nat → K) : Prop where
  solve : pb.Backslash (fun i => -(t.W i * t.W i))
    (pb.stack (fun i => -pb.protoRx t i) (fun i => -pb.protoRy t i)
      (fun i => -pb.protoRz t i - t.wld ds i)) D
  delta_s : ∀ i, i < pb.m → Ds i = t.wld ds i - t.W i * t.W i * D (pb.n + pb.p + i)

/-- `Test_s = s./Delta_s; Test_s(s./Delta_s>0) = -1000` (findsteplength.m 3-4). The entries of `s`
are positive, so `s/0` is `Inf`, which is replaced too. -/
def protoTest (s d : Nat → K) (i : Nat) : K :=
  if d i = 0 ∨ 0 < s i / d i then -1000 else s i / d i

/-- `[~,idx] = max(Test_s); alpha = -Test_s(idx)` (findsteplength.m 5-6). -/
def ProtoLen (m : Nat) (s d : Nat → K) (a : K) : Prop :=
  IsGreatest {v | ∃ i, i < m ∧ v = protoTest s d i} (-a)

/-- The first half of a pass when `sigma > sigma_d` (qpSWIFT_matlab.m 68-98): the predictor, its
step lengths, the new `sigma` and the right-hand side of the corrector. -/
structure Problem.ProtoPred (pb : Problem K) (t : ProtoSt K) (a b sg : K) (ds D Ds : Nat → K) :
    Prop where
  dir : pb.ProtoDir t (fun i => -(t.lambda i * t.lambda i)) D Ds
  alpha_p : ProtoLen pb.m t.s Ds a
  alpha_d : ProtoLen pb.m t.z (fun i => D (pb.n + pb.p + i)) b
  sigma : sg = max pb.sigma_d ((min 1 (dot pb.m (fun i => t.s i + a * Ds i)
    (fun i => t.z i + b * D (pb.n + pb.p + i)) / dot pb.m t.s t.z)) ^ 3)
  ds : ∀ i, i < pb.m → ds i = -(t.lambda i * t.lambda i)
    - 1 / t.W i * Ds i * (t.W i * D (pb.n + pb.p + i)) + sg * pb.protoMu t

/-- One pass of the loop from `t` to `t'` (qpSWIFT_matlab.m 61-144). `a0`, `b0` are the lengths the
predictor finds, `a`, `b` those of the corrector, before the factor 0.99. -/
structure Problem.ProtoStep (pb : Problem K) (t t' : ProtoSt K) (a0 b0 a b : K) (ds D Ds : Nat → K) :
    Prop where
  /-- qpSWIFT_matlab.m 68-98 -/
  high : pb.sigma_d < t.sigma → ∃ D0 Ds0, pb.ProtoPred t a0 b0 t'.sigma ds D0 Ds0
  /-- qpSWIFT_matlab.m 99-101 -/
  low : ¬ pb.sigma_d < t.sigma → t'.sigma = pb.sigma_d ∧ ∀ i, i < pb.m →
    ds i = -(t.lambda i * t.lambda i) + t'.sigma * pb.protoMu t
  /-- qpSWIFT_matlab.m 103-121 -/
  dir : pb.ProtoDir t ds D Ds
  /-- qpSWIFT_matlab.m 123-124 -/
  alpha_p : ProtoLen pb.m t.s Ds a
  alpha_d : ProtoLen pb.m t.z (fun i => D (pb.n + pb.p + i)) b
  /-- qpSWIFT_matlab.m 126-127, 135-143 -/
  x : ∀ i, i < pb.n → t'.x i = t.x i + min (99 / 100 * a) 1 * D i
  y : ∀ i, i < pb.p → t'.y i = t.y i + min (99 / 100 * b) 1 * D (pb.n + i)
  s : ∀ i, i < pb.m → t'.s i = t.s i + min (99 / 100 * a) 1 * Ds i
  z : ∀ i, i < pb.m → t'.z i = t.z i + min (99 / 100 * b) 1 * D (pb.n + pb.p + i)

/-- The starting point (qpSWIFT_init.m; `sigma = 100`: qpSWIFT_matlab.m 13). `v` is the vector `z`
of line 14. -/
structure Problem.ProtoInit (pb : Problem K) (t : ProtoSt K) : Prop where
  sigma : t.sigma = 100
  /-- qpSWIFT_init.m 3-12 -/
  solve : ∃ X, pb.Backslash (fun _ => -1) (pb.stack (fun i => -pb.c i) pb.b pb.h) X ∧
    (∀ i, i < pb.n → t.x i = X i) ∧ ∀ i, i < pb.p → t.y i = X (pb.n + i)
  /-- qpSWIFT_init.m 13-21 -/
  s : ∃ a, IsLeast {v | ∃ i, i < pb.m ∧ v = -(pb.G.mulVec t.x i - pb.h i)} (-a) ∧
    ∀ i, i < pb.m → t.s i = if a < 0 then -(pb.G.mulVec t.x i - pb.h i)
      else -(pb.G.mulVec t.x i - pb.h i) + (1 + a)
  /-- qpSWIFT_init.m 23-28 -/
  z : ∃ a, IsLeast {v | ∃ i, i < pb.m ∧ v = pb.G.mulVec t.x i - pb.h i} (-a) ∧
    ∀ i, i < pb.m → t.z i = if a < 0 then pb.G.mulVec t.x i - pb.h i
      else pb.G.mulVec t.x i - pb.h i + (1 + a)

/-- The exit test: `norm([rx;ry;rz])<1e-6 && s'*z/m<=1e-6` (qpSWIFT_matlab.m 48-56). -/
def Problem.ProtoExit (pb : Problem K) (t : ProtoSt K) : Prop :=
  (∃ v, IsNorm pb.N (pb.stack (pb.protoRx t) (pb.protoRy t) (pb.protoRz t)) v ∧ v < 1 / 10 ^ 6) ∧
    dot pb.m t.s t.z / (pb.m : K) ≤ 1 / 10 ^ 6

/-- `k` passes in each of which every step length the prototype finds is below 1000, the length it
uses if nothing blocks. -/
inductive Problem.ProtoRun (pb : Problem K) : Nat → ProtoSt K → ProtoSt K → Prop where
  | zero (t) : pb.ProtoRun 0 t t
  | succ {k t t' t'' a0 b0 a b ds D Ds} (h : pb.ProtoRun k t t')
      (hs : pb.ProtoStep t' t'' a0 b0 a b ds D Ds)
      (h0 : pb.sigma_d < t'.sigma → a0 < 1000 ∧ b0 < 1000) (ha : a < 1000) (hb : b < 1000) :
      pb.ProtoRun (k + 1) t t''

end

end Verif
