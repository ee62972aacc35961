import Verif.Spec
import Verif.Model.Solver
import Mathlib.Algebra.Field.Basic

/-!
# The quadratic program a call of setup describes

`minimise ½ xᵀPx + cᵀx  subject to  Ax = b, Gx ≤ h`
-/

namespace Verif

variable {K : Type}

/-- Data of a quadratic program. A problem without equality constraints has an `A` without rows. -/
structure Problem (K : Type) where
  P : Csc K
  A : Csc K
  G : Csc K
  c : Nat → K
  b : Nat → K
  h : Nat → K
  /-- the centering parameter threshold passed to setup -/
  sigma_d : K

namespace Problem

/-- number of variables -/
def n (pb : Problem K) : Nat := pb.P.n
/-- number of equality constraints -/
def p (pb : Problem K) : Nat := pb.A.m
/-- number of inequality constraints -/
def m (pb : Problem K) : Nat := pb.G.m
/-- dimension of the KKT system -/
def N (pb : Problem K) : Nat := pb.n + pb.p + pb.m

/-- Matrices of matching shapes with well-formed patterns, a stored entry in every row of `G`. -/
structure Shaped (pb : Problem K) : Prop where
  P : pb.P.WF
  A : pb.A.WF
  G : pb.G.WF
  Pm : pb.P.m = pb.P.n
  An : pb.A.n = pb.P.n
  Gn : pb.G.n = pb.P.n
  rows : pb.G.RowsNonempty

/-- Well-formed problem: matrices of matching shapes with well-formed patterns, a stored entry in
every row of `G`, at least one inequality constraint. -/
structure WF (pb : Problem K) : Prop extends Shaped pb where
  m_pos : 0 < pb.G.m

end Problem

/-- The arguments of `QP_SETUP` describe the problem `pb`. -/
structure SetupArgs.Give (a : SetupArgs K) [Zero K] (pb : Problem K) : Prop where
  n : a.n = pb.n
  m : a.m = pb.m
  Pjc : Buf.Has a.Pjc (pb.P.n + 1) (fun i => (pb.P.jc i : Int))
  Pir : Buf.Has a.Pir pb.P.nnz (fun i => (pb.P.ir i : Int))
  Ppr : Buf.Has a.Ppr pb.P.nnz pb.P.pr
  Gjc : Buf.Has a.Gjc (pb.G.n + 1) (fun i => (pb.G.jc i : Int))
  Gir : Buf.Has a.Gir pb.G.nnz (fun i => (pb.G.ir i : Int))
  Gpr : Buf.Has a.Gpr pb.G.nnz pb.G.pr
  c : Buf.Has a.c pb.n pb.c
  h : Buf.Has a.h pb.m pb.h
  sigma_d : a.sigma_d = pb.sigma_d
  /-- either all arrays of the equality constraints are given, or the problem has none -/
  eq : (∃ Ajc Air Apr B, a.Ajc = some Ajc ∧ a.Air = some Air ∧ a.Apr = some Apr ∧ a.b = some B ∧
      a.p = pb.p ∧ 0 < pb.p ∧ Buf.Has Ajc (pb.A.n + 1) (fun i => (pb.A.jc i : Int)) ∧
      Buf.Has Air pb.A.nnz (fun i => (pb.A.ir i : Int)) ∧ Buf.Has Apr pb.A.nnz pb.A.pr ∧
      Buf.Has B pb.p pb.b) ∨
    ((a.Ajc = none ∨ a.Air = none ∨ a.Apr = none ∨ a.b = none ∨ a.p = 0) ∧
      pb.A = Csc.empty pb.n)

/-- The ordering routine succeeds on every well-formed square pattern, keeps the size of its output
array, and reports an error (negative status) or returns a permutation. -/
def AmdSafe (amd : Amd) : Prop :=
  ∀ (N : Nat) (A : Csc Unit) (Ap Ai P : Buf Int), A.WF → A.n = N → A.m = N →
    Buf.Has Ap (N + 1) (fun i => (A.jc i : Int)) → Buf.Has Ai A.nnz (fun i => (A.ir i : Int)) →
    P.length = N →
    ∃ st P', amd N Ap Ai P = .ok (st, P') ∧ P'.length = N ∧
      (st < 0 ∨ ∃ p q : Nat → Nat, PermPair N p q ∧ Buf.Has P' N (fun i => (p i : Int)))

/-- The ordering routine never reports an error on a well-formed square pattern. -/
def AmdNoError (amd : Amd) : Prop :=
  ∀ (N : Nat) (A : Csc Unit) (Ap Ai P : Buf Int) (st : Int) (P' : Buf Int), A.WF → A.n = N →
    A.m = N → Buf.Has Ap (N + 1) (fun i => (A.jc i : Int)) →
    Buf.Has Ai A.nnz (fun i => (A.ir i : Int)) → P.length = N →
    amd N Ap Ai P = .ok (st, P') → 0 ≤ st

/-- Where the permutation of the KKT system comes from: given by the caller and valid, or computed
by the ordering routine. When the latter may fail, the argument `p` of setup must be the number of
equality constraints used (see C28). `Permut`, `argp` are the arguments of setup. -/
def PermSource (amd : Amd) (Permut : Option (Buf Int)) (argp : Int) (pb : Problem K) : Prop :=
  (∃ B p q, Permut = some B ∧ PermPair pb.N p q ∧ Buf.Has B pb.N (fun i => (p i : Int))) ∨
  (Permut = none ∧ AmdSafe amd ∧ (argp = pb.p ∨ AmdNoError amd))

/-- The vectors of the iterate stored in the structure. -/
structure QP.Iter (pb : Problem K) (qp : QP K) (x y z s : Nat → K) : Prop where
  x : Buf.Has qp.x pb.n x
  y : Buf.Has qp.y pb.p y
  z : Buf.Has qp.z pb.m z
  s : Buf.Has qp.s pb.m s

/-- Members of the structure that belong to the caller or are fixed at setup are the same in both
states. -/
structure QP.Frame (qp qp' : QP K) : Prop where
  n : qp'.n = qp.n
  m : qp'.m = qp.m
  p : qp'.p = qp.p
  sigma_d : qp'.sigma_d = qp.sigma_d
  P : qp'.P = qp.P
  c : qp'.c = qp.c
  G : qp'.G = qp.G
  h : qp'.h = qp.h
  A : qp'.A = qp.A
  b : qp'.b = qp.b
  At : qp'.At = qp.At
  Gt : qp'.Gt = qp.Gt
  perm : qp'.kkt.P = qp.kkt.P
  maxit : qp'.options.maxit = qp.options.maxit
  reltol : qp'.options.reltol = qp.options.reltol
  abstol : qp'.options.abstol = qp.options.abstol
  verbose : qp'.options.verbose = qp.options.verbose
  amd : qp'.stats.AMD_RESULT = qp.stats.AMD_RESULT

theorem QP.Frame.refl (qp : QP K) : QP.Frame qp qp :=
  ⟨rfl, rfl, rfl, rfl, rfl, rfl, rfl, rfl, rfl, rfl, rfl, rfl, rfl, rfl, rfl, rfl, rfl, rfl⟩

theorem QP.Frame.trans {a b c : QP K} (h : QP.Frame a b) (h' : QP.Frame b c) : QP.Frame a c :=
  ⟨h'.n.trans h.n, h'.m.trans h.m, h'.p.trans h.p, h'.sigma_d.trans h.sigma_d, h'.P.trans h.P,
    h'.c.trans h.c, h'.G.trans h.G, h'.h.trans h.h, h'.A.trans h.A, h'.b.trans h.b,
    h'.At.trans h.At, h'.Gt.trans h.Gt, h'.perm.trans h.perm, h'.maxit.trans h.maxit,
    h'.reltol.trans h.reltol, h'.abstol.trans h.abstol, h'.verbose.trans h.verbose,
    h'.amd.trans h.amd⟩

/-- The caller's data, dimensions and permutation are the same in both states. -/
structure QP.SameData (qp qp' : QP K) : Prop where
  n : qp'.n = qp.n
  m : qp'.m = qp.m
  p : qp'.p = qp.p
  sigma_d : qp'.sigma_d = qp.sigma_d
  P : qp'.P = qp.P
  c : qp'.c = qp.c
  G : qp'.G = qp.G
  h : qp'.h = qp.h
  A : qp'.A = qp.A
  b : qp'.b = qp.b
  At : qp'.At = qp.At
  Gt : qp'.Gt = qp.Gt
  perm : qp'.kkt.P = qp.kkt.P
  amd : qp'.stats.AMD_RESULT = qp.stats.AMD_RESULT

theorem QP.Frame.same {a b : QP K} (h : QP.Frame a b) : QP.SameData a b :=
  ⟨h.n, h.m, h.p, h.sigma_d, h.P, h.c, h.G, h.h, h.A, h.b, h.At, h.Gt, h.perm, h.amd⟩

theorem QP.SameData.trans {a b c : QP K} (h : QP.SameData a b) (h' : QP.SameData b c) :
    QP.SameData a c :=
  ⟨h'.n.trans h.n, h'.m.trans h.m, h'.p.trans h.p, h'.sigma_d.trans h.sigma_d, h'.P.trans h.P,
    h'.c.trans h.c, h'.G.trans h.G, h'.h.trans h.h, h'.A.trans h.A, h'.b.trans h.b,
    h'.At.trans h.At, h'.Gt.trans h.Gt, h'.perm.trans h.perm, h'.amd.trans h.amd⟩

/-- `A` is the compressed form of the dense `rows × cols` matrix `d`: exactly the entries that do
not compare equal to zero are stored, each once, sorted by row. -/
structure Csc.Compresses [Zero K] [Scalar K] (A : Csc K) (rows cols : Nat) (d : Nat → Nat → K) :
    Prop where
  m : A.m = rows
  n : A.n = cols
  wf : A.WF
  sorted : A.Sorted
  stored : ∀ r c, r < rows → c < cols → (A.Stored r c ↔ Scalar.eqb (d r c) 0 = false)
  value : ∀ c, c < cols → ∀ k, A.jc c ≤ k → k < A.jc (c + 1) → A.pr k = d (A.ir k) c

/-- Entry `(r, c)` of a dense `rows × cols` matrix stored in the array `f` in the given order. -/
def denseAt (ordering : Int) (rows cols : Nat) (f : Nat → K) (r c : Nat) : K :=
  if ordering = COLUMN_MAJOR_ORDERING then f (c * rows + r) else f (r * cols + c)

/-- The arguments of `QP_SETUP_dense` describe the problem `pb`: its matrices are the compressed
forms of the dense ones. -/
structure DenseArgs.Give [Zero K] [Scalar K] (da : DenseArgs K) (pb : Problem K) : Prop where
  n : da.n = pb.n
  m : da.m = pb.m
  P : ∃ f, Buf.Has da.Ppr (pb.n * pb.n) f ∧
    pb.P.Compresses pb.n pb.n (denseAt da.ordering pb.n pb.n f)
  G : ∃ f, Buf.Has da.Gpr (pb.m * pb.n) f ∧
    pb.G.Compresses pb.m pb.n (denseAt da.ordering pb.m pb.n f)
  c : Buf.Has da.c pb.n pb.c
  h : Buf.Has da.h pb.m pb.h
  sigma_d : pb.sigma_d = Scalar.dec 0 0
  p_nonneg : 0 ≤ da.p
  /-- either the equality constraints are given, or the problem has none -/
  eq : (∃ Apr B f, da.Apr = some Apr ∧ da.b = some B ∧ da.p = pb.p ∧ 0 < pb.p ∧
      Buf.Has Apr (pb.p * pb.n) f ∧
      pb.A.Compresses pb.p pb.n (denseAt da.ordering pb.p pb.n f) ∧ Buf.Has B pb.p pb.b) ∨
    ((da.Apr = none ∨ da.b = none ∨ da.p = 0) ∧ pb.A = Csc.empty pb.n)

section

variable [Zero K] [One K] [Add K] [Sub K] [Mul K] [Div K] [Neg K] [Scalar K]

/-- All states of the structure that can occur after a setup that returned `q0`: the caller may
change the options at any time, start the solver any number of times, and every state between two
iterations counts as well. The member `n_ry`, which setup leaves uninitialised, may be taken to
hold any value. -/
inductive Reach (q0 : QP K) : QP K → Prop
  | start : Reach q0 q0
  | options {qp : QP K} (o : Settings K) : Reach q0 qp → Reach q0 { qp with options := o }
  | cell {qp : QP K} (v : K) : Reach q0 qp →
      Reach q0 { qp with stats := { qp.stats with n_ry := some v } }
  | iteration {qp qp' : QP K} {brk : Bool} : Reach q0 qp → solveBody qp = .ok (qp', brk) →
      Reach q0 qp'
  | solve {qp qp' : QP K} {f : Int} : Reach q0 qp → QP_SOLVE qp = .ok (f, qp') → Reach q0 qp'

/-- `k` full iterations of the main loop lead from the first state to the second. -/
inductive Iterations : Nat → QP K → QP K → Prop
  | zero (qp : QP K) : Iterations 0 qp qp
  | succ {k : Nat} {a b c : QP K} : Iterations k a b → solveBody b = .ok (c, false) →
      Iterations (k + 1) a c

/-- The arguments `a` describe the well-formed problem `pb`, a permutation is available, and setup
returned the state `q0`. -/
structure Started (amd : Amd) (a : SetupArgs K) (pb : Problem K) (q0 : QP K) : Prop where
  wf : pb.WF
  give : a.Give pb
  perm : PermSource amd a.Permut a.p pb
  ok : QP_SETUP amd a = .ok q0

/-- Printing is off, or there are equality constraints, or the statistic that setup leaves
uninitialised holds some value. -/
def PrintOk (pb : Problem K) (qp : QP K) : Prop :=
  qp.options.verbose ≤ 0 ∨ pb.p ≠ 0 ∨ ∃ v, qp.stats.n_ry = some v

end

/-! ## Mathematics of the quadratic program -/

section

variable [Ring K]

namespace Problem

/-- `-(P x + Gᵀ z + Aᵀ y + c)` -/
def rx (pb : Problem K) (x y z : Nat → K) (i : Nat) : K :=
  -(pb.P.mulVec x i + pb.G.tmulVec z i + pb.A.tmulVec y i + pb.c i)
/-- `b - A x` -/
def ry (pb : Problem K) (x : Nat → K) (i : Nat) : K := pb.b i - pb.A.mulVec x i
/-- `h - s - G x` -/
def rz (pb : Problem K) (x s : Nat → K) (i : Nat) : K := pb.h i - s i - pb.G.mulVec x i

end Problem

/-- `v` is the Euclidean norm of the first `n` components of `f`. -/
def IsNorm [LE K] (n : Nat) (f : Nat → K) (v : K) : Prop := 0 ≤ v ∧ v * v = dot n f f

end

section

variable [Field K]

/-- `½ xᵀPx + cᵀx` -/
def Problem.obj (pb : Problem K) (x : Nat → K) : K :=
  1 / 2 * dot pb.n x (pb.P.mulVec x) + dot pb.n pb.c x

/-- `P` is positive semidefinite. -/
def Problem.Psd [LE K] (pb : Problem K) : Prop := ∀ v, 0 ≤ dot pb.n v (pb.P.mulVec v)

/-- `P` is strongly convex with modulus `eps`. -/
def Problem.Strong [LE K] (pb : Problem K) (eps : K) : Prop :=
  ∀ v, eps * dot pb.n v v ≤ dot pb.n v (pb.P.mulVec v)

/-- `w` satisfies all constraints. -/
def Problem.Feasible [LE K] (pb : Problem K) (w : Nat → K) : Prop :=
  (∀ i, i < pb.p → pb.A.mulVec w i = pb.b i) ∧ ∀ i, i < pb.m → pb.G.mulVec w i ≤ pb.h i

/-- The point satisfies the optimality conditions approximately: residual norms below `tol`,
average complementarity below `gap`, slacks and multipliers positive. -/
structure Problem.Approx [LT K] [LE K] (pb : Problem K) (tol gap : K) (x y z s : Nat → K) :
    Prop where
  /-- `‖Px + Gᵀz + Aᵀy + c‖ < tol` -/
  rx : ∃ v, IsNorm pb.n (pb.rx x y z) v ∧ v < tol
  /-- `‖Ax - b‖ < tol` -/
  ry : ∃ v, IsNorm pb.p (pb.ry x) v ∧ v < tol
  /-- `‖Gx + s - h‖ < tol` -/
  rz : ∃ v, IsNorm pb.m (pb.rz x s) v ∧ v < tol
  gap : dot pb.m s z / (pb.m : K) < gap
  s_pos : ∀ i, i < pb.m → 0 < s i
  z_pos : ∀ i, i < pb.m → 0 < z i

/-- `x, y, z, s` satisfies the optimality conditions exactly. -/
structure Problem.Optimal [LE K] (pb : Problem K) (x y z s : Nat → K) : Prop where
  /-- `Px + Gᵀz + Aᵀy + c = 0` -/
  rx : ∀ i, i < pb.n → pb.P.mulVec x i + pb.G.tmulVec z i + pb.A.tmulVec y i + pb.c i = 0
  /-- `Ax = b` -/
  ry : ∀ i, i < pb.p → pb.A.mulVec x i = pb.b i
  /-- `Gx + s = h` -/
  rz : ∀ i, i < pb.m → pb.G.mulVec x i + s i = pb.h i
  s_nonneg : ∀ i, i < pb.m → 0 ≤ s i
  z_nonneg : ∀ i, i < pb.m → 0 ≤ z i
  comp : ∀ i, i < pb.m → s i * z i = 0

/-- `y, z` proves that no point satisfies the constraints (Farkas). -/
structure Problem.PrimalCert [LE K] (pb : Problem K) (y z : Nat → K) : Prop where
  nonneg : ∀ i, i < pb.m → 0 ≤ z i
  /-- `Aᵀy + Gᵀz = 0` -/
  orth : ∀ i, i < pb.n → pb.A.tmulVec y i + pb.G.tmulVec z i = 0
  /-- `bᵀy + hᵀz = -1` -/
  value : dot pb.p pb.b y + dot pb.m pb.h z = -1

/-- Along `d` the objective decreases without bound and no constraint is ever met. -/
structure Problem.DualCert [LE K] (pb : Problem K) (d : Nat → K) : Prop where
  flat : ∀ i, i < pb.n → pb.P.mulVec d i = 0
  eqs : ∀ i, i < pb.p → pb.A.mulVec d i = 0
  ineqs : ∀ i, i < pb.m → pb.G.mulVec d i ≤ 0
  /-- `cᵀd = -1` -/
  slope : dot pb.n pb.c d = -1

/-- The direction `dx, dy, dz, ds` solves the optimality conditions linearised at `x, y, z, s`, with
target `tgt` for the change of the complementarity products and the diagonal perturbation `e` of
the KKT matrix (numbered like its rows). -/
structure Problem.Linearised (pb : Problem K) (e x y z s tgt dx dy dz ds : Nat → K) : Prop where
  /-- `(P + e) dx + Aᵀ dy + Gᵀ dz = rx` -/
  rx : ∀ i, i < pb.n → pb.P.mulVec dx i + pb.A.tmulVec dy i + pb.G.tmulVec dz i + e i * dx i
    = pb.rx x y z i
  /-- `A dx + e dy = ry` -/
  ry : ∀ i, i < pb.p → pb.A.mulVec dx i + e (pb.n + i) * dy i = pb.ry x i
  /-- `G dx + ds + e dz = rz` -/
  rz : ∀ i, i < pb.m → pb.G.mulVec dx i + ds i + e (pb.n + pb.p + i) * dz i = pb.rz x s i
  comp : ∀ i, i < pb.m → z i * ds i + s i * dz i = tgt i

/-- Two states agree in everything the caller sees: options, iterate, statistics except the status
of the ordering (and the internal `resolve_kkt`). -/
structure SameResult (pb : Problem K) (a b : QP K) : Prop where
  options : a.options = b.options
  iter : ∃ x y z s, a.Iter pb x y z s ∧ b.Iter pb x y z s
  stats : { a.stats with AMD_RESULT := 0, resolve_kkt := none }
    = { b.stats with AMD_RESULT := 0, resolve_kkt := none }

/-- The structure holds the matrix `M`, the permutation `p` and a factor `L, d`, and the diagonal
of `L D Lᵀ` differs from that of the permuted matrix by `e`. -/
structure Kkt.Factored (k : Kkt K) (N : Nat) (M : Csc K) (p : Nat → Nat) (L : Csc K)
    (d e : Nat → K) : Prop where
  wf : M.WF
  mn : M.n = N
  mat : k.kktmatrix.Is M
  perm : Buf.Has k.P N (fun i => (p i : Int))
  fac : HoldsFactor N k.Lp k.Li k.Lx k.D L d
  diff : ∀ r, r < N → ldltEntry N L d r r = M.entry (p r) (p r) + e (p r)

/-- The factorisation in the structure is exact: no pivot was changed. -/
def Kkt.Exact (k : Kkt K) (N : Nat) : Prop := ∃ M p L d, k.Factored N M p L d (fun _ => 0)

end

end Verif
