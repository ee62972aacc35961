import Verif.Props.Renumber

/-!
# Rotations, reflections and shifts of the variables

C83: in exact arithmetic the run of the solver does not depend on the coordinates used for the
variables: with `x = T x' + v`, `T` orthogonal, the transformed problem gives the same slacks and
multipliers, step lengths, residual norms, number of iterations and exit code, and the iterates
correspond. The same holds for orthogonal combinations of the equality constraints and for a
renumbering of the inequality constraints.
-/

set_option linter.unusedSectionVars false

namespace Verif

open Finset

section

variable {K : Type} [Field K] [LinearOrder K] [IsStrictOrderedRing K] [Scalar K] [LawfulScalar K]

/-- `T` is an orthogonal `n` by `n` matrix. -/
structure Orthogonal (n : Nat) (T : Nat → Nat → K) : Prop where
  rows : ∀ i j, i < n → j < n → ∑ k ∈ range n, T i k * T j k = if i = j then 1 else 0
  cols : ∀ i j, i < n → j < n → ∑ k ∈ range n, T k i * T k j = if i = j then 1 else 0

/-- `T x` -/
def mulMat (n : Nat) (T : Nat → Nat → K) (x : Nat → K) (i : Nat) : K := ∑ j ∈ range n, T i j * x j

/-- `Tᵀ x` -/
def tmulMat (n : Nat) (T : Nat → Nat → K) (x : Nat → K) (j : Nat) : K := ∑ i ∈ range n, T i j * x i

/-- `pb'` is `pb` written in the variables `x'` with `x = T x' + v`, with the equality constraints
multiplied by `U` and inequality constraint `i` renamed to `k i`. -/
structure Problem.InCoords (pb pb' : Problem K) (T U : Nat → Nat → K) (v : Nat → K) (k : Nat → Nat) :
    Prop where
  n : pb'.n = pb.n
  p : pb'.p = pb.p
  m : pb'.m = pb.m
  orthT : Orthogonal pb.n T
  orthU : Orthogonal pb.p U
  ineqs : ∃ k', PermPair pb.m k k'
  /-- `P' = Tᵀ P T` -/
  P : ∀ r c, r < pb.n → c < pb.n → pb'.P.entry r c
    = ∑ i ∈ range pb.n, ∑ j ∈ range pb.n, T i r * pb.P.entry i j * T j c
  /-- `A' = U A T` -/
  A : ∀ r c, r < pb.p → c < pb.n → pb'.A.entry r c
    = ∑ i ∈ range pb.p, ∑ j ∈ range pb.n, U r i * pb.A.entry i j * T j c
  /-- `G' = G T`, renumbered -/
  G : ∀ r c, r < pb.m → c < pb.n → pb'.G.entry (k r) c = ∑ j ∈ range pb.n, pb.G.entry r j * T j c
  /-- `c' = Tᵀ (c + P v)` -/
  c : ∀ i, i < pb.n → pb'.c i = tmulMat pb.n T (fun j => pb.c j + pb.P.mulVec v j) i
  /-- `b' = U (b - A v)` -/
  b : ∀ i, i < pb.p → pb'.b i = mulMat pb.p U (fun j => pb.b j - pb.A.mulVec v j) i
  /-- `h' = h - G v`, renumbered -/
  h : ∀ i, i < pb.m → pb'.h (k i) = pb.h i - pb.G.mulVec v i
  sigma_d : pb'.sigma_d = pb.sigma_d

/-- The point `T x' + v`. -/
def movePt (n : Nat) (T : Nat → Nat → K) (v x' : Nat → K) (i : Nat) : K := mulMat n T x' i + v i

/-- Two states of solves of a problem and its transform agree in everything the caller sees: options,
slacks and multipliers, the points up to the transformation, statistics except the status of the
ordering (and the internal `resolve_kkt`); objective values differ by that of `v`. -/
structure SameMoved (pb pb' : Problem K) (T U : Nat → Nat → K) (v : Nat → K) (k : Nat → Nat)
    (a b : QP K) : Prop where
  options : a.options = b.options
  iter : ∃ x y z s, a.Iter pb (movePt pb.n T v x) (tmulMat pb.p U y) (fun i => z (k i))
    (fun i => s (k i)) ∧ b.Iter pb' x y z s
  stats : { a.stats with AMD_RESULT := 0, resolve_kkt := none, fval := none }
    = { b.stats with AMD_RESULT := 0, resolve_kkt := none, fval := none }
  fval : a.stats.fval = b.stats.fval.map (· + pb.obj v)

/-! ## Matrices -/

theorem mulMat_add (n : Nat) (T : Nat → Nat → K) (x y : Nat → K) (i : Nat) :
    mulMat n T (fun j => x j + y j) i = mulMat n T x i + mulMat n T y i := by
  unfold mulMat
  rw [← sum_add_distrib]
  exact sum_congr rfl fun j _ => by ring

theorem tmulMat_add (n : Nat) (T : Nat → Nat → K) (x y : Nat → K) (i : Nat) :
    tmulMat n T (fun j => x j + y j) i = tmulMat n T x i + tmulMat n T y i := by
  unfold tmulMat
  rw [← sum_add_distrib]
  exact sum_congr rfl fun j _ => by ring

theorem mulMat_smul (n : Nat) (T : Nat → Nat → K) (a : K) (x : Nat → K) (i : Nat) :
    mulMat n T (fun j => a * x j) i = a * mulMat n T x i := by
  unfold mulMat
  rw [mul_sum]
  exact sum_congr rfl fun j _ => by ring

theorem tmulMat_smul (n : Nat) (T : Nat → Nat → K) (a : K) (x : Nat → K) (i : Nat) :
    tmulMat n T (fun j => a * x j) i = a * tmulMat n T x i := by
  unfold tmulMat
  rw [mul_sum]
  exact sum_congr rfl fun j _ => by ring

theorem mulMat_congr {n : Nat} (T : Nat → Nat → K) {x y : Nat → K} (h : ∀ j, j < n → x j = y j)
    (i : Nat) : mulMat n T x i = mulMat n T y i :=
  sum_congr rfl fun j hj => by rw [h j (mem_range.mp hj)]

theorem tmulMat_congr {n : Nat} (T : Nat → Nat → K) {x y : Nat → K} (h : ∀ j, j < n → x j = y j)
    (i : Nat) : tmulMat n T x i = tmulMat n T y i :=
  sum_congr rfl fun j hj => by rw [h j (mem_range.mp hj)]

/-- `(T x) · w = x · (Tᵀ w)` -/
theorem dot_mulMat (n : Nat) (T : Nat → Nat → K) (x w : Nat → K) :
    dot n (mulMat n T x) w = dot n x (tmulMat n T w) := by
  unfold dot mulMat tmulMat
  simp only [sum_mul, mul_sum]
  rw [sum_comm]
  exact sum_congr rfl fun i _ => sum_congr rfl fun j _ => by ring

/-- `T (Tᵀ w) = w` -/
theorem Orthogonal.mul_tmul {n : Nat} {T : Nat → Nat → K} (h : Orthogonal n T) (w : Nat → K) {i : Nat}
    (hi : i < n) : mulMat n T (tmulMat n T w) i = w i := by
  unfold mulMat tmulMat
  simp only [mul_sum]
  rw [sum_comm]
  have : ∀ j ∈ range n, ∑ l ∈ range n, T i l * (T j l * w j) = if i = j then w j else 0 := by
    intro j hj
    have := h.rows i j hi (mem_range.mp hj)
    have e : ∑ l ∈ range n, T i l * (T j l * w j) = (∑ l ∈ range n, T i l * T j l) * w j := by
      rw [sum_mul]
      exact sum_congr rfl fun l _ => by ring
    rw [e, this]
    split <;> simp
  rw [sum_congr rfl this, sum_ite_eq, if_pos (mem_range.mpr hi)]

/-- `Tᵀ (T w) = w` -/
theorem Orthogonal.tmul_mul {n : Nat} {T : Nat → Nat → K} (h : Orthogonal n T) (w : Nat → K) {i : Nat}
    (hi : i < n) : tmulMat n T (mulMat n T w) i = w i := by
  unfold mulMat tmulMat
  simp only [mul_sum]
  rw [sum_comm]
  have : ∀ j ∈ range n, ∑ l ∈ range n, T l i * (T l j * w j) = if i = j then w j else 0 := by
    intro j hj
    have := h.cols i j hi (mem_range.mp hj)
    have e : ∑ l ∈ range n, T l i * (T l j * w j) = (∑ l ∈ range n, T l i * T l j) * w j := by
      rw [sum_mul]
      exact sum_congr rfl fun l _ => by ring
    rw [e, this]
    split <;> simp
  rw [sum_congr rfl this, sum_ite_eq, if_pos (mem_range.mpr hi)]

theorem Orthogonal.norm_tmul {n : Nat} {T : Nat → Nat → K} (h : Orthogonal n T) {w r : Nat → K} {a : K}
    (hr : IsNorm n r a) (he : ∀ i, i < n → r i = tmulMat n T w i) : IsNorm n w a := by
  refine ⟨hr.1, ?_⟩
  rw [hr.2]
  have e1 : dot n r r = dot n (tmulMat n T w) (tmulMat n T w) :=
    sum_congr rfl fun i hi => by rw [he i (mem_range.mp hi)]
  rw [e1, ← dot_mulMat]
  exact sum_congr rfl fun i hi => by rw [h.mul_tmul w (mem_range.mp hi)]

theorem Orthogonal.norm_mul {n : Nat} {T : Nat → Nat → K} (h : Orthogonal n T) {w r : Nat → K} {a : K}
    (hr : IsNorm n r a) (he : ∀ i, i < n → r i = mulMat n T w i) : IsNorm n w a := by
  refine ⟨hr.1, ?_⟩
  rw [hr.2]
  have e1 : dot n r r = dot n (mulMat n T w) (mulMat n T w) :=
    sum_congr rfl fun i hi => by rw [he i (mem_range.mp hi)]
  rw [e1, dot_mulMat]
  exact sum_congr rfl fun i hi => by rw [h.tmul_mul w (mem_range.mp hi)]

variable {pb pb' : Problem K} {T U : Nat → Nat → K} {v : Nat → K} {k : Nat → Nat}

theorem Csc.mulVec_add' (B : Csc K) (x y : Nat → K) (i : Nat) :
    B.mulVec (fun j => x j + y j) i = B.mulVec x i + B.mulVec y i := by
  unfold Csc.mulVec
  rw [← sum_add_distrib]
  exact sum_congr rfl fun j _ => by ring

theorem Csc.mulVec_congr' {B : Csc K} {n : Nat} (hB : B.n = n) {x y : Nat → K}
    (h : ∀ j, j < n → x j = y j) (i : Nat) : B.mulVec x i = B.mulVec y i := by
  unfold Csc.mulVec
  rw [hB]
  exact sum_congr rfl fun j hj => by rw [h j (mem_range.mp hj)]

theorem Csc.mulVec_move (B : Csc K) (n : Nat) (T : Nat → Nat → K) (v x : Nat → K) (i : Nat) :
    B.mulVec (movePt n T v x) i = B.mulVec (mulMat n T x) i + B.mulVec v i :=
  B.mulVec_add' _ _ i

namespace Problem.InCoords

theorem N (R : pb.InCoords pb' T U v k) : pb'.N = pb.N := by
  unfold Problem.N
  rw [R.n, R.p, R.m]

theorem symm (R : pb.InCoords pb' T U v k) (hs : pb.P.Symm) : pb'.P.Symm := by
  intro r c hr hc
  have hr : r < pb.n := by rw [← R.n]; exact hr
  have hc : c < pb.n := by rw [← R.n]; exact hc
  rw [R.P r c hr hc, R.P c r hc hr, sum_comm]
  refine sum_congr rfl fun i hi => sum_congr rfl fun j hj => ?_
  rw [hs j i (mem_range.mp hj) (mem_range.mp hi)]
  ring

theorem mulP (R : pb.InCoords pb' T U v k) (x : Nat → K) {i : Nat} (hi : i < pb.n) :
    pb'.P.mulVec x i = tmulMat pb.n T (pb.P.mulVec (mulMat pb.n T x)) i := by
  have e : pb'.P.mulVec x i = ∑ c ∈ range pb.n,
      (∑ a ∈ range pb.n, ∑ b ∈ range pb.n, T a i * pb.P.entry a b * T b c) * x c := by
    unfold Csc.mulVec
    rw [show pb'.P.n = pb.n from R.n]
    exact sum_congr rfl fun c hc => by rw [R.P i c hi (mem_range.mp hc)]
  rw [e]
  unfold tmulMat Csc.mulVec mulMat
  simp only [mul_sum, sum_mul]
  rw [show pb.P.n = pb.n from rfl, sum_comm]
  refine sum_congr rfl fun a _ => ?_
  rw [sum_comm]
  exact sum_congr rfl fun b _ => sum_congr rfl fun c _ => by ring

theorem mulA (R : pb.InCoords pb' T U v k) (hpb : pb.WF) (hpb' : pb'.WF) (x : Nat → K) {i : Nat}
    (hi : i < pb.p) : pb'.A.mulVec x i = mulMat pb.p U (pb.A.mulVec (mulMat pb.n T x)) i := by
  have e : pb'.A.mulVec x i = ∑ c ∈ range pb.n,
      (∑ a ∈ range pb.p, ∑ b ∈ range pb.n, U i a * pb.A.entry a b * T b c) * x c := by
    unfold Csc.mulVec
    rw [hpb'.An, show pb'.P.n = pb.n from R.n]
    exact sum_congr rfl fun c hc => by rw [R.A i c hi (mem_range.mp hc)]
  rw [e]
  unfold Csc.mulVec mulMat
  simp only [mul_sum, sum_mul]
  rw [hpb.An, show pb.P.n = pb.n from rfl, sum_comm]
  refine sum_congr rfl fun a _ => ?_
  rw [sum_comm]
  exact sum_congr rfl fun b _ => sum_congr rfl fun c _ => by ring

theorem mulG (R : pb.InCoords pb' T U v k) (hpb : pb.WF) (hpb' : pb'.WF) (x : Nat → K) {i : Nat}
    (hi : i < pb.m) : pb'.G.mulVec x (k i) = pb.G.mulVec (mulMat pb.n T x) i := by
  have e : pb'.G.mulVec x (k i) = ∑ c ∈ range pb.n,
      (∑ b ∈ range pb.n, pb.G.entry i b * T b c) * x c := by
    unfold Csc.mulVec
    rw [hpb'.Gn, show pb'.P.n = pb.n from R.n]
    exact sum_congr rfl fun c hc => by rw [R.G i c hi (mem_range.mp hc)]
  rw [e]
  unfold Csc.mulVec mulMat
  simp only [mul_sum, sum_mul]
  rw [hpb.Gn, show pb.P.n = pb.n from rfl, sum_comm]
  exact sum_congr rfl fun b _ => sum_congr rfl fun c _ => by ring

theorem tmulA (R : pb.InCoords pb' T U v k) (y : Nat → K) {i : Nat} (hi : i < pb.n) :
    pb'.A.tmulVec y i = tmulMat pb.n T (pb.A.tmulVec (tmulMat pb.p U y)) i := by
  have e : pb'.A.tmulVec y i = ∑ c ∈ range pb.p,
      (∑ a ∈ range pb.p, ∑ b ∈ range pb.n, U c a * pb.A.entry a b * T b i) * y c := by
    unfold Csc.tmulVec
    rw [show pb'.A.m = pb.p from R.p]
    exact sum_congr rfl fun c hc => by rw [R.A c i (mem_range.mp hc) hi]
  rw [e]
  unfold Csc.tmulVec tmulMat
  simp only [mul_sum, sum_mul]
  rw [show pb.A.m = pb.p from rfl]
  have e2 : ∀ c ∈ range pb.p, ∑ a ∈ range pb.p, ∑ b ∈ range pb.n, U c a * pb.A.entry a b * T b i * y c
      = ∑ b ∈ range pb.n, ∑ a ∈ range pb.p, U c a * pb.A.entry a b * T b i * y c :=
    fun c _ => sum_comm
  rw [sum_congr rfl e2, sum_comm]
  refine sum_congr rfl fun b _ => ?_
  rw [sum_comm]
  exact sum_congr rfl fun a _ => sum_congr rfl fun c _ => by ring

theorem tmulG (R : pb.InCoords pb' T U v k) (z : Nat → K) {i : Nat} (hi : i < pb.n) :
    pb'.G.tmulVec z i = tmulMat pb.n T (pb.G.tmulVec fun j => z (k j)) i := by
  obtain ⟨k', hk⟩ := R.ineqs
  have e : pb'.G.tmulVec z i = ∑ c ∈ range pb.m,
      (∑ b ∈ range pb.n, pb.G.entry c b * T b i) * z (k c) := by
    unfold Csc.tmulVec
    rw [show pb'.G.m = pb.m from R.m, hk.sum_eq]
    exact sum_congr rfl fun c hc => by rw [R.G c i (mem_range.mp hc) hi]
  rw [e]
  unfold Csc.tmulVec tmulMat
  simp only [mul_sum, sum_mul]
  rw [show pb.G.m = pb.m from rfl, sum_comm]
  exact sum_congr rfl fun b _ => sum_congr rfl fun c _ => by ring

theorem rx (R : pb.InCoords pb' T U v k) (x y z : Nat → K) {i : Nat} (hi : i < pb.n) :
    pb'.rx x y z i = tmulMat pb.n T (pb.rx (movePt pb.n T v x) (tmulMat pb.p U y)
      (fun i => z (k i))) i := by
  unfold Problem.rx
  rw [R.mulP x hi, R.tmulG z hi, R.tmulA y hi, R.c i hi]
  generalize tmulMat pb.p U y = y'
  unfold tmulMat
  rw [← sum_add_distrib, ← sum_add_distrib, ← sum_add_distrib, ← sum_neg_distrib]
  refine sum_congr rfl fun j _ => ?_
  dsimp only
  rw [Csc.mulVec_move]
  ring

theorem ry (R : pb.InCoords pb' T U v k) (hpb : pb.WF) (hpb' : pb'.WF) (x : Nat → K) {i : Nat}
    (hi : i < pb.p) : pb'.ry x i = mulMat pb.p U (pb.ry (movePt pb.n T v x)) i := by
  unfold Problem.ry
  rw [R.mulA hpb hpb' x hi, R.b i hi]
  have e : ∀ j, pb.b j - pb.A.mulVec (movePt pb.n T v x) j
      = pb.b j - pb.A.mulVec v j - pb.A.mulVec (mulMat pb.n T x) j := fun j => by
    rw [Csc.mulVec_move]; ring
  simp only [e]
  generalize mulMat pb.n T x = x'
  unfold mulMat
  rw [← sum_sub_distrib]
  exact sum_congr rfl fun j _ => by ring

theorem rz (R : pb.InCoords pb' T U v k) (hpb : pb.WF) (hpb' : pb'.WF) (x s : Nat → K) {i : Nat}
    (hi : i < pb.m) : pb'.rz x s (k i) = pb.rz (movePt pb.n T v x) (fun i => s (k i)) i := by
  unfold Problem.rz
  rw [R.mulG hpb hpb' x hi, R.h i hi, Csc.mulVec_move]
  ring

theorem dotm (R : pb.InCoords pb' T U v k) (a b : Nat → K) :
    dot pb'.m a b = dot pb.m (fun i => a (k i)) (fun i => b (k i)) := by
  obtain ⟨k', hk⟩ := R.ineqs
  rw [R.m, hk.dot_eq]

/-- Objective values differ by that of the origin of the new variables. -/
theorem obj (R : pb.InCoords pb' T U v k) (hs : pb.P.Symm) (x : Nat → K) :
    pb.obj (movePt pb.n T v x) = pb'.obj x + pb.obj v := by
  set w := mulMat pb.n T x with hw
  have e1 : dot pb'.n x (pb'.P.mulVec x) = dot pb.n w (pb.P.mulVec w) := by
    rw [R.n, hw, dot_mulMat]
    exact sum_congr rfl fun i hi => by rw [R.mulP x (mem_range.mp hi)]
  have e2 : dot pb'.n pb'.c x = dot pb.n pb.c w + dot pb.n w (pb.P.mulVec v) := by
    have : dot pb'.n pb'.c x = dot pb.n x (tmulMat pb.n T fun j => pb.c j + pb.P.mulVec v j) := by
      rw [R.n]
      exact sum_congr rfl fun i hi => by rw [R.c i (mem_range.mp hi)]; ring
    rw [this, ← dot_mulMat, ← hw]
    unfold dot
    rw [← sum_add_distrib]
    exact sum_congr rfl fun i _ => by ring
  have e3 : dot pb.n v (pb.P.mulVec w) = dot pb.n w (pb.P.mulVec v) := by
    unfold dot Csc.mulVec
    simp only [mul_sum]
    rw [show pb.P.n = pb.n from rfl, sum_comm]
    refine sum_congr rfl fun i hi => sum_congr rfl fun j hj => ?_
    rw [hs j i (mem_range.mp hj) (mem_range.mp hi)]
    ring
  have e4 : dot pb.n (movePt pb.n T v x) (pb.P.mulVec (movePt pb.n T v x))
      = dot pb.n w (pb.P.mulVec w) + dot pb.n w (pb.P.mulVec v) + dot pb.n v (pb.P.mulVec w)
        + dot pb.n v (pb.P.mulVec v) := by
    unfold dot
    rw [← sum_add_distrib, ← sum_add_distrib, ← sum_add_distrib]
    refine sum_congr rfl fun i _ => ?_
    rw [Csc.mulVec_move, ← hw]
    unfold movePt
    rw [← hw]
    ring
  have e5 : dot pb.n pb.c (movePt pb.n T v x) = dot pb.n pb.c w + dot pb.n pb.c v := by
    unfold dot
    rw [← sum_add_distrib]
    refine sum_congr rfl fun i _ => ?_
    unfold movePt
    rw [← hw]
    ring
  unfold Problem.obj
  rw [e1, e2, e4, e5, e3]
  ring

/-- The linearised conditions of the transformed problem, without perturbation. -/
theorem linearised (R : pb.InCoords pb' T U v k) (hpb : pb.WF) (hpb' : pb'.WF)
    {e x y z s tgt dx dy dz ds : Nat → K} (he : ∀ i, i < pb'.N → e i = 0)
    (h : pb'.Linearised e x y z s tgt dx dy dz ds) :
    pb.Linearised (fun _ => 0) (movePt pb.n T v x) (tmulMat pb.p U y) (fun i => z (k i))
      (fun i => s (k i)) (fun i => tgt (k i)) (mulMat pb.n T dx) (tmulMat pb.p U dy)
      (fun i => dz (k i)) (fun i => ds (k i)) := by
  obtain ⟨k', hk⟩ := R.ineqs
  have eN : pb'.N = pb'.n + pb'.p + pb'.m := rfl
  have en := R.n
  have ep := R.p
  have em := R.m
  refine ⟨fun i hi => ?_, fun i hi => ?_, fun i hi => ?_, fun i hi => ?_⟩
  · have key : ∀ j, j < pb.n → tmulMat pb.n T (fun i => pb.P.mulVec (mulMat pb.n T dx) i
        + pb.A.tmulVec (tmulMat pb.p U dy) i + pb.G.tmulVec (fun i => dz (k i)) i) j
        = tmulMat pb.n T (pb.rx (movePt pb.n T v x) (tmulMat pb.p U y) (fun i => z (k i))) j := by
      intro j hj
      have := h.rx j (by omega)
      rw [he j (by omega), R.mulP _ hj, R.tmulA _ hj, R.tmulG _ hj, R.rx _ _ _ hj, zero_mul,
        add_zero, ← tmulMat_add, ← tmulMat_add] at this
      exact this
    have h2 := mulMat_congr T key i
    rw [R.orthT.mul_tmul _ hi, R.orthT.mul_tmul _ hi] at h2
    rw [← h2]
    ring
  · have key : ∀ j, j < pb.p → mulMat pb.p U (pb.A.mulVec (mulMat pb.n T dx)) j
        = mulMat pb.p U (pb.ry (movePt pb.n T v x)) j := by
      intro j hj
      have := h.ry j (by omega)
      rw [he _ (by omega), R.mulA hpb hpb' _ hj, R.ry hpb hpb' _ hj, zero_mul, add_zero] at this
      exact this
    have h2 := tmulMat_congr U key i
    rw [R.orthU.tmul_mul _ hi, R.orthU.tmul_mul _ hi] at h2
    rw [← h2]
    ring
  · have h1 := hk.p_lt i hi
    have := h.rz (k i) (by omega)
    rw [he _ (by omega), R.mulG hpb hpb' _ hi, R.rz hpb hpb' _ _ hi] at this
    rw [← this]
  · have h1 := hk.p_lt i hi
    exact h.comp (k i) (by omega)

end Problem.InCoords

/-- Setups of a problem and its transform with exact factorisations produce the same starting point
up to the transformation. -/
theorem start_moved {amd amd' : Amd} {a a' : SetupArgs K} {q0 q0' : QP K}
    (R : pb.InCoords pb' T U v k) (h : Started amd a pb q0) (h' : Started amd' a' pb' q0')
    (hsym : pb.P.Symm) (hex : q0.kkt.Exact pb.N) (hex' : q0'.kkt.Exact pb'.N) :
    SameMoved pb pb' T U v k q0 q0' := by
  obtain ⟨k', hk⟩ := R.ineqs
  have en := R.n
  have ep := R.p
  have em := R.m
  have hpb := h.wf
  have hpb' := h'.wf
  obtain ⟨p, q, hd⟩ := h.done
  obtain ⟨p', q', hd'⟩ := h'.done
  obtain ⟨t, hfac, _, hit⟩ := hd.iter
  obtain ⟨t', hfac', _, hit'⟩ := hd'.iter
  have hinj := kkt_injective hpb hsym hd.kkt hfac hex
  obtain ⟨e, w, _, he, r1, r2, r3, lo, hi, m1, m2, m3, m4⟩ := C53_starting_point h hsym hit
  obtain ⟨e', w', _, he', r1', r2', r3', lo', hi', m1', m2', m3', m4'⟩ :=
    C53_starting_point h' (R.symm hsym) hit'
  have he := he hex
  have he' := he' hex'
  have eN : pb.N = pb.n + pb.p + pb.m := rfl
  have eN' : pb'.N = pb'.n + pb'.p + pb'.m := rfl
  obtain ⟨ux, uy⟩ := start_unique hpb hinj (w := w) (w' := fun i => w' (k i))
    (x' := movePt pb.n T v (sol0 pb' p' q' t'))
    (y' := tmulMat pb.p U fun i => sol0 pb' p' q' t' (pb'.n + i))
    (fun i hi => by have := r1 i hi; rwa [he i (by omega), zero_mul, add_zero] at this)
    (fun i hi => by have := r2 i hi; rwa [he _ (by omega), zero_mul, add_zero] at this)
    (fun i hi => by have := r3 i hi; rwa [he _ (by omega), zero_mul, add_zero] at this)
    (fun i hi => by
      have key : ∀ j, j < pb.n → tmulMat pb.n T (fun i =>
          pb.P.mulVec (mulMat pb.n T (sol0 pb' p' q' t')) i
          + pb.A.tmulVec (tmulMat pb.p U fun i => sol0 pb' p' q' t' (pb'.n + i)) i
          + pb.G.tmulVec (fun i => w' (k i)) i + (pb.c i + pb.P.mulVec v i)) j
          = tmulMat pb.n T (fun _ => 0) j := by
        intro j hj
        have := r1' j (by omega)
        rw [he' _ (by omega), zero_mul, add_zero, R.mulP _ hj, R.tmulA _ hj, R.tmulG _ hj,
          R.c j hj, ← tmulMat_add, ← tmulMat_add, ← sub_eq_zero, sub_neg_eq_add,
          ← tmulMat_add] at this
        rw [this]
        simp [tmulMat]
      have h2 := mulMat_congr T key i
      rw [R.orthT.mul_tmul _ hi, R.orthT.mul_tmul _ hi] at h2
      rw [Csc.mulVec_move]
      linear_combination h2)
    (fun i hi => by
      have key : ∀ j, j < pb.p → mulMat pb.p U (pb.A.mulVec (mulMat pb.n T (sol0 pb' p' q' t'))) j
          = mulMat pb.p U (fun j => pb.b j - pb.A.mulVec v j) j := by
        intro j hj
        have := r2' j (by omega)
        rwa [he' _ (by omega), zero_mul, add_zero, R.mulA hpb hpb' _ hj, R.b j hj] at this
      have h2 := tmulMat_congr U key i
      rw [R.orthU.tmul_mul _ hi, R.orthU.tmul_mul _ hi] at h2
      rw [Csc.mulVec_move]
      linear_combination h2)
    (fun i hi => by
      have h1 := hk.p_lt i hi
      have := r3' (k i) (by omega)
      rw [he' _ (by omega), zero_mul, add_zero, R.mulG hpb hpb' _ hi, R.h i hi] at this
      rw [Csc.mulVec_move]
      linear_combination this)
  have eG : ∀ i, i < pb.m → pb.h i - pb.G.mulVec (sol0 pb p q t) i
      = pb'.h (k i) - pb'.G.mulVec (sol0 pb' p' q' t') (k i) := by
    intro i hi
    rw [R.mulG hpb hpb' _ hi, R.h i hi, Csc.mulVec_congr' hpb.Gn ux, Csc.mulVec_move]
    ring
  have eset : {v | ∃ i, i < pb'.m ∧ v = pb'.h i - pb'.G.mulVec (sol0 pb' p' q' t') i}
      = {v | ∃ i, i < pb.m ∧ v = pb.h i - pb.G.mulVec (sol0 pb p q t) i} := by
    ext v
    constructor
    · rintro ⟨i, hi, rfl⟩
      have hi : i < pb.m := by omega
      exact ⟨k' i, hk.q_lt i hi, by rw [eG _ (hk.q_lt i hi), hk.pq i hi]⟩
    · rintro ⟨i, hi, rfl⟩
      have := hk.p_lt i hi
      exact ⟨k i, by omega, eG i hi⟩
  rw [eset] at m1' m2'
  have elo : lo = lo' := m1.unique m1'
  have ehi : hi = hi' := m2.unique m2'
  obtain ⟨re, h1⟩ := hd.stats
  obtain ⟨re', h1'⟩ := hd'.stats
  refine ⟨by rw [hd.options, hd'.options], ⟨_, _, _, _, hit.congr ?_ ?_ ?_ ?_, hit'⟩, ?_, ?_⟩
  · exact ux
  · exact uy
  · intro i hm
    have := hk.p_lt i hm
    rw [m4 i hm, m4' (k i) (by omega), ehi, eG i hm]
  · intro i hm
    have := hk.p_lt i hm
    rw [m3 i hm, m3' (k i) (by omega), elo, eG i hm]
  · rw [h1, h1']
  · rw [h1, h1']
    rfl

section

variable [LawfulSqrt K]

theorem Problem.InCoords.stats (R : pb.InCoords pb' T U v k) (hpb : pb.WF) (hpb' : pb'.WF)
    (x y z s : Nat → K) :
    nrmF pb'.n (rxF pb' x y z) = nrmF pb.n (rxF pb (movePt pb.n T v x) (tmulMat pb.p U y)
      fun i => z (k i)) ∧
    nrmF pb'.p (ryF pb' x) = nrmF pb.p (ryF pb (movePt pb.n T v x)) ∧
    nrmF pb'.m (rzF pb' x s) = nrmF pb.m (rzF pb (movePt pb.n T v x) fun i => s (k i)) ∧
    gapF pb' z s = gapF pb (fun i => z (k i)) (fun i => s (k i)) ∧
    ∀ o, exitF pb' o x y z s = exitF pb o (movePt pb.n T v x) (tmulMat pb.p U y) (fun i => z (k i))
      (fun i => s (k i)) := by
  obtain ⟨k', hk⟩ := R.ineqs
  have ix := (nrmF_isNorm pb'.n (rxF pb' x y z)).congr (fun i hi => rxF_eq hpb' x y z hi)
  have iy := (nrmF_isNorm pb'.p (ryF pb' x)).congr (fun i _ => ryF_eq hpb' x i)
  have iz := (nrmF_isNorm pb'.m (rzF pb' x s)).congr (fun i _ => rzF_eq hpb' x s i)
  have jx := (nrmF_isNorm pb.n (rxF pb (movePt pb.n T v x) (tmulMat pb.p U y) fun i => z (k i))).congr
    (fun i hi => rxF_eq hpb _ _ _ hi)
  have jy := (nrmF_isNorm pb.p (ryF pb (movePt pb.n T v x))).congr (fun i _ => ryF_eq hpb _ i)
  have jz := (nrmF_isNorm pb.m (rzF pb (movePt pb.n T v x) fun i => s (k i))).congr
    (fun i _ => rzF_eq hpb _ _ i)
  rw [R.n] at ix
  rw [R.p] at iy
  rw [R.m] at iz
  have e1 := (R.orthT.norm_tmul ix (fun i hi => R.rx x y z hi)).unique jx
  have e2 := (R.orthU.norm_mul iy (fun i hi => R.ry hpb hpb' x hi)).unique jy
  have e3 := (hk.isNorm iz (fun i hi => R.rz hpb hpb' x s hi)).unique jz
  have e4 : gapF pb' z s = gapF pb (fun i => z (k i)) (fun i => s (k i)) := by
    rw [gapF_eq, gapF_eq, R.dotm, R.m]
  refine ⟨by rw [R.n]; exact e1, by rw [R.p]; exact e2, by rw [R.m]; exact e3, e4, fun o => ?_⟩
  unfold exitF
  rw [R.n, R.p, R.m, e1, e2, e3, e4]

/-- One step from states that agree up to the transformation, with exact factorisations, leads to such
states. -/
theorem step_moved {amd amd' : Amd} {a a' : SetupArgs K} {q0 q0' qp qp' r r' : QP K}
    (R : pb.InCoords pb' T U v k) (h : Started amd a pb q0) (h' : Started amd' a' pb' q0')
    (hsym : pb.P.Symm) (hr : Reach q0 qp) (hr' : Reach q0' qp') (hsame : SameMoved pb pb' T U v k qp qp')
    (hb : solveBody qp = .ok (r, false)) (hb' : solveBody qp' = .ok (r', false))
    (hex : r.kkt.Exact pb.N) (hex' : r'.kkt.Exact pb'.N) : SameMoved pb pb' T U v k r r' := by
  obtain ⟨k', hk⟩ := R.ineqs
  have en := R.n
  have ep := R.p
  have em := R.m
  obtain ⟨x, y, z, s, hi, hi'⟩ := hsame.iter
  have hpos := C16_positive h hr hi
  obtain ⟨p, q, hs, _⟩ := h.sinv hr
  obtain ⟨p', q', hs', _⟩ := h'.sinv hr'
  have hbo := hs.bodyOut h.wf hb hi
  have hbo' := hs'.bodyOut h'.wf hb' hi'
  obtain ⟨t, hst, hopt, re, hstat⟩ := hbo.step rfl
  obtain ⟨t', hst', hopt', re', hstat'⟩ := hbo'.step rfl
  simp only at hst hst' hopt hopt' hstat hstat'
  have hinj := kkt_injective h.wf hsym hst.sym hst.fac hex
  obtain ⟨e, dx, dy, dz, ds, tgt, d1, d2, d3, d4, _, he, hlin, hA, hB⟩ :=
    C31_directions h hsym hr hb hi
  obtain ⟨e', dx', dy', dz', ds', tgt', d1', d2', d3', d4', _, he', hlin', hA', hB'⟩ :=
    C31_directions h' (R.symm hsym) hr' hb' hi'
  have he := he hex
  have he' := he' hex'
  have hzp : ∀ i, i < pb.m → 0 < z (k i) := fun i hm => (hpos i hm).2
  have esd := R.sigma_d
  have edot := R.dotm s z
  -- target and centering parameter
  have key : r.options.sigma = r'.options.sigma ∧ ∀ i, i < pb.m → tgt i = tgt' (k i) := by
    by_cases hc : qp.options.sigma ≤ pb.sigma_d
    · obtain ⟨k1, k2⟩ := hA hc
      obtain ⟨k1', k2'⟩ := hA' (by rw [← hsame.options, esd]; exact hc)
      refine ⟨by rw [k1, k1', esd], fun i hm => ?_⟩
      have hm' := hk.p_lt i hm
      rw [k2 i hm, k2' (k i) (by omega), edot, esd, em]
    · push Not at hc
      obtain ⟨px, py, pz, ps, ap, ad, l1, l2, l3, l4, l5⟩ := hB hc
      obtain ⟨px', py', pz', ps', ap', ad', l1', l2', l3', l4', l5'⟩ :=
        hB' (by rw [← hsame.options, esd]; exact hc)
      obtain ⟨_, _, u3, u4⟩ := l1.unique h.wf hzp hinj he (fun _ _ => rfl) (fun _ _ => rfl)
        (R.linearised h.wf h'.wf he' l1')
      rw [em] at l2' l3'
      have eap := l2.unique (l2'.reindex hk) u4
      have ead := l3.unique (l3'.reindex hk) u3
      have es : r.options.sigma = r'.options.sigma := by
        rw [l4, l4', eap, ead, edot, esd, R.dotm]
        have : dot pb.m (fun i => s (k i) + ap' * ps i) (fun i => z (k i) + ad' * pz i)
            = dot pb.m (fun i => s (k i) + ap' * ps' (k i)) (fun i => z (k i) + ad' * pz' (k i)) := by
          unfold dot
          refine sum_congr rfl fun i hm => ?_
          simp only
          rw [u3 i (mem_range.mp hm), u4 i (mem_range.mp hm)]
        rw [this]
      refine ⟨es, fun i hm => ?_⟩
      have hm' := hk.p_lt i hm
      rw [l5 i hm, l5' (k i) (by omega), es, u3 i hm, u4 i hm, edot, em]
  obtain ⟨es, et⟩ := key
  obtain ⟨u1, u2, u3, u4⟩ := hlin.unique h.wf hzp hinj he (fun _ _ => rfl) et
    (R.linearised h.wf h'.wf he' hlin')
  -- step lengths
  obtain ⟨_, _, _, _, gx, gy, gz, gs, ap, ad, j1, j2, j3, j4, f1, f2, f3, f4, hn⟩ :=
    C17_steps h hr hb hi
  obtain ⟨_, _, _, _, gx', gy', gz', gs', ap', ad', j1', j2', j3', j4', f1', f2', f3', f4', hn'⟩ :=
    C17_steps h' hr' hb' hi'
  have w1 : ∀ i, i < pb.n → gx i = mulMat pb.n T gx' i := fun i hm => by
    rw [j1.unique d1 hm, u1 i hm]
    exact mulMat_congr T (fun j hj => (j1'.unique d1' (show j < pb'.n by omega)).symm) i
  have w2 : ∀ i, i < pb.p → gy i = tmulMat pb.p U gy' i := fun i hm => by
    rw [j2.unique d2 hm, u2 i hm]
    exact tmulMat_congr U (fun j hj => (j2'.unique d2' (show j < pb'.p by omega)).symm) i
  have w3 : ∀ i, i < pb.m → gz i = gz' (k i) := fun i hm => by
    have := hk.p_lt i hm
    rw [j3.unique d3 hm, j3'.unique d3' (show k i < pb'.m by omega), u3 i hm]
  have w4 : ∀ i, i < pb.m → gs i = gs' (k i) := fun i hm => by
    have := hk.p_lt i hm
    rw [j4.unique d4 hm, j4'.unique d4' (show k i < pb'.m by omega), u4 i hm]
  rw [em] at f1' f2'
  have ea : r.stats.alpha_p = r'.stats.alpha_p := by rw [f3, f3', f1.unique (f1'.reindex hk) w4]
  have eb : r.stats.alpha_d = r'.stats.alpha_d := by rw [f4, f4', f2.unique (f2'.reindex hk) w3]
  obtain ⟨n1, n2, n3, n4, _⟩ := R.stats h.wf h'.wf x y z s
  refine ⟨?_, ⟨_, _, _, _, hn.congr ?_ ?_ ?_ ?_, hn'⟩, ?_, ?_⟩
  · rw [hopt] at es
    rw [hopt'] at es
    rw [hopt, hopt', hsame.options]
    simp only at es
    rw [hsame.options] at es
    rw [es]
  · intro i hm
    rw [w1 i hm, ea]
    unfold movePt
    rw [mulMat_add, mulMat_smul]
    ring
  · intro i hm
    rw [w2 i hm, eb, tmulMat_add, tmulMat_smul]
  · intro i hm; rw [w3 i hm, eb]
  · intro i hm; rw [w4 i hm, ea]
  · have e1 := hsame.stats
    rw [hstat, hstat'] at ea eb
    simp only at ea eb
    rw [hstat, hstat', ea, eb]
    simp only [evalStats, Stats.mk.injEq, and_true, true_and] at e1 ⊢
    obtain ⟨c1, c2, c3, c4, c5, c6, c7, c8⟩ := e1
    rw [n1, n2, n3, n4, ep, c1, c3, c8]
    simp
  · rw [hstat, hstat']
    show some (objF pb.P pb.c _) = some (objF pb'.P pb'.c _ + _)
    rw [objF_eq h.wf, objF_eq h'.wf, R.obj hsym]

/-- Whether an iteration stops depends only on the common part. -/
theorem brk_moved {amd amd' : Amd} {a a' : SetupArgs K} {q0 q0' qp qp' r r' : QP K} {b b' : Bool}
    (R : pb.InCoords pb' T U v k) (h : Started amd a pb q0) (h' : Started amd' a' pb' q0')
    (hsym : pb.P.Symm) (hr : Reach q0 qp) (hr' : Reach q0' qp')
    (hsame : SameMoved pb pb' T U v k qp qp') (hb : solveBody qp = .ok (r, b)) (hb' : solveBody qp' = .ok (r', b')) :
    b = b' ∧ (b = true → SameMoved pb pb' T U v k r r') := by
  obtain ⟨x, y, z, s, hi, hi'⟩ := hsame.iter
  obtain ⟨p, q, hs, _⟩ := h.sinv hr
  obtain ⟨p', q', hs', _⟩ := h'.sinv hr'
  have hbo := hs.bodyOut h.wf hb hi
  have hbo' := hs'.bodyOut h'.wf hb' hi'
  have e : b = b' := by
    have h1 := hbo.brk
    have h2 := hbo'.brk
    simp only at h1 h2
    rw [h1, h2, hsame.options, (R.stats h.wf h'.wf x y z s).2.2.2.2]
  refine ⟨e, fun ht => ?_⟩
  obtain ⟨g1, _, g3, g4, _⟩ := hbo.stop ht
  obtain ⟨g1', _, g3', g4', _⟩ := hbo'.stop (e ▸ ht)
  simp only at g1 g1' g3 g3' g4 g4'
  obtain ⟨n1, n2, n3, n4, _⟩ := R.stats h.wf h'.wf x y z s
  refine ⟨by rw [g3, g3', hsame.options], ⟨x, y, z, s, g1, g1'⟩, ?_, ?_⟩
  · have e1 := hsame.stats
    rw [g4, g4']
    simp only [evalStats, Stats.mk.injEq, and_true, true_and] at e1 ⊢
    obtain ⟨c1, c2, c3, c4, c5, c6, c7, c8⟩ := e1
    rw [n1, n2, n3, n4, R.p, c1, c3, c6, c7]
    simp
  · rw [g4, g4']
    show some (objF pb.P pb.c _) = some (objF pb'.P pb'.c _ + _)
    rw [objF_eq h.wf, objF_eq h'.wf, R.obj hsym]

/-- The runs stay together for as long as the factorisations are exact. -/
theorem iterations_moved {amd amd' : Amd} {a a' : SetupArgs K} {q0 q0' qp qp' : QP K}
    (R : pb.InCoords pb' T U v k) (h : Started amd a pb q0) (h' : Started amd' a' pb' q0')
    (hsym : pb.P.Symm) (hr : Reach q0 qp) (hr' : Reach q0' qp') (hsame : SameMoved pb pb' T U v k qp qp')
    (hex : ∀ (j : Nat) qk qk' r r', (j : Int) < qp.options.maxit → Iterations j qp qk →
      Iterations j qp' qk' → SameMoved pb pb' T U v k qk qk' → solveBody qk = .ok (r, false) →
      solveBody qk' = .ok (r', false) → r.kkt.Exact pb.N ∧ r'.kkt.Exact pb'.N) :
    ∀ j qk qk', j ≤ qp.options.maxit.toNat → Iterations j qp qk → Iterations j qp' qk' →
      SameMoved pb pb' T U v k qk qk' := by
  intro j
  induction j with
  | zero => intro qk qk' _ h1 h2; cases h1; cases h2; exact hsame
  | succ j ih =>
    intro qk qk' hj h1 h2
    obtain _ | ⟨g1, g2⟩ := h1
    obtain _ | ⟨g1', g2'⟩ := h2
    have hk := ih _ _ (by omega) g1 g1'
    obtain ⟨e1, e2⟩ := hex j _ _ _ _ (by omega) g1 g1' hk g2 g2'
    exact step_moved R h h' hsym (hr.iterations g1) (hr'.iterations g1') hk g2 g2' e1 e2

/-- Two solves from states that agree up to the transformation, with exact factorisations, give the
same result up to the transformation. -/
theorem solve_moved {amd amd' : Amd} {a a' : SetupArgs K} {q0 q0' qp qp' q1 q1' : QP K}
    {fl fl' : Int} (R : pb.InCoords pb' T U v k) (h : Started amd a pb q0)
    (h' : Started amd' a' pb' q0') (hsym : pb.P.Symm) (hr : Reach q0 qp) (hr' : Reach q0' qp')
    (hsame : SameMoved pb pb' T U v k qp qp') (hs : QP_SOLVE qp = .ok (fl, q1))
    (hs' : QP_SOLVE qp' = .ok (fl', q1'))
    (hex : ∀ (j : Nat) qk qk' r r', (j : Int) < qp.options.maxit → Iterations j qp qk →
      Iterations j qp' qk' → SameMoved pb pb' T U v k qk qk' → solveBody qk = .ok (r, false) →
      solveBody qk' = .ok (r', false) → r.kkt.Exact pb.N ∧ r'.kkt.Exact pb'.N) :
    fl = fl' ∧ SameMoved pb pb' T U v k q1 q1' := by
  obtain ⟨p, q, hi, _⟩ := h.sinv hr
  obtain ⟨p', q', hi', _⟩ := h'.sinv hr'
  obtain ⟨j, qk, hk⟩ := QP_SOLVE_inv h.wf hi hs
  obtain ⟨j', qk', hk'⟩ := QP_SOLVE_inv h'.wf hi' hs'
  have all := iterations_moved R h h' hsym hr hr' hsame hex
  obtain ⟨r, h5, h6⟩ := hk.stop
  obtain ⟨r', h5', h6'⟩ := hk'.stop
  have emax : qp.options.maxit = qp'.options.maxit := by rw [hsame.options]
  -- the two runs have the same length
  have n1 : j < qp.options.maxit.toNat → solveBody qk = .ok (r, true) → ¬ j < j' := by
    intro hlt hb hjj
    obtain ⟨c, d, g1, g2⟩ := hk'.its.prefix j hjj
    have := (brk_moved R h h' hsym (hr.iterations hk.its) (hr'.iterations g1)
      (all _ _ _ (by omega) hk.its g1) hb g2).1
    cases this
  have n2 : j' < qp'.options.maxit.toNat → solveBody qk' = .ok (r', true) → ¬ j' < j := by
    intro hlt hb hjj
    obtain ⟨c, d, g1, g2⟩ := hk.its.prefix j' hjj
    have := (brk_moved R h h' hsym (hr.iterations g1) (hr'.iterations hk'.its)
      (all _ _ _ (by rw [emax]; omega) g1 hk'.its) g2 hb).1
    cases this
  have hkk : j = j' := by
    rcases h5 with ⟨c1, c2⟩ | ⟨c1, c2⟩ <;> rcases h5' with ⟨c1', c2'⟩ | ⟨c1', c2'⟩
    · have := n1 c1 c2
      have := n2 c1' c2'
      omega
    · have := n1 c1 c2
      rw [← emax] at c1'
      omega
    · have := n2 c1' c2'
      rw [← emax] at c1'
      omega
    · rw [c1, c1', emax]
  subst hkk
  have hle : j ≤ qp.options.maxit.toNat := by rcases h5 with ⟨c1, _⟩ | ⟨c1, _⟩ <;> omega
  have hk0 := all j _ _ hle hk.its hk'.its
  have key : SameMoved pb pb' T U v k r r' := by
    rcases h5 with ⟨c1, c2⟩ | ⟨c1, c2⟩ <;> rcases h5' with ⟨c1', c2'⟩ | ⟨c1', c2'⟩
    · exact (brk_moved R h h' hsym (hr.iterations hk.its) (hr'.iterations hk'.its) hk0 c2 c2').2 rfl
    · rw [← emax] at c1'; omega
    · rw [← emax] at c1'; omega
    · rw [c2, c2']; exact hk0
  have ec := key.stats
  simp only [Stats.mk.injEq, and_true] at ec
  have e1 : q1.stats.Flag = q1'.stats.Flag ∧ SameMoved pb pb' T U v k q1 q1' := by
    rw [h6, h6', key.options]
    rw [ec.1]
    split
    · obtain ⟨x, y, z, s, w1, w2⟩ := key.iter
      refine ⟨rfl, rfl, ⟨x, y, z, s, ⟨w1.x, w1.y, w1.z, w1.s⟩, ⟨w2.x, w2.y, w2.z, w2.s⟩⟩, ?_, key.fval⟩
      obtain ⟨c1, c2, c3, c4, c5, c6, c7, c8⟩ := ec
      simp only [Stats.mk.injEq]
      exact ⟨c1, c2, c3, c4, c5, c6, c7, trivial, trivial, trivial, trivial⟩
    · exact ⟨ec.2.2.2.2.2.2.2.2, key⟩
  exact ⟨by rw [hk.ret, hk'.ret]; exact e1.1, e1.2⟩

/-- **C83.** A run on a problem (`P` symmetric) and a run with the same options on the problem
written in other orthogonal coordinates, with any two orderings, in which every factorisation is
exact, give the same exit code, the same slacks and multipliers, corresponding points, and the same
statistics except that objective values differ by that of the origin of the new coordinates. -/
theorem C83_moved {amd amd' : Amd} {a a' : SetupArgs K} {q0 q0' q1 q1' : QP K} {fl fl' : Int}
    (R : pb.InCoords pb' T U v k) (h : Started amd a pb q0) (h' : Started amd' a' pb' q0')
    (hsym : pb.P.Symm) (o : Settings K) (hs : QP_SOLVE { q0 with options := o } = .ok (fl, q1))
    (hs' : QP_SOLVE { q0' with options := o } = .ok (fl', q1'))
    (hex0 : q0.kkt.Exact pb.N) (hex0' : q0'.kkt.Exact pb'.N)
    (hex : ∀ (j : Nat) qk, (j : Int) < o.maxit → Iterations (j + 1) { q0 with options := o } qk →
      qk.kkt.Exact pb.N)
    (hex' : ∀ (j : Nat) qk, (j : Int) < o.maxit → Iterations (j + 1) { q0' with options := o } qk →
      qk.kkt.Exact pb'.N) :
    fl = fl' ∧ SameMoved pb pb' T U v k q1 q1' := by
  have h0 := start_moved R h h' hsym hex0 hex0'
  obtain ⟨x, y, z, s, w1, w2⟩ := h0.iter
  refine solve_moved R h h' hsym (.options o .start) (.options o .start)
    ⟨rfl, ⟨x, y, z, s, ⟨w1.x, w1.y, w1.z, w1.s⟩, ⟨w2.x, w2.y, w2.z, w2.s⟩⟩, h0.stats, h0.fval⟩
    hs hs' ?_
  intro j qk qk' r r' hj i1 i2 _ b1 b2
  exact ⟨hex j r hj (i1.succ b1), hex' j r' hj (i2.succ b2)⟩

theorem Problem.InCoords.strong (R : pb.InCoords pb' T U v k) {eps : K} (h : pb.Strong eps) :
    pb'.Strong eps := by
  intro w
  rw [R.n]
  have e1 : dot pb.n w (pb'.P.mulVec w)
      = dot pb.n (mulMat pb.n T w) (pb.P.mulVec (mulMat pb.n T w)) := by
    rw [dot_mulMat]
    exact sum_congr rfl fun i hi => by rw [R.mulP w (mem_range.mp hi)]
  have e2 : dot pb.n w w = dot pb.n (mulMat pb.n T w) (mulMat pb.n T w) := by
    rw [dot_mulMat]
    exact sum_congr rfl fun i hi => by rw [R.orthT.tmul_mul w (mem_range.mp hi)]
  rw [e1, e2]
  exact h _

/-- **C83** for strongly convex problems without equality constraints: it is enough that the first
run visits only points whose ratios of slack to multiplier exceed `1e-14`. -/
theorem C83_strongly_convex {amd amd' : Amd} {a a' : SetupArgs K} {q0 q0' q1 q1' : QP K}
    {fl fl' : Int} (R : pb.InCoords pb' T U v k) (h : Started amd a pb q0)
    (h' : Started amd' a' pb' q0') (hsym : pb.P.Symm) {eps : K} (heps : 1 / 10 ^ 14 < eps)
    (hP : pb.Strong eps) (hp0 : pb.p = 0) (o : Settings K)
    (hs : QP_SOLVE { q0 with options := o } = .ok (fl, q1))
    (hs' : QP_SOLVE { q0' with options := o } = .ok (fl', q1'))
    (hsz : ∀ (j : Nat) qk x y z s, (j : Int) < o.maxit → Iterations j { q0 with options := o } qk →
      qk.Iter pb x y z s → ∀ i, i < pb.m → 1 / 10 ^ 14 < s i / z i) :
    fl = fl' ∧ SameMoved pb pb' T U v k q1 q1' := by
  have hp0' : pb'.p = 0 := by rw [R.p, hp0]
  have h0 := start_moved R h h' hsym (C55_exact_setup h hsym heps hP hp0)
    (C55_exact_setup h' (R.symm hsym) heps (R.strong hP) hp0')
  obtain ⟨x, y, z, s, w1, w2⟩ := h0.iter
  refine solve_moved R h h' hsym (.options o .start) (.options o .start)
    ⟨rfl, ⟨x, y, z, s, ⟨w1.x, w1.y, w1.z, w1.s⟩, ⟨w2.x, w2.y, w2.z, w2.s⟩⟩, h0.stats, h0.fval⟩
    hs hs' ?_
  intro j qk qk' r r' hj i1 i2 hsame b1 b2
  obtain ⟨x, y, z, s, w1, w2⟩ := hsame.iter
  have hr := hsz j qk _ _ _ _ hj i1 w1
  have hr' : ∀ i, i < pb'.m → 1 / 10 ^ 14 < s i / z i := by
    obtain ⟨k', hk⟩ := R.ineqs
    intro i hi
    rw [R.m] at hi
    have := hr (k' i) (hk.q_lt i hi)
    rwa [hk.pq i hi] at this
  have r1 : Reach q0 { q0 with options := o } := .options o .start
  have r2 : Reach q0' { q0' with options := o } := .options o .start
  exact ⟨C55_exact_step h hsym heps hP hp0 (r1.iterations i1) b1 w1 hr,
    C55_exact_step h' (R.symm hsym) heps (R.strong hP) hp0' (r2.iterations i2) b2 w2 hr'⟩

end

end

/-- `min x²/2` subject to `x ≤ 2`, `-x ≤ 1` in the variable `x'` with `x = 1 - x'`. -/
noncomputable def flipPb : Problem ℝ where
  P := .lit 1 1 [0, 1] [0] [1]
  A := Csc.empty 1
  G := .lit 2 1 [0, 2] [0, 1] [-1, 1]
  c := fun _ => -1
  b := fun _ => 0
  h := fun i => if i = 0 then 1 else 2
  sigma_d := 0

theorem flipPb_wf : flipPb.WF where
  P := by
    refine ⟨rfl, ?_, ?_⟩
    · intro c hc; simp only [flipPb, Csc.lit] at hc ⊢; interval_cases c; decide
    · intro k hk
      have hk : k < 1 := hk
      interval_cases k; exact Nat.zero_lt_one
  A := ⟨rfl, fun _ _ => le_rfl, fun _ hk => absurd hk (by simp [flipPb, Csc.empty])⟩
  G := by
    refine ⟨rfl, ?_, ?_⟩
    · intro c hc; simp only [flipPb, Csc.lit] at hc ⊢; interval_cases c; decide
    · intro k hk
      have hk : k < 2 := hk
      interval_cases k <;> simp [flipPb, Csc.lit]
  Pm := rfl
  An := rfl
  Gn := rfl
  rows := by
    intro r hr
    have hr : r < 2 := hr
    interval_cases r
    · exact ⟨0, by simp [flipPb, Csc.lit], rfl⟩
    · exact ⟨1, by simp [flipPb, Csc.lit], rfl⟩
  m_pos := by simp [flipPb, Csc.lit]

theorem pair_flip : pairPb.InCoords flipPb (fun _ _ => -1) (fun _ _ => 1) (fun _ => 1) id where
  n := rfl
  p := rfl
  m := rfl
  orthT := by
    constructor <;> intro i j hi hj <;> have hi : i < 1 := hi <;> have hj : j < 1 := hj <;>
      interval_cases i <;> interval_cases j <;> simp [Problem.n, pairPb, Csc.lit]
  orthU := ⟨fun i _ hi => absurd hi (by simp [Problem.p, pairPb, Csc.empty]),
    fun i _ hi => absurd hi (by simp [Problem.p, pairPb, Csc.empty])⟩
  ineqs := ⟨id, fun i h => h, fun i h => h, fun _ _ => rfl, fun _ _ => rfl⟩
  P := by
    intro r c hr hc
    have hr : r < 1 := hr
    have hc : c < 1 := hc
    interval_cases r; interval_cases c
    simp [Problem.n, pairPb, flipPb, Csc.lit, Csc.entry]
  A := fun r c hr => absurd hr (by simp [Problem.p, pairPb, Csc.empty])
  G := by
    intro r c hr hc
    have hr : r < 2 := hr
    have hc : c < 1 := hc
    interval_cases c
    interval_cases r <;>
      simp [Problem.n, pairPb, flipPb, Csc.lit, Csc.entry, sum_range_succ]
  c := by
    intro i hi
    have hi : i < 1 := hi
    interval_cases i
    simp [tmulMat, Problem.n, pairPb, flipPb, Csc.mulVec, Csc.lit, Csc.entry]
  b := fun i hi => absurd hi (by simp [Problem.p, pairPb, Csc.empty])
  h := by
    intro i hi
    have hi : i < 2 := hi
    interval_cases i <;>
      simp [pairPb, flipPb, Csc.mulVec, Csc.lit, Csc.entry, sum_range_succ] <;> norm_num
  sigma_d := rfl

/-- C83 for the two programs: after one iteration slacks and multipliers agree, the points are
`x` and `1 - x`, and the objective values differ by one half. -/
example : ∃ (q0 q0' q1 q1' : QP ℝ) (a a' : SetupArgs ℝ) (f f' : Int) (o : Settings ℝ),
    Started failAmd a pairPb q0 ∧ Started failAmd a' flipPb q0' ∧ o.maxit = 1 ∧
    QP_SOLVE { q0 with options := o } = .ok (f, q1) ∧
    QP_SOLVE { q0' with options := o } = .ok (f', q1') ∧ f = f' ∧
    SameMoved pairPb flipPb (fun _ _ => -1) (fun _ _ => 1) (fun _ => 1) id q1 q1' ∧
    q1.stats.fval = q1'.stats.fval.map (· + 1 / 2) := by
  obtain ⟨q0, h⟩ := id_started pairPb_wf rfl
  obtain ⟨q0', h'⟩ := id_started flipPb_wf rfl
  obtain ⟨o, ho, hv⟩ : ∃ o : Settings ℝ, o.maxit = 1 ∧ o.verbose ≤ 0 :=
    ⟨{ q0.options with maxit := 1, verbose := 0 }, rfl, le_rfl⟩
  obtain ⟨_, f, q1, hq⟩ := C26_solve h (.options o .start) (Or.inl hv)
  obtain ⟨_, f', q1', hq'⟩ := C26_solve h' (.options o .start) (Or.inl hv)
  obtain ⟨e1, e2⟩ := C83_strongly_convex pair_flip h h' pairPb_symm one_gt_small pairPb_strong rfl o
    hq hq' (by
      intro k qk x y z s hk hik hit i hi
      have hk : k = 0 := by omega
      subst hk
      cases hik
      have hi : i < 2 := hi
      obtain ⟨_, s0, s1, z0, z1⟩ := pair_start h (x := x) (y := y) (z := z) (s := s)
        ⟨hit.x, hit.y, hit.z, hit.s⟩
      interval_cases i
      · rw [z0, s0]; norm_num
      · rw [z1, s1]; norm_num)
  refine ⟨q0, q0', q1, q1', _, _, f, f', o, h, h', ho, hq, hq', e1, e2, ?_⟩
  have : pairPb.obj (fun _ => 1) = 1 / 2 := by
    simp [Problem.obj, dot, Problem.n, pairPb, Csc.mulVec, Csc.lit, Csc.entry]
  rw [e2.fval, this]

end Verif
