import Verif.Lemmas.Loops
import Verif.Spec

/-! # Refinement lemmas for the vector and sparse matrix-vector routines of `Auxilary.c` -/

set_option linter.unusedSectionVars false

namespace Verif

section Generic

variable {K : Type} [Zero K] [One K] [Add K] [Sub K] [Mul K] [Div K] [Neg K] [Scalar K]

theorem updatevariables_spec {x dx : Buf K} {n : Nat} {fx fd : Nat → K} {alpha : K}
    (hx : Buf.Has x n fx) (hd : Buf.Has dx n fd) :
    Spec (updatevariables x dx alpha n) (fun x' => x'.length = x.length ∧
      Buf.Has x' n (fun i => fx i + fd i * alpha) ∧ ∀ i, n ≤ i → x'[i]? = x[i]?) := by
  unfold updatevariables
  refine forI_fill hx.le_length _ ?_
  intro j b' hj hl _ h2
  have e : rd b' (j : Int) = .ok (fx j) := rd_ok (by rw [h2 j le_rfl, hx j hj])
  rw [e, hd.rd hj]
  rfl

/-- Pure inner product, in the order of operations of the code. -/
def dotF (n : Nat) (x y : Nat → K) : K := foldI 0 n (0 : K) (fun i s => s + x i * y i)

theorem innerproduct_eq {x y : Buf K} {n : Nat} {fx fy : Nat → K}
    (hx : Buf.Has x n fx) (hy : Buf.Has y n fy) :
    innerproduct x y n = .ok (dotF n fx fy) := by
  unfold innerproduct dotF
  refine forI_acc (lo := 0) (Nat.zero_le n) _ ?_
  intro j s _ hj
  rw [hx.rd hj, hy.rd hj]
  rfl

theorem norm_eq {x : Buf K} {n : Nat} {fx : Nat → K} (hx : Buf.Has x n fx) :
    norm x n = .ok (Scalar.sqrt (dotF n fx fx)) := by
  unfold norm
  have : forI 0 (n : Int) (0 : K) (fun i k => do let v ← rd x i; pure (k + v * v))
      = .ok (dotF n fx fx) := by
    refine forI_acc (lo := 0) (Nat.zero_le n) _ ?_
    intro j s _ hj
    rw [hx.rd hj]
    rfl
  rw [this]
  rfl

theorem formlambda_spec {l s z : Buf K} {m : Nat} {fs fz : Nat → K} (hl : m ≤ l.length)
    (hs : Buf.Has s m fs) (hz : Buf.Has z m fz) :
    Spec (formlambda l s z m) (fun l' => l'.length = l.length ∧
      Buf.Has l' m (fun i => Scalar.sqrt (fs i * fz i))) := by
  unfold formlambda
  refine (forI_fill hl (fun i => Scalar.sqrt (fs i * fz i)) ?_).mono (fun _ h => ⟨h.1, h.2.1⟩)
  intro j b' hj _ _ _
  rw [hs.rd hj, hz.rd hj]
  rfl

/-- The vector computed by `form_ds`. -/
def dsF (selector : Int) (l ds dz : Nat → K) (sigma mu : K) (i : Nat) : K :=
  if selector = QP_PURE_NEWTON_STEP then -(l i) * l i
  else if selector = QP_CENTERING_CORRECTOR_STEP then -(l i * l i) - ds i * dz i + sigma * mu
  else -(l i * l i) + sigma * mu

theorem form_ds_newton_spec {d l s z : Buf K} {m : Nat} {fl : Nat → K} {sigma mu : K}
    (hd : m ≤ d.length) (hl : Buf.Has l m fl) :
    Spec (form_ds d l s z sigma mu m QP_PURE_NEWTON_STEP) (fun d' => d'.length = d.length ∧
      Buf.Has d' m (fun i => -(fl i) * fl i)) := by
  unfold form_ds
  simp only [QP_PURE_NEWTON_STEP, QP_CENTERING_CORRECTOR_STEP, QP_CENTERING_STEP, if_true]
  norm_num
  have := forI_fill hd (f := fun i ds => do let l ← rd l i; wr ds i (-l * l))
    (fun i => -(fl i) * fl i) (by
      intro j b' hj _ _ _
      rw [hl.rd hj]; rfl)
  obtain ⟨a, ha, h⟩ := this
  rw [ha]
  exact ⟨a, rfl, h.1, h.2.1⟩

theorem form_ds_corrector_spec {d l s z : Buf K} {m : Nat} {fl fs fz : Nat → K} {sigma mu : K}
    (hd : m ≤ d.length) (hl : Buf.Has l m fl) (hs : Buf.Has s m fs) (hz : Buf.Has z m fz) :
    Spec (form_ds d l s z sigma mu m QP_CENTERING_CORRECTOR_STEP) (fun d' =>
      d'.length = d.length ∧
      Buf.Has d' m (fun i => -(fl i * fl i) - fs i * fz i + sigma * mu)) := by
  unfold form_ds
  simp only [QP_PURE_NEWTON_STEP, QP_CENTERING_CORRECTOR_STEP, QP_CENTERING_STEP, if_true]
  norm_num
  have := forI_fill hd (f := fun i ds => do
      let l ← rd l i; let a ← rd s i; let b ← rd z i; wr ds i (-(l * l) - a * b + sigma * mu))
    (fun i => -(fl i * fl i) - fs i * fz i + sigma * mu) (by
      intro j b' hj _ _ _
      rw [hl.rd hj, hs.rd hj, hz.rd hj]; rfl)
  obtain ⟨a, ha, h⟩ := this
  rw [ha]
  exact ⟨a, rfl, h.1, h.2.1⟩

theorem form_ds_centering_spec {d l s z : Buf K} {m : Nat} {fl : Nat → K} {sigma mu : K}
    (hd : m ≤ d.length) (hl : Buf.Has l m fl) :
    Spec (form_ds d l s z sigma mu m QP_CENTERING_STEP) (fun d' =>
      d'.length = d.length ∧ Buf.Has d' m (fun i => -(fl i * fl i) + sigma * mu)) := by
  unfold form_ds
  simp only [QP_PURE_NEWTON_STEP, QP_CENTERING_CORRECTOR_STEP, QP_CENTERING_STEP, if_true]
  norm_num
  have := forI_fill hd (f := fun i ds => do
      let l ← rd l i; wr ds i (-(l * l) + sigma * mu))
    (fun i => -(fl i * fl i) + sigma * mu) (by
      intro j b' hj _ _ _
      rw [hl.rd hj]; rfl)
  obtain ⟨a, ha, h⟩ := this
  exact ⟨a, ha, h.1, h.2.1⟩

/-- Right-hand side of the KKT system. -/
def rhsF (n p : Nat) (rx ry rz ds z : Nat → K) (i : Nat) : K :=
  if i < n then rx i
  else if i < n + p then ry (i - n)
  else rz (i - n - p) - ds (i - n - p) / z (i - n - p)

theorem updatekktmatrix_b_spec {b rx ry rz ds z : Buf K} {n m p : Nat}
    {frx fry frz fds fz : Nat → K} (hb : n + m + p ≤ b.length) (hrx : Buf.Has rx n frx)
    (hry : Buf.Has ry p fry) (hrz : Buf.Has rz m frz) (hds : Buf.Has ds m fds)
    (hz : Buf.Has z m fz) :
    Spec (updatekktmatrix_b b rx ry rz ds z n m p) (fun b' => b'.length = b.length ∧
      Buf.Has b' (n + m + p) (rhsF n p frx fry frz fds fz)) := by
  unfold updatekktmatrix_b
  refine Spec.bind (forI_fill (n := n) (by omega) frx (by
    intro j b' hj _ _ _; rw [hrx.rd hj]; rfl)) ?_
  rintro b1 ⟨h1, h2, h3⟩
  have e1 : ((n : Int) + (p : Int)) = ((n + p : Nat) : Int) := by omega
  have e2 : ((n : Int) + (m : Int) + (p : Int)) = ((n + m + p : Nat) : Int) := by omega
  rw [e1, e2]
  refine Spec.bind (forI_write (lo := n) (hi := n + p) (off := 0) (by omega) (by omega)
    (by omega) (fun j => fry (j - n)) (by
      intro j b' hj1 hj2 _ _ _
      rw [sub_cast hj1, hry.rd (by omega)]; rfl)) ?_
  rintro b2 ⟨h4, h5, h6⟩
  refine (forI_write (lo := n + p) (hi := n + m + p) (off := 0) (by omega) (by omega)
    (by omega) (fun j => frz (j - n - p) - fds (j - n - p) / fz (j - n - p)) (by
      intro j b' hj1 hj2 _ _ _
      have e3 : ((j : Int) - (n : Int) - (p : Int)) = ((j - n - p : Nat) : Int) := by omega
      rw [e3, hrz.rd (by omega), hds.rd (by omega), hz.rd (by omega)]; rfl)).mono ?_
  rintro b3 ⟨h7, h8, h9⟩
  refine ⟨by omega, ?_⟩
  intro i hi
  unfold rhsF
  by_cases c1 : i < n
  · rw [if_pos c1, h9 i (by omega), h6 i (by omega), h2 i c1]
  · rw [if_neg c1]
    by_cases c2 : i < n + p
    · rw [if_pos c2, h9 i (by omega), h5 i (by omega) (by omega)]
      rfl
    · rw [if_neg c2, h8 i (by omega) (by omega)]
      rfl

/-- Pure ratio test, state `(alpha, flag)`. -/
def ratioStep (s d : Nat → K) (i : Nat) (a : K × Int) : K × Int :=
  if Scalar.ltb (d i) 0 && Scalar.ltb (-(s i) / d i) a.1 then (-(s i / d i), 1) else a

/-- Pure version of one half of `findsteplength`. -/
def stepF (m : Nat) (s d : Nat → K) : K :=
  let r := foldI 0 m ((Scalar.dec 10000000000 0 : K), (0 : Int)) (ratioStep s d)
  if r.2 = 0 then 1 else r.1

theorem findsteplength_eq {s ds z dz : Buf K} {m : Nat} {fs fds fz fdz : Nat → K}
    (hs : Buf.Has s m fs) (hds : Buf.Has ds m fds) (hz : Buf.Has z m fz)
    (hdz : Buf.Has dz m fdz) :
    findsteplength s ds z dz m = .ok (stepF m fs fds, stepF m fz fdz) := by
  unfold findsteplength
  extract_lets st0
  generalize hbody : (fun (i : Int) (st : StepSt K) => (_ : M (StepSt K))) = body
  have key : Spec (forI 0 (m : Int) (StepSt.mk (Scalar.dec 10000000000 0 : K)
      (Scalar.dec 10000000000 0) 0 0) body)
      (fun st => (st.alpha_p, st.Flag1) =
          foldI 0 m ((Scalar.dec 10000000000 0 : K), (0 : Int)) (ratioStep fs fds) ∧
        (st.alpha_d, st.Flag2) =
          foldI 0 m ((Scalar.dec 10000000000 0 : K), (0 : Int)) (ratioStep fz fdz)) := by
    refine forI_spec (lo := 0) (hi := m) (Nat.zero_le m) (fun j (st : StepSt K) => (st.alpha_p, st.Flag1) =
          foldI 0 j ((Scalar.dec 10000000000 0 : K), (0 : Int)) (ratioStep fs fds) ∧
        (st.alpha_d, st.Flag2) =
          foldI 0 j ((Scalar.dec 10000000000 0 : K), (0 : Int)) (ratioStep fz fdz))
      ⟨rfl, rfl⟩ ?_
    rintro j st _ hj ⟨h1, h2⟩
    rw [foldI_succ (Nat.zero_le j), foldI_succ (Nat.zero_le j), ← h1, ← h2]
    simp only [← hbody]
    rw [hds.rd hj, hs.rd hj, hdz.rd hj, hz.rd hj]
    refine ⟨_, rfl, ?_, ?_⟩
    · unfold ratioStep
      dsimp only
      split <;> split <;> rfl
    · unfold ratioStep
      dsimp only
      split <;> split <;> rfl
  obtain ⟨st, h, h1, h2⟩ := key
  rw [show st0 = StepSt.mk (Scalar.dec 10000000000 0 : K) (Scalar.dec 10000000000 0) 0 0 from rfl,
    h]
  unfold stepF
  rw [← h1, ← h2]
  rfl

/-- Pure version of `formrho`. -/
def rhoF (m : Nat) (s ds z dz : Nat → K) (ap ad : K) : K :=
  foldI 0 m (0 : K) (fun i sum => sum + (s i + ap * ds i) * (z i + ad * dz i)) / dotF m s z

theorem formrho_eq {s ds z dz : Buf K} {m : Nat} {fs fds fz fdz : Nat → K} {ap ad : K}
    (hs : Buf.Has s m fs) (hds : Buf.Has ds m fds) (hz : Buf.Has z m fz)
    (hdz : Buf.Has dz m fdz) :
    formrho s ds z dz ap ad m = .ok (rhoF m fs fds fz fdz ap ad) := by
  unfold formrho rhoF
  have e := forI_acc (lo := 0) (hi := m) (Nat.zero_le m) (s := (0 : K)) (f := fun i sum => do
      let si ← rd s i
      let di ← rd ds i
      let zi ← rd z i
      let ei ← rd dz i
      pure (sum + (si + ap * di) * (zi + ad * ei)))
    (fun i sum => sum + (fs i + ap * fds i) * (fz i + ad * fdz i)) (by
      intro j s _ hj
      rw [hs.rd hj, hds.rd hj, hz.rd hj, hdz.rd hj]; rfl)
  rw [Nat.cast_zero] at e
  rw [e]
  simp only [ok_bind, innerproduct_eq hs hz]
  rfl

/-- Pure version of `findminmax`. -/
def minmaxF (m : Nat) (z : Nat → K) : K × K :=
  foldI 1 m (z 0, z 0) (fun i mm =>
    (if Scalar.ltb (z i) mm.1 then z i else mm.1, if Scalar.ltb mm.2 (z i) then z i else mm.2))

theorem findminmax_eq {z : Buf K} {m : Nat} {fz : Nat → K} (hm : 0 < m)
    (hz : Buf.Has z m fz) : findminmax z m = .ok (minmaxF m fz) := by
  unfold findminmax minmaxF
  have e : rd z 0 = .ok (fz 0) := hz.rd (i := 0) hm
  rw [e]
  simp only [ok_bind]
  refine forI_acc (lo := 1) (hi := m) (by omega) _ ?_
  intro j s _ hj
  rw [hz.rd hj]
  rfl

/-! ## Sparse matrix-vector products -/

/-- Pure version of `SparseMatrixMultiply` (without the initialisation). -/
def smmF (A : Csc K) (x y : Nat → K) : Nat → K :=
  foldI 0 A.n y (fun c y => foldI (A.jc c) (A.jc (c + 1)) y
    (fun k y => Function.update y (A.ir k) (y (A.ir k) - x c * A.pr k)))

/-- Pure version of `SparseMatrixTransMultiply` (without the initialisation). -/
def stmmF (A : Csc K) (x y : Nat → K) : Nat → K :=
  foldI 0 A.n y (fun c y => foldI (A.jc c) (A.jc (c + 1)) y
    (fun k y => Function.update y c (y c - A.pr k * x (A.ir k))))

theorem Csc.WF.le_nnz {K : Type} {A : Csc K} (h : A.WF) {c : Nat} (hc : c ≤ A.n) : A.jc c ≤ A.nnz := by
  unfold Csc.nnz
  have key : ∀ d, c + d ≤ A.n → A.jc c ≤ A.jc (c + d) := by
    intro d
    induction d with
    | zero => intro _; exact le_rfl
    | succ d ih => intro hd; exact le_trans (ih (by omega)) (h.mono (c + d) (by omega))
  have := key (A.n - c) (by omega)
  rwa [show c + (A.n - c) = A.n by omega] at this

theorem Csc.WF.jc_mono {K : Type} {A : Csc K} (h : A.WF) {c d : Nat} (hcd : c ≤ d) (hd : d ≤ A.n) :
    A.jc c ≤ A.jc d := by
  induction d, hcd using Nat.le_induction with
  | base => exact le_rfl
  | succ d hd' ih => exact le_trans (ih (by omega)) (h.mono d (by omega))

/-- Initialisation `y[0..n) = 0` when `start ≠ 0`. -/
theorem start_spec {y : Buf K} {n : Nat} {start : Int} {fy : Nat → K} (hl : n ≤ y.length)
    (hy : start = 0 → Buf.Has y n fy) :
    Spec (if start ≠ 0 then forI 0 (n : Int) y (fun i y => wr y i 0) else pure y)
      (fun y' => y'.length = y.length ∧ Buf.Has y' n (if start = 0 then fy else fun _ => 0) ∧
        ∀ i, n ≤ i → y'[i]? = y[i]?) := by
  by_cases h : start = 0
  · simp only [h, ne_eq, not_true_eq_false, if_false, if_true]
    exact Spec.pure ⟨rfl, hy h, fun _ _ => rfl⟩
  · simp only [ne_eq, h, not_false_eq_true, if_true, if_false]
    exact forI_fill hl (fun _ => 0) (fun _ _ _ _ _ _ => rfl)

theorem SparseMatrixMultiply_spec {S : Smat K} {A : Csc K} (hS : S.Is A) (hA : A.WF)
    {x y : Buf K} {fx fy : Nat → K} {start : Int} (hx : Buf.Has x A.n fx)
    (hl : A.m ≤ y.length) (hy : start = 0 → Buf.Has y A.m fy) :
    Spec (SparseMatrixMultiply S x y start) (fun y' => y'.length = y.length ∧
      Buf.Has y' A.m (smmF A fx (if start = 0 then fy else fun _ => 0)) ∧
      ∀ i, A.m ≤ i → y'[i]? = y[i]?) := by
  unfold SparseMatrixMultiply
  rw [hS.m, hS.n]
  refine Spec.bind (start_spec hl hy) ?_
  rintro y0 ⟨hl0, hy0, hf0⟩
  unfold smmF
  set R : Nat → Buf K → (Nat → K) → Prop := fun _ y' f => y'.length = y.length ∧
    Buf.Has y' A.m f ∧ ∀ i, A.m ≤ i → y'[i]? = y[i]? with hR
  refine (forI_refine (lo := 0) (hi := A.n) (Nat.zero_le _) R ⟨hl0, hy0, hf0⟩ ?_)
  intro c yb f _ hc hRc
  have e : ((c : Int) + 1) = ((c + 1 : Nat) : Int) := by omega
  rw [hS.jc.rd (i := c) (by omega), ok_bind, e, hS.jc.rd (i := c + 1) (by omega), ok_bind]
  refine (forI_refine (lo := A.jc c) (hi := A.jc (c + 1)) (hA.mono c hc) R hRc ?_)
  rintro k yb f hk1 hk2 ⟨h1, h2, h3⟩
  have hk : k < A.nnz := lt_of_lt_of_le hk2 (hA.le_nnz (by omega))
  have hr : A.ir k < A.m := hA.ir_lt k hk
  rw [hS.ir.rd hk, ok_bind, h2.rd hr, ok_bind, hx.rd hc, ok_bind, hS.pr.rd hk, ok_bind,
    wr_ok (by omega)]
  refine Spec.ok ⟨by simp [h1], h2.set (by omega) _, ?_⟩
  intro i hi
  rw [List.getElem?_set, if_neg (by omega)]
  exact h3 i hi

theorem SparseMatrixTransMultiply_spec {S : Smat K} {A : Csc K} (hS : S.Is A) (hA : A.WF)
    {x y : Buf K} {fx fy : Nat → K} {start : Int} (hx : Buf.Has x A.m fx)
    (hl : A.n ≤ y.length) (hy : start = 0 → Buf.Has y A.n fy) :
    Spec (SparseMatrixTransMultiply S x y start) (fun y' => y'.length = y.length ∧
      Buf.Has y' A.n (stmmF A fx (if start = 0 then fy else fun _ => 0)) ∧
      ∀ i, A.n ≤ i → y'[i]? = y[i]?) := by
  unfold SparseMatrixTransMultiply
  rw [hS.n]
  refine Spec.bind (start_spec hl hy) ?_
  rintro y0 ⟨hl0, hy0, hf0⟩
  unfold stmmF
  set R : Nat → Buf K → (Nat → K) → Prop := fun _ y' f => y'.length = y.length ∧
    Buf.Has y' A.n f ∧ ∀ i, A.n ≤ i → y'[i]? = y[i]? with hR
  refine (forI_refine (lo := 0) (hi := A.n) (Nat.zero_le _) R ⟨hl0, hy0, hf0⟩ ?_)
  intro c yb f _ hc hRc
  have e : ((c : Int) + 1) = ((c + 1 : Nat) : Int) := by omega
  rw [hS.jc.rd (i := c) (by omega), ok_bind, e, hS.jc.rd (i := c + 1) (by omega), ok_bind]
  refine (forI_refine (lo := A.jc c) (hi := A.jc (c + 1)) (hA.mono c hc) R hRc ?_)
  rintro k yb f hk1 hk2 ⟨h1, h2, h3⟩
  have hk : k < A.nnz := lt_of_lt_of_le hk2 (hA.le_nnz (by omega))
  have hr : A.ir k < A.m := hA.ir_lt k hk
  rw [h2.rd hc, ok_bind, hS.pr.rd hk, ok_bind, hS.ir.rd hk, ok_bind, hx.rd hr, ok_bind,
    wr_ok (by omega)]
  refine Spec.ok ⟨by simp [h1], h2.set (by omega) _, ?_⟩
  intro i hi
  rw [List.getElem?_set, if_neg (by omega)]
  exact h3 i hi

/-- Pure version of `obj_value`. -/
def objF (P : Csc K) (c x : Nat → K) : K :=
  -(Scalar.dec 5 1) * dotF P.n (smmF P x (fun _ => 0)) x + dotF P.n c x

theorem obj_value_spec {S : Smat K} {P : Csc K} (hS : S.Is P) (hP : P.WF) (hsq : P.m = P.n)
    {c x t : Buf K} {fc fx : Nat → K} (hc : Buf.Has c P.n fc) (hx : Buf.Has x P.n fx)
    (ht : P.n ≤ t.length) :
    Spec (obj_value S c x t) (fun r => r.1 = objF P fc fx ∧ r.2.length = t.length) := by
  unfold obj_value
  refine Spec.bind (SparseMatrixMultiply_spec hS hP (start := 1) (fy := fx) hx (by omega)
    (by simp)) ?_
  rintro t' ⟨h1, h2, _⟩
  rw [hsq] at h2
  simp only [one_ne_zero, if_false] at h2
  rw [hS.n, innerproduct_eq h2 hx, innerproduct_eq hc hx]
  exact ⟨_, rfl, rfl, h1⟩

end Generic

/-! ## Exact arithmetic -/

section Exact

open Finset

theorem foldI_add_eq_sum {K : Type} [AddCommMonoid K] (n : Nat) (a : K) (f : Nat → K) :
    foldI 0 n a (fun i s => s + f i) = a + ∑ i ∈ range n, f i := by
  induction n with
  | zero => simp
  | succ n ih => rw [foldI_succ (Nat.zero_le n), ih, sum_range_succ, add_assoc]

theorem dotF_eq {K : Type} [NonUnitalNonAssocSemiring K] (n : Nat) (x y : Nat → K) :
    dotF n x y = dot n x y := by
  unfold dotF dot
  rw [foldI_add_eq_sum, zero_add]

variable {K : Type} [CommRing K]

theorem smm_col {lo hi : Nat} (hle : lo ≤ hi) (ir : Nat → Nat) (v : Nat → K) (y : Nat → K)
    (r : Nat) :
    foldI lo hi y (fun k y => Function.update y (ir k) (y (ir k) - v k)) r
      = y r - ∑ k ∈ Ico lo hi, if ir k = r then v k else 0 := by
  induction hi, hle using Nat.le_induction with
  | base => simp
  | succ n hn ih =>
    rw [foldI_succ hn, sum_Ico_succ_top hn]
    by_cases e : ir n = r
    · subst e
      rw [Function.update_self, ih]
      simp only [if_true]
      ring
    · rw [Function.update_of_ne (Ne.symm e), ih]
      simp [e]

theorem smmF_eq {A : Csc K} (hA : A.WF) (x y : Nat → K) (r : Nat) :
    smmF A x y r = y r - A.mulVec x r := by
  unfold smmF Csc.mulVec
  have key : ∀ n, n ≤ A.n → foldI 0 n y (fun c y => foldI (A.jc c) (A.jc (c + 1)) y
      (fun k y => Function.update y (A.ir k) (y (A.ir k) - x c * A.pr k))) r
      = y r - ∑ c ∈ range n, A.entry r c * x c := by
    intro n
    induction n with
    | zero => intro _; simp
    | succ n ih =>
      intro hn
      rw [foldI_succ (Nat.zero_le n), smm_col (hA.mono n (by omega)), ih (by omega),
        sum_range_succ]
      unfold Csc.entry
      rw [sum_mul]
      rw [sub_sub]
      congr 2
      refine sum_congr rfl fun k _ => ?_
      split
      · ring
      · ring
  exact key A.n le_rfl

theorem stmm_col {lo hi : Nat} (hle : lo ≤ hi) (v : Nat → K) (y : Nat → K) (c r : Nat) :
    foldI lo hi y (fun k y => Function.update y c (y c - v k)) r
      = if r = c then y r - ∑ k ∈ Ico lo hi, v k else y r := by
  induction hi, hle using Nat.le_induction with
  | base => simp
  | succ n hn ih =>
    rw [foldI_succ hn, sum_Ico_succ_top hn]
    by_cases e : r = c
    · subst e
      rw [Function.update_self, ih]
      simp only [if_true]
      ring
    · rw [Function.update_of_ne e, ih]
      simp [e]

theorem sum_rows_entry {A : Csc K} (hA : A.WF) {c : Nat} (hc : c < A.n) (z : Nat → K) :
    ∑ r ∈ range A.m, A.entry r c * z r
      = ∑ k ∈ Ico (A.jc c) (A.jc (c + 1)), A.pr k * z (A.ir k) := by
  unfold Csc.entry
  simp only [sum_mul]
  rw [sum_comm]
  refine sum_congr rfl fun k hk => ?_
  rw [mem_Ico] at hk
  have hr : A.ir k < A.m := hA.ir_lt k (lt_of_lt_of_le hk.2 (hA.le_nnz (by omega)))
  rw [sum_eq_single (A.ir k)]
  · simp
  · intro b _ hb
    rw [if_neg (Ne.symm hb), zero_mul]
  · intro h
    exact absurd (mem_range.mpr hr) h

theorem stmmF_eq {A : Csc K} (hA : A.WF) (z y : Nat → K) {c : Nat} (hc : c < A.n) :
    stmmF A z y c = y c - A.tmulVec z c := by
  unfold stmmF Csc.tmulVec
  have key : ∀ n, n ≤ A.n → foldI 0 n y (fun c y => foldI (A.jc c) (A.jc (c + 1)) y
      (fun k y => Function.update y c (y c - A.pr k * z (A.ir k)))) c
      = if c < n then y c - ∑ k ∈ Ico (A.jc c) (A.jc (c + 1)), A.pr k * z (A.ir k) else y c := by
    intro n
    induction n with
    | zero => intro _; simp
    | succ n ih =>
      intro hn
      rw [foldI_succ (Nat.zero_le n), stmm_col (hA.mono n (by omega)), ih (by omega)]
      by_cases e : c = n
      · subst e; simp
      · by_cases e2 : c < n
        · rw [if_neg e, if_pos e2, if_pos (by omega)]
        · rw [if_neg e, if_neg e2, if_neg (by omega)]
  rw [key A.n le_rfl, if_pos hc, sum_rows_entry hA hc]

end Exact

end Verif
