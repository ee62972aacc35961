import Verif.Props.DoubleRun

/-!
# Data that are not finite are never reported as solved (C77)
-/

set_option linter.unusedSectionVars false

namespace Verif

open Finset Ieee

section

variable {K : Type} [Zero K] [One K] [Add K] [Sub K] [Mul K] [Div K] [Neg K] [Scalar K] [Ieee K]

/-! ## Specification -/

/-- No stored number of the problem is infinite or NaN. -/
structure Problem.Finite (pb : Problem K) : Prop where
  P : ∀ k, k < pb.P.nnz → fin (pb.P.pr k)
  A : ∀ k, k < pb.A.nnz → fin (pb.A.pr k)
  G : ∀ k, k < pb.G.nnz → fin (pb.G.pr k)
  c : ∀ i, i < pb.n → fin (pb.c i)
  b : ∀ i, i < pb.p → fin (pb.b i)
  h : ∀ i, i < pb.m → fin (pb.h i)

/-- Column `j` has a stored entry. -/
def Csc.UsesCol (A : Csc K) (j : Nat) : Prop := A.jc j < A.jc (j + 1)

/-- Row `i` has a stored entry. -/
def Csc.UsesRow (A : Csc K) (i : Nat) : Prop := ∃ k, k < A.nnz ∧ A.ir k = i

/-! ## Proofs -/

theorem smm_col_fin {lo hi : Nat} (hle : lo ≤ hi) (ir : Nat → Nat) (x : K) (pr : Nat → K)
    (y : Nat → K) (r : Nat)
    (h : fin (foldI lo hi y (fun k y => Function.update y (ir k) (y (ir k) - x * pr k)) r)) :
    fin (y r) ∧ ∀ k, lo ≤ k → k < hi → ir k = r → fin x ∧ fin (pr k) := by
  induction hi, hle using Nat.le_induction with
  | base =>
    rw [foldI_self] at h
    exact ⟨h, fun k h1 h2 => by omega⟩
  | succ n hn ih =>
    rw [foldI_succ hn] at h
    by_cases e : ir n = r
    · rw [e, Function.update_self] at h
      obtain ⟨h1, h2, _⟩ := Ieee.sub _ _ h
      obtain ⟨h3, h4, _⟩ := Ieee.mul _ _ h2
      obtain ⟨i1, i2⟩ := ih h1
      refine ⟨i1, fun k h5 h6 h7 => ?_⟩
      rcases Nat.lt_succ_iff_lt_or_eq.mp h6 with h8 | rfl
      · exact i2 k h5 h8 h7
      · exact ⟨h3, h4⟩
    · rw [Function.update_of_ne (Ne.symm e)] at h
      obtain ⟨i1, i2⟩ := ih h
      refine ⟨i1, fun k h5 h6 h7 => ?_⟩
      rcases Nat.lt_succ_iff_lt_or_eq.mp h6 with h8 | rfl
      · exact i2 k h5 h8 h7
      · exact absurd h7 e

theorem smm_fin {A : Csc K} (hA : A.WF) {x y : Nat → K} {r : Nat} (h : fin (smmF A x y r)) :
    fin (y r) ∧ ∀ c, c < A.n → ∀ k, A.jc c ≤ k → k < A.jc (c + 1) → A.ir k = r →
      fin (x c) ∧ fin (A.pr k) := by
  unfold smmF at h
  have key : ∀ n, n ≤ A.n → fin (foldI 0 n y (fun c y => foldI (A.jc c) (A.jc (c + 1)) y
      (fun k y => Function.update y (A.ir k) (y (A.ir k) - x c * A.pr k))) r) →
      fin (y r) ∧ ∀ c, c < n → ∀ k, A.jc c ≤ k → k < A.jc (c + 1) → A.ir k = r →
        fin (x c) ∧ fin (A.pr k) := by
    intro n
    induction n with
    | zero => intro _ h; exact ⟨by simpa using h, fun c hc => by omega⟩
    | succ n ih =>
      intro hn h
      rw [foldI_succ (Nat.zero_le n)] at h
      obtain ⟨h1, h2⟩ := smm_col_fin (hA.mono n (by omega)) A.ir (x n) A.pr _ r h
      obtain ⟨i1, i2⟩ := ih (by omega) h1
      refine ⟨i1, fun c hc => ?_⟩
      rcases Nat.lt_succ_iff_lt_or_eq.mp hc with h8 | rfl
      · exact i2 c h8
      · exact h2
  exact key A.n le_rfl h

theorem stmm_col_fin {lo hi : Nat} (hle : lo ≤ hi) (ir : Nat → Nat) (x : Nat → K) (pr : Nat → K)
    (y : Nat → K) (c : Nat)
    (h : fin (foldI lo hi y (fun k y => Function.update y c (y c - pr k * x (ir k))) c)) :
    fin (y c) ∧ ∀ k, lo ≤ k → k < hi → fin (pr k) ∧ fin (x (ir k)) := by
  induction hi, hle using Nat.le_induction with
  | base =>
    rw [foldI_self] at h
    exact ⟨h, fun k h1 h2 => by omega⟩
  | succ n hn ih =>
    rw [foldI_succ hn, Function.update_self] at h
    obtain ⟨h1, h2, _⟩ := Ieee.sub _ _ h
    obtain ⟨h3, h4, _⟩ := Ieee.mul _ _ h2
    obtain ⟨i1, i2⟩ := ih h1
    refine ⟨i1, fun k h5 h6 => ?_⟩
    rcases Nat.lt_succ_iff_lt_or_eq.mp h6 with h8 | rfl
    · exact i2 k h5 h8
    · exact ⟨h3, h4⟩

theorem stmm_fin {A : Csc K} (hA : A.WF) {z y : Nat → K} {c : Nat} (hc : c < A.n)
    (h : fin (stmmF A z y c)) :
    fin (y c) ∧ ∀ k, A.jc c ≤ k → k < A.jc (c + 1) → fin (A.pr k) ∧ fin (z (A.ir k)) := by
  unfold stmmF at h
  have key : ∀ n, n ≤ A.n →
      (n ≤ c → foldI 0 n y (fun c y => foldI (A.jc c) (A.jc (c + 1)) y
        (fun k y => Function.update y c (y c - A.pr k * z (A.ir k)))) c = y c) ∧
      (c < n → fin (foldI 0 n y (fun c y => foldI (A.jc c) (A.jc (c + 1)) y
        (fun k y => Function.update y c (y c - A.pr k * z (A.ir k)))) c) →
        fin (y c) ∧ ∀ k, A.jc c ≤ k → k < A.jc (c + 1) → fin (A.pr k) ∧ fin (z (A.ir k))) := by
    intro n
    induction n with
    | zero => intro _; exact ⟨fun _ => by simp, fun h => absurd h (Nat.not_lt_zero _)⟩
    | succ n ih =>
      intro hn
      obtain ⟨i1, i2⟩ := ih (by omega)
      have hm := hA.mono n (by omega)
      constructor
      · intro hle
        rw [foldI_succ (Nat.zero_le n), foldI_update_of_ne hm
          (fun k y => y n - A.pr k * z (A.ir k)) _ (by omega : c ≠ n)]
        exact i1 (by omega)
      · intro hlt
        rw [foldI_succ (Nat.zero_le n)]
        by_cases e1 : c = n
        · subst e1
          intro hf
          have := stmm_col_fin hm A.ir z A.pr _ c hf
          rwa [i1 le_rfl] at this
        · rw [foldI_update_of_ne hm (fun k y => y n - A.pr k * z (A.ir k)) _ e1]
          exact i2 (by omega)
  exact (key A.n le_rfl).2 hc h

theorem fin_nrmF {n : Nat} {f : Nat → K} (h : fin (nrmF n f)) : ∀ i, i < n → fin (f i) :=
  fun i hi => (fin_dotF (Ieee.sqrt _ h).1 i hi).1

/-! ## C77 -/

/-- **C77**: if a solve returns 0 (its flag was not 0 before, and the tolerance is finite), then no
number of the problem is infinite or NaN, and neither are the slacks and the multipliers of the
inequalities; a multiplier of an equality is finite if its row of `A` has a stored entry, a variable
if it has a stored entry in some column. -/
theorem C77_exit_zero {amd : Amd} {a : SetupArgs K} {pb : Problem K} {q0 qp qp' : QP K}
    (h : Started amd a pb q0) (hr : Reach q0 qp) (hf : qp.stats.Flag ≠ 0)
    (hs : QP_SOLVE qp = .ok (0, qp'))
    (htol : fin (qp.options.reltol / Scalar.sqrt (Scalar.dec 3 0))) :
    pb.Finite ∧ ∃ x y z s, qp'.Iter pb x y z s ∧ (∀ i, i < pb.m → fin (s i) ∧ fin (z i)) ∧
      (∀ i, i < pb.p → pb.A.UsesRow i → fin (y i)) ∧
      ∀ j, j < pb.n → (pb.P.UsesCol j ∨ pb.A.UsesCol j ∨ pb.G.UsesCol j) → fin (x j) := by
  obtain ⟨p, q, hinv, _⟩ := h.sinv hr
  obtain ⟨x, y, z, s, hi, he⟩ := (settled_of_zero h.wf hinv hf hs).opt
  obtain ⟨o1, o2⟩ := solve_tolerances h hr hs
  unfold exitF at he
  simp only [o1, o2] at he
  set tol := qp.options.reltol / Scalar.sqrt (Scalar.dec 3 0)
  have hall : Scalar.ltb (nrmF pb.n (rxF pb x y z)) tol = true ∧
      Scalar.ltb (nrmF pb.m (rzF pb x s)) tol = true ∧
      (pb.p ≠ 0 → Scalar.ltb (nrmF pb.p (ryF pb x)) tol = true) := by
    by_cases hp : pb.p = 0
    · rw [if_pos hp] at he
      simp only [Bool.and_eq_true] at he
      exact ⟨he.1.1, he.1.2, fun h => absurd hp h⟩
    · rw [if_neg hp] at he
      simp only [Bool.and_eq_true] at he
      exact ⟨he.1.1.1, he.1.1.2, fun _ => he.1.2⟩
  obtain ⟨e1, e2, e3⟩ := hall
  have fx := fin_nrmF (Ieee.sqrt_ltb _ _ htol e1)
  have fz := fin_nrmF (Ieee.sqrt_ltb _ _ htol e2)
  have fy : ∀ i, i < pb.p → fin (ryF pb x i) := fun i hi =>
    fin_nrmF (Ieee.sqrt_ltb _ _ htol (e3 (by omega))) i hi
  have hw := h.wf
  have nP : pb.P.n = pb.n := rfl
  -- the sums, row by row
  have gx : ∀ i, i < pb.n → fin (pb.c i) ∧
      (∀ k, pb.A.jc i ≤ k → k < pb.A.jc (i + 1) → fin (pb.A.pr k) ∧ fin (y (pb.A.ir k))) ∧
      (∀ k, pb.G.jc i ≤ k → k < pb.G.jc (i + 1) → fin (pb.G.pr k) ∧ fin (z (pb.G.ir k))) ∧
      ∀ c, c < pb.n → ∀ k, pb.P.jc c ≤ k → k < pb.P.jc (c + 1) → pb.P.ir k = i →
        fin (x c) ∧ fin (pb.P.pr k) := by
    intro i hi
    have := fx i hi
    unfold rxF at this
    obtain ⟨a1, a2, _⟩ := Ieee.add _ _ this
    obtain ⟨a3, a4⟩ := stmm_fin hw.A (show i < pb.A.n by rw [hw.An]; exact hi) a1
    obtain ⟨a5, a6⟩ := stmm_fin hw.G (show i < pb.G.n by rw [hw.Gn]; exact hi) a3
    exact ⟨(Ieee.mul _ _ a2).1, a4, a6, (smm_fin hw.P a5).2⟩
  have gy : ∀ i, i < pb.p → fin (pb.b i) ∧
      ∀ c, c < pb.n → ∀ k, pb.A.jc c ≤ k → k < pb.A.jc (c + 1) → pb.A.ir k = i →
        fin (x c) ∧ fin (pb.A.pr k) := by
    intro i hi
    have := fy i hi
    unfold ryF at this
    obtain ⟨a1, a2, _⟩ := Ieee.add _ _ this
    refine ⟨(Ieee.mul _ _ a2).1, ?_⟩
    have := (smm_fin hw.A a1).2
    rwa [hw.An] at this
  have gz : ∀ i, i < pb.m → fin (pb.h i) ∧ fin (s i) ∧
      ∀ c, c < pb.n → ∀ k, pb.G.jc c ≤ k → k < pb.G.jc (c + 1) → pb.G.ir k = i →
        fin (x c) ∧ fin (pb.G.pr k) := by
    intro i hi
    have := fz i hi
    unfold rzF at this
    obtain ⟨a1, a2, _⟩ := Ieee.add _ _ this
    obtain ⟨a3, a4, _⟩ := Ieee.sub _ _ a2
    refine ⟨a3, a4, ?_⟩
    have := (smm_fin hw.G a1).2
    rwa [hw.Gn] at this
  refine ⟨⟨?_, ?_, ?_, fun i hi => (gx i hi).1, fun i hi => (gy i hi).1, fun i hi => (gz i hi).1⟩,
    x, y, z, s, hi, fun i hi => ⟨(gz i hi).2.1, ?_⟩, ?_, ?_⟩
  · intro k hk
    obtain ⟨c, hc, h1, h2⟩ := hw.P.exists_col hk
    exact ((gx (pb.P.ir k) (by have := hw.P.ir_lt k hk; rw [hw.Pm] at this; exact this)).2.2.2
      c hc k h1 h2 rfl).2
  · intro k hk
    obtain ⟨c, hc, h1, h2⟩ := hw.A.exists_col hk
    exact ((gx c (by rw [hw.An] at hc; exact hc)).2.1 k h1 h2).1
  · intro k hk
    obtain ⟨c, hc, h1, h2⟩ := hw.G.exists_col hk
    exact ((gx c (by rw [hw.Gn] at hc; exact hc)).2.2.1 k h1 h2).1
  · obtain ⟨k, hk, e⟩ := hw.rows i hi
    obtain ⟨c, hc, h1, h2⟩ := hw.G.exists_col hk
    have := ((gx c (by rw [hw.Gn] at hc; exact hc)).2.2.1 k h1 h2).2
    rwa [e] at this
  · rintro i _ ⟨k, hk, e⟩
    obtain ⟨c, hc, h1, h2⟩ := hw.A.exists_col hk
    have := ((gx c (by rw [hw.An] at hc; exact hc)).2.1 k h1 h2).2
    rwa [e] at this
  · rintro j hj (h1 | h1 | h1)
    · have hk : pb.P.jc j < pb.P.nnz := lt_of_lt_of_le h1 (hw.P.le_nnz (c := j + 1) hj)
      exact ((gx (pb.P.ir (pb.P.jc j))
        (by have := hw.P.ir_lt _ hk; rw [hw.Pm] at this; exact this)).2.2.2 j hj _ le_rfl h1 rfl).1
    · have hk : pb.A.jc j < pb.A.nnz :=
        lt_of_lt_of_le h1 (hw.A.le_nnz (c := j + 1) (by rw [hw.An]; exact hj))
      exact ((gy (pb.A.ir (pb.A.jc j)) (hw.A.ir_lt _ hk)).2 j hj _ le_rfl h1 rfl).1
    · have hk : pb.G.jc j < pb.G.nnz :=
        lt_of_lt_of_le h1 (hw.G.le_nnz (c := j + 1) (by rw [hw.Gn]; exact hj))
      exact ((gz (pb.G.ir (pb.G.jc j)) (hw.G.ir_lt _ hk)).2.2 j hj _ le_rfl h1 rfl).1

/-- **C77**, first solve: with an infinite number or NaN anywhere in the data and a finite tolerance,
the first solve runs to the iteration limit and returns 2. -/
theorem C77_first_solve {amd : Amd} {a : SetupArgs K} {pb : Problem K} {q0 qp' : QP K}
    (h : Started amd a pb q0) (o : Settings K) (hm : 0 ≤ o.maxit) {f : Int}
    (hs : QP_SOLVE { q0 with options := o } = .ok (f, qp'))
    (htol : fin (o.reltol / Scalar.sqrt (Scalar.dec 3 0))) (hbad : ¬ pb.Finite) :
    f = 2 ∧ qp'.stats.IterationCount = o.maxit := by
  obtain ⟨p, q, hd⟩ := h.done
  obtain ⟨re, hst⟩ := hd.stats
  have hfl : q0.stats.Flag ≠ 0 := by rw [hst]; exact (by decide : QP_FATAL ≠ 0)
  have hf : f ≠ 0 := by
    rintro rfl
    exact hbad (C77_exit_zero h (.options o .start) hfl hs htol).1
  obtain ⟨k, qk, _, _, h5, h6⟩ := (C22_first_solve h o hs).2 hm
  rcases h6 with ⟨e1, e2, _⟩ | ⟨e1, _⟩
  · exact ⟨e1, by rw [h5, e2]⟩
  · exact absurd e1 hf

end

/-! ## Example -/

/-- `dblPb` with `v` as the bound of its inequality. -/
def dblPbH (v : F64) : Problem F64 := { dblPb with h := fun _ => v }

theorem dblPbH_started (v : F64) : ∃ q0, Started failAmd ((dblPbH v).args none) (dblPbH v) q0 := by
  have hw : (dblPbH v).WF :=
    { P := dblPb_wf.P, A := dblPb_wf.A, G := dblPb_wf.G, Pm := rfl, An := rfl, Gn := rfl
      rows := dblPb_wf.rows, m_pos := dblPb_wf.m_pos }
  have hp : PermSource failAmd none ((dblPbH v).args none).p (dblPbH v) :=
    Or.inr ⟨rfl, failAmd_safe, Or.inl rfl⟩
  have hg := Problem.args_give (dblPbH v) none (fun _ => rfl)
  obtain ⟨q0, h⟩ := C26_setup hw hg hp
  exact ⟨q0, hw, hg, hp, h⟩

/-- C77: with NaN or infinity as the bound, every first solve with a finite tolerance returns 2. -/
example (v : F64) (hv : ¬ fin v) (o : Settings F64) (hm : 0 ≤ o.maxit) (hp : o.verbose ≤ 0)
    (htol : fin (o.reltol / Scalar.sqrt (Scalar.dec 3 0))) :
    ∃ q0 q1, QP_SETUP failAmd ((dblPbH v).args none) = .ok q0 ∧
      QP_SOLVE { q0 with options := o } = .ok (2, q1) := by
  obtain ⟨q0, h⟩ := dblPbH_started v
  obtain ⟨f, q1, hq⟩ := C22_terminates h o (Or.inl hp)
  have := C77_first_solve h o hm hq htol (fun hf => hv (hf.h 0 Nat.zero_lt_one))
  rw [this.1] at hq
  exact ⟨q0, q1, h.ok, hq⟩

example : ¬ fin F64.nan ∧ ¬ fin (F64.inf false) := ⟨id, id⟩

/-- C77: a run that ends with code 0. -/
example : ∃ q0 q1, Started failAmd (dblPb.args none) dblPb q0 ∧ q0.stats.Flag ≠ 0 ∧
    QP_SOLVE q0 = .ok (0, q1) ∧ fin (q0.options.reltol / Scalar.sqrt (Scalar.dec 3 0)) ∧
    dblPb.Finite := by
  obtain ⟨q0, h⟩ := dblPb_started
  have hrun := dblSolve_true
  unfold dblSolve at hrun
  rw [h.ok] at hrun
  dsimp only at hrun
  split at hrun
  case h_2 => exact absurd hrun Bool.false_ne_true
  case h_1 q1 hq1 =>
  simp only [Bool.and_eq_true, bne_iff_ne, ne_eq, beq_iff_eq] at hrun
  obtain ⟨⟨c1, c2⟩, c3⟩ := hrun
  have t := (F64.ok_fin c2).1
  exact ⟨q0, q1, h, c1, hq1, t, (C77_exit_zero h .start c1 hq1 t).1⟩

end Verif
