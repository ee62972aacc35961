import Verif.Props.Dense
import Verif.Props.Transpose
import Verif.Props.MatVec
import Verif.Props.LdlBasic
import Verif.Props.Ldl
import Verif.Props.Kkt
import Verif.Props.Setup
import Verif.Props.Safety
import Verif.Props.Iterates
import Verif.Props.Tiny
import Verif.Props.Directions
import Verif.Props.Start
import Verif.Props.Pivots
import Verif.Props.Order
import Verif.Props.Certify

/-!
# Concrete cases of the theorems

One application of every theorem whose own file has no example: the hypotheses are met by the data
of `Demo.lean` and `DemoQp.lean` (the program of `/repo/demo/runqp.c`), by the one-variable program
of `Props/Tiny.lean`, or by literal arrays.
-/

namespace Verif

open Finset

/-! ## Arrays and sparse matrices -/

/-- C01: a 2×3 array in column-major order with two zeros. -/
example : ∃ A : Csc ℚ, convertDense COLUMN_MAJOR_ORDERING 2 3
      (Buf.ofFn 6 (fun i => ([1, 0, 2, 3, 0, 4] : List ℚ).getD i 0)) = .ok A.toSmat ∧ A.WF ∧
      A.entry 1 1 = 3 ∧ A.entry 0 2 = 0 := by
  obtain ⟨A, h1, _, _, h2, _, h3, _⟩ := C01_dense_column_major (K := ℚ) (rows := 2) (cols := 3)
    (Buf.has_ofFn 6 (fun i => ([1, 0, 2, 3, 0, 4] : List ℚ).getD i 0))
  exact ⟨A, h1, h2, h3 1 1 (by decide) (by decide), h3 0 2 (by decide) (by decide)⟩

/-- C02: the same numbers in row-major order. -/
example : ∃ A : Csc ℚ, convertDense ROW_MAJOR_ORDERING 2 3
      (Buf.ofFn 6 (fun i => ([1, 0, 2, 3, 0, 4] : List ℚ).getD i 0)) = .ok A.toSmat ∧ A.WF ∧
      A.entry 1 1 = 0 ∧ A.entry 0 2 = 2 := by
  obtain ⟨A, h1, _, _, h2, _, h3, _⟩ := C02_dense_row_major (K := ℚ) (rows := 2) (cols := 3)
    (ordering := ROW_MAJOR_ORDERING) (by decide)
    (Buf.has_ofFn 6 (fun i => ([1, 0, 2, 3, 0, 4] : List ℚ).getD i 0))
  exact ⟨A, h1, h2, h3 1 1 (by decide) (by decide), h3 0 2 (by decide) (by decide)⟩

/-- C04: the transpose of `G` of the demo. -/
example : ∃ T : Csc ℚ, allocTranspose demoG.toSmat = .ok T.toSmat ∧ T.m = 3 ∧ T.n = 2 ∧
    T.entry 1 0 = demoG.entry 0 1 := by
  obtain ⟨T, h1, h2, h3, _, _, h4, _⟩ := C04_transpose demoG.toSmat_is demoG_wf
  exact ⟨T, h1, h2, h3, h4 0 1 (by decide) (by decide)⟩

/-- C05: `G' (1, 2)` is subtracted from `(7, 7, 7)`. -/
example : ∃ y', SparseMatrixTransMultiply demoG.toSmat [some 1, some 2]
    [some (7 : ℚ), some 7, some 7] 0 = .ok y' ∧ rd y' 2 = .ok 9 := by
  obtain ⟨y', h1, _, h2, _⟩ := C05_transMultiply (start := 0) demoG.toSmat_is demoG_wf
    (x := [some 1, some 2]) (y := [some (7 : ℚ), some 7, some 7])
    (fx := fun i => ([1, 2] : List ℚ).getD i 0) (fy := fun _ => 7)
    (by intro i hi; simp only [demoG, Csc.lit] at hi; interval_cases i <;> rfl) (by decide)
    (by intro _ i hi; simp only [demoG, Csc.lit] at hi; interval_cases i <;> rfl)
  refine ⟨y', h1, (h2 2 (by decide)).trans ?_⟩
  decide +kernel

/-- C34: `(2, 0, 1)` is accepted and `(2, 0, 2)` is not. -/
example : LDL_valid_perm 3 (some (Buf.ofFn 3 (fun i => ([2, 0, 1] : List Int).getD i 0)))
      (some (malloc 3)) = .ok 1 ∧
    LDL_valid_perm 3 (some (Buf.ofFn 3 (fun i => ([2, 0, 2] : List Int).getD i 0)))
      (some (malloc 3)) = .ok 0 := by
  obtain ⟨r, h1, _, h2⟩ := C34_valid_perm (n := 3) (Flag := malloc 3)
    (Buf.has_ofFn 3 (fun i => ([2, 0, 1] : List Int).getD i 0)) (by decide)
  obtain ⟨r', h1', h0', h2'⟩ := C34_valid_perm (n := 3) (Flag := malloc 3)
    (Buf.has_ofFn 3 (fun i => ([2, 0, 2] : List Int).getD i 0)) (by decide)
  have e : r = 1 := by
    refine h2.mpr (C34_isPerm_meaning.mpr ⟨by decide, fun v hv => ?_⟩)
    interval_cases v
    exacts [⟨1, by decide, fun k hk => by have := hk.1; interval_cases k <;> simp at hk ⊢⟩,
      ⟨2, by decide, fun k hk => by have := hk.1; interval_cases k <;> simp at hk ⊢⟩,
      ⟨0, by decide, fun k hk => by have := hk.1; interval_cases k <;> simp at hk ⊢⟩]
  have e' : r' = 0 := by
    rcases h0' with h | h
    · exact h
    · exact absurd ((h2'.mp h).2 0 2 (by decide) (by decide) rfl) (by decide)
  subst e e'
  exact ⟨h1, h1'⟩

/-- C34, C35: missing arrays. -/
example : LDL_valid_perm 3 none (some (malloc 3)) = .ok 1 ∧
    LDL_valid_matrix 3 none (some (malloc 3)) = .ok 0 :=
  ⟨(C34_degenerate 3 none (some (malloc 3))).2.2 (by decide) (by decide),
    (C35_degenerate 3 none (some (malloc 3))).2.1⟩

/-- C35: `P` of the demo is accepted; with a column pointer decreased it is not. -/
example : LDL_valid_matrix 3 (some demoP.toSmat.jc) (some demoP.toSmat.ir) = .ok 1 ∧
    LDL_valid_matrix 3 (some (Buf.ofFn 4 (fun i => ([0, 5, 2, 7] : List Int).getD i 0)))
      (some demoP.toSmat.ir) = .ok 0 := by
  obtain ⟨r, h1, _, h2⟩ := C35_valid_matrix (n := 3) (Ap := demoP.toSmat.jc) (Ai := demoP.toSmat.ir)
    (fp := fun i => (demoP.jc i : Int)) (fi := fun i => (demoP.ir i : Int))
    demoP.toSmat_is.jc demoP.toSmat_is.ir
  obtain ⟨r', h1', h0', h2'⟩ := C35_valid_matrix (n := 3)
    (Ap := Buf.ofFn 4 (fun i => ([0, 5, 2, 7] : List Int).getD i 0)) (Ai := demoP.toSmat.ir)
    (Buf.has_ofFn _ _) (fi := fun i => (demoP.ir i : Int)) demoP.toSmat_is.ir
  have e : r = 1 := h2.mpr ⟨rfl, by decide, fun k hk => by
    have hk : k < 7 := by simpa [demoP, Csc.lit] using hk
    interval_cases k <;> decide⟩
  have e' : r' = 0 := by
    rcases h0' with h | h
    · exact h
    · exact absurd ((h2'.mp h).2.1 1 (by decide)) (by decide)
  subst e e'
  exact ⟨h1, h1'⟩

theorem isPerm3 : IsPerm 3 (fun i => ([2, 0, 1] : List Int).getD i 0) := by
  refine ⟨by decide, ?_⟩
  intro i j hi hj
  interval_cases i <;> interval_cases j <;> simp

/-- C36: permuting with `(2, 0, 1)` and back. -/
example (a b c : ℝ) : ∃ X' Y' X'' Y'' X3 X4,
    LDL_perm 3 (malloc 3) (Buf.ofFn 3 (fun i => [a, b, c].getD i 0))
      (Buf.ofFn 3 (fun i => ([2, 0, 1] : List Int).getD i 0)) = .ok X' ∧
    LDL_permt 3 (malloc 3) X' (Buf.ofFn 3 (fun i => ([2, 0, 1] : List Int).getD i 0)) = .ok Y' ∧
    rd Y' 0 = .ok a ∧
    LDL_permt 3 (malloc 3) (Buf.ofFn 3 (fun i => [a, b, c].getD i 0))
      (Buf.ofFn 3 (fun i => ([2, 0, 1] : List Int).getD i 0)) = .ok X'' ∧
    LDL_perm 3 (malloc 3) X'' (Buf.ofFn 3 (fun i => ([2, 0, 1] : List Int).getD i 0)) = .ok Y'' ∧
    rd Y'' 0 = .ok a ∧
    LDL_perm 3 (malloc 3) (Buf.ofFn 3 (fun i => [a, b, c].getD i 0))
      (Buf.ofFn 3 (fun i => ([2, 0, 1] : List Int).getD i 0)) = .ok X3 ∧ rd X3 0 = .ok c ∧
    LDL_permt 3 (malloc 3) (Buf.ofFn 3 (fun i => [a, b, c].getD i 0))
      (Buf.ofFn 3 (fun i => ([2, 0, 1] : List Int).getD i 0)) = .ok X4 ∧ rd X4 2 = .ok a := by
  have hB : Buf.Has (Buf.ofFn 3 (fun i => [a, b, c].getD i 0)) 3 _ := Buf.has_ofFn _ _
  have hP : Buf.Has (Buf.ofFn 3 (fun i => ([2, 0, 1] : List Int).getD i 0)) 3 _ := Buf.has_ofFn _ _
  have hl : 3 ≤ (malloc 3 : Buf ℝ).length := by decide
  obtain ⟨X', Y', h1, h2, h3, _⟩ := C36_permt_perm isPerm3 hP hB hl hl
  obtain ⟨X'', Y'', h4, h5, h6, _⟩ := C36_perm_permt isPerm3 hP hB hl hl
  obtain ⟨⟨X3, h7, h8⟩, X4, h9, h10⟩ := C36_meaning isPerm3 hP hB hl
  exact ⟨X', Y', X'', Y'', X3, X4, h1, h2, h3 0 (by decide), h4, h5, h6 0 (by decide), h7,
    h8 0 (by decide), h9, h10 0 (by decide)⟩

/-! ## Setup -/

/-- C06: the matrix of the demo: `-1` on the diagonal of the last block, `G` below `P`. -/
example (amd : Amd) : ∃ qp, QP_SETUP amd (demoArgs ℚ) = .ok qp ∧ ∃ M : Csc ℚ,
    qp.kkt.kktmatrix.Is M ∧ M.m = 6 ∧ M.entry 5 5 = -1 ∧ M.entry 4 0 = -4 := by
  obtain ⟨qp, h1, M, h2, _, h3, _, h4, _⟩ := C06_kkt demoPb_wf demoArgs_give (demoArgs_perm (K := ℚ) amd)
  refine ⟨qp, h1, M, h2, h3, (h4 5 5 (by decide) (by decide)).trans (by decide +kernel),
    (h4 4 0 (by decide) (by decide)).trans (by decide +kernel)⟩

theorem emptyRow_wf : emptyRowPb.P.WF ∧ emptyRowPb.G.WF ∧ emptyRowPb.A.WF := by
  refine ⟨⟨rfl, ?_, ?_⟩, ⟨rfl, ?_, ?_⟩, ⟨rfl, ?_, ?_⟩⟩
  · intro c hc; simp only [emptyRowPb, Csc.lit] at hc ⊢; interval_cases c; decide
  · intro k hk
    have hk : k < 1 := hk
    interval_cases k; decide
  · intro c hc; simp only [emptyRowPb, Csc.lit] at hc ⊢; interval_cases c; decide
  · intro k hk
    have hk : k < 1 := hk
    interval_cases k; decide
  · intro c hc; exact le_rfl
  · intro k hk
    exact absurd hk (Nat.not_lt_zero k)

theorem emptyRow_row : ∀ k, k < emptyRowPb.G.nnz → emptyRowPb.G.ir k ≠ 1 := by
  intro k hk
  have hk : k < 1 := hk
  interval_cases k; decide

/-- C07: the second inequality has no diagonal entry, with and without an array for `A`. -/
example : (∃ At Gt S, allocTranspose emptyRowPb.A.toSmat = .ok At ∧
      allocTranspose emptyRowPb.G.toSmat = .ok Gt ∧
      formkktmatrix_full emptyRowPb.P.toSmat emptyRowPb.G.toSmat (some emptyRowPb.A.toSmat) Gt (some At)
        (SparseMatrixSetup 3 3 5 (malloc 4) (malloc 5) (malloc 5)) = .ok S) ∧
    ∃ Gt S, allocTranspose emptyRowPb.G.toSmat = .ok Gt ∧
      formkktmatrix_full emptyRowPb.P.toSmat emptyRowPb.G.toSmat none Gt none
        (SparseMatrixSetup 3 3 5 (malloc 4) (malloc 5) (malloc 5)) = .ok S ∧
      ∃ M : Csc ℚ, M.n = 3 ∧ Buf.Has S.jc 4 (fun i => (M.jc i : Int)) ∧ M.jc 2 = M.jc 3 ∧
        M.entry 2 2 = 0 := by
  obtain ⟨hP, hG, hA⟩ := emptyRow_wf
  obtain ⟨At, Gt, S, h1, h2, h3, _⟩ := C07_missing_diagonal hP hA hG rfl rfl rfl (r := 1) (by decide)
    emptyRow_row
  obtain ⟨Gt', S', h4, h5, M, _, _, h6, h7, _, _, h8, h9⟩ := C07_missing_diagonal_noeq hP hG rfl rfl (r := 1)
    (by decide) emptyRow_row
  have hn : M.n = 3 := h6
  rw [hn] at h7
  exact ⟨⟨At, Gt, S, h1, h2, h3⟩, Gt', S', h4, h5, M, hn, h7, h8, h9⟩

/-- C07: the update for a matrix whose third column is empty, and for one with nothing stored. -/
example : (∃ pr, updatekktmatrix
      { jc := Buf.ofFn 4 (fun i => (([0, 2, 4, 4] : List Nat).getD i 0 : Int))
        ir := Buf.ofFn 4 (fun i => (([0, 1, 0, 1] : List Nat).getD i 0 : Int))
        pr := Buf.ofFn 4 (fun i => ([1, 1, 1, -1] : List ℚ).getD i 0), n := 3, m := 3, nnz := 4 }
      (Buf.ofFn 2 (fun i => (2 * i + 3 : ℚ))) (Buf.ofFn 2 (fun _ => 1)) 2 1 0 = .ok pr ∧
      ∃ j : Nat, 1 ≤ j ∧ j < 2 ∧ pr[3]? = some (some (-(2 * (j : ℚ) + 3) / 1))) ∧
    updatekktmatrix
      { jc := Buf.ofFn 3 (fun _ => ((0 : Nat) : Int)), ir := [], pr := ([] : Buf ℚ), n := 2, m := 2, nnz := 0 }
      (Buf.ofFn 1 (fun _ => 1)) (Buf.ofFn 1 (fun _ => 1)) 1 1 0 = .error .oob := by
  constructor
  · refine C07_update_overwrites (K := ℚ)
      (S := { jc := Buf.ofFn 4 (fun i => (([0, 2, 4, 4] : List Nat).getD i 0 : Int))
              ir := Buf.ofFn 4 (fun i => (([0, 1, 0, 1] : List Nat).getD i 0 : Int))
              pr := Buf.ofFn 4 (fun i => ([1, 1, 1, -1] : List ℚ).getD i 0), n := 3, m := 3, nnz := 4 })
      (fs := fun i => (2 * i + 3 : ℚ)) (fz := fun _ => 1) (n := 1) (p := 0) (m := 2) (r := 1)
      (jc := fun i => ([0, 2, 4, 4] : List Nat).getD i 0) (Buf.has_ofFn _ _) (Buf.has_ofFn _ _)
      (Buf.has_ofFn _ _) ?_ ?_ (by decide) rfl
    · intro i hi; interval_cases i <;> decide
    · intro i hi; interval_cases i <;> decide
  · exact C07_update_oob (K := ℚ)
      (S := { jc := Buf.ofFn 3 (fun _ => ((0 : Nat) : Int)), ir := [], pr := ([] : Buf ℚ), n := 2, m := 2, nnz := 0 })
      (n := 1) (p := 0) (m := 1) (jc := fun _ => 0) (by decide) (Buf.has_ofFn _ _)
      (Buf.has_ofFn _ _) (Buf.has_ofFn _ _) rfl

/-- C27: the demo with the array `b` missing is the demo without equality constraints. -/
example (amd : Amd) : QP_SETUP amd { demoArgs ℚ with b := none } =
    QP_SETUP amd { demoArgs ℚ with Ajc := none, Air := none, Apr := none, b := none } :=
  C27_missing_ignored amd _ (by simp [SetupArgs.Incomplete])

/-- C27: with the arrays the structure has one equality constraint. -/
example (amd : Amd) : ∃ qp, QP_SETUP amd (demoArgs ℚ) = .ok qp ∧ qp.p = 1 ∧
    qp.kkt.kktmatrix.n = 6 := by
  obtain ⟨qp, h1, _, h2⟩ := C27_dimensions demoPb_wf demoArgs_give (demoArgs_perm (K := ℚ) amd)
  obtain ⟨h3, _, _, _, h4⟩ := h2 (by
    simp [SetupArgs.Incomplete, demoArgs, Problem.args, demoPb, Problem.p, Csc.lit])
  exact ⟨qp, h1, h3, h4⟩

/-! ## Solving: the demo over the reals -/

/-- The demo over the reals, after setup and one step with tolerances that are not yet met. -/
theorem demo_step : ∃ (q0 qp qp' : QP ℝ) (x y z s : Nat → ℝ),
    Started failAmd (demoArgs ℝ) (demoPb ℝ) q0 ∧ Reach q0 qp ∧ solveBody qp = .ok (qp', false) ∧
    qp.Iter (demoPb ℝ) x y z s := by
  obtain ⟨q0, h⟩ := demo_started ℝ
  obtain ⟨o, qp', x, y, z, s, hi, hb⟩ := step_exists h .start
  exact ⟨q0, _, qp', x, y, z, s, h, .options o .start, hb, hi⟩

/-- The demo over the reals, after setup and a first solve that returned 0. -/
theorem demo_zero : ∃ (q0 : QP ℝ) (o : Settings ℝ) (q1 : QP ℝ) (t : ℝ),
    Started failAmd (demoArgs ℝ) (demoPb ℝ) q0 ∧ q0.stats.Flag ≠ 0 ∧
    QP_SOLVE { q0 with options := o } = .ok (0, q1) ∧ 0 ≤ t ∧ t * t = 3 := by
  obtain ⟨q0, h⟩ := demo_started ℝ
  obtain ⟨o, q1, h1⟩ := first_zero_exists h
  obtain ⟨t, h0, h3⟩ := sqrt3_exists (K := ℝ)
  obtain ⟨p, q, hd⟩ := h.done
  obtain ⟨re, hst⟩ := hd.stats
  exact ⟨q0, o, q1, t, h, by rw [hst]; exact (by decide : (3 : Int) ≠ 0), h1, h0, h3⟩

/-- C08, C17, C32 for this step. -/
example : ∃ (q0 qp qp' : QP ℝ) (z s : Nat → ℝ), Started failAmd (demoArgs ℝ) (demoPb ℝ) q0 ∧
    solveBody qp = .ok (qp', false) ∧
    (∃ M M' : Csc ℝ, qp.kkt.kktmatrix.Is M ∧ qp'.kkt.kktmatrix.Is M' ∧
      M'.pr (M.jc 6 - 1) = -(s 1) / z 1) ∧
    0 < qp'.stats.alpha_p ∧ qp'.stats.alpha_d ≤ 1 ∧ 0 ≤ qp'.options.sigma := by
  obtain ⟨q0, qp, qp', x, y, z, s, h, hr, hb, hi⟩ := demo_step
  obtain ⟨M, M', h1, h2, _, _, _, _, h3, _⟩ := C08_update h.wf h.give h.perm h.ok hr hb hi
  obtain ⟨h4, _, _, h5, _⟩ := C17_steps h hr hb hi
  exact ⟨q0, qp, qp', z, s, h, hb, ⟨M, M', h1, h2, (h3 1 (by decide)).2.2⟩, h4, h5,
    (C32_sigma_step h hr hb).1⟩

/-- C32 after one iteration. -/
example : ∃ (q0 qp qk : QP ℝ), Started failAmd (demoArgs ℝ) (demoPb ℝ) q0 ∧ Iterations 1 qp qk ∧
    0 ≤ qk.options.sigma ∧ qk.options.sigma ≤ 1 := by
  obtain ⟨q0, qp, qp', x, y, z, s, h, hr, hb, hi⟩ := demo_step
  have hk : Iterations 1 qp qp' := .succ (.zero qp) hb
  obtain ⟨h1, h2, _⟩ := C32_sigma h hr hk
  refine ⟨q0, qp, qp', h, hk, h1, h2.trans ?_⟩
  simp [demoPb]

/-- C17: slacks 1 and 2, directions -2 and 1. -/
example : ∃ ap ad, findsteplength (Buf.ofFn 2 (fun i => ([1, 2] : List ℝ).getD i 0))
      (Buf.ofFn 2 (fun i => ([-2, 1] : List ℝ).getD i 0)) (Buf.ofFn 2 (fun _ => (1 : ℝ)))
      (Buf.ofFn 2 (fun _ => (-3 : ℝ))) 2 = .ok (ap, ad) ∧
    FullStep 2 (fun i => ([1, 2] : List ℝ).getD i 0) (fun i => ([-2, 1] : List ℝ).getD i 0) ap := by
  obtain ⟨ap, ad, h1, h2, _⟩ := C17_ratio_test (m := 2)
    (Buf.has_ofFn 2 (fun i => ([1, 2] : List ℝ).getD i 0))
    (Buf.has_ofFn 2 (fun i => ([-2, 1] : List ℝ).getD i 0)) (Buf.has_ofFn 2 (fun _ => (1 : ℝ)))
    (Buf.has_ofFn 2 (fun _ => (-3 : ℝ))) (by intro i hi; interval_cases i <;> simp)
    (by intro i hi; simp)
  exact ⟨ap, ad, h1, h2⟩

/-- C18 for this step: at least one of the four tests fails. -/
example : ∃ (q0 qp qp' : QP ℝ) (x y z s : Nat → ℝ) (nx ny nz mu t : ℝ),
    Started failAmd (demoArgs ℝ) (demoPb ℝ) q0 ∧ solveBody qp = .ok (qp', false) ∧
    qp'.stats.n_ry = some ny ∧ IsNorm 1 ((demoPb ℝ).ry x) ny ∧ mu = dot 2 s z / 2 ∧
    IsNorm 3 ((demoPb ℝ).rx x y z) nx ∧
    ¬ (nx < qp.options.reltol / t ∧ ny < qp.options.reltol / t ∧ nz < qp.options.reltol / t ∧
      mu < qp.options.abstol) := by
  obtain ⟨q0, qp, qp', x, y, z, s, h, hr, hb, hi⟩ := demo_step
  obtain ⟨t, h0, h3⟩ := sqrt3_exists (K := ℝ)
  obtain ⟨nx, ny, nz, mu, _, h1, _, _, h2, h4, _, h5, h6⟩ := C18_residuals h hr hb hi h0 h3
  exact ⟨q0, qp, qp', x, y, z, s, nx, ny, nz, mu, t, h, hb, h1 (by decide), h4, h5, h2,
    fun hc => Bool.false_ne_true (h6.mpr hc)⟩

/-- C19, C20, C21 for a first solve of the demo that returns 0. -/
example : ∃ (q0 q1 : QP ℝ) (o : Settings ℝ) (x y z s : Nat → ℝ) (t : ℝ),
    Started failAmd (demoArgs ℝ) (demoPb ℝ) q0 ∧ QP_SOLVE { q0 with options := o } = .ok (0, q1) ∧
    t * t = 3 ∧ q1.Iter (demoPb ℝ) x y z s ∧
    (demoPb ℝ).Approx (o.reltol / t) o.abstol x y z s ∧
    q1.stats.fval = some ((demoPb ℝ).obj x) := by
  obtain ⟨q0, o, q1, t, h, hf, h1, h0, h3⟩ := demo_zero
  obtain ⟨x, y, z, s, hi, ha⟩ := C19_exit_zero h (.options o .start) hf h1 h0 h3
  obtain ⟨_, _, _, _, _, _⟩ := C19_first_solve h o h1 h0 h3
  exact ⟨q0, q1, o, x, y, z, s, t, h, h1, h3, hi, ha, C21_fval_zero h (.options o .start) hf h1 hi⟩

/-- C20: comparison with the feasible point `(2, 0, 1)`. -/
example : ∃ (q0 q1 : QP ℝ) (o : Settings ℝ) (x : Nat → ℝ) (t : ℝ),
    QP_SOLVE { q0 with options := o } = .ok (0, q1) ∧ Buf.Has q1.x 3 x ∧
    ((demoPb ℝ).A.mulVec x 0 - (demoPb ℝ).b 0 < o.reltol / t) ∧
    (demoPb ℝ).G.mulVec x 1 - (demoPb ℝ).h 1 < o.reltol / t := by
  obtain ⟨q0, o, q1, t, h, hf, h1, h0, h3⟩ := demo_zero
  obtain ⟨x, y, z, s, hi, _, h4, h5⟩ := C20_suboptimality h (.options o .start) hf demoPb_symm
    demoPb_psd h1 h0 h3
  exact ⟨q0, q1, o, x, t, h1, hi.x, lt_of_le_of_lt (le_abs_self _) (h4 0 (by decide)), h5 1 (by decide)⟩

/-- C21, C22: a first solve of the demo with two iterations and tolerance zero. -/
example : ∃ (q0 q1 qk : QP ℝ) (x : Nat → ℝ), Started failAmd (demoArgs ℝ) (demoPb ℝ) q0 ∧
    QP_SOLVE { q0 with options := ⟨2, 0, 0, 100, 0⟩ } = .ok (2, q1) ∧
    q1.stats.IterationCount = 2 ∧ Buf.Has qk.x 3 x ∧ q1.stats.fval = some ((demoPb ℝ).obj x) := by
  obtain ⟨q0, h⟩ := demo_started ℝ
  obtain ⟨f, q1, h1⟩ := C37_otherwise_safe h ⟨2, 0, 0, 100, 0⟩ (Or.inl le_rfl)
  obtain ⟨p, q, hs, _⟩ := h.sinv (.options ⟨2, 0, 0, 100, 0⟩ .start)
  obtain ⟨k, qk, hk, _, hc, h2⟩ := (C22_first_solve h _ h1).2 (by decide : (0 : Int) ≤ 2)
  have hf : f = 2 := by
    rcases C22_codes h _ h1 with ⟨hm, _⟩ | ⟨_, rfl | rfl⟩
    · exact absurd hm (by decide)
    · rcases h2 with ⟨hc, _⟩ | ⟨_, _, hb⟩
      · exact hc
      · refine absurd hb (no_break h ((Reach.options ⟨2, 0, 0, 100, 0⟩ .start).iterations hk) ?_)
        rw [(hk.facts h.wf hs).2.1.reltol]
    · rfl
  subst hf
  obtain ⟨k', qk', x, y, z, s, dx, _, _, hi, hv, _⟩ := C21_fval_maxit h _ (by decide : (0 : Int) < 2) h1
  rcases h2 with ⟨_, hk2, _⟩ | ⟨hc, _⟩
  · exact ⟨q0, q1, qk', x, h, h1, by rw [hc]; exact hk2, hi.x, hv⟩
  · exact absurd hc (by decide)

/-- C23, C24, C25 after a solve of the demo that returned 0: two more calls return 0 too. -/
example : ∃ (q0 q1 b : QP ℝ), Started failAmd (demoArgs ℝ) (demoPb ℝ) q0 ∧ q1.stats.Flag ≠ 1 ∧
    Calls q1 [0, 0] b ∧ q1.SamePoint b ∧ b.c = (demoArgs ℝ).c ∧ b.kkt.P = demoPermut := by
  obtain ⟨q0, o, q1, t, h, hf, h1, _⟩ := demo_zero
  have hr : Reach q0 q1 := .solve (.options o .start) h1
  obtain ⟨h2, h3⟩ := C24_solve_again h (.options o .start) hf h1
  obtain ⟨b, hb⟩ := h2 2
  have hrb : ∀ {fs} {a b : QP ℝ}, Reach q0 a → Calls a fs b → Reach q0 b := by
    intro fs a b ha hc
    induction hc with
    | nil => exact ha
    | snoc _ h ih => exact .solve ih h
  have h25 := C25_data_unchanged h (hrb hr hb)
  exact ⟨q0, q1, b, h, (C23_no_kktfail h hr).1, hb, (h3 _ b hb).2, h25.2.2.2.2.2.2.1,
    h25.2.2.2.2.2.2.2.2.2.2 _ rfl⟩

/-- C24: the histories with a stale counter and a stale flag, for the demo. -/
example : ∃ q0 : QP ℝ, Started failAmd (demoArgs ℝ) (demoPb ℝ) q0 ∧
    (∃ o1 o2 q1 q2, QP_SOLVE { q0 with options := o1 } = .ok (2, q1) ∧
      QP_SOLVE { q1 with options := o2 } = .ok (2, q2)) ∧
    ∃ o1 o2 o3 q1 q2 q3, QP_SOLVE { q0 with options := o1 } = .ok (2, q1) ∧
      QP_SOLVE { q1 with options := o2 } = .ok (0, q2) ∧
      QP_SOLVE { q2 with options := o3 } = .ok (0, q3) := by
  obtain ⟨q0, h⟩ := demo_started ℝ
  obtain ⟨o1, o2, q1, q2, _, _, _, _, _, _, _, h1, h2, _⟩ := C24_stale_maxit_exists h
  obtain ⟨o1', o2', o3', q1', q2', q3', h3, h4, h5, _⟩ := C24_stale_optimal_exists h
  exact ⟨q0, h, ⟨o1, o2, q1, q2, h1, h2⟩, o1', o2', o3', q1', q2', q3', h3, h4, h5⟩

/-! ## Directions, pivots, certificates -/

/-- C30 for the one-variable program. -/
example : ∃ (q0 qp qp' : QP ℝ) (x x' s s' : Nat → ℝ), Started failAmd (tinyArgs ℝ) (tinyPb ℝ) q0 ∧
    solveBody qp = .ok (qp', false) ∧
    |(tinyPb ℝ).rz x' s' 0| ≤ |(tinyPb ℝ).rz x s 0| := by
  obtain ⟨q0, h⟩ := tiny_started ℝ
  obtain ⟨o, qp', x, y, z, s, hi, hb⟩ := step_exists h .start
  have hr : Reach q0 { q0 with options := o } := .options o .start
  obtain ⟨p, q, hs, _⟩ := h.sinv (.iteration hr hb)
  obtain ⟨x', y', z', s', hi'⟩ := hs.iter
  have h2 := (C30_never_grow h tiny_symm hr hb (tiny_exact h hr hb) hi hi').2 0 (by decide)
  exact ⟨q0, _, qp', x, x', s, s', h, hb, h2.1⟩

/-- C53 for the demo. -/
example : ∃ (q0 : QP ℝ) (x y z s e w : Nat → ℝ), Started failAmd (demoArgs ℝ) (demoPb ℝ) q0 ∧
    q0.Iter (demoPb ℝ) x y z s ∧
    (demoPb ℝ).A.mulVec x 0 + e 3 * y 0 = (demoPb ℝ).b 0 ∧
    (demoPb ℝ).G.mulVec x 1 - w 1 + e 5 * w 1 = (demoPb ℝ).h 1 := by
  obtain ⟨q0, h⟩ := demo_started ℝ
  obtain ⟨p, q, hs, _⟩ := h.sinv .start
  obtain ⟨x, y, z, s, hi⟩ := hs.iter
  obtain ⟨e, w, _, _, _, h1, h2, _⟩ := C53_starting_point h demoPb_symm hi
  exact ⟨q0, x, y, z, s, e, w, h, hi, h1 0 (by decide), h2 1 (by decide)⟩

/-- C55 for the setup of the demo: no regularisation in the rows of `P` and of `G`. -/
example : ∃ (q0 : QP ℝ) (M L : Csc ℝ) (p : Nat → Nat) (d e : Nat → ℝ),
    Started failAmd (demoArgs ℝ) (demoPb ℝ) q0 ∧ q0.kkt.Factored 6 M p L d e ∧ e 0 = 0 ∧ e 5 = 0 := by
  obtain ⟨q0, h⟩ := demo_started ℝ
  obtain ⟨M, p, L, d, e, h1, _, _, _, _, h2, _, h3⟩ := C55_pivots_setup h demoPb_symm one_gt_small
    demoPb_strong
  exact ⟨q0, M, L, p, d, e, h, h1, h2 0 (by decide), h3 1 (by decide)⟩

/-- C55 for the first step of the one-variable program. -/
example : ∃ (q0 qp' : QP ℝ) (o : Settings ℝ), Started failAmd (tinyArgs ℝ) (tinyPb ℝ) q0 ∧
    solveBody { q0 with options := o } = .ok (qp', false) ∧ qp'.kkt.Exact (tinyPb ℝ).N := by
  obtain ⟨q0, h⟩ := tiny_started ℝ
  obtain ⟨o, qp', x, y, z, s, hi, hb⟩ := step_exists h .start
  refine ⟨q0, qp', o, h, hb, C55_exact_step h tiny_symm one_gt_small tinyPb_strong rfl
    (.options o .start) hb hi fun i hi' => ?_⟩
  obtain ⟨_, z0, s0⟩ := tiny_start h (x := x) (y := y) (z := z) (s := s) ⟨hi.x, hi.y, hi.z, hi.s⟩
  have : i = 0 := by
    have : i < 1 := hi'
    omega
  subst this
  rw [z0, s0]
  norm_num

/-- C57 for a solve without iterations and for all solves of the one-variable program that make an exact
factorisation in every step, here with the same ordering twice but different fallback functions. -/
example (o : Settings ℝ) (hv : o.verbose ≤ 0) : ∃ (q0 q0' q1 q1' : QP ℝ) (f f' : Int),
    Started failAmd (tinyArgs ℝ) (tinyPb ℝ) q0 ∧
    Started (fun _ _ _ P => .ok (0, P)) (tinyArgs ℝ) (tinyPb ℝ) q0' ∧
    QP_SOLVE { q0 with options := o } = .ok (f, q1) ∧
    QP_SOLVE { q0' with options := o } = .ok (f', q1') ∧ f = f' ∧ SameResult (tinyPb ℝ) q1 q1' := by
  obtain ⟨q0, h⟩ := tiny_started ℝ
  obtain ⟨q0', e0⟩ := C26_setup tinyPb_wf tinyArgs_give (tinyArgs_perm (K := ℝ) (fun _ _ _ P => .ok (0, P)))
  have h' : Started (fun _ _ _ P => .ok (0, P)) (tinyArgs ℝ) (tinyPb ℝ) q0' :=
    ⟨tinyPb_wf, tinyArgs_give, tinyArgs_perm _, e0⟩
  obtain ⟨f, q1, hq⟩ := C22_terminates h o (Or.inl hv)
  obtain ⟨f', q1', hq'⟩ := C22_terminates h' o (Or.inl hv)
  have aux : ∀ {amd : Amd} {q : QP ℝ}, Started amd (tinyArgs ℝ) (tinyPb ℝ) q → ∀ (k : Nat) qk,
      Iterations (k + 1) { q with options := o } qk → qk.kkt.Exact (tinyPb ℝ).N := by
    intro amd q hst k qk hk
    cases hk with
    | succ hk hb => exact tiny_exact hst ((Reach.options o .start).iterations hk) hb
  obtain ⟨e1, e2⟩ := C57_ordering_independent h h' tiny_symm o hq hq'
    (C55_exact_setup h tiny_symm one_gt_small tinyPb_strong rfl)
    (C55_exact_setup h' tiny_symm one_gt_small tinyPb_strong rfl)
    (fun k qk _ hk => aux h k qk hk) (fun k qk _ hk => aux h' k qk hk)
  exact ⟨q0, q0', q1, q1', f, f', h, h', hq, hq', e1, e2⟩

end Verif
