import Verif.Lemmas.Dense
import Verif.Model.Solver
import Verif.Demo

/-!
# C01–C03: dense input

`convertDense` is the conversion step of `QP_SETUP_dense` (applied to `P`, `G` and `A`).
-/

set_option linter.unusedSectionVars false

namespace Verif

section Exact

variable {K : Type} [Field K] [LinearOrder K] [Scalar K] [LawfulScalar K]

theorem colSum_dcol (d : Nat → Nat → K) (i j r : Nat) :
    colSum (dcol d i j) r = if r < i then d r j else 0 := by
  induction i with
  | zero => simp [colSum]
  | succ i ih =>
    rw [dcol_succ, colSum_append, ih]
    by_cases c : Scalar.eqb (d i j) 0 = true
    · rw [if_pos c, colSum_nil, add_zero]
      have h0 : d i j = 0 := (LawfulScalar.eqb_iff _ _).mp c
      by_cases h : r < i
      · rw [if_pos h, if_pos (by omega)]
      · rw [if_neg h]
        by_cases h' : r = i
        · subst h'; simp [h0]
        · rw [if_neg (by omega)]
    · rw [if_neg c, colSum_cons, colSum_nil, add_zero]
      by_cases h : r < i
      · rw [if_pos h, if_neg (show ¬ i = r by omega), if_pos (by omega), add_zero]
      · rw [if_neg h, zero_add]
        by_cases h' : r = i
        · subst h'; simp
        · rw [if_neg (show ¬ i = r by omega), if_neg (by omega)]

theorem denseCsc_entry (m n : Nat) (d : Nat → Nat → K) {r c : Nat} (hr : r < m) (hc : c < n) :
    (denseCsc m n d).entry r c = d r c := by
  unfold denseCsc
  rw [Csc.ofCols_entry m n _ hc, colSum_dcol, if_pos hr]

theorem denseCsc_ne_zero (m n : Nat) (d : Nat → Nat → K) {k : Nat}
    (hk : k < (denseCsc m n d).nnz) : (denseCsc m n d).pr k ≠ 0 := by
  have := List.mem_of_getElem? (Csc.ofCols_get m n (dcol d m) hk)
  obtain ⟨c, hc, he⟩ := mem_flatTo.mp this
  simp only [dcol, List.mem_filterMap, List.mem_range] at he
  obtain ⟨r, hr, h⟩ := he
  by_cases e : Scalar.eqb (d r c) 0 = true
  · simp [e] at h
  · simp only [e] at h
    intro h0
    have h2 : d r c = (denseCsc m n d).pr k := by
      simp only [Bool.false_eq_true, if_false, Option.some.injEq, Prod.mk.injEq] at h
      exact h.2
    rw [h0] at h2
    exact e ((LawfulScalar.eqb_iff _ _).mpr h2)

/-- **C01**: column-major conversion. For every shape (also with 0 rows or columns) and all
contents the conversion succeeds (no access outside an array, no uninitialised read), and the
stored matrix has the right shape, is well formed with strictly increasing row indices in each
column, has at every position the value of the caller's array, and stores no explicit zero.
The arrays are exactly as long as needed (`A.toSmat`). -/
theorem C01_dense_column_major {rows cols : Nat} {pr : Buf K} {f : Nat → K}
    (hpr : Buf.Has pr (rows * cols) f) :
    ∃ A : Csc K, convertDense COLUMN_MAJOR_ORDERING rows cols pr = .ok A.toSmat ∧
      A.m = rows ∧ A.n = cols ∧ A.WF ∧ A.Sorted ∧
      (∀ r c, r < rows → c < cols → A.entry r c = f (c * rows + r)) ∧
      ∀ k, k < A.nnz → A.pr k ≠ 0 := by
  refine ⟨denseCsc rows cols (fun i j => f (j * rows + i)), ?_, rfl, rfl, denseCsc_wf _ _ _,
    denseCsc_sorted _ _ _, fun r c hr hc => denseCsc_entry _ _ _ hr hc,
    fun k hk => denseCsc_ne_zero _ _ _ hk⟩
  unfold convertDense
  rw [if_pos rfl, densetosparse_eq hpr]

/-- **C02**: row-major conversion. Any ordering value other than `COLUMN_MAJOR_ORDERING` selects
it. -/
theorem C02_dense_row_major {rows cols : Nat} {pr : Buf K} {f : Nat → K} {ordering : Int}
    (ho : ordering ≠ COLUMN_MAJOR_ORDERING) (hpr : Buf.Has pr (rows * cols) f) :
    ∃ A : Csc K, convertDense ordering rows cols pr = .ok A.toSmat ∧
      A.m = rows ∧ A.n = cols ∧ A.WF ∧ A.Sorted ∧
      (∀ r c, r < rows → c < cols → A.entry r c = f (r * cols + c)) ∧
      ∀ k, k < A.nnz → A.pr k ≠ 0 := by
  refine ⟨denseCsc rows cols (fun i j => f (i * cols + j)), ?_, rfl, rfl, denseCsc_wf _ _ _,
    denseCsc_sorted _ _ _, fun r c hr hc => denseCsc_entry _ _ _ hr hc,
    fun k hk => denseCsc_ne_zero _ _ _ hk⟩
  unfold convertDense
  rw [if_neg ho, densetosparse_ROWMAJOR_eq hpr]

end Exact

section Generic

variable {K : Type} [Zero K] [One K] [Add K] [Sub K] [Mul K] [Div K] [Neg K] [Scalar K]

/-- **C03**: the same matrix given in the two orders produces the identical sparse matrix, arrays
included, in any arithmetic. -/
theorem C03_orders_agree {rows cols : Nat} {prC prR : Buf K} {fC fR : Nat → K}
    (hC : Buf.Has prC (rows * cols) fC) (hR : Buf.Has prR (rows * cols) fR)
    (same : ∀ r c, r < rows → c < cols → fC (c * rows + r) = fR (r * cols + c)) :
    ∃ S : Smat K, convertDense COLUMN_MAJOR_ORDERING rows cols prC = .ok S ∧
      convertDense ROW_MAJOR_ORDERING rows cols prR = .ok S := by
  unfold convertDense
  rw [if_pos rfl, if_neg (by decide), densetosparse_eq hC, densetosparse_ROWMAJOR_eq hR]
  refine ⟨_, rfl, ?_⟩
  have hcol : ∀ c, c < cols → dcol (fun i j => fC (j * rows + i)) rows c
      = dcol (fun i j => fR (i * cols + j)) rows c := by
    intro c hc
    unfold dcol
    refine List.filterMap_congr ?_
    intro r hr
    simp only [same r c (List.mem_range.mp hr) hc]
  have hflat := flatTo_congr hcol
  have hoffs : ∀ c, c ≤ cols → offs (dcol (fun i j => fC (j * rows + i)) rows) c
      = offs (dcol (fun i j => fR (i * cols + j)) rows) c :=
    fun c hc => offs_congr (fun i hi => hcol i (by omega))
  unfold denseCsc Csc.toSmat
  simp only [Csc.ofCols, Csc.nnz]
  rw [hflat, hoffs cols le_rfl]
  congr 2
  unfold Buf.ofFn
  refine List.map_congr_left ?_
  intro c hc
  dsimp only
  rw [hoffs c (by have := List.mem_range.mp hc; omega)]

end Generic

/-- A 2×3 matrix with zeros. -/
example : convertDense COLUMN_MAJOR_ORDERING 2 3
    (Buf.ofFn 6 (fun i => [1, 0, 0, 5, 0, 0].getD i (0 : ℚ)))
    = .ok (Smat.mk [some 0, some 1, some 2, some 2] [some 0, some 1] [some 1, some 5] 3 2 2) := by
  rw [show ((2 : Int)) = ((2 : Nat) : Int) from rfl, show ((3 : Int)) = ((3 : Nat) : Int) from rfl]
  unfold convertDense
  rw [if_pos rfl, densetosparse_eq (Buf.has_ofFn _ _)]
  rfl

example : ∃ S : Smat ℚ, convertDense COLUMN_MAJOR_ORDERING 2 3
      (Buf.ofFn 6 (fun i => [1, 0, 0, 5, 0, 0].getD i (0 : ℚ))) = .ok S ∧
    convertDense ROW_MAJOR_ORDERING 2 3
      (Buf.ofFn 6 (fun i => [1, 0, 0, 0, 5, 0].getD i (0 : ℚ))) = .ok S :=
  C03_orders_agree (rows := 2) (cols := 3) (Buf.has_ofFn _ _) (Buf.has_ofFn _ _) (by
    intro r c hr hc
    interval_cases r <;> interval_cases c <;> rfl)

end Verif
