import Verif.Lemmas.Transpose
import Verif.Model.Solver
import Verif.Demo

/-!
# C04: transposes built at setup
-/

set_option linter.unusedSectionVars false

namespace Verif

section Generic

variable {K : Type} [Zero K] [One K] [Add K] [Sub K] [Mul K] [Div K] [Neg K] [Scalar K]

/-- Allocation and transposition as in setup: succeeds and yields exactly the arrays of the
transposed matrix. -/
theorem allocTranspose_eq {S : Smat K} {A : Csc K} (hS : S.Is A) (hA : A.WF) :
    allocTranspose S = .ok A.transpose.toSmat := by
  unfold allocTranspose
  rw [hS.m, hS.n, hS.nnz]
  have e : ((A.m : Int) + 1).toNat = A.m + 1 := by omega
  obtain ⟨T, h, h1, h2, h3, h4⟩ := SparseMatrixTranspose_spec
    (T := SparseMatrixSetup A.n A.m A.nnz (malloc (A.m + 1)) (malloc A.nnz) (malloc A.nnz))
    hS hA rfl rfl rfl (by simp [SparseMatrixSetup, e]) (by simp [SparseMatrixSetup])
    (by simp [SparseMatrixSetup])
  rw [h]
  congr 1
  have hz : A.transpose.nnz = A.nnz := offs_tcol_total hA
  refine h1.eq_toSmat ?_ ?_ ?_
  · rw [h2]; simp only [SparseMatrixSetup, length_malloc, e]; rfl
  · rw [h3, hz]; simp [SparseMatrixSetup]
  · rw [h4, hz]; simp [SparseMatrixSetup]

end Generic

variable {K : Type} [Field K] [LinearOrder K] [Scalar K]

/-- **C04**: for every well-formed matrix (any shape, unsorted or repeated entries allowed) the
transposition of setup succeeds within its arrays, and its result is a well-formed matrix of the
transposed shape with the same number of entries, sorted columns (strictly sorted if the original
has no repeated entries), and the transposed value at every position. -/
theorem C04_transpose {S : Smat K} {A : Csc K} (hS : S.Is A) (hA : A.WF) :
    ∃ T : Csc K, allocTranspose S = .ok T.toSmat ∧ T.m = A.n ∧ T.n = A.m ∧ T.nnz = A.nnz ∧ T.WF ∧
      (∀ r c, r < A.m → c < A.n → T.entry c r = A.entry r c) ∧
      (∀ r, r < A.m → ∀ k l, T.jc r ≤ k → k < l → l < T.jc (r + 1) → T.ir k ≤ T.ir l) ∧
      (A.Sorted → T.Sorted) := by
  refine ⟨A.transpose, allocTranspose_eq hS hA, rfl, rfl, offs_tcol_total hA, A.transpose_wf,
    fun r c hr hc => Csc.transpose_entry hr hc, ?_, ?_⟩
  · intro r hr k l hk1 hk2 hk3
    have hj : A.transpose.jc = offs (tcol A) := rfl
    rw [hj] at hk1 hk3
    rw [offs_succ] at hk3
    obtain ⟨q, rfl⟩ : ∃ q, k = offs (tcol A) r + q := ⟨k - offs (tcol A) r, by omega⟩
    obtain ⟨p, rfl⟩ : ∃ p, l = offs (tcol A) r + p := ⟨l - offs (tcol A) r, by omega⟩
    have h1 : (tcol A r)[q]? = some (tcol A r)[q] := List.getElem?_eq_getElem (by omega)
    have h2 : (tcol A r)[p]? = some (tcol A r)[p] := List.getElem?_eq_getElem (by omega)
    unfold Csc.transpose
    rw [Csc.ofCols_ir _ _ _ hr h1, Csc.ofCols_ir _ _ _ hr h2]
    exact List.pairwise_iff_getElem.mp (tcol_sorted_le A r) q p (by omega) (by omega) (by omega)
  · intro hs
    exact Csc.ofCols_sorted _ _ _ (fun r _ => tcol_sorted
      (fun c hc => (hs.col_pairwise hc).imp (fun h => h.ne)) r)

example : allocTranspose demoG.toSmat = .ok (Smat.mk [some 0, some 2, some 3]
    [some 0, some 1, some 2] [some (-4), some (-4), some (-1)] 2 3 3) := by
  rw [allocTranspose_eq demoG.toSmat_is demoG_wf]
  rfl

/-- An unsorted matrix with a repeated entry. -/
example : (Csc.lit 2 1 [0, 3] [1, 0, 1] [2, 3, (4 : ℚ)]).WF where
  jc0 := rfl
  mono := by intro c hc; simp only [Csc.lit] at hc ⊢; interval_cases c; decide
  ir_lt := by
    intro k hk
    simp only [Csc.lit, List.getD] at hk ⊢
    norm_num at hk
    interval_cases k <;> decide

end Verif
