import Verif.Lemmas.Vec
import Verif.Demo

/-!
# C05: sparse matrix-vector products
-/

set_option linter.unusedSectionVars false

namespace Verif

variable {K : Type} [Field K] [LinearOrder K] [Scalar K]

/-- **C05**, `SparseMatrixMultiply`: on a well-formed matrix (unsorted and repeated entries
allowed) the routine succeeds, subtracts `A x` from the output vector (from zero when `start ≠ 0`,
in which case the previous contents may even be uninitialised), and changes no cell beyond the
first `A.m`. -/
theorem C05_multiply {S : Smat K} {A : Csc K} (hS : S.Is A) (hA : A.WF) {x y : Buf K}
    {fx fy : Nat → K} {start : Int} (hx : Buf.Has x A.n fx) (hl : A.m ≤ y.length)
    (hy : start = 0 → Buf.Has y A.m fy) :
    ∃ y', SparseMatrixMultiply S x y start = .ok y' ∧ y'.length = y.length ∧
      (∀ r, r < A.m → rd y' r = .ok ((if start = 0 then fy r else 0) - A.mulVec fx r)) ∧
      ∀ i, A.m ≤ i → y'[i]? = y[i]? := by
  obtain ⟨y', h, h1, h2, h3⟩ := SparseMatrixMultiply_spec hS hA hx hl hy
  refine ⟨y', h, h1, ?_, h3⟩
  intro r hr
  rw [h2.rd hr, smmF_eq hA]
  split <;> rfl

/-- **C05**, `SparseMatrixTransMultiply`: the same for `Aᵀ x`. -/
theorem C05_transMultiply {S : Smat K} {A : Csc K} (hS : S.Is A) (hA : A.WF) {x y : Buf K}
    {fx fy : Nat → K} {start : Int} (hx : Buf.Has x A.m fx) (hl : A.n ≤ y.length)
    (hy : start = 0 → Buf.Has y A.n fy) :
    ∃ y', SparseMatrixTransMultiply S x y start = .ok y' ∧ y'.length = y.length ∧
      (∀ c, c < A.n → rd y' c = .ok ((if start = 0 then fy c else 0) - A.tmulVec fx c)) ∧
      ∀ i, A.n ≤ i → y'[i]? = y[i]? := by
  obtain ⟨y', h, h1, h2, h3⟩ := SparseMatrixTransMultiply_spec hS hA hx hl hy
  refine ⟨y', h, h1, ?_, h3⟩
  intro r hr
  rw [h2.rd hr, stmmF_eq hA _ _ hr]
  split <;> rfl

/-- The hypotheses are met by the demo matrix `G`, all vectors, and an uninitialised output. -/
example : ∃ y', SparseMatrixMultiply demoG.toSmat (Buf.ofFn 3 (fun i => (i : ℚ))) (malloc 5) 1
    = .ok y' ∧ y'.length = 5 := by
  obtain ⟨y', h, h1, _⟩ := C05_multiply (fy := fun _ => (0 : ℚ)) demoG.toSmat_is demoG_wf
    (x := Buf.ofFn 3 (fun i => (i : ℚ))) (y := malloc 5) (start := 1)
    (Buf.has_ofFn _ _) (by simp [demoG, Csc.lit]) (by simp)
  exact ⟨y', h, by simpa using h1⟩

example : SparseMatrixMultiply demoG.toSmat (Buf.ofFn 3 (fun i => (i : ℚ))) (malloc 3) 1
    = .ok [some 4, some 2, none] := by decide +kernel

example : SparseMatrixTransMultiply demoG.toSmat (Buf.ofFn 2 (fun i => (i : ℚ) + 1))
    (Buf.ofFn 3 (fun _ => (1 : ℚ))) 0 = .ok [some 5, some 5, some 3] := by
  decide +kernel

end Verif
