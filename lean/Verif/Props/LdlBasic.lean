import Verif.Lemmas.LdlBasic
import Verif.Demo

/-!
# C34, C35 and the first half of C36: validation and permutation routines of `ldl.c`
-/

set_option linter.unusedSectionVars false

namespace Verif

/-- **C34**: given a workspace of at least `n` cells, the permutation check touches nothing outside
its arrays and returns 1 exactly for permutations of `0..n-1`, and 0 otherwise. -/
theorem C34_valid_perm {n : Nat} {P Flag : Buf Int} {f : Nat → Int} (hP : Buf.Has P n f)
    (hF : n ≤ Flag.length) :
    ∃ r, LDL_valid_perm n (some P) (some Flag) = .ok r ∧ (r = 0 ∨ r = 1) ∧
      (r = 1 ↔ IsPerm n f) :=
  LDL_valid_perm_spec hP hF

/-- `IsPerm` says what it should: all values in range and every value hit exactly once. -/
theorem C34_isPerm_meaning {n : Nat} {f : Nat → Int} :
    IsPerm n f ↔ (∀ k, k < n → 0 ≤ f k ∧ f k < n) ∧
      ∀ v : Nat, v < n → ∃ k, (k < n ∧ f k = v) ∧ ∀ k', k' < n ∧ f k' = v → k' = k :=
  isPerm_iff_existsUnique

/-- **C34**, degenerate arguments: NULL workspace or negative `n` are rejected, a NULL permutation
(meaning identity) is accepted. -/
theorem C34_degenerate (n : Int) (P Flag : Option (Buf Int)) :
    LDL_valid_perm n P none = .ok 0 ∧ (n < 0 → LDL_valid_perm n P Flag = .ok 0) ∧
      (0 ≤ n → Flag ≠ none → LDL_valid_perm n none Flag = .ok 1) := by
  refine ⟨rfl, fun h => ?_, fun h hF => ?_⟩
  · cases Flag with
    | none => rfl
    | some F => simp [LDL_valid_perm, h]
  · cases Flag with
    | none => exact absurd rfl hF
    | some F => simp [LDL_valid_perm, not_lt.mpr h]

example : LDL_valid_perm 3 (some [some 2, some 0, some 1]) (some (malloc 3)) = .ok 1 := by decide
example : LDL_valid_perm 3 (some [some 2, some 0, some 2]) (some (malloc 3)) = .ok 0 := by decide
example : LDL_valid_perm 3 (some [some 3, some 0, some 1]) (some (malloc 3)) = .ok 0 := by decide
example : IsPerm 3 (fun i => [2, 0, 1].getD i 0) := by
  refine ⟨?_, ?_⟩
  · intro k hk; interval_cases k <;> decide
  · intro j k hj hk; interval_cases j <;> interval_cases k <;> simp

/-- **C35**: the matrix check returns 1 exactly when the column pointers start at 0, do not
decrease, and every row index is in range; otherwise 0. Only the `fp n` row indices the pattern
claims to have need to exist. -/
theorem C35_valid_matrix {n : Nat} {Ap Ai : Buf Int} {fp fi : Nat → Int}
    (hAp : Buf.Has Ap (n + 1) fp) (hAi : Buf.Has Ai (fp n).toNat fi) :
    ∃ r, LDL_valid_matrix n (some Ap) (some Ai) = .ok r ∧ (r = 0 ∨ r = 1) ∧
      (r = 1 ↔ fp 0 = 0 ∧ (∀ j, j < n → fp j ≤ fp (j + 1)) ∧
        ∀ k : Nat, (k : Int) < fp n → 0 ≤ fi k ∧ fi k < n) :=
  LDL_valid_matrix_spec hAp hAi

/-- **C35**, degenerate arguments: negative `n` and NULL arrays are rejected. -/
theorem C35_degenerate (n : Int) (Ap Ai : Option (Buf Int)) :
    (n < 0 → LDL_valid_matrix n Ap Ai = .ok 0) ∧ LDL_valid_matrix n none Ai = .ok 0 ∧
      LDL_valid_matrix n Ap none = .ok 0 := by
  refine ⟨fun h => by simp [LDL_valid_matrix, h], ?_, ?_⟩
  · simp [LDL_valid_matrix]
  · simp [LDL_valid_matrix]

example : LDL_valid_matrix 2 (some [some 0, some 1, some 3]) (some [some 0, some 0, some 1])
    = .ok 1 := by decide
example : LDL_valid_matrix 2 (some [some 0, some 1, some 3]) (some [some 0, some 0, some 2])
    = .ok 0 := by decide
example : LDL_valid_matrix 2 (some [some 0, some 2, some 1]) (some [some 0, some 0])
    = .ok 0 := by decide

variable {K : Type} [Zero K] [One K] [Add K] [Sub K] [Mul K] [Div K] [Neg K] [Scalar K]

/-- **C36**: permuting a vector and then un-permuting the result gives the vector back, for every
permutation, in any arithmetic. -/
theorem C36_permt_perm {n : Nat} {f : Nat → Int} (hf : IsPerm n f) {P : Buf Int}
    (hP : Buf.Has P n f) {B X Y : Buf K} {fb : Nat → K} (hB : Buf.Has B n fb)
    (hX : n ≤ X.length) (hY : n ≤ Y.length) :
    ∃ X' Y', LDL_perm n X B P = .ok X' ∧ LDL_permt n Y X' P = .ok Y' ∧
      (∀ i, i < n → rd Y' i = .ok (fb i)) ∧ (∀ i, n ≤ i → Y'[i]? = Y[i]?) := by
  obtain ⟨q, hq⟩ := hf.exists_pair
  have hP' : Buf.Has P n (fun i => (((f i).toNat : Nat) : Int)) :=
    hP.congr (fun i hi => by have := hf.1 i hi; omega)
  obtain ⟨X', h1, _, h3, _⟩ := LDL_perm_spec hq.p_lt hX hP' hB
  obtain ⟨Y', h4, _, h6, h7⟩ := LDL_permt_spec hq hY hP' h3
  refine ⟨X', Y', h1, h4, fun i hi => ?_, h7⟩
  rw [h6.rd hi]
  have := hq.pq i hi
  rw [this]

/-- **C36**: un-permuting and then permuting gives the vector back. -/
theorem C36_perm_permt {n : Nat} {f : Nat → Int} (hf : IsPerm n f) {P : Buf Int}
    (hP : Buf.Has P n f) {B X Y : Buf K} {fb : Nat → K} (hB : Buf.Has B n fb)
    (hX : n ≤ X.length) (hY : n ≤ Y.length) :
    ∃ X' Y', LDL_permt n X B P = .ok X' ∧ LDL_perm n Y X' P = .ok Y' ∧
      (∀ i, i < n → rd Y' i = .ok (fb i)) ∧ (∀ i, n ≤ i → Y'[i]? = Y[i]?) := by
  obtain ⟨q, hq⟩ := hf.exists_pair
  have hP' : Buf.Has P n (fun i => (((f i).toNat : Nat) : Int)) :=
    hP.congr (fun i hi => by have := hf.1 i hi; omega)
  obtain ⟨X', h1, _, h3, _⟩ := LDL_permt_spec hq hX hP' hB
  obtain ⟨Y', h4, _, h6, h7⟩ := LDL_perm_spec hq.p_lt hY hP' h3
  refine ⟨X', Y', h1, h4, fun i hi => ?_, h7⟩
  rw [h6.rd hi]
  have := hq.qp i hi
  rw [this]

/-- What the two routines do: `LDL_perm` gathers, `LDL_permt` scatters. -/
theorem C36_meaning {n : Nat} {f : Nat → Int} (hf : IsPerm n f) {P : Buf Int}
    (hP : Buf.Has P n f) {B X : Buf K} {fb : Nat → K} (hB : Buf.Has B n fb)
    (hX : n ≤ X.length) :
    (∃ X', LDL_perm n X B P = .ok X' ∧ ∀ i, i < n → rd X' i = .ok (fb (f i).toNat)) ∧
    (∃ X', LDL_permt n X B P = .ok X' ∧ ∀ i, i < n → rd X' (f i) = .ok (fb i)) := by
  obtain ⟨q, hq⟩ := hf.exists_pair
  have hP' : Buf.Has P n (fun i => (((f i).toNat : Nat) : Int)) :=
    hP.congr (fun i hi => by have := hf.1 i hi; omega)
  obtain ⟨X', h1, _, h3, _⟩ := LDL_perm_spec hq.p_lt hX hP' hB
  obtain ⟨Y', h4, _, h6, _⟩ := LDL_permt_spec hq hX hP' hB
  refine ⟨⟨X', h1, fun i hi => h3.rd hi⟩, ⟨Y', h4, fun i hi => ?_⟩⟩
  have h7 := h6.rd (hq.p_lt i hi)
  have h8 := hf.1 i hi
  rw [hq.qp i hi] at h7
  rwa [Int.toNat_of_nonneg h8.1] at h7

example : LDL_perm 3 (malloc 3) (Buf.ofFn 3 (fun i => (i : ℚ) * 10)) [some 2, some 0, some 1]
    = .ok [some 20, some 0, some 10] := by decide +kernel
example : LDL_permt 3 (malloc 3) [some (20 : ℚ), some 0, some 10] [some 2, some 0, some 1]
    = .ok (Buf.ofFn 3 (fun i => (i : ℚ) * 10)) := by decide +kernel

end Verif
