import Mathlib.Logic.Relation
import Mathlib.Data.List.Range
import Mathlib.Tactic.Linarith

/-!
# Elimination trees

`C k` is the list of row indices of column `k` of the permuted matrix. `Fill C k j` says that
the factor has an entry in row `k` and column `j`, by the definition of symbolic elimination.
-/

namespace Verif

/-- Row `k` of the factor has an entry in column `j < k`: either the matrix has one, or it is
created when an earlier column `t` with entries in rows `j` and `k` is eliminated. -/
inductive Fill (C : Nat → List Nat) : Nat → Nat → Prop
  | base {k j : Nat} : j ∈ C k → j < k → Fill C k j
  | step {k j t : Nat} : t < j → j < k → Fill C k t → Fill C j t → Fill C k j

theorem Fill.lt {C : Nat → List Nat} {k j : Nat} (h : Fill C k j) : j < k := by
  cases h <;> assumption

open Classical in
/-- The tree as known before row `k`: `tree C k j` is the first row below `k` with an entry in
column `j`. -/
noncomputable def tree (C : Nat → List Nat) : Nat → Nat → Option Nat
  | 0 => fun _ => none
  | k + 1 => fun j => if tree C k j = none ∧ Fill C k j then some k else tree C k j

variable {C : Nat → List Nat}

theorem tree_succ_of_fill {k j : Nat} (h0 : tree C k j = none) (h : Fill C k j) :
    tree C (k + 1) j = some k := by
  simp [tree, h0, h]

theorem tree_succ_of_not {k j : Nat} (h : ¬ Fill C k j) : tree C (k + 1) j = tree C k j := by
  simp [tree, h]

theorem tree_succ_of_some {k j l : Nat} (h : tree C k j = some l) :
    tree C (k + 1) j = some l := by
  simp [tree, h]

theorem tree_mono {k k' j l : Nat} (hk : k ≤ k') (h : tree C k j = some l) :
    tree C k' j = some l := by
  induction k', hk using Nat.le_induction with
  | base => exact h
  | succ k' _ ih => exact tree_succ_of_some ih

theorem tree_spec {k j l : Nat} (h : tree C k j = some l) :
    j < l ∧ l < k ∧ Fill C l j := by
  induction k with
  | zero => simp [tree] at h
  | succ k ih =>
    by_cases hc : tree C k j = none ∧ Fill C k j
    · rw [tree_succ_of_fill hc.1 hc.2] at h
      cases h
      exact ⟨hc.2.lt, by omega, hc.2⟩
    · have : tree C (k + 1) j = tree C k j := by simp only [tree, if_neg hc]
      rw [this] at h
      obtain ⟨h1, h2, h3⟩ := ih h
      exact ⟨h1, by omega, h3⟩

theorem tree_none {k j : Nat} (h : tree C k j = none) {l : Nat} (hl : l < k) : ¬ Fill C l j := by
  induction k with
  | zero => omega
  | succ k ih =>
    intro hf
    have h0 : tree C k j = none := by
      cases hk : tree C k j with
      | none => rfl
      | some v => rw [tree_succ_of_some hk] at h; cases h
    rcases Nat.lt_or_ge l k with hlk | hlk
    · exact ih h0 hlk hf
    · have : l = k := by omega
      subst this
      rw [tree_succ_of_fill h0 hf] at h
      cases h

/-- An entry in row `l` makes `l` an ancestor: the parent path of `j` in the tree before row `k`
passes through every row `l < k` having an entry in column `j`. -/
theorem parent_le {k j l : Nat} (hl : l < k) (h : Fill C l j) :
    ∃ p, tree C k j = some p ∧ p ≤ l ∧ (p = l ∨ Fill C l p) := by
  cases hk : tree C k j with
  | none => exact absurd h (tree_none hk hl)
  | some p =>
    obtain ⟨h1, h2, h3⟩ := tree_spec hk
    rcases Nat.lt_trichotomy p l with hlt | rfl | hgt
    · exact ⟨p, rfl, hlt.le, Or.inr (Fill.step h1 hlt h h3)⟩
    · exact ⟨p, rfl, le_rfl, Or.inl rfl⟩
    · -- `l` is an earlier row with an entry, contradiction with minimality
      exfalso
      have h4 : tree C p j = none := by
        cases hp : tree C p j with
        | none => rfl
        | some q =>
          have h5 := tree_mono (k' := k) (by omega) hp
          rw [hk] at h5
          cases h5
          have := (tree_spec hp).2.1
          omega
      exact tree_none h4 hgt h

/-- The entries of row `k` are closed under the tree known before row `k`. -/
theorem Fill.closed {k j l : Nat} (h : Fill C k j) (ht : tree C k j = some l) : Fill C k l := by
  obtain ⟨h1, h2, h3⟩ := tree_spec ht
  exact Fill.step h1 h2 h h3

/-- A set of nodes below `k` closed under the tree known before row `k` contains every row below
`k` that has an entry in one of its columns. -/
theorem Fill.up {k : Nat} {W : Nat → Prop} (h1 : ∀ j l, W j → tree C k j = some l → W l)
    {j l : Nat} (hw : W j) (hl : l < k) (hf : Fill C l j) : W l := by
  have up : ∀ d j l, k - j ≤ d → W j → l < k → Fill C l j → W l := by
    intro d
    induction d with
    | zero =>
      intro j l hd _ hl hf
      have := hf.lt
      omega
    | succ d ih =>
      intro j l hd hw hl hf
      obtain ⟨p, hp, hpl, hor⟩ := parent_le hl hf
      have hwp := h1 j p hw hp
      rcases hor with rfl | hf'
      · exact hwp
      · have := (tree_spec hp).1
        exact ih p l (by omega) hwp hl hf'
  exact up _ _ _ le_rfl hw hl hf

/-- The entries of row `k` are the smallest set containing the entries of the matrix and closed
under the tree known before row `k`. -/
theorem Fill.least {k : Nat} {W : Nat → Prop} (h0 : ∀ i, i ∈ C k → i < k → W i)
    (h1 : ∀ j l, W j → tree C k j = some l → W l) {j : Nat} (h : Fill C k j) : W j := by
  generalize hk : k = k' at h
  induction h with
  | base hj hlt => subst hk; exact h0 _ hj hlt
  | step h2 h3 _ hf2 ih1 _ =>
    subst hk
    exact Fill.up h1 (ih1 rfl) h3 hf2

open Classical in
/-- Rows below `k` with an entry in column `j`. -/
noncomputable def fillRows (C : Nat → List Nat) (k j : Nat) : List Nat :=
  (List.range k).filter (fun r => decide (Fill C r j))

theorem fillRows_zero (j : Nat) : fillRows C 0 j = [] := by simp [fillRows]

theorem fillRows_succ_of {k j : Nat} (h : Fill C k j) :
    fillRows C (k + 1) j = fillRows C k j ++ [k] := by
  simp [fillRows, List.range_succ, h]

theorem fillRows_succ_not {k j : Nat} (h : ¬ Fill C k j) :
    fillRows C (k + 1) j = fillRows C k j := by
  simp [fillRows, List.range_succ, h]

theorem mem_fillRows {k j r : Nat} : r ∈ fillRows C k j ↔ r < k ∧ Fill C r j := by
  simp [fillRows]

theorem fillRows_mono {k k' j : Nat} (h : k ≤ k') :
    (fillRows C k j).length ≤ (fillRows C k' j).length := by
  induction k', h using Nat.le_induction with
  | base => exact le_rfl
  | succ k' _ ih =>
    by_cases hf : Fill C k' j
    · rw [fillRows_succ_of hf]; simp; omega
    · rw [fillRows_succ_not hf]; exact ih

theorem fillRows_sorted (k j : Nat) : (fillRows C k j).Pairwise (· < ·) := by
  unfold fillRows
  exact List.Pairwise.filter _ List.pairwise_lt_range

theorem fillRows_nil {k j : Nat} (h : k ≤ j + 1) : fillRows C k j = [] := by
  rw [List.eq_nil_iff_forall_not_mem]
  intro r hr
  obtain ⟨h1, h2⟩ := mem_fillRows.mp hr
  have := h2.lt
  omega

/-- The parent in the final tree, seen from row `k`: either `k` itself or another entry of
row `k`. -/
theorem Fill.parent {n k j : Nat} (hk : k < n) (h : Fill C k j) :
    ∃ p, tree C n j = some p ∧ j < p ∧ p ≤ k ∧ (p = k ∨ Fill C k p) := by
  obtain ⟨p, h1, h2, h3⟩ := parent_le hk h
  exact ⟨p, h1, (tree_spec h1).1, h2, h3⟩

end Verif
