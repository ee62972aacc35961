import Verif.Lemmas.Vec
import Mathlib.Data.List.Range
import Mathlib.Algebra.BigOperators.Group.List.Basic

/-!
# Compressed matrices as sequences of columns

A column is the list of its entries `(row, value)` in storage order.
-/

set_option linter.unusedSectionVars false

namespace Verif

variable {K : Type}

/-- Concatenation of the columns `0, …, c-1`. -/
def flatTo (col : Nat → List (Nat × K)) (c : Nat) : List (Nat × K) := (List.range c).flatMap col

@[simp] theorem flatTo_zero (col : Nat → List (Nat × K)) : flatTo col 0 = [] := rfl

theorem flatTo_succ (col : Nat → List (Nat × K)) (c : Nat) :
    flatTo col (c + 1) = flatTo col c ++ col c := by
  simp [flatTo, List.range_succ]

/-- Number of entries of the columns before `c`. -/
def offs (col : Nat → List (Nat × K)) (c : Nat) : Nat := (flatTo col c).length

@[simp] theorem offs_zero (col : Nat → List (Nat × K)) : offs col 0 = 0 := rfl

theorem offs_succ (col : Nat → List (Nat × K)) (c : Nat) :
    offs col (c + 1) = offs col c + (col c).length := by simp [offs, flatTo_succ]

theorem offs_mono (col : Nat → List (Nat × K)) {c d : Nat} (h : c ≤ d) :
    offs col c ≤ offs col d := by
  induction d, h using Nat.le_induction with
  | base => exact le_rfl
  | succ d _ ih => rw [offs_succ]; omega

theorem flatTo_prefix (col : Nat → List (Nat × K)) {c d : Nat} (h : c ≤ d) :
    flatTo col c <+: flatTo col d := by
  induction d, h using Nat.le_induction with
  | base => exact List.prefix_rfl
  | succ d _ ih => rw [flatTo_succ]; exact ih.trans (List.prefix_append _ _)

/-- Entry `q` of column `c` is entry number `offs c + q` of the concatenation. -/
theorem flatTo_get (col : Nat → List (Nat × K)) {c n q : Nat} (hc : c < n)
    (hq : q < (col c).length) : (flatTo col n)[offs col c + q]? = (col c)[q]? := by
  have h := flatTo_prefix col (c := c + 1) (d := n) hc
  obtain ⟨t, ht⟩ := h
  rw [← ht, flatTo_succ, List.append_assoc, List.getElem?_append_right (by simp [offs])]
  have e : offs col c + q - (flatTo col c).length = q := by simp [offs]
  rw [e, List.getElem?_append_left hq]

theorem flatTo_congr {col col' : Nat → List (Nat × K)} {c : Nat}
    (h : ∀ i, i < c → col i = col' i) : flatTo col c = flatTo col' c := by
  induction c with
  | zero => rfl
  | succ c ih => rw [flatTo_succ, flatTo_succ, ih (fun i hi => h i (by omega)), h c (by omega)]

theorem offs_congr {col col' : Nat → List (Nat × K)} {c : Nat}
    (h : ∀ i, i < c → col i = col' i) : offs col c = offs col' c := by
  unfold offs; rw [flatTo_congr h]

/-- The compressed matrix with given columns. -/
def Csc.ofCols [Zero K] (m n : Nat) (col : Nat → List (Nat × K)) : Csc K :=
  { m := m, n := n, jc := offs col
    ir := fun k => ((flatTo col n)[k]?.map Prod.fst).getD 0
    pr := fun k => ((flatTo col n)[k]?.map Prod.snd).getD 0 }

/-- Column `c` of a compressed matrix. -/
def Csc.col (A : Csc K) (c : Nat) : List (Nat × K) :=
  (List.range (A.jc (c + 1) - A.jc c)).map (fun q => (A.ir (A.jc c + q), A.pr (A.jc c + q)))

theorem Csc.length_col (A : Csc K) (c : Nat) : (A.col c).length = A.jc (c + 1) - A.jc c := by
  simp [Csc.col]

theorem Csc.col_get (A : Csc K) {c q : Nat} (hq : A.jc c + q < A.jc (c + 1)) :
    (A.col c)[q]? = some (A.ir (A.jc c + q), A.pr (A.jc c + q)) := by
  unfold Csc.col
  rw [List.getElem?_map, List.getElem?_range (by omega)]
  rfl

section

variable [Zero K]

theorem Csc.ofCols_ir (m n : Nat) (col : Nat → List (Nat × K)) {c q : Nat} (hc : c < n)
    {e : Nat × K} (he : (col c)[q]? = some e) :
    (Csc.ofCols m n col).ir (offs col c + q) = e.1 := by
  have hq : q < (col c).length := (List.getElem?_eq_some_iff.mp he).1
  simp only [Csc.ofCols]
  rw [flatTo_get col hc hq, he]
  rfl

theorem Csc.ofCols_pr (m n : Nat) (col : Nat → List (Nat × K)) {c q : Nat} (hc : c < n)
    {e : Nat × K} (he : (col c)[q]? = some e) :
    (Csc.ofCols m n col).pr (offs col c + q) = e.2 := by
  have hq : q < (col c).length := (List.getElem?_eq_some_iff.mp he).1
  simp only [Csc.ofCols]
  rw [flatTo_get col hc hq, he]
  rfl

theorem Csc.ofCols_col (m n : Nat) (col : Nat → List (Nat × K)) {c : Nat} (hc : c < n) :
    (Csc.ofCols m n col).col c = col c := by
  have hj : (Csc.ofCols m n col).jc = offs col := rfl
  apply List.ext_getElem?
  intro q
  by_cases hq : q < (col c).length
  · rw [Csc.col_get _ (by rw [hj, offs_succ]; omega)]
    have he : (col c)[q]? = some (col c)[q] := List.getElem?_eq_getElem hq
    rw [hj, Csc.ofCols_ir m n col hc he, Csc.ofCols_pr m n col hc he, he]
  · rw [List.getElem?_eq_none (by rw [Csc.length_col, hj, offs_succ]; omega),
      List.getElem?_eq_none (by omega)]

theorem Csc.ofCols_nnz (m n : Nat) (col : Nat → List (Nat × K)) :
    (Csc.ofCols m n col).nnz = (flatTo col n).length := rfl

theorem mem_flatTo {col : Nat → List (Nat × K)} {n : Nat} {e : Nat × K} :
    e ∈ flatTo col n ↔ ∃ c, c < n ∧ e ∈ col c := by
  simp [flatTo]

theorem Csc.ofCols_get (m n : Nat) (col : Nat → List (Nat × K)) {k : Nat}
    (hk : k < (flatTo col n).length) :
    (flatTo col n)[k]? = some ((Csc.ofCols m n col).ir k, (Csc.ofCols m n col).pr k) := by
  simp [Csc.ofCols, List.getElem?_eq_getElem hk]

theorem Csc.ofCols_wf (m n : Nat) (col : Nat → List (Nat × K))
    (h : ∀ c, c < n → ∀ e ∈ col c, e.1 < m) : (Csc.ofCols m n col).WF where
  jc0 := rfl
  mono := fun c _ => offs_mono col (Nat.le_succ c)
  ir_lt := by
    intro k hk
    have hk' : k < (flatTo col n).length := hk
    have := List.mem_of_getElem? (Csc.ofCols_get m n col hk')
    obtain ⟨c, hc, he⟩ := mem_flatTo.mp this
    exact h c hc _ he

theorem Csc.ofCols_sorted (m n : Nat) (col : Nat → List (Nat × K))
    (h : ∀ c, c < n → (col c).Pairwise (fun a b => a.1 < b.1)) :
    (Csc.ofCols m n col).Sorted := by
  intro c hc k hk1 hk2
  have hj : (Csc.ofCols m n col).jc = offs col := rfl
  rw [hj] at hk1 hk2
  rw [offs_succ] at hk2
  obtain ⟨q, rfl⟩ : ∃ q, k = offs col c + q := ⟨k - offs col c, by omega⟩
  have h1 : (col c)[q]? = some (col c)[q] := List.getElem?_eq_getElem (by omega)
  have h2 : (col c)[q + 1]? = some (col c)[q + 1] := List.getElem?_eq_getElem (by omega)
  rw [Csc.ofCols_ir m n col hc h1, Nat.add_assoc, Csc.ofCols_ir m n col hc h2]
  exact List.pairwise_iff_getElem.mp (h c hc) q (q + 1) (by omega) (by omega) (by omega)

theorem Csc.ofCols_rows (m n : Nat) (col : Nat → List (Nat × K)) :
    (Csc.ofCols m n col).RowsNonempty ↔ ∀ r, r < m → ∃ c, c < n ∧ ∃ e ∈ col c, e.1 = r := by
  constructor
  · intro h r hr
    obtain ⟨k, hk, e⟩ := h r hr
    have := List.mem_of_getElem? (Csc.ofCols_get m n col hk)
    obtain ⟨c, hc, he⟩ := mem_flatTo.mp this
    exact ⟨c, hc, _, he, e⟩
  · intro h r hr
    obtain ⟨c, hc, e, he, her⟩ := h r hr
    obtain ⟨q, hq⟩ := List.getElem?_of_mem he
    refine ⟨offs col c + q, ?_, ?_⟩
    · have h1 : q < (col c).length := (List.getElem?_eq_some_iff.mp hq).1
      have h2 := offs_mono col (c := c + 1) (d := n) hc
      rw [offs_succ] at h2
      show _ < offs col n
      omega
    · rw [Csc.ofCols_ir m n col hc hq, her]

end

/-- A well-formed matrix is determined by its columns. -/
theorem Csc.WF.offs_col {A : Csc K} (hA : A.WF) {c : Nat} (hc : c ≤ A.n) :
    offs A.col c = A.jc c := by
  induction c with
  | zero => exact hA.jc0.symm
  | succ c ih =>
    rw [offs_succ, ih (by omega), Csc.length_col]
    have := hA.mono c (by omega)
    omega

/-- Every entry number belongs to exactly one column. -/
theorem Csc.WF.exists_col {A : Csc K} (hA : A.WF) {k : Nat} (hk : k < A.nnz) :
    ∃ c, c < A.n ∧ A.jc c ≤ k ∧ k < A.jc (c + 1) := by
  unfold Csc.nnz at hk
  have key : ∀ n, n ≤ A.n → k < A.jc n → ∃ c, c < n ∧ A.jc c ≤ k ∧ k < A.jc (c + 1) := by
    intro n
    induction n with
    | zero => intro _ h; rw [hA.jc0] at h; omega
    | succ n ih =>
      intro hn h
      by_cases h' : k < A.jc n
      · obtain ⟨c, h1, h2⟩ := ih (by omega) h'
        exact ⟨c, by omega, h2⟩
      · exact ⟨n, by omega, by omega, h⟩
  exact key A.n le_rfl hk

theorem Csc.WF.flat_col {A : Csc K} (hA : A.WF) {k : Nat} (hk : k < A.nnz) :
    (flatTo A.col A.n)[k]? = some (A.ir k, A.pr k) := by
  obtain ⟨c, hc, h1, h2⟩ := hA.exists_col hk
  have := flatTo_get A.col (q := k - A.jc c) hc (by rw [Csc.length_col]; omega)
  rw [hA.offs_col (by omega), Csc.col_get A (by omega)] at this
  have e : A.jc c + (k - A.jc c) = k := by omega
  rw [e] at this
  exact this

theorem Csc.WF.col_lt {A : Csc K} (hA : A.WF) {c : Nat} (hc : c < A.n) {e : Nat × K}
    (he : e ∈ A.col c) : e.1 < A.m := by
  simp only [Csc.col, List.mem_map, List.mem_range] at he
  obtain ⟨q, hq, rfl⟩ := he
  refine hA.ir_lt _ (lt_of_lt_of_le ?_ (hA.le_nnz (c := c + 1) hc))
  omega

section Exact

open Finset

/-- Value of row `r` in a column given as a list. -/
def colSum [AddCommMonoid K] (l : List (Nat × K)) (r : Nat) : K :=
  (l.map (fun e => if e.1 = r then e.2 else 0)).sum

theorem colSum_nil [AddCommMonoid K] (r : Nat) : colSum ([] : List (Nat × K)) r = 0 := rfl

theorem colSum_cons [AddCommMonoid K] (e : Nat × K) (l : List (Nat × K)) (r : Nat) :
    colSum (e :: l) r = (if e.1 = r then e.2 else 0) + colSum l r := by
  simp [colSum]

theorem colSum_append [AddCommMonoid K] (l l' : List (Nat × K)) (r : Nat) :
    colSum (l ++ l') r = colSum l r + colSum l' r := by
  simp [colSum]

theorem sum_range_list [AddCommMonoid K] (n : Nat) (f : Nat → K) :
    ∑ i ∈ range n, f i = ((List.range n).map f).sum := by
  induction n with
  | zero => rfl
  | succ n ih => rw [sum_range_succ, List.range_succ]; simp [ih]

theorem Csc.entry_eq_colSum [AddCommMonoid K] (A : Csc K) (r c : Nat) :
    A.entry r c = colSum (A.col c) r := by
  unfold Csc.entry colSum Csc.col
  rw [sum_Ico_eq_sum_range, sum_range_list, List.map_map]
  rfl

theorem Csc.ofCols_entry [AddCommMonoid K] (m n : Nat) (col : Nat → List (Nat × K)) {c : Nat}
    (hc : c < n) (r : Nat) : (Csc.ofCols m n col).entry r c = colSum (col c) r := by
  rw [Csc.entry_eq_colSum, Csc.ofCols_col m n col hc]

theorem colSum_eq_zero [AddCommMonoid K] {l : List (Nat × K)} {r : Nat}
    (h : ∀ e ∈ l, e.1 ≠ r) : colSum l r = 0 := by
  induction l with
  | nil => rfl
  | cons e l ih =>
    rw [colSum_cons, if_neg (h e (by simp)), ih (fun e' he' => h e' (by simp [he'])), add_zero]

end Exact

/-! ## Building the arrays of a compressed matrix by appending -/

/-- The arrays begin with the entries of `l`. -/
def Pre (Ai : Buf Int) (Ax : Buf K) (l : List (Nat × K)) : Prop :=
  ∀ (k : Nat) (e : Nat × K), l[k]? = some e → Ai[k]? = some (some (e.1 : Int)) ∧ Ax[k]? = some (some e.2)

theorem Pre.nil (Ai : Buf Int) (Ax : Buf K) : Pre Ai Ax [] := by
  intro k e h
  simp at h

theorem Pre.push {Ai : Buf Int} {Ax : Buf K} {l : List (Nat × K)} (h : Pre Ai Ax l)
    {e : Nat × K} (hi : l.length < Ai.length) (hx : l.length < Ax.length) :
    Pre (Ai.set l.length (some (e.1 : Int))) (Ax.set l.length (some e.2)) (l ++ [e]) := by
  intro k e' hk
  by_cases c : k < l.length
  · rw [List.getElem?_append_left c] at hk
    rw [List.getElem?_set, List.getElem?_set, if_neg (by omega), if_neg (by omega)]
    exact h k e' hk
  · have hlt := (List.getElem?_eq_some_iff.mp hk).1
    simp only [List.length_append, List.length_singleton] at hlt
    have e1 : k = l.length := by omega
    subst e1
    rw [List.getElem?_append_right le_rfl] at hk
    simp only [Nat.sub_self, List.getElem?_cons_zero, Option.some.injEq] at hk
    subst hk
    simp [hi, hx]

/-- A buffer is determined by length and contents. -/
theorem Buf.eq_ofFn {α : Type} {b : Buf α} {n : Nat} {f : Nat → α} (h : Buf.Has b n f)
    (hl : b.length = n) : b = Buf.ofFn n f := by
  apply List.ext_getElem?
  intro i
  by_cases hi : i < n
  · rw [h i hi, Buf.has_ofFn n f i hi]
  · rw [List.getElem?_eq_none (by omega), List.getElem?_eq_none (by simp; omega)]

/-- Exactly sized arrays holding `A` are the representation of `A`. -/
theorem Smat.Is.eq_toSmat {S : Smat K} {A : Csc K} (h : S.Is A) (h1 : S.jc.length = A.n + 1)
    (h2 : S.ir.length = A.nnz) (h3 : S.pr.length = A.nnz) : S = A.toSmat := by
  cases S with
  | mk jc ir pr n m nnz =>
    obtain ⟨hm, hn, hz, hjc, hir, hpr⟩ := h
    simp only at hm hn hz hjc hir hpr h1 h2 h3
    subst hm hn hz
    simp only [Csc.toSmat]
    rw [Buf.eq_ofFn hjc h1, Buf.eq_ofFn hir h2, Buf.eq_ofFn hpr h3]

/-- Arrays that begin with the concatenation of the columns hold the matrix. -/
theorem is_ofCols [Zero K] {m n : Nat} {col : Nat → List (Nat × K)} {S : Smat K} (hm : S.m = m)
    (hn : S.n = n) (hz : S.nnz = (flatTo col n).length)
    (hjc : Buf.Has S.jc (n + 1) (fun c => (offs col c : Int)))
    (hp : Pre S.ir S.pr (flatTo col n)) : S.Is (Csc.ofCols m n col) where
  m := hm
  n := hn
  nnz := hz
  jc := hjc
  ir := fun k hk => (hp k _ (Csc.ofCols_get m n col hk)).1
  pr := fun k hk => (hp k _ (Csc.ofCols_get m n col hk)).2

end Verif
