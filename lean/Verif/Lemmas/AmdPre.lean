import Mathlib.Algebra.BigOperators.Intervals
import Mathlib.Data.Finset.Card
import Verif.Lemmas.AmdArr
import Verif.Model.Amd
import Verif.Spec

/-! # AMD_preprocess -/

set_option linter.unusedSectionVars false

namespace Verif

open Finset

/-- Row `r` occurs in column `c`. -/
def Csc.Mem {K : Type} (A : Csc K) (r c : Nat) : Prop :=
  ∃ k, A.jc c ≤ k ∧ k < A.jc (c + 1) ∧ A.ir k = r

theorem incr_ok {b : Buf Int} {len m i : Int} (h : Arr b len m) (h0 : 0 ≤ i) (h1 : i < m)
    (hb : -Int_MAX - 1 ≤ b.at i + 1 ∧ b.at i + 1 ≤ Int_MAX) :
    incr b i = .ok (b.put i (b.at i + 1)) := by
  have := h.m_le (by omega)
  unfold incr
  rw [h.rd h0 h1, ok_bind, ck_bind hb, h.wr h0 (by omega)]

section

variable {N : Nat} {A : Csc Unit}

open Classical in
/-- Number of the first `j` columns in which row `i` occurs. -/
noncomputable def Csc.cnt (A : Csc Unit) (i j : Nat) : Nat := #{c ∈ range j | A.Mem i c}

theorem Csc.cnt_zero (A : Csc Unit) (i : Nat) : A.cnt i 0 = 0 := by simp [Csc.cnt]

open Classical in
theorem Csc.cnt_succ (A : Csc Unit) (i j : Nat) :
    A.cnt i (j + 1) = A.cnt i j + if A.Mem i j then 1 else 0 := by
  unfold Csc.cnt
  rw [range_add_one, filter_insert]
  by_cases h : A.Mem i j
  · rw [if_pos h, if_pos h, card_insert_of_notMem (by simp)]
  · rw [if_neg h, if_neg h, Nat.add_zero]

open Classical in
theorem Csc.cnt_mono (A : Csc Unit) (i : Nat) {j k : Nat} (h : j ≤ k) : A.cnt i j ≤ A.cnt i k := by
  unfold Csc.cnt
  exact card_le_card (filter_subset_filter _ (range_subset_range.mpr h))

theorem Csc.cnt_lt (A : Csc Unit) {i j k : Nat} (h : j < k) (hm : A.Mem i j) :
    A.cnt i j < A.cnt i k := by
  have h1 := A.cnt_succ i j
  rw [if_pos hm] at h1
  have h2 := A.cnt_mono i (show j + 1 ≤ k from h)
  omega

theorem Csc.cnt_surj (A : Csc Unit) (i : Nat) :
    ∀ j t, t < A.cnt i j → ∃ c, c < j ∧ A.Mem i c ∧ A.cnt i c = t := by
  intro j
  induction j with
  | zero => intro t ht; rw [A.cnt_zero] at ht; omega
  | succ j ih =>
    intro t ht
    rw [A.cnt_succ] at ht
    by_cases h : t < A.cnt i j
    · obtain ⟨c, h1, h2, h3⟩ := ih t h
      exact ⟨c, by omega, h2, h3⟩
    · by_cases hm : A.Mem i j
      · rw [if_pos hm] at ht
        exact ⟨j, by omega, hm, by omega⟩
      · rw [if_neg hm] at ht
        omega

/-- Row `i` occurs in column `j` before position `p`. -/
def Csc.Seen (A : Csc Unit) (j p i : Nat) : Prop := ∃ k, A.jc j ≤ k ∧ k < p ∧ A.ir k = i

theorem Csc.seen_succ (A : Csc Unit) {j p i : Nat} (h : A.jc j ≤ p) :
    A.Seen j (p + 1) i ↔ A.Seen j p i ∨ A.ir p = i := by
  constructor
  · rintro ⟨k, h1, h2, h3⟩
    by_cases e : k = p
    · subst e; exact Or.inr h3
    · exact Or.inl ⟨k, h1, by omega, h3⟩
  · rintro (⟨k, h1, h2, h3⟩ | h3)
    · exact ⟨k, h1, by omega, h3⟩
    · exact ⟨p, h, by omega, h3⟩

theorem Csc.WF.jc_le {K : Type} {A : Csc K} (hA : A.WF) {a b : Nat} (h : a ≤ b) (hb : b ≤ A.n) :
    A.jc a ≤ A.jc b := by
  induction b, h using Nat.le_induction with
  | base => exact le_rfl
  | succ b hab ih => exact (ih (by omega)).trans (hA.mono b (by omega))

theorem Csc.Mem.row_lt {K : Type} {A : Csc K} (hA : A.WF) {i c : Nat} (hc : c < A.n)
    (h : A.Mem i c) : i < A.m := by
  obtain ⟨k, h1, h2, rfl⟩ := h
  exact hA.ir_lt k (lt_of_lt_of_le h2 (hA.jc_le (by omega) le_rfl))

variable (hA : A.WF) (hn : A.n = N) (hm : A.m = N) {Ap Ai : Buf Int}
  (hp : Buf.Has Ap (N + 1) (fun i => (A.jc i : Int)))
  (hi : Buf.Has Ai A.nnz (fun k => (A.ir k : Int)))

/-- `Flag` while column `j` is scanned, before position `p`. -/
structure FlagInv (A : Csc Unit) (N j p : Nat) (Flag : Buf Int) (len : Int) : Prop where
  arr : Arr Flag len N
  seen : ∀ i : Nat, i < N → A.Seen j p i → Flag.at i = j
  old : ∀ i : Nat, i < N → ¬ A.Seen j p i → Flag.at i < j

theorem FlagInv.ne_iff {j p : Nat} {Flag : Buf Int} {len : Int} (h : FlagInv A N j p Flag len)
    {i : Nat} (hi : i < N) : Flag.at i ≠ j ↔ ¬ A.Seen j p i := by
  constructor
  · intro h1 h2; exact h1 (h.seen i hi h2)
  · intro h1
    have := h.old i hi h1
    omega

theorem FlagInv.step {j p : Nat} {Flag : Buf Int} {len : Int} (h : FlagInv A N j p Flag len)
    (hN : (N : Int) ≤ len) (hjp : A.jc j ≤ p) (hi : A.ir p < N) :
    FlagInv A N j (p + 1) (Flag.put (A.ir p) j) len := by
  refine ⟨h.arr.put (by omega) (by omega) _, ?_, ?_⟩
  · intro i hi' hs
    rw [h.arr.at_put (by omega) (by omega)]
    by_cases e : (i : Int) = (A.ir p : Int)
    · rw [if_pos e]
    · rw [if_neg e]
      rcases (A.seen_succ hjp).mp hs with hs | hs
      · exact h.seen i hi' hs
      · exact absurd (by rw [hs]) e
  · intro i hi' hs
    rw [A.seen_succ hjp] at hs
    push Not at hs
    rw [h.arr.at_put (by omega) (by omega), if_neg (by have := hs.2; omega)]
    exact h.old i hi' hs.1

theorem FlagInv.skip {j p : Nat} {Flag : Buf Int} {len : Int} (h : FlagInv A N j p Flag len)
    (hjp : A.jc j ≤ p) (hs : A.Seen j p (A.ir p)) : FlagInv A N j (p + 1) Flag len := by
  have : ∀ i, A.Seen j (p + 1) i ↔ A.Seen j p i := by
    intro i
    rw [A.seen_succ hjp]
    constructor
    · rintro (h | h)
      · exact h
      · rwa [← h]
    · exact Or.inl
  refine ⟨h.arr, fun i hi' h' => h.seen i hi' ((this i).mp h'), fun i hi' h' => h.old i hi' ?_⟩
  rwa [this] at h'

theorem FlagInv.next {j : Nat} {Flag : Buf Int} {len : Int}
    (h : FlagInv A N j (A.jc (j + 1)) Flag len) : FlagInv A N (j + 1) (A.jc (j + 1)) Flag len := by
  refine ⟨h.arr, ?_, ?_⟩
  · rintro i hi ⟨k, h1, h2, _⟩
    omega
  · intro i hi _
    by_cases hs : A.Seen j (A.jc (j + 1)) i
    · have := h.seen i hi hs
      push_cast
      omega
    · have := h.old i hi hs
      push_cast
      omega

theorem FlagInv.start {Flag : Buf Int} {len : Int} (h : Arr Flag len N)
    (he : ∀ i : Nat, i < N → Flag.at i = EMPTY) : FlagInv A N 0 (A.jc 0) Flag len := by
  refine ⟨h, ?_, ?_⟩
  · rintro i hi ⟨k, h1, h2, _⟩
    omega
  · intro i hi _
    rw [he i hi]
    decide

open Classical in
/-- Number of occurrences of row `i` counted when column `j` is scanned before position `p`. -/
noncomputable def Csc.cntAt (A : Csc Unit) (i j p : Nat) : Nat :=
  A.cnt i j + if A.Seen j p i then 1 else 0

theorem Csc.cntAt_start (A : Csc Unit) (i j : Nat) : A.cntAt i j (A.jc j) = A.cnt i j := by
  unfold Csc.cntAt
  rw [if_neg (by rintro ⟨k, h1, h2, _⟩; omega), Nat.add_zero]

theorem Csc.cntAt_end (A : Csc Unit) (i j : Nat) :
    A.cntAt i j (A.jc (j + 1)) = A.cnt i (j + 1) := by
  unfold Csc.cntAt
  rw [A.cnt_succ]
  rfl

theorem Csc.cntAt_new (A : Csc Unit) {j p : Nat} (h : A.jc j ≤ p)
    (i : Nat) : A.cntAt i j (p + 1) = if i = A.ir p then A.cnt i j + 1 else A.cntAt i j p := by
  unfold Csc.cntAt
  by_cases e : i = A.ir p
  · subst e
    rw [if_pos rfl, if_pos ((A.seen_succ h).mpr (Or.inr rfl))]
  · rw [if_neg e]
    congr 2
    rw [A.seen_succ h]
    exact propext ⟨fun h' => h'.resolve_right (fun h'' => e h''.symm), Or.inl⟩

theorem Csc.cntAt_skip (A : Csc Unit) {j p : Nat} (h : A.jc j ≤ p) (hs : A.Seen j p (A.ir p))
    (i : Nat) : A.cntAt i j (p + 1) = A.cntAt i j p := by
  unfold Csc.cntAt
  congr 2
  rw [A.seen_succ h]
  exact propext ⟨fun h' => h'.elim id (fun h'' => h'' ▸ hs), Or.inl⟩

include hA hn hm hp hi

/-- Row pointers of the transposed pattern. -/
noncomputable def Csc.rowPtr (A : Csc Unit) (i : Nat) : Nat := ∑ r ∈ range i, A.cnt r A.n

omit hA hn hm hp hi in
theorem Csc.rowPtr_succ (A : Csc Unit) (i : Nat) :
    A.rowPtr (i + 1) = A.rowPtr i + A.cnt i A.n := by
  unfold Csc.rowPtr
  rw [sum_range_succ]

omit hA hn hm hp hi in
theorem Csc.rowPtr_mono (A : Csc Unit) {i k : Nat} (h : i ≤ k) : A.rowPtr i ≤ A.rowPtr k := by
  induction k, h using Nat.le_induction with
  | base => exact le_rfl
  | succ k _ ih => rw [A.rowPtr_succ]; omega

omit hA hn hm hp hi in
/-- Two occurrences have different positions in the transposed pattern. -/
theorem Csc.pos_inj (A : Csc Unit) {i i' c c' : Nat} (hc : c < A.n) (hc' : c' < A.n)
    (h : A.Mem i c) (h' : A.Mem i' c')
    (e : A.rowPtr i + A.cnt i c = A.rowPtr i' + A.cnt i' c') : i = i' ∧ c = c' := by
  have h1 := A.cnt_lt hc h
  have h2 := A.cnt_lt hc' h'
  have h3 := A.rowPtr_succ i
  have h4 := A.rowPtr_succ i'
  have hii : i = i' := by
    rcases Nat.lt_trichotomy i i' with h | h | h
    · have := A.rowPtr_mono (show i + 1 ≤ i' from h)
      omega
    · exact h
    · have := A.rowPtr_mono (show i' + 1 ≤ i from h)
      omega
  subst hii
  refine ⟨rfl, ?_⟩
  rcases Nat.lt_trichotomy c c' with hlt | hlt | hlt
  · have := A.cnt_lt hlt h
    omega
  · exact hlt
  · have := A.cnt_lt hlt h'
    omega

omit hp hi in
/-- The number of distinct entries is at most the number of stored entries. -/
theorem Csc.rowPtr_le_nnz : A.rowPtr N ≤ A.nnz := by
  classical
  have h1 : A.rowPtr N = #(((range N) ×ˢ (range N)).filter (fun x => A.Mem x.1 x.2)) := by
    unfold Csc.rowPtr
    rw [card_filter, sum_product]
    refine sum_congr rfl (fun i _ => ?_)
    unfold Csc.cnt
    rw [hn, card_filter]
  rw [h1]
  have : ∀ x ∈ ((range N) ×ˢ (range N)).filter (fun x => A.Mem x.1 x.2),
      ∃ k ∈ range A.nnz, A.jc x.2 ≤ k ∧ k < A.jc (x.2 + 1) ∧ A.ir k = x.1 := by
    intro x hx
    simp only [mem_filter, mem_product, mem_range] at hx
    obtain ⟨k, h1, h2, h3⟩ := hx.2
    exact ⟨k, mem_range.mpr (lt_of_lt_of_le h2 (hA.jc_le (by omega) le_rfl)), h1, h2, h3⟩
  choose! f hf using this
  rw [← card_range A.nnz]
  refine card_le_card_of_injOn f (fun x hx => (hf x hx).1) ?_
  intro x hx y hy e
  obtain ⟨-, a1, a2, a3⟩ := hf x hx
  obtain ⟨-, b1, b2, b3⟩ := hf y hy
  have hx' := (mem_filter.mp hx).1
  have hy' := (mem_filter.mp hy).1
  simp only [mem_product, mem_range] at hx' hy'
  rw [e] at a1 a2 a3
  have hc : x.2 = y.2 := by
    rcases Nat.lt_trichotomy x.2 y.2 with h | h | h
    · have := hA.jc_le (show x.2 + 1 ≤ y.2 from h) (by omega)
      omega
    · exact h
    · have := hA.jc_le (show y.2 + 1 ≤ x.2 from h) (by omega)
      omega
  exact Prod.ext (by rw [← a3, ← b3]) hc

omit hp hi in
/-- A count after one more occurrence is at most the number of stored entries. -/
theorem Csc.cnt_succ_le_nnz {i j : Nat} (hi : i < N) (hj : j < N) (h : A.Mem i j) :
    A.rowPtr i + A.cnt i j + 1 ≤ A.nnz := by
  have q1 := A.cnt_lt (show j < A.n by omega) h
  have q2 := A.rowPtr_succ i
  have q3 := A.rowPtr_mono (show i + 1 ≤ N from hi)
  have q4 := Csc.rowPtr_le_nnz hA hn hm
  omega

theorem preCountCol_spec (hB : (A.nnz : Int) ≤ Int_MAX) {j : Nat} (hj : j < N) {W Flag : Buf Int} {lw lf : Int} (hlw : (N : Int) ≤ lw)
    (hlf : (N : Int) ≤ lf) (hW : Arr W lw N) (hWv : ∀ i : Nat, i < N → W.at i = A.cnt i j)
    (hF : FlagInv A N j (A.jc j) Flag lf) :
    Spec (preCountCol Ap Ai j (W, Flag)) (fun st => Arr st.1 lw N ∧
      (∀ i : Nat, i < N → st.1.at i = A.cnt i (j + 1)) ∧
      FlagInv A N (j + 1) (A.jc (j + 1)) st.2 lf) := by
  unfold preCountCol
  have e1 : rd Ap ((j : Int) + 1) = .ok (A.jc (j + 1) : Int) := by
    have := hp.rd (i := j + 1) (by omega)
    push_cast at this
    exact this
  rw [e1, ok_bind, hp.rd (show j < N + 1 by omega), ok_bind]
  refine (forI_spec (hA.mono j (by omega)) (fun p (st : Buf Int × Buf Int) => Arr st.1 lw N ∧
    (∀ i : Nat, i < N → st.1.at i = (A.cntAt i j p : Int)) ∧ FlagInv A N j p st.2 lf) ?_ ?_).mono ?_
  · exact ⟨hW, fun i hi' => by rw [hWv i hi', A.cntAt_start], hF⟩
  · rintro p ⟨W, Flag⟩ h1 h2 ⟨hW, hWv, hF⟩
    simp only at hW hWv hF ⊢
    have hpn : p < A.nnz := lt_of_lt_of_le h2 (hA.jc_le (by omega) le_rfl)
    have hir : A.ir p < N := hm ▸ hA.ir_lt p hpn
    rw [hi.rd hpn, ok_bind, hF.arr.rd (by omega) (by omega), ok_bind]
    by_cases hs : A.Seen j p (A.ir p)
    · rw [if_neg (by rw [(hF.seen _ hir hs)]; simp)]
      exact Spec.ok ⟨hW, fun i hi' => by rw [hWv i hi', A.cntAt_skip h1 hs], hF.skip h1 hs⟩
    · have hle := Csc.cnt_succ_le_nnz hA hn hm hir hj ⟨p, h1, h2, rfl⟩
      have hca : A.cntAt (A.ir p) j p = A.cnt (A.ir p) j := by
        unfold Csc.cntAt
        rw [if_neg hs, Nat.add_zero]
      have hw := hWv _ hir
      rw [hca] at hw
      rw [if_pos ((hF.ne_iff hir).mpr hs), incr_ok hW (by omega) (by omega) (by omega), ok_bind,
        hF.arr.wr (by omega) (by omega), ok_bind]
      refine Spec.ok ⟨hW.put (by omega) (by omega) _, fun i hi' => ?_, hF.step hlf h1 hir⟩
      rw [hW.at_put (by omega) (by omega), A.cntAt_new h1]
      by_cases e : i = A.ir p
      · subst e
        rw [if_pos rfl, if_pos rfl, hWv _ hir]
        unfold Csc.cntAt
        rw [if_neg hs]
        push_cast
        omega
      · rw [if_neg (by omega), if_neg e, hWv i hi']
  · rintro ⟨W, Flag⟩ ⟨hW, hWv, hF⟩
    exact ⟨hW, fun i hi' => by rw [hWv i hi', A.cntAt_end], hF.next⟩

theorem preFillCol_spec (hB : (A.nnz : Int) ≤ Int_MAX) {j : Nat} (hj : j < N) {Ri W Flag : Buf Int} {lr lw lf : Int}
    (hlr : (A.rowPtr N : Int) ≤ lr) (hlw : (N : Int) ≤ lw) (hlf : (N : Int) ≤ lf)
    (hR : (Ri.length : Int) = lr)
    (hRv : ∀ i c : Nat, i < N → c < j → A.Mem i c →
      Ri[A.rowPtr i + A.cnt i c]? = some (some (c : Int)))
    (hW : Arr W lw N) (hWv : ∀ i : Nat, i < N → W.at i = (A.rowPtr i + A.cnt i j : Nat))
    (hF : FlagInv A N j (A.jc j) Flag lf) :
    Spec (preFillCol Ap Ai j (Ri, W, Flag)) (fun st => (st.1.length : Int) = lr ∧
      (∀ i c : Nat, i < N → c < j + 1 → A.Mem i c →
        st.1[A.rowPtr i + A.cnt i c]? = some (some (c : Int))) ∧
      Arr st.2.1 lw N ∧
      (∀ i : Nat, i < N → st.2.1.at i = (A.rowPtr i + A.cnt i (j + 1) : Nat)) ∧
      FlagInv A N (j + 1) (A.jc (j + 1)) st.2.2 lf) := by
  unfold preFillCol
  have e1 : rd Ap ((j : Int) + 1) = .ok (A.jc (j + 1) : Int) := by
    have := hp.rd (i := j + 1) (by omega)
    push_cast at this
    exact this
  rw [e1, ok_bind, hp.rd (show j < N + 1 by omega), ok_bind]
  refine (forI_spec (hA.mono j (by omega)) (fun p (st : Buf Int × Buf Int × Buf Int) => (st.1.length : Int) = lr ∧
    (∀ i c : Nat, i < N → (c < j ∨ c = j ∧ A.Seen j p i) → A.Mem i c →
        st.1[A.rowPtr i + A.cnt i c]? = some (some (c : Int))) ∧ Arr st.2.1 lw N ∧
    (∀ i : Nat, i < N → st.2.1.at i = ((A.rowPtr i + A.cntAt i j p : Nat) : Int)) ∧
    FlagInv A N j p st.2.2 lf) ?_ ?_).mono ?_
  · refine ⟨hR, ?_, hW, fun i hi' => by rw [hWv i hi', A.cntAt_start], hF⟩
    rintro i c hi' (h | ⟨rfl, ⟨k, h1, h2, -⟩⟩) hmem
    · exact hRv i c hi' h hmem
    · omega
  · rintro p ⟨Ri, W, Flag⟩ h1 h2 ⟨hR, hRv, hW, hWv, hF⟩
    simp only at hR hRv hW hWv hF ⊢
    have hpn : p < A.nnz := lt_of_lt_of_le h2 (hA.jc_le (by omega) le_rfl)
    have hir : A.ir p < N := hm ▸ hA.ir_lt p hpn
    rw [hi.rd hpn, ok_bind, hF.arr.rd (by omega) (by omega), ok_bind]
    by_cases hs : A.Seen j p (A.ir p)
    · rw [if_neg (by rw [(hF.seen _ hir hs)]; simp)]
      refine Spec.ok ⟨hR, ?_, hW, fun i hi' => by rw [hWv i hi', A.cntAt_skip h1 hs],
        hF.skip h1 hs⟩
      intro i c hi' hc hmem
      refine hRv i c hi' (hc.imp_right fun ⟨h, h'⟩ => ⟨h, ?_⟩) hmem
      rcases (A.seen_succ h1).mp h' with h' | h'
      · exact h'
      · rw [← h']; exact hs
    · have hmem : A.Mem (A.ir p) j := ⟨p, h1, h2, rfl⟩
      have hca : A.cntAt (A.ir p) j p = A.cnt (A.ir p) j := by
        unfold Csc.cntAt
        rw [if_neg hs, Nat.add_zero]
      have hpos : A.rowPtr (A.ir p) + A.cnt (A.ir p) j < Ri.length := by
        have q1 := A.cnt_lt (show j < A.n by omega) hmem
        have q2 := A.rowPtr_succ (A.ir p)
        have q3 := A.rowPtr_mono (show A.ir p + 1 ≤ N from hir)
        omega
      have hle := Csc.cnt_succ_le_nnz hA hn hm hir hj hmem
      rw [if_pos ((hF.ne_iff hir).mpr hs), hW.rd (by omega) (by omega), ok_bind, hWv _ hir, hca,
        ck_bind (by omega), wr_ok hpos, ok_bind, hW.wr (by omega) (by omega), ok_bind, hF.arr.wr (by omega) (by omega),
        ok_bind]
      refine Spec.ok ⟨by simpa using hR, ?_, hW.put (by omega) (by omega) _, fun i hi' => ?_,
        hF.step hlf h1 hir⟩
      · intro i c hi' hc hmem'
        simp only
        rw [List.getElem?_set]
        by_cases e : A.rowPtr (A.ir p) + A.cnt (A.ir p) j = A.rowPtr i + A.cnt i c
        · have := A.pos_inj (by omega) (by omega) hmem hmem' e
          rw [if_pos e, if_pos hpos, this.2]
        · rw [if_neg e]
          refine hRv i c hi' (hc.imp_right fun ⟨h, h'⟩ => ⟨h, ?_⟩) hmem'
          rcases (A.seen_succ h1).mp h' with h' | h'
          · exact h'
          · subst h' h; exact absurd rfl e
      · rw [hW.at_put (by omega) (by omega), A.cntAt_new h1]
        by_cases e : i = A.ir p
        · subst e
          rw [if_pos rfl, if_pos rfl]
          push_cast
          omega
        · rw [if_neg (by omega), if_neg e, hWv i hi']
  · rintro ⟨Ri, W, Flag⟩ ⟨hR, hRv, hW, hWv, hF⟩
    refine ⟨hR, ?_, hW, fun i hi' => by rw [hWv i hi', A.cntAt_end], hF.next⟩
    intro i c hi' hc hmem
    by_cases e : c = j
    · exact hRv i c hi' (Or.inr ⟨e, e ▸ hmem⟩) hmem
    · exact hRv i c hi' (Or.inl (by omega)) hmem

/-- The transposed pattern, sorted and without duplicates. -/
noncomputable def Csc.rowForm (A : Csc Unit) (Ri : Buf Int) : Csc Unit :=
  { m := A.n, n := A.m, jc := A.rowPtr, ir := fun k => (Ri.at k).toNat, pr := fun _ => () }

theorem AMD_preprocess_spec (hB : (A.nnz : Int) ≤ Int_MAX) {Rp Ri W Flag : Buf Int} (hRp : Rp.length = N + 1)
    (hRi : A.nnz ≤ Ri.length) (hW : W.length = N) (hF : Flag.length = N) :
    Spec (AMD_preprocess N Ap Ai Rp Ri W Flag) (fun o => ∃ R : Csc Unit,
      R.WF ∧ R.n = N ∧ R.m = N ∧ R.Sorted ∧ (∀ r c, r < N → c < N → (R.Mem r c ↔ A.Mem c r)) ∧
      Buf.Has o.1 (N + 1) (fun i => (R.jc i : Int)) ∧
      Buf.Has o.2.1 R.nnz (fun k => (R.ir k : Int)) ∧
      o.1.length = N + 1 ∧ o.2.1.length = Ri.length ∧ o.2.2.1.length = N ∧ o.2.2.2.length = N) := by
  unfold AMD_preprocess
  refine Spec.bind (forI_int (Int.natCast_nonneg N) (fun j (st : Buf Int × Buf Int) =>
    Arr st.1 N j ∧ Arr st.2 N j ∧ ∀ i : Int, 0 ≤ i → i < j → st.1.at i = 0 ∧ st.2.at i = EMPTY)
    ?_ ?_) ?_
  · exact ⟨⟨by simp only; omega, fun i h0 h1 => by omega⟩,
      ⟨by simp only; omega, fun i h0 h1 => by omega⟩,
      fun i h0 h1 => by omega⟩
  · rintro j ⟨W, F⟩ h1 h2 ⟨hW, hF, hv⟩
    simp only at hW hF hv ⊢
    rw [hW.wr h1 h2, ok_bind, hF.wr h1 h2, ok_bind]
    refine Spec.ok ⟨hW.push h1 h2 _, hF.push h1 h2 _, ?_⟩
    intro i h0 h1'
    simp only
    rw [hW.at_put h1 h2, hF.at_put h1 h2]
    by_cases e : i = j
    · rw [if_pos e, if_pos e]; exact ⟨rfl, rfl⟩
    · rw [if_neg e, if_neg e]
      exact hv i h0 (by omega)
  rintro ⟨W, F⟩ ⟨hW, hF, hv⟩
  simp only at hW hF hv
  refine Spec.bind (forI_spec (lo := 0) (Nat.zero_le N) (fun j (st : Buf Int × Buf Int) =>
    Arr st.1 N N ∧ (∀ i : Nat, i < N → st.1.at i = (A.cnt i j : Int)) ∧
      FlagInv A N j (A.jc j) st.2 N) ?_ ?_) ?_
  · exact ⟨hW, fun i hi' => by rw [(hv i (by omega) (by omega)).1, A.cnt_zero]; rfl,
      FlagInv.start hF (fun i hi' => (hv i (by omega) (by omega)).2)⟩
  · rintro j ⟨W, F⟩ - hj ⟨hW, hWv, hF⟩
    exact preCountCol_spec hA hn hm hp hi hB hj le_rfl le_rfl hW hWv hF
  rintro ⟨W, F⟩ ⟨hW, hWv, hF⟩
  simp only at hW hWv hF
  have hRpA : Arr Rp (N + 1) 0 := ⟨by rw [hRp]; push_cast; rfl, fun i h0 h1 => by omega⟩
  rw [hRpA.wr le_rfl (by omega), ok_bind]
  refine Spec.bind (forI_spec (lo := 0) (Nat.zero_le N) (fun j (Rp : Buf Int) =>
    Arr Rp (N + 1) (j + 1) ∧ (∀ i : Nat, i ≤ j → Rp.at i = (A.rowPtr i : Int))) ?_ ?_) ?_
  · refine ⟨by simpa using hRpA.push le_rfl (by omega) 0, ?_⟩
    intro i hi'
    have : i = 0 := by omega
    subst this
    rw [hRpA.at_put le_rfl (by omega)]
    simp [Csc.rowPtr]
  · rintro j Rp - hj ⟨hR, hRv⟩
    have q1 := hRv j le_rfl
    have q2 := hWv j hj
    have q3 := A.rowPtr_succ j
    have q4 := A.rowPtr_mono (show j + 1 ≤ N from hj)
    have q5 := Csc.rowPtr_le_nnz hA hn hm
    rw [hn] at q3
    rw [hR.rd (by omega) (by omega), ok_bind, hW.rd (by omega) (by omega), ok_bind, ck_bind (by omega),
      hR.wr (by omega) (by omega)]
    refine Spec.ok ⟨by simpa using hR.push (by omega) (by omega) _, ?_⟩
    intro i hi'
    rw [hR.at_put (by omega) (by omega)]
    by_cases e : i = j + 1
    · subst e
      rw [if_pos (by push_cast; rfl), hRv j le_rfl, hWv j hj, A.rowPtr_succ, hn]
      push_cast
      rfl
    · rw [if_neg (by omega)]
      exact hRv i (by omega)
  rintro Rp' ⟨hR, hRv⟩
  refine Spec.bind (forI_int (Int.natCast_nonneg N) (fun j (st : Buf Int × Buf Int) =>
    Arr st.1 N N ∧ Arr st.2 N N ∧
      ∀ i : Int, 0 ≤ i → i < j → st.1.at i = Rp'.at i ∧ st.2.at i = EMPTY) ?_ ?_) ?_
  · exact ⟨hW, hF.arr, fun i h0 h1 => by omega⟩
  · rintro j ⟨W, F⟩ h1 h2 ⟨hW, hF, hv⟩
    simp only at hW hF hv ⊢
    rw [hR.rd h1 (by omega), ok_bind, hW.wr h1 h2, ok_bind, hF.wr h1 h2, ok_bind]
    refine Spec.ok ⟨hW.put h1 h2 _, hF.put h1 h2 _, ?_⟩
    intro i h0 h1'
    simp only
    rw [hW.at_put h1 h2, hF.at_put h1 h2]
    by_cases e : i = j
    · rw [if_pos e, if_pos e, e]; exact ⟨rfl, rfl⟩
    · rw [if_neg e, if_neg e]
      exact hv i h0 (by omega)
  rintro ⟨W, F⟩ ⟨hW, hF, hv⟩
  simp only at hW hF hv
  have hnnz := Csc.rowPtr_le_nnz hA hn hm
  refine Spec.bind (forI_spec (lo := 0) (Nat.zero_le N)
    (fun j (st : Buf Int × Buf Int × Buf Int) => (st.1.length : Int) = Ri.length ∧
      (∀ i c : Nat, i < N → c < j → A.Mem i c →
        st.1[A.rowPtr i + A.cnt i c]? = some (some (c : Int))) ∧
      Arr st.2.1 N N ∧ (∀ i : Nat, i < N → st.2.1.at i = ((A.rowPtr i + A.cnt i j : Nat) : Int)) ∧
      FlagInv A N j (A.jc j) st.2.2 N) ?_ ?_) ?_
  · refine ⟨rfl, fun i c _ h => by omega, hW, ?_,
      FlagInv.start hF (fun i hi' => (hv i (by omega) (by omega)).2)⟩
    intro i hi'
    rw [A.cnt_zero, (hv i (by omega) (by omega)).1, hRv i (by omega)]
    rfl
  · rintro j ⟨Ri', W, F⟩ - hj ⟨h1, h2, h3, h4, h5⟩
    exact preFillCol_spec hA hn hm hp hi hB hj (by omega) le_rfl le_rfl h1 h2 h3 h4 h5
  rintro ⟨Ri', W, F⟩ ⟨h1, h2, h3, -, h5⟩
  simp only at h1 h2 h3 h5
  -- every position holds a column number
  have hpos : ∀ k, k < A.rowPtr N → ∃ i c, i < N ∧ c < N ∧ A.Mem i c ∧ k = A.rowPtr i + A.cnt i c := by
    intro k hk
    have : ∀ n, k < A.rowPtr n → ∃ i, i < n ∧ A.rowPtr i ≤ k ∧ k < A.rowPtr (i + 1) := by
      intro n
      induction n with
      | zero => intro h; simp [Csc.rowPtr] at h
      | succ n ih =>
        intro h
        by_cases h' : k < A.rowPtr n
        · obtain ⟨i, a, b, c⟩ := ih h'
          exact ⟨i, by omega, b, c⟩
        · exact ⟨n, by omega, by omega, h⟩
    obtain ⟨i, a, b, c⟩ := this N hk
    rw [A.rowPtr_succ] at c
    obtain ⟨c', hc1, hc2, hc3⟩ := A.cnt_surj i A.n (k - A.rowPtr i) (by omega)
    exact ⟨i, c', a, by omega, hc2, by omega⟩
  have hat : ∀ i c, i < N → c < N → A.Mem i c →
      Ri'.at ((A.rowPtr i + A.cnt i c : Nat) : Int) = c := by
    intro i c hi' hc hmem
    exact Buf.at_of_some (by omega) (by rw [Int.toNat_natCast]; exact h2 i c hi' hc hmem)
  have hlt : ∀ i c, c < N → A.Mem i c → A.rowPtr i + A.cnt i c < A.rowPtr (i + 1) := by
    intro i c hc hmem
    have := A.cnt_lt (show c < A.n by omega) hmem
    rw [A.rowPtr_succ]
    omega
  have hrow : ∀ i c r k, A.rowPtr i + A.cnt i c = k → c < N → A.Mem i c → A.rowPtr r ≤ k →
      k < A.rowPtr (r + 1) → i = r := by
    intro i c r k e hc hmem h1 h2
    have := hlt i c hc hmem
    rcases Nat.lt_trichotomy i r with h | h | h
    · have := A.rowPtr_mono (show i + 1 ≤ r from h); omega
    · exact h
    · have := A.rowPtr_mono (show r + 1 ≤ i from h); omega
  refine Spec.ok ⟨A.rowForm Ri', ?_, hm, hn, ?_, ?_, ?_, ?_, ?_, ?_, ?_, ?_⟩
  · refine ⟨by simp [Csc.rowForm, Csc.rowPtr], fun c _ => A.rowPtr_mono (by omega), ?_⟩
    intro k hk
    simp only [Csc.rowForm] at hk ⊢
    rw [hm] at hk
    obtain ⟨i, c, q1, q2, q3, rfl⟩ := hpos k hk
    rw [hat i c q1 q2 q3]
    omega
  · intro r hr k hk1 hk2
    simp only [Csc.rowForm] at hr hk1 hk2 ⊢
    rw [hm] at hr
    have hN := A.rowPtr_mono (show r + 1 ≤ N from hr)
    obtain ⟨i, c, q1, q2, q3, q4⟩ := hpos k (by omega)
    obtain ⟨i', c', q1', q2', q3', q4'⟩ := hpos (k + 1) (by omega)
    have hir := hrow i c r k q4.symm q2 q3 (by omega) (by omega)
    have hir' := hrow i' c' r (k + 1) q4'.symm q2' q3' (by omega) (by omega)
    subst hir
    subst hir'
    have e1 := hat i' c q1 q2 q3
    have e2 := hat i' c' q1 q2' q3'
    rw [← q4] at e1
    rw [← q4'] at e2
    rw [e1, e2]
    simp only [Int.toNat_natCast]
    rcases Nat.lt_trichotomy c c' with h | h | h
    · exact h
    · subst h; omega
    · have := A.cnt_lt h q3'; omega
  · intro r c hr hc
    constructor
    · rintro ⟨k, k1, k2, k3⟩
      simp only [Csc.rowForm] at k1 k2 k3
      have hN := A.rowPtr_mono (show c + 1 ≤ N from hc)
      obtain ⟨i, c', q1, q2, q3, q4⟩ := hpos k (by omega)
      have hic := hrow i c' c k q4.symm q2 q3 k1 k2
      have e1 := hat i c' q1 q2 q3
      rw [← q4] at e1
      rw [e1] at k3
      simp only [Int.toNat_natCast] at k3
      rw [← hic, ← k3]
      exact q3
    · intro hmem
      refine ⟨A.rowPtr c + A.cnt c r, ?_, ?_, ?_⟩
      · simp only [Csc.rowForm]; omega
      · exact hlt c r hr hmem
      · simp only [Csc.rowForm]
        rw [hat c r hc hr hmem]
        simp
  · intro i hi'
    have := hR.init (i : Int) (by omega) (by omega)
    rw [hRv i (by omega)] at this
    simpa [Csc.rowForm] using this
  · intro k hk
    simp only [Csc.nnz, Csc.rowForm] at hk ⊢
    rw [hm] at hk
    obtain ⟨i, c, q1, q2, q3, q4⟩ := hpos k hk
    have e1 := hat i c q1 q2 q3
    have e2 := h2 i c q1 q2 q3
    rw [← q4] at e1 e2
    rw [e2, e1]
    simp
  · have := hR.len; simp only; omega
  · simp only; omega
  · have := h3.len; simp only; omega
  · have := h5.arr.len; simp only; omega

end

end Verif
