import Verif.Lemmas.Cols
import Mathlib.Tactic.Ring

/-! # Transposition by counting sort -/

set_option linter.unusedSectionVars false

namespace Verif

open Finset

section Pure

variable {K : Type}

/-- Entries of row `r` among the first `q` entries of column `c`, as entries of the transpose. -/
def rowsOf (A : Csc K) (r c q : Nat) : List (Nat × K) :=
  ((A.col c).take q).filterMap (fun e => if e.1 = r then some (c, e.2) else none)

/-- Row `r` of `A`, in the order of the columns, up to the first `q` entries of column `c`. -/
def bucket (A : Csc K) (r c q : Nat) : List (Nat × K) :=
  (List.range c).flatMap (fun c' => rowsOf A r c' (A.col c').length) ++ rowsOf A r c q

/-- Row `r` of `A`: the list of `(column, value)`. -/
def tcol (A : Csc K) (r : Nat) : List (Nat × K) :=
  (List.range A.n).flatMap (fun c' => rowsOf A r c' (A.col c').length)

theorem rowsOf_zero (A : Csc K) (r c : Nat) : rowsOf A r c 0 = [] := by simp [rowsOf]

theorem rowsOf_succ (A : Csc K) {r c q : Nat} (hq : A.jc c + q < A.jc (c + 1)) :
    rowsOf A r c (q + 1) = rowsOf A r c q ++
      if A.ir (A.jc c + q) = r then [(c, A.pr (A.jc c + q))] else [] := by
  unfold rowsOf
  rw [List.take_add_one, Csc.col_get A hq, List.filterMap_append]
  congr 1
  by_cases h : A.ir (A.jc c + q) = r
  · simp [h]
  · simp [h]

theorem bucket_succ (A : Csc K) {r c q : Nat} (hq : A.jc c + q < A.jc (c + 1)) :
    bucket A r c (q + 1) = bucket A r c q ++
      if A.ir (A.jc c + q) = r then [(c, A.pr (A.jc c + q))] else [] := by
  unfold bucket
  rw [rowsOf_succ A hq, List.append_assoc]

theorem bucket_next (A : Csc K) (r c : Nat) :
    bucket A r (c + 1) 0 = bucket A r c (A.col c).length := by
  unfold bucket
  rw [rowsOf_zero, List.append_nil, List.range_succ, List.flatMap_append]
  simp

theorem bucket_end (A : Csc K) (r : Nat) : bucket A r A.n 0 = tcol A r := by
  unfold bucket tcol
  rw [rowsOf_zero, List.append_nil]

theorem bucket_zero (A : Csc K) (r : Nat) : bucket A r 0 0 = [] := by
  unfold bucket
  rw [rowsOf_zero]
  simp

theorem bucket_prefix (A : Csc K) {r c q : Nat} (hc : c < A.n) :
    bucket A r c q <+: tcol A r := by
  have h1 : bucket A r c q <+: bucket A r c (A.col c).length := by
    unfold bucket
    rw [List.prefix_append_right_inj]
    unfold rowsOf
    refine List.IsPrefix.filterMap _ ?_
    rw [List.take_length]
    exact List.take_prefix _ _
  rw [← bucket_next] at h1
  refine h1.trans ?_
  unfold bucket tcol
  rw [rowsOf_zero, List.append_nil]
  obtain ⟨k, hk⟩ : ∃ k, A.n = (c + 1) + k := ⟨A.n - (c + 1), by omega⟩
  rw [hk, List.range_add (n := c + 1) (m := k)]
  rw [List.flatMap_append (xs := List.range (c + 1))]
  exact List.prefix_append _ _

theorem tcol_mem {A : Csc K} {r : Nat} {e : Nat × K} :
    e ∈ tcol A r ↔ ∃ c, c < A.n ∧ (r, e.2) ∈ A.col c ∧ e.1 = c := by
  simp only [tcol, List.mem_flatMap, List.mem_range, rowsOf, List.take_length, List.mem_filterMap]
  constructor
  · rintro ⟨c, hc, a, ha, h⟩
    by_cases h' : a.1 = r
    · simp [h'] at h
      refine ⟨c, hc, ?_, by rw [← h]⟩
      rw [← h, ← h']
      exact ha
    · simp [h'] at h
  · rintro ⟨c, hc, h, h'⟩
    refine ⟨c, hc, (r, e.2), h, ?_⟩
    simp [← h']

theorem tcol_lt {A : Csc K} {r : Nat} : ∀ e ∈ tcol A r, e.1 < A.n := by
  intro e he
  obtain ⟨c, hc, _, h⟩ := tcol_mem.mp he
  omega

/-- Columns of the transpose are sorted (strictly, if no entry is repeated). -/
theorem tcol_sorted_le (A : Csc K) (r : Nat) : (tcol A r).Pairwise (fun a b => a.1 ≤ b.1) := by
  unfold tcol
  rw [List.pairwise_flatMap]
  refine ⟨?_, ?_⟩
  · intro c _
    have : ∀ e ∈ rowsOf A r c (A.col c).length, e.1 = c := by
      intro e he
      simp only [rowsOf, List.mem_filterMap] at he
      obtain ⟨a, _, h⟩ := he
      by_cases h' : a.1 = r
      · simp [h'] at h; rw [← h]
      · simp [h'] at h
    refine List.Pairwise.imp_of_mem ?_ (List.pairwise_of_forall (R := fun _ _ => True)
      (fun _ _ => trivial))
    intro a b ha hb _
    rw [this a ha, this b hb]
  · refine List.Pairwise.imp ?_ (List.pairwise_lt_range (n := A.n))
    intro c d hcd a ha b hb
    have key : ∀ c, ∀ e ∈ rowsOf A r c (A.col c).length, e.1 = c := by
      intro c e he
      simp only [rowsOf, List.mem_filterMap] at he
      obtain ⟨a, _, h⟩ := he
      by_cases h' : a.1 = r
      · simp [h'] at h; rw [← h]
      · simp [h'] at h
    rw [key c a ha, key d b hb]
    omega

theorem offs_tcol_total {A : Csc K} (hA : A.WF) : offs (tcol A) A.m = A.nnz := by
  -- count entries bucket by bucket
  have key : ∀ c q, c ≤ A.n → (c < A.n → q ≤ (A.col c).length) → (c = A.n → q = 0) →
      (∑ r ∈ range A.m, (bucket A r c q).length) = A.jc c + q := by
    intro c
    induction c with
    | zero =>
      intro q
      induction q with
      | zero => intro _ _ _; simp [bucket_zero, hA.jc0]
      | succ q ih =>
        intro h0 hq hn
        have hn0 : 0 < A.n := by
          rcases Nat.eq_zero_or_pos A.n with h | h
          · exact absurd (hn h.symm) (by omega)
          · exact h
        have hl := hq hn0
        have hlt : A.jc 0 + q < A.jc (0 + 1) := by
          rw [Csc.length_col] at hl; omega
        have ih' := ih h0 (fun _ => by omega) (fun h => by omega)
        have hr : A.ir (A.jc 0 + q) < A.m :=
          hA.ir_lt _ (lt_of_lt_of_le hlt (hA.le_nnz (by omega)))
        simp only [bucket_succ A hlt, List.length_append, sum_add_distrib]
        rw [ih', sum_eq_single (A.ir (A.jc 0 + q))]
        · simp; omega
        · intro b _ hb
          rw [if_neg (Ne.symm hb)]; rfl
        · intro h; exact absurd (mem_range.mpr hr) h
    | succ c ihc =>
      intro q
      induction q with
      | zero =>
        intro h0 _ _
        simp only [bucket_next]
        rw [ihc (A.col c).length (by omega) (fun _ => le_rfl) (fun h => by omega), Csc.length_col]
        have := hA.mono c (by omega)
        omega
      | succ q ih =>
        intro h0 hq hn
        have hn0 : c + 1 < A.n := by
          rcases Nat.lt_or_eq_of_le h0 with h | h
          · exact h
          · exact absurd (hn h) (by omega)
        have hl := hq hn0
        have hlt : A.jc (c + 1) + q < A.jc (c + 1 + 1) := by
          rw [Csc.length_col] at hl; omega
        have ih' := ih h0 (fun _ => by omega) (fun h => by omega)
        have hr : A.ir (A.jc (c + 1) + q) < A.m :=
          hA.ir_lt _ (lt_of_lt_of_le hlt (hA.le_nnz (by omega)))
        simp only [bucket_succ A hlt, List.length_append, sum_add_distrib]
        rw [ih', sum_eq_single (A.ir (A.jc (c + 1) + q))]
        · simp; omega
        · intro b _ hb
          rw [if_neg (Ne.symm hb)]; rfl
        · intro h; exact absurd (mem_range.mpr hr) h
  have h := key A.n 0 le_rfl (fun h => by omega) (fun _ => rfl)
  simp only [bucket_end] at h
  have hs : ∀ m, offs (tcol A) m = ∑ r ∈ range m, (tcol A r).length := by
    intro m
    induction m with
    | zero => rfl
    | succ m ih => rw [offs_succ, ih, sum_range_succ]
  rw [hs, h]
  rfl

end Pure

section Counting

variable {K : Type}

/-- First phase of the transposition: number of entries of each row. -/
theorem count_spec {A : Csc K} (hA : A.WF) {jc ir count : Buf Int}
    (hjc : Buf.Has jc (A.n + 1) (fun i => (A.jc i : Int)))
    (hir : Buf.Has ir A.nnz (fun k => (A.ir k : Int)))
    (hl : count.length = A.m) (h0 : Buf.Has count A.m (fun _ => 0)) :
    Spec (forI 0 (A.n : Int) count fun i count => do
      let lo ← rd jc i
      let hi ← rd jc (i + 1)
      forI lo hi count fun j count => do
        let k ← rd ir j
        let c ← rd count k
        wr count k (c + 1))
      (fun count => count.length = A.m ∧
        Buf.Has count A.m (fun r => ((tcol A r).length : Int))) := by
  have := forI_spec (lo := 0) (hi := A.n) (Nat.zero_le _) (s := count)
    (f := fun i count => do
      let lo ← rd jc i
      let hi ← rd jc (i + 1)
      forI lo hi count fun j count => do
        let k ← rd ir j
        let c ← rd count k
        wr count k (c + 1))
    (fun c (b : Buf Int) => b.length = A.m ∧
      Buf.Has b A.m (fun r => ((bucket A r c 0).length : Int)))
    ⟨hl, h0.congr (by simp [bucket_zero])⟩ (by
      rintro c b _ hc ⟨h1, h2⟩
      have e : ((c : Int) + 1) = ((c + 1 : Nat) : Int) := by omega
      rw [hjc.rd (i := c) (by omega), ok_bind, e, hjc.rd (i := c + 1) (by omega), ok_bind]
      have hmono := hA.mono c hc
      refine (forI_spec (lo := A.jc c) (hi := A.jc (c + 1)) hmono
        (fun k (b : Buf Int) => b.length = A.m ∧
          Buf.Has b A.m (fun r => ((bucket A r c (k - A.jc c)).length : Int)))
        ⟨h1, by simpa using h2⟩ ?_).mono ?_
      · rintro k b hk1 hk2 ⟨h3, h4⟩
        have hk : k < A.nnz := lt_of_lt_of_le hk2 (hA.le_nnz (by omega))
        have hr : A.ir k < A.m := hA.ir_lt k hk
        rw [hir.rd hk, ok_bind, h4.rd hr, ok_bind, wr_ok (by omega)]
        refine Spec.ok ⟨by simp [h3], (h4.set (by omega) _).congr ?_⟩
        intro r hr'
        have e1 : k + 1 - A.jc c = (k - A.jc c) + 1 := by omega
        have e2 : A.jc c + (k - A.jc c) = k := by omega
        rw [e1, bucket_succ A (by omega), e2]
        by_cases h' : r = A.ir k
        · subst h'
          rw [Function.update_self]
          simp
        · rw [Function.update_of_ne h', if_neg (Ne.symm h'), List.append_nil]
      · rintro b ⟨h3, h4⟩
        refine ⟨h3, h4.congr ?_⟩
        intro r _
        rw [bucket_next, Csc.length_col])
  refine this.mono ?_
  rintro b ⟨h1, h2⟩
  exact ⟨h1, h2.congr (fun r _ => by rw [bucket_end])⟩

/-- Second phase: column pointers of the transpose. -/
theorem prefix_spec {L : Nat → Nat} {m : Nat} {tjc count : Buf Int} (off : Nat → Nat)
    (hoff0 : off 0 = 0) (hoff : ∀ r, r < m → off (r + 1) = off r + L r)
    (hl : m + 1 ≤ tjc.length) (hc : Buf.Has count m (fun r => (L r : Int)))
    (h0 : Buf.Has tjc 1 (fun _ => 0)) :
    Spec (forI 0 (m : Int) tjc fun j tjc => do
      let a ← rd tjc j
      let c ← rd count j
      wr tjc (j + 1) (a + c))
      (fun t => t.length = tjc.length ∧ Buf.Has t (m + 1) (fun r => (off r : Int))) := by
  refine forI_spec (lo := 0) (hi := m) (Nat.zero_le _)
    (fun j (t : Buf Int) => t.length = tjc.length ∧ Buf.Has t (j + 1) (fun r => (off r : Int)))
    ⟨rfl, h0.congr (by
      intro i hi
      have : i = 0 := by omega
      subst this
      rw [hoff0]; rfl)⟩ ?_
  rintro j t _ hj ⟨h1, h2⟩
  have e : ((j : Int) + 1) = ((j + 1 : Nat) : Int) := by omega
  rw [h2.rd (by omega), ok_bind, hc.rd hj, ok_bind, e, wr_ok (by omega)]
  refine Spec.ok ⟨by simp [h1], h2.push (by omega) _ ?_ (fun _ _ => rfl)⟩
  rw [hoff j hj]
  push_cast
  rfl

end Counting

/-- Contents of the partially filled transposed arrays: the buckets filled so far. -/
def Filled {K : Type} (A : Csc K) (c q : Nat) (ir : Buf Int) (pr : Buf K) : Prop :=
  ∀ r, r < A.m → ∀ (i : Nat) (e : Nat × K), (bucket A r c q)[i]? = some e →
    ir[offs (tcol A) r + i]? = some (some (e.1 : Int)) ∧
    pr[offs (tcol A) r + i]? = some (some e.2)

/-- The transpose as a compressed matrix. -/
def Csc.transpose {K : Type} [Zero K] (A : Csc K) : Csc K := Csc.ofCols A.n A.m (tcol A)

theorem Filled.step {K : Type} {A : Csc K} (hA : A.WF) {c q : Nat} (hc : c < A.n)
    (hq : A.jc c + q < A.jc (c + 1)) {ir : Buf Int} {pr : Buf K} (h : Filled A c q ir pr)
    (hli : A.nnz ≤ ir.length) (hlp : A.nnz ≤ pr.length) :
    offs (tcol A) (A.ir (A.jc c + q)) + (bucket A (A.ir (A.jc c + q)) c q).length < A.nnz ∧
    Filled A c (q + 1)
      (ir.set (offs (tcol A) (A.ir (A.jc c + q)) + (bucket A (A.ir (A.jc c + q)) c q).length)
        (some (c : Int)))
      (pr.set (offs (tcol A) (A.ir (A.jc c + q)) + (bucket A (A.ir (A.jc c + q)) c q).length)
        (some (A.pr (A.jc c + q)))) := by
  set k := A.ir (A.jc c + q) with hk
  have hnnz : A.jc c + q < A.nnz := lt_of_lt_of_le hq (hA.le_nnz (by omega))
  have hkm : k < A.m := hA.ir_lt _ hnnz
  have hlen : (bucket A k c q).length + 1 ≤ (tcol A k).length := by
    have := (bucket_prefix A (r := k) (q := q + 1) hc).length_le
    rw [bucket_succ A hq, if_pos hk.symm] at this
    simpa using this
  have htot := offs_tcol_total hA
  have hoff1 : offs (tcol A) (k + 1) ≤ offs (tcol A) A.m := offs_mono _ hkm
  rw [offs_succ] at hoff1
  refine ⟨by omega, ?_⟩
  intro r hr i e he
  rw [bucket_succ A hq] at he
  have hpos : offs (tcol A) k + (bucket A k c q).length < ir.length := by omega
  have hpos' : offs (tcol A) k + (bucket A k c q).length < pr.length := by omega
  rw [List.getElem?_set, List.getElem?_set]
  by_cases hrk : k = r
  · subst hrk
    rw [if_pos rfl] at he
    by_cases hi : i < (bucket A k c q).length
    · rw [List.getElem?_append_left hi] at he
      rw [if_neg (by omega), if_neg (by omega)]
      exact h k hr i e he
    · have hlt := (List.getElem?_eq_some_iff.mp he).1
      simp only [List.length_append, List.length_singleton] at hlt
      have e1 : i = (bucket A k c q).length := by omega
      subst e1
      rw [List.getElem?_append_right le_rfl] at he
      simp only [Nat.sub_self, List.getElem?_cons_zero, Option.some.injEq] at he
      subst he
      simp [hpos, hpos']
  · rw [← hk, if_neg hrk, List.append_nil] at he
    have hi : i < (bucket A r c q).length := (List.getElem?_eq_some_iff.mp he).1
    have hir := (bucket_prefix A (r := r) (q := q) hc).length_le
    have hne : offs (tcol A) k + (bucket A k c q).length ≠ offs (tcol A) r + i := by
      rcases Nat.lt_or_ge k r with h' | h'
      · have := offs_mono (tcol A) (c := k + 1) (d := r) h'
        rw [offs_succ] at this
        omega
      · have := offs_mono (tcol A) (c := r + 1) (d := k) (by omega)
        rw [offs_succ] at this
        omega
    rw [if_neg hne, if_neg hne]
    exact h r hr i e he

theorem Filled.pre {K : Type} {A : Csc K} {ir : Buf Int} {pr : Buf K}
    (h : Filled A A.n 0 ir pr) : Pre ir pr (flatTo (tcol A) A.m) := by
  have key : ∀ m, m ≤ A.m → Pre ir pr (flatTo (tcol A) m) := by
    intro m
    induction m with
    | zero => intro _; exact Pre.nil _ _
    | succ m ih =>
      intro hm k e he
      rw [flatTo_succ] at he
      by_cases hk : k < (flatTo (tcol A) m).length
      · rw [List.getElem?_append_left hk] at he
        exact ih (by omega) k e he
      · rw [List.getElem?_append_right (by omega)] at he
        have := h m (by omega) (k - (flatTo (tcol A) m).length) e (by rw [bucket_end]; exact he)
        have e1 : offs (tcol A) m + (k - (flatTo (tcol A) m).length) = k := by
          simp only [offs]; omega
        rw [e1] at this
        exact this
  exact key A.m le_rfl

section Routine

variable {K : Type} [Zero K] [One K] [Add K] [Sub K] [Mul K] [Div K] [Neg K] [Scalar K]

theorem SparseMatrixTranspose_spec {S T : Smat K} {A : Csc K} (hS : S.Is A) (hA : A.WF)
    (hm : T.m = A.n) (hn : T.n = A.m) (hz : T.nnz = A.nnz) (hjl : A.m + 1 ≤ T.jc.length)
    (hil : A.nnz ≤ T.ir.length) (hpl : A.nnz ≤ T.pr.length) :
    Spec (SparseMatrixTranspose S T) (fun T' => T'.Is A.transpose ∧
      T'.jc.length = T.jc.length ∧ T'.ir.length = T.ir.length ∧ T'.pr.length = T.pr.length) := by
  unfold SparseMatrixTranspose
  rw [hS.m, hS.n]
  refine Spec.bind (forI_fill (n := A.m) (by simp) (fun _ => (0 : Int))
    (fun _ _ _ _ _ _ => rfl)) ?_
  rintro cnt ⟨hl, h0, _⟩
  simp only [length_malloc, Int.toNat_natCast] at hl
  refine Spec.bind (count_spec hA hS.jc hS.ir hl h0) ?_
  rintro cnt1 ⟨hl1, hc1⟩
  have e0 : (0 : Int) = ((0 : Nat) : Int) := rfl
  have ew : wr T.jc 0 (0 : Int) = .ok (T.jc.set 0 (some 0)) := wr_ok (i := 0) (by omega) 0
  rw [ew, ok_bind]
  refine Spec.bind (prefix_spec (offs (tcol A)) rfl (fun r _ => offs_succ _ r) (by simpa using hjl)
    hc1 (Buf.Has.push (g := fun _ => (0 : Int)) (Buf.Has.zero _ (fun _ => (0 : Int))) (by omega) 0
      rfl (fun _ _ => rfl))) ?_
  rintro tjc ⟨htl, htj⟩
  simp only [List.length_set] at htl
  refine Spec.bind (forI_fill (n := A.m) (by omega) (fun _ => (0 : Int))
    (fun _ _ _ _ _ _ => rfl)) ?_
  rintro cnt2 ⟨hl2, h2, _⟩
  refine Spec.bind (forI_spec (lo := 0) (hi := A.n) (Nat.zero_le _)
    (fun c (st : Buf Int × Buf Int × Buf K) => st.1.length = A.m ∧
      Buf.Has st.1 A.m (fun r => ((bucket A r c 0).length : Int)) ∧
      st.2.1.length = T.ir.length ∧ st.2.2.length = T.pr.length ∧ Filled A c 0 st.2.1 st.2.2)
    ⟨hl2.trans hl1, h2.congr (by simp [bucket_zero]), rfl, rfl, ?_⟩ ?_) ?_
  · intro r _ i e he
    simp [bucket_zero] at he
  · rintro c ⟨cnt3, ir, pr⟩ _ hc ⟨h3, h4, h5, h6, h7⟩
    simp only at h3 h4 h5 h6 h7
    have e : ((c : Int) + 1) = ((c + 1 : Nat) : Int) := by omega
    rw [hS.jc.rd (i := c) (by omega), ok_bind, e, hS.jc.rd (i := c + 1) (by omega), ok_bind]
    refine (forI_spec (lo := A.jc c) (hi := A.jc (c + 1)) (hA.mono c hc)
      (fun k (st : Buf Int × Buf Int × Buf K) => st.1.length = A.m ∧
        Buf.Has st.1 A.m (fun r => ((bucket A r c (k - A.jc c)).length : Int)) ∧
        st.2.1.length = T.ir.length ∧ st.2.2.length = T.pr.length ∧
        Filled A c (k - A.jc c) st.2.1 st.2.2)
      ⟨h3, by simpa using h4, h5, h6, by simpa using h7⟩ ?_).mono ?_
    · rintro k ⟨cnt4, ir, pr⟩ hk1 hk2 ⟨g1, g2, g3, g4, g5⟩
      simp only at g1 g2 g3 g4 g5
      have hk : k < A.nnz := lt_of_lt_of_le hk2 (hA.le_nnz (by omega))
      have hr : A.ir k < A.m := hA.ir_lt k hk
      have e2 : A.jc c + (k - A.jc c) = k := by omega
      have e1 : k + 1 - A.jc c = (k - A.jc c) + 1 := by omega
      have hstep := Filled.step hA hc (q := k - A.jc c) (by omega) g5 (by omega) (by omega)
      rw [e2] at hstep
      obtain ⟨hpos, hfill⟩ := hstep
      rw [hS.ir.rd hk, ok_bind, htj.rd (by omega), ok_bind, g2.rd hr, ok_bind]
      have ei : (offs (tcol A) (A.ir k) : Int) + ((bucket A (A.ir k) c (k - A.jc c)).length : Int)
          = ((offs (tcol A) (A.ir k) + (bucket A (A.ir k) c (k - A.jc c)).length : Nat) : Int) := by
        push_cast; rfl
      simp only [ei]
      rw [wr_ok (by omega), ok_bind, hS.pr.rd hk, ok_bind, wr_ok (by omega), ok_bind,
        wr_ok (by omega), ok_bind]
      refine Spec.ok ⟨by simp [g1], (g2.set (by omega) _).congr ?_, by simp [g3], by simp [g4], ?_⟩
      · intro r hr'
        rw [e1, bucket_succ A (by omega), e2]
        by_cases h' : r = A.ir k
        · subst h'
          rw [Function.update_self]
          simp
        · rw [Function.update_of_ne h', if_neg (Ne.symm h'), List.append_nil]
      · rw [e1]
        exact hfill
    · rintro ⟨cnt4, ir, pr⟩ ⟨g1, g2, g3, g4, g5⟩
      have hn : ∀ r, bucket A r (c + 1) 0 = bucket A r c (A.jc (c + 1) - A.jc c) := by
        intro r
        rw [bucket_next, Csc.length_col]
      refine ⟨g1, g2.congr (fun r _ => by rw [hn]), g3, g4, ?_⟩
      intro r hr i e he
      rw [hn] at he
      exact g5 r hr i e he
  · rintro ⟨cnt3, ir, pr⟩ ⟨h3, h4, h5, h6, h7⟩
    simp only at h3 h4 h5 h6 h7 ⊢
    refine Spec.ok ⟨?_, htl, h5, h6⟩
    refine is_ofCols hm hn ?_ htj h7.pre
    rw [show (flatTo (tcol A) A.m).length = offs (tcol A) A.m from rfl, offs_tcol_total hA]
    exact hz

/-- Pattern-only transposition, used once after the first factorisation. -/
theorem Transpose_Row_Count_spec {A : Csc Unit} (hA : A.WF) {Li Lp Lti Ltp : Buf Int}
    (hjc : Buf.Has Lp (A.n + 1) (fun i => (A.jc i : Int)))
    (hir : Buf.Has Li A.nnz (fun k => (A.ir k : Int)))
    (hjl : A.m + 1 ≤ Ltp.length) (hil : A.nnz ≤ Lti.length) :
    Spec (Transpose_Row_Count A.m A.n Li Lp Lti Ltp) (fun r => r.1.length = Lti.length ∧
      r.2.length = Ltp.length ∧ Buf.Has r.2 (A.m + 1) (fun r => (offs (tcol A) r : Int)) ∧
      ∀ (k : Nat) (e : Nat × Unit), (flatTo (tcol A) A.m)[k]? = some e →
        r.1[k]? = some (some (e.1 : Int))) := by
  unfold Transpose_Row_Count
  refine Spec.bind (forI_fill (n := A.m) (by simp) (fun _ => (0 : Int))
    (fun _ _ _ _ _ _ => rfl)) ?_
  rintro cnt ⟨hl, h0, _⟩
  simp only [length_malloc, Int.toNat_natCast] at hl
  refine Spec.bind (count_spec hA hjc hir hl h0) ?_
  rintro cnt1 ⟨hl1, hc1⟩
  have ew : wr Ltp 0 (0 : Int) = .ok (Ltp.set 0 (some 0)) := wr_ok (i := 0) (by omega) 0
  rw [ew, ok_bind]
  refine Spec.bind (prefix_spec (offs (tcol A)) rfl (fun r _ => offs_succ _ r) (by simpa using hjl)
    hc1 (Buf.Has.push (g := fun _ => (0 : Int)) (Buf.Has.zero _ (fun _ => (0 : Int))) (by omega) 0
      rfl (fun _ _ => rfl))) ?_
  rintro tjc ⟨htl, htj⟩
  simp only [List.length_set] at htl
  refine Spec.bind (forI_fill (n := A.m) (by omega) (fun _ => (0 : Int))
    (fun _ _ _ _ _ _ => rfl)) ?_
  rintro cnt2 ⟨hl2, h2, _⟩
  set px : Buf Unit := List.replicate A.nnz (some ()) with hpx
  have hset : ∀ i : Nat, px.set i (some ()) = px := by
    intro i
    rw [hpx]
    exact List.set_replicate_self
  have hpl : px.length = A.nnz := by simp [hpx]
  refine Spec.bind (forI_spec (lo := 0) (hi := A.n) (Nat.zero_le _)
    (fun c (st : Buf Int × Buf Int) => st.1.length = A.m ∧
      Buf.Has st.1 A.m (fun r => ((bucket A r c 0).length : Int)) ∧
      st.2.length = Lti.length ∧ Filled A c 0 st.2 px)
    ⟨hl2.trans hl1, h2.congr (by simp [bucket_zero]), rfl, ?_⟩ ?_) ?_
  · intro r _ i e he
    simp [bucket_zero] at he
  · rintro c ⟨cnt3, ir⟩ _ hc ⟨h3, h4, h5, h7⟩
    simp only at h3 h4 h5 h7
    have e : ((c : Int) + 1) = ((c + 1 : Nat) : Int) := by omega
    rw [hjc.rd (i := c) (by omega), ok_bind, e, hjc.rd (i := c + 1) (by omega), ok_bind]
    refine (forI_spec (lo := A.jc c) (hi := A.jc (c + 1)) (hA.mono c hc)
      (fun k (st : Buf Int × Buf Int) => st.1.length = A.m ∧
        Buf.Has st.1 A.m (fun r => ((bucket A r c (k - A.jc c)).length : Int)) ∧
        st.2.length = Lti.length ∧
        Filled A c (k - A.jc c) st.2 px)
      ⟨h3, by simpa using h4, h5, by simpa using h7⟩ ?_).mono ?_
    · rintro k ⟨cnt4, ir⟩ hk1 hk2 ⟨g1, g2, g3, g5⟩
      simp only at g1 g2 g3 g5
      have hk : k < A.nnz := lt_of_lt_of_le hk2 (hA.le_nnz (by omega))
      have hr : A.ir k < A.m := hA.ir_lt k hk
      have e2 : A.jc c + (k - A.jc c) = k := by omega
      have e1 : k + 1 - A.jc c = (k - A.jc c) + 1 := by omega
      have hstep := Filled.step hA hc (q := k - A.jc c) (by omega) g5 (by omega) (by omega)
      rw [e2] at hstep
      obtain ⟨hpos, hfill⟩ := hstep
      rw [hset] at hfill
      rw [hir.rd hk, ok_bind, htj.rd (by omega), ok_bind, g2.rd hr, ok_bind]
      have ei : (offs (tcol A) (A.ir k) : Int) + ((bucket A (A.ir k) c (k - A.jc c)).length : Int)
          = ((offs (tcol A) (A.ir k) + (bucket A (A.ir k) c (k - A.jc c)).length : Nat) : Int) := by
        push_cast; rfl
      simp only [ei]
      rw [wr_ok (by omega), ok_bind, wr_ok (by omega), ok_bind]
      refine Spec.ok ⟨by simp [g1], (g2.set (by omega) _).congr ?_, by simp [g3], ?_⟩
      · intro r hr'
        rw [e1, bucket_succ A (by omega), e2]
        by_cases h' : r = A.ir k
        · subst h'
          rw [Function.update_self]
          simp
        · rw [Function.update_of_ne h', if_neg (Ne.symm h'), List.append_nil]
      · rw [e1]
        exact hfill
    · rintro ⟨cnt4, ir⟩ ⟨g1, g2, g3, g5⟩
      have hn : ∀ r, bucket A r (c + 1) 0 = bucket A r c (A.jc (c + 1) - A.jc c) := by
        intro r
        rw [bucket_next, Csc.length_col]
      refine ⟨g1, g2.congr (fun r _ => by rw [hn]), g3, ?_⟩
      intro r hr i e he
      rw [hn] at he
      exact g5 r hr i e he
  · rintro ⟨cnt3, ir⟩ ⟨h3, h4, h5, h7⟩
    simp only at h3 h4 h5 h7 ⊢
    exact Spec.ok ⟨h5, htl, htj, fun k e he => (h7.pre k e he).1⟩

end Routine

/-! ## Mathematics of the transpose -/

theorem Csc.transpose_wf {K : Type} [Zero K] (A : Csc K) : A.transpose.WF :=
  Csc.ofCols_wf _ _ _ (fun _ _ e he => tcol_lt e he)

section Exact

variable {K : Type} [AddCommMonoid K]

theorem colSum_rowsOf (A : Csc K) (r c q c' : Nat) :
    colSum (rowsOf A r c q) c' = if c' = c then colSum ((A.col c).take q) r else 0 := by
  unfold rowsOf
  generalize (A.col c).take q = l
  induction l with
  | nil => simp [colSum]
  | cons e l ih =>
    rw [List.filterMap_cons]
    by_cases h : e.1 = r
    · simp only [h, if_true, colSum_cons, ih]
      by_cases h' : c' = c
      · simp [h']
      · simp [h', Ne.symm h']
    · simp only [h, if_false, ih, colSum_cons, zero_add]

theorem Csc.transpose_entry {A : Csc K} {r c : Nat} (hr : r < A.m) (hc : c < A.n) :
    A.transpose.entry c r = A.entry r c := by
  unfold Csc.transpose
  rw [Csc.ofCols_entry _ _ _ hr, Csc.entry_eq_colSum]
  unfold tcol
  have key : ∀ n, colSum ((List.range n).flatMap
      (fun c' => rowsOf A r c' (A.col c').length)) c
      = if c < n then colSum (A.col c) r else 0 := by
    intro n
    induction n with
    | zero => simp [colSum]
    | succ n ih =>
      rw [List.range_succ, List.flatMap_append, colSum_append, ih]
      simp only [List.flatMap_cons, List.flatMap_nil, List.append_nil]
      rw [colSum_rowsOf, List.take_length]
      by_cases h : c < n
      · rw [if_pos h, if_neg (by omega), if_pos (by omega), add_zero]
      · rw [if_neg h, zero_add]
        by_cases h' : c = n
        · subst h'; simp
        · rw [if_neg h', if_neg (by omega)]
  rw [key, if_pos hc]

end Exact

section Sorted

variable {K : Type}

/-- Sortedness as a pairwise statement. -/
theorem Csc.Sorted.col_pairwise {A : Csc K} (h : A.Sorted) {c : Nat} (hc : c < A.n) :
    (A.col c).Pairwise (fun a b => a.1 < b.1) := by
  rw [List.pairwise_iff_getElem]
  intro i j hi hj hij
  rw [Csc.length_col] at hi hj
  simp only [Csc.col, List.getElem_map, List.getElem_range]
  induction j, hij using Nat.le_induction with
  | base => exact h c hc _ (by omega) (by omega)
  | succ j hj' ih =>
    exact lt_trans (ih (by omega) (by omega)) (h c hc (A.jc c + j) (by omega) (by omega))

theorem tcol_sorted {A : Csc K}
    (h : ∀ c, c < A.n → (A.col c).Pairwise (fun a b => a.1 ≠ b.1)) (r : Nat) :
    (tcol A r).Pairwise (fun a b => a.1 < b.1) := by
  have key : ∀ c, ∀ e ∈ rowsOf A r c (A.col c).length, e.1 = c := by
    intro c e he
    simp only [rowsOf, List.mem_filterMap] at he
    obtain ⟨a, _, h⟩ := he
    by_cases h' : a.1 = r
    · simp [h'] at h; rw [← h]
    · simp [h'] at h
  unfold tcol
  rw [List.pairwise_flatMap]
  refine ⟨?_, ?_⟩
  · intro c hc
    unfold rowsOf
    rw [List.take_length, List.pairwise_filterMap]
    refine (h c (List.mem_range.mp hc)).imp ?_
    intro a b hab x hx y hy
    by_cases h1 : a.1 = r
    · by_cases h2 : b.1 = r
      · exact absurd (h1.trans h2.symm) hab
      · simp [h2] at hy
    · simp [h1] at hx
  · refine List.Pairwise.imp ?_ (List.pairwise_lt_range (n := A.n))
    intro c d hcd a ha b hb
    rw [key c a ha, key d b hb]
    exact hcd

end Sorted

end Verif
