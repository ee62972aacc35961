import Mathlib.Tactic.Ring
import Mathlib.Tactic.Push
import Verif.Lemmas.AmdList

/-! # Postordering of a forest -/

set_option linter.unusedSectionVars false

namespace Verif

/-- The entries of `T`, top first, are the cells of the stack. -/
def StkRel (Stack : Buf Int) : List Int → Prop
  | [] => True
  | i :: T => rd Stack (T.length : Int) = .ok i ∧ StkRel Stack T

theorem rd_put_ne {b : Buf Int} {i j v : Int} (h0 : 0 ≤ i) (hj : 0 ≤ j) (h : j ≠ i) :
    rd (b.put i v) j = rd b j := by
  unfold rd Buf.put
  rw [if_neg (by omega), if_neg (by omega), List.getElem?_set, if_neg (by omega)]

theorem rd_put_same {b : Buf Int} {i v : Int} (h0 : 0 ≤ i) (h1 : i < b.length) :
    rd (b.put i v) i = .ok v := by
  unfold rd Buf.put
  rw [if_neg (by omega), List.getElem?_set, if_pos rfl, if_pos (by omega)]

theorem StkRel.put {Stack : Buf Int} {T : List Int} (h : StkRel Stack T) {i v : Int}
    (hi : (T.length : Int) ≤ i) : StkRel (Stack.put i v) T := by
  induction T with
  | nil => trivial
  | cons x T ih =>
    simp only [List.length_cons] at hi
    push_cast at hi
    refine ⟨?_, ih h.2 (by omega)⟩
    rw [rd_put_ne (by omega) (by omega) (by omega)]
    exact h.1

/-- `ch i` lists the children of `i`, i.e. the nodes with parent `i`, without repetition. -/
structure Kids (nn : Int) (par nv : Int → Int) (ch : Int → List Int) : Prop where
  nodup : ∀ i, 0 ≤ i → i < nn → (ch i).Nodup
  mem : ∀ i, 0 ≤ i → i < nn → ∀ x, x ∈ ch i ↔ (0 ≤ x ∧ x < nn ∧ 0 < nv x ∧ par x = i)

/-- What is known between two iterations of the depth-first search; `T` is the stack. -/
structure PCore (nn : Int) (nv : Int → Int) (ch : Int → List Int) (c0 : Int → Int)
    (T : List Int) (Child Order : Buf Int) (k : Int) : Prop where
  child : Arr Child nn nn
  order : Arr Order nn nn
  nodup : T.Nodup
  onstack : ∀ x ∈ T, 0 ≤ x ∧ x < nn ∧ 0 < nv x ∧ Order.at x = EMPTY
  closed : ∀ i, 0 ≤ i → i < nn → Order.at i ≠ EMPTY →
    ∀ x ∈ ch i, Order.at x ≠ EMPTY ∧ Order.at x < Order.at i
  fresh : ∀ i, 0 ≤ i → i < nn → Order.at i = EMPTY →
    (Child.at i = c0 i ∧ ∀ x ∈ ch i, x ∉ T ∧ Order.at x = EMPTY) ∨
    (Child.at i = EMPTY ∧ ∃ pre post, T = pre ++ i :: post ∧
      ∀ x ∈ ch i, Order.at x ≠ EMPTY ∨ x ∈ pre)
  k0 : 0 ≤ k
  range : ∀ i, 0 ≤ i → i < nn → Order.at i ≠ EMPTY → 0 < nv i ∧ 0 ≤ Order.at i ∧ Order.at i < k
  inj : ∀ i j, 0 ≤ i → i < nn → 0 ≤ j → j < nn → Order.at i ≠ EMPTY → Order.at i = Order.at j → i = j
  surj : ∀ v, 0 ≤ v → v < k → ∃ i, 0 ≤ i ∧ i < nn ∧ Order.at i = v

/-- Number of positions not ordered yet plus number of unvisited lists. -/
def postMeasure (nn : Int) (Child Order : Buf Int) : Nat :=
  ((Finset.Ico 0 nn).filter (fun i => Order.at i = EMPTY)).card +
  ((Finset.Ico 0 nn).filter (fun i => Child.at i ≠ EMPTY)).card

section

variable {nn : Int} {par nv : Int → Int} {ch : Int → List Int} {c0 : Int → Int}

theorem PCore.pop (hK : Kids nn par nv ch) {sb : Int → Int}
    (hsb : ∀ i, 0 ≤ i → i < nn → Seg sb (c0 i) (ch i) EMPTY)
    {T : List Int} {i : Int} {Child Order : Buf Int} {k : Int}
    (h : PCore nn nv ch c0 (i :: T) Child Order k) (hc : Child.at i = EMPTY) :
    PCore nn nv ch c0 T Child (Order.put i k) (k + 1) ∧
      postMeasure nn Child (Order.put i k) < postMeasure nn Child Order := by
  obtain ⟨hi0, hi1, hiv, hio⟩ := h.onstack i (by simp)
  have hkE : k ≠ EMPTY := by have := h.k0; unfold EMPTY; omega
  have hat : ∀ j, (Order.put i k).at j = if j = i then k else Order.at j :=
    fun j => h.order.at_put hi0 hi1 k j
  have hkids : ∀ x ∈ ch i, Order.at x ≠ EMPTY := by
    rcases h.fresh i hi0 hi1 hio with ⟨h1, h2⟩ | ⟨_, pre, post, h1, h2⟩
    · have : ch i = [] := (hsb i hi0 hi1).nil_of_empty
        (fun x hx => ((hK.mem i hi0 hi1 x).mp hx).1) (by rw [← h1]; exact hc)
      rw [this]; simp
    · have hpre : pre = [] := by
        cases pre with
        | nil => rfl
        | cons a t =>
          have hnd := h.nodup
          simp only [List.cons_append, List.cons.injEq] at h1
          obtain ⟨e1, e2⟩ := h1
          rw [e2] at hnd
          simp at hnd
      subst hpre
      intro x hx
      rcases h2 x hx with h3 | h3
      · exact h3
      · simp at h3
  have hnoti : ∀ x, Order.at x ≠ EMPTY → x ≠ i := by rintro x hx rfl; exact hx hio
  have hnd := h.nodup
  rw [List.nodup_cons] at hnd
  refine ⟨⟨h.child, h.order.put hi0 hi1 k, hnd.2, ?_, ?_, ?_, by have := h.k0; omega, ?_, ?_, ?_⟩, ?_⟩
  · intro x hx
    obtain ⟨h1, h2, h3, h4⟩ := h.onstack x (by simp [hx])
    refine ⟨h1, h2, h3, ?_⟩
    rw [hat, if_neg (by rintro rfl; exact hnd.1 hx)]
    exact h4
  · intro j hj0 hj1 hj x hx
    rw [hat] at hj ⊢
    by_cases e : j = i
    · subst e
      have h1 := hkids x hx
      have hm := (hK.mem j hj0 hj1 x).mp hx
      have h2 := h.range x hm.1 hm.2.1 h1
      have h3 : x ≠ j := hnoti x h1
      rw [hat, if_neg h3, if_pos rfl]
      exact ⟨h1, by omega⟩
    · rw [if_neg e] at hj
      have h1 := h.closed j hj0 hj1 hj x hx
      have h3 : x ≠ i := hnoti x h1.1
      rw [hat, if_neg h3, if_neg e]
      exact h1
  · intro j hj0 hj1 hj
    rw [hat] at hj
    by_cases e : j = i
    · rw [if_pos e] at hj; exact absurd hj hkE
    · rw [if_neg e] at hj
      rcases h.fresh j hj0 hj1 hj with ⟨h1, h2⟩ | ⟨h1, pre, post, h2, h3⟩
      · refine Or.inl ⟨h1, ?_⟩
        intro x hx
        obtain ⟨h4, h5⟩ := h2 x hx
        simp only [List.mem_cons, not_or] at h4
        refine ⟨h4.2, ?_⟩
        rw [hat, if_neg h4.1]
        exact h5
      · refine Or.inr ⟨h1, ?_⟩
        cases pre with
        | nil =>
          simp only [List.nil_append, List.cons.injEq] at h2
          exact absurd h2.1.symm e
        | cons a t =>
          simp only [List.cons_append, List.cons.injEq] at h2
          refine ⟨t, post, h2.2, ?_⟩
          intro x hx
          by_cases e2 : x = i
          · left; rw [hat, if_pos e2]; exact hkE
          · rcases h3 x hx with h4 | h4
            · left; rw [hat, if_neg e2]; exact h4
            · right
              rcases List.mem_cons.mp h4 with h5 | h5
              · exact absurd (h5.trans h2.1.symm) e2
              · exact h5
  · intro j hj0 hj1 hj
    rw [hat] at hj ⊢
    have := h.k0
    by_cases e : j = i
    · rw [if_pos e]
      subst e
      exact ⟨hiv, by omega, by omega⟩
    · rw [if_neg e] at hj ⊢
      have := h.range j hj0 hj1 hj
      exact ⟨this.1, this.2.1, by omega⟩
  · intro a b ha0 ha1 hb0 hb1 ha hab
    rw [hat] at ha hab
    rw [hat] at hab
    by_cases ea : a = i
    · rw [if_pos ea] at hab
      by_cases eb : b = i
      · rw [ea, eb]
      · rw [if_neg eb] at hab
        have h1 : Order.at b ≠ EMPTY := by rw [← hab]; exact hkE
        have := (h.range b hb0 hb1 h1).2.2
        omega
    · rw [if_neg ea] at ha hab
      by_cases eb : b = i
      · rw [if_pos eb] at hab
        have := (h.range a ha0 ha1 ha).2.2
        omega
      · rw [if_neg eb] at hab
        exact h.inj a b ha0 ha1 hb0 hb1 ha hab
  · intro v hv0 hv1
    by_cases e : v = k
    · exact ⟨i, hi0, hi1, by rw [hat, if_pos rfl, e]⟩
    · obtain ⟨j, h1, h2, h3⟩ := h.surj v hv0 (by omega)
      refine ⟨j, h1, h2, ?_⟩
      rw [hat, if_neg (hnoti j (by rw [h3]; unfold EMPTY; omega)), h3]
  · unfold postMeasure
    refine Nat.add_lt_add_right (Finset.card_lt_card ?_) _
    rw [Finset.ssubset_iff_of_subset]
    · refine ⟨i, ?_, ?_⟩
      · simp only [Finset.mem_filter, Finset.mem_Ico]; exact ⟨⟨hi0, hi1⟩, hio⟩
      · simp only [Finset.mem_filter, not_and]
        intro _
        rw [hat, if_pos rfl]; exact hkE
    · intro j hj
      simp only [Finset.mem_filter] at hj ⊢
      refine ⟨hj.1, ?_⟩
      have := hj.2
      rw [hat] at this
      by_cases e : j = i
      · rw [e]; exact hio
      · rwa [if_neg e] at this

theorem PCore.expand (hK : Kids nn par nv ch)
    {T : List Int} {i : Int} {Child Order : Buf Int} {k : Int}
    (h : PCore nn nv ch c0 (i :: T) Child Order k) (hc : Child.at i ≠ EMPTY) :
    PCore nn nv ch c0 (ch i ++ i :: T) (Child.put i EMPTY) Order k ∧
      postMeasure nn (Child.put i EMPTY) Order < postMeasure nn Child Order ∧ Child.at i = c0 i := by
  obtain ⟨hi0, hi1, hiv, hio⟩ := h.onstack i (by simp)
  have hat : ∀ j, (Child.put i EMPTY).at j = if j = i then EMPTY else Child.at j :=
    fun j => h.child.at_put hi0 hi1 EMPTY j
  obtain ⟨hci, hfr⟩ : Child.at i = c0 i ∧ ∀ x ∈ ch i, x ∉ i :: T ∧ Order.at x = EMPTY := by
    rcases h.fresh i hi0 hi1 hio with h1 | ⟨h1, _⟩
    · exact h1
    · exact absurd h1 hc
  refine ⟨⟨h.child.put hi0 hi1 _, h.order, ?_, ?_, h.closed, ?_, h.k0, h.range, h.inj, h.surj⟩,
    ?_, hci⟩
  · rw [List.nodup_append]
    exact ⟨hK.nodup i hi0 hi1, h.nodup, fun a ha b hb e => (hfr a ha).1 (e ▸ hb)⟩
  · intro x hx
    rcases List.mem_append.mp hx with hx | hx
    · have := (hK.mem i hi0 hi1 x).mp hx
      exact ⟨this.1, this.2.1, this.2.2.1, (hfr x hx).2⟩
    · exact h.onstack x hx
  · intro j hj0 hj1 hj
    rw [hat]
    by_cases e : j = i
    · subst e
      rw [if_pos rfl]
      exact Or.inr ⟨rfl, ch j, T, rfl, fun x hx => Or.inr hx⟩
    · rw [if_neg e]
      rcases h.fresh j hj0 hj1 hj with ⟨h1, h2⟩ | ⟨h1, pre, post, h2, h3⟩
      · refine Or.inl ⟨h1, ?_⟩
        intro x hx
        refine ⟨?_, (h2 x hx).2⟩
        rw [List.mem_append, not_or]
        refine ⟨?_, (h2 x hx).1⟩
        intro hx2
        exact e (((hK.mem j hj0 hj1 x).mp hx).2.2.2.symm.trans ((hK.mem i hi0 hi1 x).mp hx2).2.2.2)
      · refine Or.inr ⟨h1, ch i ++ pre, post, by rw [h2]; simp, ?_⟩
        intro x hx
        rcases h3 x hx with h4 | h4
        · exact Or.inl h4
        · exact Or.inr (List.mem_append_right _ h4)
  · unfold postMeasure
    refine Nat.add_lt_add_left (Finset.card_lt_card ?_) _
    rw [Finset.ssubset_iff_of_subset]
    · refine ⟨i, ?_, ?_⟩
      · simp only [Finset.mem_filter, Finset.mem_Ico]; exact ⟨⟨hi0, hi1⟩, hc⟩
      · simp only [Finset.mem_filter, not_and]
        intro _
        rw [hat, if_pos rfl]; simp
    · intro j hj
      simp only [Finset.mem_filter] at hj ⊢
      refine ⟨hj.1, ?_⟩
      have := hj.2
      rw [hat] at this
      by_cases e : j = i
      · rw [if_pos e] at this; exact absurd rfl this
      · rwa [if_neg e] at this

/-- Counting a list of children. -/
theorem post_count {Sibling : Buf Int} (hS : Arr Sibling nn nn) {l : List Int} {c h : Int}
    (hB : 0 ≤ h ∧ h + l.length ≤ Int_MAX)
    (hl : Seg Sibling.at c l EMPTY) (hr : ∀ x ∈ l, 0 ≤ x ∧ x < nn) (hlen : (l.length : Int) ≤ nn) :
    Spec (whileM Sibling.length (fun r : Int × Int => pure (decide (r.1 ≠ EMPTY))) (fun r => do
      let f ← rd Sibling r.1
      let h ← ck (r.2 + 1)
      pure (f, h)) (c, h)) (fun r => r.2 = h + l.length) := by
  have hb := hS.len
  refine (whileM_list (fun done rest (r : Int × Int) => Seg Sibling.at r.1 rest EMPTY ∧
    r.2 = h + done.length) (l := l) ⟨hl, by simp⟩ (by omega) ?_ ?_).mono (fun r hr => hr.2)
  · rintro done x rest ⟨f, q⟩ e ⟨h1, h2⟩
    have hx := hr x (by rw [e]; simp)
    have hf : f = x := h1.1
    subst hf
    refine ⟨?_, ?_⟩
    · have : f ≠ EMPTY := by unfold EMPTY; omega
      simp [this]
    · simp only []
      have hlen2 : l.length = done.length + (rest.length + 1) := by rw [e]; simp
      simp only at h2
      rw [hS.rd hx.1 hx.2, ok_bind, ck_bind (by omega)]
      refine Spec.pure ⟨h1.2, ?_⟩
      simp [h2]; ring
  · rintro ⟨f, q⟩ ⟨h1, _⟩
    have : f = EMPTY := h1
    simp [this]

/-- Pushing a list of children. -/
theorem post_push {Sibling Stack : Buf Int} (hB : nn ≤ Int_MAX) (hS : Arr Sibling nn nn) (hK : (Stack.length : Int) = nn)
    {l T : List Int} {c : Int} (hT : StkRel Stack T)
    (hl : Seg Sibling.at c l EMPTY) (hr : ∀ x ∈ l, 0 ≤ x ∧ x < nn)
    (hlen : (l.length : Int) + T.length ≤ nn) :
    Spec (whileM Sibling.length (fun r : Int × Int × Buf Int => pure (decide (r.1 ≠ EMPTY))) (fun r => do
      let Stack ← wr r.2.2 r.2.1 r.1
      let f ← rd Sibling r.1
      let h ← ck (r.2.1 - 1)
      pure (f, h, Stack)) (c, (T.length : Int) - 1 + l.length, Stack))
      (fun r => (r.2.2.length : Int) = nn ∧ StkRel r.2.2 (l ++ T)) := by
  have hb := hS.len
  refine (whileM_list (fun done rest (r : Int × Int × Buf Int) => Seg Sibling.at r.1 rest EMPTY ∧
    r.2.1 = (T.length : Int) - 1 + rest.length ∧ (r.2.2.length : Int) = nn ∧ StkRel r.2.2 T ∧
    (∀ j : Nat, (hj : j < done.length) → rd r.2.2 ((T.length : Int) + l.length - 1 - j) = .ok done[j]))
    (l := l) ⟨hl, by simp, hK, hT, by simp⟩ (by omega) ?_ ?_).mono ?_
  · rintro done x rest ⟨f, q, S⟩ e ⟨h1, h2, h3, h4, h5⟩
    have hx := hr x (by rw [e]; simp)
    have hf : f = x := h1.1
    subst hf
    have hlen2 : l.length = done.length + (rest.length + 1) := by rw [e]; simp
    simp only [List.length_cons] at h2 h3
    push_cast at h2
    refine ⟨?_, ?_⟩
    · have : f ≠ EMPTY := by unfold EMPTY; omega
      simp [this]
    · simp only []
      rw [wr_ok' (by omega) (by omega), ok_bind, hS.rd hx.1 hx.2, ok_bind, ck_bind (by omega)]
      refine Spec.pure ⟨h1.2, by simp only; omega, by simpa using h3, ?_, ?_⟩
      · exact h4.put (by omega)
      · intro j hj
        simp only [List.length_append, List.length_singleton] at hj
        change rd (S.put q f) _ = _
        by_cases ej : j = done.length
        · have : (T.length : Int) + l.length - 1 - j = q := by omega
          rw [this, rd_put_same (by omega) (by omega)]
          simp [ej]
        · rw [rd_put_ne (by omega) (by omega) (by omega), h5 j (by omega)]
          rw [List.getElem_append_left (by omega)]
  · rintro ⟨f, q, S⟩ ⟨h1, _⟩
    have : f = EMPTY := h1
    simp [this]
  · rintro ⟨f, q, S⟩ ⟨h1, h2, h3, h4, h5⟩
    refine ⟨h3, ?_⟩
    simp only at h5 ⊢
    have gen : ∀ (m : Nat), m ≤ l.length → StkRel S (l.drop (l.length - m) ++ T) := by
      intro m
      induction m with
      | zero => intro _; simpa using h4
      | succ m ih =>
        intro hm
        have h6 := ih (by omega)
        have e : l.drop (l.length - (m + 1)) = l[l.length - (m + 1)] :: l.drop (l.length - m) := by
          rw [List.drop_eq_getElem_cons (by omega)]
          congr 2
          omega
        rw [e]
        refine ⟨?_, h6⟩
        have h7 := h5 (l.length - (m + 1)) (by omega)
        have e2 : (T.length : Int) + l.length - 1 - ((l.length - (m + 1) : Nat) : Int) =
            ((l.drop (l.length - m) ++ T).length : Int) := by
          simp only [List.length_append, List.length_drop]
          omega
        rw [e2] at h7
        exact h7
    have := gen l.length le_rfl
    simpa using this

theorem PCore.k_le {T : List Int} {Child Order : Buf Int} {k : Int} (h : PCore nn nv ch c0 T Child Order k)
    (hn : 0 ≤ nn) : k ≤ nn := by
  have h1 : (Finset.Ico 0 k) ⊆ (Finset.Ico 0 nn).image Order.at := by
    intro v hv
    rw [Finset.mem_Ico] at hv
    obtain ⟨i, i0, i1, e⟩ := h.surj v hv.1 hv.2
    exact Finset.mem_image.mpr ⟨i, Finset.mem_Ico.mpr ⟨i0, i1⟩, e⟩
  have h2 := (Finset.card_le_card h1).trans Finset.card_image_le
  rw [Int.card_Ico, Int.card_Ico] at h2
  have := h.k0
  omega

/-- One iteration of the depth-first search. -/
theorem postStep_spec (hB : nn ≤ Int_MAX) (hK : Kids nn par nv ch) {Sibling : Buf Int} (hS : Arr Sibling nn nn)
    (hsb : ∀ i, 0 ≤ i → i < nn → Seg Sibling.at (c0 i) (ch i) EMPTY)
    {T : List Int} {i : Int} {s : PostSt} (hhead : s.head = T.length)
    (hst : StkRel s.Stack (i :: T)) (hsl : (s.Stack.length : Int) = nn)
    (h : PCore nn nv ch c0 (i :: T) s.Child s.Order s.k) :
    Spec (postStep Sibling s) (fun s' => ∃ T', s'.head = (T'.length : Int) - 1 ∧
      StkRel s'.Stack T' ∧ (s'.Stack.length : Int) = nn ∧
      PCore nn nv ch c0 T' s'.Child s'.Order s'.k ∧
      (∀ x, s.Order.at x ≠ EMPTY → s'.Order.at x ≠ EMPTY) ∧
      (∀ x ∈ i :: T, x ∈ T' ∨ s'.Order.at x ≠ EMPTY) ∧
      (∀ x ∈ T', x ∈ i :: T ∨ par x = i) ∧ (∀ x, x ≠ i → s'.Order.at x = s.Order.at x) ∧
      postMeasure nn s'.Child s'.Order < postMeasure nn s.Child s.Order) := by
  obtain ⟨hi0, hi1, hiv, hio⟩ := h.onstack i (by simp)
  unfold postStep
  rw [hhead, hst.1, ok_bind, h.child.rd hi0 hi1, ok_bind]
  by_cases hc : s.Child.at i = EMPTY
  · obtain ⟨h1, h2⟩ := h.pop hK hsb hc
    have hk1 := h1.k_le (by omega)
    have hk0 := h.k0
    have htl : (((i :: T).length : Nat) : Int) ≤ nn := by
      rcases nodup_length_le (n := nn) h.nodup (fun x hx => ⟨(h.onstack x hx).1, (h.onstack x hx).2.1⟩)
        with h4 | h4
      · exact h4
      · simp at h4
    simp only [List.length_cons] at htl
    rw [if_neg (by simpa using hc), h.order.wr hi0 hi1, ok_bind, ck_bind (by omega), ck_bind (by omega)]
    have hkE : s.k ≠ EMPTY := by have := h.k0; unfold EMPTY; omega
    have hat : ∀ j, (s.Order.put i s.k).at j = if j = i then s.k else s.Order.at j :=
      fun j => h.order.at_put hi0 hi1 _ j
    refine Spec.pure ⟨T, rfl, hst.2, hsl, h1, ?_, ?_, fun x hx => Or.inl (by simp [hx]),
      fun x hx => by simp only [hat, if_neg hx], h2⟩
    · intro x hx
      simp only [hat]
      by_cases e : x = i
      · rw [if_pos e]; exact hkE
      · rw [if_neg e]; exact hx
    · intro x hx
      rcases List.mem_cons.mp hx with rfl | hx
      · right; simp only [hat, if_pos]; exact hkE
      · exact Or.inl hx
  · rw [if_pos (by simpa using hc)]
    obtain ⟨h1, h2, h3⟩ := h.expand hK hc
    have hseg := hsb i hi0 hi1
    rw [← h3] at hseg
    have hr : ∀ x ∈ ch i, 0 ≤ x ∧ x < nn := fun x hx => by
      have := (hK.mem i hi0 hi1 x).mp hx
      exact ⟨this.1, this.2.1⟩
    have htot : ((ch i ++ i :: T).length : Int) ≤ nn := by
      rcases nodup_length_le (n := nn) h1.nodup (fun x hx => ⟨(h1.onstack x hx).1, (h1.onstack x hx).2.1⟩)
        with h4 | h4
      · exact h4
      · simp at h4
    simp only [List.length_append, List.length_cons] at htot
    push_cast at htot
    refine Spec.bind (post_count hS (by omega) hseg hr (by omega)) ?_
    intro r hr2
    have e : r.2 = (((i :: T).length : Int) - 1 + ((ch i).length : Int)) := by
      rw [hr2]; simp
    simp only []
    rw [e]
    refine Spec.bind (post_push hB hS hsl hst hseg hr (by simp; omega)) ?_
    rintro r2 ⟨h4, h5⟩
    rw [h.child.wr hi0 hi1, ok_bind]
    refine Spec.pure ⟨ch i ++ i :: T, ?_, h5, h4, h1, fun x hx => hx, ?_, ?_, fun x _ => rfl, h2⟩
    · simp; ring
    · intro x hx
      exact Or.inl (List.mem_append_right _ hx)
    · intro x hx
      rcases List.mem_append.mp hx with hx | hx
      · exact Or.inr ((hK.mem i hi0 hi1 x).mp hx).2.2.2
      · exact Or.inl hx

/-- src/amd_post_tree.c: all nodes reachable from a root are ordered. -/
theorem AMD_post_tree_spec (hB : nn ≤ Int_MAX) (hK : Kids nn par nv ch) {Sibling : Buf Int} (hS : Arr Sibling nn nn)
    (hsb : ∀ i, 0 ≤ i → i < nn → Seg Sibling.at (c0 i) (ch i) EMPTY)
    {root k : Int} {Child Order Stack : Buf Int} (hsl : (Stack.length : Int) = nn)
    (h : PCore nn nv ch c0 [] Child Order k)
    (hr0 : 0 ≤ root) (hr1 : root < nn) (hrv : 0 < nv root) (hrp : par root = EMPTY)
    (hro : Order.at root = EMPTY) :
    Spec (AMD_post_tree root k Child Sibling Order Stack) (fun s =>
      (s.Stack.length : Int) = nn ∧ PCore nn nv ch c0 [] s.Child s.Order s.k ∧
      s.Order.at root ≠ EMPTY ∧ (∀ x, Order.at x ≠ EMPTY → s.Order.at x ≠ EMPTY) ∧
      (∀ x, x ≠ root → par x = EMPTY → s.Order.at x = Order.at x)) := by
  unfold AMD_post_tree
  rw [wr_ok' le_rfl (by omega), ok_bind]
  refine whileM_spec (fun s : PostSt => ∃ T, s.head = (T.length : Int) - 1 ∧
      StkRel s.Stack T ∧ (s.Stack.length : Int) = nn ∧
      PCore nn nv ch c0 T s.Child s.Order s.k ∧ (root ∈ T ∨ s.Order.at root ≠ EMPTY) ∧
      (∀ x, Order.at x ≠ EMPTY → s.Order.at x ≠ EMPTY) ∧ (∀ x ∈ T, par x = EMPTY → x = root) ∧
      (∀ x, x ≠ root → par x = EMPTY → s.Order.at x = Order.at x))
    (fun s => postMeasure nn s.Child s.Order) _
    ⟨[root], by simp, ⟨by exact rd_put_same le_rfl (by omega), trivial⟩, by simpa using hsl, ?_,
      by simp, fun x hx => hx, by simp, fun x _ _ => rfl⟩ ?_ ?_
  · refine ⟨h.child, h.order, by simp, ?_, h.closed, ?_, h.k0, h.range, h.inj, h.surj⟩
    · intro x hx
      rw [List.mem_singleton] at hx
      subst hx
      exact ⟨hr0, hr1, hrv, hro⟩
    · intro i hi0 hi1 hi
      rcases h.fresh i hi0 hi1 hi with ⟨h1, h2⟩ | ⟨_, pre, post, h2, _⟩
      · refine Or.inl ⟨h1, fun x hx => ⟨?_, (h2 x hx).2⟩⟩
        rw [List.mem_singleton]
        rintro rfl
        have := ((hK.mem i hi0 hi1 x).mp hx).2.2.2
        rw [hrp] at this
        unfold EMPTY at this
        omega
      · simp at h2
  · have hb := hS.len
    have h1 := Finset.card_filter_le (Finset.Ico 0 nn) (fun i => Order.at i = EMPTY)
    have h2 := Finset.card_filter_le (Finset.Ico 0 nn) (fun i => Child.at i ≠ EMPTY)
    rw [Int.card_Ico] at h1 h2
    unfold postMeasure
    simp only
    omega
  · rintro s ⟨T, h1, h2, h3, h4, h5, h6, h8, h9⟩
    refine Spec.pure ?_
    cases T with
    | nil =>
      have : ¬ s.head ≥ 0 := by rw [h1]; simp
      simp only [decide_eq_true_eq, this, if_false]
      exact ⟨h3, h4, by simpa using h5, h6, h9⟩
    | cons i T =>
      have h7 : s.head = (T.length : Int) := by rw [h1]; simp
      have : s.head ≥ 0 := by omega
      simp only [decide_eq_true_eq, this, if_true]
      refine (postStep_spec hB hK hS hsb h7 h2 h3 h4).mono ?_
      rintro s' ⟨T', g1, g2, g3, g4, g5, g6, g8, g9, g7⟩
      have hi := h4.onstack i (by simp)
      refine ⟨⟨T', g1, g2, g3, g4, ?_, fun x hx => g5 x (h6 x hx), ?_, ?_⟩, g7⟩
      · rcases h5 with h5 | h5
        · exact g6 root h5
        · exact Or.inr (g5 root h5)
      · intro x hx hp
        rcases g8 x hx with h | h
        · exact h8 x h hp
        · rw [hp] at h; unfold EMPTY at h; omega
      · intro x hx hp
        rw [g9 x (by rintro rfl; exact hx (h8 x (by simp) hp))]
        exact h9 x hx hp

/-- The lists of children of the nodes `≥ lo`. -/
structure Lists (nn : Int) (par nv : Int → Int) (lo : Int) (Child Sibling : Buf Int)
    (ch : Int → List Int) : Prop where
  child : Arr Child nn nn
  sibling : Arr Sibling nn nn
  nodup : ∀ i, 0 ≤ i → i < nn → (ch i).Nodup
  mem : ∀ i, 0 ≤ i → i < nn → ∀ x, x ∈ ch i ↔ (lo ≤ x ∧ x < nn ∧ 0 < nv x ∧ par x = i)
  seg : ∀ i, 0 ≤ i → i < nn → Seg Sibling.at (Child.at i) (ch i) EMPTY

theorem postLink_spec {Parent Nv : Buf Int} (hP : Arr Parent nn nn) (hN : Arr Nv nn nn)
    (hroot : ∀ j, 0 ≤ j → j < nn → 0 < Nv.at j → Parent.at j = EMPTY ∨
      (0 ≤ Parent.at j ∧ Parent.at j < nn))
    {j : Int} {Child Sibling : Buf Int} {ch : Int → List Int} (hj0 : 0 ≤ j) (hj1 : j < nn)
    (h : Lists nn Parent.at Nv.at (j + 1) Child Sibling ch) :
    Spec (postLink Parent Nv j (Child, Sibling)) (fun r =>
      ∃ ch', Lists nn Parent.at Nv.at j r.1 r.2 ch') := by
  unfold postLink
  rw [hN.rd hj0 hj1, ok_bind]
  have hsame : (0 < Nv.at j → Parent.at j = EMPTY) →
      Lists nn Parent.at Nv.at j Child Sibling ch := by
    intro hE
    refine ⟨h.child, h.sibling, h.nodup, ?_, h.seg⟩
    intro i hi0 hi1 x
    rw [h.mem i hi0 hi1]
    constructor
    · rintro ⟨h1, h2⟩; exact ⟨by omega, h2⟩
    · rintro ⟨h1, h2, h3, h4⟩
      refine ⟨?_, h2, h3, h4⟩
      by_contra hx
      have : x = j := by omega
      subst this
      have := hE h3
      rw [h4] at this
      unfold EMPTY at this
      omega
  by_cases hv : Nv.at j > 0
  · rw [if_pos hv, hP.rd hj0 hj1, ok_bind]
    by_cases hp : Parent.at j = EMPTY
    · rw [if_neg (by simpa using hp)]
      exact Spec.pure ⟨ch, hsame (fun _ => hp)⟩
    · rw [if_pos hp]
      obtain ⟨hp0, hp1⟩ := (hroot j hj0 hj1 hv).resolve_left hp
      simp only
      rw [h.child.rd hp0 hp1, ok_bind, h.sibling.wr hj0 hj1, ok_bind, h.child.wr hp0 hp1, ok_bind]
      refine Spec.pure ⟨fun i => if i = Parent.at j then j :: ch i else ch i,
        h.child.put hp0 hp1 _, h.sibling.put hj0 hj1 _, ?_, ?_, ?_⟩
      · intro i hi0 hi1
        split
        · rw [List.nodup_cons]
          refine ⟨?_, h.nodup i hi0 hi1⟩
          rw [h.mem i hi0 hi1]; omega
        · exact h.nodup i hi0 hi1
      · intro i hi0 hi1 x
        have hm := h.mem i hi0 hi1 x
        split
        · rename_i e
          rw [List.mem_cons, hm]
          constructor
          · rintro (rfl | ⟨h1, h2⟩)
            · exact ⟨le_rfl, hj1, hv, e.symm⟩
            · exact ⟨by omega, h2⟩
          · rintro ⟨h1, h2⟩
            by_cases ex : x = j
            · exact Or.inl ex
            · exact Or.inr ⟨by omega, h2⟩
        · rename_i e
          rw [hm]
          constructor
          · rintro ⟨h1, h2⟩; exact ⟨by omega, h2⟩
          · rintro ⟨h1, h2, h3, h4⟩
            refine ⟨?_, h2, h3, h4⟩
            by_contra hx
            have : x = j := by omega
            subst this
            exact e h4.symm
      · intro i hi0 hi1
        have hold : Seg (Sibling.put j (Child.at (Parent.at j))).at (Child.at i) (ch i) EMPTY := by
          refine (h.seg i hi0 hi1).congr ?_
          intro x hx
          rw [h.sibling.at_put hj0 hj1, if_neg]
          have := (h.mem i hi0 hi1 x).mp hx
          omega
        rw [h.child.at_put hp0 hp1]
        simp only
        by_cases e : i = Parent.at j
        · rw [if_pos e, if_pos e]
          refine ⟨rfl, ?_⟩
          have e2 : (Sibling.put j (Child.at (Parent.at j))).at j = Child.at i := by
            rw [h.sibling.at_put hj0 hj1, if_pos rfl, e]
          rw [e2]
          exact hold
        · rw [if_neg e, if_neg e]
          exact hold
  · rw [if_neg hv]
    exact Spec.pure ⟨ch, hsame (fun h => absurd h (by omega))⟩

/-- The search for the biggest child splits the list at that child. -/
theorem postBiggest_spec {Fsize Sibling : Buf Int} (hS : Arr Sibling nn nn) (hF : Arr Fsize nn nn)
    {l : List Int} {c : Int} (hl : Seg Sibling.at c l EMPTY) (hne : l ≠ [])
    (hnd : l.Nodup) (hr : ∀ x ∈ l, 0 ≤ x ∧ x < nn ∧ -1 ≤ Fsize.at x) :
    Spec (postBiggest Fsize Sibling c) (fun b => ∃ pre post, l = pre ++ b.bigf :: post ∧
      b.bigfprev = pre.getLastD EMPTY ∧ b.fprev = l.getLastD EMPTY) := by
  have hb := hS.len
  have hlen : (l.length : Int) ≤ nn := by
    rcases nodup_length_le (n := nn) hnd (fun x hx => ⟨(hr x hx).1, (hr x hx).2.1⟩) with h | h
    · exact h
    · exact absurd h hne
  unfold postBiggest
  refine (whileM_list (fun done rest (s : BigSt) => Seg Sibling.at s.f rest EMPTY ∧
    s.fprev = done.getLastD EMPTY ∧
    ((done = [] ∧ s.maxfrsize = -1) ∨ ∃ pre post, done = pre ++ s.bigf :: post ∧
      s.bigfprev = pre.getLastD EMPTY)) (l := l)
    ⟨hl, rfl, Or.inl ⟨rfl, rfl⟩⟩ (by omega) ?_ ?_).mono ?_
  · rintro done x rest s e ⟨h1, h2, h3⟩
    have hx := hr x (by rw [e]; simp)
    have hf : s.f = x := h1.1
    have h1' := h1.2
    refine ⟨?_, ?_⟩
    · have : s.f ≠ EMPTY := by rw [hf]; unfold EMPTY; omega
      simp [this]
    · rw [hf, hF.rd hx.1 hx.2.1, ok_bind, hS.rd hx.1 hx.2.1, ok_bind]
      split
      · refine Spec.pure ⟨h1', by simp, Or.inr ⟨done, [], rfl, h2⟩⟩
      · rename_i hlt
        refine Spec.pure ⟨h1', by simp, Or.inr ?_⟩
        rcases h3 with ⟨_, h3⟩ | ⟨pre, post, h3, h4⟩
        · exact absurd (by omega) hlt
        · exact ⟨pre, post ++ [x], by rw [h3]; simp, h4⟩
  · rintro s ⟨h1, _⟩
    have : s.f = EMPTY := h1
    simp [this]
  · rintro s ⟨_, h2, h3⟩
    rcases h3 with ⟨h3, _⟩ | ⟨pre, post, h3, h4⟩
    · exact absurd h3 hne
    · exact ⟨pre, post, h3, h4, h2⟩

theorem getLastD_concat (l : List Int) (x d : Int) : (l ++ [x]).getLastD d = x := by simp

/-- Moving the biggest child to the end permutes the list of children. -/
theorem postBigLast_spec {par : Int → Int} {Nv Fsize : Buf Int} (hN : Arr Nv nn nn)
    (hF : Arr Fsize nn nn) (hFs : ∀ j, 0 ≤ j → j < nn → 0 < Nv.at j → -1 ≤ Fsize.at j)
    {i : Int} {Child Sibling : Buf Int} {ch : Int → List Int} (hi0 : 0 ≤ i) (hi1 : i < nn)
    (h : Lists nn par Nv.at 0 Child Sibling ch) :
    Spec (postBigLast Nv Fsize i (Child, Sibling)) (fun r =>
      ∃ ch', Lists nn par Nv.at 0 r.1 r.2 ch') := by
  unfold postBigLast
  rw [hN.rd hi0 hi1, ok_bind]
  by_cases hv : Nv.at i > 0
  swap
  · rw [if_neg hv]; exact Spec.pure ⟨ch, h⟩
  rw [if_pos hv]
  simp only
  rw [h.child.rd hi0 hi1, ok_bind]
  by_cases hc : Child.at i = EMPTY
  · rw [if_neg (by simpa using hc)]; exact Spec.pure ⟨ch, h⟩
  rw [if_pos hc]
  have hseg := h.seg i hi0 hi1
  have hne := hseg.ne_nil hc
  have hr : ∀ x ∈ ch i, 0 ≤ x ∧ x < nn ∧ 0 < Nv.at x ∧ par x = i :=
    fun x hx => (h.mem i hi0 hi1 x).mp hx
  refine Spec.bind (postBiggest_spec h.sibling hF hseg hne (h.nodup i hi0 hi1)
    (fun x hx => ⟨(hr x hx).1, (hr x hx).2.1, hFs x (hr x hx).1 (hr x hx).2.1 (hr x hx).2.2.1⟩)) ?_
  rintro b ⟨pre, post, hsplit, hbp, hfp⟩
  have hbig := hr b.bigf (by rw [hsplit]; simp)
  rw [h.sibling.rd hbig.1 hbig.2.1, ok_bind]
  rw [hsplit] at hseg
  obtain ⟨m, hs1, hs2, hs3⟩ := Seg.append.mp hseg
  subst hs2
  by_cases hx : Sibling.at b.bigf = EMPTY
  · rw [if_neg (by simpa using hx)]; exact Spec.pure ⟨ch, h⟩
  rw [if_pos hx]
  -- the list after `bigf` is not empty
  obtain ⟨mid, last, hpost⟩ : ∃ mid last, post = mid ++ [last] := by
    rcases List.eq_nil_or_concat' post with hp | ⟨mid, last, hp⟩
    · rw [hp] at hs3
      exact absurd hs3 hx
    · exact ⟨mid, last, hp⟩
  have hlast : b.fprev = last := by 
    rw [hfp, hsplit, hpost, ← List.cons_append, ← List.append_assoc]; exact getLastD_concat _ _ _
  have hlr := hr last (by rw [hsplit, hpost]; simp)
  have hnd := h.nodup i hi0 hi1
  rw [hsplit, hpost] at hnd
  -- a common form of the new arrays
  have key : ∀ (C' S' : Buf Int), Arr C' nn nn → Arr S' nn nn →
      (∀ j, j ≠ i → C'.at j = Child.at j) →
      (∀ x, x ∉ ch i → S'.at x = Sibling.at x) →
      Seg S'.at (C'.at i) (pre ++ (post ++ [b.bigf])) EMPTY →
      ∃ ch', Lists nn par Nv.at 0 C' S' ch' := by
    intro C' S' hC' hS' hCo hSo hnew
    have hperm : (pre ++ (post ++ [b.bigf])).Perm (ch i) := by
      rw [hsplit]
      refine List.Perm.append_left pre ?_
      exact List.perm_append_comm
    refine ⟨fun j => if j = i then pre ++ (post ++ [b.bigf]) else ch j, hC', hS', ?_, ?_, ?_⟩
    · intro j hj0 hj1
      split
      · exact hperm.nodup_iff.mpr (h.nodup i hi0 hi1)
      · exact h.nodup j hj0 hj1
    · intro j hj0 hj1 x
      split
      · rename_i e; subst e
        rw [hperm.mem_iff]; exact h.mem j hj0 hj1 x
      · exact h.mem j hj0 hj1 x
    · intro j hj0 hj1
      by_cases e : j = i
      · subst e; rw [if_pos rfl]; exact hnew
      · rw [if_neg e, hCo j e]
        refine (h.seg j hj0 hj1).congr ?_
        intro x hxj
        refine hSo x ?_
        intro hxi
        exact e (((h.mem j hj0 hj1 x).mp hxj).2.2.2.symm.trans (hr x hxi).2.2.2)
  have hmemi : ∀ x, x ∉ ch i → x ≠ b.bigf ∧ x ≠ last ∧ x ∉ pre := by
    intro x hx2
    rw [hsplit, hpost] at hx2
    simp only [List.mem_append, List.mem_cons, List.not_mem_nil, or_false, not_or] at hx2
    exact ⟨hx2.2.1, hx2.2.2.2, hx2.1⟩
  simp only [List.nodup_append, List.nodup_cons, List.mem_append, List.mem_cons, List.not_mem_nil,
    or_false] at hnd
  obtain ⟨hn1, ⟨hn2, hn3, hn4, hn5⟩, hn6⟩ := hnd
  have hbl : b.bigf ≠ last := fun e => hn2 (Or.inr e)
  rcases List.eq_nil_or_concat' pre with hpre | ⟨pr, q, hpre⟩
  · -- `bigf` was the first child
    have hbE : b.bigfprev = EMPTY := by rw [hbp, hpre]; rfl
    rw [if_pos hbE]
    rw [h.child.wr hi0 hi1]
    simp only [ok_bind, pure_eq_ok]
    rw [h.sibling.wr hbig.1 hbig.2.1, ok_bind, hlast,
      (h.sibling.put hbig.1 hbig.2.1 _).wr hlr.1 hlr.2.1, ok_bind]
    have hS1 := h.sibling.put hbig.1 hbig.2.1 EMPTY
    have hat : ∀ x, ((Sibling.put b.bigf EMPTY).put last b.bigf).at x =
        if x = last then b.bigf else if x = b.bigf then EMPTY else Sibling.at x := by
      intro x
      rw [hS1.at_put hlr.1 hlr.2.1, h.sibling.at_put hbig.1 hbig.2.1]
    refine Spec.ok (key _ _ (h.child.put hi0 hi1 _) (hS1.put hlr.1 hlr.2.1 _) ?_ ?_ ?_)
    · intro j hj
      rw [h.child.at_put hi0 hi1, if_neg hj]
    · intro x hx2
      obtain ⟨g1, g2, g3⟩ := hmemi x hx2
      rw [hat, if_neg g2, if_neg g1]
    · rw [h.child.at_put hi0 hi1, if_pos rfl, hpre, List.nil_append, hpost]
      refine Seg.append.mpr ⟨b.bigf, ?_, rfl, ?_⟩
      · rw [hpost] at hs3
        refine hs3.redirect ?_ ?_
        · intro y hy
          have e1 : y ≠ last := by rintro rfl; exact hn5 _ hy _ rfl rfl
          have e2 : y ≠ b.bigf := by rintro rfl; exact hn2 (Or.inl hy)
          rw [hat, if_neg e1, if_neg e2]
        · rw [hat, if_pos rfl]
      · change _ = EMPTY
        rw [hat, if_neg hbl, if_pos rfl]
  · have hq := hr q (by rw [hsplit, hpre]; simp)
    have hbq : b.bigfprev = q := by rw [hbp, hpre]; exact getLastD_concat _ _ _
    have hbE : b.bigfprev ≠ EMPTY := by rw [hbq]; unfold EMPTY; omega
    rw [if_neg hbE, hbq]
    rw [h.sibling.wr hq.1 hq.2.1]
    simp only [ok_bind, pure_eq_ok]
    have hS0 := h.sibling.put hq.1 hq.2.1 (Sibling.at b.bigf)
    have hS1 := hS0.put hbig.1 hbig.2.1 EMPTY
    rw [hS0.wr hbig.1 hbig.2.1, ok_bind, hlast, hS1.wr hlr.1 hlr.2.1, ok_bind]
    have hat : ∀ x, (((Sibling.put q (Sibling.at b.bigf)).put b.bigf EMPTY).put last b.bigf).at x =
        if x = last then b.bigf else if x = b.bigf then EMPTY else
          if x = q then Sibling.at b.bigf else Sibling.at x := by
      intro x
      rw [hS1.at_put hlr.1 hlr.2.1, hS0.at_put hbig.1 hbig.2.1, h.sibling.at_put hq.1 hq.2.1]
    have hqpre : q ∈ pre := by rw [hpre]; simp
    have hql : q ≠ last := fun e => hn6 q hqpre last (by simp) e
    have hqb : q ≠ b.bigf := fun e => hn6 q hqpre b.bigf (by simp) e
    refine Spec.ok (key _ _ h.child (hS1.put hlr.1 hlr.2.1 _) ?_ ?_ ?_)
    · intro j _; rfl
    · intro x hx2
      obtain ⟨g1, g2, g3⟩ := hmemi x hx2
      have g4 : x ≠ q := by rintro rfl; exact g3 hqpre
      rw [hat, if_neg g2, if_neg g1, if_neg g4]
    · refine Seg.append.mpr ⟨Sibling.at b.bigf, ?_, ?_⟩
      · rw [hpre] at hs1 ⊢
        refine hs1.redirect ?_ ?_
        · intro y hy
          have hyp : y ∈ pre := by rw [hpre]; simp [hy]
          have e1 : y ≠ last := fun e => hn6 y hyp last (by simp) e
          have e2 : y ≠ b.bigf := fun e => hn6 y hyp b.bigf (by simp) e
          have e3 : y ≠ q := by
            rintro rfl
            rw [hpre] at hn1
            simp [List.nodup_append] at hn1
            exact hn1.2 y hy rfl
          rw [hat, if_neg e1, if_neg e2, if_neg e3]
        · rw [hat, if_neg hql, if_neg hqb, if_pos rfl]
      · rw [hpost] at hs3 ⊢
        refine Seg.append.mpr ⟨b.bigf, ?_, rfl, ?_⟩
        · refine hs3.redirect ?_ ?_
          · intro y hy
            have e1 : y ≠ last := by rintro rfl; exact hn5 _ hy _ rfl rfl
            have e2 : y ≠ b.bigf := by rintro rfl; exact hn2 (Or.inl hy)
            have e3 : y ≠ q := by
              rintro rfl
              exact hn6 y hqpre y (Or.inr (Or.inl hy)) rfl
            rw [hat, if_neg e1, if_neg e2, if_neg e3]
          · rw [hat, if_pos rfl]
        · change _ = EMPTY
          rw [hat, if_neg hbl, if_pos rfl]

/-- src/amd_postorder.c: `Order` numbers the nodes `0, 1, …`, children before parents. -/
theorem AMD_postorder_spec {Parent Nv Fsize Order Child Sibling Stack : Buf Int} (hB : nn ≤ Int_MAX)
    (hn : 0 ≤ nn) (hP : Arr Parent nn nn) (hN : Arr Nv nn nn) (hF : Arr Fsize nn nn)
    (hOl : (Order.length : Int) = nn) (hCl : (Child.length : Int) = nn)
    (hSl : (Sibling.length : Int) = nn) (hTl : (Stack.length : Int) = nn)
    (hroot : ∀ j, 0 ≤ j → j < nn → 0 < Nv.at j → Parent.at j = EMPTY ∨
      (0 ≤ Parent.at j ∧ Parent.at j < nn ∧ 0 < Nv.at (Parent.at j)))
    (rk : Int → Nat)
    (hrk : ∀ j, 0 ≤ j → j < nn → 0 < Nv.at j → Parent.at j ≠ EMPTY → rk j < rk (Parent.at j))
    (hFs : ∀ j, 0 ≤ j → j < nn → 0 < Nv.at j → -1 ≤ Fsize.at j) :
    Spec (AMD_postorder nn Parent Nv Fsize Order Child Sibling Stack) (fun r =>
      Arr r.1 nn nn ∧ (r.2.1.length : Int) = nn ∧ (r.2.2.1.length : Int) = nn ∧
      (r.2.2.2.length : Int) = nn ∧
      ∃ k, 0 ≤ k ∧
        (∀ j, 0 ≤ j → j < nn → 0 < Nv.at j → 0 ≤ r.1.at j ∧ r.1.at j < k) ∧
        (∀ j, 0 ≤ j → j < nn → ¬ 0 < Nv.at j → r.1.at j = EMPTY) ∧
        (∀ i j, 0 ≤ i → i < nn → 0 ≤ j → j < nn → 0 < Nv.at i → 0 < Nv.at j →
          r.1.at i = r.1.at j → i = j) ∧
        (∀ v, 0 ≤ v → v < k → ∃ j, 0 ≤ j ∧ j < nn ∧ 0 < Nv.at j ∧ r.1.at j = v) ∧
        (∀ j, 0 ≤ j → j < nn → 0 < Nv.at j → Parent.at j ≠ EMPTY →
          r.1.at j < r.1.at (Parent.at j))) := by
  unfold AMD_postorder
  -- empty lists
  refine Spec.bind (forI_int hn (fun j (st : Buf Int × Buf Int) => Arr st.1 nn j ∧ Arr st.2 nn j ∧
    (∀ i, 0 ≤ i → i < j → st.1.at i = EMPTY)) ?_ ?_) ?_
  · exact ⟨⟨hCl, fun i h1 h2 => by omega⟩, ⟨hSl, fun i h1 h2 => by omega⟩, fun i h1 h2 => by omega⟩
  · rintro j ⟨C, S⟩ hj0 hj1 ⟨h1, h2, h3⟩
    simp only at h1 h2 h3 ⊢
    rw [h1.wr hj0 hj1, ok_bind, h2.wr hj0 hj1, ok_bind]
    refine Spec.pure ⟨h1.push hj0 hj1 _, h2.push hj0 hj1 _, ?_⟩
    intro i hi0 hi1
    rw [h1.at_put hj0 hj1]
    split
    · rfl
    · exact h3 i hi0 (by omega)
  rintro ⟨C0, S0⟩ ⟨hC0, hS0, hCE⟩
  simp only at hC0 hS0 hCE
  -- lists of children
  refine Spec.bind (forDown_int hn (fun j (st : Buf Int × Buf Int) =>
    ∃ ch, Lists nn Parent.at Nv.at j st.1 st.2 ch) ?_ ?_) ?_
  · refine ⟨fun _ => [], hC0, hS0, by simp, ?_, ?_⟩
    · intro i _ _ x
      simp only [List.not_mem_nil, false_iff]
      omega
    · intro i hi0 hi1
      exact hCE i hi0 hi1
  · rintro j ⟨C, S⟩ hj0 hj1 ⟨ch, h⟩
    refine postLink_spec hP hN ?_ hj0 hj1 h
    intro j h1 h2 h3
    rcases hroot j h1 h2 h3 with h | h
    · exact Or.inl h
    · exact Or.inr ⟨h.1, h.2.1⟩
  intro st hst
  refine Spec.bind (forI_int hn (fun _ (st : Buf Int × Buf Int) =>
    ∃ ch, Lists nn Parent.at Nv.at 0 st.1 st.2 ch) hst ?_) ?_
  · rintro j ⟨C, S⟩ hj0 hj1 ⟨ch, h⟩
    exact postBigLast_spec hN hF hFs hj0 hj1 h
  rintro ⟨C1, S1⟩ ⟨ch, hL⟩
  simp only at hL ⊢
  -- Order
  refine Spec.bind (forI_int hn (fun j (O : Buf Int) => Arr O nn j ∧
    (∀ i, 0 ≤ i → i < j → O.at i = EMPTY)) ?_ ?_) ?_
  · exact ⟨⟨hOl, fun i h1 h2 => by omega⟩, fun i h1 h2 => by omega⟩
  · rintro j O hj0 hj1 ⟨h1, h2⟩
    rw [h1.wr hj0 hj1]
    refine Spec.ok ⟨h1.push hj0 hj1 _, ?_⟩
    intro i hi0 hi1
    rw [h1.at_put hj0 hj1]
    split
    · rfl
    · exact h2 i hi0 (by omega)
  rintro O ⟨hO, hOE⟩
  have hK : Kids nn Parent.at Nv.at ch := ⟨hL.nodup, hL.mem⟩
  refine Spec.bind (forI_int hn (fun j (r : Int × Buf Int × Buf Int × Buf Int) =>
    (r.2.2.2.length : Int) = nn ∧ PCore nn Nv.at ch C1.at [] r.2.1 r.2.2.1 r.1 ∧
    (∀ x, 0 ≤ x → x < j → 0 < Nv.at x → Parent.at x = EMPTY → r.2.2.1.at x ≠ EMPTY) ∧
    (∀ x, j ≤ x → x < nn → Parent.at x = EMPTY → r.2.2.1.at x = EMPTY)) ?_ ?_) ?_
  · refine ⟨hTl, ⟨hL.child, hO, by simp, by simp, ?_, ?_, le_rfl, ?_, ?_, ?_⟩, fun x h1 h2 => by omega, ?_⟩
    · intro i h1 h2 h3; exact absurd (hOE i h1 h2) h3
    · intro i h1 h2 h3
      refine Or.inl ⟨rfl, fun x hx => ⟨by simp, ?_⟩⟩
      have := (hK.mem i h1 h2 x).mp hx
      exact hOE x this.1 this.2.1
    · intro i h1 h2 h3; exact absurd (hOE i h1 h2) h3
    · intro i j h1 h2 _ _ h3; exact absurd (hOE i h1 h2) h3
    · intro v h1 h2; omega
    · intro x h1 h2 _; exact hOE x (by omega) h2
  · rintro j ⟨k, C, Od, St⟩ hj0 hj1 ⟨h1, h2, h3, h4⟩
    simp only at h1 h2 h3 h4 ⊢
    rw [hP.rd hj0 hj1, ok_bind]
    by_cases hp : Parent.at j = EMPTY
    · rw [if_pos hp, hN.rd hj0 hj1, ok_bind]
      by_cases hv : Nv.at j > 0
      · rw [if_pos hv]
        refine Spec.bind (AMD_post_tree_spec hB hK hL.sibling hL.seg h1 h2 hj0 hj1 hv hp
          (h4 j le_rfl hj1 hp)) ?_
        rintro s ⟨g1, g2, g3, g4, g5⟩
        refine Spec.pure ⟨g1, g2, ?_, ?_⟩
        · intro x hx0 hx1 hxv hxp
          by_cases e : x = j
          · rw [e]; exact g3
          · exact g4 x (h3 x hx0 (by omega) hxv hxp)
        · intro x hx0 hx1 hxp
          have := h4 x (by omega) hx1 hxp
          rw [← this]
          exact g5 x (by omega) hxp
      · rw [if_neg hv]
        refine Spec.pure ⟨h1, h2, ?_, fun x hx => h4 x (by omega)⟩
        intro x hx0 hx1 hxv hxp
        exact h3 x hx0 (by
          by_contra hh
          have : x = j := by omega
          subst this; exact hv hxv) hxv hxp
    · rw [if_neg hp]
      refine Spec.pure ⟨h1, h2, ?_, fun x hx => h4 x (by omega)⟩
      intro x hx0 hx1 hxv hxp
      exact h3 x hx0 (by
        by_contra hh
        have : x = j := by omega
        subst this; exact hp hxp) hxv hxp
  rintro ⟨k, C, Od, St⟩ ⟨h1, h2, h3, h4⟩
  simp only at h1 h2 h3 h4 ⊢
  have hall : ∀ (r : Nat) (x : Int), 0 ≤ x → x < nn → 0 < Nv.at x →
      (Finset.Ico 0 nn).sup rk - rk x ≤ r → Od.at x ≠ EMPTY := by
    intro r
    induction r with
    | zero =>
      intro x hx0 hx1 hxv hr
      rcases hroot x hx0 hx1 hxv with hp | ⟨hp0, hp1, hpv⟩
      · exact h3 x hx0 hx1 hxv hp
      · have g1 := hrk x hx0 hx1 hxv (by unfold EMPTY; omega)
        have g2 := Finset.le_sup (f := rk) (Finset.mem_Ico.mpr ⟨hp0, hp1⟩)
        omega
    | succ r ih =>
      intro x hx0 hx1 hxv hr
      rcases hroot x hx0 hx1 hxv with hp | ⟨hp0, hp1, hpv⟩
      · exact h3 x hx0 hx1 hxv hp
      · have g1 := hrk x hx0 hx1 hxv (by unfold EMPTY; omega)
        have g2 := Finset.le_sup (f := rk) (Finset.mem_Ico.mpr ⟨hp0, hp1⟩)
        have g3 := ih _ hp0 hp1 hpv (by omega)
        exact (h2.closed _ hp0 hp1 g3 x ((hK.mem _ hp0 hp1 x).mpr ⟨hx0, hx1, hxv, rfl⟩)).1
  have hall' : ∀ x, 0 ≤ x → x < nn → 0 < Nv.at x → Od.at x ≠ EMPTY :=
    fun x h1 h2 h3 => hall _ x h1 h2 h3 le_rfl
  refine Spec.pure ⟨h2.order, h2.child.len, hL.sibling.len, h1, k, h2.k0, ?_, ?_, ?_, ?_, ?_⟩
  · intro j hj0 hj1 hjv
    exact (h2.range j hj0 hj1 (hall' j hj0 hj1 hjv)).2
  · intro j hj0 hj1 hjv
    by_contra hc
    exact hjv (h2.range j hj0 hj1 hc).1
  · intro i j hi0 hi1 hj0 hj1 hiv hjv e
    exact h2.inj i j hi0 hi1 hj0 hj1 (hall' i hi0 hi1 hiv) e
  · intro v hv0 hv1
    obtain ⟨j, g1, g2, g3⟩ := h2.surj v hv0 hv1
    refine ⟨j, g1, g2, ?_, g3⟩
    exact (h2.range j g1 g2 (by rw [g3]; unfold EMPTY; omega)).1
  · intro j hj0 hj1 hjv hp
    obtain ⟨hp0, hp1, hpv⟩ := (hroot j hj0 hj1 hjv).resolve_left hp
    exact (h2.closed _ hp0 hp1 (hall' _ hp0 hp1 hpv) j
      ((hK.mem _ hp0 hp1 j).mpr ⟨hj0, hj1, hjv, rfl⟩)).2

end

end Verif
