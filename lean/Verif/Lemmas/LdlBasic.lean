import Verif.Lemmas.Loops
import Verif.Spec
import Verif.Model.Ldl
import Mathlib.Data.Fintype.EquivFin
import Mathlib.Data.Fintype.Basic

/-! # Refinement lemmas for the permutation and validation routines of `ldl.c` -/

set_option linter.unusedSectionVars false

namespace Verif

theorem PermPair.symm {n : Nat} {p q : Nat → Nat} (h : PermPair n p q) : PermPair n q p :=
  ⟨h.q_lt, h.p_lt, h.pq, h.qp⟩

/-- Every permutation has an inverse. -/
theorem IsPerm.exists_pair {n : Nat} {f : Nat → Int} (h : IsPerm n f) :
    ∃ q, PermPair n (fun i => (f i).toNat) q := by
  let g : Fin n → Fin n := fun i => ⟨(f i).toNat, by have := h.1 i i.2; omega⟩
  have hg : Function.Injective g := by
    intro a b hab
    have e : (f a).toNat = (f b).toNat := by simpa [g] using hab
    have h1 := h.1 a a.2
    have h2 := h.1 b b.2
    exact Fin.ext (h.2 a b a.2 b.2 (by omega))
  have hs : Function.Surjective g := Finite.surjective_of_injective hg
  choose k hk using hs
  refine ⟨fun i => if hi : i < n then k ⟨i, hi⟩ else 0, ?_, ?_, ?_, ?_⟩
  · intro i hi
    have := h.1 i hi
    omega
  · intro i hi
    simp [hi]
  · intro i hi
    have h1 : (f i).toNat < n := by have := h.1 i hi; omega
    simp only [h1, dite_true]
    have e := hk ⟨(f i).toNat, h1⟩
    have : g ⟨i, hi⟩ = ⟨(f i).toNat, h1⟩ := rfl
    rw [← this] at e ⊢
    rw [hg e]
  · intro i hi
    simp only [hi, dite_true]
    have := congrArg Fin.val (hk ⟨i, hi⟩)
    simpa [g] using this

theorem PermPair.isPerm {n : Nat} {p q : Nat → Nat} (h : PermPair n p q) :
    IsPerm n (fun i => (p i : Int)) := by
  refine ⟨fun k hk => ?_, fun j k hj hk e => ?_⟩
  · have := h.p_lt k hk
    simp only
    omega
  · have e' : p j = p k := by simpa using e
    rw [← h.qp j hj, ← h.qp k hk, e']

/-- Permutation in terms of values: every number occurs exactly once. -/
theorem isPerm_iff_existsUnique {n : Nat} {f : Nat → Int} :
    IsPerm n f ↔ (∀ k, k < n → 0 ≤ f k ∧ f k < n) ∧
      ∀ v : Nat, v < n → ∃ k, (k < n ∧ f k = v) ∧ ∀ k', k' < n ∧ f k' = v → k' = k := by
  constructor
  · intro h
    obtain ⟨q, hq⟩ := h.exists_pair
    refine ⟨h.1, fun v hv => ⟨q v, ⟨hq.q_lt v hv, ?_⟩, ?_⟩⟩
    · have h1 := hq.pq v hv
      have h2 := h.1 (q v) (hq.q_lt v hv)
      omega
    · rintro k' ⟨h1, h2⟩
      have := hq.qp k' h1
      simp only [h2] at this
      simpa using this.symm
  · rintro ⟨h1, h2⟩
    refine ⟨h1, fun j k hj hk e => ?_⟩
    have h3 := h1 j hj
    obtain ⟨w, _, hw⟩ := h2 (f j).toNat (by omega)
    rw [hw j ⟨hj, by omega⟩, hw k ⟨hk, by omega⟩]

section

variable {α : Type}

/-- Scatter loop `X[p j] = v j`. -/
theorem forI_scatter {n : Nat} {p q : Nat → Nat} (hp : PermPair n p q) {X : Buf α}
    (hX : n ≤ X.length) {f : Int → Buf α → M (Buf α)} (v : Nat → α)
    (hf : ∀ (j : Nat) (b : Buf α), j < n → b.length = X.length →
      f (j : Int) b = wr b (p j : Int) (v j)) :
    Spec (forI 0 (n : Int) X f) (fun X' => X'.length = X.length ∧
      Buf.Has X' n (fun i => v (q i)) ∧ ∀ i, n ≤ i → X'[i]? = X[i]?) := by
  have := forI_spec (lo := 0) (hi := n) (Nat.zero_le n) (s := X) (f := f)
    (fun j (b : Buf α) => b.length = X.length ∧ (∀ i, i < j → b[p i]? = some (some (v i))) ∧
      ∀ i, n ≤ i → b[i]? = X[i]?)
    ⟨rfl, fun i hi => absurd hi (by omega), fun i _ => rfl⟩ (by
      rintro j b _ hj ⟨h1, h2, h3⟩
      have hpj := hp.p_lt j hj
      rw [hf j b hj h1, wr_ok (by omega)]
      refine Spec.ok ⟨by simp [h1], ?_, ?_⟩
      · intro i hi
        rw [List.getElem?_set]
        by_cases e : p j = p i
        · have e2 : j = i := by rw [← hp.qp j hj, ← hp.qp i (by omega), e]
          subst e2
          simp [show p j < b.length by omega]
        · rw [if_neg e]
          have : i ≠ j := fun e' => e (by rw [e'])
          exact h2 i (by omega)
      · intro i hi
        rw [List.getElem?_set, if_neg (by omega)]
        exact h3 i hi)
  refine this.mono ?_
  rintro X' ⟨h1, h2, h3⟩
  refine ⟨h1, fun i hi => ?_, h3⟩
  have := h2 (q i) (hp.q_lt i hi)
  rwa [hp.pq i hi] at this

end

variable {K : Type} [Zero K] [One K] [Add K] [Sub K] [Mul K] [Div K] [Neg K] [Scalar K]

theorem LDL_perm_spec {n : Nat} {p : Nat → Nat} (hp : ∀ i, i < n → p i < n) {X B : Buf K}
    {P : Buf Int} {fb : Nat → K} (hX : n ≤ X.length) (hP : Buf.Has P n (fun i => (p i : Int)))
    (hB : Buf.Has B n fb) :
    Spec (LDL_perm n X B P) (fun X' => X'.length = X.length ∧
      Buf.Has X' n (fun i => fb (p i)) ∧ ∀ i, n ≤ i → X'[i]? = X[i]?) := by
  unfold LDL_perm
  refine forI_fill hX _ ?_
  intro j b' hj _ _ _
  rw [hP.rd hj, ok_bind, hB.rd (hp j hj), ok_bind]

theorem LDL_permt_spec {n : Nat} {p q : Nat → Nat} (hp : PermPair n p q) {X B : Buf K}
    {P : Buf Int} {fb : Nat → K} (hX : n ≤ X.length) (hP : Buf.Has P n (fun i => (p i : Int)))
    (hB : Buf.Has B n fb) :
    Spec (LDL_permt n X B P) (fun X' => X'.length = X.length ∧
      Buf.Has X' n (fun i => fb (q i)) ∧ ∀ i, n ≤ i → X'[i]? = X[i]?) := by
  unfold LDL_permt
  refine forI_scatter hp hX _ ?_
  intro j b hj _
  rw [hP.rd hj, ok_bind, hB.rd hj, ok_bind]

theorem LDL_valid_perm_spec {n : Nat} {P Flag : Buf Int} {f : Nat → Int}
    (hP : Buf.Has P n f) (hF : n ≤ Flag.length) :
    Spec (LDL_valid_perm n (some P) (some Flag)) (fun r =>
      (r = 0 ∨ r = 1) ∧ (r = 1 ↔ IsPerm n f)) := by
  unfold LDL_valid_perm
  have e : ¬ ((n : Int) < 0) := by omega
  simp only [e, if_false]
  refine Spec.bind (forI_fill hF (fun _ => (0 : Int)) (fun _ _ _ _ _ _ => rfl)) ?_
  rintro F0 ⟨hl, h0, _⟩
  classical
  refine Spec.bind (forBrk_spec (lo := 0) (hi := n) (Nat.zero_le n)
    (fun k (F : Buf Int) => F.length = Flag.length ∧
      Buf.Has F n (fun v => if ∃ j, j < k ∧ f j = v then 1 else 0) ∧
      (∀ j, j < k → 0 ≤ f j ∧ f j < n) ∧ (∀ i j, i < k → j < k → f i = f j → i = j))
    (fun k _ => ¬ IsPerm n f) ⟨hl, h0.congr (by simp), by simp, by simp⟩ ?_) ?_
  · rintro k F _ hk ⟨h1, h2, h3, h4⟩
    rw [hP.rd hk, ok_bind]
    by_cases c : f k < 0 ∨ (n : Int) ≤ f k
    · have : (decide (f k < 0) || decide ((n : Int) ≤ f k)) = true := by simpa using c
      simp only [this, if_true]
      refine Spec.ok ?_
      simp only [if_true]
      intro h
      have := h.1 k hk
      omega
    · have hc : ¬ ((decide (f k < 0) || decide ((n : Int) ≤ f k)) = true) := by simpa using c
      rw [if_neg hc]
      obtain ⟨v, hv⟩ : ∃ v : Nat, f k = (v : Int) := ⟨(f k).toNat, by omega⟩
      have hvn : v < n := by omega
      rw [hv, h2.rd hvn, ok_bind]
      by_cases d : ∃ j, j < k ∧ f j = v
      · simp only [d, if_true]
        refine Spec.ok ?_
        simp only [if_true]
        intro h
        obtain ⟨j, hj, hjv⟩ := d
        have := h.2 j k (by omega) hk (by omega)
        omega
      · simp only [d, if_false, ne_eq, not_true_eq_false]
        rw [wr_ok (by omega)]
        refine Spec.ok ?_
        refine ⟨by simp [h1], (h2.set (by omega) 1).congr ?_, ?_, ?_⟩
        · intro u hu
          by_cases e : u = v
          · subst e
            rw [Function.update_self, if_pos ⟨k, by omega, hv⟩]
          · rw [Function.update_of_ne e]
            have : (∃ j, j < k ∧ f j = (u : Int)) ↔ ∃ j, j < k + 1 ∧ f j = (u : Int) := by
              constructor
              · rintro ⟨j, hj, h⟩; exact ⟨j, by omega, h⟩
              · rintro ⟨j, hj, h⟩
                have : j ≠ k := by rintro rfl; omega
                exact ⟨j, by omega, h⟩
            simp only [this]
        · intro j hj
          rcases Nat.lt_succ_iff_lt_or_eq.mp hj with h | rfl
          · exact h3 j h
          · omega
        · intro i j hi hj hij
          rcases Nat.lt_succ_iff_lt_or_eq.mp hi with h | rfl
          · rcases Nat.lt_succ_iff_lt_or_eq.mp hj with h' | rfl
            · exact h4 i j h h' hij
            · exact absurd ⟨i, h, by omega⟩ d
          · rcases Nat.lt_succ_iff_lt_or_eq.mp hj with h' | rfl
            · exact absurd ⟨j, h', by omega⟩ d
            · rfl
  · rintro ⟨F, b⟩ hF'
    cases b with
    | true =>
      simp only [if_true] at hF' ⊢
      obtain ⟨_, _, _, h⟩ := hF'
      exact Spec.ok ⟨Or.inl rfl, by simp [h]⟩
    | false =>
      simp only [Bool.false_eq_true, if_false] at hF' ⊢
      exact Spec.ok ⟨Or.inr rfl, by simp [IsPerm]; exact ⟨hF'.2.2.1, hF'.2.2.2⟩⟩

theorem LDL_valid_matrix_spec {n : Nat} {Ap Ai : Buf Int} {fp fi : Nat → Int}
    (hAp : Buf.Has Ap (n + 1) fp) (hAi : Buf.Has Ai (fp n).toNat fi) :
    Spec (LDL_valid_matrix n (some Ap) (some Ai)) (fun r => (r = 0 ∨ r = 1) ∧
      (r = 1 ↔ fp 0 = 0 ∧ (∀ j, j < n → fp j ≤ fp (j + 1)) ∧
        ∀ k : Nat, (k : Int) < fp n → 0 ≤ fi k ∧ fi k < n)) := by
  unfold LDL_valid_matrix
  have e : ¬ ((n : Int) < 0) := by omega
  simp only [e, if_false]
  have e0 : rd Ap 0 = .ok (fp 0) := hAp.rd (i := 0) (by omega)
  rw [e0, ok_bind]
  by_cases h0 : fp 0 = 0
  · simp only [h0, ne_eq, not_true_eq_false, if_false]
    refine Spec.bind (forBrk_spec (lo := 0) (hi := n) (Nat.zero_le n)
      (fun k _ => ∀ j, j < k → fp j ≤ fp (j + 1)) (fun k _ => fp (k + 1) < fp k)
      (by simp) ?_) ?_
    · intro j _ _ hj hinv
      have e : ((j : Int) + 1) = ((j + 1 : Nat) : Int) := by omega
      rw [hAp.rd (by omega), ok_bind, e, hAp.rd (by omega), ok_bind]
      refine Spec.ok ?_
      by_cases c : fp (j + 1) < fp j
      · simp [c]
      · simp only [c, decide_false, Bool.false_eq_true, if_false]
        intro i hi
        rcases Nat.lt_succ_iff_lt_or_eq.mp hi with h | rfl
        · exact hinv i h
        · omega
    · rintro ⟨_, b⟩ hb
      cases b with
      | true =>
        simp only [if_true] at hb ⊢
        obtain ⟨j, _, hj, hlt⟩ := hb
        refine Spec.ok ⟨Or.inl rfl, ?_⟩
        simp only [zero_ne_one, true_and, false_iff, not_and]
        intro h
        have := h j hj
        omega
      | false =>
        simp only [Bool.false_eq_true, if_false] at hb ⊢
        rw [hAp.rd (by omega), ok_bind]
        have hnn : 0 ≤ fp n := by
          have key : ∀ k, k ≤ n → 0 ≤ fp k := by
            intro k
            induction k with
            | zero => intro _; omega
            | succ k ih => intro hk; have := ih (by omega); have := hb k (by omega); omega
          exact key n le_rfl
        obtain ⟨z, hz⟩ : ∃ z : Nat, fp n = (z : Int) := ⟨(fp n).toNat, by omega⟩
        rw [hz] at hAi ⊢
        refine Spec.bind (forBrk_spec (lo := 0) (hi := z) (Nat.zero_le z)
          (fun k _ => ∀ j, j < k → 0 ≤ fi j ∧ fi j < n)
          (fun k _ => ¬ (0 ≤ fi k ∧ fi k < n)) (by simp) ?_) ?_
        · intro j _ _ hj hinv
          rw [hAi.rd (by simpa using hj), ok_bind]
          refine Spec.ok ?_
          by_cases c : fi j < 0 ∨ (n : Int) ≤ fi j
          · have : (decide (fi j < 0) || decide ((n : Int) ≤ fi j)) = true := by simpa using c
            simp only [this, if_true]
            omega
          · have : (decide (fi j < 0) || decide ((n : Int) ≤ fi j)) = false := by
              simpa using c
            simp only [this, Bool.false_eq_true, if_false]
            intro i hi
            rcases Nat.lt_succ_iff_lt_or_eq.mp hi with h | rfl
            · exact hinv i h
            · omega
        · rintro ⟨_, b⟩ hb2
          cases b with
          | true =>
            simp only [if_true] at hb2 ⊢
            obtain ⟨j, _, hj, hlt⟩ := hb2
            refine Spec.ok ⟨Or.inl rfl, ?_⟩
            simp only [zero_ne_one, true_and, false_iff, not_and]
            intro _ h
            exact hlt (h j (by omega))
          | false =>
            simp only [Bool.false_eq_true, if_false] at hb2 ⊢
            refine Spec.ok ⟨Or.inr rfl, ?_⟩
            simp only [true_and, true_iff]
            exact ⟨hb, fun k hk => hb2 k (by omega)⟩
  · simp only [ne_eq, h0, not_false_eq_true, if_true]
    exact Spec.ok ⟨Or.inl rfl, by simp⟩

end Verif
