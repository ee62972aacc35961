import Verif.Lemmas.Cols
import Mathlib.Tactic.Ring
import Mathlib.Tactic.Linarith

/-! # Dense to sparse conversion -/

set_option linter.unusedSectionVars false

namespace Verif

open Finset

variable {K : Type} [Zero K] [One K] [Add K] [Sub K] [Mul K] [Div K] [Neg K] [Scalar K]

/-- Nonzero entries of rows `0, …, i-1` of column `j` of the dense matrix `d row col`. -/
def dcol (d : Nat → Nat → K) (i j : Nat) : List (Nat × K) :=
  (List.range i).filterMap (fun r => if Scalar.eqb (d r j) 0 then none else some (r, d r j))

@[simp] theorem dcol_zero (d : Nat → Nat → K) (j : Nat) : dcol d 0 j = [] := rfl

theorem dcol_succ (d : Nat → Nat → K) (i j : Nat) :
    dcol d (i + 1) j = dcol d i j ++ if Scalar.eqb (d i j) 0 then [] else [(i, d i j)] := by
  unfold dcol
  rw [List.range_succ, List.filterMap_append]
  congr 1
  simp only [List.filterMap_cons, List.filterMap_nil]
  by_cases h : Scalar.eqb (d i j) 0 = true
  · simp [h]
  · simp [h]

theorem dcol_lt (d : Nat → Nat → K) (i j : Nat) : ∀ e ∈ dcol d i j, e.1 < i := by
  intro e he
  simp only [dcol, List.mem_filterMap, List.mem_range] at he
  obtain ⟨r, hr, h⟩ := he
  by_cases c : Scalar.eqb (d r j) 0 = true
  · simp [c] at h
  · simp [c] at h
    rw [← h]
    exact hr

theorem dcol_sorted (d : Nat → Nat → K) (i j : Nat) :
    (dcol d i j).Pairwise (fun a b => a.1 < b.1) := by
  induction i with
  | zero => simp
  | succ i ih =>
    rw [dcol_succ, List.pairwise_append]
    refine ⟨ih, ?_, ?_⟩
    · split <;> simp
    · intro a ha b hb
      split at hb
      · simp at hb
      · simp at hb
        rw [hb]
        exact dcol_lt d i j a ha

/-- The sparse matrix of a dense one. -/
def denseCsc (m n : Nat) (d : Nat → Nat → K) : Csc K := Csc.ofCols m n (dcol d m)

theorem denseCsc_wf (m n : Nat) (d : Nat → Nat → K) : (denseCsc m n d).WF :=
  Csc.ofCols_wf m n _ (fun c _ e he => dcol_lt d m c e he)

theorem denseCsc_sorted (m n : Nat) (d : Nat → Nat → K) : (denseCsc m n d).Sorted :=
  Csc.ofCols_sorted m n _ (fun c _ => dcol_sorted d m c)

theorem cast_idx (j m i : Nat) : (j : Int) * (m : Int) + (i : Int) = ((j * m + i : Nat) : Int) := by
  push_cast
  ring

theorem idx_lt {i j m n : Nat} (hi : i < m) (hj : j < n) : j * m + i < m * n := by
  have h : (j + 1) * m ≤ n * m := Nat.mul_le_mul_right m hj
  have e1 : (j + 1) * m = j * m + m := by ring
  have e2 : n * m = m * n := by ring
  omega

/-- The list pushed so far inside column `j`, up to row `i`. -/
def partFlat (d : Nat → Nat → K) (m i j : Nat) : List (Nat × K) :=
  flatTo (dcol d m) j ++ dcol d i j

theorem partFlat_prefix (d : Nat → Nat → K) {m i j n : Nat} (hi : i ≤ m) (hj : j < n) :
    partFlat d m i j <+: flatTo (dcol d m) n := by
  have h1 : partFlat d m i j <+: flatTo (dcol d m) (j + 1) := by
    rw [flatTo_succ]
    unfold partFlat
    rw [List.prefix_append_right_inj]
    unfold dcol
    have : List.range i <+: List.range m := by
      obtain ⟨k, rfl⟩ : ∃ k, m = i + k := ⟨m - i, by omega⟩
      rw [List.range_add]
      exact List.prefix_append _ _
    exact this.filterMap _
  exact h1.trans (flatTo_prefix _ hj)

/-- The second pass: the pushing loop over the rows of one column. -/
theorem dense_push_spec {d : Nat → Nat → K} {m n j : Nat} {f : Int → Buf Int × Buf K × Int →
    M (Buf Int × Buf K × Int)} {Ai : Buf Int} {Ax : Buf K} (hj : j < n)
    (hAi : Ai.length = (flatTo (dcol d m) n).length)
    (hAx : Ax.length = (flatTo (dcol d m) n).length)
    (hp : Pre Ai Ax (flatTo (dcol d m) j))
    (hf : ∀ (i : Nat) (st : Buf Int × Buf K × Int), i < m → f (i : Int) st =
      if Scalar.eqb (d i j) 0 then .ok st else do
        let Ai ← wr st.1 st.2.2 (i : Int)
        let Ax ← wr st.2.1 st.2.2 (d i j)
        .ok (Ai, Ax, st.2.2 + 1)) :
    Spec (forI 0 (m : Int) (Ai, Ax, (offs (dcol d m) j : Int)) f) (fun st =>
      st.1.length = Ai.length ∧ st.2.1.length = Ax.length ∧
      st.2.2 = (offs (dcol d m) (j + 1) : Int) ∧ Pre st.1 st.2.1 (flatTo (dcol d m) (j + 1))) := by
  have := forI_spec (lo := 0) (hi := m) (Nat.zero_le m)
    (s := (Ai, Ax, (offs (dcol d m) j : Int))) (f := f)
    (fun i (st : Buf Int × Buf K × Int) => st.1.length = Ai.length ∧ st.2.1.length = Ax.length ∧
      st.2.2 = ((partFlat d m i j).length : Int) ∧ Pre st.1 st.2.1 (partFlat d m i j))
    ⟨rfl, rfl, by simp [partFlat, offs], by simpa [partFlat] using hp⟩ (by
      rintro i ⟨Bi, Bx, cnt⟩ _ hi ⟨h1, h2, h3, h4⟩
      rw [hf i _ hi]
      by_cases c : Scalar.eqb (d i j) 0 = true
      · rw [if_pos c]
        have e : partFlat d m (i + 1) j = partFlat d m i j := by
          unfold partFlat
          rw [dcol_succ, if_pos c, List.append_nil]
        refine Spec.ok ⟨h1, h2, by rw [e]; exact h3, by rw [e]; exact h4⟩
      · rw [if_neg c]
        have e : partFlat d m (i + 1) j = partFlat d m i j ++ [(i, d i j)] := by
          unfold partFlat
          rw [dcol_succ, if_neg c, List.append_assoc]
        have hlen := (partFlat_prefix d (m := m) (i := i + 1) hi hj).length_le
        rw [e] at hlen ⊢
        simp only [List.length_append, List.length_singleton] at hlen
        simp only at h1 h2 h3 h4
        subst h3
        simp only
        rw [wr_ok (by omega), ok_bind, wr_ok (by omega), ok_bind]
        refine Spec.ok ⟨by simp [h1], by simp [h2], by simp, ?_⟩
        exact Pre.push h4 (e := (i, d i j)) (by omega) (by omega))
  refine this.mono ?_
  rintro st ⟨h1, h2, h3, h4⟩
  have e : partFlat d m m j = flatTo (dcol d m) (j + 1) := by
    rw [flatTo_succ]; rfl
  rw [e] at h3 h4
  exact ⟨h1, h2, h3, h4⟩

theorem densetosparse_eq {m n : Nat} {pr : Buf K} {f : Nat → K} (hpr : Buf.Has pr (m * n) f) :
    densetosparse m n pr = .ok (denseCsc m n (fun i j => f (j * m + i))).toSmat := by
  set d : Nat → Nat → K := fun i j => f (j * m + i) with hd
  have hrd : ∀ i j : Nat, i < m → j < n → rd pr ((j : Int) * (m : Int) + (i : Int)) = .ok (d i j) := by
    intro i j hi hj
    rw [cast_idx, hpr.rd (idx_lt hi hj)]
  have main : Spec (densetosparse (m : Int) (n : Int) pr) (fun S =>
      S = (denseCsc m n d).toSmat) := by
    unfold densetosparse
    have e1 : ((n : Int) + 1) = ((n + 1 : Nat) : Int) := by omega
    rw [e1]
    refine Spec.bind (forI_fill (n := n + 1) (by simp) (fun _ => (0 : Int))
      (fun _ _ _ _ _ _ => rfl)) ?_
    rintro Ap ⟨hl, h0, _⟩
    simp only [length_malloc, Int.toNat_natCast] at hl
    refine Spec.bind (forI_spec (lo := 0) (hi := n) (Nat.zero_le n)
      (fun j (st : Buf Int × Int) => st.1.length = n + 1 ∧ st.2 = (offs (dcol d m) j : Int) ∧
        Buf.Has st.1 (j + 1) (fun c => (offs (dcol d m) c : Int)))
      ⟨hl, rfl, (h0.mono (by omega)).congr (by
        intro i hi
        have : i = 0 := by omega
        subst this; rfl)⟩ ?_) ?_
    · rintro j ⟨Ap', cnt⟩ _ hj ⟨h1, h2, h3⟩
      simp only at h1 h2 h3 ⊢
      subst h2
      have hacc := forI_acc0 (hi := m) (s := (offs (dcol d m) j : Int)) (f := fun i count => do
          let v ← rd pr ((j : Int) * (m : Int) + i)
          if Scalar.eqb v 0 = true then pure count else pure (count + 1))
        (fun i (s : Int) => if Scalar.eqb (d i j) 0 then s else s + 1) (by
          intro i s hi
          rw [hrd i j hi hj, ok_bind]
          split <;> rfl)
      rw [hacc, ok_bind]
      have hcnt : ∀ i, i ≤ m → foldI 0 i (offs (dcol d m) j : Int)
          (fun i (s : Int) => if Scalar.eqb (d i j) 0 then s else s + 1)
          = (offs (dcol d m) j : Int) + ((dcol d i j).length : Int) := by
        intro i
        induction i with
        | zero => intro _; simp
        | succ i ih =>
          intro hi
          rw [foldI_succ (Nat.zero_le i), ih (by omega), dcol_succ]
          split
          · simp
          · simp; ring
      rw [hcnt m le_rfl]
      have e2 : ((j : Int) + 1) = ((j + 1 : Nat) : Int) := by omega
      have e3 : (offs (dcol d m) j : Int) + ((dcol d m j).length : Int)
          = (offs (dcol d m) (j + 1) : Int) := by rw [offs_succ]; push_cast; ring
      rw [e2, e3, wr_ok (by omega), ok_bind]
      refine Spec.ok ⟨by simp [h1], rfl, ?_⟩
      exact h3.push (by omega) _ rfl (fun _ _ => rfl)
    · rintro ⟨Ap', cnt⟩ ⟨h1, h2, h3⟩
      simp only at h1 h2 h3 ⊢
      subst h2
      refine Spec.bind (forI_spec (lo := 0) (hi := n) (Nat.zero_le n)
        (fun j (st : Buf Int × Buf K × Int) =>
          st.1.length = (flatTo (dcol d m) n).length ∧
          st.2.1.length = (flatTo (dcol d m) n).length ∧
          st.2.2 = (offs (dcol d m) j : Int) ∧ Pre st.1 st.2.1 (flatTo (dcol d m) j))
        ⟨by simp [offs], by simp [offs], rfl, Pre.nil _ _⟩ ?_) ?_
      · rintro j ⟨Ai, Ax, cnt⟩ _ hj ⟨h4, h5, h6, h7⟩
        simp only at h4 h5 h6 h7
        subst h6
        refine (dense_push_spec hj h4 h5 h7 ?_).mono ?_
        · intro i st hi
          rw [hrd i j hi hj]
          rfl
        · rintro st ⟨h8, h9, h10, h11⟩
          exact ⟨by omega, by omega, h10, h11⟩
      · rintro ⟨Ai, Ax, cnt⟩ ⟨h4, h5, h6, h7⟩
        simp only at h4 h5 h6 h7 ⊢
        refine Spec.ok ?_
        refine Smat.Is.eq_toSmat (is_ofCols rfl rfl h6 h3 h7) h1 h4 h5
  obtain ⟨S, h, rfl⟩ := main
  exact h

theorem densetosparse_ROWMAJOR_eq {m n : Nat} {pr : Buf K} {f : Nat → K}
    (hpr : Buf.Has pr (m * n) f) :
    densetosparse_ROWMAJOR m n pr = .ok (denseCsc m n (fun i j => f (i * n + j))).toSmat := by
  set d : Nat → Nat → K := fun i j => f (i * n + j) with hd
  have hrd : ∀ i j : Nat, i < m → j < n → rd pr ((i : Int) * (n : Int) + (j : Int)) = .ok (d i j) := by
    intro i j hi hj
    have := idx_lt hj hi
    rw [cast_idx, hpr.rd (by rw [Nat.mul_comm m n]; exact this)]
  have main : Spec (densetosparse_ROWMAJOR (m : Int) (n : Int) pr) (fun S =>
      S = (denseCsc m n d).toSmat) := by
    unfold densetosparse_ROWMAJOR
    have e1 : ((n : Int) + 1) = ((n + 1 : Nat) : Int) := by omega
    rw [e1]
    refine Spec.bind (forI_fill (n := n + 1) (by simp) (fun _ => (0 : Int))
      (fun _ _ _ _ _ _ => rfl)) ?_
    rintro Ap ⟨hl, h0, _⟩
    simp only [length_malloc, Int.toNat_natCast] at hl
    -- first pass: counts
    refine Spec.bind (Q := fun (st : Buf Int × Int) => st.1.length = n + 1 ∧
        st.2 = (offs (dcol d m) n : Int) ∧
        Buf.Has st.1 (n + 1) (fun c => match c with
          | 0 => (0 : Int)
          | c + 1 => ((dcol d m c).length : Int))) ?_ ?_
    · refine (forI_spec (lo := 0) (hi := m) (Nat.zero_le m)
        (fun i (st : Buf Int × Int) => st.1.length = n + 1 ∧
          st.2 = (offs (dcol d i) n : Int) ∧
          Buf.Has st.1 (n + 1) (fun c => match c with
            | 0 => (0 : Int)
            | c + 1 => ((dcol d i c).length : Int)))
        ⟨hl, ?_, h0.congr ?_⟩ ?_)
      · have : ∀ k, offs (dcol d 0) k = 0 := by
          intro k
          induction k with
          | zero => rfl
          | succ k ih => rw [offs_succ, ih]; rfl
        rw [this]; rfl
      · intro i _
        cases i <;> rfl
      · rintro i ⟨Ap1, cnt⟩ _ hi ⟨h1, h2, h3⟩
        simp only at h1 h2 h3
        subst h2
        -- mixed column lists while inside row i
        let mixed : Nat → Nat → List (Nat × K) := fun j c => if c < j then dcol d (i + 1) c
          else dcol d i c
        have hm0 : ∀ c, mixed 0 c = dcol d i c := by intro c; simp [mixed]
        have hmn : ∀ c, c < n → mixed n c = dcol d (i + 1) c := by
          intro c hc; simp [mixed, hc]
        refine (forI_spec (lo := 0) (hi := n) (Nat.zero_le n)
          (fun j (st : Buf Int × Int) => st.1.length = n + 1 ∧
            st.2 = (offs (mixed j) n : Int) ∧
            Buf.Has st.1 (n + 1) (fun c => match c with
              | 0 => (0 : Int)
              | c + 1 => ((mixed j c).length : Int)))
          ⟨h1, ?_, h3.congr ?_⟩ ?_).mono ?_
        · rw [offs_congr (col := mixed 0) (col' := dcol d i) (fun c _ => hm0 c)]
        · intro c _
          cases c with
          | zero => rfl
          | succ c => simp only [hm0]
        · rintro j ⟨Ap2, cnt⟩ _ hj ⟨h4, h5, h6⟩
          simp only at h4 h5 h6 ⊢
          subst h5
          rw [hrd i j hi hj, ok_bind]
          by_cases c : Scalar.eqb (d i j) 0 = true
          · rw [if_pos c]
            have em : ∀ k, mixed (j + 1) k = mixed j k := by
              intro k
              simp only [mixed]
              by_cases h : k < j
              · rw [if_pos h, if_pos (by omega)]
              · rw [if_neg h]
                by_cases h' : k = j
                · subst h'
                  rw [if_pos (by omega), dcol_succ, if_pos c, List.append_nil]
                · rw [if_neg (by omega)]
            refine Spec.ok ⟨h4, ?_, h6.congr ?_⟩
            · simp only
              rw [offs_congr (fun k _ => em k)]
            · intro k _
              cases k with
              | zero => rfl
              | succ k => simp only [em]
          · rw [if_neg c]
            have em1 : ∀ k, k ≠ j → mixed (j + 1) k = mixed j k := by
              intro k hk
              simp only [mixed]
              by_cases h : k < j
              · rw [if_pos h, if_pos (by omega)]
              · rw [if_neg h, if_neg (by omega)]
            have em2 : (mixed (j + 1) j).length = (mixed j j).length + 1 := by
              simp only [mixed]
              rw [if_pos (by omega), if_neg (by omega), dcol_succ, if_neg c]
              simp
            have eo : ∀ k, k ≤ n → offs (mixed (j + 1)) k
                = offs (mixed j) k + if j < k then 1 else 0 := by
              intro k
              induction k with
              | zero => intro _; simp
              | succ k ih =>
                intro hk
                rw [offs_succ, offs_succ, ih (by omega)]
                by_cases h' : k = j
                · subst h'
                  rw [em2, if_neg (by omega), if_pos (by omega)]
                  omega
                · rw [em1 k h']
                  by_cases h'' : j < k
                  · rw [if_pos h'', if_pos (by omega)]; omega
                  · rw [if_neg h'', if_neg (by omega)]; omega
            have e2 : ((j : Int) + 1) = ((j + 1 : Nat) : Int) := by omega
            rw [e2, h6.rd (i := j + 1) (by omega), ok_bind, wr_ok (by omega), ok_bind]
            refine Spec.ok ⟨by simp [h4], ?_, (h6.set (by omega) _).congr ?_⟩
            · simp only
              rw [eo n le_rfl, if_pos hj]
              push_cast
              rfl
            · intro k hk
              by_cases h' : k = j + 1
              · subst h'
                rw [Function.update_self]
                simp only [em2]
                push_cast
                rfl
              · rw [Function.update_of_ne h']
                cases k with
                | zero => rfl
                | succ k => simp only [em1 k (by omega)]
        · rintro ⟨Ap2, cnt⟩ ⟨h4, h5, h6⟩
          refine ⟨h4, ?_, h6.congr ?_⟩
          · rw [h5, offs_congr hmn]
          · intro k hk
            cases k with
            | zero => rfl
            | succ k => simp only [hmn k (by omega)]
    · rintro ⟨Ap1, cnt⟩ ⟨h1, h2, h3⟩
      simp only at h1 h2 h3 ⊢
      subst h2
      refine Spec.bind (forI_spec (lo := 0) (hi := n) (Nat.zero_le n)
        (fun j (st : Buf Int × Buf Int × Buf K × Int) =>
          st.1.length = n + 1 ∧
          Buf.Has st.1 (n + 1) (fun c => if c ≤ j then (offs (dcol d m) c : Int) else
            ((dcol d m (c - 1)).length : Int)) ∧
          st.2.1.length = (flatTo (dcol d m) n).length ∧
          st.2.2.1.length = (flatTo (dcol d m) n).length ∧
          st.2.2.2 = (offs (dcol d m) j : Int) ∧ Pre st.2.1 st.2.2.1 (flatTo (dcol d m) j))
        ⟨h1, h3.congr ?_, by simp [offs], by simp [offs], rfl, Pre.nil _ _⟩ ?_) ?_
      · intro c _
        cases c with
        | zero => rfl
        | succ c => simp
      · rintro j ⟨Ap2, Ai, Ax, cnt⟩ _ hj ⟨h4, h5, h6, h7, h8, h9⟩
        simp only at h4 h5 h6 h7 h8 h9
        subst h8
        -- the inner loop leaves Ap alone: relate it to the pushing loop
        have inner : Spec (forI 0 (m : Int) (Ap2, Ai, Ax, (offs (dcol d m) j : Int))
            (fun i (st : Buf Int × Buf Int × Buf K × Int) => do
              let temp ← rd pr (i * (n : Int) + (j : Int))
              if Scalar.eqb temp 0 then pure st
              else do
                let Ai ← wr st.2.1 st.2.2.2 i
                let Ax ← wr st.2.2.1 st.2.2.2 temp
                pure (st.1, Ai, Ax, st.2.2.2 + 1)))
            (fun st => st.1 = Ap2 ∧ st.2.1.length = Ai.length ∧ st.2.2.1.length = Ax.length ∧
              st.2.2.2 = (offs (dcol d m) (j + 1) : Int) ∧
              Pre st.2.1 st.2.2.1 (flatTo (dcol d m) (j + 1))) := by
          have := forI_spec (lo := 0) (hi := m) (Nat.zero_le m)
            (s := (Ap2, Ai, Ax, (offs (dcol d m) j : Int)))
            (f := (fun i (st : Buf Int × Buf Int × Buf K × Int) => do
              let temp ← rd pr (i * (n : Int) + (j : Int))
              if Scalar.eqb temp 0 then pure st
              else do
                let Ai ← wr st.2.1 st.2.2.2 i
                let Ax ← wr st.2.2.1 st.2.2.2 temp
                pure (st.1, Ai, Ax, st.2.2.2 + 1)))
            (fun i (st : Buf Int × Buf Int × Buf K × Int) => st.1 = Ap2 ∧
              st.2.1.length = Ai.length ∧ st.2.2.1.length = Ax.length ∧
              st.2.2.2 = ((partFlat d m i j).length : Int) ∧
              Pre st.2.1 st.2.2.1 (partFlat d m i j))
            ⟨rfl, rfl, rfl, by simp [partFlat, offs], by simpa [partFlat] using h9⟩ (by
              rintro i ⟨Bp, Bi, Bx, cnt⟩ _ hi ⟨g0, g1, g2, g3, g4⟩
              simp only at g0 g1 g2 g3 g4
              subst g3
              rw [hrd i j hi hj, ok_bind]
              by_cases c : Scalar.eqb (d i j) 0 = true
              · rw [if_pos c]
                have e : partFlat d m (i + 1) j = partFlat d m i j := by
                  unfold partFlat
                  rw [dcol_succ, if_pos c, List.append_nil]
                refine Spec.ok ⟨g0, g1, g2, by rw [e], by rw [e]; exact g4⟩
              · rw [if_neg c]
                have e : partFlat d m (i + 1) j = partFlat d m i j ++ [(i, d i j)] := by
                  unfold partFlat
                  rw [dcol_succ, if_neg c, List.append_assoc]
                have hlen := (partFlat_prefix d (m := m) (i := i + 1) hi hj).length_le
                rw [e] at hlen ⊢
                simp only [List.length_append, List.length_singleton] at hlen
                simp only
                rw [wr_ok (by omega), ok_bind, wr_ok (by omega), ok_bind]
                refine Spec.ok ⟨g0, by simp [g1], by simp [g2], by simp, ?_⟩
                exact Pre.push g4 (e := (i, d i j)) (by omega) (by omega))
          refine this.mono ?_
          rintro st ⟨g0, g1, g2, g3, g4⟩
          have e : partFlat d m m j = flatTo (dcol d m) (j + 1) := by
            rw [flatTo_succ]; rfl
          rw [e] at g3 g4
          exact ⟨g0, g1, g2, g3, g4⟩
        refine Spec.bind inner ?_
        rintro ⟨Bp, Bi, Bx, cnt⟩ ⟨g0, g1, g2, g3, g4⟩
        simp only at g0 g1 g2 g3 g4 ⊢
        subst g0
        have e2 : ((j : Int) + 1) = ((j + 1 : Nat) : Int) := by omega
        rw [e2, h5.rd (i := j + 1) (by omega), ok_bind, h5.rd (i := j) (by omega), ok_bind,
          wr_ok (by omega), ok_bind]
        refine Spec.ok ⟨by simp [h4], (h5.set (by omega) _).congr ?_, g1.trans h6, g2.trans h7,
          g3, g4⟩
        intro c hc
        by_cases h' : c = j + 1
        · subst h'
          rw [Function.update_self, if_neg (by omega), if_pos (by omega), if_pos (by omega),
            offs_succ]
          push_cast
          exact add_comm _ _
        · rw [Function.update_of_ne h']
          by_cases h'' : c ≤ j
          · rw [if_pos h'', if_pos (by omega)]
          · rw [if_neg h'', if_neg (by omega)]
      · rintro ⟨Ap2, Ai, Ax, cnt⟩ ⟨h4, h5, h6, h7, h8, h9⟩
        simp only at h4 h5 h6 h7 h8 h9 ⊢
        refine Spec.ok ?_
        refine Smat.Is.eq_toSmat (is_ofCols rfl rfl h8 (h5.congr ?_) h9) h4 h6 h7
        intro c hc
        rw [if_pos (by omega)]
  obtain ⟨S, h, rfl⟩ := main
  exact h

end Verif
