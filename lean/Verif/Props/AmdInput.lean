import Verif.Lemmas.AmdArr
import Verif.Model.Amd
import Verif.Spec
import Verif.Lemmas.Post
import Verif.Lemmas.AmdPre

/-! # Checks on the input of the ordering (C40, C41) -/

namespace Verif

/-- The arrays `ap` (column pointers) and `ai` (row indices) describe a pattern with `m` rows and
`n` columns. -/
def ValidPattern (m n : Nat) (ap ai : Nat → Int) : Prop :=
  ap 0 = 0 ∧ (∀ j, j < n → ap j ≤ ap (j + 1)) ∧
    ∀ k : Nat, (k : Int) < ap n → 0 ≤ ai k ∧ ai k < m

/-- Row indices increase strictly inside every column: sorted and without duplicates. -/
def IncreasingColumns (n : Nat) (ap ai : Nat → Int) : Prop :=
  ∀ j, j < n → ∀ k : Nat, ap j ≤ k → (k : Int) + 1 < ap (j + 1) → ai k < ai (k + 1)

/-- Column `j` is valid. -/
private def ColOk (m : Nat) (ap ai : Nat → Int) (j : Nat) : Prop :=
  ap j ≤ ap (j + 1) ∧ ∀ k : Nat, ap j ≤ k → (k : Int) < ap (j + 1) → 0 ≤ ai k ∧ ai k < m

private theorem colOk_of_valid {m n : Nat} {ap ai : Nat → Int} (h : ValidPattern m n ap ai) {j : Nat}
    (hj : j < n) : ColOk m ap ai j := by
  refine ⟨h.2.1 j hj, fun k _ hk => h.2.2 k (lt_of_lt_of_le hk ?_)⟩
  have : ∀ d, j + 1 + d ≤ n → ap (j + 1) ≤ ap (j + 1 + d) := by
    intro d
    induction d with
    | zero => intro _; exact le_rfl
    | succ d ih =>
      intro hd
      exact (ih (by omega)).trans (h.2.1 _ (by omega))
  have := this (n - (j + 1)) (by omega)
  rwa [show j + 1 + (n - (j + 1)) = n by omega] at this

private theorem valid_of_cols {m : Nat} {ap ai : Nat → Int} (h0 : ap 0 = 0) :
    ∀ n, (∀ j, j < n → ColOk m ap ai j) → ValidPattern m n ap ai := by
  intro n
  induction n with
  | zero =>
    intro _
    exact ⟨h0, fun j hj => by omega, fun k hk => by omega⟩
  | succ n ih =>
    intro h
    have := ih (fun j hj => h j (by omega))
    refine ⟨h0, fun j hj => (h j hj).1, fun k hk => ?_⟩
    by_cases hkn : (k : Int) < ap n
    · exact this.2.2 k hkn
    · exact (h n (by omega)).2 k (by omega) hk

private theorem nonneg_of_cols {m : Nat} {ap ai : Nat → Int} (h0 : ap 0 = 0) :
    ∀ n, (∀ j, j < n → ColOk m ap ai j) → 0 ≤ ap n := by
  intro n
  induction n with
  | zero => intro _; omega
  | succ n ih =>
    intro h
    have := ih (fun j hj => h j (by omega))
    have := (h n (by omega)).1
    omega

open Classical in
/-- **C40.** `AMD_valid` reports `AMD_INVALID` exactly for malformed patterns,
`AMD_OK_BUT_JUMBLED` exactly when the pattern is well formed but some column is unsorted or has a
repeated row index, and `AMD_OK` otherwise. `Ai` must have at least as many entries as the largest
column pointer (see `C40_reads_outside`). -/
theorem C40_valid {m n nz : Nat} {Ap Ai : Buf Int} {ap ai : Nat → Int} (hp : Buf.Has Ap (n + 1) ap)
    (hi : Buf.Has Ai nz ai) (hsz : ∀ j, j ≤ n → ap j ≤ nz) :
    AMD_valid m n (some Ap) (some Ai) = .ok
      (if ¬ ValidPattern m n ap ai then AMD_INVALID
       else if ¬ IncreasingColumns n ap ai then AMD_OK_BUT_JUMBLED else AMD_OK) := by
  unfold AMD_valid
  rw [if_neg (by omega)]
  simp only [hp.rd (show n < n + 1 by omega), show Verif.rd Ap 0 = .ok (ap 0) from hp.rd (i := 0)
    (by omega), ok_bind, pure_eq_ok]
  by_cases hbad : ap 0 ≠ 0 ∨ ap n < 0
  · rw [if_pos hbad, if_pos]
    rintro ⟨h1, h2, h3⟩
    rcases hbad with h | h
    · exact h h1
    · have := nonneg_of_cols h1 n (fun j hj => colOk_of_valid ⟨h1, h2, h3⟩ hj)
      omega
  rw [if_neg hbad]
  push Not at hbad
  obtain ⟨h0, -⟩ := hbad
  have key := forBrk_spec (lo := 0) (hi := n) (Nat.zero_le n) (s := AMD_OK)
    (f := fun j result => do
        let p1 ← rd Ap j
        let p2 ← rd Ap (j + 1)
        if p1 > p2 then Except.ok (AMD_INVALID, true)
        else do
          let q ← forBrk p1 p2 (result, EMPTY) (fun p s => do
            let i ← rd Ai p
            if i < 0 ∨ i ≥ (m : Int) then Except.ok ((AMD_INVALID, s.2), true)
            else Except.ok ((if i ≤ s.2 then AMD_OK_BUT_JUMBLED else s.1, i), false))
          Except.ok (q.1.1, q.2))
    (fun j r => (∀ c, c < j → ColOk m ap ai c) ∧
      r = if IncreasingColumns j ap ai then AMD_OK else AMD_OK_BUT_JUMBLED)
    (fun j r => r = AMD_INVALID ∧ ¬ ColOk m ap ai j)
    ⟨fun c hc => by omega, by rw [if_pos]; intro j hj; omega⟩ (by
      rintro j r - hj ⟨hc, hr⟩
      have e1 : rd Ap ((j : Int) + 1) = .ok (ap (j + 1)) := by
        have := hp.rd (i := j + 1) (by omega)
        push_cast at this
        exact this
      simp only [hp.rd (show j < n + 1 by omega), e1, ok_bind]
      have hjn := nonneg_of_cols h0 j hc
      by_cases hgt : ap j > ap (j + 1)
      · rw [if_pos hgt]
        exact Spec.ok (by simpa using fun h => absurd h.1 (by omega))
      rw [if_neg hgt]
      obtain ⟨a, ha⟩ : ∃ a : Nat, ap j = a := ⟨(ap j).toNat, by omega⟩
      obtain ⟨b, hb⟩ : ∃ b : Nat, ap (j + 1) = b := ⟨(ap (j + 1)).toNat, by omega⟩
      have hb' := hsz (j + 1) (by omega)
      rw [ha, hb]
      refine Spec.bind (forBrk_spec (lo := a) (hi := b) (by omega) (s := (r, EMPTY))
        (fun p s => (∀ k : Nat, a ≤ k → k < p → 0 ≤ ai k ∧ ai k < m) ∧
          s.2 = (if p = a then EMPTY else ai (p - 1)) ∧
          s.1 = if IncreasingColumns j ap ai ∧ (∀ k : Nat, a ≤ k → k + 1 < p → ai k < ai (k + 1))
            then AMD_OK else AMD_OK_BUT_JUMBLED)
        (fun p s => s.1 = AMD_INVALID ∧ ¬ (0 ≤ ai p ∧ ai p < m)) ?_ ?_) ?_
      · refine ⟨fun k h1 h2 => by omega, by rw [if_pos rfl], ?_⟩
        rw [hr]
        by_cases hs : IncreasingColumns j ap ai
        · rw [if_pos hs, if_pos ⟨hs, fun k h1 h2 => by omega⟩]
        · rw [if_neg hs, if_neg (fun h => hs h.1)]
      · rintro p ⟨s1, s2⟩ h1 h2 ⟨hin, hlast, hs⟩
        simp only at hlast hs
        simp only [hi.rd (show p < nz by omega), ok_bind]
        by_cases hr : ai p < 0 ∨ ai p ≥ (m : Int)
        · rw [if_pos hr]
          exact Spec.ok (by simp only [if_true]; exact ⟨trivial, by omega⟩)
        · rw [if_neg hr]
          refine Spec.ok ?_
          simp only [Bool.false_eq_true, if_false]
          refine ⟨?_, by rw [if_neg (by omega)]; simp, ?_⟩
          · intro k hk1 hk2
            by_cases e : k = p
            · subst e; omega
            · exact hin k hk1 (by omega)
          · by_cases e : p = a
            · subst e
              rw [if_pos rfl] at hlast
              rw [if_neg (by rw [hlast]; unfold EMPTY; omega), hs]
              have : (∀ k : Nat, p ≤ k → k + 1 < p → ai k < ai (k + 1)) ↔
                  (∀ k : Nat, p ≤ k → k + 1 < p + 1 → ai k < ai (k + 1)) :=
                ⟨fun _ k h1 h2 => by omega, fun _ k h1 h2 => by omega⟩
              simp only [this]
            · rw [if_neg e] at hlast
              subst hlast
              by_cases hle : ai p ≤ ai (p - 1)
              · rw [if_pos hle, if_neg]
                rintro ⟨-, h⟩
                have := h (p - 1) (by omega) (by omega)
                rw [show p - 1 + 1 = p by omega] at this
                omega
              · rw [if_neg hle, hs]
                have : (∀ k : Nat, a ≤ k → k + 1 < p → ai k < ai (k + 1)) ↔
                    (∀ k : Nat, a ≤ k → k + 1 < p + 1 → ai k < ai (k + 1)) := by
                  refine ⟨fun h k h1 h2 => ?_, fun h k h1 h2 => h k h1 (by omega)⟩
                  by_cases ek : k + 1 = p
                  · have ek' : k = p - 1 := by omega
                    rw [ek, ek']; omega
                  · exact h k h1 (by omega)
                simp only [this]
      · rintro ⟨⟨q1, q2⟩, q3⟩ hq
        refine Spec.ok ?_
        cases q3 with
        | true =>
          simp only [if_true] at hq ⊢
          obtain ⟨p, hp1, hp2, hp3, hp4⟩ := hq
          exact ⟨hp3, fun h => hp4 (h.2 p (by omega) (by omega))⟩
        | false =>
          simp only [Bool.false_eq_true, if_false] at hq ⊢
          obtain ⟨hin, -, hs⟩ := hq
          refine ⟨?_, ?_⟩
          · intro c hc'
            by_cases e : c = j
            · subst e
              exact ⟨by omega, fun k h1 h2 => hin k (by omega) (by omega)⟩
            · exact hc c (by omega)
          · rw [hs]
            have : (IncreasingColumns j ap ai ∧ ∀ k : Nat, a ≤ k → k + 1 < b → ai k < ai (k + 1)) ↔
                IncreasingColumns (j + 1) ap ai := by
              constructor
              · rintro ⟨h1, h2⟩ c hc' k hk1 hk2
                by_cases e : c = j
                · subst e
                  exact h2 k (by omega) (by omega)
                · exact h1 c (by omega) k hk1 hk2
              · intro h
                exact ⟨fun c hc' => h c (by omega), fun k h1 h2 => h j (by omega) k (by omega) (by omega)⟩
            simp only [this])
  obtain ⟨⟨r, br⟩, hr, hpost⟩ := key
  have hr' : _ = Except.ok (r, br) := hr
  rw [show ((0 : Nat) : Int) = 0 from rfl] at hr'
  rw [hr', ok_bind]
  cases br with
  | true =>
    simp only [if_true] at hpost
    obtain ⟨j, -, hj, h1, h2⟩ := hpost
    rw [if_pos (fun hv => h2 (colOk_of_valid hv hj))]
    exact congrArg Except.ok h1
  | false =>
    simp only [Bool.false_eq_true, if_false] at hpost
    have hv := valid_of_cols h0 n hpost.1
    rw [if_neg (not_not.mpr hv)]
    refine congrArg Except.ok (hpost.2.trans ?_)
    by_cases hs : IncreasingColumns n ap ai
    · rw [if_pos hs, if_neg (not_not.mpr hs)]
    · rw [if_neg hs, if_pos hs]

/-- NULL arrays and negative dimensions are invalid. -/
theorem C40_null (m n : Int) (Ap Ai : Option (Buf Int)) (h : m < 0 ∨ n < 0 ∨ Ap = none ∨ Ai = none) :
    AMD_valid m n Ap Ai = .ok AMD_INVALID := by
  unfold AMD_valid
  by_cases hneg : m < 0 ∨ n < 0
  · rw [if_pos hneg]; rfl
  · rw [if_neg hneg]
    rcases h with h | h | h | h
    · exact absurd (Or.inl h) hneg
    · exact absurd (Or.inr h) hneg
    · subst h; rfl
    · subst h; cases Ap <;> rfl

private theorem forBrkN_error {σ : Type} {f : Int → σ → M (σ × Bool)} {e : Err} (L : Int)
    (hok : ∀ j s, 0 ≤ j → j < L → ∃ s', f j s = .ok (s', false)) (herr : ∀ s, f L s = .error e) :
    ∀ (k : Nat) (i : Int) (s : σ), 0 ≤ i → i ≤ L → L < i + k → forBrkN k i s f = .error e := by
  intro k
  induction k with
  | zero => intro i s _ h1 h2; omega
  | succ k ih =>
    intro i s h0 h1 h2
    rw [forBrkN]
    by_cases hi : i = L
    · subst hi
      rw [herr s]; rfl
    · obtain ⟨s', hs'⟩ := hok i s h0 (by omega)
      rw [hs', ok_bind]
      simp only [Bool.false_eq_true, if_false]
      exact ih (i + 1) s' (by omega) (by omega) (by omega)

/-- The check itself trusts the column pointers: when the end of the first column lies beyond the
array of row indices, it reads outside that array before it can see that the pointers are not
monotone. -/
theorem C40_reads_outside {m n nz : Nat} {Ap Ai : Buf Int} {ap ai : Nat → Int}
    (hp : Buf.Has Ap (n + 1) ap) (hn : 0 < n) (h0 : ap 0 = 0) (hn0 : 0 ≤ ap n)
    (hi : Buf.Has Ai nz ai) (hlen : Ai.length = nz) (hrange : ∀ k, k < nz → 0 ≤ ai k ∧ ai k < m)
    (hout : (nz : Int) < ap 1) : AMD_valid m n (some Ap) (some Ai) = .error .oob := by
  unfold AMD_valid
  rw [if_neg (by omega)]
  have e0 : Verif.rd Ap 0 = .ok (ap 0) := hp.rd (i := 0) (by omega)
  have e1 : Verif.rd Ap (0 + 1) = .ok (ap 1) := hp.rd (i := 1) (by omega)
  simp only [hp.rd (show n < n + 1 by omega), e0, ok_bind, pure_eq_ok]
  rw [if_neg (by omega)]
  obtain ⟨k, rfl⟩ : ∃ k, n = k + 1 := ⟨n - 1, by omega⟩
  unfold forBrk
  rw [show (((k + 1 : Nat) : Int) - 0).toNat = k + 1 by omega, forBrkN]
  simp only [e0, e1, ok_bind, h0]
  rw [if_neg (by omega)]
  rw [forBrkN_error (nz : Int) (e := .oob) _ _ _ _ _ le_rfl (by omega) (by omega)]
  · rfl
  · rintro j ⟨s1, s2⟩ hj0 hj1
    have hr := hi.rd' hj0 hj1
    have := hrange j.toNat (by omega)
    simp only [hr, ok_bind]
    rw [if_neg (by omega)]
    exact ⟨_, rfl⟩
  · rintro ⟨s1, s2⟩
    have : Verif.rd Ai (nz : Int) = .error .oob := by
      unfold Verif.rd
      rw [if_neg (by omega), Int.toNat_natCast, List.getElem?_eq_none (by omega)]
    rw [this]; rfl

/-- Status values of the input check. -/
private theorem valid_status (m n : Int) (Ap Ai : Option (Buf Int)) :
    Post (AMD_valid m n Ap Ai)
      (fun st => st = AMD_OK ∨ st = AMD_OK_BUT_JUMBLED ∨ st = AMD_INVALID) := by
  unfold AMD_valid
  refine Post.ite (fun _ => Post.pure (by simp)) (fun _ => ?_)
  cases Ap with
  | none => exact Post.pure (by simp)
  | some Ap =>
    cases Ai with
    | none => exact Post.pure (by simp)
    | some Ai =>
      refine Post.next fun nz => Post.next fun a0 => Post.ite (fun _ => Post.pure (by simp)) fun _ => ?_
      refine Post.bind (Post.forBrkN (I := fun st => st = AMD_OK ∨ st = AMD_OK_BUT_JUMBLED ∨
        st = AMD_INVALID) ?_ _ _ _ (by simp)) (fun r hr => Post.pure hr)
      intro j r hr
      refine Post.next fun p1 => Post.next fun p2 => Post.ite (fun _ => Post.pure (by simp)) fun _ => ?_
      refine Post.bind (Post.forBrkN (I := fun st => st.1 = AMD_OK ∨ st.1 = AMD_OK_BUT_JUMBLED ∨
        st.1 = AMD_INVALID) ?_ _ _ _ hr) (fun q hq => Post.pure hq)
      intro p s hs
      refine Post.next fun i => Post.ite (fun _ => Post.pure (by simp)) fun _ => Post.pure ?_
      by_cases h : i ≤ s.2
      · simp [h]
      · simpa [h] using hs

/-- **C40.** Whatever the arguments, a run of the ordering that ends reports one of the four status
values of amd.h; in particular never -3, the value by which setup remembers that the permutation
array belongs to the caller. -/
theorem C40_status (mem : AmdMem) (dense0 : Int → Int) (aggressive : Bool) (n : Int) (Ap Ai P : Buf Int)
    {st : Int} {P' : Buf Int} (h : AMD_order mem dense0 aggressive n Ap Ai P = .ok (st, P')) :
    st ∈ [AMD_OK, AMD_OK_BUT_JUMBLED, AMD_INVALID, AMD_OUT_OF_MEMORY] ∧ st ≠ -3 := by
  have key : Post (AMD_order mem dense0 aggressive n Ap Ai P)
      (fun r => r.1 = AMD_OK ∨ r.1 = AMD_OK_BUT_JUMBLED ∨ r.1 = AMD_INVALID ∨
        r.1 = AMD_OUT_OF_MEMORY) := by
    unfold AMD_order
    refine Post.ite (fun _ => Post.pure (by simp)) fun _ => Post.ite (fun _ => Post.pure (by simp))
      fun _ => ?_
    refine Post.next fun nz => Post.ite (fun _ => Post.pure (by simp)) fun _ =>
      Post.ite (fun _ => Post.pure (by simp)) fun _ => ?_
    refine Post.bind (valid_status n n (some Ap) (some Ai)) fun status hst => ?_
    refine Post.ite (fun _ => Post.pure (by simp)) fun hinv => ?_
    refine Post.next fun _ => Post.next fun _ => ?_
    refine Post.ite (fun _ => Post.pure (by simp)) fun _ => ?_
    refine Post.ite (fun _ => Post.pure (by simp)) fun _ => ?_
    refine Post.next fun c => Post.next fun t => Post.next fun r => Post.ite (fun _ => ?_) (fun _ => Post.pure (by simp))
    refine Post.next fun S => Post.next fun o => Post.pure ?_
    rcases hst with h | h | h
    · exact Or.inl h
    · exact Or.inr (Or.inl h)
    · exact absurd h hinv
  have := key _ h
  simp only [AMD_OK, AMD_OK_BUT_JUMBLED, AMD_INVALID, AMD_OUT_OF_MEMORY, List.mem_cons,
    List.not_mem_nil, or_false] at this ⊢
  omega

/-- A pattern with an unsorted column and one with a repeated entry are jumbled. -/
example : AMD_valid 3 2 (some (Buf.ofFn 3 (fun i => ([0, 2, 3] : List Int).getD i 0)))
    (some (Buf.ofFn 3 (fun i => ([2, 0, 1] : List Int).getD i 0))) = .ok AMD_OK_BUT_JUMBLED ∧
    AMD_valid 3 2 (some (Buf.ofFn 3 (fun i => ([0, 2, 3] : List Int).getD i 0)))
    (some (Buf.ofFn 3 (fun i => ([2, 2, 1] : List Int).getD i 0))) = .ok AMD_OK_BUT_JUMBLED ∧
    AMD_valid 3 2 (some (Buf.ofFn 3 (fun i => ([0, 2, 3] : List Int).getD i 0)))
    (some (Buf.ofFn 3 (fun i => ([0, 2, 1] : List Int).getD i 0))) = .ok AMD_OK ∧
    AMD_valid 3 2 (some (Buf.ofFn 3 (fun i => ([0, 2, 1] : List Int).getD i 0)))
    (some (Buf.ofFn 3 (fun i => ([0, 2, 1] : List Int).getD i 0))) = .ok AMD_INVALID := by
  decide

/-- The hypotheses of `C40_reads_outside` are met by column pointers `0, 4, 1`. -/
example : AMD_valid 3 2 (some (Buf.ofFn 3 (fun i => ([0, 4, 1] : List Int).getD i 0)))
    (some (Buf.ofFn 1 (fun _ => 0))) = .error .oob :=
  C40_reads_outside (m := 3) (n := 2) (nz := 1) (Buf.has_ofFn _ _) (by decide) rfl (by decide)
    (Buf.has_ofFn _ _) (by simp) (fun k _ => by constructor <;> decide) (by decide)

/-- **C41.** On every well-formed square pattern, with columns unsorted and entries repeated or
not, the preprocessing step terminates without touching memory outside its arrays and, if the number
of entries fits the integer type, without an integer overflow, and produces the
pattern `R` with `R(r,c)` present exactly when `A(c,r)` is present, whose columns are sorted and
free of duplicates. -/
theorem C41_preprocess {N : Nat} {A : Csc Unit} (hA : A.WF) (hn : A.n = N) (hm : A.m = N)
    (hB : A.nnz < 2 ^ 63)
    {Ap Ai Rp Ri W Flag : Buf Int} (hp : Buf.Has Ap (N + 1) (fun i => (A.jc i : Int)))
    (hi : Buf.Has Ai A.nnz (fun k => (A.ir k : Int))) (hRp : Rp.length = N + 1)
    (hRi : A.nnz ≤ Ri.length) (hW : W.length = N) (hF : Flag.length = N) :
    ∃ (Rp' Ri' W' Flag' : Buf Int) (R : Csc Unit),
      AMD_preprocess N Ap Ai Rp Ri W Flag = .ok (Rp', Ri', W', Flag') ∧
      R.WF ∧ R.n = N ∧ R.m = N ∧ R.Sorted ∧
      (∀ r c, r < N → c < N → (R.Mem r c ↔ A.Mem c r)) ∧
      Buf.Has Rp' (N + 1) (fun i => (R.jc i : Int)) ∧
      Buf.Has Ri' R.nnz (fun k => (R.ir k : Int)) := by
  obtain ⟨⟨a, b, c, d⟩, h, R, h1, h2, h3, h4, h5, h6, h7, -⟩ :=
    AMD_preprocess_spec hA hn hm hp hi (by unfold Int_MAX; omega) hRp hRi hW hF
  exact ⟨a, b, c, d, R, h, h1, h2, h3, h4, h5, h6, h7⟩

/-- A 3-by-3 pattern with an unsorted column and a repeated entry. -/
def jumbledDemo : Csc Unit :=
  { m := 3, n := 3, jc := fun i => ([0, 3, 4, 6] : List Nat).getD i 6
    ir := fun k => ([2, 0, 2, 1, 2, 1] : List Nat).getD k 0, pr := fun _ => () }

theorem jumbledDemo_wf : jumbledDemo.WF where
  jc0 := rfl
  mono := by decide
  ir_lt := by decide

/-- The hypotheses of `C41_preprocess` are met by an unsorted pattern with a repeated entry. -/
example : ¬ jumbledDemo.Sorted ∧
    AMD_preprocess 3 (Buf.ofFn 4 (fun i => (jumbledDemo.jc i : Int)))
      (Buf.ofFn 6 (fun k => (jumbledDemo.ir k : Int))) (malloc 4) (malloc 6) (malloc 3) (malloc 3) =
    .ok ([some 0, some 1, some 3, some 5], [some 0, some 1, some 2, some 0, some 2, none],
      [some 1, some 3, some 5], [some 0, some 2, some 2]) ∧
    ∃ (Rp' Ri' W' Flag' : Buf Int) (R : Csc Unit),
      AMD_preprocess (3 : Nat) (Buf.ofFn 4 (fun i => (jumbledDemo.jc i : Int)))
        (Buf.ofFn 6 (fun k => (jumbledDemo.ir k : Int))) (malloc 4) (malloc 6) (malloc 3) (malloc 3) =
        .ok (Rp', Ri', W', Flag') ∧ R.WF ∧ R.n = 3 ∧ R.m = 3 ∧ R.Sorted ∧
      (∀ r c, r < 3 → c < 3 → (R.Mem r c ↔ jumbledDemo.Mem c r)) ∧
      Buf.Has Rp' 4 (fun i => (R.jc i : Int)) ∧ Buf.Has Ri' R.nnz (fun k => (R.ir k : Int)) := by
  refine ⟨?_, by decide, C41_preprocess jumbledDemo_wf rfl rfl (by decide) (Buf.has_ofFn _ _) (Buf.has_ofFn _ _)
    rfl (by decide) rfl rfl⟩
  intro h
  exact absurd (h 0 (by decide) 0 (by decide) (by decide)) (by decide)

end Verif
