import Verif.Model.TestHelpers
import Verif.Props.Transpose
import Verif.Props.Dense

/-!
# C94: the checks of the project's own tests
-/

set_option linter.unusedSectionVars false

namespace Verif

section Loops

/-- A loop that looks for an index. -/
theorem forBrk_any {n : Nat} {f : Int → Unit → M (Unit × Bool)} {p : Nat → Bool}
    (h : ∀ j : Nat, j < n → f (j : Int) () = .ok ((), p j)) :
    Spec (forBrk 0 (n : Int) () f) (fun r => r.2 = true ↔ ∃ j, j < n ∧ p j = true) := by
  have := forBrk_spec (lo := 0) (hi := n) (Nat.zero_le n) (s := ()) (f := f)
    (fun j _ => ∀ i, i < j → p i = false) (fun j _ => p j = true) (by intro i hi; omega) (by
      intro j _ _ hj hinv
      rw [h j hj]
      refine Spec.ok ?_
      cases hp : p j with
      | true => simp
      | false =>
        simp only [Bool.false_eq_true, if_false]
        intro i hi
        rcases Nat.lt_succ_iff_lt_or_eq.mp hi with h' | h'
        · exact hinv i h'
        · exact h' ▸ hp)
  refine this.mono ?_
  rintro ⟨_, b⟩ hb
  cases b with
  | true =>
    simp only [if_true] at hb
    obtain ⟨j, _, h1, h2⟩ := hb
    simp only [true_iff]
    exact ⟨j, h1, h2⟩
  | false =>
    simp only [Bool.false_eq_true, if_false] at hb
    simp only [Bool.false_eq_true, false_iff]
    rintro ⟨j, h1, h2⟩
    rw [hb j h1] at h2
    cases h2

/-- A loop whose `a`-th pass fails. -/
theorem forN_error {σ : Type} {f : Int → σ → M σ} {e : Err} : ∀ (k a : Nat) (i : Int) (s : σ), a < k →
    (∀ (j : Nat) s, j < a → ∃ s', f (i + j) s = .ok s') → (∀ s, f (i + a) s = .error e) →
    forN k i s f = .error e
  | 0, _, _, _, h, _, _ => absurd h (Nat.not_lt_zero _)
  | k + 1, 0, i, s, _, _, h => by
    unfold forN
    have := h s
    simp only [Nat.cast_zero, add_zero] at this
    rw [this]
    rfl
  | k + 1, a + 1, i, s, hk, h1, h2 => by
    unfold forN
    obtain ⟨s', hs⟩ := h1 0 s (by omega)
    simp only [Nat.cast_zero, add_zero] at hs
    rw [hs, ok_bind]
    refine forN_error k a (i + 1) s' (by omega) ?_ ?_
    · intro j s hj
      obtain ⟨s', h⟩ := h1 (j + 1) s (by omega)
      refine ⟨s', ?_⟩
      rw [← h]
      congr 1
      push_cast
      ring
    · intro s
      rw [← h2 s]
      congr 1
      push_cast
      ring

end Loops

section Validate

variable {K : Type} [Zero K] [One K] [Add K] [Sub K] [Mul K] [Div K] [Neg K] [Scalar K]

/-- **C94**, `validate_smat`: on arrays as long as the dimensions say, whatever they contain, the check
returns and accepts exactly if the dimensions are positive, there are entries but not more than places,
row indices are in range, column pointers do not decrease and end with the number of entries, and all values are finite.
The first column pointer may have any value. -/
theorem C94_validate {finite : K → Bool} {S : Smat K} {jc ir : Nat → Int} {pr : Nat → K}
    (hjc : Buf.Has S.jc (S.n.toNat + 1) jc) (hir : Buf.Has S.ir S.nnz.toNat ir) (hpr : Buf.Has S.pr S.nnz.toNat pr) :
    ∃ r, validate_smat finite S = .ok r ∧ (r = none ↔
      0 < S.m ∧ 0 < S.n ∧ 0 < S.nnz ∧ S.nnz ≤ S.m * S.n ∧
      (∀ k, k < S.nnz.toNat → 0 ≤ ir k ∧ ir k < S.m) ∧ (∀ c, c < S.n.toNat → jc c ≤ jc (c + 1)) ∧
      jc S.n.toNat = S.nnz ∧ ∀ k, k < S.nnz.toNat → finite (pr k) = true) := by
  unfold validate_smat
  by_cases h0 : S.nnz > S.m * S.n ∨ S.nnz ≤ 0 ∨ S.m ≤ 0 ∨ S.n ≤ 0
  · rw [if_pos h0]
    refine ⟨_, rfl, ?_⟩
    simp only [reduceCtorEq, false_iff]
    rintro ⟨h1, h2, h3, h4, _⟩
    omega
  rw [if_neg h0]
  simp only [not_or, not_lt, not_le, gt_iff_lt] at h0
  obtain ⟨g1, g2, g3, g4⟩ := h0
  obtain ⟨z, hz⟩ : ∃ z : Nat, S.nnz = z := ⟨S.nnz.toNat, by omega⟩
  obtain ⟨n, hn⟩ : ∃ n : Nat, S.n = n := ⟨S.n.toNat, by omega⟩
  rw [hz] at hir hpr
  rw [hn] at hjc
  simp only [Int.toNat_natCast] at hir hpr hjc
  simp only [hz, hn, Int.toNat_natCast]
  obtain ⟨r1, e1, q1⟩ := forBrk_any (n := z) (p := fun k => decide (ir k < 0 ∨ ir k ≥ S.m))
    (f := fun i _ => (do
      let v ← rd S.ir i
      pure ((), decide (v < 0 ∨ v ≥ S.m)))) (by
      intro j hj
      rw [hir.rd hj]
      rfl)
  rw [e1, ok_bind]
  by_cases b1 : r1.2 = true
  · rw [if_pos b1]
    refine ⟨_, rfl, ?_⟩
    obtain ⟨j, hj, hb⟩ := q1.mp b1
    have hb := of_decide_eq_true hb
    simp only [reduceCtorEq, false_iff]
    rintro ⟨_, _, _, _, h, _⟩
    have := h j hj
    omega
  rw [if_neg b1]
  have a1 : ∀ k, k < z → 0 ≤ ir k ∧ ir k < S.m := by
    intro k hk
    by_contra hc
    exact b1 (q1.mpr ⟨k, hk, decide_eq_true (by omega)⟩)
  obtain ⟨r2, e2, q2⟩ := forBrk_any (n := n) (p := fun c => decide (jc (c + 1) < jc c ∨ jc c > (z : Int)))
    (f := fun i _ => (do
      let v ← rd S.jc (i + 1)
      let w ← rd S.jc i
      pure ((), decide (v < w ∨ w > (z : Int))))) (by
      intro j hj
      have e : ((j : Int) + 1) = ((j + 1 : Nat) : Int) := by omega
      rw [e, hjc.rd (i := j + 1) (by omega), hjc.rd (i := j) (by omega)]
      rfl)
  rw [e2, ok_bind]
  by_cases b2 : r2.2 = true
  · rw [if_pos b2]
    refine ⟨_, rfl, ?_⟩
    obtain ⟨j, hj, hb⟩ := q2.mp b2
    have hb := of_decide_eq_true hb
    simp only [reduceCtorEq, false_iff]
    rintro ⟨_, _, _, _, _, hm, he, _⟩
    have hle : ∀ c, j ≤ c → c ≤ n → jc j ≤ jc c := by
      intro c hc
      induction c, hc using Nat.le_induction with
      | base => intro _; exact le_rfl
      | succ c _ ih => intro h; exact le_trans (ih (by omega)) (hm c (by omega))
    have := hle n (by omega) le_rfl
    have := hm j hj
    omega
  rw [if_neg b2]
  have a2 : ∀ c, c < n → jc c ≤ jc (c + 1) := by
    intro c hc
    by_contra h
    exact b2 (q2.mpr ⟨c, hc, decide_eq_true (by omega)⟩)
  rw [hjc.rd (i := n) (by omega), ok_bind]
  by_cases b3 : jc n ≠ z
  · rw [if_pos b3]
    refine ⟨_, rfl, ?_⟩
    simp only [reduceCtorEq, false_iff]
    rintro ⟨_, _, _, _, _, _, he, _⟩
    exact b3 he
  rw [if_neg b3]
  simp only [ne_eq, not_not] at b3
  obtain ⟨r3, e3, q3⟩ := forBrk_any (n := z) (p := fun k => !finite (pr k))
    (f := fun i _ => (do
      let v ← rd S.pr i
      pure ((), !finite v))) (by
      intro j hj
      rw [hpr.rd hj]
      rfl)
  rw [e3, ok_bind]
  by_cases b4 : r3.2 = true
  · rw [if_pos b4]
    refine ⟨_, rfl, ?_⟩
    obtain ⟨j, hj, hb⟩ := q3.mp b4
    simp only [reduceCtorEq, false_iff]
    rintro ⟨_, _, _, _, _, _, _, h⟩
    rw [h j hj] at hb
    cases hb
  · rw [if_neg b4]
    refine ⟨_, rfl, ?_⟩
    simp only [true_iff]
    refine ⟨g3, by omega, by omega, by rw [← hz, ← hn]; exact g1, a1, a2, b3, ?_⟩
    intro k hk
    by_contra h
    exact b4 (q3.mpr ⟨k, hk, by simpa using h⟩)

/-- **C94**: what `validate_smat` accepts is a well-formed matrix if its first column pointer is 0. -/
theorem C94_validate_sound {finite : K → Bool} {S : Smat K} {jc ir : Nat → Int} {pr : Nat → K}
    (hjc : Buf.Has S.jc (S.n.toNat + 1) jc) (hir : Buf.Has S.ir S.nnz.toNat ir) (hpr : Buf.Has S.pr S.nnz.toNat pr)
    (h0 : jc 0 = 0) (hv : validate_smat finite S = .ok none) : ∃ A : Csc K, S.Is A ∧ A.WF := by
  obtain ⟨r, e, q⟩ := C94_validate (finite := finite) hjc hir hpr
  rw [hv] at e
  cases e
  obtain ⟨h1, h2, h3, h4, h5, h6, h7, h8⟩ := q.mp rfl
  have hnn : ∀ c, c ≤ S.n.toNat → 0 ≤ jc c := by
    intro c
    induction c with
    | zero => intro _; omega
    | succ c ih => intro h; exact le_trans (ih (by omega)) (h6 c (by omega))
  have hz : (jc S.n.toNat).toNat = S.nnz.toNat := by rw [h7]
  refine ⟨⟨S.m.toNat, S.n.toNat, fun c => (jc c).toNat, fun k => (ir k).toNat, pr⟩, ⟨?_, ?_, ?_, ?_, ?_, ?_⟩, ?_, ?_, ?_⟩
  · simp only; omega
  · simp only; omega
  · simp only [Csc.nnz, hz]; omega
  · refine hjc.congr ?_
    intro c hc
    have := hnn c (by omega)
    simp only
    omega
  · simp only [Csc.nnz, hz]
    refine hir.congr ?_
    intro k hk
    have := h5 k hk
    omega
  · simp only [Csc.nnz, hz]
    exact hpr
  · simp [h0]
  · intro c hc
    have := h6 c hc
    simp only
    omega
  · intro k hk
    have hk : k < (jc S.n.toNat).toNat := hk
    have := h5 k (by omega)
    simp only
    omega

end Validate

section Compare

variable {K : Type} [Field K] [LinearOrder K] [Scalar K] [LawfulScalar K]

theorem dcol_mem {d : Nat → Nat → K} {i j : Nat} {e : Nat × K} (h : e ∈ dcol d i j) :
    e.1 < i ∧ e.2 = d e.1 j := by
  simp only [dcol, List.mem_filterMap, List.mem_range] at h
  obtain ⟨r, hr, h⟩ := h
  by_cases c : Scalar.eqb (d r j) 0 = true
  · simp [c] at h
  · simp only [c, Bool.false_eq_true, if_false, Option.some.injEq] at h
    rw [← h]
    exact ⟨hr, rfl⟩

theorem dcol_length_le (d : Nat → Nat → K) (i j : Nat) : (dcol d i j).length ≤ i := by
  unfold dcol
  exact (List.length_filterMap_le _ _).trans (by simp)

theorem offs_dcol_le (d : Nat → Nat → K) (m n : Nat) : offs (dcol d m) n ≤ m * n := by
  induction n with
  | zero => simp
  | succ n ih =>
    rw [offs_succ, Nat.mul_succ]
    have := dcol_length_le d m n
    omega

/-- The comparison of a dense matrix with its own conversion. -/
theorem compareDense_self {m n : Nat} {d : Nat → Nat → K} {pr : Buf K} {at' : Int → Int → Int}
    (hrd : ∀ i j : Nat, i < m → j < n → rd pr (at' j i) = .ok (d i j)) :
    compareDense at' (denseCsc m n d).toSmat pr m n = .ok true := by
  unfold compareDense
  obtain ⟨r, e, q⟩ := forBrk_spec (lo := 0) (hi := n) (Nat.zero_le n) (s := (0 : Int))
    (f := fun j idx => forBrk 0 (m : Int) idx fun i idx => (do
      let v ← rd pr (at' j i)
      if Scalar.eqb v 0 then pure (idx, false)
      else do
        let w ← rd (denseCsc m n d).toSmat.pr idx
        pure (idx + 1, !Scalar.eqb v w)))
    (fun j idx => idx = ((flatTo (dcol d m) j).length : Int)) (fun _ _ => False) (by simp) (by
      rintro j idx _ hj rfl
      refine (forBrk_spec (lo := 0) (hi := m) (Nat.zero_le m)
        (fun i idx => idx = ((partFlat d m i j).length : Int)) (fun _ _ => False) (by simp [partFlat]) ?_).mono ?_
      · rintro i idx _ hi rfl
        rw [hrd i j hi hj, ok_bind]
        by_cases c : Scalar.eqb (d i j) 0 = true
        · have e : partFlat d m (i + 1) j = partFlat d m i j := by
            unfold partFlat
            rw [dcol_succ, if_pos c, List.append_nil]
          rw [if_pos c]
          exact Spec.ok (by simp [e])
        · have e : partFlat d m (i + 1) j = partFlat d m i j ++ [(i, d i j)] := by
            unfold partFlat
            rw [dcol_succ, if_neg c, List.append_assoc]
          obtain ⟨t, ht⟩ := partFlat_prefix d (m := m) (i := i + 1) (n := n) hi hj
          rw [e] at ht
          have hg : (flatTo (dcol d m) n)[(partFlat d m i j).length]? = some (i, d i j) := by
            rw [← ht, List.append_assoc, List.getElem?_append_right le_rfl]
            simp
          have hl : (partFlat d m i j).length < (flatTo (dcol d m) n).length :=
            (List.getElem?_eq_some_iff.mp hg).1
          have hp : (denseCsc m n d).pr (partFlat d m i j).length = d i j := by
            have := Csc.ofCols_get m n (dcol d m) hl
            rw [hg] at this
            simp only [Option.some.injEq, Prod.mk.injEq] at this
            exact this.2.symm
          have hr : rd (denseCsc m n d).toSmat.pr ((partFlat d m i j).length : Int) = .ok (d i j) := by
            rw [(denseCsc m n d).toSmat_is.pr.rd hl, hp]
          rw [if_neg c, hr, ok_bind]
          have : Scalar.eqb (d i j) (d i j) = true := (LawfulScalar.eqb_iff _ _).mpr rfl
          refine Spec.ok ?_
          simp [e, this]
      · rintro ⟨r, b⟩ hr
        cases b with
        | true =>
          simp only [if_true] at hr
          obtain ⟨_, _, _, h⟩ := hr
          exact h.elim
        | false =>
          simp only [Bool.false_eq_true, if_false] at hr ⊢
          rw [hr, flatTo_succ]
          rfl)
  have e : forBrk 0 (n : Int) (0 : Int) (fun j idx => forBrk 0 (m : Int) idx fun i idx => (do
      let v ← rd pr (at' j i)
      if Scalar.eqb v 0 then pure (idx, false)
      else do
        let w ← rd (denseCsc m n d).toSmat.pr idx
        pure (idx + 1, !Scalar.eqb v w))) = .ok r := e
  rw [e, ok_bind]
  obtain ⟨r, b⟩ := r
  cases b with
  | true =>
    simp only [if_true] at q
    obtain ⟨_, _, _, h⟩ := q
    exact h.elim
  | false => rfl

/-- `validate_smat` on a converted dense matrix. -/
theorem validate_dense {m n : Nat} {d : Nat → Nat → K} {finite : K → Bool}
    (hfin : ∀ i j, i < m → j < n → finite (d i j) = true) :
    ∃ r, validate_smat finite (denseCsc m n d).toSmat = .ok r ∧
      (r = none ↔ ∃ i j, i < m ∧ j < n ∧ d i j ≠ 0) := by
  have hIs := (denseCsc m n d).toSmat_is
  have hwf := denseCsc_wf m n d
  obtain ⟨r, e, q⟩ := C94_validate (finite := finite) (S := (denseCsc m n d).toSmat)
    (jc := fun i => ((denseCsc m n d).jc i : Int)) (ir := fun k => ((denseCsc m n d).ir k : Int))
    (pr := (denseCsc m n d).pr) (by simpa [hIs.n] using hIs.jc) (by simpa [hIs.nnz] using hIs.ir)
    (by simpa [hIs.nnz] using hIs.pr)
  refine ⟨r, e, q.trans ?_⟩
  rw [hIs.n, hIs.m, hIs.nnz]
  simp only [Int.toNat_natCast]
  have hm : (denseCsc m n d).m = m := rfl
  have hn : (denseCsc m n d).n = n := rfl
  have hzz : (denseCsc m n d).nnz = (flatTo (dcol d m) n).length := rfl
  constructor
  · rintro ⟨_, _, h, _⟩
    have hl : 0 < (flatTo (dcol d m) n).length := by omega
    obtain ⟨c, hc, he⟩ := mem_flatTo.mp (List.getElem_mem hl)
    obtain ⟨h1, h2⟩ := dcol_mem he
    refine ⟨_, c, h1, hc, ?_⟩
    rw [← h2]
    have h3 := denseCsc_ne_zero m n d (k := 0) hl
    have h4 := Csc.ofCols_get m n (dcol d m) hl
    rw [List.getElem?_eq_getElem hl] at h4
    simp only [Option.some.injEq] at h4
    rw [h4]
    exact h3
  · rintro ⟨i, j, hi, hj, hne⟩
    have hent := denseCsc_entry m n d hi hj
    have hpos : 0 < (denseCsc m n d).nnz := by
      rcases Nat.eq_zero_or_pos (denseCsc m n d).nnz with h | h
      · exfalso
        apply hne
        rw [← hent]
        have : (denseCsc m n d).jc (j + 1) ≤ (denseCsc m n d).nnz := hwf.le_nnz (c := j + 1) (by omega)
        unfold Csc.entry
        rw [Finset.Ico_eq_empty (by omega)]
        simp
      · exact h
    refine ⟨by omega, by omega, by omega, ?_, ?_, ?_, rfl, ?_⟩
    · have := offs_dcol_le d m n
      have h2 : (denseCsc m n d).nnz ≤ m * n := this
      rw [hm, hn]
      exact_mod_cast h2
    · intro k hk
      have := hwf.ir_lt k hk
      omega
    · intro c hc
      have := hwf.mono c hc
      exact_mod_cast this
    · intro k hk
      have h4 := List.mem_of_getElem? (Csc.ofCols_get m n (dcol d m) hk)
      obtain ⟨c, hc, he⟩ := mem_flatTo.mp h4
      obtain ⟨h1, h2⟩ := dcol_mem he
      have h2 : (denseCsc m n d).pr k = d ((denseCsc m n d).ir k) c := h2
      rw [h2]
      exact hfin _ c h1 hc

/-- **C94**, dense conversion tests: for every dense array of finite numbers, in both orders, the conversion
agrees with the array by the project's comparison, and it passes `validate_smat` exactly if it has an entry that is
not zero. -/
theorem C94_dense_tests {rows cols : Nat} {pr : Buf K} {f : Nat → K} {finite : K → Bool}
    (hpr : Buf.Has pr (rows * cols) f) (hfin : ∀ k, k < rows * cols → finite (f k) = true) :
    (∃ S r, densetosparse rows cols pr = .ok S ∧ compare_dmat_C_smat S pr rows cols = .ok true ∧
      validate_smat finite S = .ok r ∧ (r = none ↔ ∃ k, k < rows * cols ∧ f k ≠ 0)) ∧
    ∃ S r, densetosparse_ROWMAJOR rows cols pr = .ok S ∧ compare_dmat_R_smat S pr rows cols = .ok true ∧
      validate_smat finite S = .ok r ∧ (r = none ↔ ∃ k, k < rows * cols ∧ f k ≠ 0) := by
  have hsplit : ∀ {a b k : Nat}, k < a * b → k / b < a ∧ k % b < b ∧ (k / b) * b + k % b = k := by
    intro a b k hk
    have hb : 0 < b := by
      rcases Nat.eq_zero_or_pos b with h | h
      · rw [h] at hk; omega
      · exact h
    refine ⟨Nat.div_lt_of_lt_mul (by rw [Nat.mul_comm]; exact hk), Nat.mod_lt _ hb, ?_⟩
    rw [Nat.mul_comm]
    exact Nat.div_add_mod k b
  constructor
  · obtain ⟨r, h1, h2⟩ := validate_dense (m := rows) (n := cols) (d := fun i j => f (j * rows + i))
      (fun i j hi hj => hfin _ (idx_lt hi hj))
    refine ⟨_, r, densetosparse_eq hpr, compareDense_self ?_, h1, h2.trans ⟨?_, ?_⟩⟩
    · intro i j hi hj
      rw [cast_idx, hpr.rd (idx_lt hi hj)]
    · rintro ⟨i, j, hi, hj, h⟩
      exact ⟨_, idx_lt hi hj, h⟩
    · rintro ⟨k, hk, h⟩
      obtain ⟨h3, h4, h5⟩ := hsplit (a := cols) (b := rows) (k := k) (by rw [Nat.mul_comm]; exact hk)
      exact ⟨k % rows, k / rows, h4, h3, by rw [h5]; exact h⟩
  · have hlt : ∀ {i j : Nat}, i < rows → j < cols → i * cols + j < rows * cols := fun hi hj => by
      have := idx_lt (m := cols) (n := rows) hj hi
      rwa [Nat.mul_comm cols rows] at this
    obtain ⟨r, h1, h2⟩ := validate_dense (m := rows) (n := cols) (d := fun i j => f (i * cols + j))
      (fun i j hi hj => hfin _ (hlt hi hj))
    refine ⟨_, r, densetosparse_ROWMAJOR_eq hpr, compareDense_self ?_, h1, h2.trans ⟨?_, ?_⟩⟩
    · intro i j hi hj
      rw [cast_idx, hpr.rd (hlt hi hj)]
    · rintro ⟨i, j, hi, hj, h⟩
      exact ⟨_, hlt hi hj, h⟩
    · rintro ⟨k, hk, h⟩
      obtain ⟨h3, h4, h5⟩ := hsplit hk
      exact ⟨k / cols, k % cols, h3, h4, by rw [h5]; exact h⟩

end Compare

section Transpose

variable {K : Type} [Field K] [LinearOrder K] [Scalar K] [LawfulScalar K]

theorem prefix_snoc {α : Type} {l L : List α} {e : α} (h : l <+: L) (he : L[l.length]? = some e) :
    l ++ [e] <+: L := by
  obtain ⟨t, rfl⟩ := h
  rw [List.getElem?_append_right le_rfl] at he
  cases t with
  | nil => simp at he
  | cons a t =>
    simp at he
    subst he
    exact ⟨t, by simp⟩

/-- The check accepts exactly if every column of `A` lists a row of `T` from left to right. -/
theorem smatT_spec {SA ST : Smat K} {A T : Csc K} (hA : SA.Is A) (hT : ST.Is T) (hAw : A.WF) (hTw : T.WF) :
    Spec (validate_smat_smatT SA ST) (fun r => r = none ↔
      A.nnz = T.nnz ∧ A.m = T.n ∧ A.n = T.m ∧ ∀ k, k < A.n → A.col k = tcol T k) := by
  unfold validate_smat_smatT
  rw [hT.m]
  refine Spec.bind (forI_fill (n := T.m) (by simp) (fun _ => (0 : Int)) (fun _ _ _ _ _ _ => rfl)) ?_
  rintro cnt ⟨hl, h0, _⟩
  simp only [length_malloc, Int.toNat_natCast] at hl
  rw [hA.nnz, hT.nnz, hA.m, hT.n, hA.n]
  by_cases c1 : (A.nnz : Int) ≠ (T.nnz : Int)
  · rw [if_pos c1]
    refine Spec.ok ?_
    simp only [reduceCtorEq, false_iff]
    rintro ⟨h, _⟩
    omega
  rw [if_neg c1]
  by_cases c2 : (A.m : Int) ≠ (T.n : Int) ∨ (A.n : Int) ≠ (T.m : Int)
  · rw [if_pos c2]
    refine Spec.ok ?_
    simp only [reduceCtorEq, false_iff]
    rintro ⟨_, h1, h2, _⟩
    omega
  rw [if_neg c2]
  have hz : A.nnz = T.nnz := by omega
  have hm : A.m = T.n := by omega
  have hn : A.n = T.m := by omega
  refine Spec.bind (count_spec hTw hT.jc hT.ir hl h0) ?_
  rintro cnt1 ⟨hl1, hc1⟩
  refine Spec.bind (forBrk_any (n := A.n)
    (p := fun i => decide ((A.jc (i + 1) : Int) - (A.jc i : Int) ≠ ((tcol T i).length : Int))) (by
      intro j hj
      have e : ((j : Int) + 1) = ((j + 1 : Nat) : Int) := by omega
      rw [e, hA.jc.rd (i := j + 1) (by omega), hA.jc.rd (i := j) (by omega), hc1.rd (by omega)]
      rfl)) ?_
  rintro r q
  by_cases c3 : r.2 = true
  · rw [if_pos c3]
    refine Spec.ok ?_
    simp only [reduceCtorEq, false_iff]
    rintro ⟨_, _, _, h⟩
    obtain ⟨j, hj, hb⟩ := q.mp c3
    have hb := of_decide_eq_true hb
    have h2 := congrArg List.length (h j hj)
    rw [Csc.length_col] at h2
    have := hAw.mono j hj
    omega
  rw [if_neg c3]
  have hlen : ∀ k, k < A.n → (A.col k).length = (tcol T k).length ∧ A.jc (k + 1) = A.jc k + (tcol T k).length := by
    intro k hk
    have : ¬ ((A.jc (k + 1) : Int) - (A.jc k : Int) ≠ ((tcol T k).length : Int)) := by
      intro h
      exact c3 (q.mpr ⟨k, hk, decide_eq_true h⟩)
    rw [Csc.length_col]
    omega
  refine Spec.bind (forI_fill (n := T.m) (by omega) (fun _ => (0 : Int)) (fun _ _ _ _ _ _ => rfl)) ?_
  rintro cnt2 ⟨hl2, h2, _⟩
  refine Spec.bind (forBrk_spec (lo := 0) (hi := T.n) (Nat.zero_le _)
    (fun i (st : Buf Int × Option String) => st.2 = none ∧ st.1.length = T.m ∧
      Buf.Has st.1 T.m (fun k => ((bucket T k i 0).length : Int)) ∧ ∀ k, k < T.m → bucket T k i 0 <+: A.col k)
    (fun _ st => st.2 ≠ none ∧ ∃ k, k < A.n ∧ A.col k ≠ tcol T k)
    ⟨rfl, by dsimp only; omega, h2.congr (by simp [bucket_zero]), fun k _ => by rw [bucket_zero]; exact List.nil_prefix⟩ ?_) ?_
  · rintro i ⟨cnt3, msg⟩ _ hi ⟨g0, g1, g2, g3⟩
    simp only at g0 g1 g2 g3
    subst g0
    have e : ((i : Int) + 1) = ((i + 1 : Nat) : Int) := by omega
    rw [hT.jc.rd (i := i) (by omega), ok_bind, e, hT.jc.rd (i := i + 1) (by omega), ok_bind]
    refine (forBrk_spec (lo := T.jc i) (hi := T.jc (i + 1)) (hTw.mono i hi)
      (fun j (st : Buf Int × Option String) => st.2 = none ∧ st.1.length = T.m ∧
        Buf.Has st.1 T.m (fun k => ((bucket T k i (j - T.jc i)).length : Int)) ∧
        ∀ k, k < T.m → bucket T k i (j - T.jc i) <+: A.col k)
      (fun _ st => st.2 ≠ none ∧ ∃ k, k < A.n ∧ A.col k ≠ tcol T k)
      ⟨rfl, g1, by simpa using g2, by simpa using g3⟩ ?_).mono ?_
    · rintro j ⟨cnt4, msg⟩ hj1 hj2 ⟨f0, f1, f2, f3⟩
      simp only at f0 f1 f2 f3
      subst f0
      have hj : j < T.nnz := lt_of_lt_of_le hj2 (hTw.le_nnz (by omega))
      have hk : T.ir j < T.m := hTw.ir_lt j hj
      have e2 : T.jc i + (j - T.jc i) = j := by omega
      have e1 : j + 1 - T.jc i = (j - T.jc i) + 1 := by omega
      obtain ⟨hcl, hjc⟩ := hlen (T.ir j) (by omega)
      have hb := bucket_succ T (r := T.ir j) (c := i) (q := j - T.jc i) (by omega)
      rw [e2, if_pos rfl] at hb
      obtain ⟨t, ht⟩ := bucket_prefix T (r := T.ir j) (q := j - T.jc i + 1) hi
      rw [hb] at ht
      have hg : (tcol T (T.ir j))[(bucket T (T.ir j) i (j - T.jc i)).length]? = some (i, T.pr j) := by
        rw [← ht, List.append_assoc, List.getElem?_append_right le_rfl]
        simp
      have hlt : (bucket T (T.ir j) i (j - T.jc i)).length < (tcol T (T.ir j)).length :=
        (List.getElem?_eq_some_iff.mp hg).1
      have hidx : A.jc (T.ir j) + (bucket T (T.ir j) i (j - T.jc i)).length < A.nnz := by
        have := hAw.le_nnz (c := T.ir j + 1) (by omega)
        omega
      have hga := Csc.col_get A (c := T.ir j) (q := (bucket T (T.ir j) i (j - T.jc i)).length) (by omega)
      have ei : (A.jc (T.ir j) : Int) + ((bucket T (T.ir j) i (j - T.jc i)).length : Int)
          = ((A.jc (T.ir j) + (bucket T (T.ir j) i (j - T.jc i)).length : Nat) : Int) := by
        push_cast; rfl
      rw [hT.ir.rd hj, ok_bind, hA.jc.rd (by omega), ok_bind, f2.rd hk, ok_bind]
      simp only [ei]
      rw [hA.ir.rd hidx, ok_bind]
      have hbad : (A.ir (A.jc (T.ir j) + (bucket T (T.ir j) i (j - T.jc i)).length),
          A.pr (A.jc (T.ir j) + (bucket T (T.ir j) i (j - T.jc i)).length)) ≠ (i, T.pr j) →
          ∃ k, k < A.n ∧ A.col k ≠ tcol T k := by
        intro h
        refine ⟨T.ir j, by omega, fun he => h ?_⟩
        rw [he, hg] at hga
        exact (Option.some.inj hga).symm
      by_cases d1 : (A.ir (A.jc (T.ir j) + (bucket T (T.ir j) i (j - T.jc i)).length) : Int) ≠ (i : Int)
      · rw [if_pos d1]
        refine Spec.ok ?_
        simp only [if_true]
        refine ⟨by simp, hbad ?_⟩
        intro h
        have := congrArg Prod.fst h
        simp only at this
        omega
      rw [if_neg d1, hA.pr.rd hidx, ok_bind, hT.pr.rd hj, ok_bind]
      by_cases d2 : Scalar.eqb (A.pr (A.jc (T.ir j) + (bucket T (T.ir j) i (j - T.jc i)).length)) (T.pr j) = true
      · rw [if_pos d2, wr_ok (by omega), ok_bind]
        refine Spec.ok ?_
        simp only [Bool.false_eq_true, if_false]
        refine ⟨trivial, by simp [f1], (f2.set (by omega) _).congr ?_, ?_⟩
        · intro k hk'
          rw [e1, bucket_succ T (by omega), e2]
          by_cases h' : k = T.ir j
          · subst h'
            rw [Function.update_self]
            simp
          · rw [Function.update_of_ne h', if_neg (Ne.symm h'), List.append_nil]
        · intro k hk'
          rw [e1, bucket_succ T (by omega), e2]
          by_cases h' : T.ir j = k
          · rw [if_pos h']
            subst h'
            refine prefix_snoc (f3 _ hk') ?_
            rw [hga]
            have h3 := (LawfulScalar.eqb_iff _ _).mp d2
            rw [h3]
            congr 2
            omega
          · rw [if_neg h', List.append_nil]
            exact f3 k hk'
      · rw [if_neg d2]
        refine Spec.ok ?_
        simp only [if_true]
        refine ⟨by simp, hbad ?_⟩
        intro h
        exact d2 ((LawfulScalar.eqb_iff _ _).mpr (congrArg Prod.snd h))
    · rintro ⟨⟨cnt4, msg⟩, b⟩ hr
      cases b with
      | true =>
        simp only [if_true] at hr ⊢
        obtain ⟨_, _, _, h⟩ := hr
        exact h
      | false =>
        simp only [Bool.false_eq_true, if_false] at hr ⊢
        obtain ⟨f0, f1, f2, f3⟩ := hr
        have hn : ∀ r, bucket T r (i + 1) 0 = bucket T r i (T.jc (i + 1) - T.jc i) := by
          intro r
          rw [bucket_next, Csc.length_col]
        exact ⟨f0, f1, f2.congr (fun r _ => by rw [hn]), fun k hk => by rw [hn]; exact f3 k hk⟩
  · rintro ⟨⟨cnt3, msg⟩, b⟩ hr
    refine Spec.ok ?_
    cases b with
    | true =>
      simp only [if_true] at hr
      obtain ⟨_, _, _, h, k, hk, hne⟩ := hr
      simp only [h, false_iff]
      rintro ⟨_, _, _, h'⟩
      exact hne (h' k hk)
    | false =>
      simp only [Bool.false_eq_true, if_false] at hr
      obtain ⟨h, _, _, hp⟩ := hr
      simp only [h, true_iff]
      refine ⟨hz, hm, hn, ?_⟩
      intro k hk
      have h3 := hp k (by omega)
      rw [bucket_end] at h3
      exact (h3.eq_of_length (hlen k hk).1.symm).symm

/-- **C94**, `validate_smat_smatT` is sound: whatever pair of well-formed matrices it accepts, the second
is the transpose of the first. The row indices of the first do not decrease inside its columns. -/
theorem C94_transpose_sound {SA ST : Smat K} {A T : Csc K} (hA : SA.Is A) (hT : ST.Is T) (hAw : A.WF) (hTw : T.WF) :
    ∃ r, validate_smat_smatT SA ST = .ok r ∧ (r = none →
      T.m = A.n ∧ T.n = A.m ∧ T.nnz = A.nnz ∧ (∀ r c, r < A.m → c < A.n → T.entry c r = A.entry r c) ∧
      ∀ c, c < A.n → ∀ k, A.jc c ≤ k → k + 1 < A.jc (c + 1) → A.ir k ≤ A.ir (k + 1)) := by
  obtain ⟨r, e, q⟩ := smatT_spec hA hT hAw hTw
  refine ⟨r, e, fun hr => ?_⟩
  obtain ⟨h1, h2, h3, h4⟩ := q.mp hr
  refine ⟨h3.symm, h2.symm, h1.symm, ?_, ?_⟩
  · intro r c hr hc
    rw [← Csc.transpose_entry (A := T) (r := c) (c := r) (by omega) (by omega), Csc.entry_eq_colSum,
      Csc.entry_eq_colSum, h4 c hc]
    unfold Csc.transpose
    rw [Csc.ofCols_col _ _ _ (by omega)]
  · intro c hc k hk1 hk2
    have hs := tcol_sorted_le T c
    rw [← h4 c hc, List.pairwise_iff_getElem] at hs
    have := hs (k - A.jc c) (k - A.jc c + 1) (by rw [Csc.length_col]; omega) (by rw [Csc.length_col]; omega) (by omega)
    simp only [Csc.col, List.getElem_map, List.getElem_range] at this
    rw [show A.jc c + (k - A.jc c) = k by omega, show A.jc c + (k - A.jc c + 1) = k + 1 by omega] at this
    exact this

/-- Two lists sorted by a key that agree for every key are equal. -/
theorem eq_of_filter {α : Type} : ∀ {l L : List (Nat × α)}, l.Pairwise (fun a b => a.1 ≤ b.1) →
    L.Pairwise (fun a b => a.1 ≤ b.1) →
    (∀ r, l.filter (fun e => decide (e.1 = r)) = L.filter (fun e => decide (e.1 = r))) → l = L
  | [], [], _, _, _ => rfl
  | [], b :: L, _, _, h => by have := h b.1; simp at this
  | a :: l, [], _, _, h => by have := h a.1; simp at this
  | a :: l, b :: L, hl, hL, h => by
    rw [List.pairwise_cons] at hl hL
    have hab : a.1 = b.1 := by
      have h1 : a ∈ (b :: L).filter (fun e => decide (e.1 = a.1)) := by
        rw [← h a.1]; simp
      have h2 : b ∈ (a :: l).filter (fun e => decide (e.1 = b.1)) := by
        rw [h b.1]; simp
      have g1 : b.1 ≤ a.1 := by
        rcases List.mem_cons.mp (List.mem_filter.mp h1).1 with e | e
        · rw [e]
        · exact hL.1 a e
      have g2 : a.1 ≤ b.1 := by
        rcases List.mem_cons.mp (List.mem_filter.mp h2).1 with e | e
        · rw [e]
        · exact hl.1 b e
      omega
    have h0 := h a.1
    rw [List.filter_cons_of_pos (by simp), List.filter_cons_of_pos (by simp [hab])] at h0
    have e0 : a = b := (List.cons.inj h0).1
    subst e0
    congr 1
    refine eq_of_filter hl.2 hL.2 fun r => ?_
    have := h r
    by_cases hr : a.1 = r
    · rw [List.filter_cons_of_pos (by simp [hr]), List.filter_cons_of_pos (by simp [hr])] at this
      exact (List.cons.inj this).2
    · rw [List.filter_cons_of_neg (by simp [hr]), List.filter_cons_of_neg (by simp [hr])] at this
      exact this

/-- The entries of row `r` that lie in column `c`. -/
theorem tcol_filter {A : Csc K} {r c : Nat} (hc : c < A.n) :
    (tcol A r).filter (fun e => decide (e.1 = c)) = rowsOf A r c (A.col c).length := by
  unfold tcol
  rw [List.filter_flatMap]
  have key : ∀ c', (rowsOf A r c' (A.col c').length).filter (fun e => decide (e.1 = c))
      = if c' = c then rowsOf A r c (A.col c).length else [] := by
    intro c'
    have hall : ∀ e ∈ rowsOf A r c' (A.col c').length, e.1 = c' := by
      intro e he
      simp only [rowsOf, List.mem_filterMap] at he
      obtain ⟨a, _, h⟩ := he
      by_cases h' : a.1 = r
      · simp [h'] at h; rw [← h]
      · simp [h'] at h
    by_cases h : c' = c
    · subst h
      rw [if_pos rfl, List.filter_eq_self]
      intro e he
      simp [hall e he]
    · rw [if_neg h, List.filter_eq_nil_iff]
      intro e he
      simp [hall e he, h]
  have h2 : ∀ n, (List.range n).flatMap (fun c' => (rowsOf A r c' (A.col c').length).filter (fun e => decide (e.1 = c)))
      = if c < n then rowsOf A r c (A.col c).length else [] := by
    intro n
    induction n with
    | zero => simp
    | succ n ih =>
      rw [List.range_succ, List.flatMap_append, ih]
      simp only [List.flatMap_cons, List.flatMap_nil, List.append_nil, key]
      by_cases h : c < n
      · rw [if_pos h, if_neg (by omega), if_pos (by omega), List.append_nil]
      · rw [if_neg h, List.nil_append]
        by_cases h' : n = c
        · rw [if_pos h', if_pos (by omega)]
        · rw [if_neg h', if_neg (by omega)]
  rw [h2, if_pos hc]

theorem filterMap_pair {α : Type} (l : List (Nat × α)) (r c : Nat) :
    (l.filterMap (fun e => if e.1 = r then some (c, e.2) else none)).filterMap
      (fun e => if e.1 = c then some (r, e.2) else none) = l.filter (fun e => decide (e.1 = r)) := by
  induction l with
  | nil => rfl
  | cons a l ih =>
    by_cases h : a.1 = r
    · subst h
      rw [List.filter_cons_of_pos (by simp)]
      simp [ih]
    · rw [List.filter_cons_of_neg (by simp [h])]
      simp [h, ih]

/-- Transposing twice sorts the columns. -/
theorem tcol_transpose_filter {A : Csc K} (hA : A.WF) {c r : Nat} (hc : c < A.n) :
    (tcol A.transpose c).filter (fun e => decide (e.1 = r)) = (A.col c).filter (fun e => decide (e.1 = r)) := by
  have hTn : A.transpose.n = A.m := rfl
  by_cases hr : r < A.m
  · rw [tcol_filter (A := A.transpose) (by omega)]
    have hcol : A.transpose.col r = tcol A r := by
      unfold Csc.transpose
      rw [Csc.ofCols_col _ _ _ hr]
    unfold rowsOf
    rw [List.take_length, hcol]
    have hf : (tcol A r).filterMap (fun e => if e.1 = c then some (r, e.2) else none)
        = ((tcol A r).filter (fun e => decide (e.1 = c))).filterMap (fun e => if e.1 = c then some (r, e.2) else none) := by
      rw [List.filterMap_filter]
      congr 1
      funext e
      by_cases h : e.1 = c <;> simp [h]
    rw [hf, tcol_filter hc]
    unfold rowsOf
    rw [List.take_length, filterMap_pair]
  · have h1 : (tcol A.transpose c).filter (fun e => decide (e.1 = r)) = [] := by
      rw [List.filter_eq_nil_iff]
      intro e he
      have := tcol_lt e he
      simp only [decide_eq_true_eq]
      omega
    have h2 : (A.col c).filter (fun e => decide (e.1 = r)) = [] := by
      rw [List.filter_eq_nil_iff]
      intro e he
      simp only [Csc.col, List.mem_map, List.mem_range] at he
      obtain ⟨q, hq, rfl⟩ := he
      have := hA.ir_lt (A.jc c + q) (lt_of_lt_of_le (by omega) (hA.le_nnz (c := c + 1) (by omega)))
      simp only [decide_eq_true_eq]
      omega
    rw [h1, h2]

/-- **C94**, the transposition test: for every well-formed matrix the check accepts the result of
`SparseMatrixTranspose` exactly if row indices do not decrease inside the columns of the matrix. The (correct,
C04) transpose of any other matrix is rejected. -/
theorem C94_transpose_test {S : Smat K} {A : Csc K} (hS : S.Is A) (hA : A.WF) :
    ∃ T r, allocTranspose S = .ok T ∧ validate_smat_smatT S T = .ok r ∧
      (r = none ↔ ∀ c, c < A.n → ∀ k, A.jc c ≤ k → k + 1 < A.jc (c + 1) → A.ir k ≤ A.ir (k + 1)) := by
  obtain ⟨r, e, q⟩ := smatT_spec hS A.transpose.toSmat_is hA A.transpose_wf
  refine ⟨_, r, allocTranspose_eq hS hA, e, ⟨fun hr => ?_, fun hs => q.mpr ⟨?_, rfl, rfl, ?_⟩⟩⟩
  · obtain ⟨r', e', q'⟩ := C94_transpose_sound hS A.transpose.toSmat_is hA A.transpose_wf
    rw [e] at e'
    cases e'
    exact (q' hr).2.2.2.2
  · exact (offs_tcol_total hA).symm
  · intro c hc
    refine eq_of_filter ?_ (tcol_sorted_le _ _) fun r => (tcol_transpose_filter hA hc).symm
    rw [List.pairwise_iff_getElem]
    intro i j hi hj hij
    rw [Csc.length_col] at hi hj
    simp only [Csc.col, List.getElem_map, List.getElem_range]
    induction j, hij using Nat.le_induction with
    | base => exact hs c hc _ (by omega) (by omega)
    | succ j hj' ih =>
      exact le_trans (ih (by omega) (by omega)) (hs c hc (A.jc c + j) (by omega) (by omega))

end Transpose

section Rhs

variable {K : Type} [Field K] [LinearOrder K] [Scalar K] [LawfulScalar K]

/-- **C94**, `check_updatekktmatrix_b` never returns true, whatever its arguments are. -/
theorem C94_rhs_never (b rx ry rz ds z : Buf K) (n m p : Int) :
    check_updatekktmatrix_b b rx ry rz ds z n m p ≠ .ok none := by
  unfold check_updatekktmatrix_b
  cases h1 : check_vector 0 n b 0 rx with
  | error e => simp [error_bind]
  | ok r1 =>
    rw [ok_bind]
    cases r1 with
    | true => simp [pure_eq_ok]
    | false =>
      simp only [Bool.false_eq_true, if_false]
      cases h2 : check_vector n (n + p) b 0 ry with
      | error e => simp [error_bind]
      | ok r2 =>
        rw [ok_bind]
        cases r2 with
        | false => simp [pure_eq_ok]
        | true =>
          simp only [Bool.not_true, Bool.false_eq_true, if_false]
          by_cases hm : m = 0
          · subst hm
            unfold whileM
            simp [pure_eq_ok, ok_bind, check_vector, forBrk, forBrkN]
          · unfold whileM
            simp only [pure_eq_ok, ok_bind, ne_eq, hm, not_false_eq_true, decide_true, if_true]
            cases h3 : rd rz m with
            | error e => simp [error_bind]
            | ok c =>
              rw [ok_bind]
              cases h4 : rd ds m with
              | error e => simp [error_bind]
              | ok d =>
                rw [ok_bind]
                cases h5 : rd z m with
                | error e => simp [error_bind]
                | ok e =>
                  have hw : wr (malloc m : Buf K) m (c - d / e) = .error .oob := by
                    unfold wr
                    by_cases hn : m < 0
                    · rw [if_pos hn]
                    · rw [if_neg hn, if_neg (by simp)]
                  rw [ok_bind, hw]
                  simp [error_bind]

/-- `check_vector` on arrays that agree. -/
theorem check_vector_self {a b : Buf K} {n : Nat} {f : Nat → K} (ha : Buf.Has a n f) (hb : Buf.Has b n f) :
    check_vector 0 n a 0 b = .ok true := by
  unfold check_vector
  obtain ⟨r, e, q⟩ := forBrk_spec (lo := 0) (hi := n) (Nat.zero_le _) (s := (0 : Int))
    (f := fun idx_a idx_b => (do
      let v ← rd a idx_a
      let w ← rd b idx_b
      pure (idx_b + 1, !Scalar.eqb v w)))
    (fun j idx => idx = (j : Int)) (fun _ _ => False) rfl (by
      rintro j idx _ hj rfl
      rw [ha.rd hj, ok_bind, hb.rd hj, ok_bind]
      refine Spec.ok ?_
      simp [(LawfulScalar.eqb_iff (f j) (f j)).mpr rfl])
  simp only [Nat.cast_zero] at e
  rw [e, ok_bind]
  cases hr : r.2 with
  | true =>
    rw [if_pos hr] at q
    obtain ⟨_, _, _, h⟩ := q
    exact h.elim
  | false => rfl

/-- **C94**: whatever the right-hand side `updatekktmatrix_b` has built (it is right, C08), the check says
that the part of `rx` is wrong. -/
theorem C94_rhs_rejects {b rx ry rz ds z : Buf K} {n m p : Nat} {frx fry frz fds fz : Nat → K}
    (hb : n + m + p ≤ b.length) (hrx : Buf.Has rx n frx) (hry : Buf.Has ry p fry) (hrz : Buf.Has rz m frz)
    (hds : Buf.Has ds m fds) (hz : Buf.Has z m fz) :
    ∃ b', updatekktmatrix_b b rx ry rz ds z n m p = .ok b' ∧
      check_updatekktmatrix_b b' rx ry rz ds z n m p
        = .ok (some "rx vector values and b vector values are not comparable") := by
  obtain ⟨b', e, _, h⟩ := updatekktmatrix_b_spec hb hrx hry hrz hds hz
  refine ⟨b', e, ?_⟩
  have h1 : Buf.Has b' n frx := by
    intro i hi
    rw [h i (by omega)]
    simp [rhsF, hi]
  unfold check_updatekktmatrix_b
  rw [check_vector_self h1 hrx, ok_bind]
  rfl

/-- A read from an array without gaps. -/
theorem rd_full {b : Buf K} (h : ∀ c ∈ b, c ≠ none) (i : Int) : (∃ v, rd b i = .ok v) ∨ rd b i = .error .oob := by
  unfold rd
  by_cases hi : i < 0
  · rw [if_pos hi]
    exact Or.inr rfl
  · rw [if_neg hi]
    cases hc : b[i.toNat]? with
    | none => exact Or.inr rfl
    | some c =>
      cases c with
      | none => exact absurd rfl (h none (List.mem_of_getElem? hc))
      | some v => exact Or.inl ⟨v, rfl⟩

/-- **C94**: a wrong right-hand side whose part for `ry` is right makes the check leave the bounds of an
array, of `rz`, `ds` or `z` if they are no longer than `m` and of its temporary array otherwise. -/
theorem C94_rhs_overrun {b rx ry rz ds z : Buf K} {n m p : Int} (hm : m ≠ 0)
    (h1 : check_vector 0 n b 0 rx = .ok false) (h2 : check_vector n (n + p) b 0 ry = .ok true)
    (h3 : ∀ c ∈ rz, c ≠ none) (h4 : ∀ c ∈ ds, c ≠ none) (h5 : ∀ c ∈ z, c ≠ none) :
    check_updatekktmatrix_b b rx ry rz ds z n m p = .error .oob := by
  unfold check_updatekktmatrix_b
  rw [h1, ok_bind]
  simp only [Bool.false_eq_true, if_false]
  rw [h2, ok_bind]
  simp only [Bool.not_true, Bool.false_eq_true, if_false]
  unfold whileM
  have hw : ∀ v : K, wr (malloc m : Buf K) m v = .error .oob := by
    intro v
    unfold wr
    by_cases hn : m < 0
    · rw [if_pos hn]
    · rw [if_neg hn, if_neg (by simp)]
  simp only [pure_eq_ok, ok_bind, ne_eq, hm, not_false_eq_true, decide_true, if_true]
  rcases rd_full h3 m with ⟨c, e3⟩ | e3
  · rcases rd_full h4 m with ⟨d, e4⟩ | e4
    · rcases rd_full h5 m with ⟨e, e5⟩ | e5
      · simp only [ok_bind, e3, e4, e5, hw, error_bind]
      · simp only [ok_bind, e3, e4, e5, error_bind]
    · simp only [ok_bind, e3, e4, error_bind]
  · simp only [e3, error_bind]

/-- `check_vector` accepts exactly if the values agree. -/
theorem check_vector_iff {a b : Buf K} {n : Nat} {f g : Nat → K} (ha : Buf.Has a n f) (hb : Buf.Has b n g) :
    ∃ r, check_vector 0 n a 0 b = .ok r ∧ (r = true ↔ ∀ i, i < n → f i = g i) := by
  unfold check_vector
  obtain ⟨r, e, q⟩ := forBrk_spec (lo := 0) (hi := n) (Nat.zero_le _) (s := (0 : Int))
    (f := fun idx_a idx_b => (do
      let v ← rd a idx_a
      let w ← rd b idx_b
      pure (idx_b + 1, !Scalar.eqb v w)))
    (fun j idx => idx = (j : Int) ∧ ∀ i, i < j → f i = g i) (fun j _ => f j ≠ g j)
    ⟨rfl, by intro i hi; omega⟩ (by
      rintro j idx _ hj ⟨rfl, h⟩
      rw [ha.rd hj, ok_bind, hb.rd hj, ok_bind]
      refine Spec.ok ?_
      by_cases hfg : f j = g j
      · simp only [(LawfulScalar.eqb_iff (f j) (g j)).mpr hfg, Bool.not_true, Bool.false_eq_true, if_false]
        refine ⟨by push_cast; rfl, ?_⟩
        intro i hi
        rcases Nat.lt_succ_iff_lt_or_eq.mp hi with h' | h'
        · exact h i h'
        · rw [h']; exact hfg
      · have : Scalar.eqb (f j) (g j) = false := by
          cases hb : Scalar.eqb (f j) (g j) with
          | false => rfl
          | true => exact absurd ((LawfulScalar.eqb_iff _ _).mp hb) hfg
        simpa [this] using hfg)
  simp only [Nat.cast_zero] at e
  rw [e, ok_bind]
  refine ⟨_, rfl, ?_⟩
  cases hr : r.2 with
  | true =>
    rw [if_pos hr] at q
    obtain ⟨j, _, hj, h⟩ := q
    simp only [Bool.not_true, Bool.false_eq_true, false_iff]
    exact fun h' => h (h' j hj)
  | false =>
    rw [hr] at q
    simp only [Bool.false_eq_true, if_false] at q
    simpa using q.2

/-- **C94**: a right-hand side of a problem with inequalities and without equalities that differs from `rx`
somewhere makes the check leave the bounds of an array. -/
theorem C94_rhs_wrong {b rx ry rz ds z : Buf K} {n m : Nat} {f frx : Nat → K} (hm : 0 < m)
    (hb : Buf.Has b n f) (hrx : Buf.Has rx n frx) (hne : ∃ i, i < n ∧ f i ≠ frx i)
    (h3 : ∀ c ∈ rz, c ≠ none) (h4 : ∀ c ∈ ds, c ≠ none) (h5 : ∀ c ∈ z, c ≠ none) :
    check_updatekktmatrix_b b rx ry rz ds z n m 0 = .error .oob := by
  obtain ⟨r, e, q⟩ := check_vector_iff hb hrx
  refine C94_rhs_overrun (by omega) ?_ ?_ h3 h4 h5
  · cases r with
    | false => exact e
    | true =>
      obtain ⟨i, hi, h⟩ := hne
      exact absurd (q.mp rfl i hi) h
  · simp [check_vector, forBrk, forBrkN, pure_eq_ok, ok_bind]

/-- **C94**, the test `func_formrho`: called with a count above the length of its arrays, `formrho` reads
behind them, whatever they hold and whatever the step lengths are. -/
theorem C94_formrho_overrun {s ds z dz : Buf K} {fs fds fz fdz : Nat → K} {L n : Nat} (hn : L < n)
    (h0 : s.length = L) (h1 : Buf.Has s L fs) (h2 : Buf.Has ds L fds) (h3 : Buf.Has z L fz) (h4 : Buf.Has dz L fdz)
    (ap ad : K) : formrho s ds z dz ap ad n = .error .oob := by
  unfold formrho forI
  rw [forN_error (e := .oob) _ L _ _ (by omega) ?_ ?_, error_bind]
  · intro j s' hj
    simp only [zero_add]
    rw [h1.rd hj, ok_bind, h2.rd hj, ok_bind, h3.rd hj, ok_bind, h4.rd hj, ok_bind]
    exact ⟨_, rfl⟩
  · intro s'
    have : rd s (0 + (L : Int)) = .error .oob := by
      unfold rd
      rw [if_neg (by omega)]
      have : s[(0 + (L : Int)).toNat]? = none := by
        rw [List.getElem?_eq_none_iff]
        omega
      rw [this]
    rw [this, error_bind]

end Rhs

section Examples

/-- The arrays of the test `func_formrho` (`tests/stdaln.cpp` 29-43). -/
example : formrho (K := ℚ) [some 1, some 2, some 3] [some (-1), some (-2), some (-3)] [some (-1), some (-2), some (-3)]
    [some 1, some 2, some 3] (-2) (-2) (4 : Nat) = .error .oob := by
  have has : ∀ a b c : ℚ, Buf.Has [some a, some b, some c] 3 (fun i => [a, b, c].getD i 0) := by
    intro a b c i hi
    interval_cases i <;> rfl
  exact C94_formrho_overrun (L := 3) (by omega) rfl (has _ _ _) (has _ _ _) (has _ _ _) (has _ _ _) _ _

/-- The transposition test accepts `G` of the demo problem. -/
example : ∃ T, allocTranspose demoG.toSmat = .ok T ∧ validate_smat_smatT demoG.toSmat T = .ok none := by
  obtain ⟨T, r, e1, e2, q⟩ := C94_transpose_test demoG.toSmat_is demoG_wf
  refine ⟨T, e1, ?_⟩
  rw [e2, q.mpr ?_]
  intro c hc k h1 h2
  simp only [demoG, Csc.lit] at hc h1 h2 ⊢
  interval_cases c <;> simp at h1 h2 <;> omega

/-- A column whose row indices are stored as `1, 0`. -/
def unsortedCol : Csc ℚ := .lit 2 1 [0, 2] [1, 0] [5, 7]

theorem unsortedCol_wf : unsortedCol.WF where
  jc0 := rfl
  mono := by intro c hc; simp only [unsortedCol, Csc.lit] at hc ⊢; interval_cases c; decide
  ir_lt := by
    intro k hk
    simp only [unsortedCol, Csc.lit, List.getD] at hk ⊢
    norm_num at hk
    interval_cases k <;> decide

/-- The right transpose of that column is rejected. -/
example : ∃ T r, allocTranspose unsortedCol.toSmat = .ok T ∧ validate_smat_smatT unsortedCol.toSmat T = .ok r ∧
    r ≠ none := by
  obtain ⟨T, r, e1, e2, q⟩ := C94_transpose_test unsortedCol.toSmat_is unsortedCol_wf
  refine ⟨T, r, e1, e2, fun h => ?_⟩
  have := q.mp h 0 (by decide) 0 (by decide) (by decide)
  exact absurd this (by decide)

/-- `validate_smat` accepts column pointers `1, 1`: no column holds the only entry. -/
example : validate_smat (K := ℚ) (fun _ => true)
    { m := 1, n := 1, nnz := 1, jc := [some 1, some 1], ir := [some 0], pr := [some 5] } = .ok none := by
  obtain ⟨r, e, q⟩ := C94_validate (K := ℚ) (finite := fun _ => true)
    (S := { m := 1, n := 1, nnz := 1, jc := [some 1, some 1], ir := [some 0], pr := [some 5] })
    (jc := fun _ => 1) (ir := fun _ => 0) (pr := fun _ => 5)
    (by intro i hi; simp at hi; interval_cases i <;> rfl) (by intro i hi; simp at hi; subst hi; rfl)
    (by intro i hi; simp at hi; subst hi; rfl)
  rw [e, q.mpr ?_]
  simp

/-- The comparison does not look at row indices or column pointers: a matrix with its entry in the wrong
row passes. -/
example : compare_dmat_C_smat (K := ℚ)
    { m := 2, n := 1, nnz := 1, jc := [some 0, some 1], ir := [some 1], pr := [some 5] } [some 5, some 0] 2 1
      = .ok true := by
  decide +kernel

/-- The right right-hand side for one variable and one inequality is rejected. -/
example : ∃ b', updatekktmatrix_b (K := ℚ) (malloc 2) [some 3] [] [some 4] [some 6] [some 2] (1 : Nat) (1 : Nat) (0 : Nat) = .ok b' ∧
    check_updatekktmatrix_b b' [some 3] [] [some 4] [some 6] [some 2] (1 : Nat) (1 : Nat) (0 : Nat)
      = .ok (some "rx vector values and b vector values are not comparable") := by
  have has : ∀ a : ℚ, Buf.Has [some a] 1 (fun _ => a) := by
    intro a i hi
    interval_cases i
    rfl
  exact C94_rhs_rejects (n := 1) (m := 1) (p := 0) (fry := fun _ => 0) (by simp) (has 3)
    (by intro i hi; omega) (has 4) (has 6) (has 2)

/-- A wrong one makes the check leave the bounds of `rz`. -/
example : check_updatekktmatrix_b (K := ℚ) [some 9, some 1] [some 3] [] [some 4] [some 6] [some 2]
    (1 : Nat) (1 : Nat) 0 = .error .oob :=
  C94_rhs_wrong (f := fun i => [9, 1].getD i 0) (frx := fun _ => 3) (by omega)
    (by intro i hi; interval_cases i; rfl) (by intro i hi; interval_cases i; rfl) ⟨0, by omega, by norm_num⟩
    (by simp) (by simp) (by simp)

/-- A longer `rz` makes it write behind `temp`. -/
example : check_updatekktmatrix_b (K := ℚ) [some 9, some 1] [some 3] [] [some 4, some 4] [some 6, some 6] [some 2, some 2]
    1 1 0 = .error .oob :=
  C94_rhs_overrun (by omega) (by decide +kernel) (by decide +kernel) (by simp) (by simp) (by simp)

end Examples

end Verif
