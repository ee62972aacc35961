import Verif.Lemmas.LdlSym
import Mathlib.Data.List.Perm.Subperm
import Mathlib.Data.List.Nodup

/-! # Numeric factorisation: refinement to a pure row-by-row factorisation -/

set_option linter.unusedSectionVars false

namespace Verif

/-- Entries of column `j` of the factor come before position `lpOf C n (j+1)`. -/
noncomputable def lpOf (C : Nat → List Nat) (n j : Nat) : Nat :=
  (Finset.range j).sum (fun i => (fillRows C n i).length)

theorem lpOf_succ (C : Nat → List Nat) (n j : Nat) :
    lpOf C n (j + 1) = lpOf C n j + (fillRows C n j).length := Finset.sum_range_succ _ _

theorem lpOf_mono (C : Nat → List Nat) (n : Nat) {i j : Nat} (h : i ≤ j) :
    lpOf C n i ≤ lpOf C n j := by
  induction j, h using Nat.le_induction with
  | base => exact le_rfl
  | succ j _ ih => rw [lpOf_succ]; omega

/-- An ordering of the entries of row `k` in which the columns they depend on come first. -/
structure Topo (C : Nat → List Nat) (k : Nat) (T : List Nat) : Prop where
  nodup : T.Nodup
  mem : ∀ j, j ∈ T ↔ Fill C k j
  order : T.Pairwise (fun a b => ¬ Fill C a b)

/-- Part of such an ordering, found so far. -/
structure PTopo (C : Nat → List Nat) (k : Nat) (T : List Nat) : Prop where
  nodup : T.Nodup
  mem : ∀ j, j ∈ T → Fill C k j
  order : T.Pairwise (fun a b => ¬ Fill C a b)
  closed : ∀ j l, j ∈ T → tree C k j = some l → l ∈ T

theorem PTopo.nil (C : Nat → List Nat) (k : Nat) : PTopo C k [] :=
  ⟨List.nodup_nil, by simp, List.Pairwise.nil, by simp⟩

theorem PTopo.length_le {k : Nat} {T : List Nat} (hn : T.Nodup)
    (h : ∀ j, j ∈ T → j < k) : T.length ≤ k := by
  have h2 : T ⊆ List.range k := fun j hj => List.mem_range.mpr (h j hj)
  have := (List.subperm_of_subset hn h2).length_le
  simpa using this

/-- Adding a path. -/
theorem PTopo.append {C : Nat → List Nat} {k : Nat} {L T : List Nat} (h : PTopo C k T)
    (hL : L.Pairwise (· < ·)) (hm : ∀ j ∈ L, Fill C k j) (hd : ∀ j ∈ L, j ∉ T)
    (hc : ∀ j l, j ∈ L → tree C k j = some l → l ∈ L ∨ l ∈ T) : PTopo C k (L ++ T) where
  nodup := by
    rw [List.nodup_append]
    exact ⟨hL.imp (fun h => h.ne), h.nodup, fun a ha b hb e => hd a ha (e ▸ hb)⟩
  mem := by
    intro j hj
    rcases List.mem_append.mp hj with hj | hj
    · exact hm j hj
    · exact h.mem j hj
  order := by
    rw [List.pairwise_append]
    refine ⟨hL.imp (fun h hf => absurd hf.lt (by omega)), h.order, ?_⟩
    intro a ha b hb hf
    exact hd a ha (Fill.up (k := k) (W := (· ∈ T)) h.closed hb (hm a ha).lt hf)
  closed := by
    intro j l hj ht
    rw [List.mem_append] at hj ⊢
    rcases hj with hj | hj
    · exact hc j l hj ht
    · exact Or.inr (h.closed j l hj ht)

theorem PTopo.topo {C : Nat → List Nat} {k : Nat} {T : List Nat} (h : PTopo C k T)
    (h0 : ∀ i, i ∈ C k → i < k → i ∈ T) : Topo C k T :=
  ⟨h.nodup, fun j => ⟨h.mem j, fun hj => Fill.least (W := (· ∈ T)) h0 h.closed hj⟩, h.order⟩

/-- The last cells of the pattern stack hold `T`. -/
structure PatHas (n : Nat) (b : Buf Int) (T : List Nat) : Prop where
  len : n ≤ b.length
  le : T.length ≤ n
  get : ∀ (q e : Nat), T[q]? = some e → b[n - T.length + q]? = some (some (e : Int))

/-- Flags while row `k` is processed. -/
structure FlagRep (k : Nat) (b : Buf Int) (W : Nat → Prop) : Prop where
  flag : ∀ j, j < k → ∃ v : Int, b[j]? = some (some v) ∧ (v = k ↔ W j) ∧ v ≤ k
  flagk : b[k]? = some (some (k : Int))

theorem numPath_spec {C : Nat → List Nat} {n k : Nat} (hk : k < n) {T : List Nat}
    (hT : PTopo C k T) {Parent Pattern Flag : Buf Int}
    (hPar : Buf.Has Parent n (fun j => enc (tree C n j))) (hPat : PatHas n Pattern T)
    (hF : n ≤ Flag.length) (hFlag : FlagRep k Flag (· ∈ T)) {i : Nat}
    (hi : i = k ∨ Fill C k i) :
    Spec (numPath n Parent k i Pattern Flag) (fun s => ∃ L : List Nat,
      s.2.1 = (L.length : Int) ∧ PTopo C k (L ++ T) ∧ (i = k ∨ i ∈ L ++ T) ∧
      s.2.2.1.length = Pattern.length ∧ s.2.2.2.length = Flag.length ∧
      PatHas n s.2.2.1 T ∧ (∀ (q e : Nat), L[q]? = some e → s.2.2.1[q]? = some (some (e : Int))) ∧
      FlagRep k s.2.2.2 (· ∈ L ++ T)) := by
  unfold numPath
  have hik : i ≤ k := by
    rcases hi with rfl | hi
    · exact le_rfl
    · exact hi.lt.le
  refine whileM_spec
    (fun s : Int × Int × Buf Int × Buf Int => ∃ (pos : Nat) (L : List Nat),
      s.1 = (pos : Int) ∧ s.2.1 = (L.length : Int) ∧ L.Pairwise (· < ·) ∧
      (∀ j ∈ L, Fill C k j) ∧ (∀ j ∈ L, j ∉ T) ∧ (∀ j ∈ L, j < pos) ∧
      (∀ j l, j ∈ L → tree C k j = some l → l ∈ L ∨ l ∈ T ∨ l = pos) ∧
      (pos = k ∨ Fill C k pos) ∧ (i ∈ L ∨ pos = i) ∧
      s.2.2.1.length = Pattern.length ∧ s.2.2.2.length = Flag.length ∧
      PatHas n s.2.2.1 T ∧ (∀ (q e : Nat), L[q]? = some e → s.2.2.1[q]? = some (some (e : Int))) ∧
      FlagRep k s.2.2.2 (fun j => j ∈ L ∨ j ∈ T))
    (fun s => k - s.1.toNat) _
    ⟨i, [], rfl, rfl, List.Pairwise.nil, by simp, by simp, by simp, by simp, hi, Or.inr rfl, rfl,
      rfl, hPat, by simp, by simpa using hFlag⟩ (by simp only; omega) ?_
  rintro ⟨x, len, Pat, Fl⟩ ⟨pos, L, hx, hlen, hL1, hL2, hL3, hL4, hL5, hpos, hiL, hPl, hFl, hP, hPL,
    hFR⟩
  simp only at hx hlen hPl hFl hP hPL hFR
  subst hx hlen
  have finish : (pos ∈ L ∨ pos ∈ T ∨ pos = k) → ∃ L' : List Nat,
      (L.length : Int) = (L'.length : Int) ∧ PTopo C k (L' ++ T) ∧ (i = k ∨ i ∈ L' ++ T) ∧
      Pat.length = Pattern.length ∧ Fl.length = Flag.length ∧
      PatHas n Pat T ∧ (∀ (q e : Nat), L'[q]? = some e → Pat[q]? = some (some (e : Int))) ∧
      FlagRep k Fl (· ∈ L' ++ T) := by
    intro hp
    refine ⟨L, rfl, hT.append hL1 hL2 hL3 ?_, ?_, hPl, hFl, hP, hPL, ?_⟩
    · intro j l hj ht
      rcases hL5 j l hj ht with h | h | rfl
      · exact Or.inl h
      · exact Or.inr h
      · rcases hp with h | h | h
        · exact Or.inl h
        · exact Or.inr h
        · have := (tree_spec ht).2.1
          omega
    · rcases hiL with h | rfl
      · exact Or.inr (List.mem_append_left _ h)
      · rcases hp with h | h | h
        · exact Or.inr (List.mem_append_left _ h)
        · exact Or.inr (List.mem_append_right _ h)
        · exact Or.inl h
    · refine ⟨fun j hj => ?_, hFR.flagk⟩
      obtain ⟨v, h1, h2, h3⟩ := hFR.flag j hj
      exact ⟨v, h1, by rw [h2, List.mem_append], h3⟩
  rcases hpos with rfl | hpos
  · simp only
    rw [rd_ok hFR.flagk, ok_bind]
    refine Spec.ok ?_
    simp only [ne_eq, not_true_eq_false, decide_false, Bool.false_eq_true, if_false]
    exact finish (Or.inr (Or.inr rfl))
  · have hpk := hpos.lt
    obtain ⟨v, hv1, hv2, hv3⟩ := hFR.flag pos hpk
    simp only
    rw [rd_ok hv1, ok_bind]
    refine Spec.ok ?_
    by_cases hw : pos ∈ L ∨ pos ∈ T
    · have : v = k := hv2.mpr hw
      simp only [this, ne_eq, not_true_eq_false, decide_false, Bool.false_eq_true, if_false]
      refine finish ?_
      rcases hw with h | h
      · exact Or.inl h
      · exact Or.inr (Or.inl h)
    · have hvk : v ≠ k := fun e => hw (hv2.mp e)
      simp only [hvk, ne_eq, not_false_eq_true, decide_true, if_true]
      have hnL : pos ∉ L := fun h => hw (Or.inl h)
      have hnT : pos ∉ T := fun h => hw (Or.inr h)
      obtain ⟨p, hp1, hp2, hp3, hp4⟩ := hpos.parent hk
      -- room in the pattern array
      have hcap : L.length + 1 + T.length ≤ k := by
        have := PTopo.length_le (k := k) (T := (L ++ [pos]) ++ T) (by
          rw [List.nodup_append]
          refine ⟨?_, hT.nodup, ?_⟩
          · rw [List.nodup_append]
            refine ⟨hL1.imp (fun h => h.ne), by simp, ?_⟩
            rintro a ha b hb rfl
            rw [List.mem_singleton] at hb
            exact hnL (hb ▸ ha)
          · rintro a ha b hb rfl
            rcases List.mem_append.mp ha with ha | ha
            · exact hL3 a ha hb
            · rw [List.mem_singleton] at ha
              exact hnT (ha ▸ hb)) (by
          intro j hj
          simp only [List.mem_append, List.mem_singleton] at hj
          rcases hj with (hj | rfl) | hj
          · exact (hL2 j hj).lt
          · exact hpk
          · exact (hT.mem j hj).lt)
        simp only [List.length_append, List.length_singleton] at this
        exact this
      have hlenP := hP.len
      have hpe : Verif.rd Parent (pos : Int) = .ok (enc (tree C n pos)) := hPar.rd (by omega)
      rw [hp1] at hpe
      rw [wr_ok (by omega), ok_bind, wr_ok (by omega), ok_bind, hpe, ok_bind]
      refine Spec.ok ⟨⟨p, L ++ [pos], rfl, by simp, ?_, ?_, ?_, ?_, ?_, hp4, ?_, by simp [hPl],
        by simp [hFl], ?_, ?_, ?_⟩, ?_⟩
      · rw [List.pairwise_append]
        refine ⟨hL1, by simp, ?_⟩
        intro a ha b hb
        rw [List.mem_singleton] at hb
        rw [hb]
        exact hL4 a ha
      · intro j hj
        rcases List.mem_append.mp hj with hj | hj
        · exact hL2 j hj
        · rw [List.mem_singleton] at hj
          exact hj ▸ hpos
      · intro j hj
        rcases List.mem_append.mp hj with hj | hj
        · exact hL3 j hj
        · rw [List.mem_singleton] at hj
          exact hj ▸ hnT
      · intro j hj
        rcases List.mem_append.mp hj with hj | hj
        · exact lt_trans (hL4 j hj) hp2
        · rw [List.mem_singleton] at hj
          exact hj ▸ hp2
      · intro j l hj ht
        rcases List.mem_append.mp hj with hj | hj
        · rcases hL5 j l hj ht with h | h | rfl
          · exact Or.inl (List.mem_append_left _ h)
          · exact Or.inr (Or.inl h)
          · exact Or.inl (List.mem_append_right _ (by simp))
        · rw [List.mem_singleton] at hj
          subst hj
          have := tree_mono (k' := n) (by omega) ht
          rw [hp1] at this
          cases this
          exact Or.inr (Or.inr rfl)
      · rcases hiL with h | h
        · exact Or.inl (List.mem_append_left _ h)
        · exact Or.inl (List.mem_append_right _ (by simp [h]))
      · refine ⟨by simpa using hP.len, hP.le, ?_⟩
        intro q e hq
        have hqT : q < T.length := (List.getElem?_eq_some_iff.mp hq).1
        have := hP.le
        simp only
        rw [List.getElem?_set, if_neg (by omega)]
        exact hP.get q e hq
      · intro q e hq
        simp only
        rw [List.getElem?_set]
        by_cases hql : L.length = q
        · subst hql
          rw [List.getElem?_append_right le_rfl] at hq
          simp only [Nat.sub_self, List.getElem?_cons_zero, Option.some.injEq] at hq
          rw [if_pos rfl, if_pos (by omega), hq]
        · rw [if_neg hql]
          have := (List.getElem?_eq_some_iff.mp hq).1
          simp only [List.length_append, List.length_singleton] at this
          rw [List.getElem?_append_left (by omega)] at hq
          exact hPL q e hq
      · refine ⟨fun j hj => ?_, ?_⟩
        · simp only
          rw [List.getElem?_set]
          by_cases hjp : pos = j
          · subst hjp
            rw [if_pos rfl, if_pos (by omega)]
            exact ⟨k, rfl, by simp, le_rfl⟩
          · rw [if_neg hjp]
            obtain ⟨u, hu1, hu2, hu3⟩ := hFR.flag j hj
            refine ⟨u, hu1, ?_, hu3⟩
            rw [hu2, List.mem_append, List.mem_singleton]
            simp only [show ¬ j = pos from fun e => hjp e.symm, or_false]
        · simp only
          rw [List.getElem?_set, if_neg (by omega)]
          exact hFR.flagk
      · simp only [enc, Int.toNat_natCast]
        omega

theorem numMove_spec {n : Nat} {L T : List Nat} {Pattern : Buf Int} (hP : PatHas n Pattern T)
    (hL : ∀ (q e : Nat), L[q]? = some e → Pattern[q]? = some (some (e : Int)))
    (hcap : L.length + T.length ≤ n) :
    Spec (numMove n L.length ((n - T.length : Nat) : Int) Pattern) (fun r =>
      r.1 = ((n - (L ++ T).length : Nat) : Int) ∧ r.2.length = Pattern.length ∧
      PatHas n r.2 (L ++ T)) := by
  unfold numMove
  refine Spec.bind (whileM_spec
    (fun s : Int × Int × Buf Int => ∃ r : Nat, r ≤ L.length ∧ s.1 = (r : Int) ∧
      s.2.1 = ((n - (L.drop r ++ T).length : Nat) : Int) ∧ s.2.2.length = Pattern.length ∧
      PatHas n s.2.2 (L.drop r ++ T) ∧
      (∀ (q e : Nat), q < r → L[q]? = some e → s.2.2[q]? = some (some (e : Int))))
    (fun s => s.1.toNat)
    (fun s => s.2.1 = ((n - (L ++ T).length : Nat) : Int) ∧ s.2.2.length = Pattern.length ∧
      PatHas n s.2.2 (L ++ T))
    ⟨L.length, le_rfl, rfl, by simp, rfl, by simpa using hP, fun q e _ h => hL q e h⟩
    (by simp only; omega) ?_) ?_
  · rintro ⟨x, top, Pat⟩ ⟨r, hr, hx, htop, hl, hp, hq⟩
    simp only at hx htop hl hp hq
    subst hx htop
    refine Spec.ok ?_
    rcases Nat.eq_zero_or_pos r with rfl | hr0
    · simp only [Nat.cast_zero, lt_self_iff_false, decide_false, Bool.false_eq_true, if_false]
      rw [List.drop_zero] at hp
      exact ⟨by simp, hl, hp⟩
    · have hdec : decide ((0 : Int) < (r : Int)) = true := by simp; omega
      simp only [hdec, if_true]
      have hr1 : r - 1 < L.length := by omega
      have e1 : ((r : Int) - 1) = ((r - 1 : Nat) : Int) := by omega
      have hdl : (L.drop r ++ T).length = L.length - r + T.length := by simp
      have hdl' : (L.drop (r - 1) ++ T).length = L.length - r + T.length + 1 := by simp; omega
      have e2 : (((n - (L.drop r ++ T).length : Nat) : Int) - 1)
          = ((n - (L.drop (r - 1) ++ T).length : Nat) : Int) := by
        rw [hdl, hdl']; omega
      have hplen := hp.len
      rw [e1, rd_ok (hq (r - 1) L[r - 1] (by omega) (List.getElem?_eq_getElem hr1)), ok_bind, e2,
        wr_ok (by rw [hdl']; omega), ok_bind]
      have hdrop : L.drop (r - 1) = L[r - 1] :: L.drop r := by
        rw [List.drop_eq_getElem_cons hr1, show r - 1 + 1 = r by omega]
      refine Spec.ok ⟨⟨r - 1, by omega, rfl, rfl, by simp [hl], ?_, ?_⟩, ?_⟩
      · refine ⟨by simpa using hplen, by rw [hdl']; omega, ?_⟩
        intro q e hqe
        rw [List.getElem?_set]
        rcases Nat.eq_zero_or_pos q with rfl | hq0
        · rw [Nat.add_zero, if_pos rfl, if_pos (by rw [hdl']; omega)]
          rw [hdrop] at hqe
          simp only [List.cons_append, List.getElem?_cons_zero, Option.some.injEq] at hqe
          rw [hqe]
        · rw [if_neg (by omega)]
          obtain ⟨q', rfl⟩ : ∃ q', q = q' + 1 := ⟨q - 1, by omega⟩
          rw [hdrop] at hqe
          simp only [List.cons_append, List.getElem?_cons_succ] at hqe
          have := hp.get q' e hqe
          have e3 : n - (List.drop (r - 1) L ++ T).length + (q' + 1)
              = n - (List.drop r L ++ T).length + q' := by
            rw [hdl, hdl']; omega
          rw [e3]
          exact this
      · intro q e hq' hqe
        rw [List.getElem?_set, if_neg (by rw [hdl']; omega)]
        exact hq q e (by omega) hqe
      · simp only
        omega
  · rintro ⟨x, top, Pat⟩ ⟨h1, h2, h3⟩
    exact Spec.ok ⟨h1, h2, h3⟩

section

variable {K : Type} [Zero K] [One K] [Add K] [Sub K] [Mul K] [Div K] [Neg K] [Scalar K]

/-- Pure state of the factorisation: columns of `L` (below the diagonal), `D` and the work
vector. -/
structure FSt (K : Type) where
  col : Nat → List (Nat × K)
  D : Nat → K
  Y : Nat → K

/-- Subtract `yi` times a column from the work vector. -/
def subCol (l : List (Nat × K)) (yi : K) (Y : Nat → K) : Nat → K :=
  l.foldl (fun Y e => Function.update Y e.1 (Y e.1 - e.2 * yi)) Y

theorem subCol_append (l : List (Nat × K)) (e : Nat × K) (yi : K) (Y : Nat → K) :
    subCol (l ++ [e]) yi Y
      = Function.update (subCol l yi Y) e.1 (subCol l yi Y e.1 - e.2 * yi) := by
  simp [subCol, List.foldl_append]

/-- Process entry `i` of row `k`. -/
def nodeF (k : Nat) (s : FSt K) (i : Nat) : FSt K :=
  { col := Function.update s.col i (s.col i ++ [(k, s.Y i / s.D i)])
    D := Function.update s.D k (s.D k - s.Y i / s.D i * s.Y i)
    Y := subCol (s.col i) (s.Y i) (Function.update s.Y i 0) }

/-- Add the upper part of a column of the matrix to the work vector. -/
def addCol (k : Nat) (l : List (Nat × K)) (Y : Nat → K) : Nat → K :=
  l.foldl (fun Y e => if e.1 ≤ k then Function.update Y e.1 (Y e.1 + e.2) else Y) Y

theorem addCol_append (k : Nat) (l : List (Nat × K)) (e : Nat × K) (Y : Nat → K) :
    addCol k (l ++ [e]) Y = if e.1 ≤ k then
      Function.update (addCol k l Y) e.1 (addCol k l Y e.1 + e.2) else addCol k l Y := by
  simp [addCol, List.foldl_append]

/-- State before the entries of row `k` are processed. -/
def rowInit (k : Nat) (l : List (Nat × K)) (s : FSt K) : FSt K :=
  { s with
    D := Function.update s.D k (addCol k l (Function.update s.Y k 0) k)
    Y := Function.update (addCol k l (Function.update s.Y k 0)) k 0 }

/-- Row `k`, with its entries processed in the order `T`. -/
def rowF (k : Nat) (l : List (Nat × K)) (T : List Nat) (s : FSt K) : FSt K :=
  { T.foldl (nodeF k) (rowInit k l s) with
    D := Function.update (T.foldl (nodeF k) (rowInit k l s)).D k
      (regPivot ((T.foldl (nodeF k) (rowInit k l s)).D k)) }

/-- Factorisation of the first `k` rows, each processed in some admissible order. -/
inductive Rows (c : Nat → List (Nat × K)) : Nat → FSt K → Prop
  | zero (s : FSt K) (h : ∀ j, s.col j = []) : Rows c 0 s
  | succ (k : Nat) (s : FSt K) (T : List Nat) : Rows c k s →
      Topo (fun i => (c i).map Prod.fst) k T → Rows c (k + 1) (rowF k (c k) T s)

/-- Sizes of the arrays. -/
def NumSt.lens (st : NumSt K) : List Nat :=
  [st.Lnz.length, st.Li.length, st.Lx.length, st.D.length, st.Y.length, st.Pattern.length,
    st.Flag.length]

open Classical in
/-- The arrays represent the pure state `s`; cells `0 … k'-1` of the vectors are in use, row `k`
has been entered into the columns `done`. -/
structure NumRep (C : Nat → List Nat) (n k k' : Nat) (done : List Nat) (s : FSt K)
    (st : NumSt K) : Prop where
  lnz : Buf.Has st.Lnz k' (fun j => ((s.col j).length : Int))
  D : Buf.Has st.D k' s.D
  Y : Buf.Has st.Y k' s.Y
  cells : ∀ j, j < n → ∀ (q : Nat) (e : Nat × K), (s.col j)[q]? = some e →
    st.Li[lpOf C n j + q]? = some (some (e.1 : Int)) ∧
    st.Lx[lpOf C n j + q]? = some (some e.2)
  rows : ∀ j, (s.col j).map Prod.fst = fillRows C k j ++ if j ∈ done then [k] else []
  fill : ∀ j, j ∈ done → Fill C k j
  nn : n ≤ st.Lnz.length
  nD : n ≤ st.D.length
  nY : n ≤ st.Y.length
  nP : n ≤ st.Pattern.length
  nF : n ≤ st.Flag.length
  nLi : lpOf C n n ≤ st.Li.length
  nLx : lpOf C n n ≤ st.Lx.length

theorem numNode_spec {C : Nat → List Nat} {n k : Nat} (hk : k < n) {done : List Nat} {s : FSt K}
    {st : NumSt K} (h : NumRep C n k (k + 1) done s st) {Lp : Buf Int}
    (hLp : Buf.Has Lp (n + 1) (fun j => (lpOf C n j : Int))) {top i : Nat}
    (hpat : st.Pattern[top]? = some (some (i : Int))) (hi : Fill C k i) (hid : i ∉ done) :
    Spec (numNode Lp k top st) (fun st' => NumRep C n k (k + 1) (done ++ [i]) (nodeF k s i) st' ∧
      st'.lens = st.lens ∧ st'.Pattern = st.Pattern ∧ st'.Flag = st.Flag) := by
  unfold numNode
  have hik := hi.lt
  have hlnz : (s.col i).length = (fillRows C k i).length := by
    have := congrArg List.length (h.rows i)
    rw [if_neg hid, List.append_nil] at this
    simpa using this
  have hlt : (fillRows C k i).length < (fillRows C n i).length := by
    have := fillRows_mono (C := C) (k := k + 1) (k' := n) (j := i) hk
    rw [fillRows_succ_of hi] at this
    simp only [List.length_append, List.length_singleton] at this
    omega
  have hrow : ∀ (q : Nat) (e : Nat × K), (s.col i)[q]? = some e → e.1 < k := by
    intro q e hq
    have : e.1 ∈ (s.col i).map Prod.fst := List.mem_map_of_mem (List.mem_of_getElem? hq)
    rw [h.rows i, if_neg hid, List.append_nil] at this
    exact (mem_fillRows.mp this).1
  have hlp1 := lpOf_succ C n i
  have hlp2 := lpOf_mono C n (i := i + 1) (j := n) (by omega)
  have hnY := h.nY
  have hnD := h.nD
  have hnn := h.nn
  have hnLi := h.nLi
  have hnLx := h.nLx
  rw [rd_ok hpat, ok_bind, h.Y.rd (by omega), ok_bind, wr_ok (by omega), ok_bind,
    hLp.rd (by omega), ok_bind, h.lnz.rd (by omega), ok_bind]
  have e1 : ((lpOf C n i : Nat) : Int) + ((s.col i).length : Int)
      = ((lpOf C n i + (s.col i).length : Nat) : Int) := by omega
  simp only [e1]
  refine Spec.bind (forI_spec (lo := lpOf C n i) (hi := lpOf C n i + (s.col i).length) (by omega)
    (fun p (Y : Buf K) => Y.length = st.Y.length ∧ Buf.Has Y (k + 1)
      (subCol ((s.col i).take (p - lpOf C n i)) (s.Y i) (Function.update s.Y i 0)))
    ⟨by simp, ?_⟩ ?_) ?_
  · simp only [Nat.sub_self, List.take_zero, subCol, List.foldl_nil]
    exact h.Y.set (by omega) 0
  · rintro p Y hp1 hp2 ⟨hY1, hY2⟩
    obtain ⟨q, rfl⟩ : ∃ q, p = lpOf C n i + q := ⟨p - lpOf C n i, by omega⟩
    have hq : q < (s.col i).length := by omega
    have hget : (s.col i)[q]? = some (s.col i)[q] := List.getElem?_eq_getElem hq
    obtain ⟨hc1, hc2⟩ := h.cells i (by omega) q _ hget
    have hr := hrow q _ hget
    rw [rd_ok hc1, ok_bind, hY2.rd (by omega), ok_bind, rd_ok hc2, ok_bind, wr_ok (by omega)]
    refine Spec.ok ⟨by simp [hY1], ?_⟩
    have e2 : lpOf C n i + q - lpOf C n i = q := by omega
    have e3 : lpOf C n i + q + 1 - lpOf C n i = q + 1 := by omega
    rw [e3, List.take_add_one, hget, Option.toList_some, subCol_append]
    rw [e2] at hY2 ⊢
    exact hY2.set (by omega) _
  · rintro Y ⟨hY1, hY2⟩
    have e2 : lpOf C n i + (s.col i).length - lpOf C n i = (s.col i).length := by omega
    rw [e2, List.take_length] at hY2
    have e3 : (if ((lpOf C n i : Nat) : Int) < ((lpOf C n i + (s.col i).length : Nat) : Int)
        then ((lpOf C n i + (s.col i).length : Nat) : Int) else ((lpOf C n i : Nat) : Int))
        = ((lpOf C n i + (s.col i).length : Nat) : Int) := by
      split <;> omega
    rw [h.D.rd (by omega), ok_bind, h.D.rd (by omega), ok_bind, wr_ok (by omega), ok_bind, e3,
      wr_ok (by omega), ok_bind, wr_ok (by omega), ok_bind, wr_ok (by omega), ok_bind]
    refine Spec.ok ⟨⟨?_, ?_, ?_, ?_, ?_, ?_, by simpa using hnn, by simpa using hnD,
      by rw [hY1]; exact hnY, h.nP, h.nF, by simpa using hnLi, by simpa using hnLx⟩, ?_, rfl, rfl⟩
    · refine (h.lnz.set (by omega) _).congr ?_
      intro j hj
      by_cases hji : j = i
      · subst hji
        simp [nodeF]
      · rw [Function.update_of_ne hji]
        simp [nodeF, Function.update_of_ne hji]
    · exact h.D.set (by omega) _
    · exact hY2
    · intro j hj q e hq
      simp only [List.getElem?_set]
      by_cases hji : j = i
      · subst hji
        simp only [nodeF, Function.update_self] at hq
        by_cases hql : q < (s.col j).length
        · rw [List.getElem?_append_left hql] at hq
          rw [if_neg (by omega), if_neg (by omega)]
          exact h.cells j hj q e hq
        · have := (List.getElem?_eq_some_iff.mp hq).1
          simp only [List.length_append, List.length_singleton] at this
          have hqe : q = (s.col j).length := by omega
          subst hqe
          rw [List.getElem?_append_right le_rfl] at hq
          simp only [Nat.sub_self, List.getElem?_cons_zero, Option.some.injEq] at hq
          subst hq
          rw [if_pos rfl, if_pos (by omega), if_pos rfl, if_pos (by omega)]
          exact ⟨rfl, rfl⟩
      · simp only [nodeF, Function.update_of_ne hji] at hq
        have hqj : q < (s.col j).length := (List.getElem?_eq_some_iff.mp hq).1
        -- ranges of different columns are disjoint
        have hjl : (s.col j).length ≤ (fillRows C n j).length := by
          have h1 := congrArg List.length (h.rows j)
          rw [List.length_map, List.length_append] at h1
          have h2 := fillRows_mono (C := C) (k := k + 1) (k' := n) (j := j) hk
          by_cases hf : Fill C k j
          · rw [fillRows_succ_of hf] at h2
            simp only [List.length_append, List.length_singleton] at h2
            split at h1 <;> simp at h1 <;> omega
          · rw [fillRows_succ_not hf] at h2
            rw [if_neg (fun hd => hf (h.fill j hd))] at h1
            simp at h1
            omega
        have hne : ¬ lpOf C n i + (s.col i).length = lpOf C n j + q := by
          have hj1 := lpOf_succ C n j
          rcases Nat.lt_or_ge i j with hij | hij
          · have := lpOf_mono C n (i := i + 1) (j := j) hij
            omega
          · have := lpOf_mono C n (i := j + 1) (j := i) (by omega)
            omega
        rw [if_neg hne, if_neg hne]
        exact h.cells j hj q e hq
    · intro j
      by_cases hji : j = i
      · subst hji
        simp only [nodeF, Function.update_self]
        rw [List.map_append, h.rows j, if_neg hid, if_pos (by simp)]
        simp
      · simp only [nodeF, Function.update_of_ne hji]
        rw [h.rows j]
        congr 1
        simp [hji]
    · intro j hj
      rcases List.mem_append.mp hj with hj | hj
      · exact h.fill j hj
      · rw [List.mem_singleton] at hj
        exact hj ▸ hi
    · simp [NumSt.lens, hY1]

theorem rowInit_col (k : Nat) (l : List (Nat × K)) (s : FSt K) : (rowInit k l s).col = s.col := rfl

theorem numRow_spec {n : Nat} {A : Csc K} {p q : Nat → Nat} {Ap Ai : Buf Int}
    {P Pinv : Option (Buf Int)} (h : LdlArgs n A p q Ap Ai P) {Ax : Buf K}
    (hAx : Buf.Has Ax A.nnz A.pr) (hQ : PermArg n Pinv q) {Lp Parent : Buf Int}
    (hLp : Buf.Has Lp (n + 1) (fun j => (lpOf (permPat A p q) n j : Int)))
    (hPar : Buf.Has Parent n (fun j => enc (tree (permPat A p q) n j))) {k : Nat} (hk : k < n)
    {s : FSt K} {st : NumSt K} (hst : NumRep (permPat A p q) n k k [] s st)
    (hfl : ∀ j, j < k → ∃ v : Int, st.Flag[j]? = some (some v) ∧ v < k) :
    Spec (numRow n Ap Ai Ax Lp Parent P Pinv k st) (fun st' => st'.lens = st.lens ∧
      (∀ j, j < k + 1 → ∃ v : Int, st'.Flag[j]? = some (some v) ∧ v < (k + 1 : Nat)) ∧
      ∃ T, Topo (permPat A p q) k T ∧
        NumRep (permPat A p q) n (k + 1) (k + 1) [] (rowF k (permCol A p q k) T s) st') := by
  set C := permPat A p q with hC
  unfold numRow
  have hnn := hst.nn
  have hnD := hst.nD
  have hnY := hst.nY
  have hnP := hst.nP
  have hnF := hst.nF
  have hpk := h.perm.p_lt k hk
  have e : ((p k : Nat) : Int) + 1 = ((p k + 1 : Nat) : Int) := by omega
  rw [wr_ok (by omega), ok_bind, wr_ok (by omega), ok_bind, wr_ok (by omega), ok_bind,
    h.p.at hk, ok_bind, e, h.ap.rd (by omega), ok_bind, h.ap.rd (by omega), ok_bind]
  have hmono := h.wf.mono (p k) (by rw [h.an]; exact hpk)
  have hclen : (permCol A p q k).length = A.jc (p k + 1) - A.jc (p k) := length_permCol A p q k
  set Y0 : Nat → K := Function.update s.Y k 0 with hY0
  refine Spec.bind (forI_spec (lo := A.jc (p k)) (hi := A.jc (p k + 1)) hmono
    (fun t (r : Int × Buf K × Buf Int × Buf Int) => ∃ T : List Nat,
      r.1 = ((n - T.length : Nat) : Int) ∧ PTopo C k T ∧
      (∀ i ∈ (C k).take (t - A.jc (p k)), i < k → i ∈ T) ∧
      r.2.1.length = st.Y.length ∧
      Buf.Has r.2.1 (k + 1) (addCol k ((permCol A p q k).take (t - A.jc (p k))) Y0) ∧
      r.2.2.1.length = st.Pattern.length ∧ PatHas n r.2.2.1 T ∧
      r.2.2.2.length = st.Flag.length ∧ FlagRep k r.2.2.2 (· ∈ T)) ?_ ?_) ?_
  · refine ⟨[], by simp, PTopo.nil C k, by simp, by simp, ?_, rfl, ⟨hnP, by simp, by simp⟩,
      by simp, ?_, ?_⟩
    · simp only [Nat.sub_self, List.take_zero, addCol, List.foldl_nil]
      exact hst.Y.push (by omega) _ (by rw [hY0, Function.update_self])
        (fun i hi => by rw [hY0, Function.update_of_ne (by omega)])
    · intro j hj
      obtain ⟨v, hv1, hv2⟩ := hfl j hj
      simp only
      rw [List.getElem?_set, if_neg (by omega)]
      refine ⟨v, hv1, ?_, by omega⟩
      simp only [List.not_mem_nil, iff_false]
      omega
    · simp [show k < st.Flag.length by omega]
  · rintro t ⟨top, Y, Pat, Fl⟩ ht1 ht2 ⟨T, h1, h2, h3, h4, h5, h6, h7, h8, h9⟩
    simp only at h1 h4 h5 h6 h7 h8 h9
    subst h1
    have htn : t < A.nnz := lt_of_lt_of_le ht2 (h.wf.le_nnz (by rw [h.an]; omega))
    have hirt := h.wf.ir_lt t htn
    rw [h.am] at hirt
    have hget := permCol_get A p q (k := k) (t := t - A.jc (p k)) (by omega)
    rw [show A.jc (p k) + (t - A.jc (p k)) = t by omega] at hget
    have hgetC : (C k)[t - A.jc (p k)]? = some (q (A.ir t)) := by
      rw [hC, permPat, List.getElem?_map, hget]; rfl
    have et : t + 1 - A.jc (p k) = t - A.jc (p k) + 1 := by omega
    have htake : (C k).take (t + 1 - A.jc (p k))
        = (C k).take (t - A.jc (p k)) ++ [q (A.ir t)] := by
      rw [et, List.take_add_one, hgetC]; rfl
    have htake2 : (permCol A p q k).take (t + 1 - A.jc (p k))
        = (permCol A p q k).take (t - A.jc (p k)) ++ [(q (A.ir t), A.pr t)] := by
      rw [et, List.take_add_one, hget]; rfl
    rw [h.ai.rd htn, ok_bind, hQ.at hirt, ok_bind]
    refine Spec.ite ?_ ?_
    · intro hle
      have hle' : q (A.ir t) ≤ k := by omega
      have hi : q (A.ir t) = k ∨ Fill C k (q (A.ir t)) := by
        rcases Nat.lt_or_ge (q (A.ir t)) k with hlt | hge
        · exact Or.inr (Fill.base (List.mem_of_getElem? hgetC) hlt)
        · exact Or.inl (by omega)
      have hYl : q (A.ir t) < Y.length := by omega
      rw [h5.rd (by omega), ok_bind, hAx.rd htn, ok_bind, wr_ok hYl, ok_bind]
      refine Spec.bind (numPath_spec hk h2 hPar h7 (by omega) h9 hi) ?_
      rintro ⟨x, len, Pat1, Fl1⟩ ⟨L, g1, g2, g3, g4, g5, g6, g7, g8⟩
      simp only at g1 g4 g5 g6 g7 g8
      subst g1
      have hcap : (L ++ T).length ≤ n := by
        have := PTopo.length_le g2.nodup (fun j hj => (g2.mem j hj).lt)
        omega
      rw [List.length_append] at hcap
      refine Spec.bind (numMove_spec g6 g7 hcap) ?_
      rintro ⟨top2, Pat2⟩ ⟨f1, f2, f3⟩
      simp only at f1 f2 f3
      refine Spec.ok ⟨L ++ T, f1, g2, ?_, by simp [h4], ?_, by simp only; rw [f2, g4, h6], f3,
        by simp only; rw [g5, h8], g8⟩
      · rw [htake]
        intro i hi' hik
        rcases List.mem_append.mp hi' with hi' | hi'
        · exact List.mem_append_right _ (h3 i hi' hik)
        · rw [List.mem_singleton] at hi'
          rcases g3 with g3 | g3
          · omega
          · rw [hi']; exact g3
      · simp only
        rw [htake2, addCol_append, if_pos hle']
        exact h5.set (by omega) _
    · intro hgt
      have hgt' : ¬ q (A.ir t) ≤ k := by omega
      refine Spec.ok ⟨T, rfl, h2, ?_, h4, ?_, h6, h7, h8, h9⟩
      · rw [htake]
        intro i hi' hik
        rcases List.mem_append.mp hi' with hi' | hi'
        · exact h3 i hi' hik
        · rw [List.mem_singleton] at hi'
          omega
      · simp only
        rw [htake2, addCol_append, if_neg hgt']
        exact h5
  · rintro ⟨top, Y, Pat, Fl⟩ ⟨T, h1, h2, h3, h4, h5, h6, h7, h8, h9⟩
    simp only at h1 h4 h5 h6 h7 h8 h9
    subst h1
    have hCl : (C k).length = A.jc (p k + 1) - A.jc (p k) := by
      rw [hC, permPat, List.length_map, hclen]
    rw [← hCl, List.take_length] at h3
    rw [← hclen, List.take_length] at h5
    have hT : Topo C k T := h2.topo h3
    simp only
    rw [h5.rd (by omega), ok_bind, wr_ok (by omega), ok_bind, wr_ok (by omega), ok_bind]
    have hcolk : s.col k = [] := by
      have := hst.rows k
      rw [fillRows_nil (by omega)] at this
      simpa using this
    have hinit : NumRep C n k (k + 1) [] (rowInit k (permCol A p q k) s)
        { Lnz := List.set st.Lnz k (some 0), Li := st.Li, Lx := st.Lx,
          D := List.set st.D k (some (addCol k (permCol A p q k) Y0 k)),
          Y := List.set Y k (some 0), Pattern := Pat, Flag := Fl } := by
      refine ⟨?_, ?_, ?_, hst.cells, hst.rows, by simp, by simpa using hnn, by simpa using hnD,
        by simp only [List.length_set]; omega, by simp only; omega, by simp only; omega,
        hst.nLi, hst.nLx⟩
      · refine hst.lnz.push (by omega) _ ?_ (fun i _ => rfl)
        rw [rowInit_col, hcolk]; rfl
      · refine hst.D.push (by omega) _ ?_ (fun i hi => ?_)
        · simp [rowInit, hY0]
        · simp only [rowInit]
          rw [Function.update_of_ne (by omega)]
      · exact h5.set (by omega) _
    have hTl : T.length ≤ n := h7.le
    refine Spec.bind (forI_spec (lo := n - T.length) (hi := n) (by omega)
      (fun j (st2 : NumSt K) =>
        NumRep C n k (k + 1) (T.take (j - (n - T.length)))
          ((T.take (j - (n - T.length))).foldl (nodeF k) (rowInit k (permCol A p q k) s)) st2 ∧
        st2.lens = st.lens ∧ st2.Pattern = Pat ∧ st2.Flag = Fl) ?_ ?_) ?_
    · refine ⟨?_, ?_, rfl, rfl⟩
      · simpa using hinit
      · simp [NumSt.lens, h4, h6, h8]
    · rintro j st2 hj1 hj2 ⟨r1, r2, r3, r4⟩
      obtain ⟨x, rfl⟩ : ∃ x, j = n - T.length + x := ⟨j - (n - T.length), by omega⟩
      have hx : x < T.length := by omega
      have ex : n - T.length + x - (n - T.length) = x := by omega
      have ex1 : n - T.length + x + 1 - (n - T.length) = x + 1 := by omega
      rw [ex] at r1
      have hgT : T[x]? = some T[x] := List.getElem?_eq_getElem hx
      have hpat : st2.Pattern[n - T.length + x]? = some (some ((T[x] : Nat) : Int)) := by
        rw [r3]; exact h7.get x _ hgT
      have hnotin : T[x] ∉ T.take x := by
        intro hmem
        obtain ⟨y, hy1, hy2⟩ := List.mem_take_iff_getElem.mp hmem
        have := (List.Nodup.getElem_inj_iff hT.nodup).mp hy2
        omega
      refine (numNode_spec hk r1 hLp hpat ((hT.mem _).mp (List.getElem_mem hx)) hnotin).mono ?_
      rintro st3 ⟨z1, z2, z3, z4⟩
      rw [ex1, List.take_add_one, hgT, Option.toList_some, List.foldl_append]
      exact ⟨z1, z2.trans r2, z3.trans r3, z4.trans r4⟩
    · rintro st2 ⟨r1, r2, r3, r4⟩
      have ex : n - (n - T.length) = T.length := by omega
      rw [ex, List.take_length] at r1
      have hnD2 := r1.nD
      rw [r1.D.rd (by omega), ok_bind, wr_ok (by omega), ok_bind]
      refine Spec.ok ⟨?_, ?_, T, hT, ?_⟩
      · simpa [NumSt.lens] using r2
      · intro j hj
        simp only
        rw [r4]
        rcases Nat.lt_or_ge j k with hjk | hjk
        · obtain ⟨v, hv1, _, hv3⟩ := h9.flag j hjk
          exact ⟨v, hv1, by push_cast; omega⟩
        · have : j = k := by omega
          subst this
          exact ⟨_, h9.flagk, by push_cast; omega⟩
      · refine ⟨r1.lnz, r1.D.set (by omega) _, r1.Y, r1.cells, ?_, by simp, r1.nn, by simpa using hnD2,
          r1.nY, r1.nP, r1.nF, r1.nLi, r1.nLx⟩
        intro j
        have := r1.rows j
        simp only [rowF]
        rw [this]
        simp only [List.not_mem_nil, if_false, List.append_nil]
        by_cases hf : Fill C k j
        · rw [if_pos ((hT.mem j).mpr hf), fillRows_succ_of hf]
        · rw [if_neg (fun hc => hf ((hT.mem j).mp hc)), fillRows_succ_not hf, List.append_nil]

/-- Requirements on the sizes of the arrays given to the numeric factorisation. -/
structure NumSizes (C : Nat → List Nat) (n : Nat) (st : NumSt K) : Prop where
  nn : n ≤ st.Lnz.length
  nD : n ≤ st.D.length
  nY : n ≤ st.Y.length
  nP : n ≤ st.Pattern.length
  nF : n ≤ st.Flag.length
  nLi : lpOf C n n ≤ st.Li.length
  nLx : lpOf C n n ≤ st.Lx.length

theorem LDL_numeric_spec {n : Nat} {A : Csc K} {p q : Nat → Nat} {Ap Ai : Buf Int}
    {P Pinv : Option (Buf Int)} (h : LdlArgs n A p q Ap Ai P) {Ax : Buf K}
    (hAx : Buf.Has Ax A.nnz A.pr) (hQ : PermArg n Pinv q) {Lp Parent : Buf Int}
    (hLp : Buf.Has Lp (n + 1) (fun j => (lpOf (permPat A p q) n j : Int)))
    (hPar : Buf.Has Parent n (fun j => enc (tree (permPat A p q) n j)))
    {st : NumSt K} (hst : NumSizes (permPat A p q) n st) :
    Spec (LDL_numeric n Ap Ai Ax Lp Parent st P Pinv) (fun r => r.1 = (n : Int) ∧
      r.2.lens = st.lens ∧ ∃ s, Rows (permCol A p q) n s ∧
        NumRep (permPat A p q) n n n [] s r.2) := by
  unfold LDL_numeric
  refine Spec.bind (forI_spec (lo := 0) (hi := n) (Nat.zero_le n)
    (fun k (st' : NumSt K) => st'.lens = st.lens ∧
      (∀ j, j < k → ∃ v : Int, st'.Flag[j]? = some (some v) ∧ v < k) ∧
      ∃ s, Rows (permCol A p q) k s ∧ NumRep (permPat A p q) n k k [] s st')
    ⟨rfl, fun j hj => absurd hj (by omega), ⟨fun _ => [], fun _ => 0, fun _ => 0⟩,
      Rows.zero _ (fun _ => rfl), Buf.Has.zero _ _, Buf.Has.zero _ _, Buf.Has.zero _ _,
      by simp, by simp [fillRows_zero], by simp, hst.nn, hst.nD, hst.nY, hst.nP, hst.nF, hst.nLi,
      hst.nLx⟩ ?_) ?_
  · rintro k st' _ hk ⟨h1, h2, s, h3, h4⟩
    refine (numRow_spec h hAx hQ hLp hPar hk h4 h2).mono ?_
    rintro st2 ⟨g1, g2, T, g3, g4⟩
    exact ⟨g1.trans h1, g2, _, Rows.succ k s T h3 g3, g4⟩
  · rintro st' ⟨h1, _, s, h3, h4⟩
    exact Spec.ok ⟨rfl, h1, s, h3, h4⟩

end

end Verif
