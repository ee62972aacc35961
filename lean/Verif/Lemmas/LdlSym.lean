import Verif.Lemmas.Etree
import Verif.Lemmas.LdlBasic
import Verif.Lemmas.Cols

/-! # Symbolic factorisation -/

set_option linter.unusedSectionVars false

namespace Verif

theorem PermArg.at {n : Nat} {P : Option (Buf Int)} {p : Nat → Nat} (h : PermArg n P p) {i : Nat}
    (hi : i < n) : permAt P (i : Int) = .ok (p i : Int) := by
  cases P with
  | none => simp only [permAt, pure_eq_ok]; rw [h i hi]
  | some b => exact Buf.Has.rd h hi

/-- Column `k` of the permuted matrix. -/
def permCol {K : Type} (A : Csc K) (p q : Nat → Nat) (k : Nat) : List (Nat × K) :=
  (A.col (p k)).map (fun e => (q e.1, e.2))

/-- Row indices of column `k` of the permuted matrix. -/
def permPat {K : Type} (A : Csc K) (p q : Nat → Nat) (k : Nat) : List Nat :=
  (permCol A p q k).map Prod.fst

theorem permCol_get {K : Type} (A : Csc K) (p q : Nat → Nat) {k t : Nat}
    (h : A.jc (p k) + t < A.jc (p k + 1)) :
    (permCol A p q k)[t]? = some (q (A.ir (A.jc (p k) + t)), A.pr (A.jc (p k) + t)) := by
  unfold permCol
  rw [List.getElem?_map, Csc.col_get A h]
  rfl

theorem length_permCol {K : Type} (A : Csc K) (p q : Nat → Nat) (k : Nat) :
    (permCol A p q k).length = A.jc (p k + 1) - A.jc (p k) := by
  simp [permCol, Csc.length_col]

/-- Representation of an optional parent: `-1` for a root. -/
def enc : Option Nat → Int
  | none => -1
  | some l => (l : Int)

open Classical in
/-- State while row `k` is being processed; `W` are the nodes flagged so far. -/
structure SymMid (C : Nat → List Nat) (n k : Nat) (W : Nat → Prop) (st : SymSt) : Prop where
  pl : n ≤ st.Parent.length
  ll : n ≤ st.Lnz.length
  fl : n ≤ st.Flag.length
  parent : ∀ j, j < k → st.Parent[j]? =
    some (some (enc (if W j ∧ tree C k j = none then some k else tree C k j)))
  lnz : ∀ j, j < k → st.Lnz[j]? =
    some (some (((fillRows C k j).length + if W j then 1 else 0 : Nat) : Int))
  flag : ∀ j, j < k → ∃ v : Int, st.Flag[j]? = some (some v) ∧ (v = k ↔ W j) ∧ v ≤ k
  parentk : st.Parent[k]? = some (some (-1))
  lnzk : st.Lnz[k]? = some (some 0)
  flagk : st.Flag[k]? = some (some (k : Int))

/-- State between rows. -/
structure SymRep (C : Nat → List Nat) (n k : Nat) (st : SymSt) : Prop where
  pl : n ≤ st.Parent.length
  ll : n ≤ st.Lnz.length
  fl : n ≤ st.Flag.length
  parent : Buf.Has st.Parent k (fun j => enc (tree C k j))
  lnz : Buf.Has st.Lnz k (fun j => ((fillRows C k j).length : Int))
  flag : ∀ j, j < k → ∃ v : Int, st.Flag[j]? = some (some v) ∧ v < k

/-- Sizes of the arrays. -/
def SymSt.lens (st : SymSt) : Nat × Nat × Nat :=
  (st.Parent.length, st.Lnz.length, st.Flag.length)

theorem tree_self (C : Nat → List Nat) (k : Nat) : tree C k k = none := by
  cases h : tree C k k with
  | none => rfl
  | some l =>
    have := tree_spec h
    omega

section

variable {C : Nat → List Nat} {n k : Nat}

theorem symPath_spec (hk : k < n) {W : Nat → Prop} {st : SymSt} (h : SymMid C n k W st)
    (hW : ∀ j, W j → Fill C k j) (hcl : ∀ j l, W j → tree C k j = some l → W l)
    {i : Nat} (hi : Fill C k i) :
    Spec (symPath n k i st) (fun st' => st'.lens = st.lens ∧
      ∃ W' : Nat → Prop, SymMid C n k W' st' ∧ (∀ j, W j → W' j) ∧ (∀ j, W' j → Fill C k j) ∧
        (∀ j l, W' j → tree C k j = some l → W' l) ∧ W' i) := by
  unfold symPath
  have hik := hi.lt
  refine Spec.bind (whileM_spec
    (fun s : Int × SymSt => s.2.lens = st.lens ∧ ∃ (pos : Nat) (W' : Nat → Prop),
      s.1 = (pos : Int) ∧ SymMid C n k W' s.2 ∧
      (∀ j, W j → W' j) ∧ (∀ j, W' j → Fill C k j) ∧
      (∀ j l, W' j → tree C k j = some l → W' l ∨ l = pos) ∧ (pos = k ∨ Fill C k pos) ∧
      (W' i ∨ pos = i))
    (fun s => k - s.1.toNat)
    (fun s => s.2.lens = st.lens ∧
      ∃ W' : Nat → Prop, SymMid C n k W' s.2 ∧ (∀ j, W j → W' j) ∧ (∀ j, W' j → Fill C k j) ∧
        (∀ j l, W' j → tree C k j = some l → W' l) ∧ W' i)
    ⟨rfl, i, W, rfl, h, fun _ hj => hj, hW, fun j l h1 h2 => Or.inl (hcl j l h1 h2), Or.inr hi,
      Or.inr rfl⟩ (by simp only; omega) ?_) ?_
  · rintro ⟨x, st1⟩ ⟨hlen, pos, W', hx, hm, h1, h2, h3, h4, h5⟩
    simp only at hx hm hlen
    subst hx
    rcases h4 with rfl | h4
    · -- at `k`
      simp only
      rw [rd_ok hm.flagk, ok_bind]
      refine Spec.ok ?_
      simp only [ne_eq, not_true_eq_false, decide_false, Bool.false_eq_true, if_false]
      refine ⟨hlen, W', hm, h1, h2, ?_, ?_⟩
      · intro j l hj ht
        rcases h3 j l hj ht with h6 | h6
        · exact h6
        · have := (tree_spec ht).2.1
          omega
      · rcases h5 with h5 | h5
        · exact h5
        · omega
    · have hpos := h4.lt
      obtain ⟨v, hv1, hv2, hv3⟩ := hm.flag pos hpos
      simp only
      rw [rd_ok hv1, ok_bind]
      refine Spec.ok ?_
      by_cases hw : W' pos
      · have : v = k := hv2.mpr hw
        simp only [this, ne_eq, not_true_eq_false, decide_false, Bool.false_eq_true, if_false]
        refine ⟨hlen, W', hm, h1, h2, ?_, ?_⟩
        · intro j l hj ht
          rcases h3 j l hj ht with h6 | rfl
          · exact h6
          · exact hw
        · rcases h5 with h5 | rfl
          · exact h5
          · exact hw
      · have hvk : v ≠ k := fun e => hw (hv2.mp e)
        simp only [hvk, ne_eq, not_false_eq_true, decide_true, if_true]
        have hp := hm.parent pos hpos
        rw [if_neg (fun hc => hw hc.1)] at hp
        have hl := hm.lnz pos hpos
        rw [if_neg hw, Nat.add_zero] at hl
        rw [rd_ok hp, ok_bind]
        have hPl := hm.pl
        have hLl := hm.ll
        have hFl := hm.fl
        -- the two cases give the same Parent array contents
        have key : ∀ (Parent' : Buf Int) (nx : Nat),
            Parent'.length = st1.Parent.length →
            (∀ j, j ≠ pos → Parent'[j]? = st1.Parent[j]?) →
            Parent'[pos]? = some (some (nx : Int)) →
            (tree C k pos = none ∧ nx = k ∨ tree C k pos = some nx) →
            Spec (do
              let c ← rd st1.Lnz (pos : Int)
              let Lnz ← wr st1.Lnz (pos : Int) (c + 1)
              let Flag ← wr st1.Flag (pos : Int) (k : Int)
              let next ← rd Parent' (pos : Int)
              pure (next, ({ Parent := Parent', Lnz := Lnz, Flag := Flag } : SymSt)))
              (fun s' => (s'.2.lens = st.lens ∧ ∃ (pos : Nat) (W' : Nat → Prop),
                s'.1 = (pos : Int) ∧ SymMid C n k W' s'.2 ∧
                (∀ j, W j → W' j) ∧ (∀ j, W' j → Fill C k j) ∧
                (∀ j l, W' j → tree C k j = some l → W' l ∨ l = pos) ∧ (pos = k ∨ Fill C k pos) ∧
                (W' i ∨ pos = i)) ∧ k - s'.1.toNat < k - pos) := by
          intro Parent' nx e1 e2 e3 e4
          rw [rd_ok hl, ok_bind, wr_ok (by omega), ok_bind, wr_ok (by omega), ok_bind, rd_ok e3,
            ok_bind]
          refine Spec.ok ⟨⟨?_, nx, fun j => W' j ∨ j = pos, rfl, ?_, fun j hj => Or.inl (h1 j hj),
            ?_, ?_, ?_, ?_⟩, ?_⟩
          · simp only [SymSt.lens, List.length_set, e1] at hlen ⊢
            exact hlen
          · refine ⟨by rw [e1]; exact hPl, by simpa using hLl, by simpa using hFl, ?_, ?_, ?_, ?_,
              ?_, ?_⟩
            · intro j hj
              by_cases hjp : j = pos
              · subst hjp
                simp only
                rw [e3]
                rcases e4 with ⟨e4, rfl⟩ | e4
                · rw [if_pos ⟨Or.inr rfl, e4⟩]; rfl
                · rw [if_neg (by rw [e4]; simp), e4]; rfl
              · simp only
                rw [e2 j hjp, hm.parent j hj]
                by_cases hwj : W' j <;> by_cases htj : tree C k j = none <;> simp [hwj, hjp, htj]
            · intro j hj
              simp only
              rw [List.getElem?_set]
              by_cases hjp : pos = j
              · subst hjp
                rw [if_pos rfl, if_pos (by omega), if_pos (Or.inr rfl)]
                push_cast
                rfl
              · rw [if_neg hjp, hm.lnz j hj]
                by_cases hwj : W' j <;> simp [hwj, show ¬ j = pos from fun e => hjp e.symm]
            · intro j hj
              simp only
              rw [List.getElem?_set]
              by_cases hjp : pos = j
              · subst hjp
                rw [if_pos rfl, if_pos (by omega)]
                exact ⟨k, rfl, by simp, le_rfl⟩
              · rw [if_neg hjp]
                obtain ⟨u, hu1, hu2, hu3⟩ := hm.flag j hj
                refine ⟨u, hu1, ?_, hu3⟩
                rw [hu2]
                simp only [show ¬ j = pos from fun e => hjp e.symm, or_false]
            · simp only; rw [e2 k (by omega)]; exact hm.parentk
            · simp only; rw [List.getElem?_set, if_neg (by omega)]; exact hm.lnzk
            · simp only; rw [List.getElem?_set, if_neg (by omega)]; exact hm.flagk
          · rintro j (hj | rfl)
            · exact h2 j hj
            · exact h4
          · rintro j l (hj | rfl) ht
            · rcases h3 j l hj ht with h6 | h6
              · exact Or.inl (Or.inl h6)
              · exact Or.inl (Or.inr h6)
            · rcases e4 with ⟨e4, _⟩ | e4
              · rw [e4] at ht; cases ht
              · rw [e4] at ht; cases ht; exact Or.inr rfl
          · rcases e4 with ⟨_, rfl⟩ | e4
            · exact Or.inl rfl
            · exact Or.inr (h4.closed e4)
          · rcases h5 with h5 | h5
            · exact Or.inl (Or.inl h5)
            · exact Or.inl (Or.inr h5.symm)
          · simp only
            have : pos < nx := by
              rcases e4 with ⟨_, rfl⟩ | e4
              · exact hpos
              · exact (tree_spec e4).1
            omega
        cases ht : tree C k pos with
        | none =>
          rw [ht] at hp
          rw [if_pos (show enc none = -1 from rfl), wr_ok (by omega), ok_bind]
          refine key _ k (by simp) (fun j hj => ?_) ?_ (Or.inl ⟨ht, rfl⟩)
          · rw [List.getElem?_set, if_neg (fun e => hj e.symm)]
          · rw [List.getElem?_set, if_pos rfl, if_pos (by omega)]
        | some l =>
          rw [ht] at hp
          have : ¬ (enc (some l) = -1) := by simp only [enc]; omega
          rw [if_neg this]
          exact key _ l rfl (fun j _ => rfl) hp (Or.inr ht)
  · rintro ⟨x, st1⟩ ⟨hlen, W', hm, h1, h2, h3, h4⟩
    exact Spec.ok ⟨hlen, W', hm, h1, h2, h3, h4⟩

end

/-- Output of the symbolic factorisation. -/
structure SymDone (C : Nat → List Nat) (n : Nat) (q : Nat → Nat) (o : SymOut) : Prop where
  parent : Buf.Has o.Parent n (fun j => enc (tree C n j))
  lnz : Buf.Has o.Lnz n (fun j => ((fillRows C n j).length : Int))
  lp : Buf.Has o.Lp (n + 1)
    (fun j => ((Finset.range j).sum (fun i => (fillRows C n i).length) : Nat))
  pinv : PermArg n o.Pinv q

theorem LDL_symbolic_spec {K : Type} {n : Nat} {A : Csc K} {p q : Nat → Nat} {Ap Ai : Buf Int}
    {P Pinv : Option (Buf Int)} (h : LdlArgs n A p q Ap Ai P) {Lp Parent Lnz Flag : Buf Int}
    (hLp : n + 1 ≤ Lp.length) (hPar : n ≤ Parent.length) (hLnz : n ≤ Lnz.length)
    (hFlag : n ≤ Flag.length) (hPinv : P.isSome → ∃ Q, Pinv = some Q ∧ n ≤ Q.length)
    (hPn : P = none → Pinv = none) :
    Spec (LDL_symbolic n Ap Ai Lp Parent Lnz Flag P Pinv) (fun o =>
      SymDone (permPat A p q) n q o ∧ o.Lp.length = Lp.length ∧ o.Parent.length = Parent.length ∧
      o.Lnz.length = Lnz.length ∧ o.Flag.length = Flag.length ∧
      (o.Pinv.map List.length = Pinv.map List.length)) := by
  set C := permPat A p q with hC
  unfold LDL_symbolic
  refine Spec.bind (Q := fun Q : Option (Buf Int) => PermArg n Q q ∧
    Q.map List.length = Pinv.map List.length) ?_ ?_
  · cases P with
    | none =>
      refine Spec.ok ?_
      rw [hPn rfl]
      refine ⟨fun i hi => ?_, rfl⟩
      have h1 := h.p (q i) (h.perm.q_lt i hi)
      rw [h.perm.pq i hi] at h1
      exact h1.symm
    | some P =>
      obtain ⟨Q, rfl, hQ⟩ := hPinv rfl
      have hp : Buf.Has P n (fun i => (p i : Int)) := h.p
      show Spec (do
        let Q ← forI 0 (n : Int) Q fun k Q => do
          let j ← rd P k
          wr Q j k
        pure (some Q)) _
      refine Spec.bind (forI_scatter h.perm hQ (fun j => (j : Int)) ?_) ?_
      · intro j b hj _
        rw [hp.rd hj, ok_bind]
      · rintro Q' ⟨h1, h2, _⟩
        exact Spec.ok ⟨h2, by simp [h1]⟩
  · rintro Q ⟨hQ, hQl⟩
    -- main loop
    refine Spec.bind (forI_spec (lo := 0) (hi := n) (Nat.zero_le n)
      (fun k (st : SymSt) => SymRep C n k st ∧
        st.lens = (Parent.length, Lnz.length, Flag.length))
      ⟨⟨hPar, hLnz, hFlag, Buf.Has.zero _ _, Buf.Has.zero _ _, fun j hj => absurd hj (by omega)⟩,
        rfl⟩ ?_) ?_
    · rintro k st _ hk ⟨hst, hlen⟩
      have hpk := h.perm.p_lt k hk
      have e : ((p k : Nat) : Int) + 1 = ((p k + 1 : Nat) : Int) := by omega
      have hPl := hst.pl
      have hLl := hst.ll
      have hFl := hst.fl
      rw [wr_ok (by omega), ok_bind, wr_ok (by omega), ok_bind, wr_ok (by omega), ok_bind,
        h.p.at hk, ok_bind, e, h.ap.rd (by omega), ok_bind, h.ap.rd (by omega), ok_bind]
      have hmono := h.wf.mono (p k) (by rw [h.an]; exact hpk)
      have hclen : (permCol A p q k).length = A.jc (p k + 1) - A.jc (p k) := length_permCol A p q k
      refine (forI_spec (lo := A.jc (p k)) (hi := A.jc (p k + 1)) hmono
        (fun t (st : SymSt) => st.lens = (Parent.length, Lnz.length, Flag.length) ∧
          ∃ W : Nat → Prop, SymMid C n k W st ∧ (∀ j, W j → Fill C k j) ∧
          (∀ j l, W j → tree C k j = some l → W l) ∧
          (∀ i ∈ (C k).take (t - A.jc (p k)), i < k → W i)) ?_ ?_).mono ?_
      · refine ⟨by simpa [SymSt.lens] using hlen, fun _ => False, ?_, fun j hj => hj.elim,
          fun j l hj => hj.elim, fun i hi => by simp at hi⟩
        refine ⟨by simpa using hPl, by simpa using hLl, by simpa using hFl, ?_, ?_, ?_, ?_, ?_, ?_⟩
        · intro j hj
          simp only [false_and, if_false]
          rw [List.getElem?_set, if_neg (by omega), hst.parent j hj]
        · intro j hj
          simp only [if_false, Nat.add_zero]
          rw [List.getElem?_set, if_neg (by omega), hst.lnz j hj]
        · intro j hj
          obtain ⟨v, hv1, hv2⟩ := hst.flag j hj
          simp only
          rw [List.getElem?_set, if_neg (by omega)]
          refine ⟨v, hv1, ?_, by omega⟩
          simp only [iff_false]
          omega
        · simp [show k < st.Parent.length by omega]
        · simp [show k < st.Lnz.length by omega]
        · simp [show k < st.Flag.length by omega]
      · rintro t st1 ht1 ht2 ⟨hlen1, W, hm, hW1, hW2, hW3⟩
        have htn : t < A.nnz := lt_of_lt_of_le ht2 (h.wf.le_nnz (by rw [h.an]; omega))
        have hirt := h.wf.ir_lt t htn
        rw [h.am] at hirt
        have hget := permCol_get A p q (k := k) (t := t - A.jc (p k)) (by omega)
        rw [show A.jc (p k) + (t - A.jc (p k)) = t by omega] at hget
        have hgetC : (C k)[t - A.jc (p k)]? = some (q (A.ir t)) := by
          rw [hC, permPat, List.getElem?_map, hget]; rfl
        have htake : (C k).take (t + 1 - A.jc (p k))
            = (C k).take (t - A.jc (p k)) ++ [q (A.ir t)] := by
          rw [show t + 1 - A.jc (p k) = t - A.jc (p k) + 1 by omega, List.take_add_one, hgetC]; rfl
        rw [h.ai.rd htn, ok_bind, hQ.at hirt, ok_bind]
        refine Spec.ite ?_ ?_
        · intro hlt
          have hlt' : q (A.ir t) < k := by omega
          have hfill : Fill C k (q (A.ir t)) := Fill.base (List.mem_of_getElem? hgetC) hlt'
          refine (symPath_spec hk hm hW1 hW2 hfill).mono ?_
          rintro st2 ⟨hlen2, W', hm2, h1, h2, h3, h4⟩
          refine ⟨hlen2.trans hlen1, W', hm2, h2, h3, ?_⟩
          rw [htake]
          intro i hi hik
          rcases List.mem_append.mp hi with hi | hi
          · exact h1 i (hW3 i hi hik)
          · rw [List.mem_singleton] at hi
            rw [hi]; exact h4
        · intro hge
          refine Spec.ok ⟨hlen1, W, hm, hW1, hW2, ?_⟩
          rw [htake]
          intro i hi hik
          rcases List.mem_append.mp hi with hi | hi
          · exact hW3 i hi hik
          · rw [List.mem_singleton] at hi
            omega
      · rintro st1 ⟨hlen1, W, hm, hW1, hW2, hW3⟩
        have hCl : (C k).length = A.jc (p k + 1) - A.jc (p k) := by
          rw [hC, permPat, List.length_map, hclen]
        rw [← hCl, List.take_length] at hW3
        have hWF : ∀ j, W j ↔ Fill C k j := fun j =>
          ⟨hW1 j, fun hj => Fill.least hW3 hW2 hj⟩
        refine ⟨⟨hm.pl, hm.ll, hm.fl, ?_, ?_, ?_⟩, hlen1⟩
        · intro j hj
          rcases Nat.lt_or_ge j k with hjk | hjk
          · rw [hm.parent j hjk]
            simp only
            by_cases hf : Fill C k j
            · by_cases ht : tree C k j = none
              · rw [if_pos ⟨(hWF j).mpr hf, ht⟩, tree_succ_of_fill ht hf]
              · rw [if_neg (fun hc => ht hc.2)]
                obtain ⟨l, hl⟩ := Option.ne_none_iff_exists'.mp ht
                rw [hl, tree_succ_of_some hl]
            · rw [if_neg (fun hc => hf ((hWF j).mp hc.1)), tree_succ_of_not hf]
          · have : j = k := by omega
            subst this
            rw [hm.parentk]
            simp only
            rw [tree_succ_of_not (fun hf => absurd hf.lt (lt_irrefl _)), tree_self]
            rfl
        · intro j hj
          rcases Nat.lt_or_ge j k with hjk | hjk
          · rw [hm.lnz j hjk]
            simp only
            by_cases hf : Fill C k j
            · rw [if_pos ((hWF j).mpr hf), fillRows_succ_of hf]
              simp
            · rw [if_neg (fun hc => hf ((hWF j).mp hc)), fillRows_succ_not hf, Nat.add_zero]
          · have : j = k := by omega
            subst this
            rw [hm.lnzk]
            simp only
            rw [fillRows_nil le_rfl]
            rfl
        · intro j hj
          rcases Nat.lt_or_ge j k with hjk | hjk
          · obtain ⟨v, hv1, _, hv3⟩ := hm.flag j hjk
            exact ⟨v, hv1, by push_cast; omega⟩
          · have : j = k := by omega
            subst this
            exact ⟨_, hm.flagk, by push_cast; omega⟩
    · rintro st ⟨hst, hlen⟩
      have ew : wr Lp 0 (0 : Int) = .ok (Lp.set 0 (some 0)) := wr_ok (i := 0) (by omega) 0
      rw [ew, ok_bind]
      refine Spec.bind (forI_spec (lo := 0) (hi := n) (Nat.zero_le n)
        (fun k (Lp' : Buf Int) => Lp'.length = Lp.length ∧ Buf.Has Lp' (k + 1)
          (fun j => (((Finset.range j).sum (fun i => (fillRows C n i).length) : Nat) : Int)))
        ⟨by simp, ?_⟩ ?_) ?_
      · intro j hj
        have : j = 0 := by omega
        subst this
        simp [show 0 < Lp.length by omega]
      · rintro k Lp' _ hk ⟨h1, h2⟩
        have e : ((k : Nat) : Int) + 1 = ((k + 1 : Nat) : Int) := by omega
        rw [h2.rd (by omega), ok_bind, hst.lnz.rd hk, ok_bind, e, wr_ok (by omega)]
        refine Spec.ok ⟨by simp [h1], h2.push (by omega) _ ?_ (fun _ _ => rfl)⟩
        rw [Finset.sum_range_succ]
        push_cast
        rfl
      · rintro Lp' ⟨h1, h2⟩
        simp only [SymSt.lens, Prod.mk.injEq] at hlen
        exact Spec.ok ⟨⟨hst.parent, hst.lnz, h2, hQ⟩, h1, hlen.1, hlen.2.1, hlen.2.2, hQl⟩

end Verif
