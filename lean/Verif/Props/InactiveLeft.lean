import Verif.Props.Inactive

/-!
# C72: left-looking refactorisation of the marked columns

`LDL_cache_numeric` (`ldl.c` lines 342-415) is exported but not called.
-/

set_option linter.unusedSectionVars false

namespace Verif

section

variable {K : Type} [Field K] [LinearOrder K] [IsStrictOrderedRing K] [Scalar K] [LawfulScalar K]

theorem permCol_nodup {n : Nat} {A : Csc K} {p q : Nat → Nat} (hA : A.WF) (hAn : A.n = n)
    (hAm : A.m = n) (hp : PermPair n p q) {k : Nat} (hk : k < n)
    (h : ((A.col (p k)).map Prod.fst).Nodup) : ((permCol A p q k).map Prod.fst).Nodup := by
  have e : (permCol A p q k).map Prod.fst = ((A.col (p k)).map Prod.fst).map q := by
    unfold permCol
    rw [List.map_map, List.map_map]; rfl
  rw [e]
  refine List.Nodup.map_on ?_ h
  have hlt : ∀ a, a ∈ (A.col (p k)).map Prod.fst → a < n := by
    intro a ha
    obtain ⟨e, he, rfl⟩ := List.mem_map.mp ha
    have := hA.col_lt (c := p k) (by have := hp.p_lt k hk; omega) he
    omega
  intro a ha b hb hab
  rw [← hp.pq a (hlt a ha), ← hp.pq b (hlt b hb), hab]

theorem left_cache_both {n : Nat} {A A' : Csc K} {p q : Nat → Nat} {Ap Ai : Buf Int}
    {Ax Ax' : Buf K} {P Pinv : Option (Buf Int)} (h : LdlArgs n A p q Ap Ai P)
    (hAx : Buf.Has Ax A.nnz A.pr)
    (hA' : A'.m = A.m ∧ A'.n = A.n ∧ A'.jc = A.jc ∧ A'.ir = A.ir)
    (hAx' : Buf.Has Ax' A'.nnz A'.pr)
    {Lp0 Parent0 Lnz0 Flag0 : Buf Int} (hLp : n + 1 ≤ Lp0.length) (hPar : n ≤ Parent0.length)
    (hLnz : n ≤ Lnz0.length) (hFlag : n ≤ Flag0.length)
    (hPinv : P.isSome → ∃ Q, Pinv = some Q ∧ n ≤ Q.length) (hPn : P = none → Pinv = none)
    {o : SymOut} (ho : LDL_symbolic n Ap Ai Lp0 Parent0 Lnz0 Flag0 P Pinv = .ok o)
    {lnz : Nat} (hlnz : rd o.Lp n = .ok (lnz : Int)) {Li Pattern : Buf Int} {Lx D Y : Buf K}
    (hLi : lnz ≤ Li.length) (hLx : lnz ≤ Lx.length) (hD : n ≤ D.length) (hY : n ≤ Y.length)
    (hPat : n ≤ Pattern.length) {st : NumSt K}
    (hst : LDL_numeric n Ap Ai Ax o.Lp o.Parent ⟨o.Lnz, Li, Lx, D, Y, Pattern, o.Flag⟩ P o.Pinv
      = .ok ((n : Int), st))
    {Lti0 Ltp0 Lti Ltp : Buf Int} (hLti : lnz ≤ Lti0.length) (hLtp : n + 1 ≤ Ltp0.length)
    (htr : Transpose_Row_Count n n st.Li o.Lp Lti0 Ltp0 = .ok (Lti, Ltp))
    (hsym : A'.Symm) (hdup : ∀ c, c < n → ((A'.col c).map Prod.fst).Nodup)
    {u : Nat → Int} {U : Buf Int} (hU : Buf.Has U n u)
    (hup : ∀ j l : Nat, j < n → u j = n → rd o.Parent j = .ok (l : Int) → u l = n)
    (hsame : ∀ k i, k ≤ i → i < n → u k ≠ n → A'.entry (p k) (p i) = A.entry (p k) (p i)) :
    ((∀ k : Nat, k < n → u k ≠ n → ∃ l : Nat, rd o.Parent k = .ok (l : Int)) →
    ∃ r st', LDL_cache_numeric n Ap Ai Ax' Ltp Lti st.Li o.Lp st.Lx st.D st.Y P o.Pinv U
        = .ok ((n : Int), r) ∧
      LDL_numeric n Ap Ai Ax' o.Lp o.Parent st P o.Pinv = .ok ((n : Int), st') ∧
      (∀ x : Nat, x < lnz → rd st'.Li x = rd st.Li x ∧
        ∃ v, rd r.Lx x = .ok v ∧ rd st'.Lx x = .ok v) ∧
      (∀ j : Nat, j < n → ∃ v, rd r.D j = .ok v ∧ rd st'.D j = .ok v) ∧
      (∀ j : Nat, j < n → rd r.Y j = .ok 0)) ∧
    (∀ k : Nat, k < n → u k ≠ n → rd o.Parent k = .ok (-1) → rd o.Lp (k + 1) = .ok (lnz : Int) →
      ∀ e, rd st.Li lnz = .error e →
      LDL_cache_numeric n Ap Ai Ax' Ltp Lti st.Li o.Lp st.Lx st.D st.Y P o.Pinv U = .error e) := by
  have hs := LDL_symbolic_spec h hLp hPar hLnz hFlag hPinv hPn
  obtain ⟨hd, l1, l2, l3, l4, _⟩ := hs.elim ho
  have hlp : Buf.Has o.Lp (n + 1) (fun j => (lpOf (permPat A p q) n j : Int)) := hd.lp
  have hz : lnz = lpOf (permPat A p q) n n := by
    rw [hlp.rd (by omega)] at hlnz
    simpa using hlnz.symm
  obtain ⟨_, hlens, s, h4, h5⟩ := (LDL_numeric_spec h hAx hd.pinv hlp hd.parent
    (st := ⟨o.Lnz, Li, Lx, D, Y, Pattern, o.Flag⟩)
    ⟨by simp only; omega, by simp only; omega, by simp only; omega, by simp only; omega,
      by simp only; omega, by simp only; omega, by simp only; omega⟩).elim hst
  simp only at hlens h5
  obtain ⟨raw, hraw⟩ := h4.inv
  have hpat : permPat A' p q = permPat A p q := permPat_congr hA'.2.2.1 hA'.2.2.2 p q
  have hnnz : A'.nnz = A.nnz := by unfold Csc.nnz; rw [hA'.2.1, hA'.2.2.1]
  -- the new matrix
  have hwf' : A'.WF := by
    obtain ⟨g1, g2, g3, g4⟩ := hA'
    exact ⟨by rw [g3]; exact h.wf.jc0, by rw [g2, g3]; exact h.wf.mono,
      by rw [g2, g3, g4, g1]; exact h.wf.ir_lt⟩
  have h' : LdlArgs n A' p q Ap Ai P :=
    ⟨hwf', by rw [hA'.2.1, h.an], by rw [hA'.1, h.am], h.perm, by rw [hA'.2.2.1]; exact h.ap,
      by rw [hnnz, hA'.2.2.2]; exact h.ai, h.p⟩
  -- the full factorisation
  obtain ⟨⟨r', st'⟩, e', g1, g2, s', g3, g4⟩ := LDL_numeric_spec h' hAx' hd.pinv
    (by rw [hpat]; exact hlp) (by rw [hpat]; exact hd.parent) (st := st) (by
      rw [hpat]
      exact ⟨h5.nn, h5.nD, h5.nY, h5.nP, h5.nF, h5.nLi, h5.nLx⟩)
  simp only at g1 g2 g4
  subst g1
  obtain ⟨raw', hraw'⟩ := g3.inv
  -- row structure
  have hfac := h5.factor hlp
  have htrs := Transpose_Row_Count_spec (A := (facCsc n s).pattern)
    ⟨hfac.wf.jc0, hfac.wf.mono, hfac.wf.ir_lt⟩ (Li := st.Li) (Lp := o.Lp) (Lti := Lti0)
    (Ltp := Ltp0) hfac.lp hfac.li (by
      show n + 1 ≤ _
      exact hLtp) (by
      show (facCsc n s).nnz ≤ _
      have : (facCsc n s).nnz = lpOf (permPat A p q) n n := h5.offs n
      omega)
  obtain ⟨_, _, t3, t4⟩ := htrs.elim htr
  simp only at t3 t4
  have hcells : ∀ j, j < n → ∀ (t r : Nat), (fillRows (permPat A p q) n j)[t]? = some r →
      st.Li[lpOf (permPat A p q) n j + t]? = some (some (r : Int)) ∧
      st.Lx[lpOf (permPat A p q) n j + t]? = some (some (colSum (s.col j) r)) := by
    intro j hj t r ht
    exact h5.cells j hj t _ (hraw.get ht)
  have hcells' : ∀ j, j < n → ∀ (t r : Nat), (fillRows (permPat A p q) n j)[t]? = some r →
      st'.Li[lpOf (permPat A p q) n j + t]? = some (some (r : Int)) ∧
      st'.Lx[lpOf (permPat A p q) n j + t]? = some (some (colSum (s'.col j) r)) := by
    intro j hj t r ht
    have := g4.cells j hj t _ (hraw'.get (t := t) (r := r) (by
      have e : patOf (permCol A' p q) = permPat A p q := hpat
      rw [e]; exact ht))
    rw [hpat] at this
    exact this
  have hpe : patOf (permCol A' p q) = patOf (permCol A p q) := hpat
  have hM : ∀ j l, u j = n → l < n → Fill (permPat A p q) l j → u l = n := by
    intro j l hj hl hf
    have hjn : j < n := by have := hf.lt; omega
    refine (Fill.up (W := fun j => j < n ∧ u j = n) (k := n) ?_ ⟨hjn, hj⟩ hl hf).2
    rintro a b ⟨ha, hb⟩ ht
    have := (tree_spec ht).2.1
    refine ⟨this, hup a b ha hb ?_⟩
    rw [hd.parent.rd ha, ht]; rfl
  have hkeep := hraw.keepCol hpe hraw' (M := fun k => u k = n) hM (by
    intro k i hki hi hu
    rw [colSum_permCol h'.wf h'.an h'.am h.perm (by omega) hi,
      colSum_permCol h.wf h.an h.am h.perm (by omega) hi]
    exact hsame k i hki hi hu)
  constructor
  · intro hroot
    have hpar : ∀ k, k < n → u k ≠ n → ∃ l, l < n ∧ Fill (permPat A p q) l k := by
      intro k hk hu
      obtain ⟨l, hl⟩ := hroot k hk hu
      rw [hd.parent.rd hk] at hl
      cases ht : tree (permPat A p q) n k with
      | none => rw [ht] at hl; simp [enc] at hl
      | some l' => exact ⟨l', (tree_spec ht).2.1, (tree_spec ht).2.2⟩
    obtain ⟨⟨r1, r⟩, er, f1, _, w, f2⟩ := LDL_cache_numeric_spec
      (T := fun k => (tcol (facCsc n s).pattern k).map Prod.fst)
      (o := offs (tcol (facCsc n s).pattern)) (Lp := o.Lp) (Li := st.Li) (Lti := Lti) (Ltp := Ltp)
      (L0 := fun r j => colSum (s.col j) r) (D0 := s.D) (Y0 := s.Y)
      (Lx := st.Lx) (D := st.D) (Y := st.Y)
      h' hAx' hd.pinv (by rw [hpat]; exact hlp)
      (fun j hj t r ht => by rw [hpat] at ht ⊢; exact (hcells j hj t r ht).1)
      (fun k hk => permCol_nodup h'.wf h'.an h'.am h.perm hk (hdup _ (h.perm.p_lt k hk)))
      (fun i k hi hk => by
        rw [colSum_permCol h'.wf h'.an h'.am h.perm hi hk,
          colSum_permCol h'.wf h'.an h'.am h.perm hk hi]
        exact hsym _ _ (by rw [h'.an]; exact h.perm.p_lt i hi) (by rw [h'.an]; exact h.perm.p_lt k hk))
      (fun k hk => by rw [hpat]; exact h5.topo hlp hk)
      (fun k _ => by rw [offs_succ, List.length_map]) t3
      (fun k hk x i hx => by
        rw [List.getElem?_map] at hx
        cases hg : (tcol (facCsc n s).pattern k)[x]? with
        | none => rw [hg] at hx; cases hx
        | some e =>
          rw [hg] at hx
          simp only [Option.map_some, Option.some.injEq] at hx
          subst hx
          have hxl := (List.getElem?_eq_some_iff.mp hg).1
          have h1 := flatTo_get (tcol (facCsc n s).pattern) (n := n) hk hxl
          exact t4 _ e (by rw [← hg, ← h1]; rfl))
      hU (by rw [hpat]; exact hM)
      (by
        rw [hpat]
        intro k hk hu
        obtain ⟨l, hl, hf⟩ := hpar k hk hu
        by_cases hul : u l = n
        · exact .inl ⟨l, hl, hf, hul⟩
        · obtain ⟨l', hl', hf'⟩ := hpar l hl hul
          have hpos : 0 < (fillRows (permPat A p q) n l).length :=
            List.length_pos_of_mem (mem_fillRows.mpr ⟨hl', hf'⟩)
          have m1 := lpOf_mono (permPat A p q) n (show k + 1 ≤ l from hf.lt)
          have m2 := lpOf_mono (permPat A p q) n (show l + 1 ≤ n from hl)
          rw [lpOf_succ] at m2
          exact .inr (by omega))
      hraw' h5.D h5.Y hraw.Y
      (fun j hj t r ht => by rw [hpat] at ht ⊢; exact (hcells j hj t r ht).2)
      (fun j hj hu => by
        obtain ⟨e1, e2⟩ := hkeep j hj hu
        refine ⟨e1, fun r hr hf => ?_⟩
        have hne : r ≠ j := by have := hf.lt; omega
        have := e2 r hf.lt hr
        unfold lent at this
        rwa [if_neg hne, if_neg hne] at this)
    simp only at f1 f2
    subst f1
    refine ⟨r, st', er, e', ?_, ?_, ?_⟩
    · intro x hx
      rw [hz] at hx
      obtain ⟨j, t, hj, ht, rfl⟩ := lpOf_locate hx
      have hg : (fillRows (permPat A p q) n j)[t]? = some (fillRows (permPat A p q) n j)[t] :=
        List.getElem?_eq_getElem ht
      obtain ⟨c1, c2⟩ := hcells j hj t _ hg
      obtain ⟨c3, c4⟩ := hcells' j hj t _ hg
      have c5 := f2.Lx j hj t _ (by rw [hpat]; exact hg)
      rw [hpat] at c5
      rw [rd_ok c1, rd_ok c3, rd_ok c4, rd_ok c5]
      exact ⟨rfl, _, rfl, rfl⟩
    · intro j hj
      rw [f2.D.rd hj, g4.D.rd hj]
      exact ⟨_, rfl, rfl⟩
    · intro j hj
      rw [f2.Y.rd hj]
  · intro k hk hu hpk hlk e he
    refine LDL_cache_numeric_err
      (T := fun k => (tcol (facCsc n s).pattern k).map Prod.fst)
      (o := offs (tcol (facCsc n s).pattern)) (Lp := o.Lp) (Li := st.Li) (Lti := Lti) (Ltp := Ltp)
      (L0 := fun r j => colSum (s.col j) r) (D0 := s.D) (Y0 := s.Y)
      (Lx := st.Lx) (D := st.D) (Y := st.Y)
      h' hAx' hd.pinv (by rw [hpat]; exact hlp)
      (fun j hj t r ht => by rw [hpat] at ht ⊢; exact (hcells j hj t r ht).1)
      (fun k hk => permCol_nodup h'.wf h'.an h'.am h.perm hk (hdup _ (h.perm.p_lt k hk)))
      (fun i k hi hk => by
        rw [colSum_permCol h'.wf h'.an h'.am h.perm hi hk,
          colSum_permCol h'.wf h'.an h'.am h.perm hk hi]
        exact hsym _ _ (by rw [h'.an]; exact h.perm.p_lt i hi) (by rw [h'.an]; exact h.perm.p_lt k hk))
      (fun k hk => by rw [hpat]; exact h5.topo hlp hk)
      (fun k _ => by rw [offs_succ, List.length_map]) t3
      (fun k hk x i hx => by
        rw [List.getElem?_map] at hx
        cases hg : (tcol (facCsc n s).pattern k)[x]? with
        | none => rw [hg] at hx; cases hx
        | some e =>
          rw [hg] at hx
          simp only [Option.map_some, Option.some.injEq] at hx
          subst hx
          have hxl := (List.getElem?_eq_some_iff.mp hg).1
          have h1 := flatTo_get (tcol (facCsc n s).pattern) (n := n) hk hxl
          exact t4 _ e (by rw [← hg, ← h1]; rfl))
      hU (by rw [hpat]; exact hM) hk hu ?_ ?_ (by rw [hpat, ← hz]; exact he)
      hraw' h5.D h5.Y hraw.Y
      (fun j hj t r ht => by rw [hpat] at ht ⊢; exact (hcells j hj t r ht).2)
      (fun j hj hu => by
        obtain ⟨e1, e2⟩ := hkeep j hj hu
        refine ⟨e1, fun r hr hf => ?_⟩
        have hne : r ≠ j := by have := hf.lt; omega
        have := e2 r hf.lt hr
        unfold lent at this
        rwa [if_neg hne, if_neg hne] at this)
    · rw [hpat]
      intro r hr hf
      rw [hd.parent.rd hk] at hpk
      cases ht : tree (permPat A p q) n k with
      | none => exact absurd hf (tree_none ht hr)
      | some l => rw [ht] at hpk; simp [enc] at hpk
    · rw [hpat]
      have e1 : ((k : Nat) : Int) + 1 = ((k + 1 : Nat) : Int) := by omega
      rw [e1, hlp.rd (by omega), hz] at hlk
      simpa using hlk

/-- **C72**: let the factor of `A` have been computed, let `A'` have the same pattern, be symmetric
and hold every entry once. Let the set of marked columns be closed under parents, let every
column that is not marked have a parent, and let the lower part of the unmarked columns of the
permuted matrix be unchanged. Then `LDL_cache_numeric` runs without error and leaves in `Lx` and
`D` what `LDL_numeric` computes for `A'` from scratch. -/
theorem C72_left_cache {n : Nat} {A A' : Csc K} {p q : Nat → Nat} {Ap Ai : Buf Int}
    {Ax Ax' : Buf K} {P Pinv : Option (Buf Int)} (h : LdlArgs n A p q Ap Ai P)
    (hAx : Buf.Has Ax A.nnz A.pr)
    (hA' : A'.m = A.m ∧ A'.n = A.n ∧ A'.jc = A.jc ∧ A'.ir = A.ir)
    (hAx' : Buf.Has Ax' A'.nnz A'.pr)
    {Lp0 Parent0 Lnz0 Flag0 : Buf Int} (hLp : n + 1 ≤ Lp0.length) (hPar : n ≤ Parent0.length)
    (hLnz : n ≤ Lnz0.length) (hFlag : n ≤ Flag0.length)
    (hPinv : P.isSome → ∃ Q, Pinv = some Q ∧ n ≤ Q.length) (hPn : P = none → Pinv = none)
    {o : SymOut} (ho : LDL_symbolic n Ap Ai Lp0 Parent0 Lnz0 Flag0 P Pinv = .ok o)
    {lnz : Nat} (hlnz : rd o.Lp n = .ok (lnz : Int)) {Li Pattern : Buf Int} {Lx D Y : Buf K}
    (hLi : lnz ≤ Li.length) (hLx : lnz ≤ Lx.length) (hD : n ≤ D.length) (hY : n ≤ Y.length)
    (hPat : n ≤ Pattern.length) {st : NumSt K}
    (hst : LDL_numeric n Ap Ai Ax o.Lp o.Parent ⟨o.Lnz, Li, Lx, D, Y, Pattern, o.Flag⟩ P o.Pinv
      = .ok ((n : Int), st))
    {Lti0 Ltp0 Lti Ltp : Buf Int} (hLti : lnz ≤ Lti0.length) (hLtp : n + 1 ≤ Ltp0.length)
    (htr : Transpose_Row_Count n n st.Li o.Lp Lti0 Ltp0 = .ok (Lti, Ltp))
    (hsym : A'.Symm) (hdup : ∀ c, c < n → ((A'.col c).map Prod.fst).Nodup)
    {u : Nat → Int} {U : Buf Int} (hU : Buf.Has U n u)
    (hup : ∀ j l : Nat, j < n → u j = n → rd o.Parent j = .ok (l : Int) → u l = n)
    (hroot : ∀ k : Nat, k < n → u k ≠ n → ∃ l : Nat, rd o.Parent k = .ok (l : Int))
    (hsame : ∀ k i, k ≤ i → i < n → u k ≠ n → A'.entry (p k) (p i) = A.entry (p k) (p i)) :
    ∃ r st', LDL_cache_numeric n Ap Ai Ax' Ltp Lti st.Li o.Lp st.Lx st.D st.Y P o.Pinv U
        = .ok ((n : Int), r) ∧
      LDL_numeric n Ap Ai Ax' o.Lp o.Parent st P o.Pinv = .ok ((n : Int), st') ∧
      (∀ x : Nat, x < lnz → rd st'.Li x = rd st.Li x ∧
        ∃ v, rd r.Lx x = .ok v ∧ rd st'.Lx x = .ok v) ∧
      (∀ j : Nat, j < n → ∃ v, rd r.D j = .ok v ∧ rd st'.D j = .ok v) ∧
      (∀ j : Nat, j < n → rd r.Y j = .ok 0) :=
  (left_cache_both h hAx hA' hAx' hLp hPar hLnz hFlag hPinv hPn ho hlnz hLi hLx hD hY hPat hst hLti
    hLtp htr hsym hdup hU hup hsame).1 hroot

/-- **C72**, the other case: if a column that is not marked is a root, no later column has an
entry, and the cell after the last entry of `Li` is outside the array or was never written, then
`LDL_cache_numeric` reads that cell. -/
theorem C72_past_end {n : Nat} {A A' : Csc K} {p q : Nat → Nat} {Ap Ai : Buf Int}
    {Ax Ax' : Buf K} {P Pinv : Option (Buf Int)} (h : LdlArgs n A p q Ap Ai P)
    (hAx : Buf.Has Ax A.nnz A.pr)
    (hA' : A'.m = A.m ∧ A'.n = A.n ∧ A'.jc = A.jc ∧ A'.ir = A.ir)
    (hAx' : Buf.Has Ax' A'.nnz A'.pr)
    {Lp0 Parent0 Lnz0 Flag0 : Buf Int} (hLp : n + 1 ≤ Lp0.length) (hPar : n ≤ Parent0.length)
    (hLnz : n ≤ Lnz0.length) (hFlag : n ≤ Flag0.length)
    (hPinv : P.isSome → ∃ Q, Pinv = some Q ∧ n ≤ Q.length) (hPn : P = none → Pinv = none)
    {o : SymOut} (ho : LDL_symbolic n Ap Ai Lp0 Parent0 Lnz0 Flag0 P Pinv = .ok o)
    {lnz : Nat} (hlnz : rd o.Lp n = .ok (lnz : Int)) {Li Pattern : Buf Int} {Lx D Y : Buf K}
    (hLi : lnz ≤ Li.length) (hLx : lnz ≤ Lx.length) (hD : n ≤ D.length) (hY : n ≤ Y.length)
    (hPat : n ≤ Pattern.length) {st : NumSt K}
    (hst : LDL_numeric n Ap Ai Ax o.Lp o.Parent ⟨o.Lnz, Li, Lx, D, Y, Pattern, o.Flag⟩ P o.Pinv
      = .ok ((n : Int), st))
    {Lti0 Ltp0 Lti Ltp : Buf Int} (hLti : lnz ≤ Lti0.length) (hLtp : n + 1 ≤ Ltp0.length)
    (htr : Transpose_Row_Count n n st.Li o.Lp Lti0 Ltp0 = .ok (Lti, Ltp))
    (hsym : A'.Symm) (hdup : ∀ c, c < n → ((A'.col c).map Prod.fst).Nodup)
    {u : Nat → Int} {U : Buf Int} (hU : Buf.Has U n u)
    (hup : ∀ j l : Nat, j < n → u j = n → rd o.Parent j = .ok (l : Int) → u l = n)
    (hsame : ∀ k i, k ≤ i → i < n → u k ≠ n → A'.entry (p k) (p i) = A.entry (p k) (p i))
    {k : Nat} (hk : k < n) (hu : u k ≠ n) (hroot : rd o.Parent k = .ok (-1))
    (hlast : rd o.Lp (k + 1) = .ok (lnz : Int)) {e : Err} (he : rd st.Li lnz = .error e) :
    LDL_cache_numeric n Ap Ai Ax' Ltp Lti st.Li o.Lp st.Lx st.D st.Y P o.Pinv U = .error e :=
  (left_cache_both h hAx hA' hAx' hLp hPar hLnz hFlag hPinv hPn ho hlnz hLi hLx hD hY hPat hst hLti
    hLtp htr hsym hdup hU hup hsame).2 k hk hu hroot hlast e he

open Classical in
/-- **C72**, with the marks of `test_reach`: if the elimination tree has the single root `n - 1`
and the matrix changes only on the diagonal of the inequality block, then `test_reach` followed by
`LDL_cache_numeric` gives the factor and pivots of a full refactorisation. -/
theorem C72_refactor {nx ni ne n : Nat} (hn : nx + ni + ne = n) (h0 : 0 < n) {A A' : Csc K}
    {p q : Nat → Nat} {Ap Ai P0 Pinv0 : Buf Int} {Ax Ax' : Buf K}
    (h : LdlArgs n A p q Ap Ai (some P0)) (hAx : Buf.Has Ax A.nnz A.pr)
    (hA' : A'.m = A.m ∧ A'.n = A.n ∧ A'.jc = A.jc ∧ A'.ir = A.ir)
    (hAx' : Buf.Has Ax' A'.nnz A'.pr)
    (hsame : ∀ i k, i < n → k < n → i ≠ k ∨ k < nx + ne → A'.entry i k = A.entry i k)
    {Lp0 Parent0 Lnz0 Flag0 : Buf Int} (hLp : n + 1 ≤ Lp0.length) (hPar : n ≤ Parent0.length)
    (hLnz : n ≤ Lnz0.length) (hFlag : n ≤ Flag0.length) (hPinv : n ≤ Pinv0.length)
    {o : SymOut} (ho : LDL_symbolic n Ap Ai Lp0 Parent0 Lnz0 Flag0 (some P0) (some Pinv0) = .ok o)
    {lnz : Nat} (hlnz : rd o.Lp n = .ok (lnz : Int)) {Li Pattern : Buf Int} {Lx D Y : Buf K}
    (hLi : lnz ≤ Li.length) (hLx : lnz ≤ Lx.length) (hD : n ≤ D.length) (hY : n ≤ Y.length)
    (hPat : n ≤ Pattern.length) {st : NumSt K}
    (hst : LDL_numeric n Ap Ai Ax o.Lp o.Parent ⟨o.Lnz, Li, Lx, D, Y, Pattern, o.Flag⟩ (some P0)
      o.Pinv = .ok ((n : Int), st))
    {Lti0 Ltp0 Lti Ltp : Buf Int} (hLti : lnz ≤ Lti0.length) (hLtp : n + 1 ≤ Ltp0.length)
    (htr : Transpose_Row_Count n n st.Li o.Lp Lti0 Ltp0 = .ok (Lti, Ltp))
    {u : Nat → Int} {U : Buf Int} (hU : Buf.Has U n u) (hu : ∀ k, k < n → u k ≠ n)
    (hsym : A'.Symm) (hdup : ∀ c, c < n → ((A'.col c).map Prod.fst).Nodup)
    (hroot : ∀ k, k < n → Above o.Parent k (n - 1)) :
    ∃ Pinv U' r st', o.Pinv = some Pinv ∧ test_reach o.Parent Pinv U nx ni ne = .ok U' ∧
      LDL_cache_numeric n Ap Ai Ax' Ltp Lti st.Li o.Lp st.Lx st.D st.Y (some P0) o.Pinv U'
        = .ok ((n : Int), r) ∧
      LDL_numeric n Ap Ai Ax' o.Lp o.Parent st (some P0) o.Pinv = .ok ((n : Int), st') ∧
      (∀ x : Nat, x < lnz → rd st'.Li x = rd st.Li x ∧
        ∃ v, rd r.Lx x = .ok v ∧ rd st'.Lx x = .ok v) ∧
      (∀ j : Nat, j < n → ∃ v, rd r.D j = .ok v ∧ rd st'.D j = .ok v) := by
  have hs := LDL_symbolic_spec h hLp hPar hLnz hFlag (fun _ => ⟨_, rfl, hPinv⟩) (by simp)
  obtain ⟨hd, _, _, _, _, hl⟩ := hs.elim ho
  obtain ⟨Pinv, hPv⟩ : ∃ Q, o.Pinv = some Q := by
    cases e : o.Pinv with
    | none => rw [e] at hl; simp at hl
    | some Q => exact ⟨Q, rfl⟩
  have hQ : Buf.Has Pinv n (fun j => (q j : Int)) := by
    have := hd.pinv; rw [hPv] at this; exact this
  have hF : Forest o.Parent n := by
    intro j hj
    rw [hd.parent.rd hj]
    cases ht : tree (permPat A p q) n j with
    | none => exact .inl rfl
    | some l => exact .inr ⟨l, rfl, (tree_spec ht).1, (tree_spec ht).2.1⟩
  obtain ⟨U', e1, _, h3⟩ := (test_reach_both hn h0 hF (fun j hj => h.perm.q_lt j hj) hQ hU hu).1
    (fun j _ hj => hroot _ (h.perm.q_lt j hj))
  have hmark : ∀ k, k < n → ((if k = n - 1 ∨ (∃ j, nx + ne ≤ j ∧ j < n ∧ Above o.Parent (q j) k)
      then (n : Int) else u k) = n ↔
      (k = n - 1 ∨ (∃ j, nx + ne ≤ j ∧ j < n ∧ Above o.Parent (q j) k))) := by
    intro k hk
    by_cases hc : k = n - 1 ∨ ∃ j, nx + ne ≤ j ∧ j < n ∧ Above o.Parent (q j) k
    · simp only [hc, if_true]
    · simp only [hc, if_false, iff_false]; exact hu k hk
  obtain ⟨r, st', g1, g2, g3, g4, _⟩ := C72_left_cache h hAx hA' hAx' hLp hPar hLnz hFlag
    (fun _ => ⟨_, rfl, hPinv⟩) (by simp) ho hlnz hLi hLx hD hY hPat hst hLti hLtp htr hsym hdup h3
    (by
      intro j l hj hm hp
      have hl : j < l ∧ l < n := by
        rcases hF j hj with h4 | ⟨l', h4, h5, h6⟩
        · rw [hp] at h4; simp at h4
        · rw [hp] at h4
          simp only [Except.ok.injEq, Nat.cast_inj] at h4
          subst h4; exact ⟨h5, h6⟩
      rw [hmark l hl.2]
      rcases (hmark j hj).mp hm with hm | ⟨i, h4, h5, h6⟩
      · omega
      · exact .inr ⟨i, h4, h5, h6.trans (.step hp (.refl _))⟩)
    (by
      intro k hk hm
      have hne : k ≠ n - 1 := fun e => hm ((hmark k hk).mpr (.inl e))
      obtain ⟨l, hl, _⟩ := (hroot k hk).inv hne
      exact ⟨l, hl⟩)
    (by
      intro k i hki hi hm
      have hk : k < n := by omega
      have hpi := h.perm.p_lt i hi
      have hpk := h.perm.p_lt k hk
      refine hsame _ _ hpk hpi ?_
      by_cases e : p k = p i
      · by_contra hc
        rw [not_or, not_not] at hc
        refine hm ((hmark k hk).mpr (.inr ⟨p k, by omega, hpk, ?_⟩))
        rw [h.perm.qp k hk]
        exact .refl _
      · exact .inl e)
  exact ⟨Pinv, U', r, st', hPv, e1, g1, g2, g3, g4⟩

end

/-! Concrete cases. -/

theorem demoP9_symm : demoP9.Symm := by
  intro r c hr hc
  have hr : r < 3 := hr
  have hc : c < 3 := hc
  interval_cases r <;> interval_cases c <;> decide +kernel

theorem demoP9_once : ∀ c, c < 3 → ((demoP9.col c).map Prod.fst).Nodup := by
  intro c hc
  interval_cases c <;> decide +kernel

theorem demoP_once : ∀ c, c < 3 → ((demoP.col c).map Prod.fst).Nodup := by
  intro c hc
  interval_cases c <;> decide +kernel

/-- A case of C72: only column 2 is marked. -/
example := C72_left_cache demoLdl demoP.toSmat_is.pr (A' := demoP9) (Ax' := demoP9.toSmat.pr)
  ⟨rfl, rfl, rfl, rfl⟩ demoP9.toSmat_is.pr (o := demoSym) (Pinv := some (malloc 3))
  (Lp0 := malloc 4) (Parent0 := malloc 3) (Lnz0 := malloc 3) (Flag0 := malloc 3)
  (by decide) (by decide) (by decide) (by decide) (fun _ => ⟨_, rfl, by decide⟩) (by simp)
  demoSym_eq (lnz := 3) (by decide +kernel) (Li := malloc 3) (Lx := malloc 3)
  (D := malloc 3) (Y := malloc 3) (Pattern := malloc 3) (by decide) (by decide)
  (by decide) (by decide) (by decide) demoNum_eq (Lti0 := malloc 3) (Ltp0 := malloc 4) (by decide)
  (by decide) demoTr_eq demoP9_symm demoP9_once (u := fun i => if i = 2 then 3 else 0)
  (Buf.has_ofFn _ _)
  (by
    intro j l hj hu h
    interval_cases j
    · simp at hu
    · simp at hu
    · exact absurd h (by simp [rd, demoSym]))
  (by
    intro k hk hu
    interval_cases k
    · exact ⟨1, by decide +kernel⟩
    · exact ⟨2, by decide +kernel⟩
    · simp at hu)
  (by
    intro k i hki hi hu
    have hk2 : k ≠ 2 := by rintro rfl; simp at hu
    refine demoP9_same _ _ (demoPerm3_pair.p_lt k (by omega)) (demoPerm3_pair.p_lt i hi) ?_
    have hk : k < 3 := by omega
    interval_cases k <;> interval_cases i <;> first | omega | decide)

/-- A case of the read after the end: nothing is marked and `Li` has three cells. -/
example := C72_past_end demoLdl demoP.toSmat_is.pr (A' := demoP) (Ax' := demoP.toSmat.pr)
  ⟨rfl, rfl, rfl, rfl⟩ demoP.toSmat_is.pr (o := demoSym) (Pinv := some (malloc 3))
  (Lp0 := malloc 4) (Parent0 := malloc 3) (Lnz0 := malloc 3) (Flag0 := malloc 3)
  (by decide) (by decide) (by decide) (by decide) (fun _ => ⟨_, rfl, by decide⟩) (by simp)
  demoSym_eq (lnz := 3) (by decide +kernel) (Li := malloc 3) (Lx := malloc 3)
  (D := malloc 3) (Y := malloc 3) (Pattern := malloc 3) (by decide) (by decide)
  (by decide) (by decide) (by decide) demoNum_eq (Lti0 := malloc 3) (Ltp0 := malloc 4) (by decide)
  (by decide) demoTr_eq demoP_symm demoP_once (u := fun _ => 0) (Buf.has_ofFn _ _)
  (by simp) (fun _ _ _ _ _ => rfl) (k := 2) (by omega) (by simp) (by decide +kernel)
  (by decide +kernel) (e := .oob) (by decide +kernel)

/-- A case with the marks of `test_reach`: two variables, one inequality constraint. -/
example := C72_refactor (nx := 2) (ni := 1) (ne := 0) (n := 3) rfl (by omega) demoLdl
  demoP.toSmat_is.pr (A' := demoP9) (Ax' := demoP9.toSmat.pr)
  ⟨rfl, rfl, rfl, rfl⟩ demoP9.toSmat_is.pr demoP9_same (o := demoSym) (Pinv0 := malloc 3)
  (Lp0 := malloc 4) (Parent0 := malloc 3) (Lnz0 := malloc 3) (Flag0 := malloc 3)
  (by decide) (by decide) (by decide) (by decide) (by decide)
  demoSym_eq (lnz := 3) (by decide +kernel) (Li := malloc 3) (Lx := malloc 3)
  (D := malloc 3) (Y := malloc 3) (Pattern := malloc 3) (by decide) (by decide)
  (by decide) (by decide) (by decide) demoNum_eq (Lti0 := malloc 3) (Ltp0 := malloc 4) (by decide)
  (by decide) demoTr_eq (u := fun _ => 0) (Buf.has_ofFn _ _) (by simp) demoP9_symm demoP9_once
  (fun k hk => demoAbove k hk)

/-- The run: the same numbers as for the row version. -/
example : (do
    let (r, st) ← LDL_cache_numeric 3 demoP9.toSmat.jc demoP9.toSmat.ir demoP9.toSmat.pr
      [some 0, some 0, some 1, some 3] [some 0, some 0, some 1] demoNum.Li demoSym.Lp
      demoNum.Lx demoNum.D demoNum.Y (some (Buf.ofFn 3 (fun i => (demoPerm3 i : Int))))
      demoSym.Pinv [some 0, some 0, some 3]
    pure (r, st.Lx, st.D)) =
    .ok (3, [some (1 / 2), some (1 / 2), some (-1 / 9)],
      [some 2, some (9 / 2), some (76 / 9)]) := by decide +kernel

end Verif
