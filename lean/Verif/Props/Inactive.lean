import Verif.Lemmas.LeftCache
import Verif.Props.Ldl

/-!
# C69, C70: refactorising only the rows that can change
-/

set_option linter.unusedSectionVars false

namespace Verif

open Finset

section

variable {K : Type} [Field K] [LinearOrder K] [IsStrictOrderedRing K] [Scalar K] [LawfulScalar K]

theorem list_eq_colSum (l : List (Nat × K)) (h : (l.map Prod.fst).Nodup) :
    l = (l.map Prod.fst).map (fun r => (r, colSum l r)) := by
  induction l with
  | nil => rfl
  | cons e l ih =>
    simp only [List.map_cons, List.nodup_cons] at h ⊢
    have h0 : colSum l e.1 = 0 := colSum_of_rows rfl h.1
    rw [colSum_cons, if_pos rfl, h0, add_zero]
    congr 1
    conv_lhs => rw [ih h.2]
    refine List.map_congr_left ?_
    intro r hr
    have : e.1 ≠ r := fun e' => h.1 (e' ▸ hr)
    rw [colSum_cons, if_neg this, zero_add]

/-- The columns of a computed factor, by values. -/
theorem RowsInv.colK {c : Nat → List (Nat × K)} {n : Nat} {s : FSt K} {raw : Nat → K}
    (h : RowsInv c n s raw) :
    Verif.colK (patOf c) (fun r j => colSum (s.col j) r) n = s.col := by
  funext j
  have h1 := list_eq_colSum (s.col j) (by
    rw [h.rows j]; exact (fillRows_sorted n j).imp (fun h => h.ne))
  conv_rhs => rw [h1, h.rows j]
  rfl

theorem RowsInv.get {c : Nat → List (Nat × K)} {n : Nat} {s : FSt K} {raw : Nat → K}
    (h : RowsInv c n s raw) {j t r : Nat} (ht : (fillRows (patOf c) n j)[t]? = some r) :
    (s.col j)[t]? = some (r, colSum (s.col j) r) := by
  have h1 := congrFun h.colK j
  have h2 : (Verif.colK (patOf c) (fun r j => colSum (s.col j) r) n j)[t]?
      = some (r, colSum (s.col j) r) := by
    unfold Verif.colK
    rw [List.getElem?_map, ht]; rfl
  rw [h1] at h2
  exact h2

theorem mem_col_pattern {A : Csc K} {r c : Nat} : (r, ()) ∈ A.pattern.col c ↔ A.Stored r c := by
  unfold Csc.col Csc.Stored
  simp only [List.mem_map, List.mem_range, Csc.pattern, Prod.mk.injEq, and_true]
  constructor
  · rintro ⟨x, hx, h⟩
    exact ⟨A.jc c + x, by omega, by omega, h⟩
  · rintro ⟨k, h1, h2, h3⟩
    exact ⟨k - A.jc c, by omega, by rw [← h3]; congr 1; omega⟩

/-- The pattern transpose of a computed factor lists, for each row, its columns in increasing
order. -/
theorem NumRep.topo {C : Nat → List Nat} {n : Nat} {s : FSt K} {st : NumSt K}
    (h : NumRep C n n n [] s st) {Lp : Buf Int}
    (hLp : Buf.Has Lp (n + 1) (fun j => (lpOf C n j : Int))) {k : Nat} (hk : k < n) :
    Topo C k ((tcol (facCsc n s).pattern k).map Prod.fst) := by
  have hfac := h.factor hLp
  have hs : (tcol (facCsc n s).pattern k).Pairwise (fun a b => a.1 < b.1) := by
    refine tcol_sorted ?_ k
    intro c hc
    have hS : (facCsc n s).pattern.Sorted := hfac.sorted
    exact (hS.col_pairwise hc).imp (fun h => h.ne)
  refine ⟨?_, ?_, ?_⟩
  · rw [List.nodup_map_iff_inj_on]
    · intro a ha b hb e
      exact Prod.ext e rfl
    · exact hs.imp (fun h e => by rw [e] at h; exact lt_irrefl _ h)
  · intro j
    rw [List.mem_map]
    constructor
    · rintro ⟨e, he, rfl⟩
      obtain ⟨c, hc, h1, h2⟩ := tcol_mem.mp he
      have h3 := mem_col_pattern.mp h1
      rw [h2]
      exact ((h.stored hc).mp h3).2
    · intro hf
      have hj : j < n := by have := hf.lt; omega
      refine ⟨(j, ()), tcol_mem.mpr ⟨j, hj, mem_col_pattern.mpr ((h.stored hj).mpr ⟨hk, hf⟩), rfl⟩,
        rfl⟩
  · rw [List.pairwise_map]
    exact hs.imp (fun h hf => absurd hf.lt (by omega))

/-- **C69**: let the factor of a matrix `A` have been computed, with the row structure of the
factor, and let `A'` be a matrix with the same pattern. Mark rows (`UPattern[k] == n`) such that
the parent of a marked row is marked, and such that `A` and `A'` have the same entries in the upper
part of every column that is not marked. Then `LDL_row_cache_numeric`, which recomputes the marked
rows only, succeeds and leaves in `Lx` and `D` exactly what `LDL_numeric` computes for `A'`. -/
theorem C69_row_cache {n : Nat} {A A' : Csc K} {p q : Nat → Nat} {Ap Ai : Buf Int}
    {Ax Ax' : Buf K} {P Pinv : Option (Buf Int)} (h : LdlArgs n A p q Ap Ai P)
    (hAx : Buf.Has Ax A.nnz A.pr)
    (hA' : A'.m = A.m ∧ A'.n = A.n ∧ A'.jc = A.jc ∧ A'.ir = A.ir)
    (hAx' : Buf.Has Ax' A'.nnz A'.pr)
    {Lp0 Parent0 Lnz0 Flag0 : Buf Int} (hLp : n + 1 ≤ Lp0.length) (hPar : n ≤ Parent0.length)
    (hLnz : n ≤ Lnz0.length) (hFlag : n ≤ Flag0.length)
    (hPinv : P.isSome → ∃ Q, Pinv = some Q ∧ n ≤ Q.length) (hPn : P = none → Pinv = none)
    {o : SymOut} (ho : LDL_symbolic n Ap Ai Lp0 Parent0 Lnz0 Flag0 P Pinv = .ok o)
    {lnz : Nat} (hlnz : rd o.Lp n = .ok (lnz : Int)) {Li Pattern : Buf Int} {Lx D Y : Buf K}
    (hLi : lnz ≤ Li.length) (hLx : lnz ≤ Lx.length) (hD : n ≤ D.length) (hY : n ≤ Y.length)
    (hPat : n ≤ Pattern.length) {st : NumSt K}
    (hst : LDL_numeric n Ap Ai Ax o.Lp o.Parent ⟨o.Lnz, Li, Lx, D, Y, Pattern, o.Flag⟩ P o.Pinv
      = .ok ((n : Int), st))
    {Lti0 Ltp0 Lti Ltp : Buf Int} (hLti : lnz ≤ Lti0.length) (hLtp : n + 1 ≤ Ltp0.length)
    (htr : Transpose_Row_Count n n st.Li o.Lp Lti0 Ltp0 = .ok (Lti, Ltp))
    {u : Nat → Int} {U : Buf Int} (hU : Buf.Has U n u)
    (hup : ∀ j l : Nat, j < n → u j = n → rd o.Parent j = .ok (l : Int) → u l = n)
    (hsame : ∀ i k, i ≤ k → k < n → u k ≠ n → A'.entry (p i) (p k) = A.entry (p i) (p k)) :
    ∃ r st', LDL_row_cache_numeric n Ap Ai Ax' Ltp Lti st.Li o.Lp ⟨st.Lx, st.D, st.Y⟩ P o.Pinv U
        = .ok ((n : Int), r) ∧
      LDL_numeric n Ap Ai Ax' o.Lp o.Parent st P o.Pinv = .ok ((n : Int), st') ∧
      (∀ x : Nat, x < lnz → rd st'.Li x = rd st.Li x ∧
        ∃ v, rd r.Lx x = .ok v ∧ rd st'.Lx x = .ok v) ∧
      (∀ j : Nat, j < n → ∃ v, rd r.D j = .ok v ∧ rd st'.D j = .ok v) := by
  have hs := LDL_symbolic_spec h hLp hPar hLnz hFlag hPinv hPn
  obtain ⟨hd, l1, l2, l3, l4, _⟩ := hs.elim ho
  have hlp : Buf.Has o.Lp (n + 1) (fun j => (lpOf (permPat A p q) n j : Int)) := hd.lp
  have hz : lnz = lpOf (permPat A p q) n n := by
    rw [hlp.rd (by omega)] at hlnz
    simpa using hlnz.symm
  obtain ⟨_, hlens, s, h4, h5⟩ := (LDL_numeric_spec h hAx hd.pinv hlp hd.parent
    (st := ⟨o.Lnz, Li, Lx, D, Y, Pattern, o.Flag⟩)
    ⟨by simp only; omega, by simp only; omega, by simp only; omega, by simp only; omega,
      by simp only; omega, by simp only; omega, by simp only; omega⟩).elim hst
  simp only at hlens h5
  obtain ⟨raw, hraw⟩ := h4.inv
  have hpat : permPat A' p q = permPat A p q := permPat_congr hA'.2.2.1 hA'.2.2.2 p q
  have hnnz : A'.nnz = A.nnz := by unfold Csc.nnz; rw [hA'.2.1, hA'.2.2.1]
  -- the new matrix
  have hwf' : A'.WF := by
    obtain ⟨g1, g2, g3, g4⟩ := hA'
    exact ⟨by rw [g3]; exact h.wf.jc0, by rw [g2, g3]; exact h.wf.mono,
      by rw [g2, g3, g4, g1]; exact h.wf.ir_lt⟩
  have h' : LdlArgs n A' p q Ap Ai P :=
    ⟨hwf', by rw [hA'.2.1, h.an], by rw [hA'.1, h.am], h.perm, by rw [hA'.2.2.1]; exact h.ap,
      by rw [hnnz, hA'.2.2.2]; exact h.ai, h.p⟩
  -- the full factorisation
  obtain ⟨⟨r', st'⟩, e', g1, g2, s', g3, g4⟩ := LDL_numeric_spec h' hAx' hd.pinv
    (by rw [hpat]; exact hlp) (by rw [hpat]; exact hd.parent) (st := st) (by
      rw [hpat]
      exact ⟨h5.nn, h5.nD, h5.nY, h5.nP, h5.nF, h5.nLi, h5.nLx⟩)
  simp only at g1 g2 g4
  subst g1
  obtain ⟨raw', hraw'⟩ := g3.inv
  -- row structure
  have hfac := h5.factor hlp
  have htrs := Transpose_Row_Count_spec (A := (facCsc n s).pattern)
    ⟨hfac.wf.jc0, hfac.wf.mono, hfac.wf.ir_lt⟩ (Li := st.Li) (Lp := o.Lp) (Lti := Lti0)
    (Ltp := Ltp0) hfac.lp hfac.li (by
      show n + 1 ≤ _
      exact hLtp) (by
      show (facCsc n s).nnz ≤ _
      have : (facCsc n s).nnz = lpOf (permPat A p q) n n := h5.offs n
      omega)
  obtain ⟨_, _, t3, t4⟩ := htrs.elim htr
  simp only at t3 t4
  have hcells : ∀ j, j < n → ∀ (t r : Nat), (fillRows (permPat A p q) n j)[t]? = some r →
      st.Li[lpOf (permPat A p q) n j + t]? = some (some (r : Int)) ∧
      st.Lx[lpOf (permPat A p q) n j + t]? = some (some (colSum (s.col j) r)) := by
    intro j hj t r ht
    exact h5.cells j hj t _ (hraw.get ht)
  have hcells' : ∀ j, j < n → ∀ (t r : Nat), (fillRows (permPat A p q) n j)[t]? = some r →
      st'.Li[lpOf (permPat A p q) n j + t]? = some (some (r : Int)) ∧
      st'.Lx[lpOf (permPat A p q) n j + t]? = some (some (colSum (s'.col j) r)) := by
    intro j hj t r ht
    have := g4.cells j hj t _ (hraw'.get (t := t) (r := r) (by
      have e : patOf (permCol A' p q) = permPat A p q := hpat
      rw [e]; exact ht))
    rw [hpat] at this
    exact this
  have hcr : CRep (permPat A' p q) n (fun r j => colSum (s.col j) r) s.D s.Y
      ⟨st.Lx, st.D, st.Y⟩ :=
    ⟨h5.D, h5.Y, fun j hj t r ht => by rw [hpat] at ht ⊢; exact (hcells j hj t r ht).2⟩
  have hold : RowsInv (permCol A p q) n
      ⟨colK (permPat A' p q) (fun r j => colSum (s.col j) r) n, s.D, s.Y⟩ raw := by
    rw [hpat, show colK (permPat A p q) (fun r j => colSum (s.col j) r) n = s.col from hraw.colK]
    exact hraw
  obtain ⟨⟨r1, r⟩, er, f1, L, Dn, Yn, rawn, f2, f3, f4⟩ := LDL_row_cache_numeric_spec
    (T := fun k => (tcol (facCsc n s).pattern k).map Prod.fst)
    (o := offs (tcol (facCsc n s).pattern)) (Lp := o.Lp) (Li := st.Li) (Lti := Lti) (Ltp := Ltp)
    ⟨hA'.2.2.1, hA'.2.2.2⟩ h' hAx' hd.pinv (by rw [hpat]; exact hlp)
    (fun j hj t r ht => by rw [hpat] at ht ⊢; exact (hcells j hj t r ht).1)
    (fun k hk => by rw [hpat]; exact h5.topo hlp hk)
    (fun k _ => by rw [offs_succ, List.length_map]) t3
    (fun k hk x i hx => by
      rw [List.getElem?_map] at hx
      cases hg : (tcol (facCsc n s).pattern k)[x]? with
      | none => rw [hg] at hx; cases hx
      | some e =>
        rw [hg] at hx
        simp only [Option.map_some, Option.some.injEq] at hx
        subst hx
        have hxl := (List.getElem?_eq_some_iff.mp hg).1
        have h1 := flatTo_get (tcol (facCsc n s).pattern) (n := n) hk hxl
        exact t4 _ e (by rw [← hg, ← h1]; rfl))
    hU
    (fun j l hj hl hf => by
      rw [hpat] at hf
      have hjn : j < n := by have := hf.lt; omega
      refine (Fill.up (W := fun j => j < n ∧ u j = n) (k := n) ?_ ⟨hjn, hj⟩ hl hf).2
      rintro a b ⟨ha, hb⟩ ht
      have := (tree_spec ht).2.1
      refine ⟨this, hup a b ha hb ?_⟩
      rw [hd.parent.rd ha, ht]; rfl)
    (fun k hk hu i hi => by
      rw [colSum_permCol h'.wf h'.an h'.am h.perm (by omega) hk,
        colSum_permCol h.wf h.an h.am h.perm (by omega) hk]
      exact hsame i k hi hk hu)
    hcr hold
  simp only at f1 f2 f3
  subst f1
  have hag := hraw'.agree f4
  refine ⟨r, st', er, e', ?_, ?_⟩
  · intro x hx
    rw [hz] at hx
    obtain ⟨j, t, hj, ht, rfl⟩ := lpOf_locate hx
    have hg : (fillRows (permPat A p q) n j)[t]? = some (fillRows (permPat A p q) n j)[t] :=
      List.getElem?_eq_getElem ht
    obtain ⟨c1, c2⟩ := hcells j hj t _ hg
    obtain ⟨c3, c4⟩ := hcells' j hj t _ hg
    have c5 := f2.Lx j hj t _ (by rw [hpat]; exact hg)
    rw [hpat] at c5
    rw [rd_ok c1, rd_ok c3, rd_ok c4, rd_ok c5]
    refine ⟨rfl, _, rfl, ?_⟩
    congr 1
    obtain ⟨m1, m2⟩ := mem_fillRows.mp (List.getElem_mem ht)
    have e := (hag _ m1).2.2 j m2.lt
    have hne : (fillRows (permPat A p q) n j)[t] ≠ j := by have := m2.lt; omega
    rw [lent_colK, if_neg hne, if_pos ⟨m1, by rw [hpat]; exact m2⟩] at e
    unfold lent at e
    rw [if_neg hne] at e
    exact e
  · intro j hj
    rw [f2.D.rd hj, g4.D.rd hj, (hag j hj).1]
    exact ⟨_, rfl, rfl⟩

end

/-! Concrete cases: the 3×3 demonstration matrix, with the entry `(2, 2)` changed from 4 to 9. -/

deriving instance DecidableEq for NumSt

/-- The result of `LDL_numeric` on the demonstration matrix. -/
def demoNum : NumSt ℚ :=
  { Lnz := [some 2, some 1, some 0], Li := [some 1, some 2, some 2],
    Lx := [some (1 / 2), some (1 / 2), some (-1 / 9)], D := [some 2, some (9 / 2), some (31 / 9)],
    Y := [some 0, some 0, some 0], Pattern := [some 0, some 0, some 1],
    Flag := [some 2, some 2, some 2] }

theorem demoNum_eq : LDL_numeric ((3 : Nat) : Int) demoP.toSmat.jc demoP.toSmat.ir demoP.toSmat.pr
    demoSym.Lp demoSym.Parent
    ⟨demoSym.Lnz, malloc 3, malloc 3, malloc 3, malloc 3, malloc 3, demoSym.Flag⟩
    (some (Buf.ofFn 3 (fun i => (demoPerm3 i : Int)))) demoSym.Pinv
    = .ok (((3 : Nat) : Int), demoNum) := by
  decide +kernel

/-- The new values. -/
def demoP9 : Csc ℚ := .lit 3 3 [0, 2, 5, 7] [0, 1, 0, 1, 2, 1, 2] [5, 1, 1, 2, 1, 1, 9]

theorem demoTr_eq : Transpose_Row_Count ((3 : Nat) : Int) ((3 : Nat) : Int) demoNum.Li demoSym.Lp
    (malloc 3) (malloc 4)
    = .ok ([some 0, some 0, some 1], [some 0, some 0, some 1, some 3]) := by decide +kernel

theorem demoP9_same : ∀ i k, i < 3 → k < 3 → i ≠ k ∨ k < 2 + 0 →
    demoP9.entry i k = demoP.entry i k := by
  intro i k hi hk h
  interval_cases i <;> interval_cases k <;> first | omega | decide +kernel

/-- A case of C69: only row 2 is marked, only row 2 changes. -/
example := C69_row_cache demoLdl demoP.toSmat_is.pr (A' := demoP9) (Ax' := demoP9.toSmat.pr)
  ⟨rfl, rfl, rfl, rfl⟩ demoP9.toSmat_is.pr (o := demoSym) (Pinv := some (malloc 3))
  (Lp0 := malloc 4) (Parent0 := malloc 3) (Lnz0 := malloc 3) (Flag0 := malloc 3)
  (by decide) (by decide) (by decide) (by decide) (fun _ => ⟨_, rfl, by decide⟩) (by simp)
  demoSym_eq (lnz := 3) (by decide +kernel) (Li := malloc 3) (Lx := malloc 3)
  (D := malloc 3) (Y := malloc 3) (Pattern := malloc 3) (by decide) (by decide)
  (by decide) (by decide) (by decide) demoNum_eq (Lti0 := malloc 3) (Ltp0 := malloc 4) (by decide)
  (by decide) demoTr_eq (u := fun i => if i = 2 then 3 else 0) (Buf.has_ofFn _ _)
  (by
    intro j l hj hu h
    interval_cases j
    · simp at hu
    · simp at hu
    · exact absurd h (by simp [rd, demoSym]))
  (by
    intro i k hi hk hu
    have hk2 : k ≠ 2 := by rintro rfl; simp at hu
    refine demoP9_same _ _ (demoPerm3_pair.p_lt i (by omega)) (demoPerm3_pair.p_lt k hk) (.inr ?_)
    interval_cases k
    · decide
    · decide
    · exact absurd rfl hk2)

/-- `k` is `i` or can be reached from `i` by following the links stored in `Parent`. -/
inductive Above (Parent : Buf Int) : Nat → Nat → Prop
  | refl (i : Nat) : Above Parent i i
  | step {i l k : Nat} : rd Parent i = .ok (l : Int) → Above Parent l k → Above Parent i k

/-- `Parent` is a forest on `0..N-1` with links to larger indices; roots hold `-1`. -/
def Forest (Parent : Buf Int) (N : Nat) : Prop :=
  ∀ j : Nat, j < N → rd Parent j = .ok (-1) ∨
    ∃ l : Nat, rd Parent j = .ok (l : Int) ∧ j < l ∧ l < N

theorem Above.trans {Parent : Buf Int} {i k l : Nat} (h : Above Parent i k)
    (h' : Above Parent k l) : Above Parent i l := by
  induction h with
  | refl => exact h'
  | step h1 _ ih => exact .step h1 (ih h')

theorem Above.inv {Parent : Buf Int} {i k : Nat} (h : Above Parent i k) (hne : i ≠ k) :
    ∃ l : Nat, rd Parent i = .ok (l : Int) ∧ Above Parent l k := by
  cases h with
  | refl => exact absurd rfl hne
  | step h1 h2 => exact ⟨_, h1, h2⟩

theorem Forest.le {Parent : Buf Int} {N : Nat} (hF : Forest Parent N) {i k : Nat}
    (h : Above Parent i k) (hi : i < N) : i ≤ k ∧ k < N := by
  induction h with
  | refl => exact ⟨le_rfl, hi⟩
  | @step i l k h1 _ ih =>
    rcases hF i hi with h3 | ⟨l', h3, h4, h5⟩
    · rw [h1] at h3; simp at h3
    · rw [h1] at h3
      simp only [Except.ok.injEq, Nat.cast_inj] at h3
      subst h3
      have := ih h5
      omega

theorem Above.linear {Parent : Buf Int} {i k m : Nat} (h : Above Parent i k)
    (h' : Above Parent i m) : Above Parent k m ∨ Above Parent m k := by
  induction h with
  | refl => exact .inl h'
  | @step i l k h1 h2 ih =>
    by_cases e : i = m
    · exact .inr (e ▸ .step h1 h2)
    · obtain ⟨l', h3, h4⟩ := h'.inv e
      rw [h1] at h3
      simp only [Except.ok.injEq, Nat.cast_inj] at h3
      subst h3
      exact ih h4

/-- The top node is above everything above something below it. -/
theorem Forest.top {Parent : Buf Int} {N : Nat} (hF : Forest Parent N) {i k : Nat} (hi : i < N)
    (h : Above Parent i (N - 1)) (h' : Above Parent i k) : Above Parent k (N - 1) := by
  rcases h'.linear h with h1 | h1
  · exact h1
  · have h2 := hF.le h1 (by omega)
    have : k = N - 1 := by omega
    rw [this]; exact .refl _

open Classical in
theorem reach_ok {Parent : Buf Int} {N : Nat} (hF : Forest Parent N) {u : Nat → Int}
    (hu : ∀ k, k < N → u k ≠ N) : ∀ (d i fuel : Nat) (U : Buf Int) (W : Nat → Prop),
    N - i ≤ d → d ≤ fuel → i < N → Buf.Has U N (fun k => if W k then (N : Int) else u k) →
    Above Parent i (N - 1) → W (N - 1) →
    (∀ k l, i ≤ k → k < N → W k → Above Parent k l → W l) →
    Spec (whileM fuel
      (fun s : Int × Buf Int => do
        let u ← rd s.2 s.1
        pure (decide (u ≠ (N : Int)) && decide (s.1 ≠ -1)))
      (fun s => do
        let U ← wr s.2 s.1 (N : Int)
        let next ← rd Parent s.1
        pure (next, U)) ((i : Int), U)) (fun r => r.2.length = U.length ∧
          Buf.Has r.2 N (fun k => if W k ∨ Above Parent i k then (N : Int) else u k)) := by
  intro d
  induction d with
  | zero => intro i fuel U W h1 h2 h3; omega
  | succ d ih =>
    intro i fuel U W h1 h2 h3 hU hA hT hW
    unfold whileM
    simp only [hU.rd h3, ok_bind]
    by_cases hwi : W i
    · simp only [hwi, if_true, ne_eq, not_true, decide_false, Bool.false_and, pure_eq_ok, ok_bind]
      refine ⟨_, rfl, rfl, hU.congr ?_⟩
      intro k hk
      have : (W k ∨ Above Parent i k) ↔ W k :=
        ⟨fun h => h.elim id (fun h => hW i k le_rfl h3 hwi h), .inl⟩
      simp only [this]
    · have hne : i ≠ N - 1 := fun e => hwi (e ▸ hT)
      obtain ⟨l, hl, hA'⟩ := hA.inv hne
      have hil : i < l ∧ l < N := by
        rcases hF i h3 with h4 | ⟨l', h4, h5, h6⟩
        · rw [hl] at h4; simp at h4
        · rw [hl] at h4
          simp only [Except.ok.injEq, Nat.cast_inj] at h4
          subst h4; exact ⟨h5, h6⟩
      have hc : (decide (u i ≠ (N : Int)) && decide ((i : Int) ≠ -1)) = true := by
        have := hu i h3
        have h7 : (i : Int) ≠ -1 := by omega
        simp [this, h7]
      simp only [hwi, if_false, hc, pure_eq_ok, ok_bind, if_true]
      obtain ⟨f, rfl⟩ : ∃ f, fuel = f + 1 := ⟨fuel - 1, by omega⟩
      have hlen := hU.le_length
      simp only
      rw [wr_ok (by omega : i < U.length), ok_bind, hl, ok_bind]
      have hU2 := hU.set (i := i) (by omega) (N : Int)
      refine (ih l f _ (fun k => W k ∨ k = i) (by omega) (by omega) hil.2
        (hU2.congr ?_) hA' (.inl hT) ?_).mono ?_
      · intro k hk
        by_cases e : k = i
        · subst e; simp
        · simp [e]
      · intro k m hk hkN hw hm
        rcases hw with hw | hw
        · exact .inl (hW k m (by omega) hkN hw hm)
        · omega
      · rintro r ⟨h8, h9⟩
        refine ⟨by rw [h8]; simp, h9.congr ?_⟩
        intro k hk
        have : ((W k ∨ k = i) ∨ Above Parent l k) ↔ (W k ∨ Above Parent i k) := by
          constructor
          · rintro ((h | h) | h)
            · exact .inl h
            · exact .inr (h ▸ .refl _)
            · exact .inr (.step hl h)
          · rintro (h | h)
            · exact .inl (.inl h)
            · by_cases e : k = i
              · exact .inl (.inr e)
              · obtain ⟨l', h4, h5⟩ := h.inv (Ne.symm e)
                rw [hl] at h4
                simp only [Except.ok.injEq, Nat.cast_inj] at h4
                subst h4; exact .inr h5
        simp only [this]

open Classical in
theorem reach_bad {Parent : Buf Int} {N : Nat} (hF : Forest Parent N) {u : Nat → Int}
    (hu : ∀ k, k < N → u k ≠ N) : ∀ (d i fuel : Nat) (U : Buf Int) (W : Nat → Prop),
    N - i ≤ d → d ≤ fuel → i < N → Buf.Has U N (fun k => if W k then (N : Int) else u k) →
    ¬ Above Parent i (N - 1) → (∀ k, i ≤ k → k < N → W k → Above Parent k (N - 1)) →
    whileM fuel
      (fun s : Int × Buf Int => do
        let u ← rd s.2 s.1
        pure (decide (u ≠ (N : Int)) && decide (s.1 ≠ -1)))
      (fun s => do
        let U ← wr s.2 s.1 (N : Int)
        let next ← rd Parent s.1
        pure (next, U)) ((i : Int), U) = .error .oob := by
  intro d
  induction d with
  | zero => intro i fuel U W h1 h2 h3; omega
  | succ d ih =>
    intro i fuel U W h1 h2 h3 hU hA hW
    unfold whileM
    simp only [hU.rd h3, ok_bind]
    have hwi : ¬ W i := fun h => hA (hW i le_rfl h3 h)
    have hc : (decide (u i ≠ (N : Int)) && decide ((i : Int) ≠ -1)) = true := by
      have := hu i h3
      have h7 : (i : Int) ≠ -1 := by omega
      simp [this, h7]
    simp only [hwi, if_false, hc, pure_eq_ok, ok_bind, if_true]
    obtain ⟨f, rfl⟩ : ∃ f, fuel = f + 1 := ⟨fuel - 1, by omega⟩
    have hlen := hU.le_length
    simp only
    rw [wr_ok (by omega : i < U.length), ok_bind]
    rcases hF i h3 with hl | ⟨l, hl, h5, h6⟩
    · rw [hl, ok_bind]
      have : rd (U.set i (some (N : Int))) (-1) = .error .oob := by
        unfold rd; rw [if_pos (by omega)]
      refine whileM_cond_err ?_
      simp only [this, error_bind]
    · rw [hl, ok_bind]
      have hU2 := hU.set (i := i) (by omega) (N : Int)
      refine ih l f _ (fun k => W k ∨ k = i) (by omega) (by omega) h6 (hU2.congr ?_)
        (fun h => hA (.step hl h)) ?_
      · intro k hk
        by_cases e : k = i
        · subst e; simp
        · simp [e]
      · intro k hk hkN hw
        rcases hw with hw | hw
        · exact hW k (by omega) hkN hw
        · omega

open Classical in
theorem reach_loop {Parent Pinv : Buf Int} {N : Nat} (hF : Forest Parent N) {u : Nat → Int}
    (hu : ∀ k, k < N → u k ≠ N) {q : Nat → Nat} (hq : ∀ j, j < N → q j < N)
    (hQ : Buf.Has Pinv N (fun j => (q j : Int))) : ∀ (c j : Nat) (U : Buf Int) (W : Nat → Prop),
    j + c = N → Buf.Has U N (fun k => if W k then (N : Int) else u k) → W (N - 1) →
    (∀ k l, k < N → W k → Above Parent k l → W l) →
    (∀ k, k < N → W k → Above Parent k (N - 1)) →
    ((∀ i, j ≤ i → i < N → Above Parent (q i) (N - 1)) →
      Spec (forN c (j : Int) U (fun j U => do
        let i ← rd Pinv j
        reachPath (N : Int) Parent i U)) (fun U' => U'.length = U.length ∧ Buf.Has U' N (fun k =>
          if W k ∨ (∃ i, j ≤ i ∧ i < N ∧ Above Parent (q i) k) then (N : Int) else u k))) ∧
    ((∃ i, j ≤ i ∧ i < N ∧ ¬ Above Parent (q i) (N - 1)) →
      forN c (j : Int) U (fun j U => do
        let i ← rd Pinv j
        reachPath (N : Int) Parent i U) = .error .oob) := by
  intro c
  induction c with
  | zero =>
    intro j U W hj hU _ _ _
    refine ⟨fun _ => ⟨_, rfl, rfl, hU.congr ?_⟩, fun ⟨i, h1, h2, _⟩ => by omega⟩
    intro k hk
    have : (W k ∨ (∃ i, j ≤ i ∧ i < N ∧ Above Parent (q i) k)) ↔ W k :=
      ⟨fun h => h.elim id (fun ⟨i, h1, h2, _⟩ => by omega), .inl⟩
    simp only [this]
  | succ c ih =>
    intro j U W hj hU hT hW hR
    have hjN : j < N := by omega
    have hqj := hq j hjN
    have estep : forN (c + 1) (j : Int) U (fun j U => do
        let i ← rd Pinv j
        reachPath (N : Int) Parent i U) = (reachPath (N : Int) Parent (q j : Int) U >>= fun U =>
          forN c ((j + 1 : Nat) : Int) U (fun j U => do
            let i ← rd Pinv j
            reachPath (N : Int) Parent i U)) := by
      simp only [forN, hQ.rd hjN, ok_bind]
      push_cast; rfl
    rw [estep]
    by_cases hA : Above Parent (q j) (N - 1)
    · obtain ⟨⟨c', U1⟩, e1, h1, h2⟩ := reach_ok hF hu (N - q j) (q j) N U W le_rfl (by omega) hqj
        hU hA hT (fun k l _ hk => hW k l hk)
      have e2 : reachPath (N : Int) Parent (q j : Int) U = .ok U1 := by
        unfold reachPath
        simp only [Int.toNat_natCast]
        simp only [ne_eq] at e1 ⊢
        rw [e1]; rfl
      rw [e2, ok_bind]
      have hstep := ih (j + 1) U1 (fun k => W k ∨ Above Parent (q j) k) (by omega)
        (h2.congr (fun k _ => by congr)) (.inl hT)
        (fun k l hk hw hl => hw.elim (fun h => .inl (hW k l hk h hl)) (fun h => .inr (h.trans hl)))
        (fun k hk hw => hw.elim (fun h => hR k hk h) (fun h => hF.top hqj hA h))
      constructor
      · intro hall
        refine (hstep.1 (fun i h3 h4 => hall i (by omega) h4)).mono ?_
        rintro U' ⟨h5, h6⟩
        refine ⟨by rw [h5]; exact h1, h6.congr ?_⟩
        intro k hk
        have : ((W k ∨ Above Parent (q j) k) ∨ (∃ i, j + 1 ≤ i ∧ i < N ∧ Above Parent (q i) k)) ↔
            (W k ∨ (∃ i, j ≤ i ∧ i < N ∧ Above Parent (q i) k)) := by
          constructor
          · rintro ((h | h) | ⟨i, h7, h8, h9⟩)
            · exact .inl h
            · exact .inr ⟨j, le_rfl, hjN, h⟩
            · exact .inr ⟨i, by omega, h8, h9⟩
          · rintro (h | ⟨i, h7, h8, h9⟩)
            · exact .inl (.inl h)
            · by_cases e : i = j
              · exact .inl (.inr (e ▸ h9))
              · exact .inr ⟨i, by omega, h8, h9⟩
        simp only [this]
      · rintro ⟨i, h3, h4, h5⟩
        have hij : i ≠ j := fun e => h5 (e ▸ hA)
        exact hstep.2 ⟨i, by omega, h4, h5⟩
    · have e1 := reach_bad hF hu (N - q j) (q j) N U W le_rfl (by omega) hqj hU hA
        (fun k _ hk => hR k hk)
      have e2 : reachPath (N : Int) Parent (q j : Int) U = .error .oob := by
        unfold reachPath
        simp only [Int.toNat_natCast]
        simp only [ne_eq] at e1 ⊢
        rw [e1]; rfl
      rw [e2]
      exact ⟨fun h => absurd (h j le_rfl hjN) hA, fun _ => rfl⟩

open Classical in
theorem test_reach_both {nx ni ne N : Nat} (hN : nx + ni + ne = N) (h0 : 0 < N)
    {Parent Pinv U : Buf Int} (hF : Forest Parent N) {q : Nat → Nat} (hq : ∀ j, j < N → q j < N)
    (hQ : Buf.Has Pinv N (fun j => (q j : Int))) {u : Nat → Int} (hU : Buf.Has U N u)
    (hu : ∀ k, k < N → u k ≠ N) :
    ((∀ j, nx + ne ≤ j → j < N → Above Parent (q j) (N - 1)) →
      ∃ U', test_reach Parent Pinv U nx ni ne = .ok U' ∧ U'.length = U.length ∧
        Buf.Has U' N (fun k => if k = N - 1 ∨ (∃ j, nx + ne ≤ j ∧ j < N ∧ Above Parent (q j) k)
          then (N : Int) else u k)) ∧
    ((∃ j, nx + ne ≤ j ∧ j < N ∧ ¬ Above Parent (q j) (N - 1)) →
      test_reach Parent Pinv U nx ni ne = .error .oob) := by
  have hlen := hU.le_length
  have e : test_reach Parent Pinv U nx ni ne
      = forN ni ((nx + ne : Nat) : Int) (U.set (N - 1) (some (N : Int))) (fun j U => do
        let i ← rd Pinv j
        reachPath (N : Int) Parent i U) := by
    unfold test_reach
    have e1 : (nx : Int) + ni + ne = N := by omega
    have e2 : (nx : Int) + ni + ne - 1 = ((N - 1 : Nat) : Int) := by omega
    rw [e2, e1]
    simp only
    rw [wr_ok (by omega : N - 1 < U.length), ok_bind]
    unfold forI
    have e3 : ((nx : Int) + ne + ni - (nx + ne)).toNat = ni := by omega
    rw [e3]
    push_cast; rfl
  have hU2 : Buf.Has (U.set (N - 1) (some (N : Int))) N
      (fun k => if k = N - 1 then (N : Int) else u k) :=
    (hU.set (i := N - 1) (by omega) (N : Int)).congr (fun k _ => by
      by_cases e : k = N - 1 <;> simp [e])
  have hr : ∀ l, Above Parent (N - 1) l → l = N - 1 := fun l h => by
    have := hF.le h (by omega); omega
  have hs := reach_loop hF hu hq hQ ni (nx + ne) _ (fun k => k = N - 1) (by omega)
    (hU2.congr (fun k _ => by congr)) rfl
    (fun k l _ hk hl => hr l (hk ▸ hl)) (fun k _ hk => hk ▸ .refl _)
  rw [e]
  refine ⟨fun h => ?_, hs.2⟩
  obtain ⟨U', h1, h2, h3⟩ := hs.1 h
  exact ⟨U', h1, by rw [h2]; simp, h3.congr (fun k _ => by congr)⟩

open Classical in
/-- **C70**: let `Parent` be a forest with links to larger indices, and let no cell of `UPattern`
hold `N` at entry. If the path from the (permuted) position of every inequality constraint reaches
the last node, `test_reach` succeeds and marks exactly the last node and the nodes on these
paths. -/
theorem C70_reach {nx ni ne N : Nat} (hN : nx + ni + ne = N) (h0 : 0 < N)
    {Parent Pinv U : Buf Int} (hF : Forest Parent N) {q : Nat → Nat} (hq : ∀ j, j < N → q j < N)
    (hQ : Buf.Has Pinv N (fun j => (q j : Int))) {u : Nat → Int} (hU : Buf.Has U N u)
    (hu : ∀ k, k < N → u k ≠ N)
    (hroot : ∀ j, nx + ne ≤ j → j < N → Above Parent (q j) (N - 1)) :
    ∃ U', test_reach Parent Pinv U nx ni ne = .ok U' ∧ U'.length = U.length ∧
      (∀ k : Nat, k < N → (rd U' k = .ok (N : Int) ↔
        k = N - 1 ∨ ∃ j, nx + ne ≤ j ∧ j < N ∧ Above Parent (q j) k)) ∧
      (∀ k : Nat, k < N → rd U' k = .ok (N : Int) ∨ rd U' k = rd U k) := by
  obtain ⟨U', h1, h2, h3⟩ := (test_reach_both hN h0 hF hq hQ hU hu).1 hroot
  refine ⟨U', h1, h2, fun k hk => ?_, fun k hk => ?_⟩
  · rw [h3.rd hk]
    by_cases hc : k = N - 1 ∨ ∃ j, nx + ne ≤ j ∧ j < N ∧ Above Parent (q j) k
    · simp only [hc, if_true]
    · simp only [hc, if_false, iff_false, Except.ok.injEq]
      exact hu k hk
  · rw [h3.rd hk, hU.rd hk]
    by_cases hc : k = N - 1 ∨ ∃ j, nx + ne ≤ j ∧ j < N ∧ Above Parent (q j) k
    · exact .inl (by simp only [hc, if_true])
    · exact .inr (by simp only [hc, if_false])

/-- **C70**, the other case: as soon as one of these paths ends in another root, `test_reach` reads
`UPattern[-1]`. -/
theorem C70_other_root {nx ni ne N : Nat} (hN : nx + ni + ne = N) (h0 : 0 < N)
    {Parent Pinv U : Buf Int} (hF : Forest Parent N) {q : Nat → Nat} (hq : ∀ j, j < N → q j < N)
    (hQ : Buf.Has Pinv N (fun j => (q j : Int))) {u : Nat → Int} (hU : Buf.Has U N u)
    (hu : ∀ k, k < N → u k ≠ N)
    (hbad : ∃ j, nx + ne ≤ j ∧ j < N ∧ ¬ Above Parent (q j) (N - 1)) :
    test_reach Parent Pinv U nx ni ne = .error .oob :=
  (test_reach_both hN h0 hF hq hQ hU hu).2 hbad

/-- **C70**: with `UPattern` as `QP_SETUP` leaves it (allocated, never written) `test_reach` reads
an uninitialised cell, unless the first inequality constraint is the last node or there is none. -/
theorem C70_uninit {nx ni ne N : Nat} (hN : nx + ni + ne = N) (hi : 0 < ni)
    {Parent Pinv : Buf Int} {q : Nat → Nat} (hq : ∀ j, j < N → q j < N)
    (hQ : Buf.Has Pinv N (fun j => (q j : Int))) (hne : q (nx + ne) ≠ N - 1) :
    test_reach Parent Pinv (malloc N) nx ni ne = .error .uninit := by
  have e1 : (nx : Int) + ni + ne = N := by omega
  have e2 : (nx : Int) + ni + ne - 1 = ((N - 1 : Nat) : Int) := by omega
  unfold test_reach
  rw [e2, e1]
  simp only
  rw [wr_ok (by simp [malloc]; omega), ok_bind]
  unfold forI
  have e3 : ((nx : Int) + ne + ni - (nx + ne)).toNat = (ni - 1) + 1 := by omega
  have e4 : (nx : Int) + ne = ((nx + ne : Nat) : Int) := by push_cast; rfl
  rw [e3, e4]
  have hlt : nx + ne < N := by omega
  simp only [forN, hQ.rd hlt, ok_bind]
  have hr : rd ((malloc N : Buf Int).set (N - 1) (some (N : Int))) (q (nx + ne) : Int)
      = .error .uninit := by
    have h1 := hq _ hlt
    have : ((malloc N : Buf Int).set (N - 1) (some (N : Int)))[q (nx + ne)]? = some none := by
      rw [List.getElem?_set_ne (Ne.symm hne)]
      simp [malloc, h1]
    unfold rd
    rw [if_neg (by omega), Int.toNat_natCast, this]
  unfold reachPath whileM
  simp only [hr, error_bind]

/-- The forest of the demonstration matrix: 0 → 1 → 2. -/
theorem demoForest : Forest demoSym.Parent 3 := by
  intro j hj
  interval_cases j
  · exact .inr ⟨1, by decide, by omega, by omega⟩
  · exact .inr ⟨2, by decide, by omega, by omega⟩
  · exact .inl (by decide)

theorem demoAbove (i : Nat) (h : i < 3) : Above demoSym.Parent i (3 - 1) := by
  have h2 : Above demoSym.Parent 2 (3 - 1) := .refl 2
  have h1 : Above demoSym.Parent 1 (3 - 1) := .step (l := 2) (by decide) h2
  interval_cases i
  · exact .step (l := 1) (by decide) h1
  · exact h1
  · exact h2

/-- A case of C70 with one variable and two inequality constraints. -/
example := C70_reach (nx := 1) (ni := 2) (ne := 0) (N := 3) (by rfl) (by omega) demoForest
  (fun j hj => demoPerm3_pair.q_lt j hj) (Buf.has_ofFn _ _) (u := fun _ => 0) (Buf.has_ofFn _ _)
  (by simp) (fun j _ hj => demoAbove _ (demoPerm3_pair.q_lt j hj))

/-- With one constraint only the last node is marked. -/
example : test_reach demoSym.Parent [some 1, some 0, some 2] [some 0, some 0, some 0] 2 1 0
    = .ok [some 0, some 0, some 3] := by decide +kernel

/-- A forest of two trees, `0` and `1 → 2`. -/
theorem demoForest2 : Forest [some (-1), some 2, some (-1)] 3 := by
  intro j hj
  interval_cases j
  · exact .inl (by decide)
  · exact .inr ⟨2, by decide, by omega, by omega⟩
  · exact .inl (by decide)

/-- A case of the second alternative: the constraint is node 0, which is a root. -/
example := C70_other_root (nx := 1) (ni := 2) (ne := 0) (N := 3) (by rfl) (by omega) demoForest2
  (fun j hj => demoPerm3_pair.q_lt j hj) (Buf.has_ofFn _ _) (u := fun _ => 0) (Buf.has_ofFn _ _)
  (by simp) ⟨1, by omega, by omega, fun h => by
    obtain ⟨l, h1, _⟩ := Above.inv h (by decide)
    have : rd ([some (-1), some 2, some (-1)] : Buf Int) (demoPerm3 1 : Int) = .ok (-1) := by decide
    rw [this] at h1
    simp at h1⟩

example := C70_uninit (nx := 1) (ni := 2) (ne := 0) (N := 3) (by rfl) (by omega)
  (Parent := demoSym.Parent) (q := demoPerm3) (fun j hj => demoPerm3_pair.q_lt j hj)
  (Buf.has_ofFn _ _) (by decide)

section

variable {K : Type} [Field K] [LinearOrder K] [IsStrictOrderedRing K] [Scalar K] [LawfulScalar K]

open Classical in
/-- **C70** and **C69** together: if the new matrix differs from the factorised one only on the
diagonal of the inequality block (as the KKT matrix does from one iteration to the next), then
`test_reach` followed by `LDL_row_cache_numeric` computes exactly the factor and the pivots that a
full `LDL_numeric` computes. -/
theorem C70_refactor {nx ni ne n : Nat} (hn : nx + ni + ne = n) (h0 : 0 < n) {A A' : Csc K}
    {p q : Nat → Nat} {Ap Ai P0 Pinv0 : Buf Int} {Ax Ax' : Buf K}
    (h : LdlArgs n A p q Ap Ai (some P0)) (hAx : Buf.Has Ax A.nnz A.pr)
    (hA' : A'.m = A.m ∧ A'.n = A.n ∧ A'.jc = A.jc ∧ A'.ir = A.ir)
    (hAx' : Buf.Has Ax' A'.nnz A'.pr)
    (hsame : ∀ i k, i < n → k < n → i ≠ k ∨ k < nx + ne → A'.entry i k = A.entry i k)
    {Lp0 Parent0 Lnz0 Flag0 : Buf Int} (hLp : n + 1 ≤ Lp0.length) (hPar : n ≤ Parent0.length)
    (hLnz : n ≤ Lnz0.length) (hFlag : n ≤ Flag0.length) (hPinv : n ≤ Pinv0.length)
    {o : SymOut} (ho : LDL_symbolic n Ap Ai Lp0 Parent0 Lnz0 Flag0 (some P0) (some Pinv0) = .ok o)
    {lnz : Nat} (hlnz : rd o.Lp n = .ok (lnz : Int)) {Li Pattern : Buf Int} {Lx D Y : Buf K}
    (hLi : lnz ≤ Li.length) (hLx : lnz ≤ Lx.length) (hD : n ≤ D.length) (hY : n ≤ Y.length)
    (hPat : n ≤ Pattern.length) {st : NumSt K}
    (hst : LDL_numeric n Ap Ai Ax o.Lp o.Parent ⟨o.Lnz, Li, Lx, D, Y, Pattern, o.Flag⟩ (some P0)
      o.Pinv = .ok ((n : Int), st))
    {Lti0 Ltp0 Lti Ltp : Buf Int} (hLti : lnz ≤ Lti0.length) (hLtp : n + 1 ≤ Ltp0.length)
    (htr : Transpose_Row_Count n n st.Li o.Lp Lti0 Ltp0 = .ok (Lti, Ltp))
    {u : Nat → Int} {U : Buf Int} (hU : Buf.Has U n u) (hu : ∀ k, k < n → u k ≠ n)
    (hroot : ∀ j, nx + ne ≤ j → j < n → Above o.Parent (q j) (n - 1)) :
    ∃ Pinv U' r st', o.Pinv = some Pinv ∧ test_reach o.Parent Pinv U nx ni ne = .ok U' ∧
      LDL_row_cache_numeric n Ap Ai Ax' Ltp Lti st.Li o.Lp ⟨st.Lx, st.D, st.Y⟩ (some P0) o.Pinv U'
        = .ok ((n : Int), r) ∧
      LDL_numeric n Ap Ai Ax' o.Lp o.Parent st (some P0) o.Pinv = .ok ((n : Int), st') ∧
      (∀ x : Nat, x < lnz → rd st'.Li x = rd st.Li x ∧
        ∃ v, rd r.Lx x = .ok v ∧ rd st'.Lx x = .ok v) ∧
      (∀ j : Nat, j < n → ∃ v, rd r.D j = .ok v ∧ rd st'.D j = .ok v) := by
  have hs := LDL_symbolic_spec h hLp hPar hLnz hFlag (fun _ => ⟨_, rfl, hPinv⟩) (by simp)
  obtain ⟨hd, _, _, _, _, hl⟩ := hs.elim ho
  obtain ⟨Pinv, hPv⟩ : ∃ Q, o.Pinv = some Q := by
    cases e : o.Pinv with
    | none => rw [e] at hl; simp at hl
    | some Q => exact ⟨Q, rfl⟩
  have hQ : Buf.Has Pinv n (fun j => (q j : Int)) := by
    have := hd.pinv; rw [hPv] at this; exact this
  have hF : Forest o.Parent n := by
    intro j hj
    rw [hd.parent.rd hj]
    cases ht : tree (permPat A p q) n j with
    | none => exact .inl rfl
    | some l => exact .inr ⟨l, rfl, (tree_spec ht).1, (tree_spec ht).2.1⟩
  obtain ⟨U', e1, _, h3⟩ := (test_reach_both hn h0 hF (fun j hj => h.perm.q_lt j hj) hQ hU hu).1 hroot
  have hmark : ∀ k, k < n → ((if k = n - 1 ∨ (∃ j, nx + ne ≤ j ∧ j < n ∧ Above o.Parent (q j) k)
      then (n : Int) else u k) = n ↔
      (k = n - 1 ∨ (∃ j, nx + ne ≤ j ∧ j < n ∧ Above o.Parent (q j) k))) := by
    intro k hk
    by_cases hc : k = n - 1 ∨ ∃ j, nx + ne ≤ j ∧ j < n ∧ Above o.Parent (q j) k
    · simp only [hc, if_true]
    · simp only [hc, if_false, iff_false]; exact hu k hk
  obtain ⟨r, st', g1, g2, g3, g4⟩ := C69_row_cache h hAx hA' hAx' hLp hPar hLnz hFlag
    (fun _ => ⟨_, rfl, hPinv⟩) (by simp) ho hlnz hLi hLx hD hY hPat hst hLti hLtp htr h3
    (by
      intro j l hj hm hp
      have hl : j < l ∧ l < n := by
        rcases hF j hj with h4 | ⟨l', h4, h5, h6⟩
        · rw [hp] at h4; simp at h4
        · rw [hp] at h4
          simp only [Except.ok.injEq, Nat.cast_inj] at h4
          subst h4; exact ⟨h5, h6⟩
      rw [hmark l hl.2]
      rcases (hmark j hj).mp hm with hm | ⟨i, h4, h5, h6⟩
      · omega
      · exact .inr ⟨i, h4, h5, h6.trans (.step hp (.refl _))⟩)
    (by
      intro i k hi hk hm
      have hpi := h.perm.p_lt i (by omega)
      have hpk := h.perm.p_lt k hk
      refine hsame _ _ hpi hpk ?_
      by_contra hc
      rw [not_or, not_not] at hc
      refine hm ((hmark k hk).mpr (.inr ⟨p k, by omega, hpk, ?_⟩))
      rw [h.perm.qp k hk]
      exact .refl _)
  exact ⟨Pinv, U', r, st', hPv, e1, g1, g2, g3, g4⟩

end

/-- A case: two variables, one inequality constraint. -/
example := C70_refactor (nx := 2) (ni := 1) (ne := 0) (n := 3) rfl (by omega) demoLdl
  demoP.toSmat_is.pr (A' := demoP9) (Ax' := demoP9.toSmat.pr)
  ⟨rfl, rfl, rfl, rfl⟩ demoP9.toSmat_is.pr demoP9_same (o := demoSym) (Pinv0 := malloc 3)
  (Lp0 := malloc 4) (Parent0 := malloc 3) (Lnz0 := malloc 3) (Flag0 := malloc 3)
  (by decide) (by decide) (by decide) (by decide) (by decide)
  demoSym_eq (lnz := 3) (by decide +kernel) (Li := malloc 3) (Lx := malloc 3)
  (D := malloc 3) (Y := malloc 3) (Pattern := malloc 3) (by decide) (by decide)
  (by decide) (by decide) (by decide) demoNum_eq (Lti0 := malloc 3) (Ltp0 := malloc 4) (by decide)
  (by decide) demoTr_eq (u := fun _ => 0) (Buf.has_ofFn _ _) (by simp)
  (fun j _ hj => demoAbove _ (demoPerm3_pair.q_lt j hj))

/-- … and the run: the pivot of row 2 grows by 5, everything else is kept. -/
example : (do
    let (r, st) ← LDL_row_cache_numeric 3 demoP9.toSmat.jc demoP9.toSmat.ir demoP9.toSmat.pr
      [some 0, some 0, some 1, some 3] [some 0, some 0, some 1] demoNum.Li demoSym.Lp
      ⟨demoNum.Lx, demoNum.D, demoNum.Y⟩ (some (Buf.ofFn 3 (fun i => (demoPerm3 i : Int))))
      demoSym.Pinv [some 0, some 0, some 3]
    pure (r, st.Lx, st.D)) =
    .ok (3, [some (1 / 2), some (1 / 2), some (-1 / 9)],
      [some 2, some (9 / 2), some (76 / 9)]) := by decide +kernel

end Verif
