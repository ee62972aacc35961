import Verif.Props.Setup

/-! # Problems given in dense form -/

set_option linter.unusedSectionVars false

namespace Verif

variable {K : Type} [Zero K] [One K] [Add K] [Sub K] [Mul K] [Div K] [Neg K] [Scalar K]

/-- Every dense matrix has a compressed form. -/
theorem denseCsc_compresses (rows cols : Nat) (d : Nat → Nat → K) :
    (denseCsc rows cols d).Compresses rows cols d where
  m := rfl
  n := rfl
  wf := denseCsc_wf rows cols d
  sorted := denseCsc_sorted rows cols d
  stored := by
    intro r c hr hc
    have hj : (denseCsc rows cols d).jc = offs (dcol d rows) := rfl
    constructor
    · rintro ⟨k, h1, h2, h3⟩
      rw [hj] at h1 h2
      rw [offs_succ] at h2
      obtain ⟨q, rfl⟩ : ∃ q, k = offs (dcol d rows) c + q := ⟨k - offs (dcol d rows) c, by omega⟩
      have he : (dcol d rows c)[q]? = some (dcol d rows c)[q] := List.getElem?_eq_getElem (by omega)
      have h4 := Csc.ofCols_ir rows cols (dcol d rows) hc he
      have hm := List.mem_of_getElem? he
      simp only [dcol, List.mem_filterMap, List.mem_range] at hm
      obtain ⟨r', hr', hh⟩ := hm
      by_cases hz : Scalar.eqb (d r' c) 0 = true
      · rw [if_pos hz] at hh; cases hh
      · rw [if_neg hz] at hh
        have h5 : r' = r := by
          rw [← h3]
          unfold denseCsc
          rw [h4]
          exact (congrArg Prod.fst (Option.some.inj hh))
        rw [← h5]
        simpa using hz
    · intro hz
      have hm : (r, d r c) ∈ dcol d rows c := by
        simp only [dcol, List.mem_filterMap, List.mem_range]
        exact ⟨r, hr, by simp [hz]⟩
      obtain ⟨q, hq, he⟩ := List.getElem_of_mem hm
      have he' : (dcol d rows c)[q]? = some (r, d r c) := by
        rw [List.getElem?_eq_getElem hq, he]
      refine ⟨offs (dcol d rows) c + q, ?_, ?_, ?_⟩
      · rw [hj]; omega
      · rw [hj, offs_succ]; omega
      · exact Csc.ofCols_ir rows cols (dcol d rows) hc he'
  value := by
    intro c hc k h1 h2
    have hj : (denseCsc rows cols d).jc = offs (dcol d rows) := rfl
    rw [hj] at h1 h2
    rw [offs_succ] at h2
    obtain ⟨q, rfl⟩ : ∃ q, k = offs (dcol d rows) c + q := ⟨k - offs (dcol d rows) c, by omega⟩
    have he : (dcol d rows c)[q]? = some (dcol d rows c)[q] := List.getElem?_eq_getElem (by omega)
    have h3 := Csc.ofCols_pr rows cols (dcol d rows) hc he
    have h4 := Csc.ofCols_ir rows cols (dcol d rows) hc he
    have hm := List.mem_of_getElem? he
    simp only [dcol, List.mem_filterMap, List.mem_range] at hm
    obtain ⟨r', hr', hh⟩ := hm
    by_cases hz : Scalar.eqb (d r' c) 0 = true
    · rw [if_pos hz] at hh; cases hh
    · rw [if_neg hz] at hh
      have h5 := Option.some.inj hh
      unfold denseCsc
      rw [h3, h4]
      simp only [dcol]
      rw [← h5]

/-- Every row of a compressed dense matrix has a stored entry iff every row of the dense matrix has
an entry that does not compare equal to zero. -/
theorem Csc.Compresses.rows_iff {A : Csc K} {rows cols : Nat} {d : Nat → Nat → K}
    (h : A.Compresses rows cols d) :
    A.RowsNonempty ↔ ∀ r, r < rows → ∃ c, c < cols ∧ Scalar.eqb (d r c) 0 = false := by
  constructor
  · intro hr r hrr
    obtain ⟨k, hk, e⟩ := hr r (by rw [h.m]; exact hrr)
    obtain ⟨c, hc, h1, h2⟩ := h.wf.exists_col hk
    rw [h.n] at hc
    exact ⟨c, hc, (h.stored r c hrr hc).mp ⟨k, h1, h2, e⟩⟩
  · intro hr r hrr
    rw [h.m] at hrr
    obtain ⟨c, hc, hz⟩ := hr r hrr
    obtain ⟨k, h1, h2, e⟩ := (h.stored r c hrr hc).mpr hz
    exact ⟨k, lt_of_lt_of_le h2 (h.wf.le_nnz (c := c + 1) (by rw [h.n]; exact hc)), e⟩

/-- The problem described by dense arrays, given by functions, in the stated order. -/
def denseProblem (ordering : Int) (n m p : Nat) (P A G c b h : Nat → K) : Problem K where
  P := denseCsc n n (denseAt ordering n n P)
  A := if p = 0 then Csc.empty n else denseCsc p n (denseAt ordering p n A)
  G := denseCsc m n (denseAt ordering m n G)
  c := c
  b := b
  h := h
  sigma_d := Scalar.dec 0 0

/-- A problem given in dense form is the same problem given in sparse form, for some arguments of
the sparse setup with the same permutation and the same `p`. -/
theorem DenseArgs.Give.sparse {da : DenseArgs K} {pb : Problem K} (h : da.Give pb) (amd : Amd) :
    ∃ a : SetupArgs K, QP_SETUP_dense amd da = QP_SETUP amd a ∧ a.Give pb ∧ a.Permut = da.Permut ∧
      a.p = da.p := by
  obtain ⟨fP, hP, cP⟩ := h.P
  obtain ⟨fG, hG, cG⟩ := h.G
  rcases h.eq with ⟨Apr, B, fA, e1, e2, e3, e4, e5, e6, e7⟩ | ⟨e1, e2⟩
  · refine ⟨_, C33_dense_eq_sparse amd h.n h.m e3 hP hG (fA := fA) ?_ cP cG e6, ?_, rfl, e3.symm⟩
    · intro B' b' hB' _
      rw [e1] at hB'
      cases hB'
      exact e5
    · refine ⟨rfl, rfl, pb.P.toSmat_is.jc, pb.P.toSmat_is.ir, pb.P.toSmat_is.pr, pb.G.toSmat_is.jc,
        pb.G.toSmat_is.ir, pb.G.toSmat_is.pr, h.c, h.h, h.sigma_d.symm, Or.inl ?_⟩
      refine ⟨_, _, _, B, by rw [e1]; rfl, by rw [e1]; rfl, by rw [e1]; rfl, e2, rfl, e4,
        pb.A.toSmat_is.jc, pb.A.toSmat_is.ir, pb.A.toSmat_is.pr, e7⟩
  · obtain ⟨p, hp⟩ : ∃ p : Nat, da.p = p := ⟨da.p.toNat, by have := h.p_nonneg; omega⟩
    by_cases hnone : da.Apr = none ∨ da.b = none
    · refine ⟨_, C33_dense_eq_sparse amd h.n h.m hp hP hG (fA := fun _ => 0) ?_ cP cG
        (denseCsc_compresses _ _ _), ?_, rfl, hp.symm⟩
      · intro B' b' hB' hb'
        rcases hnone with h1 | h1
        · rw [h1] at hB'; cases hB'
        · rw [h1] at hb'; cases hb'
      · refine ⟨rfl, rfl, pb.P.toSmat_is.jc, pb.P.toSmat_is.ir, pb.P.toSmat_is.pr,
          pb.G.toSmat_is.jc, pb.G.toSmat_is.ir, pb.G.toSmat_is.pr, h.c, h.h, h.sigma_d.symm,
          Or.inr ⟨?_, e2⟩⟩
        rcases hnone with h1 | h1
        · left; rw [h1]; rfl
        · right; right; right; left; exact h1
    · have hp0 : da.p = 0 := by
        rcases e1 with h1 | h1 | h1
        · exact absurd (Or.inl h1) hnone
        · exact absurd (Or.inr h1) hnone
        · exact h1
      have hp' : p = 0 := by omega
      subst hp'
      refine ⟨_, C33_dense_eq_sparse amd h.n h.m hp hP hG (fA := fun _ => 0) ?_ cP cG
        (denseCsc_compresses _ _ _), ?_, rfl, hp.symm⟩
      · intro B' b' _ _ i hi
        omega
      · refine ⟨rfl, rfl, pb.P.toSmat_is.jc, pb.P.toSmat_is.ir, pb.P.toSmat_is.pr,
          pb.G.toSmat_is.jc, pb.G.toSmat_is.ir, pb.G.toSmat_is.pr, h.c, h.h, h.sigma_d.symm,
          Or.inr ⟨?_, e2⟩⟩
        right; right; right; right; rfl

/-- Setup of a problem in dense form leads to the same states as setup in sparse form, so that all
statements about `Started` apply. -/
theorem DenseArgs.Give.started {da : DenseArgs K} {pb : Problem K} (h : da.Give pb) {amd : Amd}
    (hpb : pb.WF) (hperm : PermSource amd da.Permut da.p pb) {q0 : QP K}
    (h0 : QP_SETUP_dense amd da = .ok q0) : ∃ a, Started amd a pb q0 := by
  obtain ⟨a, e, g, hP, hp⟩ := h.sparse amd
  exact ⟨a, hpb, g, by rw [hP, hp]; exact hperm, by rw [← e]; exact h0⟩

/-- Setup of a well-formed problem in dense form succeeds. -/
theorem DenseArgs.Give.setup_ok {da : DenseArgs K} {pb : Problem K} (h : da.Give pb) {amd : Amd}
    (hpb : pb.WF) (hperm : PermSource amd da.Permut da.p pb) :
    ∃ q0, QP_SETUP_dense amd da = .ok q0 := by
  obtain ⟨a, e, g, hP, hp⟩ := h.sparse amd
  obtain ⟨q0, e0, _⟩ := QP_SETUP_spec (amd := amd) hpb g (by rw [hP, hp]; exact hperm)
  exact ⟨q0, by rw [e]; exact e0⟩

/-- Dense data given by functions describe `denseProblem`. -/
theorem denseProblem_give (da : DenseArgs K) {n m p : Nat} {P A G c b h : Nat → K}
    (hn : da.n = n) (hm : da.m = m) (hP : Buf.Has da.Ppr (n * n) P)
    (hG : Buf.Has da.Gpr (m * n) G) (hc : Buf.Has da.c n c) (hh : Buf.Has da.h m h)
    (hp0 : 0 ≤ da.p)
    (heq : (∃ Apr B, da.Apr = some Apr ∧ da.b = some B ∧ da.p = p ∧ 0 < p ∧
        Buf.Has Apr (p * n) A ∧ Buf.Has B p b) ∨
      ((da.Apr = none ∨ da.b = none ∨ da.p = 0) ∧ p = 0)) :
    da.Give (denseProblem da.ordering n m p P A G c b h) where
  n := hn
  m := hm
  P := ⟨P, hP, denseCsc_compresses _ _ _⟩
  G := ⟨G, hG, denseCsc_compresses _ _ _⟩
  c := hc
  h := hh
  sigma_d := rfl
  p_nonneg := hp0
  eq := by
    rcases heq with ⟨Apr, B, e1, e2, e3, e4, e5, e6⟩ | ⟨e1, e2⟩
    · have hA : (denseProblem da.ordering n m p P A G c b h).A
          = denseCsc p n (denseAt da.ordering p n A) := by
        simp only [denseProblem]; rw [if_neg (by omega)]
      have hpp : (denseProblem da.ordering n m p P A G c b h).p = p := by
        unfold Problem.p; rw [hA]; rfl
      left
      refine ⟨Apr, B, A, e1, e2, by rw [hpp]; exact e3, by rw [hpp]; exact e4, by rw [hpp]; exact e5,
        ?_, by rw [hpp]; exact e6⟩
      rw [hA, hpp]
      exact denseCsc_compresses _ _ _
    · right
      refine ⟨e1, ?_⟩
      simp only [denseProblem]; rw [if_pos e2]; rfl

/-- It is well-formed when there is an inequality constraint and no row of `G` is zero. -/
theorem denseProblem_wf {ordering : Int} {n m p : Nat} {P A G c b h : Nat → K} (hm : 0 < m)
    (hG : ∀ r, r < m → ∃ j, j < n ∧ Scalar.eqb (denseAt ordering m n G r j) 0 = false) :
    (denseProblem ordering n m p P A G c b h).WF where
  P := denseCsc_wf _ _ _
  A := by
    simp only [denseProblem]
    split
    · exact Csc.empty_wf n
    · exact denseCsc_wf _ _ _
  G := denseCsc_wf _ _ _
  Pm := rfl
  An := by
    simp only [denseProblem]
    split <;> rfl
  Gn := rfl
  rows := (denseCsc_compresses _ _ _).rows_iff.mpr hG
  m_pos := hm

end Verif
