import Verif.Lemmas.Solve
import Verif.Lemmas.Dense
import Verif.DemoQp
import Mathlib.Data.List.Sort

/-!
# C15, C27, C28, C33, C38: setup
-/

set_option linter.unusedSectionVars false

namespace Verif

section Generic

variable {K : Type} [Zero K] [One K] [Add K] [Sub K] [Mul K] [Div K] [Neg K] [Scalar K]

/-! ## C27 -/

/-- The equality constraints are not completely given. -/
def SetupArgs.Incomplete (a : SetupArgs K) : Prop :=
  a.Ajc = none ∨ a.Air = none ∨ a.Apr = none ∨ a.b = none ∨ a.p = 0

/-- **C27**, first half: if any of the arrays of the equality constraints is missing, or `p = 0`,
then setup behaves, on any arguments whatever, exactly as if all of them were missing. -/
theorem C27_missing_ignored (amd : Amd) (a : SetupArgs K) (h : a.Incomplete) :
    QP_SETUP amd a
      = QP_SETUP amd { a with Ajc := none, Air := none, Apr := none, b := none } := by
  unfold QP_SETUP
  simp only
  split
  · next Apr Ajc Air b e1 e2 e3 e4 =>
    have hp : a.p = 0 := by
      rcases h with h | h | h | h | h
      · rw [e2] at h; cases h
      · rw [e3] at h; cases h
      · rw [e1] at h; cases h
      · rw [e4] at h; cases h
      · exact h
    rw [if_neg (by simpa using hp)]
  · rfl

/-- **C27**, second half: for a well-formed problem the state then has no equality constraints and
a KKT system of dimension `n + m`; if all arrays are given and `p ≠ 0` the state holds them. -/
theorem C27_dimensions {amd : Amd} {a : SetupArgs K} {pb : Problem K} (hpb : pb.WF)
    (ha : a.Give pb) (hperm : PermSource amd a.Permut a.p pb) :
    ∃ qp, QP_SETUP amd a = .ok qp ∧
      (a.Incomplete → qp.p = 0 ∧ qp.A = none ∧ qp.b = none ∧
        qp.kkt.kktmatrix.m = a.n + a.m ∧ qp.kkt.kktmatrix.n = a.n + a.m ∧
        qp.kkt.kktmatrix.jc.length = a.n.toNat + a.m.toNat + 1) ∧
      (¬ a.Incomplete → qp.p = a.p ∧ qp.b = a.b ∧
        (∃ S, qp.A = some S ∧ S.m = a.p ∧ S.n = a.n ∧ some S.jc = a.Ajc ∧ some S.ir = a.Air ∧
          some S.pr = a.Apr) ∧
        qp.kkt.kktmatrix.m = a.n + a.p + a.m ∧ qp.kkt.kktmatrix.n = a.n + a.p + a.m) := by
  obtain ⟨qp, h0, p, q, hd⟩ := QP_SETUP_spec hpb ha hperm
  refine ⟨qp, h0, ?_, ?_⟩
  · intro hi
    have hA : pb.A = Csc.empty pb.n := by
      rcases ha.eq with ⟨Ajc, Air, Apr, B, e1, e2, e3, e4, e5, e6, _⟩ | ⟨_, h⟩
      · unfold SetupArgs.Incomplete at hi
        rw [e1, e2, e3, e4, e5] at hi
        simp only [reduceCtorEq, false_or] at hi
        omega
      · exact h
    have hp : pb.p = 0 := by unfold Problem.p; rw [hA]; rfl
    have hN : pb.N = pb.n + pb.m := by unfold Problem.N; rw [hp]; rfl
    refine ⟨?_, ?_, ?_, ?_, ?_, ?_⟩
    · rw [hd.inv.pp, hp]; rfl
    · rw [hd.A]; simp only [SetupArgs.toIn, hp, if_true]
    · rw [hd.b]; simp only [SetupArgs.toIn, hp, if_true]
    · have : qp.kkt.kktmatrix.m = pb.N := hd.kkt.mat.m
      rw [this, hN, ha.n, ha.m]; push_cast; rfl
    · have : qp.kkt.kktmatrix.n = pb.N := hd.kkt.mat.n
      rw [this, hN, ha.n, ha.m]; push_cast; rfl
    · rw [hd.kjl, hN, ha.n, ha.m]; simp
  · intro hi
    rcases ha.eq with ⟨Ajc, Air, Apr, B, e1, e2, e3, e4, e5, e6, _⟩ | ⟨h, _⟩
    · have hp : ¬ pb.p = 0 := by omega
      refine ⟨?_, ?_, ⟨SparseMatrixSetup pb.p pb.n pb.A.nnz Ajc Air Apr, ?_, ?_, ?_, ?_, ?_, ?_⟩,
        ?_, ?_⟩
      · rw [hd.inv.pp, e5]
      · rw [hd.b]; simp only [SetupArgs.toIn, hp, if_false]
      · rw [hd.A]; simp only [SetupArgs.toIn, hp, if_false, e1, e2, e3]
      · exact e5.symm
      · exact ha.n.symm
      · exact e1.symm
      · exact e2.symm
      · exact e3.symm
      · have : qp.kkt.kktmatrix.m = pb.N := hd.kkt.mat.m
        rw [this, ha.n, ha.m, e5]; unfold Problem.N; push_cast; rfl
      · have : qp.kkt.kktmatrix.n = pb.N := hd.kkt.mat.n
        rw [this, ha.n, ha.m, e5]; unfold Problem.N; push_cast; rfl
    · exact absurd h hi

/-! ## C28 -/

/-- **C28**: `p > 0` but one of the arrays of the equality constraints is NULL, no permutation is
given and the ordering routine reports an error (for instance because it ran out of memory): setup
writes the identity permutation beyond the end of the array of `n + m` entries. -/
theorem C28_fallback_overflow {amd : Amd} {a : SetupArgs K} {pb : Problem K} (hpb : pb.Shaped)
    (ha : a.Give pb) (hi : a.Incomplete) (hp : 0 < a.p) (hP : a.Permut = none)
    (hamd : ∀ Ap Ai P, P.length = pb.n + pb.m → ∃ st P',
      amd (pb.n + pb.m : Nat) Ap Ai P = .ok (st, P') ∧ st < 0 ∧ P'.length = pb.n + pb.m) :
    QP_SETUP amd a = .error .oob := by
  obtain ⟨h1, h2⟩ := QP_SETUP_eq (amd := amd) hpb ha
  rw [h1]
  have hA : pb.A = Csc.empty pb.n := by
    rcases ha.eq with ⟨Ajc, Air, Apr, B, e1, e2, e3, e4, e5, e6, _⟩ | ⟨_, h⟩
    · unfold SetupArgs.Incomplete at hi
      rw [e1, e2, e3, e4, e5] at hi
      simp only [reduceCtorEq, false_or] at hi
      omega
    · exact h
  have hp0 : pb.p = 0 := by unfold Problem.p; rw [hA]; rfl
  have hN : pb.N = pb.n + pb.m := by unfold Problem.N; rw [hp0]; rfl
  obtain ⟨At, ybuf, km, e, _, _, hk, _⟩ := setupTail_rest amd hpb h2
  rw [e]
  unfold setupRest choosePerm
  have e1 : (a.toIn pb).Permut = none := hP
  rw [e1]
  have hdim : (a.toIn pb).argm + (a.toIn pb).argn + (a.toIn pb).p = ((pb.n + pb.m : Nat) : Int) := by
    rw [h2.n, h2.m, h2.p, hp0]; push_cast; ring
  simp only [hdim]
  have hkn : km.n = ((pb.n + pb.m : Nat) : Int) := by
    have : km.n = pb.N := hk.n
    rw [this, hN]
  obtain ⟨st, P', g1, g2, g3⟩ := hamd km.jc km.ir (malloc ((pb.n + pb.m : Nat) : Int))
    (by rw [length_malloc, Int.toNat_natCast])
  rw [hkn, g1, ok_bind, if_pos g2]
  obtain ⟨k, hk⟩ : ∃ k : Nat, a.p = ((k + 1 : Nat) : Int) := ⟨(a.p - 1).toNat, by omega⟩
  have hub : (a.toIn pb).argn + (a.toIn pb).argm + (a.toIn pb).argp
      = ((pb.n + pb.m + (k + 1) : Nat) : Int) := by
    have : (a.toIn pb).argp = a.p := rfl
    rw [h2.n, h2.m, this, hk]; push_cast; ring
  have hloop : forI 0 ((a.toIn pb).argn + (a.toIn pb).argm + (a.toIn pb).argp) P'
      (fun idx P => wr P idx idx) = .error .oob := by
    rw [hub]
    exact forI_write_oob g3 (fun i => i) (by omega)
  rw [hloop]
  rfl

/-! ## C38 -/

/-- **C38**: without inequality constraints setup reads outside an array, whatever the problem. -/
theorem C38_no_inequalities {amd : Amd} {a : SetupArgs K} {pb : Problem K} (hpb : pb.Shaped)
    (ha : a.Give pb) (hperm : PermSource amd a.Permut a.p pb) (hm : a.m = 0) :
    QP_SETUP amd a = .error .oob := by
  have hm0 : pb.m = 0 := by have := ha.m; omega
  obtain ⟨h1, h2⟩ := QP_SETUP_eq (amd := amd) hpb ha
  rw [h1]
  obtain ⟨At, ybuf, km, e, hAt, hy, hk, _⟩ := setupTail_rest amd hpb h2
  rw [e]
  exact setupRest_m0 hpb h2 hperm hm0 hy hk

/-! ## C33 -/

theorem Csc.Compresses.col_eq {A : Csc K} {rows cols : Nat} {d : Nat → Nat → K}
    (h : A.Compresses rows cols d) {c : Nat} (hc : c < cols) : A.col c = dcol d rows c := by
  have hcn : c < A.n := by rw [h.n]; exact hc
  have hs : (A.col c).Pairwise (fun a b => a.1 < b.1) := by
    rw [List.pairwise_iff_getElem]
    have key : ∀ k i, A.jc c + i + k + 1 < A.jc (c + 1) →
        A.ir (A.jc c + i) < A.ir (A.jc c + i + k + 1) := by
      intro k
      induction k with
      | zero => intro i hi; exact h.sorted c hcn _ (by omega) hi
      | succ k ih =>
        intro i hi
        exact lt_trans (ih i (by omega)) (h.sorted c hcn _ (by omega) hi)
    intro i j hi hj hij
    rw [Csc.length_col] at hi hj
    have := key (j - i - 1) i (by omega)
    simp only [Csc.col, List.getElem_map, List.getElem_range]
    have e : A.jc c + i + (j - i - 1) + 1 = A.jc c + j := by omega
    rw [e] at this
    exact this
  refine List.Pairwise.eq_of_mem_iff (r := fun a b : Nat × K => a.1 < b.1) hs
    (dcol_sorted d rows c) ?_
  rintro ⟨r, v⟩
  simp only [Csc.col, dcol, List.mem_map, List.mem_filterMap, List.mem_range]
  constructor
  · rintro ⟨q, hq, he⟩
    simp only [Prod.mk.injEq] at he
    have hk : A.jc c + q < A.jc (c + 1) := by omega
    have hr : A.ir (A.jc c + q) < rows := by
      rw [← h.m]
      exact h.wf.ir_lt _ (lt_of_lt_of_le hk (h.wf.le_nnz (c := c + 1) hcn))
    have hst := (h.stored _ c hr hc).mp ⟨A.jc c + q, by omega, hk, rfl⟩
    have hv := h.value c hc _ (by omega) hk
    refine ⟨A.ir (A.jc c + q), hr, ?_⟩
    rw [hst]
    simp only [Bool.false_eq_true, if_false, Option.some.injEq, Prod.mk.injEq]
    exact ⟨he.1, by rw [← hv]; exact he.2⟩
  · rintro ⟨r', hr', he⟩
    by_cases hz : Scalar.eqb (d r' c) 0 = true
    · rw [if_pos hz] at he; cases he
    · rw [if_neg hz] at he
      simp only [Option.some.injEq, Prod.mk.injEq] at he
      obtain ⟨rfl, rfl⟩ := he
      obtain ⟨k, hk1, hk2, hk3⟩ := (h.stored r' c hr' hc).mpr (by simpa using hz)
      refine ⟨k - A.jc c, by omega, ?_⟩
      have e : A.jc c + (k - A.jc c) = k := by omega
      rw [e, hk3, h.value c hc k hk1 hk2, hk3]

/-- The compressed form is unique. -/
theorem Csc.Compresses.toSmat_eq {A : Csc K} {rows cols : Nat} {d : Nat → Nat → K}
    (h : A.Compresses rows cols d) : A.toSmat = (denseCsc rows cols d).toSmat := by
  have hflat : flatTo A.col cols = flatTo (dcol d rows) cols :=
    flatTo_congr (fun i hi => h.col_eq hi)
  have hoffs : ∀ c, c ≤ cols → A.jc c = offs (dcol d rows) c := by
    intro c hc
    rw [← h.wf.offs_col (by rw [h.n]; exact hc)]
    exact offs_congr (fun i hi => h.col_eq (by omega))
  refine Smat.Is.eq_toSmat ?_ ?_ ?_ ?_
  · have hnz : A.nnz = (flatTo (dcol d rows) cols).length := by
      unfold Csc.nnz; rw [h.n, hoffs cols le_rfl]; rfl
    refine is_ofCols ?_ ?_ ?_ ?_ ?_
    · simp only [Csc.toSmat, h.m]
    · simp only [Csc.toSmat, h.n]
    · simp only [Csc.toSmat, hnz]
    · intro i hi
      simp only [Csc.toSmat]
      rw [Buf.has_ofFn _ _ i (by rw [h.n]; exact hi)]
      rw [hoffs i (by omega)]
    · intro k e hk
      have hkl : k < A.nnz := by rw [hnz]; exact (List.getElem?_eq_some_iff.mp hk).1
      have := h.wf.flat_col hkl
      rw [h.n, hflat, hk] at this
      cases this
      exact ⟨Buf.has_ofFn _ _ k hkl, Buf.has_ofFn _ _ k hkl⟩
  · simp only [Csc.toSmat, Buf.length_ofFn, h.n]; rfl
  · simp only [Csc.toSmat, Buf.length_ofFn]
    unfold Csc.nnz; rw [h.n, hoffs cols le_rfl]; rfl
  · simp only [Csc.toSmat, Buf.length_ofFn]
    unfold Csc.nnz; rw [h.n, hoffs cols le_rfl]; rfl

theorem convertDense_compress {ordering : Int} {rows cols : Nat} {pr : Buf K} {f : Nat → K}
    (hpr : Buf.Has pr (rows * cols) f) {A : Csc K}
    (h : A.Compresses rows cols (denseAt ordering rows cols f)) :
    convertDense ordering rows cols pr = .ok A.toSmat := by
  rw [h.toSmat_eq]
  unfold convertDense denseAt
  split
  · exact densetosparse_eq hpr
  · exact densetosparse_ROWMAJOR_eq hpr

/-- **C33**: `QP_SETUP_dense` and `QP_SETUP` on the compressed form of the same matrices, with
`sigma_d` zero, give the identical result (the whole solver state, or the same failure), in any
arithmetic, for both storage orders. -/
theorem C33_dense_eq_sparse (amd : Amd) {da : DenseArgs K} {n m p : Nat} (hn : da.n = n)
    (hm : da.m = m) (hp : da.p = p) {fP fG fA : Nat → K} (hP : Buf.Has da.Ppr (n * n) fP)
    (hG : Buf.Has da.Gpr (m * n) fG)
    (hA : ∀ B b, da.Apr = some B → da.b = some b → Buf.Has B (p * n) fA)
    {P G A : Csc K} (cP : P.Compresses n n (denseAt da.ordering n n fP))
    (cG : G.Compresses m n (denseAt da.ordering m n fG))
    (cA : A.Compresses p n (denseAt da.ordering p n fA)) :
    QP_SETUP_dense amd da = QP_SETUP amd
      { n := n, m := m, p := p
        Pjc := P.toSmat.jc, Pir := P.toSmat.ir, Ppr := P.toSmat.pr
        Ajc := da.Apr.map (fun _ => A.toSmat.jc), Air := da.Apr.map (fun _ => A.toSmat.ir)
        Apr := da.Apr.map (fun _ => A.toSmat.pr)
        Gjc := G.toSmat.jc, Gir := G.toSmat.ir, Gpr := G.toSmat.pr
        c := da.c, h := da.h, b := da.b, sigma_d := Scalar.dec 0 0, Permut := da.Permut } := by
  have e1 := convertDense_compress hP cP
  have e2 := convertDense_compress hG cG
  have r1 : rd P.toSmat.jc (n : Int) = .ok (P.nnz : Int) := by
    have := P.toSmat_is.jc.rd (Nat.lt_succ_self P.n)
    rw [cP.n] at this
    rw [this]; unfold Csc.nnz; rw [cP.n]
  have r2 : rd G.toSmat.jc (n : Int) = .ok (G.nnz : Int) := by
    have := G.toSmat_is.jc.rd (Nat.lt_succ_self G.n)
    rw [cG.n] at this
    rw [this]; unfold Csc.nnz; rw [cG.n]
  have s1 : SparseMatrixSetup (n : Int) n P.nnz P.toSmat.jc P.toSmat.ir P.toSmat.pr = P.toSmat := by
    simp only [SparseMatrixSetup, Csc.toSmat, cP.m, cP.n]
  have s2 : SparseMatrixSetup (m : Int) n G.nnz G.toSmat.jc G.toSmat.ir G.toSmat.pr = G.toSmat := by
    simp only [SparseMatrixSetup, Csc.toSmat, cG.m, cG.n]
  unfold QP_SETUP_dense QP_SETUP
  rw [hn, hm, hp, e1, e2]
  simp only [r1, r2, ok_bind, s1, s2]
  cases hAp : da.Apr with
  | none => simp
  | some Apr =>
    cases hb : da.b with
    | none => simp
    | some b =>
      have e3 := convertDense_compress (hA Apr b hAp hb) cA
      have r3 : rd A.toSmat.jc (n : Int) = .ok (A.nnz : Int) := by
        have := A.toSmat_is.jc.rd (Nat.lt_succ_self A.n)
        rw [cA.n] at this
        rw [this]; unfold Csc.nnz; rw [cA.n]
      have s3 : SparseMatrixSetup (p : Int) n A.nnz A.toSmat.jc A.toSmat.ir A.toSmat.pr
          = A.toSmat := by
        simp only [SparseMatrixSetup, Csc.toSmat, cA.m, cA.n]
      by_cases hp0 : (p : Int) ≠ 0
      · simp only [hp0, if_true, e3, r3, ok_bind, s3, Option.map_some, pure_eq_ok, ne_eq,
          not_false_eq_true]
      · simp only [hp0, if_false, Option.map_some, pure_eq_ok, ok_bind]

end Generic

section Exact

variable {K : Type} [Field K] [LinearOrder K] [IsStrictOrderedRing K] [Scalar K] [LawfulScalar K]

theorem initS_pos {pb : Problem K} (hm : 0 < pb.m) (x : Nat → K) {i : Nat} (hi : i < pb.m) :
    0 < initS pb x i := by
  have h := (minmaxF_spec pb.m hm (interF pb x) i hi).1
  unfold initS
  dsimp only
  rw [ltb_eq, dec_one_zero]
  split
  · next hc =>
    have := of_decide_eq_true hc
    linarith
  · linarith

theorem initZ_pos {pb : Problem K} (hm : 0 < pb.m) (x : Nat → K) {i : Nat} (hi : i < pb.m) :
    0 < initZ pb x i := by
  have h := (minmaxF_spec pb.m hm (interF pb x) i hi).2
  unfold initZ
  dsimp only
  rw [ltb_eq, dec_one_zero]
  split
  · next hc =>
    have := of_decide_eq_true hc
    linarith
  · linarith

/-- **C15**: after setup of any well-formed problem all slacks and multipliers are strictly
positive. -/
theorem C15_start_positive {amd : Amd} {a : SetupArgs K} {pb : Problem K} (hpb : pb.WF)
    (ha : a.Give pb) (hperm : PermSource amd a.Permut a.p pb) :
    ∃ qp, QP_SETUP amd a = .ok qp ∧ ∃ x y z s, qp.Iter pb x y z s ∧
      ∀ i, i < pb.m → 0 < s i ∧ 0 < z i := by
  obtain ⟨qp, h0, p, q, hd⟩ := QP_SETUP_spec hpb ha hperm
  obtain ⟨t, _, _, hi⟩ := hd.iter
  exact ⟨qp, h0, _, _, _, _, hi, fun i hi => ⟨initS_pos hpb.m_pos _ hi, initZ_pos hpb.m_pos _ hi⟩⟩

end Exact

/-! ## Examples -/

/-- Without the arrays of `A`, but with `p = 1`. -/
def demoArgsNoA (K : Type) [Field K] : SetupArgs K :=
  { demoArgs0 K with p := 1, Permut := none }

theorem demoArgsNoA_give {K : Type} [Field K] : (demoArgsNoA K).Give (demoPb0 K) :=
  { demoArgs0_give (K := K) with
    eq := Or.inr ⟨Or.inl rfl, rfl⟩ }

/-- C27: the hypothesis is met by the demo without arrays of `A` and `p = 1`. -/
example : (demoArgsNoA ℚ).Incomplete ∧ ¬ (demoArgs ℚ).Incomplete ∧ (demoArgsNoA ℚ).p ≠ 0 := by
  refine ⟨Or.inl rfl, ?_, by decide⟩
  rintro (h | h | h | h | h) <;>
    simp [demoArgs, Problem.args, demoPb, Problem.p, Csc.lit] at h

/-- C28: with an ordering routine that reports an error the demo overflows. -/
example : QP_SETUP failAmd (demoArgsNoA ℚ) = .error .oob :=
  C28_fallback_overflow demoPb0_wf.toShaped demoArgsNoA_give (Or.inl rfl) (by decide) rfl
    (fun _ _ P hP => ⟨-1, P, rfl, by decide, hP⟩)

/-- With `p = 0` the same call succeeds. -/
example : ∃ qp, QP_SETUP failAmd { demoArgsNoA ℚ with p := 0 } = .ok qp := by
  cases h : QP_SETUP failAmd { demoArgsNoA ℚ with p := 0 } with
  | ok qp => exact ⟨qp, rfl⟩
  | error e =>
    exfalso
    revert h
    have : (match QP_SETUP failAmd { demoArgsNoA ℚ with p := 0 } with
      | .ok _ => true | .error _ => false) = true := by decide +kernel
    intro h
    rw [h] at this
    cases this

/-- C38: a problem without inequality constraints. -/
def noIneqPb : Problem ℚ :=
  { demoPb ℚ with G := Csc.empty 3 }

theorem noIneqPb_shaped : noIneqPb.Shaped :=
  { (demoPb_wf (K := ℚ)).toShaped with
    G := ⟨rfl, fun _ _ => le_rfl, fun _ hk => absurd hk (by simp [noIneqPb, Csc.empty])⟩
    Gn := rfl
    rows := fun _ hr => absurd hr (by simp [noIneqPb, Csc.empty]) }

example : QP_SETUP failAmd (noIneqPb.args (some (Buf.ofFn 4 (fun i => (i : Int))))) = .error .oob :=
  C38_no_inequalities noIneqPb_shaped
    (Problem.args_give _ _ (fun h => absurd h (by simp [noIneqPb, Problem.p, demoPb, Csc.lit])))
    (Or.inl ⟨_, _, _, rfl, idPair 4, Buf.has_ofFn _ _⟩) rfl

/-- C33: a dense matrix with a zero and its compressed form. -/
example : (Csc.lit 2 2 [0, 1, 3] [0, 0, 1] [7, 5, 8] : Csc ℚ).Compresses 2 2
    (denseAt COLUMN_MAJOR_ORDERING 2 2 (fun i => [7, 0, 5, 8].getD i 0)) where
  m := rfl
  n := rfl
  wf := by
    refine ⟨rfl, ?_, ?_⟩
    · intro c hc; simp only [Csc.lit] at hc ⊢; interval_cases c <;> decide
    · intro k hk
      simp only [Csc.lit, List.getD] at hk ⊢
      norm_num at hk
      interval_cases k <;> decide
  sorted := by
    intro c hc k h1 h2
    simp only [Csc.lit] at hc h1 h2 ⊢
    interval_cases c
    · simp at h2
    · simp at h1 h2
      have : k = 1 := by omega
      subst this
      decide
  stored := by
    intro r c hr hc
    simp only [Csc.Stored, Csc.lit, denseAt, Scalar.eqb]
    interval_cases c <;> interval_cases r <;> simp
    · exact ⟨1, by simp⟩
    · exact ⟨2, by simp⟩
  value := by
    intro c hc k h1 h2
    simp only [Csc.lit] at h1 h2 ⊢
    interval_cases c
    · simp at h2
      subst h2
      decide
    · simp at h1 h2
      interval_cases k <;> decide

/-- C15: the hypotheses are met by the demo. -/
example : ∃ qp, QP_SETUP failAmd (demoArgs ℚ) = .ok qp ∧ ∃ x y z s, qp.Iter (demoPb ℚ) x y z s ∧
    ∀ i, i < (demoPb ℚ).m → 0 < s i ∧ 0 < z i :=
  C15_start_positive demoPb_wf demoArgs_give (demoArgs_perm _)

end Verif
