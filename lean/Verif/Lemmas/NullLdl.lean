import Verif.Lemmas.Null

/-! # Null arrays: dense matrices, the KKT matrix, the factorisation -/

set_option linter.unusedSectionVars false

namespace Verif

variable {K : Type} [Zero K] [One K] [Add K] [Sub K] [Mul K] [Div K] [Neg K] [Scalar K]

/-! ## Dense matrices -/

theorem sim_densetosparse {al : Site → Bool} {w : Which} (m n : Int) (pr : Buf K) :
    Sim (densetosparseF al w m n pr) (densetosparse m n pr) := by
  have h0 : (mallocF (al (.Ap w)) (n + 1) : Buf Int) ≼ malloc (n + 1) := null_mallocF
  unfold densetosparseF densetosparse
  refine Sim.bind (by sims) fun _ _ _ => ?_
  refine Sim.bind (Sim.forI (by nul) ?_) ?_
  · rintro j ⟨a, b⟩ ⟨a', b'⟩ ⟨ha, hb⟩
    have hb : b = b' := hb
    subst hb
    refine Sim.val (fun _ h => h) fun c => ?_
    sims
  · rintro ⟨a, b⟩ ⟨a', b'⟩ ⟨ha, hb⟩
    have hb : b = b' := hb
    subst hb
    dsimp only
    have h1 : (mallocF (al (.Ai w)) b : Buf Int) ≼ malloc b := null_mallocF
    have h2 : (mallocF (al (.Ax w)) b : Buf K) ≼ malloc b := null_mallocF
    refine Sim.bind (Sim.forI (show (_ : Buf Int × Buf K × Int) ≼ _ from
      ⟨h1, h2, rfl⟩) fun j s s' hs => Sim.forI hs ?_) ?_
    · rintro i ⟨u, v, t⟩ ⟨u', v', t'⟩ ⟨hu, hv, ht⟩
      have ht : t = t' := ht
      subst ht
      sims
    · rintro ⟨u, v, t⟩ ⟨u', v', t'⟩ ⟨hu, hv, ht⟩
      have ht : t = t' := ht
      subst ht
      exact Sim.pure ⟨ha, hu, hv, rfl, rfl, rfl⟩

theorem sim_densetosparse_ROWMAJOR {al : Site → Bool} {w : Which} (m n : Int) (pr : Buf K) :
    Sim (densetosparse_ROWMAJORF al w m n pr) (densetosparse_ROWMAJOR m n pr) := by
  have h0 : (mallocF (al (.Ap w)) (n + 1) : Buf Int) ≼ malloc (n + 1) := null_mallocF
  unfold densetosparse_ROWMAJORF densetosparse_ROWMAJOR
  refine Sim.bind (by sims) fun _ _ _ => ?_
  refine Sim.bind (Sim.forI (by nul) fun i s s' hs => Sim.forI hs ?_) ?_
  · rintro j ⟨a, b⟩ ⟨a', b'⟩ ⟨ha, hb⟩
    have hb : b = b' := hb
    subst hb
    sims
  · rintro ⟨a, b⟩ ⟨a', b'⟩ ⟨ha, hb⟩
    have hb : b = b' := hb
    subst hb
    dsimp only
    have h1 : (mallocF (al (.Ai w)) b : Buf Int) ≼ malloc b := null_mallocF
    have h2 : (mallocF (al (.Ax w)) b : Buf K) ≼ malloc b := null_mallocF
    refine Sim.bind (Sim.forI (show (_ : Buf Int × Buf Int × Buf K × Int) ≼ _ from
      ⟨ha, h1, h2, rfl⟩) fun j s s' hs => ?_) ?_
    · refine Sim.bind (Sim.forI hs ?_) ?_
      · rintro i ⟨r, u, v, t⟩ ⟨r', u', v', t'⟩ ⟨hr, hu, hv, ht⟩
        have ht : t = t' := ht
        subst ht
        sims
      · rintro ⟨r, u, v, t⟩ ⟨r', u', v', t'⟩ ⟨hr, hu, hv, ht⟩
        have ht : t = t' := ht
        subst ht
        sims
    · rintro ⟨r, u, v, t⟩ ⟨r', u', v', t'⟩ ⟨hr, hu, hv, ht⟩
      have ht : t = t' := ht
      subst ht
      exact Sim.pure ⟨hr, hu, hv, rfl, rfl, rfl⟩

theorem sim_convertDense {al : Site → Bool} {w : Which} (o m n : Int) (pr : Buf K) :
    Sim (convertDenseF al w o m n pr) (convertDense o m n pr) := by
  unfold convertDenseF convertDense
  exact Sim.ite (sim_densetosparse m n pr) (sim_densetosparse_ROWMAJOR m n pr)

/-! ## The KKT matrix -/

instance nullBuild : Nullable (KktBuild K) where
  le a b := a.jc ≼ b.jc ∧ a.ir ≼ b.ir ∧ a.pr ≼ b.pr ∧ a.nnz = b.nnz
  refl _ := ⟨Nullable.refl _, Nullable.refl _, Nullable.refl _, rfl⟩

theorem sim_appendCol {src src' : Smat K} (h : src ≼ src') (off i : Int) {st st' : KktBuild K}
    (hst : st ≼ st') : Sim (kktAppendCol src off i st) (kktAppendCol src' off i st') := by
  obtain ⟨h1, h2, h3, -⟩ := h
  unfold kktAppendCol
  sim1; sim1
  refine Sim.forI hst ?_
  rintro j ⟨a, b, c, d⟩ ⟨a', b', c', d'⟩ ⟨ha, hb, hc, hd⟩
  dsimp only at hd
  subst hd
  sims

theorem sim_appendGt {src src' : Smat K} (h : src ≼ src') (off i : Int) {st st' : KktBuild K}
    (hst : st ≼ st') : Sim (kktAppendGt src off i st) (kktAppendGt src' off i st') := by
  obtain ⟨h1, h2, h3, -⟩ := h
  unfold kktAppendGt
  sim1; sim1
  refine Sim.forI hst ?_
  rintro j ⟨a, b, c, d⟩ ⟨a', b', c', d'⟩ ⟨ha, hb, hc, hd⟩
  dsimp only at hd
  subst hd
  sims

theorem sim_formkkt {P P' G G' Gt Gt' k k' : Smat K} {A A' At At' : Option (Smat K)}
    (hP : P ≼ P') (hG : G ≼ G') (hA : A ≼ A') (hGt : Gt ≼ Gt') (hAt : At ≼ At') (hk : k ≼ k') :
    Sim (formkktmatrix_full P G A Gt At k) (formkktmatrix_full P' G' A' Gt' At' k') := by
  obtain ⟨k1, k2, k3, k4, k5, k6⟩ := hk
  have p1 := hP.1
  have g1 := hG.1
  have pn := hP.2.2.2.1
  have pm := hP.2.2.2.2.1
  have gn := hGt.2.2.2.1
  rcases A with _ | A <;> rcases A' with _ | A' <;> try exact hA.elim
  · unfold formkktmatrix_full
    simp only [pn, pm, gn]
    sim1
    rename_i c c' hc
    refine Sim.bind (Sim.forI (show (_ : KktBuild K) ≼ _ from ⟨hc, k2, k3, rfl⟩) ?_) ?_
    · intro i st st' hst
      refine (sim_appendCol hP 0 i hst).bind fun _ _ h => (sim_appendCol hG _ i h).bind ?_
      rintro ⟨a, b, c, d⟩ ⟨a', b', c', d'⟩ ⟨ha, hb, hc, hd⟩
      dsimp only at hd
      subst hd
      sims
    · intro st st' hst
      refine Sim.bind (Sim.forI hst fun i st st' hst => ?_) ?_
      · refine (sim_appendGt hGt _ i hst).bind ?_
        rintro ⟨a, b, c, d⟩ ⟨a', b', c', d'⟩ ⟨ha, hb, hc, hd⟩
        dsimp only at hd
        subst hd
        sims
      · rintro ⟨a, b, c, d⟩ ⟨a', b', c', d'⟩ ⟨ha, hb, hc, hd⟩
        exact Sim.pure ⟨ha, hb, hc, k4, k5, k6⟩
  · have a1 := hA.1
    have am : A.m = A'.m := hA.2.2.2.2.1
    rcases At with _ | At <;> rcases At' with _ | At' <;> try exact hAt.elim
    · unfold formkktmatrix_full
      simp only [pn, pm, gn]
      sim1
      rename_i c c' hc
      refine Sim.bind (Sim.forI (show (_ : KktBuild K) ≼ _ from ⟨hc, k2, k3, rfl⟩) ?_) ?_
      · intro i st st' hst
        refine (sim_appendCol hP 0 i hst).bind fun _ _ h => (sim_appendCol hG _ i h).bind ?_
        rintro ⟨a, b, c, d⟩ ⟨a', b', c', d'⟩ ⟨ha, hb, hc, hd⟩
        dsimp only at hd
        subst hd
        sims
      · intro st st' hst
        refine Sim.bind (Sim.forI hst fun i st st' hst => ?_) ?_
        · refine (sim_appendGt hGt _ i hst).bind ?_
          rintro ⟨a, b, c, d⟩ ⟨a', b', c', d'⟩ ⟨ha, hb, hc, hd⟩
          dsimp only at hd
          subst hd
          sims
        · rintro ⟨a, b, c, d⟩ ⟨a', b', c', d'⟩ ⟨ha, hb, hc, hd⟩
          exact Sim.pure ⟨ha, hb, hc, k4, k5, k6⟩
    · have tn : At.n = At'.n := hAt.2.2.2.1
      unfold formkktmatrix_full
      simp only [pn, pm, gn, am, tn]
      sim1
      rename_i c c' hc
      refine Sim.bind (Sim.forI (show (_ : KktBuild K) ≼ _ from ⟨hc, k2, k3, rfl⟩) ?_) ?_
      · intro i st st' hst
        refine (sim_appendCol hP 0 i hst).bind fun _ _ h => (sim_appendCol hA _ i h).bind
          fun _ _ h => (sim_appendCol hG _ i h).bind ?_
        rintro ⟨a, b, c, d⟩ ⟨a', b', c', d'⟩ ⟨ha, hb, hc, hd⟩
        dsimp only at hd
        subst hd
        sims
      · intro st st' hst
        refine Sim.bind (Sim.forI hst fun i st st' hst => ?_) ?_
        · refine (sim_appendCol hAt _ i hst).bind ?_
          rintro ⟨a, b, c, d⟩ ⟨a', b', c', d'⟩ ⟨ha, hb, hc, hd⟩
          dsimp only at hd
          subst hd
          sims
        · intro st st' hst
          refine Sim.bind (Sim.forI hst fun i st st' hst => ?_) ?_
          · refine (sim_appendGt hGt _ i hst).bind ?_
            rintro ⟨a, b, c, d⟩ ⟨a', b', c', d'⟩ ⟨ha, hb, hc, hd⟩
            dsimp only at hd
            subst hd
            sims
          · rintro ⟨a, b, c, d⟩ ⟨a', b', c', d'⟩ ⟨ha, hb, hc, hd⟩
            exact Sim.pure ⟨ha, hb, hc, k4, k5, k6⟩

/-! ## The factorisation -/

instance nullSym : Nullable SymSt where
  le a b := a.Parent ≼ b.Parent ∧ a.Lnz ≼ b.Lnz ∧ a.Flag ≼ b.Flag
  refl _ := ⟨Nullable.refl _, Nullable.refl _, Nullable.refl _⟩

instance nullSymOut : Nullable SymOut where
  le a b := a.Lp ≼ b.Lp ∧ a.Parent ≼ b.Parent ∧ a.Lnz ≼ b.Lnz ∧ a.Flag ≼ b.Flag ∧ a.Pinv ≼ b.Pinv
  refl _ := ⟨Nullable.refl _, Nullable.refl _, Nullable.refl _, Nullable.refl _, Nullable.refl _⟩

instance nullNum : Nullable (NumSt K) where
  le a b := a.Lnz ≼ b.Lnz ∧ a.Li ≼ b.Li ∧ a.Lx ≼ b.Lx ∧ a.D ≼ b.D ∧ a.Y ≼ b.Y ∧
    a.Pattern ≼ b.Pattern ∧ a.Flag ≼ b.Flag
  refl _ := ⟨Nullable.refl _, Nullable.refl _, Nullable.refl _, Nullable.refl _, Nullable.refl _,
    Nullable.refl _, Nullable.refl _⟩

theorem sim_permAt {β : Type} [Nullable β] {P P' : Option (Buf Int)} (h : P ≼ P') {k : Int}
    {f f' : Int → M β} (hf : ∀ v, Sim (f v) (f' v)) :
    Sim (permAt P k >>= f) (permAt P' k >>= f') := by
  refine Sim.val ?_ hf
  cases P with
  | none =>
    cases P' with
    | none => exact fun _ h => h
    | some _ => exact h.elim
  | some P =>
    cases P' with
    | none => exact h.elim
    | some P' => exact rd_null (show P ≼ P' from h)

theorem sim_symPath (n k i : Int) {st st' : SymSt} (h : st ≼ st') :
    Sim (symPath n k i st) (symPath n k i st') := by
  unfold symPath
  refine Sim.bind (Sim.whileM ?_ ?_ _ _ _ (show (_ : Int × SymSt) ≼ _ from ⟨rfl, h⟩)) ?_
  · rintro ⟨a, b, c, d⟩ ⟨a', b', c', d'⟩ ⟨ha, hb, hc, hd⟩
    have ha : a = a' := ha
    subst ha
    sims
  · rintro ⟨a, b, c, d⟩ ⟨a', b', c', d'⟩ ⟨ha, hb, hc, hd⟩
    have ha : a = a' := ha
    subst ha
    dsimp only at hb hc hd
    sim1
    refine Sim.bind (by sims) fun _ _ _ => ?_
    sims
  · rintro ⟨a, b⟩ ⟨a', b'⟩ ⟨ha, hb⟩
    exact Sim.pure hb

theorem sim_symbolic (n : Int) {Ap Ap' Ai Ai' Lp Lp' Pa Pa' Lnz Lnz' Fl Fl' : Buf Int}
    {P P' Q Q' : Option (Buf Int)} (h1 : Ap ≼ Ap') (h2 : Ai ≼ Ai') (h3 : Lp ≼ Lp') (h4 : Pa ≼ Pa')
    (h5 : Lnz ≼ Lnz') (h6 : Fl ≼ Fl') (h7 : P ≼ P') (h8 : Q ≼ Q') :
    Sim (LDL_symbolic n Ap Ai Lp Pa Lnz Fl P Q) (LDL_symbolic n Ap' Ai' Lp' Pa' Lnz' Fl' P' Q') := by
  unfold LDL_symbolic
  refine Sim.bind ?_ fun R R' hR => ?_
  · cases P with
    | none =>
      cases P' with
      | none => exact Sim.pure h8
      | some _ => exact h7.elim
    | some P =>
      cases P' with
      | none => exact h7.elim
      | some P' =>
        have h7 : P ≼ P' := h7
        refine Sim.deref h8 fun _ _ _ => Sim.bind (by sims) fun _ _ h => ?_
        exact Sim.pure h
  · refine Sim.bind (Sim.forI (show (_ : SymSt) ≼ _ from ⟨h4, h5, h6⟩) ?_) ?_
    · rintro k ⟨a, b, c⟩ ⟨a', b', c'⟩ ⟨ha, hb, hc⟩
      dsimp only at ha hb hc
      sim1; sim1; sim1
      refine sim_permAt h7 fun _ => ?_
      sim1; sim1
      refine Sim.forI (by nul) fun p st st' hst => ?_
      sim1
      refine sim_permAt hR fun _ => ?_
      exact Sim.ite (sim_symPath _ _ _ hst) (Sim.pure hst)
    · rintro ⟨a, b, c⟩ ⟨a', b', c'⟩ ⟨ha, hb, hc⟩
      dsimp only at ha hb hc
      sim1
      refine Sim.bind (by sims) fun _ _ h => ?_
      exact Sim.pure ⟨h, ha, hb, hc, hR⟩

theorem sim_numPath (n : Int) {Pa Pa' : Buf Int} (k i : Int) {Pt Pt' Fl Fl' : Buf Int}
    (h1 : Pa ≼ Pa') (h2 : Pt ≼ Pt') (h3 : Fl ≼ Fl') :
    Sim (numPath n Pa k i Pt Fl) (numPath n Pa' k i Pt' Fl') := by
  unfold numPath
  refine Sim.whileM ?_ ?_ _ _ _ ⟨rfl, rfl, h2, h3⟩
  · rintro ⟨a, b, c, d⟩ ⟨a', b', c', d'⟩ ⟨ha, hb, hc, hd⟩
    have ha : a = a' := ha
    have hb : b = b' := hb
    subst ha hb
    dsimp only at hc hd
    sims
  · rintro ⟨a, b, c, d⟩ ⟨a', b', c', d'⟩ ⟨ha, hb, hc, hd⟩
    have ha : a = a' := ha
    have hb : b = b' := hb
    subst ha hb
    dsimp only at hc hd
    sims

theorem sim_numMove (n len top : Int) {Pt Pt' : Buf Int} (h : Pt ≼ Pt') :
    Sim (numMove n len top Pt) (numMove n len top Pt') := by
  unfold numMove
  refine Sim.bind (Sim.whileM ?_ ?_ _ _ _ (show (_ : Int × Int × Buf Int) ≼ _ from
    ⟨rfl, rfl, h⟩)) ?_
  · rintro ⟨a, b, c⟩ ⟨a', b', c'⟩ ⟨ha, hb, hc⟩
    have ha : a = a' := ha
    have hb : b = b' := hb
    subst ha hb
    exact Sim.refl _
  · rintro ⟨a, b, c⟩ ⟨a', b', c'⟩ ⟨ha, hb, hc⟩
    have ha : a = a' := ha
    have hb : b = b' := hb
    subst ha hb
    dsimp only at hc
    sims
  · rintro ⟨a, b⟩ ⟨a', b'⟩ ⟨ha, hb⟩
    exact Sim.pure hb

theorem sim_numNode {Lp Lp' : Buf Int} (hL : Lp ≼ Lp') (k top : Int) {st st' : NumSt K}
    (h : st ≼ st') : Sim (numNode Lp k top st) (numNode Lp' k top st') := by
  obtain ⟨h1, h2, h3, h4, h5, h6, h7⟩ := h
  unfold numNode
  sim1; sim1; sim1; sim1; sim1
  refine Sim.bind (by sims) fun _ _ _ => ?_
  dsimp only
  sims

theorem sim_numRow (n : Int) {Ap Ap' Ai Ai' : Buf Int} {Ax Ax' : Buf K} {Lp Lp' Pa Pa' : Buf Int}
    {P P' Q Q' : Option (Buf Int)} (h1 : Ap ≼ Ap') (h2 : Ai ≼ Ai') (h3 : Ax ≼ Ax') (h4 : Lp ≼ Lp')
    (h5 : Pa ≼ Pa') (h6 : P ≼ P') (h7 : Q ≼ Q') (k : Int) {st st' : NumSt K} (h : st ≼ st') :
    Sim (numRow n Ap Ai Ax Lp Pa P Q k st) (numRow n Ap' Ai' Ax' Lp' Pa' P' Q' k st') := by
  obtain ⟨s1, s2, s3, s4, s5, s6, s7⟩ := h
  unfold numRow
  sim1; sim1; sim1
  rename_i a a' ha b b' hb c c' hc
  refine sim_permAt h6 fun _ => ?_
  sim1; sim1
  refine Sim.bind (Sim.forI (show (_ : Int × Buf K × Buf Int × Buf Int) ≼ _ from
    ⟨rfl, ha, s6, hb⟩) ?_) ?_
  · rintro p ⟨t, y, u, v⟩ ⟨t', y', u', v'⟩ ⟨ht, hy, hu, hv⟩
    have ht : t = t' := ht
    subst ht
    dsimp only at hy hu hv
    sim1
    refine sim_permAt h7 fun _ => Sim.ite ?_ (Sim.pure ⟨rfl, hy, hu, hv⟩)
    dsimp only
    sim1; sim1; sim1
    refine (sim_numPath n k _ h5 hu hv).bind ?_
    rintro ⟨q1, q2, q3, q4⟩ ⟨r1, r2, r3, r4⟩ ⟨e1, e2, e3, e4⟩
    have e2 : q2 = r2 := e2
    subst e2
    refine (sim_numMove n _ _ e3).bind ?_
    rintro ⟨w1, w2⟩ ⟨x1, x2⟩ ⟨f1, f2⟩
    exact Sim.pure ⟨f1, by nul, f2, e4⟩
  · rintro ⟨t, y, u, v⟩ ⟨t', y', u', v'⟩ ⟨ht, hy, hu, hv⟩
    have ht : t = t' := ht
    subst ht
    dsimp only at hy hu hv
    dsimp only
    sim1; sim1; sim1
    refine Sim.bind (Sim.forI (by nul) fun i st st' hst => sim_numNode h4 _ _ hst) ?_
    rintro ⟨a1, a2, a3, a4, a5, a6, a7⟩ ⟨b1, b2, b3, b4, b5, b6, b7⟩ ⟨c1, c2, c3, c4, c5, c6, c7⟩
    dsimp only at c4
    dsimp only
    sims

theorem sim_numeric (n : Int) {Ap Ap' Ai Ai' : Buf Int} {Ax Ax' : Buf K} {Lp Lp' Pa Pa' : Buf Int}
    {P P' Q Q' : Option (Buf Int)} (h1 : Ap ≼ Ap') (h2 : Ai ≼ Ai') (h3 : Ax ≼ Ax') (h4 : Lp ≼ Lp')
    (h5 : Pa ≼ Pa') (h6 : P ≼ P') (h7 : Q ≼ Q') {st st' : NumSt K} (h : st ≼ st') :
    Sim (LDL_numeric n Ap Ai Ax Lp Pa st P Q) (LDL_numeric n Ap' Ai' Ax' Lp' Pa' st' P' Q') := by
  unfold LDL_numeric
  refine Sim.bind (Sim.forI h fun k st st' hst => sim_numRow n h1 h2 h3 h4 h5 h6 h7 k hst) ?_
  exact fun _ _ h => Sim.pure ⟨rfl, h⟩

theorem sim_lsolve (n : Int) {X X' : Buf K} {Lp Lp' Li Li' : Buf Int} {Lx Lx' : Buf K}
    (h1 : X ≼ X') (h2 : Lp ≼ Lp') (h3 : Li ≼ Li') (h4 : Lx ≼ Lx') :
    Sim (LDL_lsolve n X Lp Li Lx) (LDL_lsolve n X' Lp' Li' Lx') := by
  unfold LDL_lsolve
  sims

theorem sim_dsolve (n : Int) {X X' D D' : Buf K} (h1 : X ≼ X') (h2 : D ≼ D') :
    Sim (LDL_dsolve n X D) (LDL_dsolve n X' D') := by
  unfold LDL_dsolve
  sims

theorem sim_ltsolve (n : Int) {X X' : Buf K} {Lp Lp' Li Li' : Buf Int} {Lx Lx' : Buf K}
    (h1 : X ≼ X') (h2 : Lp ≼ Lp') (h3 : Li ≼ Li') (h4 : Lx ≼ Lx') :
    Sim (LDL_ltsolve n X Lp Li Lx) (LDL_ltsolve n X' Lp' Li' Lx') := by
  unfold LDL_ltsolve
  refine Sim.forDown h1 fun _ _ _ _ => ?_
  sims

theorem sim_perm (n : Int) {X X' B B' : Buf K} {P P' : Buf Int} (h1 : X ≼ X') (h2 : B ≼ B')
    (h3 : P ≼ P') : Sim (LDL_perm n X B P) (LDL_perm n X' B' P') := by
  unfold LDL_perm
  sims

theorem sim_permt (n : Int) {X X' B B' : Buf K} {P P' : Buf Int} (h1 : X ≼ X') (h2 : B ≼ B')
    (h3 : P ≼ P') : Sim (LDL_permt n X B P) (LDL_permt n X' B' P') := by
  unfold LDL_permt
  sims

end Verif
