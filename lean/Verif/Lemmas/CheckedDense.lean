import Verif.Lemmas.CheckedSetup
import Verif.Lemmas.DenseRun

/-!
# Bounded integers: dense input
-/

set_option linter.unusedSectionVars false

namespace Verif

variable {K : Type} [Zero K] [One K] [Add K] [Sub K] [Mul K] [Div K] [Neg K] [Scalar K]

theorem Chk.last {B v : Int} {Q : Int → Prop} (h : -B - 1 ≤ v ∧ v ≤ B) (hq : Q v) :
    Chk (Verif.chk B v) (Pure.pure v) Q := by
  rw [chk_ok h]
  exact Chk.ok hq

theorem idx_fit {j n m : Int} (h0 : 0 ≤ j) (h1 : j < n) (hm : 0 ≤ m) :
    0 ≤ j * m ∧ (j + 1) * m = j * m + m ∧ j * m + m ≤ n * m := by
  refine ⟨by positivity, by ring, ?_⟩
  have : (j + 1) * m ≤ n * m := mul_le_mul_of_nonneg_right (by omega) hm
  linarith [add_mul j 1 m, one_mul m]

theorem densetosparse_chk {B L m n : Int} {pr : Buf K} (hm : 0 ≤ m) (hn : 0 ≤ n)
    (hL : 8 * L ≤ 2 * B + 1) (hn1 : n + 1 ≤ L) (hmn : n * m ≤ L) :
    Chk (densetosparseC B m n pr) (densetosparse m n pr) (fun _ => True) := by
  unfold densetosparseC densetosparse
  refine Chk.chk (by omega) (Chk.malloc (by omega) (Chk.step fun Ap0 _ => ?_))
  refine Chk.bind (Q := fun st : Buf Int × Int => 0 ≤ st.2 ∧ st.2 ≤ n * m) ?_ fun st _ hst => ?_
  · refine (Chk.forI (fun j (st : Buf Int × Int) => 0 ≤ st.2 ∧ st.2 ≤ j * m)
      (by constructor <;> simp) ?_).mono fun st _ h => by rwa [max_eq_right hn] at h
    intro j st h0 h1 hI
    obtain ⟨f1, f2, f3⟩ := idx_fit h0 h1 hm
    rw [f2]
    refine Chk.bind (Q := fun c : Int => 0 ≤ c ∧ c ≤ j * m + m) ?_ fun c _ hc => ?_
    · refine (Chk.forI (fun i (c : Int) => 0 ≤ c ∧ c ≤ j * m + i) (by simpa using hI) ?_).mono
        fun c _ h => by rwa [max_eq_right hm] at h
      intro i c h2 h3 hc
      refine Chk.chk (by omega) (Chk.chk (by omega) (Chk.step fun v _ => ?_))
      refine Chk.ite (fun _ => Chk.pure (by omega)) fun _ => Chk.last (by omega) (by omega)
    · exact Chk.chk (by omega) (Chk.step fun _ _ => Chk.pure hc)
  refine Chk.malloc (by omega) (Chk.malloc (by omega) ?_)
  refine Chk.bind (Q := fun _ => True) ?_ fun st _ _ => Chk.triv _
  refine (Chk.forI (fun j (st : Buf Int × Buf K × Int) => 0 ≤ st.2.2 ∧ st.2.2 ≤ j * m)
      (by constructor <;> simp) ?_).mono fun _ _ _ => trivial
  intro j st h0 h1 hI
  obtain ⟨f1, f2, f3⟩ := idx_fit h0 h1 hm
  rw [f2]
  refine (Chk.forI (fun i (st : Buf Int × Buf K × Int) => 0 ≤ st.2.2 ∧ st.2.2 ≤ j * m + i)
    (by simpa using hI) ?_).mono fun c _ h => by rwa [max_eq_right hm] at h
  intro i c h2 h3 hc
  refine Chk.chk (by omega) (Chk.chk (by omega) (Chk.step fun v _ => ?_))
  refine Chk.ite (fun _ => Chk.pure (by omega)) fun _ => ?_
  exact Chk.step fun _ _ => Chk.step fun _ _ => Chk.step fun _ _ =>
    Chk.chk (by omega) (Chk.pure (by constructor <;> (dsimp only; omega)))

/-- Entries of the column counts while row `i` is read, after `j` columns. -/
def RowCnt (i j : Int) (Ap : Buf Int) : Prop :=
  ∀ (k : Nat) (v : Int), Ap[k]? = some (some v) → 0 ≤ v ∧ (k = 0 → v = 0) ∧ v ≤ i + 1 ∧
    (j < k → v ≤ i)

/-- Entries of the column counts after `i` rows. -/
def RowEnd (i : Int) (Ap : Buf Int) : Prop :=
  ∀ (k : Nat) (v : Int), Ap[k]? = some (some v) → 0 ≤ v ∧ (k = 0 → v = 0) ∧ v ≤ i

theorem densetosparse_ROWMAJOR_chk {B L m n : Int} {pr : Buf K} (hm : 0 ≤ m) (hn : 0 ≤ n)
    (hL : 8 * L ≤ 2 * B + 1) (hn1 : n + 1 ≤ L) (hmn : n * m ≤ L) (hmL : m ≤ L) :
    Chk (densetosparse_ROWMAJORC B m n pr) (densetosparse_ROWMAJOR m n pr) (fun _ => True) := by
  unfold densetosparse_ROWMAJORC densetosparse_ROWMAJOR
  refine Chk.chk (by omega) (Chk.malloc (by omega) ?_)
  refine Chk.bind (Q := Bnd 0 0) (zeros_bnd Bnd.malloc le_rfl) fun Ap0 _ hA0 => ?_
  have hcomm : m * n = n * m := mul_comm m n
  refine Chk.bind (Q := fun st : Buf Int × Int => 0 ≤ st.2 ∧ st.2 ≤ n * m ∧
    RowEnd m st.1) ?_ fun st _ hst => ?_
  · refine (Chk.forI (fun i (st : Buf Int × Int) => 0 ≤ st.2 ∧ st.2 ≤ i * n ∧
      RowEnd i st.1) ⟨le_rfl, by simp, ?_⟩ ?_).mono fun st _ h => ?_
    · intro k v e
      have := hA0 k v e
      omega
    · intro i st h0 h1 hI
      obtain ⟨f1, f2, f3⟩ := idx_fit h0 h1 hn
      rw [f2]
      refine (Chk.forI (fun j (st : Buf Int × Int) => 0 ≤ st.2 ∧ st.2 ≤ i * n + j ∧
        RowCnt i j st.1) ⟨hI.1, by simpa using hI.2.1, ?_⟩ ?_).mono fun st _ h => ?_
      · intro k v e
        have := hI.2.2 k v e
        omega
      · intro j st h2 h3 hc
        refine Chk.chk (by omega) (Chk.chk (by omega) (Chk.step fun v _ => ?_))
        refine Chk.ite (fun _ => Chk.pure ⟨hc.1, by omega, fun k v e => ?_⟩) fun _ => ?_
        · have := hc.2.2 k v e
          omega
        · refine Chk.chk (by omega) (Chk.chk (by omega) (Chk.step fun a ha => ?_))
          obtain ⟨_, _, ha⟩ := rd_run ha
          have g := hc.2.2 _ _ ha
          refine Chk.chk (by omega) (Chk.step fun Ap' hw => Chk.pure ⟨by dsimp only; omega,
            by dsimp only; omega, fun k v e => ?_⟩)
          obtain ⟨_, _, rfl⟩ := wr_run hw
          rw [List.getElem?_set] at e
          split at e
          · split at e
            · cases e; omega
            · cases e
          · have := hc.2.2 k v e
            omega
      · rw [max_eq_right hn] at h
        refine ⟨h.1, h.2.1, fun k v e => ?_⟩
        have := h.2.2 k v e
        omega
    · rw [max_eq_right hm] at h
      exact ⟨h.1, by omega, h.2.2⟩
  refine Chk.malloc (by omega) (Chk.malloc (by omega) ?_)
  refine Chk.bind (Q := fun _ => True) ?_ fun st _ _ => Chk.triv _
  refine (Chk.forI (fun j (st : Buf Int × Buf Int × Buf K × Int) => 0 ≤ st.2.2.2 ∧
      st.2.2.2 ≤ j * m ∧ ∀ (k : Nat) (v : Int), st.1[k]? = some (some v) → 0 ≤ v ∧
        (k ≤ j → v ≤ j * m) ∧ (j < k → v ≤ m))
      ⟨le_rfl, by simp, ?_⟩ ?_).mono fun _ _ _ => trivial
  · intro k v e
    have := hst.2.2 k v e
    have h0 : (0 : Int) * m = 0 := zero_mul m
    omega
  intro j st h0 h1 hI
  obtain ⟨f1, f2, f3⟩ := idx_fit h0 h1 hm
  rw [f2]
  refine Chk.bind (Q := fun s : Buf Int × Buf Int × Buf K × Int => 0 ≤ s.2.2.2 ∧
    s.2.2.2 ≤ j * m + m ∧ s.1 = st.1) ?_ fun s _ hs => ?_
  · refine (Chk.forI (fun i (s : Buf Int × Buf Int × Buf K × Int) => 0 ≤ s.2.2.2 ∧
      s.2.2.2 ≤ j * m + i ∧ s.1 = st.1) ⟨hI.1, by simpa using hI.2.1, rfl⟩ ?_).mono
      fun c _ h => by rwa [max_eq_right hm] at h
    intro i c h2 h3 hc
    obtain ⟨g1, g2, g3⟩ := idx_fit h2 h3 hn
    refine Chk.chk (by omega) (Chk.chk (by omega) (Chk.step fun v _ => ?_))
    refine Chk.ite (fun _ => Chk.pure ⟨hc.1, by omega, hc.2.2⟩) fun _ => ?_
    exact Chk.step fun _ _ => Chk.step fun _ _ =>
      Chk.chk (by omega) (Chk.pure ⟨by dsimp only; omega, by dsimp only; omega, hc.2.2⟩)
  · refine Chk.chk (by omega) (Chk.step fun a ha => Chk.step fun b hb => ?_)
    obtain ⟨_, _, ha⟩ := rd_run ha
    obtain ⟨_, _, hb⟩ := rd_run hb
    rw [hs.2.2] at ha hb
    have ga := hI.2.2 _ _ ha
    have gb := hI.2.2 _ _ hb
    refine Chk.chk (by omega) (Chk.step fun Ap' hw => Chk.pure ⟨hs.1, hs.2.1, fun k v e => ?_⟩)
    obtain ⟨_, _, rfl⟩ := wr_run hw
    rw [List.getElem?_set, hs.2.2] at e
    split at e
    · split at e
      · cases e; omega
      · cases e
    · have := hI.2.2 k v e
      omega

theorem convertDense_chk {B L ordering : Int} {rows cols : Nat} {pr : Buf K}
    (hL : 8 * L ≤ 2 * B + 1) (hc : (cols : Int) + 1 ≤ L) (hr : (rows : Int) ≤ L)
    (hrc : ((rows * cols : Nat) : Int) ≤ L) :
    Chk (convertDenseC B ordering rows cols pr) (convertDense ordering rows cols pr)
      (fun _ => True) := by
  have e : (cols : Int) * (rows : Int) ≤ L := by
    rw [Nat.cast_mul] at hrc
    linarith [mul_comm (cols : Int) (rows : Int)]
  unfold convertDenseC convertDense
  refine Chk.ite (fun _ => ?_) (fun _ => ?_)
  · exact densetosparse_chk (by omega) (by omega) hL hc e
  · exact densetosparse_ROWMAJOR_chk (by omega) (by omega) hL hc e hr

theorem dense_eq_sparseC {B L : Int} (amd : Amd) {da : DenseArgs K} {n m p : Nat} (hn : da.n = n)
    (hm : da.m = m) (hp : da.p = p) {fP fG fA : Nat → K} (hP : Buf.Has da.Ppr (n * n) fP)
    (hG : Buf.Has da.Gpr (m * n) fG)
    (hA : ∀ B b, da.Apr = some B → da.b = some b → Buf.Has B (p * n) fA)
    {P G A : Csc K} (cP : P.Compresses n n (denseAt da.ordering n n fP))
    (cG : G.Compresses m n (denseAt da.ordering m n fG))
    (cA : A.Compresses p n (denseAt da.ordering p n fA))
    (hL : 8 * L ≤ 2 * B + 1) (hnL : (n : Int) + 1 ≤ L) (hmL : (m : Int) ≤ L)
    (hnn : ((n * n : Nat) : Int) ≤ L) (hmn : ((m * n : Nat) : Int) ≤ L)
    (hpn : ∀ B b, da.Apr = some B → da.b = some b → ((p * n : Nat) : Int) ≤ L ∧ (p : Int) ≤ L) :
    QP_SETUP_denseC B amd da = QP_SETUPC B amd
      { n := n, m := m, p := p
        Pjc := P.toSmat.jc, Pir := P.toSmat.ir, Ppr := P.toSmat.pr
        Ajc := da.Apr.map (fun _ => A.toSmat.jc), Air := da.Apr.map (fun _ => A.toSmat.ir)
        Apr := da.Apr.map (fun _ => A.toSmat.pr)
        Gjc := G.toSmat.jc, Gir := G.toSmat.ir, Gpr := G.toSmat.pr
        c := da.c, h := da.h, b := da.b, sigma_d := Scalar.dec 0 0, Permut := da.Permut } := by
  have e1 := (convertDense_chk (B := B) hL hnL (by omega) hnn _ (convertDense_compress hP cP)).1
  have e2 := (convertDense_chk (B := B) hL hnL (by omega) hmn _ (convertDense_compress hG cG)).1
  have r1 : rd P.toSmat.jc (n : Int) = .ok (P.nnz : Int) := by
    have := P.toSmat_is.jc.rd (Nat.lt_succ_self P.n)
    rw [cP.n] at this
    rw [this]; unfold Csc.nnz; rw [cP.n]
  have r2 : rd G.toSmat.jc (n : Int) = .ok (G.nnz : Int) := by
    have := G.toSmat_is.jc.rd (Nat.lt_succ_self G.n)
    rw [cG.n] at this
    rw [this]; unfold Csc.nnz; rw [cG.n]
  have s1 : SparseMatrixSetup (n : Int) n P.nnz P.toSmat.jc P.toSmat.ir P.toSmat.pr = P.toSmat := by
    simp only [SparseMatrixSetup, Csc.toSmat, cP.m, cP.n]
  have s2 : SparseMatrixSetup (m : Int) n G.nnz G.toSmat.jc G.toSmat.ir G.toSmat.pr = G.toSmat := by
    simp only [SparseMatrixSetup, Csc.toSmat, cG.m, cG.n]
  unfold QP_SETUP_denseC QP_SETUPC
  rw [hn, hm, hp, e1, e2]
  simp only [r1, r2, ok_bind, s1, s2]
  cases hAp : da.Apr with
  | none => simp
  | some Apr =>
    cases hb : da.b with
    | none => simp
    | some b =>
      obtain ⟨l1, l2⟩ := hpn Apr b hAp hb
      have e3 := (convertDense_chk (B := B) hL hnL l2 l1 _
        (convertDense_compress (hA Apr b hAp hb) cA)).1
      have r3 : rd A.toSmat.jc (n : Int) = .ok (A.nnz : Int) := by
        have := A.toSmat_is.jc.rd (Nat.lt_succ_self A.n)
        rw [cA.n] at this
        rw [this]; unfold Csc.nnz; rw [cA.n]
      have s3 : SparseMatrixSetup (p : Int) n A.nnz A.toSmat.jc A.toSmat.ir A.toSmat.pr
          = A.toSmat := by
        simp only [SparseMatrixSetup, Csc.toSmat, cA.m, cA.n]
      by_cases hp0 : (p : Int) ≠ 0
      · simp only [hp0, if_true, e3, r3, ok_bind, s3, Option.map_some, pure_eq_ok, ne_eq,
          not_false_eq_true]
      · simp only [hp0, if_false, Option.map_some, pure_eq_ok, ok_bind]

theorem DenseArgs.Give.sparseC {B L : Int} {da : DenseArgs K} {pb : Problem K} (h : da.Give pb)
    (amd : Amd) (hL : 8 * L ≤ 2 * B + 1) (hN : (pb.N : Int) + 1 ≤ L)
    (hnn : ((pb.n * pb.n : Nat) : Int) ≤ L) (hmn : ((pb.m * pb.n : Nat) : Int) ≤ L)
    (hpn : ((pb.p * pb.n : Nat) : Int) ≤ L) :
    ∃ a : SetupArgs K, QP_SETUP_dense amd da = QP_SETUP amd a ∧
      QP_SETUP_denseC B amd da = QP_SETUPC B amd a ∧ a.Give pb ∧ a.Permut = da.Permut ∧
      a.p = da.p := by
  have z : (pb.N : Int) = pb.n + pb.p + pb.m := by unfold Problem.N; push_cast; ring
  obtain ⟨fP, hP, cP⟩ := h.P
  obtain ⟨fG, hG, cG⟩ := h.G
  rcases h.eq with ⟨Apr, Bf, fA, e1, e2, e3, e4, e5, e6, e7⟩ | ⟨e1, e2⟩
  · have hA : ∀ B b, da.Apr = some B → da.b = some b → Buf.Has B (pb.p * pb.n) fA := by
      intro B' b' hB' _
      rw [e1] at hB'
      cases hB'
      exact e5
    refine ⟨_, C33_dense_eq_sparse amd h.n h.m e3 hP hG hA cP cG e6,
      dense_eq_sparseC amd h.n h.m e3 hP hG hA cP cG e6 hL (by omega) (by omega) hnn hmn
        (fun _ _ _ _ => ⟨hpn, by omega⟩), ?_, rfl, e3.symm⟩
    refine ⟨rfl, rfl, pb.P.toSmat_is.jc, pb.P.toSmat_is.ir, pb.P.toSmat_is.pr, pb.G.toSmat_is.jc,
      pb.G.toSmat_is.ir, pb.G.toSmat_is.pr, h.c, h.h, h.sigma_d.symm, Or.inl ?_⟩
    refine ⟨_, _, _, Bf, by rw [e1]; rfl, by rw [e1]; rfl, by rw [e1]; rfl, e2, rfl, e4,
      pb.A.toSmat_is.jc, pb.A.toSmat_is.ir, pb.A.toSmat_is.pr, e7⟩
  · obtain ⟨p, hp⟩ : ∃ p : Nat, da.p = p := ⟨da.p.toNat, by have := h.p_nonneg; omega⟩
    by_cases hnone : da.Apr = none ∨ da.b = none
    · have hno : ∀ B b, da.Apr = some B → da.b = some b → False := by
        intro B' b' hB' hb'
        rcases hnone with h1 | h1
        · rw [h1] at hB'; cases hB'
        · rw [h1] at hb'; cases hb'
      refine ⟨_, C33_dense_eq_sparse amd h.n h.m hp hP hG (fA := fun _ => 0)
        (fun B b h1 h2 => (hno B b h1 h2).elim) cP cG (denseCsc_compresses _ _ _),
        dense_eq_sparseC amd h.n h.m hp hP hG (fA := fun _ => 0)
        (fun B b h1 h2 => (hno B b h1 h2).elim) cP cG (denseCsc_compresses _ _ _) hL (by omega)
        (by omega) hnn hmn (fun B b h1 h2 => (hno B b h1 h2).elim), ?_, rfl, hp.symm⟩
      refine ⟨rfl, rfl, pb.P.toSmat_is.jc, pb.P.toSmat_is.ir, pb.P.toSmat_is.pr,
        pb.G.toSmat_is.jc, pb.G.toSmat_is.ir, pb.G.toSmat_is.pr, h.c, h.h, h.sigma_d.symm,
        Or.inr ⟨?_, e2⟩⟩
      rcases hnone with h1 | h1
      · left; rw [h1]; rfl
      · right; right; right; left; exact h1
    · have hp0 : da.p = 0 := by
        rcases e1 with h1 | h1 | h1
        · exact absurd (Or.inl h1) hnone
        · exact absurd (Or.inr h1) hnone
        · exact h1
      have hp' : p = 0 := by omega
      subst hp'
      have hA : ∀ B b, da.Apr = some B → da.b = some b → Buf.Has B (0 * pb.n) fun _ => (0 : K) := by
        intro B' b' _ _ i hi
        omega
      refine ⟨_, C33_dense_eq_sparse amd h.n h.m hp hP hG hA cP cG (denseCsc_compresses _ _ _),
        dense_eq_sparseC amd h.n h.m hp hP hG hA cP cG (denseCsc_compresses _ _ _) hL (by omega)
        (by omega) hnn hmn (fun _ _ _ _ => ⟨by simp; omega, by omega⟩), ?_, rfl, hp.symm⟩
      refine ⟨rfl, rfl, pb.P.toSmat_is.jc, pb.P.toSmat_is.ir, pb.P.toSmat_is.pr,
        pb.G.toSmat_is.jc, pb.G.toSmat_is.ir, pb.G.toSmat_is.pr, h.c, h.h, h.sigma_d.symm,
        Or.inr ⟨?_, e2⟩⟩
      right; right; right; right; rfl

end Verif
