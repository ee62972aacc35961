import Verif.Lemmas.NullSolve

/-!
# The allocations that setup needs
-/

set_option linter.unusedSectionVars false

namespace Verif

variable {K : Type} [Zero K] [One K] [Add K] [Sub K] [Mul K] [Div K] [Neg K] [Scalar K]

theorem null_toSmat (A : Smat K) : A ≼ A := Nullable.refl _

theorem SiLe.refl (si : SetupIn K) : SiLe si si :=
  ⟨rfl, rfl, rfl, rfl, Nullable.refl _, Nullable.refl _, Nullable.refl _, Nullable.refl _,
    Nullable.refl _, Nullable.refl _, rfl, rfl⟩

/-- Every entry lies in a column. -/
theorem Smat.Is.column {S : Smat K} {A : Csc K} (h : S.Is A) (hA : A.WF) (hz : A.nnz ≠ 0) :
    ∃ i : Nat, i < A.n ∧ ∀ lo hi, rd S.jc i = .ok lo → rd S.jc ((i : Int) + 1) = .ok hi → lo < hi := by
  obtain ⟨c, hc, h1, h2⟩ := hA.exists_col (k := 0) (by omega)
  refine ⟨c, hc, fun lo hi e1 e2 => ?_⟩
  have e2 : rd S.jc ((c + 1 : Nat) : Int) = .ok hi := e2
  rw [h.jc.rd (by omega)] at e1 e2
  cases e1
  cases e2
  omega

theorem G_nnz {pb : Problem K} (hpb : pb.WF) : pb.G.nnz ≠ 0 := by
  obtain ⟨k, hk, -⟩ := hpb.rows 0 hpb.m_pos
  exact fun e => absurd (e ▸ hk) (Nat.not_lt_zero k)

theorem n_pos {pb : Problem K} (hpb : pb.WF) : 0 < pb.n := by
  obtain ⟨k, hk, -⟩ := hpb.rows 0 hpb.m_pos
  obtain ⟨c, hc, -⟩ := hpb.G.exists_col hk
  have := hpb.Gn
  show 0 < pb.P.n
  omega

/-- If the common part of setup ends normally, the allocations it uses succeeded. -/
theorem tail_needs {al : Site → Bool} {amd : Amd} {si : SetupIn K} {pb : Problem K} {q0 q : QP K}
    (hpb : pb.WF) (hg : si.Give pb) (hs : PermSource amd si.Permut si.argp pb)
    (hA : ∀ A, si.A = some A → 0 < pb.p) (h0 : setupTail amd si = .ok q0)
    (h : setupTailF al amd si = .ok q) : TailOk al si := by
  obtain ⟨i, hi, hlt⟩ := hg.G.column hpb.G (G_nnz hpb)
  obtain ⟨p, r, hd⟩ := (setupTail_spec hpb hg hs).elim h0
  have hn := n_pos hpb
  have hm : 0 < pb.m := hpb.m_pos
  have en : si.P.n = pb.n := hg.P.n
  have em : si.P.m = pb.n := by rw [hg.P.m, hpb.Pm]; rfl
  have gn : si.G.n = pb.n := by rw [hg.G.n, hpb.Gn]; rfl
  have gi : i < pb.n := by rw [hpb.Gn] at hi; exact hi
  have hSA : ∀ A, si.A = some A → A.Is pb.A := by
    intro A e
    rcases hg.eq with ⟨SA, B, h1, -, h2, -⟩ | ⟨h1, -⟩
    · rw [e] at h1; cases h1; exact h2
    · rw [e] at h1; cases h1
  have hso : SiOk si i :=
    { n := by rw [hg.n]; omega, m := by rw [hg.m]; omega, p := by rw [hg.p]; omega
      Pn := by rw [en, hg.n], Gn := by rw [gn, hg.n], Gm := by rw [hg.G.m, hg.m]; rfl
      A := fun A e => ⟨by rw [(hSA A e).m, hg.p]; rfl, by rw [hg.p]; have := hA A e; omega⟩
      i0 := by omega, ilt := by rw [hg.n]; omega, entry := hlt }
  obtain ⟨⟨g1, g2, g3, g4, g5⟩, tA, ⟨k1, k2, k3, k4, k5, k6, k7⟩, kP, ⟨x1, x2, x3, x4, x5⟩,
    ⟨l1, l2, l3, l4, l5, l6, l7, l8⟩⟩ := setupTailF_touch hso h
  obtain ⟨q0', e0, hle⟩ := sim_setupTail (SiLe.refl si) (al := al) (amd := amd) (i := i) kP (by omega) (by rw [en]; omega) hlt q h
  rw [h0] at e0
  cases e0
  obtain ⟨c, hc, lo, hi', e1, e2, e3⟩ := hd.entry hpb
  have hle : QpLe q q0 := hle
  have hk : q.kkt.Lp ≼ q0.kkt.Lp := hle.kkt.2.2.2.2.2.2.1
  have hkn : q.kkt.kktmatrix.n = pb.N := by
    have e : q.kkt.kktmatrix.n = q0.kkt.kktmatrix.n := hle.kkt.1.2.2.2.1
    rw [e, hd.kkt.mat.n, hd.kkt.an]
  obtain ⟨m1, m2, m3, m4⟩ := setupTailF_touch_L h (j := c) (by omega) (by rw [hkn]; omega)
    (fun a b ha hb => by
      have := rd_null hk _ ha
      rw [e1] at this
      cases this
      have := rd_null hk _ hb
      rw [e2] at this
      cases this
      exact e3)
  refine { Y := l1, D := l2, Lp := l3, Parent := l4, Pattern := m3, Flag := l5, Lnz := l6, Li := m1
           Lx := m2, Lti := m4, Ltp := l8, countL := l7, z_inter := x5, Gt := g1, Gtjc := g2
           Gtir := g3, Gtpr := g4, Gcount := g5, kkt := k1, kktmatrix := k2, kktjc := k3
           kktir := k4, kktpr := k5, kktb := k6, Pinv := k7, kktP := kP, x := x1, z := x2, s := x3
           delta := x4, A := fun A e => ?_ }
  obtain ⟨a1, a2, a3, a4⟩ := tA (by rw [e]; simp)
  refine ⟨a1, a2, a3, a4, ?_⟩
  by_cases hz : pb.A.nnz = 0
  · have : A.nnz = 0 := by rw [(hSA A e).nnz, hz]; rfl
    exact ⟨Or.inr (by omega), Or.inr (by omega)⟩
  · obtain ⟨j, hj, hjl⟩ := (hSA A e).column hpb.A hz
    obtain ⟨b1, b2⟩ := setupTailF_touch_A e (by omega) (by rw [(hSA A e).n]; omega) hjl h
    exact ⟨Or.inl b1, Or.inl b2⟩

theorem tail_iff {al : Site → Bool} {amd : Amd} {si : SetupIn K} {pb : Problem K} {q0 : QP K}
    (hpb : pb.WF) (hg : si.Give pb) (hs : PermSource amd si.Permut si.argp pb)
    (hA : ∀ A, si.A = some A → 0 < pb.p) (h0 : setupTail amd si = .ok q0) (q : QP K) :
    setupTailF al amd si = .ok q ↔
      TailOk al si ∧ q = q0.spare (spareF al si.argn si.argm si.p si.A.isSome) := by
  constructor
  · intro h
    have ht := tail_needs hpb hg hs hA h0 h
    rw [setupTail_ok ht, h0] at h
    cases h
    exact ⟨ht, rfl⟩
  · rintro ⟨ht, rfl⟩
    rw [setupTail_ok ht, h0]
    rfl

theorem structF_iff {t : Bool} {β : Type} {f : M β} {b : β} :
    ((structF t >>= fun _ => f) = .ok b) ↔ (t = true ∧ f = .ok b) := by
  cases t with
  | true => exact ⟨fun h => ⟨rfl, h⟩, fun h => h.2⟩
  | false =>
    constructor
    · intro h; cases h
    · intro h; exact absurd h.1 (by decide)

/-- The structures allocated before the common part. -/
structure HeadOk (al : Site → Bool) (p : Nat) : Prop where
  myQP : al .myQP = true
  options : al .options = true
  stats : al .stats = true
  A : p ≠ 0 → al (.mat .A) = true
  P : al (.mat .P) = true
  G : al (.mat .G) = true

theorem QP_SETUPF_iff {al : Site → Bool} {amd : Amd} {a : SetupArgs K} {pb : Problem K}
    (hpb : pb.Shaped) (h : a.Give pb) (q : QP K) :
    QP_SETUPF al amd a = .ok q ↔ HeadOk al pb.p ∧ setupTailF al amd (a.toIn pb) = .ok q := by
  have hPz : rd a.Pjc a.n = .ok (pb.P.nnz : Int) := by rw [h.n]; exact h.Pjc.rd (Nat.lt_succ_self _)
  have hGz : rd a.Gjc a.n = .ok (pb.G.nnz : Int) := by
    have : (a.n : Int) = (pb.G.n : Nat) := by rw [h.n, hpb.Gn]; rfl
    rw [this]; exact h.Gjc.rd (Nat.lt_succ_self _)
  rcases h.eq with ⟨Ajc, Air, Apr, B, e1, e2, e3, e4, e5, hp0, i1, i2, i3, i4⟩ | ⟨hnone, hAe⟩
  · have hAz : rd Ajc a.n = .ok (pb.A.nnz : Int) := by
      have : (a.n : Int) = (pb.A.n : Nat) := by rw [h.n, hpb.An]; rfl
      rw [this]; exact i1.rd (Nat.lt_succ_self _)
    have ep : a.p ≠ 0 := by rw [e5]; omega
    unfold QP_SETUPF SetupArgs.toIn
    rw [e1, e2, e3, e4]
    simp only [ep, ne_eq, not_false_eq_true, if_true, hAz, ok_bind, hPz, hGz, pure_eq_ok,
      bind_assoc, structF_iff, (show ¬ pb.p = 0 by omega), if_false]
    rw [e5, h.n, h.m]
    exact ⟨fun ⟨a1, a2, a3, a4, a5, a6, a7⟩ => ⟨⟨a1, a2, a3, fun _ => a4, a5, a6⟩, a7⟩,
      fun ⟨⟨a1, a2, a3, a4, a5, a6⟩, a7⟩ => ⟨a1, a2, a3, a4 (by omega), a5, a6, a7⟩⟩
  · have hp0 : pb.p = 0 := by unfold Problem.p; rw [hAe]; rfl
    have key : QP_SETUPF al amd a = (do
        structF (al .myQP)
        structF (al .options)
        structF (al .stats)
        structF (al (.mat .P))
        structF (al (.mat .G))
        setupTailF al amd (a.toIn pb)) := by
      unfold QP_SETUPF SetupArgs.toIn
      simp only [hPz, hGz, hp0, if_true, ok_bind]
      split
      · next Apr Ajc Air B e1 e2 e3 e4 =>
        rw [e1, e2, e3, e4] at hnone
        simp only [reduceCtorEq, false_or] at hnone
        rw [if_neg (by simpa using hnone)]
        simp only [pure_eq_ok, ok_bind]
        rw [h.n, h.m]
        rfl
      · simp only [pure_eq_ok, ok_bind]
        rw [h.n, h.m]
        rfl
    rw [key]
    simp only [structF_iff]
    exact ⟨fun ⟨a1, a2, a3, a5, a6, a7⟩ => ⟨⟨a1, a2, a3, fun e => absurd hp0 e, a5, a6⟩, a7⟩,
      fun ⟨⟨a1, a2, a3, a4, a5, a6⟩, a7⟩ => ⟨a1, a2, a3, a5, a6, a7⟩⟩

/-- Whether the conversion of a dense matrix gets the arrays it uses. -/
structure ConvOk (al : Site → Bool) (w : Which) (nnz : Nat) : Prop where
  Ap : al (.Ap w) = true
  Ai : nnz ≠ 0 → al (.Ai w) = true
  Ax : nnz ≠ 0 → al (.Ax w) = true

theorem col_needs {al : Site → Bool} {w : Which} {m n : Int} {pr : Buf K} {S : Smat K}
    (hn : 0 ≤ n) (h : densetosparseF al w m n pr = .ok S) :
    al (.Ap w) = true ∧ (S.nnz ≠ 0 → al (.Ai w) = true ∧ al (.Ax w) = true) := by
  unfold densetosparseF at h
  dsimp only at h
  obtain ⟨Ap, h1, h⟩ := bind_ok h
  obtain ⟨st, -, h⟩ := bind_ok h
  obtain ⟨r, h3, h⟩ := bind_ok h
  cases h
  obtain ⟨v, hv⟩ := forI_first h1 (by omega)
  refine ⟨mallocF_wr hv, fun hz => ⟨?_, ?_⟩⟩
  · cases e : al (.Ai w) with
    | true => rfl
    | false =>
      refine absurd ?_ hz
      refine (Post.forI (I := fun s : Buf Int × Buf K × Int => s.1 = [] ∧ s.2.2 = 0)
        ⟨by rw [e]; rfl, rfl⟩ (fun j s hs => Post.forI
          (I := fun s : Buf Int × Buf K × Int => s.1 = [] ∧ s.2.2 = 0) hs fun i s hs =>
          Post.next fun v => Post.ite (fun _ => Post.pure hs) fun _ => ?_) r h3).2
      intro a ha
      obtain ⟨_, ha, -⟩ := bind_ok ha
      rw [hs.1] at ha
      exact absurd ha wr_nil
  · cases e : al (.Ax w) with
    | true => rfl
    | false =>
      refine absurd ?_ hz
      refine (Post.forI (I := fun s : Buf Int × Buf K × Int => s.2.1 = [] ∧ s.2.2 = 0)
        ⟨by rw [e]; rfl, rfl⟩ (fun j s hs => Post.forI
          (I := fun s : Buf Int × Buf K × Int => s.2.1 = [] ∧ s.2.2 = 0) hs fun i s hs =>
          Post.next fun v => Post.ite (fun _ => Post.pure hs) fun _ => ?_) r h3).2
      intro a ha
      obtain ⟨_, -, ha⟩ := bind_ok ha
      obtain ⟨_, -, ha⟩ := bind_ok ha
      obtain ⟨_, ha, -⟩ := bind_ok ha
      rw [hs.1] at ha
      exact absurd ha wr_nil

theorem row_needs {al : Site → Bool} {w : Which} {m n : Int} {pr : Buf K} {S : Smat K}
    (hn : 0 ≤ n) (h : densetosparse_ROWMAJORF al w m n pr = .ok S) :
    al (.Ap w) = true ∧ (S.nnz ≠ 0 → al (.Ai w) = true ∧ al (.Ax w) = true) := by
  unfold densetosparse_ROWMAJORF at h
  dsimp only at h
  obtain ⟨Ap, h1, h⟩ := bind_ok h
  obtain ⟨st, -, h⟩ := bind_ok h
  obtain ⟨r, h3, h⟩ := bind_ok h
  cases h
  obtain ⟨v, hv⟩ := forI_first h1 (by omega)
  refine ⟨mallocF_wr hv, fun hz => ⟨?_, ?_⟩⟩
  · cases e : al (.Ai w) with
    | true => rfl
    | false =>
      refine absurd ?_ hz
      refine (Post.forI (I := fun s : Buf Int × Buf Int × Buf K × Int => s.2.1 = [] ∧ s.2.2.2 = 0)
        ?_ ?_ r h3).2
      · exact ⟨by rw [e]; rfl, rfl⟩
      intro j s hs
      refine Post.bind (Q := fun s : Buf Int × Buf Int × Buf K × Int => s.2.1 = [] ∧ s.2.2.2 = 0)
        (Post.forI (I := fun s : Buf Int × Buf Int × Buf K × Int => s.2.1 = [] ∧ s.2.2.2 = 0) hs
          fun i s hs => Post.next fun v => Post.ite (fun _ => Post.pure hs) fun _ => ?_)
        fun s hs => Post.next fun _ => Post.next fun _ => Post.next fun _ => Post.pure hs
      intro a ha
      obtain ⟨_, ha, -⟩ := bind_ok ha
      rw [hs.1] at ha
      exact absurd ha wr_nil
  · cases e : al (.Ax w) with
    | true => rfl
    | false =>
      refine absurd ?_ hz
      refine (Post.forI (I := fun s : Buf Int × Buf Int × Buf K × Int => s.2.2.1 = [] ∧ s.2.2.2 = 0)
        ?_ ?_ r h3).2
      · exact ⟨by rw [e]; rfl, rfl⟩
      intro j s hs
      refine Post.bind (Q := fun s : Buf Int × Buf Int × Buf K × Int => s.2.2.1 = [] ∧ s.2.2.2 = 0)
        (Post.forI (I := fun s : Buf Int × Buf Int × Buf K × Int => s.2.2.1 = [] ∧ s.2.2.2 = 0) hs
          fun i s hs => Post.next fun v => Post.ite (fun _ => Post.pure hs) fun _ => ?_)
        fun s hs => Post.next fun _ => Post.next fun _ => Post.next fun _ => Post.pure hs
      intro a ha
      obtain ⟨_, -, ha⟩ := bind_ok ha
      obtain ⟨_, ha, -⟩ := bind_ok ha
      rw [hs.1] at ha
      exact absurd ha wr_nil

theorem malloc_len {α : Type} {n : Int} : (malloc n : Buf α).length = n.toNat := by
  simp [malloc]

theorem col_ok {al : Site → Bool} {w : Which} {m n : Int} {pr : Buf K} {S : Smat K}
    (hA : al (.Ap w) = true) (hz : S.ir.length ≠ 0 → al (.Ai w) = true ∧ al (.Ax w) = true)
    (h : densetosparse m n pr = .ok S) : densetosparseF al w m n pr = .ok S := by
  unfold densetosparse at h
  unfold densetosparseF
  dsimp only at h ⊢
  rw [mallocF_true hA]
  obtain ⟨Ap, h1, h⟩ := bind_ok h
  rw [h1, ok_bind]
  obtain ⟨st, h2, h⟩ := bind_ok h
  rw [h2, ok_bind]
  have hlen : S.ir.length = st.2.toNat := by
    obtain ⟨r, h3, h⟩ := bind_ok h
    cases h
    rw [← malloc_len (α := Int)]
    refine Post.forI (I := fun s : Buf Int × Buf K × Int => s.1.length =
      (malloc st.2 : Buf Int).length) rfl (fun j s hs => Post.forI
        (I := fun s : Buf Int × Buf K × Int => s.1.length = (malloc st.2 : Buf Int).length) hs
        fun i s hs => Post.next fun v => Post.ite (fun _ => Post.pure hs) fun _ => ?_) r h3
    exact Post.wr.bind fun _ h1 => Post.next fun _ => Post.next fun _ => Post.pure (h1.trans hs)
  have hc : (al (.Ai w) = true ∧ al (.Ax w) = true) ∨ st.2 ≤ 0 := by
    by_cases e : S.ir.length = 0
    · right; omega
    · left; exact hz e
  rw [mallocF_nil (hc.imp_left (·.1)), mallocF_nil (hc.imp_left (·.2))]
  exact h

theorem row_ok {al : Site → Bool} {w : Which} {m n : Int} {pr : Buf K} {S : Smat K}
    (hA : al (.Ap w) = true) (hz : S.ir.length ≠ 0 → al (.Ai w) = true ∧ al (.Ax w) = true)
    (h : densetosparse_ROWMAJOR m n pr = .ok S) : densetosparse_ROWMAJORF al w m n pr = .ok S := by
  unfold densetosparse_ROWMAJOR at h
  unfold densetosparse_ROWMAJORF
  dsimp only at h ⊢
  rw [mallocF_true hA]
  obtain ⟨Ap, h1, h⟩ := bind_ok h
  rw [h1, ok_bind]
  obtain ⟨st, h2, h⟩ := bind_ok h
  rw [h2, ok_bind]
  have hlen : S.ir.length = st.2.toNat := by
    obtain ⟨r, h3, h⟩ := bind_ok h
    cases h
    rw [← malloc_len (α := Int)]
    refine Post.forI (I := fun s : Buf Int × Buf Int × Buf K × Int => s.2.1.length =
        (malloc st.2 : Buf Int).length) ?_ ?_ r h3
    · rfl
    intro j s hs
    refine Post.bind (Q := fun s : Buf Int × Buf Int × Buf K × Int => s.2.1.length =
        (malloc st.2 : Buf Int).length)
      (Post.forI (I := fun s : Buf Int × Buf Int × Buf K × Int => s.2.1.length =
        (malloc st.2 : Buf Int).length) hs
        fun i s hs => Post.next fun v => Post.ite (fun _ => Post.pure hs) fun _ => ?_)
      fun s hs => Post.next fun _ => Post.next fun _ => Post.next fun _ => Post.pure hs
    exact Post.wr.bind fun _ h1 => Post.next fun _ => Post.pure (h1.trans hs)
  have hc : (al (.Ai w) = true ∧ al (.Ax w) = true) ∨ st.2 ≤ 0 := by
    by_cases e : S.ir.length = 0
    · right; omega
    · left; exact hz e
  rw [mallocF_nil (hc.imp_left (·.1)), mallocF_nil (hc.imp_left (·.2))]
  exact h

theorem convert_iff {al : Site → Bool} {w : Which} {o m n : Int} {pr : Buf K} {A : Csc K} (hn : 0 ≤ n)
    (h : convertDense o m n pr = .ok A.toSmat) (S : Smat K) :
    convertDenseF al w o m n pr = .ok S ↔ ConvOk al w A.nnz ∧ S = A.toSmat := by
  have back : ConvOk al w A.nnz → convertDenseF al w o m n pr = .ok A.toSmat := by
    intro hc
    have hz : A.toSmat.ir.length ≠ 0 → al (.Ai w) = true ∧ al (.Ax w) = true := by
      intro e
      have e : A.nnz ≠ 0 := by simpa [Csc.toSmat, Buf.length_ofFn] using e
      exact ⟨hc.Ai e, hc.Ax e⟩
    unfold convertDense at h
    unfold convertDenseF
    split
    · rw [if_pos ‹_›] at h
      exact col_ok hc.Ap hz h
    · rw [if_neg ‹_›] at h
      exact row_ok hc.Ap hz h
  constructor
  · intro hS
    obtain ⟨S', e, hle⟩ := sim_convertDense o m n pr S hS
    rw [h] at e
    cases e
    have hz : S.nnz = A.nnz := hle.2.2.2.2.2
    have hc : ConvOk al w A.nnz := by
      have : al (.Ap w) = true ∧ (S.nnz ≠ 0 → al (.Ai w) = true ∧ al (.Ax w) = true) := by
        unfold convertDenseF at hS
        split at hS
        · exact col_needs hn hS
        · exact row_needs hn hS
      exact ⟨this.1, fun e => (this.2 (by rw [hz]; omega)).1, fun e => (this.2 (by rw [hz]; omega)).2⟩
    refine ⟨hc, ?_⟩
    rw [back hc] at hS
    cases hS
    rfl
  · rintro ⟨hc, rfl⟩
    exact back hc

end Verif
