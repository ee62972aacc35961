import Verif.Lemmas.NullRun

/-!
# Arrays that setup must access

If setup ends normally, the arrays it accesses in any case were allocated.
-/

set_option linter.unusedSectionVars false

namespace Verif

theorem forI_first {σ : Type} {lo hi : Int} {f : Int → σ → M σ} {s t : σ}
    (h : forI lo hi s f = .ok t) (hlt : lo < hi) : ∃ v, f lo s = .ok v := by
  unfold forI at h
  obtain ⟨k, hk⟩ : ∃ k, (hi - lo).toNat = k + 1 := ⟨(hi - lo).toNat - 1, by omega⟩
  rw [hk] at h
  simp only [forN] at h
  obtain ⟨v, hv, -⟩ := bind_ok h
  exact ⟨v, hv⟩

theorem wr_ne {α : Type} {b c : Buf α} {i : Int} {v : α} (h : wr b i v = .ok c) : b ≠ [] :=
  fun e => wr_nil (e ▸ h)

theorem rd_ne {α : Type} {b : Buf α} {i : Int} {v : α} (h : rd b i = .ok v) : b ≠ [] :=
  fun e => rd_nil (e ▸ h)

theorem mallocF_wr {α : Type} {t : Bool} {n i : Int} {v : α} {c : Buf α}
    (h : wr (mallocF t n) i v = .ok c) : t = true := (mallocF_ne (wr_ne h)).1

theorem structF_ok {t : Bool} {β : Type} {f : M β} {b : β}
    (h : (structF t >>= fun _ => f) = .ok b) : t = true ∧ f = .ok b := by
  cases t with
  | true => exact ⟨rfl, h⟩
  | false => cases h

theorem len_ne {α : Type} {b c : Buf α} (h : b.length = c.length) (hb : b ≠ []) : c ≠ [] := by
  intro e
  rw [e] at h
  exact hb (List.length_eq_zero_iff.1 h)

variable {K : Type} [Zero K] [One K] [Add K] [Sub K] [Mul K] [Div K] [Neg K] [Scalar K]

/-- A transposition uses the counters and the column pointers. -/
theorem transposeF_touch {ok : Bool} {A At r : Smat K} (hm : 0 < A.m)
    (h : SparseMatrixTransposeF ok A At = .ok r) : ok = true ∧ At.jc ≠ [] := by
  unfold SparseMatrixTransposeF at h
  obtain ⟨c1, h1, h⟩ := bind_ok h
  obtain ⟨c2, -, h⟩ := bind_ok h
  obtain ⟨c3, h3, h⟩ := bind_ok h
  obtain ⟨v, hv⟩ := forI_first h1 hm
  exact ⟨mallocF_wr hv, wr_ne h3⟩

/-- A transposition uses the arrays of entries if there is an entry. -/
theorem transposeF_touch_entries {ok : Bool} {A At r : Smat K} {i : Int} (h0 : 0 ≤ i) (hi : i < A.n)
    (hlt : ∀ lo hi, rd A.jc i = .ok lo → rd A.jc (i + 1) = .ok hi → lo < hi)
    (h : SparseMatrixTransposeF ok A At = .ok r) : At.ir ≠ [] ∧ At.pr ≠ [] := by
  unfold SparseMatrixTransposeF at h
  obtain ⟨c1, -, h⟩ := bind_ok h
  obtain ⟨c2, -, h⟩ := bind_ok h
  obtain ⟨c3, -, h⟩ := bind_ok h
  obtain ⟨c4, -, h⟩ := bind_ok h
  obtain ⟨c5, -, h⟩ := bind_ok h
  obtain ⟨c6, h6, -⟩ := bind_ok h
  have step : ∀ (i j : Int) (s : Buf Int × Buf Int × Buf K),
      (s.2.1.length = At.ir.length ∧ s.2.2.length = At.pr.length) →
      Post (do
        let k ← rd A.ir j
        let a ← rd c4 k
        let c ← rd s.1 k
        let ir ← wr s.2.1 (a + c) i
        let v ← rd A.pr j
        let pr ← wr s.2.2 (a + c) v
        let count ← wr s.1 k (c + 1)
        pure (count, ir, pr) : M (Buf Int × Buf Int × Buf K))
        (fun s => s.2.1.length = At.ir.length ∧ s.2.2.length = At.pr.length) := by
    intro i j s hs
    refine Post.next fun _ => Post.next fun _ => Post.next fun _ => Post.wr.bind fun _ h1 =>
      Post.next fun _ => Post.wr.bind fun _ h2 => Post.next fun _ => ?_
    exact Post.pure ⟨h1.trans hs.1, h2.trans hs.2⟩
  obtain ⟨u, v, hu, hv⟩ := forI_iter (I := fun s : Buf Int × Buf Int × Buf K =>
    s.2.1.length = At.ir.length ∧ s.2.2.length = At.pr.length) ⟨rfl, rfl⟩ (fun i s hs =>
      Post.next fun _ => Post.next fun _ => Post.forI hs fun j s hs => step i j s hs) h6 h0 hi
  obtain ⟨lo, g1, hv⟩ := bind_ok hv
  obtain ⟨hi', g2, hv⟩ := bind_ok hv
  obtain ⟨w, hw⟩ := forI_first hv (hlt _ _ g1 g2)
  obtain ⟨_, -, hw⟩ := bind_ok hw
  obtain ⟨_, -, hw⟩ := bind_ok hw
  obtain ⟨_, -, hw⟩ := bind_ok hw
  obtain ⟨_, g3, hw⟩ := bind_ok hw
  obtain ⟨_, -, hw⟩ := bind_ok hw
  obtain ⟨_, g4, hw⟩ := bind_ok hw
  exact ⟨len_ne hu.1 (wr_ne g3), len_ne hu.2 (wr_ne g4)⟩

theorem symbolic_touch {n : Int} {Ap Ai Lp Parent Lnz Flag P Pinv : Buf Int} {r : SymOut}
    (hn : 0 < n)
    (h : LDL_symbolic n Ap Ai Lp Parent Lnz Flag (some P) (some Pinv) = .ok r) :
    Pinv ≠ [] ∧ Parent ≠ [] ∧ Flag ≠ [] ∧ Lnz ≠ [] ∧ Lp ≠ [] ∧ P ≠ [] := by
  unfold LDL_symbolic at h
  obtain ⟨q, hq, h⟩ := bind_ok h
  obtain ⟨st, hst, h⟩ := bind_ok h
  obtain ⟨lp, hlp, -⟩ := bind_ok h
  obtain ⟨Q, hQ, hq⟩ := bind_ok hq
  cases hQ
  obtain ⟨Q', hQ', -⟩ := bind_ok hq
  obtain ⟨v, hv⟩ := forI_first hQ' hn
  obtain ⟨_, g0, hv⟩ := bind_ok hv
  obtain ⟨w, hw⟩ := forI_first hst hn
  obtain ⟨_, g1, hw⟩ := bind_ok hw
  obtain ⟨_, g2, hw⟩ := bind_ok hw
  obtain ⟨_, g3, hw⟩ := bind_ok hw
  exact ⟨wr_ne hv, wr_ne g1, wr_ne g2, wr_ne g3, wr_ne hlp, rd_ne g0⟩

theorem numeric_touch {k : Kkt K} {r : Int × Kkt K} (hn : 0 < k.kktmatrix.n)
    (h : callNumeric k = .ok r) : k.Y ≠ [] ∧ k.D ≠ [] ∧ r.1 = k.kktmatrix.n := by
  unfold callNumeric LDL_numeric at h
  obtain ⟨a, ha, h⟩ := bind_ok h
  obtain ⟨st, hst, ha⟩ := bind_ok ha
  cases ha
  cases h
  obtain ⟨w, hw⟩ := forI_first hst hn
  unfold numRow at hw
  obtain ⟨_, g1, hw⟩ := bind_ok hw
  obtain ⟨_, -, hw⟩ := bind_ok hw
  obtain ⟨_, -, hw⟩ := bind_ok hw
  obtain ⟨_, -, hw⟩ := bind_ok hw
  obtain ⟨_, -, hw⟩ := bind_ok hw
  obtain ⟨_, -, hw⟩ := bind_ok hw
  obtain ⟨_, -, hw⟩ := bind_ok hw
  obtain ⟨_, -, hw⟩ := bind_ok hw
  obtain ⟨_, g2, hw⟩ := bind_ok hw
  exact ⟨wr_ne g1, wr_ne g2, rfl⟩

theorem rowcount_touch {al : Site → Bool} {n : Int} {Li Lp Lti Ltp : Buf Int}
    {r : Buf Int × Buf Int} (hn : 0 < n)
    (h : Transpose_Row_CountF al n n Li Lp Lti Ltp = .ok r) : al .countL = true ∧ Ltp ≠ [] := by
  unfold Transpose_Row_CountF at h
  obtain ⟨c1, h1, h⟩ := bind_ok h
  obtain ⟨c2, -, h⟩ := bind_ok h
  obtain ⟨c3, h3, h⟩ := bind_ok h
  obtain ⟨v, hv⟩ := forI_first h1 hn
  exact ⟨mallocF_wr hv, wr_ne h3⟩

/-- Sites of `ldlinitialsolve` used in any case, with those of `b` and `delta`. -/
theorem ldlinitial_touch {al : Site → Bool} {k : Kkt K} {delta : Buf K} {r : Int × Kkt K × Buf K}
    (hn : 0 < k.kktmatrix.n) (h : ldlinitialsolveF al k delta = .ok r) :
    (al .Y ∧ al .D ∧ al .Lp ∧ al .Parent ∧ al .Flag ∧ al .Lnz ∧ al .countL ∧ al .Ltp) ∧
      k.Pinv ≠ [] ∧ delta ≠ [] ∧ r.1 = 1 ∧ k.P ≠ [] := by
  unfold ldlinitialsolveF at h
  dsimp only at h
  obtain ⟨sy, h1, h⟩ := bind_ok h
  obtain ⟨Pi, h2, h⟩ := bind_ok h
  obtain ⟨lnz, h3, h⟩ := bind_ok h
  obtain ⟨q, h4, h⟩ := bind_ok h
  obtain ⟨t, h5, h⟩ := bind_ok h
  obtain ⟨s1, s2, s3, s4, s5, s0⟩ := symbolic_touch hn h1
  obtain ⟨s6, s7, s8⟩ := numeric_touch (by exact hn) h4
  obtain ⟨s9, s10⟩ := rowcount_touch hn h5
  rw [if_pos s8] at h
  obtain ⟨u, h6, h⟩ := bind_ok h
  cases h
  unfold ldlSolve at h6
  obtain ⟨d, h7, -⟩ := bind_ok h6
  unfold LDL_perm at h7
  have hq : q.2.kktmatrix.n = k.kktmatrix.n := by
    unfold callNumeric at h4
    obtain ⟨a, -, h4⟩ := bind_ok h4
    cases h4
    rfl
  obtain ⟨w, hw⟩ := forI_first h7 (show (0 : Int) < q.2.kktmatrix.n from hq ▸ hn)
  obtain ⟨_, -, hw⟩ := bind_ok hw
  obtain ⟨_, -, hw⟩ := bind_ok hw
  exact ⟨⟨(mallocF_ne s6).1, (mallocF_ne s7).1, (mallocF_ne s5).1, (mallocF_ne s2).1,
    (mallocF_ne s3).1, (mallocF_ne s4).1, s9, (mallocF_ne s10).1⟩, s1, wr_ne hw, rfl, s0⟩

theorem copyOut_touch {dst src r : Buf K} {lo hi : Int} (h : copyOut dst src lo hi = .ok r)
    (hlt : lo < hi) : dst ≠ [] := by
  obtain ⟨v, hv⟩ := forI_first h hlt
  obtain ⟨_, -, hv⟩ := bind_ok hv
  exact wr_ne hv

/-- `forI` that writes an array in every step. -/
theorem forI_wr_touch {f : Int → K → K} {t s r : Buf K} {m : Int} (hm : 0 < m)
    (h : (forI 0 m s fun i s => do
      let v ← rd t i
      wr s i (f i v)) = .ok r) : s ≠ [] := by
  obtain ⟨v, hv⟩ := forI_first h hm
  obtain ⟨_, -, hv⟩ := bind_ok hv
  exact wr_ne hv

theorem multiply_len {A : Smat K} {x y r : Buf K} {f : Int}
    (h : SparseMatrixMultiply A x y f = .ok r) : r.length = y.length := by
  revert r
  change Post _ _
  unfold SparseMatrixMultiply
  refine Post.bind (Q := fun s : Buf K => s.length = y.length) (Post.ite (fun _ =>
    Post.forI (I := fun s : Buf K => s.length = y.length) rfl fun i s hs => ?_) fun _ =>
    Post.pure rfl) fun s hs =>
    Post.forI (I := fun s : Buf K => s.length = y.length) hs fun i s hs => ?_
  · exact fun a ha => (Post.wr a ha).trans hs
  · refine Post.next fun _ => Post.next fun _ =>
      Post.forI (I := fun s : Buf K => s.length = y.length) hs fun j s hs => ?_
    refine Post.next fun _ => Post.next fun _ => Post.next fun _ => Post.next fun _ => ?_
    exact fun a ha => (Post.wr a ha).trans hs

/-- Sites of `kkt_initialize` used in any case. -/
theorem initialize_touch {al : Site → Bool} {qp : QP K} {r : Int × QP K} (hn : 0 < qp.n)
    (hm : 0 < qp.m) (hk : 0 < qp.kkt.kktmatrix.n) (h : kkt_initializeF al qp = .ok r) :
    (al .Y ∧ al .D ∧ al .Lp ∧ al .Parent ∧ al .Flag ∧ al .Lnz ∧ al .countL ∧ al .Ltp) ∧
      al .z_inter ∧ qp.kkt.b ≠ [] ∧ qp.kkt.Pinv ≠ [] ∧ qp.delta ≠ [] ∧ qp.x ≠ [] ∧ qp.z ≠ [] ∧
      qp.s ≠ [] ∧ (0 < qp.p → qp.y ≠ []) ∧ qp.kkt.P ≠ [] := by
  unfold kkt_initializeF at h
  dsimp only at h
  obtain ⟨b1, h1, h⟩ := bind_ok h
  obtain ⟨b2, h2, h⟩ := bind_ok h
  obtain ⟨b3, h3, h⟩ := bind_ok h
  obtain ⟨l, h4, h⟩ := bind_ok h
  obtain ⟨s1, s2, s3, s4, s5⟩ := ldlinitial_touch (k := { qp.kkt with b := b3 }) hk h4
  rw [if_pos (by rw [s4]; decide)] at h
  obtain ⟨x, h5, h⟩ := bind_ok h
  obtain ⟨y, h6, h⟩ := bind_ok h
  obtain ⟨z1, h7, h⟩ := bind_ok h
  obtain ⟨z2, h8, h⟩ := bind_ok h
  obtain ⟨mm, h9, h⟩ := bind_ok h
  obtain ⟨s, h10, h⟩ := bind_ok h
  obtain ⟨z, h11, h⟩ := bind_ok h
  refine ⟨s1, ?_, ?_, s2, s3, copyOut_touch h5 hn, ?_, ?_, fun hp => copyOut_touch h6 (by omega),
    s5⟩
  · obtain ⟨v, hv⟩ := forI_first h8 hm
    obtain ⟨_, g, hv⟩ := bind_ok hv
    have := len_ne (multiply_len h7) (rd_ne g)
    exact (mallocF_ne this).1
  · obtain ⟨v, hv⟩ := forI_first h1 hn
    obtain ⟨_, -, hv⟩ := bind_ok hv
    exact wr_ne hv
  · split at h11
    · exact forI_wr_touch hm h11
    · exact forI_wr_touch hm h11
  · split at h10
    · exact forI_wr_touch (f := fun _ v => v) hm h10
    · exact forI_wr_touch hm h10

theorem Post.whileM {σ : Type} {I : σ → Prop} {c : σ → M Bool} {f : σ → M σ}
    (hf : ∀ s, I s → Post (f s) I) : ∀ k s, I s → Post (whileM k c f s) I := by
  intro k
  induction k with
  | zero =>
    intro s hs
    unfold Verif.whileM
    exact Post.next fun b => Post.ite (fun _ a ha => by cases ha) (fun _ => Post.pure hs)
  | succ k ih =>
    intro s hs
    unfold Verif.whileM
    exact Post.next fun b => Post.ite (fun _ => (hf s hs).bind fun t ht => ih t ht)
      (fun _ => Post.pure hs)

/-- Without `Pattern` no entry of the factor is written. -/
theorem numRow_nopattern {n : Int} {Ap Ai Lp Parent : Buf Int} {Ax : Buf K}
    {P Pinv : Option (Buf Int)} {k : Int} {st : NumSt K} {Li : Buf Int}
    (h : st.Pattern = [] ∧ st.Li = Li) :
    Post (numRow n Ap Ai Ax Lp Parent P Pinv k st) (fun st => st.Pattern = [] ∧ st.Li = Li) := by
  unfold numRow
  refine Post.next fun _ => Post.next fun _ => Post.next fun _ => Post.next fun _ =>
    Post.next fun _ => Post.next fun _ => ?_
  refine Post.bind (Q := fun r : Int × Buf K × Buf Int × Buf Int => r.2.2.1 = [])
    (Post.forI (I := fun r : Int × Buf K × Buf Int × Buf Int => r.2.2.1 = []) h.1
      fun p s hs => ?_) fun r hr => ?_
  · refine Post.next fun _ => Post.next fun _ => Post.ite (fun _ => ?_) fun _ => Post.pure hs
    refine Post.next fun _ => Post.next fun _ => Post.next fun _ => ?_
    refine Post.bind (Q := fun q : Int × Int × Buf Int × Buf Int => q.2.2.1 = [])
      (Post.whileM (fun u hu => ?_) _ _ hs) fun q hq => ?_
    · intro v hv
      obtain ⟨_, e, -⟩ := bind_ok hv
      rw [hu] at e
      exact absurd e wr_nil
    · refine Post.bind (Q := fun q : Int × Buf Int => q.2 = []) ?_ fun t ht => Post.pure ht
      refine (Post.whileM (I := fun q : Int × Int × Buf Int => q.2.2 = [])
        (fun u hu => ?_) _ _ hq).bind fun r hr => Post.pure hr
      intro v hv
      obtain ⟨_, e, -⟩ := bind_ok hv
      rw [hu] at e
      exact absurd e rd_nil
  · refine Post.next fun _ => Post.next fun _ => Post.next fun _ => ?_
    refine Post.bind (Q := fun st : NumSt K => st.Pattern = [] ∧ st.Li = Li)
      (Post.forI (I := fun st : NumSt K => st.Pattern = [] ∧ st.Li = Li) ⟨hr, h.2⟩
        fun t s hs => ?_) fun s hs => Post.next fun _ => Post.next fun _ => Post.pure hs
    intro v hv
    obtain ⟨_, e, -⟩ := bind_ok hv
    rw [hs.1] at e
    exact absurd e rd_nil

/-- Factorisation keeps the sizes of the arrays of entries. -/
theorem numRow_len {n : Int} {Ap Ai Lp Parent : Buf Int} {Ax : Buf K}
    {P Pinv : Option (Buf Int)} {k : Int} {st : NumSt K} {a b : Nat}
    (h : st.Li.length = a ∧ st.Lx.length = b) :
    Post (numRow n Ap Ai Ax Lp Parent P Pinv k st)
      (fun st => st.Li.length = a ∧ st.Lx.length = b) := by
  unfold numRow
  refine Post.next fun _ => Post.next fun _ => Post.next fun _ => Post.next fun _ =>
    Post.next fun _ => Post.next fun _ => Post.next fun _ => Post.next fun _ =>
    Post.next fun _ => Post.next fun _ => ?_
  refine Post.bind (Q := fun st : NumSt K => st.Li.length = a ∧ st.Lx.length = b)
    (Post.forI (I := fun st : NumSt K => st.Li.length = a ∧ st.Lx.length = b) h
      fun t s hs => ?_) fun s hs => Post.next fun _ => Post.next fun _ => Post.pure hs
  unfold numNode
  refine Post.next fun _ => Post.next fun _ => Post.next fun _ => Post.next fun _ =>
    Post.next fun _ => Post.next fun _ => Post.next fun _ => Post.next fun _ =>
    Post.next fun _ => Post.wr.bind fun _ h1 => Post.wr.bind fun _ h2 => Post.next fun _ => ?_
  exact Post.pure ⟨h1.trans hs.1, h2.trans hs.2⟩

theorem mallocF_rd {α : Type} {t : Bool} {n i : Int} {v : α} : rd (mallocF t n) i ≠ .ok v := by
  unfold mallocF malloc rd
  cases t with
  | false => split <;> simp
  | true =>
    split
    · intro h; cases h
    · rw [if_pos rfl, List.getElem?_replicate]
      split <;> simp_all

/-- Sites of `ldlinitialsolve` used if the factor has an entry below the diagonal. -/
theorem ldlinitial_touch_entries {al : Site → Bool} {k : Kkt K} {delta : Buf K}
    {r : Int × Kkt K × Buf K} (h : ldlinitialsolveF al k delta = .ok r) {j : Int} (h0 : 0 ≤ j)
    (hj : j < k.kktmatrix.n)
    (hlt : ∀ lo hi, rd r.2.1.Lp j = .ok lo → rd r.2.1.Lp (j + 1) = .ok hi → lo < hi) :
    al .Li ∧ al .Lx ∧ al .Pattern ∧ al .Lti := by
  unfold ldlinitialsolveF at h
  dsimp only at h
  obtain ⟨sy, -, h⟩ := bind_ok h
  obtain ⟨Pi, -, h⟩ := bind_ok h
  obtain ⟨lnz, -, h⟩ := bind_ok h
  obtain ⟨q, h4, h⟩ := bind_ok h
  obtain ⟨t, h5, h⟩ := bind_ok h
  obtain ⟨s6, s7, s8⟩ := numeric_touch (by exact lt_of_le_of_lt h0 hj) h4
  rw [if_pos s8] at h
  obtain ⟨u, h6, h⟩ := bind_ok h
  cases h
  dsimp only at hlt
  unfold callNumeric LDL_numeric at h4
  obtain ⟨a, ha, h4⟩ := bind_ok h4
  cases h4
  obtain ⟨st, hst, ha⟩ := bind_ok ha
  cases ha
  have hlen := Post.forI (I := fun st : NumSt K => st.Li.length =
    (mallocF (al .Li) (lnz + 1) : Buf Int).length ∧ st.Lx.length =
    (mallocF (al .Lx) (lnz + 1) : Buf K).length) ⟨rfl, rfl⟩ (fun _ _ h => numRow_len h) st hst
  unfold ldlSolve at h6
  obtain ⟨d, -, h6⟩ := bind_ok h6
  obtain ⟨e, h7, -⟩ := bind_ok h6
  obtain ⟨w, v, -, hw⟩ := forI_iter (I := fun _ => True) trivial (fun _ _ _ => Post.any _) h7 h0
    (by exact hj)
  obtain ⟨hi, g1, hw⟩ := bind_ok hw
  obtain ⟨lo, g2, hw⟩ := bind_ok hw
  obtain ⟨_, hw⟩ := forI_first hw (hlt _ _ g2 g1)
  obtain ⟨_, g3, hw⟩ := bind_ok hw
  obtain ⟨_, -, hw⟩ := bind_ok hw
  obtain ⟨_, g4, hw⟩ := bind_ok hw
  refine ⟨(mallocF_ne (len_ne hlen.1 (rd_ne g3))).1, (mallocF_ne (len_ne hlen.2 (rd_ne g4))).1,
    ?_, ?_⟩
  · cases hP : al .Pattern with
    | true => rfl
    | false =>
      exfalso
      have := Post.forI (I := fun st : NumSt K => st.Pattern = [] ∧ st.Li =
        mallocF (al .Li) (lnz + 1)) ⟨by show mallocF (al .Pattern) _ = []; rw [hP]; rfl, rfl⟩
        (fun _ _ h => numRow_nopattern h) st hst
      have g3 : rd st.Li _ = .ok _ := g3
      rw [this.2] at g3
      exact mallocF_rd g3
  · unfold Transpose_Row_CountF at h5
    obtain ⟨_, -, h5⟩ := bind_ok h5
    obtain ⟨_, -, h5⟩ := bind_ok h5
    obtain ⟨_, -, h5⟩ := bind_ok h5
    obtain ⟨_, -, h5⟩ := bind_ok h5
    obtain ⟨_, -, h5⟩ := bind_ok h5
    obtain ⟨_, h8, -⟩ := bind_ok h5
    obtain ⟨x, y, hx, hy⟩ := forI_iter (I := fun s : Buf Int × Buf Int =>
      s.2.length = (mallocF (al .Lti) lnz : Buf Int).length) rfl (fun i s hs =>
        Post.next fun _ => Post.next fun _ => Post.forI (I := fun s : Buf Int × Buf Int =>
          s.2.length = (mallocF (al .Lti) lnz : Buf Int).length) hs fun j s hs =>
          Post.next fun _ => Post.next fun _ => Post.next fun _ => Post.wr.bind fun _ h1 =>
          Post.next fun _ => Post.pure (h1.trans hs)) h8 h0 (by exact hj)
    obtain ⟨lo, e1, hy⟩ := bind_ok hy
    obtain ⟨hi, e2, hy⟩ := bind_ok hy
    obtain ⟨_, hy⟩ := forI_first hy (hlt _ _ e1 e2)
    obtain ⟨_, -, hy⟩ := bind_ok hy
    obtain ⟨_, -, hy⟩ := bind_ok hy
    obtain ⟨_, -, hy⟩ := bind_ok hy
    obtain ⟨_, e3, hy⟩ := bind_ok hy
    exact (mallocF_ne (len_ne hx (wr_ne e3))).1

/-- Assembly keeps the dimension. -/
theorem formkkt_n {P G Gt k r : Smat K} {A At : Option (Smat K)}
    (h : formkktmatrix_full P G A Gt At k = .ok r) : r.n = k.n := by
  have two : formkktmatrix_full P G none Gt At k = .ok r → r.n = k.n := by
    intro h
    unfold formkktmatrix_full at h
    obtain ⟨_, -, h⟩ := bind_ok h
    obtain ⟨_, -, h⟩ := bind_ok h
    obtain ⟨_, -, h⟩ := bind_ok h
    cases h
    rfl
  rcases A with _ | A
  · exact two h
  · rcases At with _ | At
    · exact two h
    · unfold formkktmatrix_full at h
      obtain ⟨_, -, h⟩ := bind_ok h
      obtain ⟨_, -, h⟩ := bind_ok h
      obtain ⟨_, -, h⟩ := bind_ok h
      obtain ⟨_, -, h⟩ := bind_ok h
      cases h
      rfl

/-- What is known about the input of the common part of setup. -/
structure SiOk (si : SetupIn K) (i : Int) : Prop where
  n : 0 < si.argn
  m : 0 < si.argm
  p : 0 ≤ si.p
  Pn : si.P.n = si.argn
  Gn : si.G.n = si.argn
  Gm : si.G.m = si.argm
  A : ∀ A, si.A = some A → A.m = si.p ∧ 0 < si.p
  i0 : 0 ≤ i
  ilt : i < si.argn
  entry : ∀ lo hi, rd si.G.jc i = .ok lo → rd si.G.jc (i + 1) = .ok hi → lo < hi

/-- The structures and arrays that the common part of setup uses in any case. -/
theorem setupTailF_touch {al : Site → Bool} {amd : Amd} {si : SetupIn K} {i : Int} {q : QP K}
    (hs : SiOk si i) (h : setupTailF al amd si = .ok q) :
    (al .Gt ∧ al .Gtjc ∧ al .Gtir ∧ al .Gtpr ∧ al .Gcount) ∧
    (si.A ≠ none → al .At ∧ al .Atjc ∧ al .Acount ∧ al .y) ∧
    (al .kkt ∧ al .kktmatrix ∧ al .kktjc ∧ al .kktir ∧ al .kktpr ∧ al .kktb ∧ al .Pinv) ∧
    (si.Permut = none → al .kktP) ∧ (al .x ∧ al .z ∧ al .s ∧ al .delta ∧ al .z_inter) ∧
    (al .Y ∧ al .D ∧ al .Lp ∧ al .Parent ∧ al .Flag ∧ al .Lnz ∧ al .countL ∧ al .Ltp) := by
  unfold setupTailF at h
  dsimp only at h
  obtain ⟨At, hAt, h⟩ := bind_ok h
  obtain ⟨Gt, hGt, h⟩ := bind_ok h
  obtain ⟨a1, h⟩ := structF_ok h
  obtain ⟨a2, h⟩ := structF_ok h
  obtain ⟨k, hk, h⟩ := bind_ok h
  obtain ⟨pr, hpr, h⟩ := bind_ok h
  obtain ⟨r, hr, h⟩ := bind_ok h
  obtain ⟨a3, hGt⟩ := structF_ok hGt
  obtain ⟨a4, a5⟩ := transposeF_touch (by rw [hs.Gm]; exact hs.m) hGt
  obtain ⟨a6, a7⟩ := transposeF_touch_entries hs.i0 (by rw [hs.Gn]; exact hs.ilt) hs.entry hGt
  obtain ⟨b1, b2, b3⟩ := formkkt_null hs.i0 (by rw [hs.Pn]; exact hs.ilt) hs.entry hk
  have hkn : k.n = si.argn + si.p + si.argm ∨ k.n = si.argn + si.argm := by
    have : k.n = (match si.A with
      | some A => (si.P.nnz + 2 * si.G.nnz + si.G.m + 2 * A.nnz, si.P.n + A.m + si.G.m)
      | none => (si.P.nnz + 2 * si.G.nnz + si.G.m, si.P.n + si.G.m)).2 := formkkt_n hk
    rw [this]
    cases hA : si.A with
    | none => right; simp only [hs.Pn, hs.Gm]
    | some A => left; simp only [hs.Pn, hs.Gm, (hs.A A hA).1]
  have hn := hs.n
  have hm := hs.m
  have hp := hs.p
  obtain ⟨c1, c2, c3, c4, c5, c6, c7, c8, c9, c10⟩ := initialize_touch (by exact hs.n) (by exact hs.m)
    (by show 0 < k.n; omega) hr
  refine ⟨⟨a3, (mallocF_ne a5).1, (mallocF_ne a6).1, (mallocF_ne a7).1, a4⟩, ?_,
    ⟨a1, a2, (mallocF_ne b1).1, (mallocF_ne b2).1, (mallocF_ne b3).1, (mallocF_ne c3).1,
      (mallocF_ne c4).1⟩, ?_, ⟨(mallocF_ne c6).1, (mallocF_ne c7).1, (mallocF_ne c8).1,
      (mallocF_ne c5).1, c2⟩, c1⟩
  · intro hne
    cases hA : si.A with
    | none => exact absurd hA hne
    | some A =>
      rw [hA] at hAt c9
      obtain ⟨t, ht, -⟩ := bind_ok hAt
      obtain ⟨d1, ht⟩ := structF_ok ht
      obtain ⟨d2, d3⟩ := transposeF_touch (by rw [(hs.A A hA).1]; exact (hs.A A hA).2) ht
      exact ⟨d1, (mallocF_ne d3).1, d2, (mallocF_ne (c9 (hs.A A hA).2)).1⟩
  · intro hP
    unfold choosePermF at hpr
    rw [hP] at hpr
    cases hk3 : al .kktP with
    | true => rfl
    | false =>
      simp only [hk3, Bool.false_and, Bool.false_eq_true, if_false, mallocF, pure_eq_ok,
        ok_bind] at hpr
      rw [if_pos (by decide)] at hpr
      obtain ⟨b, hb, hpr⟩ := bind_ok hpr
      cases hpr
      have hb : b = [] := Post.forI (I := fun b : Buf Int => b = []) rfl (fun i s hs => by
        intro c hc
        rw [hs] at hc
        exact absurd hc wr_nil) b hb
      exact absurd hb c10

/-- The transpose of `A` is filled if `A` has an entry. -/
theorem setupTailF_touch_A {al : Site → Bool} {amd : Amd} {si : SetupIn K} {A : Smat K} {i : Int}
    {q : QP K} (hA : si.A = some A) (h0 : 0 ≤ i) (hi : i < A.n)
    (hlt : ∀ lo hi, rd A.jc i = .ok lo → rd A.jc (i + 1) = .ok hi → lo < hi)
    (h : setupTailF al amd si = .ok q) : al .Atir ∧ al .Atpr := by
  unfold setupTailF at h
  dsimp only at h
  obtain ⟨At, hAt, -⟩ := bind_ok h
  rw [hA] at hAt
  obtain ⟨t, ht, -⟩ := bind_ok hAt
  obtain ⟨-, ht⟩ := structF_ok ht
  obtain ⟨d1, d2⟩ := transposeF_touch_entries h0 hi hlt ht
  exact ⟨(mallocF_ne d1).1, (mallocF_ne d2).1⟩

/-- The arrays of the factor are used if the factor has an entry. -/
theorem setupTailF_touch_L {al : Site → Bool} {amd : Amd} {si : SetupIn K} {q : QP K}
    (h : setupTailF al amd si = .ok q) {j : Int} (h0 : 0 ≤ j)
    (hj : j < q.kkt.kktmatrix.n)
    (hlt : ∀ lo hi, rd q.kkt.Lp j = .ok lo → rd q.kkt.Lp (j + 1) = .ok hi → lo < hi) :
    al .Li ∧ al .Lx ∧ al .Pattern ∧ al .Lti := by
  unfold setupTailF at h
  dsimp only at h
  obtain ⟨At, -, h⟩ := bind_ok h
  obtain ⟨Gt, -, h⟩ := bind_ok h
  obtain ⟨-, h⟩ := structF_ok h
  obtain ⟨-, h⟩ := structF_ok h
  obtain ⟨k, -, h⟩ := bind_ok h
  obtain ⟨pr, -, h⟩ := bind_ok h
  obtain ⟨r, hr, h⟩ := bind_ok h
  have hq : q.kkt = r.2.kkt := by
    split at h <;> (cases h; rfl)
  rw [hq] at hj hlt
  unfold kkt_initializeF at hr
  dsimp only at hr
  obtain ⟨b1, -, hr⟩ := bind_ok hr
  obtain ⟨b2, -, hr⟩ := bind_ok hr
  obtain ⟨b3, -, hr⟩ := bind_ok hr
  obtain ⟨l, hl, hr⟩ := bind_ok hr
  have hk : r.2.kkt = l.2.1 := by
    split at hr
    · obtain ⟨_, -, hr⟩ := bind_ok hr
      obtain ⟨_, -, hr⟩ := bind_ok hr
      obtain ⟨_, -, hr⟩ := bind_ok hr
      obtain ⟨_, -, hr⟩ := bind_ok hr
      obtain ⟨_, -, hr⟩ := bind_ok hr
      obtain ⟨_, -, hr⟩ := bind_ok hr
      obtain ⟨_, -, hr⟩ := bind_ok hr
      cases hr
      rfl
    · cases hr
      rfl
  rw [hk] at hj hlt
  refine ldlinitial_touch_entries hl h0 ?_ hlt
  have : l.2.1.kktmatrix.n = k.n := by
    clear hlt hj hk hr
    unfold ldlinitialsolveF at hl
    dsimp only at hl
    obtain ⟨_, -, hl⟩ := bind_ok hl
    obtain ⟨_, -, hl⟩ := bind_ok hl
    obtain ⟨_, -, hl⟩ := bind_ok hl
    obtain ⟨u, hu, hl⟩ := bind_ok hl
    unfold callNumeric at hu
    obtain ⟨_, -, hu⟩ := bind_ok hu
    cases hu
    obtain ⟨_, -, hl⟩ := bind_ok hl
    split at hl
    · obtain ⟨_, -, hl⟩ := bind_ok hl
      cases hl
      rfl
    · cases hl
      rfl
  show j < k.n
  omega

end Verif
