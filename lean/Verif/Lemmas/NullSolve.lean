import Verif.Lemmas.NullPass
import Verif.Props.FillPath

/-!
# Arrays that the solver must access
-/

set_option linter.unusedSectionVars false

namespace Verif

open Finset

variable {K : Type} [Zero K] [One K] [Add K] [Sub K] [Mul K] [Div K] [Neg K] [Scalar K]

/-- Two states agree in what an evaluation of the residuals does not change. -/
structure KeepEval (q r : QP K) : Prop where
  n : r.n = q.n
  m : r.m = q.m
  p : r.p = q.p
  lambda : r.lambda = q.lambda
  ds : r.ds = q.ds
  delta_x : r.delta_x = q.delta_x
  delta_y : r.delta_y = q.delta_y
  delta_z : r.delta_z = q.delta_z
  delta_s : r.delta_s = q.delta_s
  count : r.stats.IterationCount = q.stats.IterationCount

theorem computeresiduals_keep {qp : QP K} : Post (computeresiduals qp) (KeepEval qp) := by
  unfold computeresiduals
  refine Post.next fun _ => Post.next fun _ => Post.next fun _ => Post.next fun _ =>
    Post.next fun _ => ?_
  refine Post.bind (Q := KeepEval qp) ?_ fun q hq => ?_
  · refine Post.ite (fun _ => ?_) (fun _ => Post.pure (by constructor <;> rfl))
    exact Post.next fun _ => Post.next fun _ => Post.next fun _ => Post.next fun _ =>
      Post.next fun _ => Post.pure (by constructor <;> rfl)
  · exact Post.next fun _ => Post.next fun _ => Post.next fun _ => Post.next fun _ => Post.pure
      ⟨hq.n, hq.m, hq.p, hq.lambda, hq.ds, hq.delta_x, hq.delta_y, hq.delta_z, hq.delta_s, hq.count⟩

theorem evaluate_keep {qp : QP K} : Post (evaluate qp) (KeepEval qp) := by
  unfold evaluate
  exact computeresiduals_keep.bind fun q hq => Post.next fun _ => Post.pure
    ⟨hq.n, hq.m, hq.p, hq.lambda, hq.ds, hq.delta_x, hq.delta_y, hq.delta_z, hq.delta_s, hq.count⟩

theorem multiply_touch {A : Smat K} {x y r : Buf K} (hm : 0 < A.m)
    (h : SparseMatrixMultiply A x y 1 = .ok r) : y ≠ [] := by
  unfold SparseMatrixMultiply at h
  obtain ⟨a, h1, -⟩ := bind_ok h
  rw [if_pos (by decide)] at h1
  obtain ⟨v, hv⟩ := forI_first h1 hm
  exact wr_ne hv

theorem computeresiduals_temp {qp : QP K} :
    Post (computeresiduals qp) (fun r => r.temp = qp.temp ∧ r.P = qp.P) := by
  unfold computeresiduals
  refine Post.next fun _ => Post.next fun _ => Post.next fun _ => Post.next fun _ =>
    Post.next fun _ => ?_
  refine Post.bind (Q := fun r : QP K => r.temp = qp.temp ∧ r.P = qp.P) ?_ fun q hq => ?_
  · refine Post.ite (fun _ => ?_) (fun _ => Post.pure ⟨rfl, rfl⟩)
    exact Post.next fun _ => Post.next fun _ => Post.next fun _ => Post.next fun _ =>
      Post.next fun _ => Post.pure ⟨rfl, rfl⟩
  · exact Post.next fun _ => Post.next fun _ => Post.next fun _ => Post.next fun _ => Post.pure hq

/-- The residuals and the auxiliary vector are written in every iteration. -/
theorem evaluate_touch {qp r : QP K} (hP : 0 < qp.P.m) (hm : 0 < qp.m)
    (h : evaluate qp = .ok r) :
    qp.rx ≠ [] ∧ qp.rz ≠ [] ∧ qp.temp ≠ [] ∧ (0 < qp.p → qp.ry ≠ []) := by
  unfold evaluate at h
  obtain ⟨q, h1, h⟩ := bind_ok h
  obtain ⟨f, h2, -⟩ := bind_ok h
  obtain ⟨t1, t2⟩ := computeresiduals_temp q h1
  have ht : qp.temp ≠ [] := by
    unfold obj_value at h2
    obtain ⟨_, h3, -⟩ := bind_ok h2
    rw [← t1]
    exact multiply_touch (by rw [t2]; exact hP) h3
  unfold computeresiduals at h1
  obtain ⟨_, g1, h1⟩ := bind_ok h1
  obtain ⟨_, -, h1⟩ := bind_ok h1
  obtain ⟨_, -, h1⟩ := bind_ok h1
  obtain ⟨_, -, h1⟩ := bind_ok h1
  obtain ⟨_, -, h1⟩ := bind_ok h1
  obtain ⟨q2, g2, h1⟩ := bind_ok h1
  obtain ⟨_, g3, h1⟩ := bind_ok h1
  obtain ⟨_, g4, -⟩ := bind_ok h1
  dsimp only at g2
  refine ⟨multiply_touch hP g1, ?_, ht, fun hp => ?_⟩
  · have hq2 : q2.rz = qp.rz ∧ q2.m = qp.m := by
      split at g2
      · obtain ⟨_, -, g2⟩ := bind_ok g2
        obtain ⟨_, -, g2⟩ := bind_ok g2
        obtain ⟨_, -, g2⟩ := bind_ok g2
        obtain ⟨_, -, g2⟩ := bind_ok g2
        obtain ⟨_, -, g2⟩ := bind_ok g2
        cases g2
        exact ⟨rfl, rfl⟩
      · cases g2
        exact ⟨rfl, rfl⟩
    obtain ⟨v, hv⟩ := forI_first g4 (by rw [hq2.2]; exact hm)
    obtain ⟨_, e, -⟩ := bind_ok hv
    rw [← hq2.1]
    exact len_ne (multiply_len g3) (rd_ne e)
  · rw [if_pos (by omega)] at g2
    obtain ⟨_, -, g2⟩ := bind_ok g2
    obtain ⟨_, e1, g2⟩ := bind_ok g2
    obtain ⟨_, -, g2⟩ := bind_ok g2
    obtain ⟨_, e2, -⟩ := bind_ok g2
    obtain ⟨v, hv⟩ := forI_first e2 hp
    obtain ⟨_, e, -⟩ := bind_ok hv
    exact len_ne (multiply_len e1) (rd_ne e)

/-- Sizes of the arrays of the search direction. -/
structure KeepLen (q r : QP K) : Prop where
  n : r.n = q.n
  m : r.m = q.m
  p : r.p = q.p
  delta_x : r.delta_x.length = q.delta_x.length
  delta_y : r.delta_y.length = q.delta_y.length
  delta_z : r.delta_z.length = q.delta_z.length
  delta_s : r.delta_s.length = q.delta_s.length
  count : r.stats.IterationCount = q.stats.IterationCount

theorem formDeltaS_length {qp : QP K} {dz : Buf K} :
    Post (formDeltaS qp dz) (fun b => b.length = qp.delta_s.length) := by
  unfold formDeltaS
  refine Post.forI (I := fun b : Buf K => b.length = qp.delta_s.length) rfl fun i s hs => ?_
  refine Post.next fun _ => Post.next fun _ => Post.next fun _ => Post.next fun _ => ?_
  exact fun a ha => (Post.wr a ha).trans hs

theorem kktsolve_1_len {qp : QP K} : Post (kktsolve_1 qp) (fun r => KeepLen qp r.2) := by
  unfold kktsolve_1
  refine Post.next fun _ => ?_
  refine Post.ite (fun _ => ?_) (fun _ => Post.pure (by constructor <;> rfl))
  refine Post.next fun _ => copyOut_length.bind fun _ h1 => formDeltaS_length.bind fun _ h2 => ?_
  exact Post.pure ⟨rfl, rfl, rfl, rfl, rfl, h1, h2, rfl⟩

theorem directions_len {qp : QP K} {mu : K} :
    Post (directions qp mu) (fun r => KeepLen qp r.1) := by
  unfold directions
  refine Post.ite (fun _ => ?_) (fun _ => ?_)
  · refine Post.next fun _ => Post.next fun _ => Post.next fun _ => ?_
    refine kktsolve_1_len.bind fun r hr => ?_
    have hr : KeepLen qp r.2 :=
      ⟨hr.n, hr.m, hr.p, hr.delta_x, hr.delta_y, hr.delta_z, hr.delta_s, hr.count⟩
    refine Post.ite (fun _ => Post.pure ⟨hr.n, hr.m, hr.p, hr.delta_x, hr.delta_y, hr.delta_z,
      hr.delta_s, hr.count⟩) (fun _ => ?_)
    exact Post.next fun _ => Post.next fun _ => Post.next fun _ => Post.next fun _ => Post.pure
      ⟨hr.n, hr.m, hr.p, hr.delta_x, hr.delta_y, hr.delta_z, hr.delta_s, hr.count⟩
  · exact Post.next fun _ => Post.next fun _ => Post.next fun _ => Post.pure
      (by constructor <;> rfl)

theorem form_ds_touch {ds l a b r : Buf K} {sigma mu : K} {m sel : Int} (hm : 0 < m)
    (hs : sel = QP_PURE_NEWTON_STEP ∨ sel = QP_CENTERING_STEP)
    (h : form_ds ds l a b sigma mu m sel = .ok r) : ds ≠ [] := by
  unfold form_ds at h
  obtain ⟨d1, h1, h⟩ := bind_ok h
  obtain ⟨d2, h2, h⟩ := bind_ok h
  rcases hs with rfl | rfl
  · rw [if_pos rfl] at h1
    obtain ⟨v, hv⟩ := forI_first h1 hm
    obtain ⟨_, -, hv⟩ := bind_ok hv
    exact wr_ne hv
  · rw [if_neg (by decide)] at h1 h2
    cases h1
    cases h2
    rw [if_pos rfl] at h
    obtain ⟨v, hv⟩ := forI_first h hm
    obtain ⟨_, -, hv⟩ := bind_ok hv
    exact wr_ne hv

/-- A full iteration writes the arrays of the search direction. -/
theorem solveBody_touch {qp r : QP K} (hn : 0 < qp.n) (hm : 0 < qp.m)
    (h : solveBody qp = .ok (r, false)) :
    qp.lambda ≠ [] ∧ qp.ds ≠ [] ∧ qp.delta_x ≠ [] ∧ qp.delta_z ≠ [] ∧ qp.delta_s ≠ [] ∧
      (0 < qp.p → qp.delta_y ≠ []) := by
  unfold solveBody at h
  obtain ⟨q, h1, h⟩ := bind_ok h
  obtain ⟨_, -, h⟩ := bind_ok h
  obtain ⟨opt, -, h⟩ := bind_ok h
  have hk := evaluate_keep q h1
  split at h
  · cases h
  · unfold advance at h
    obtain ⟨l, h2, h⟩ := bind_ok h
    obtain ⟨ll, -, h⟩ := bind_ok h
    obtain ⟨d, h3, h⟩ := bind_ok h
    have hd := directions_len d h3
    obtain ⟨v, hv⟩ := forI_first h2 (by rw [hk.m]; exact hm)
    obtain ⟨_, -, hv⟩ := bind_ok hv
    obtain ⟨_, -, hv⟩ := bind_ok hv
    have hl := wr_ne hv
    rw [hk.lambda] at hl
    have hds : qp.ds ≠ [] := by
      rw [← hk.ds]
      unfold directions at h3
      split at h3
      · obtain ⟨_, h3, -⟩ := bind_ok h3
        exact form_ds_touch (by show 0 < q.m; rw [hk.m]; exact hm) (Or.inl rfl) h3
      · obtain ⟨_, h3, -⟩ := bind_ok h3
        exact form_ds_touch (by show 0 < q.m; rw [hk.m]; exact hm) (Or.inr rfl) h3
    split at h
    · cases h
    · obtain ⟨t, h4, -⟩ := bind_ok h
      unfold takeStep at h4
      obtain ⟨w, h5, -⟩ := bind_ok h4
      unfold kktsolve_2 at h5
      obtain ⟨_, -, h5⟩ := bind_ok h5
      obtain ⟨_, -, h5⟩ := bind_ok h5
      obtain ⟨_, -, h5⟩ := bind_ok h5
      obtain ⟨_, g1, h5⟩ := bind_ok h5
      obtain ⟨_, g2, h5⟩ := bind_ok h5
      obtain ⟨_, g3, h5⟩ := bind_ok h5
      obtain ⟨_, g4, h5⟩ := bind_ok h5
      have en : d.1.n = qp.n := hd.n.trans hk.n
      have em : d.1.m = qp.m := hd.m.trans hk.m
      have ep : d.1.p = qp.p := hd.p.trans hk.p
      refine ⟨hl, hds, ?_, ?_, ?_, fun hp0 => ?_⟩
      · rw [← hk.delta_x]
        exact len_ne hd.delta_x (copyOut_touch g1 (by show 0 < d.1.n; omega))
      · rw [← hk.delta_z]
        exact len_ne hd.delta_z (copyOut_touch g3 (by
          show d.1.n + d.1.p < d.1.n + d.1.p + d.1.m; omega))
      · rw [← hk.delta_s]
        unfold formDeltaS at g4
        obtain ⟨v, hv⟩ := forI_first g4 (by show 0 < d.1.m; omega)
        obtain ⟨_, -, hv⟩ := bind_ok hv
        obtain ⟨_, -, hv⟩ := bind_ok hv
        obtain ⟨_, -, hv⟩ := bind_ok hv
        obtain ⟨_, -, hv⟩ := bind_ok hv
        exact len_ne hd.delta_s (wr_ne hv)
      · rw [← hk.delta_y]
        exact len_ne hd.delta_y (copyOut_touch g2 (by show d.1.n < d.1.n + d.1.p; omega))

/-- An iteration that ends the loop does not count. -/
theorem solveBody_count {qp r : QP K} (h : solveBody qp = .ok (r, true)) :
    r.stats.IterationCount = qp.stats.IterationCount := by
  unfold solveBody at h
  obtain ⟨q, h1, h⟩ := bind_ok h
  obtain ⟨_, -, h⟩ := bind_ok h
  obtain ⟨opt, -, h⟩ := bind_ok h
  have hk := evaluate_keep q h1
  split at h
  · cases h
    exact hk.count
  · unfold advance at h
    obtain ⟨l, -, h⟩ := bind_ok h
    obtain ⟨ll, -, h⟩ := bind_ok h
    obtain ⟨d, h3, h⟩ := bind_ok h
    have hd := directions_len d h3
    split at h
    · cases h
      exact hd.count.trans hk.count
    · obtain ⟨t, -, h⟩ := bind_ok h
      cases h

/-- What a solve with at least one iteration accesses. -/
theorem solve_touch {qp r : QP K} {f : Int} (hF : qp.stats.Flag ≠ QP_KKTFAIL)
    (hit : 0 < qp.options.maxit) (hP : 0 < qp.P.m) (hn : 0 < qp.n) (hm : 0 < qp.m)
    (h : QP_SOLVE qp = .ok (f, r)) :
    (qp.rx ≠ [] ∧ qp.rz ≠ [] ∧ qp.temp ≠ [] ∧ (0 < qp.p → qp.ry ≠ [])) ∧
    (r.stats.IterationCount ≠ qp.stats.IterationCount →
      qp.lambda ≠ [] ∧ qp.ds ≠ [] ∧ qp.delta_x ≠ [] ∧ qp.delta_z ≠ [] ∧ qp.delta_s ≠ [] ∧
      (0 < qp.p → qp.delta_y ≠ [])) := by
  unfold QP_SOLVE at h
  rw [if_pos hF] at h
  obtain ⟨q, h1, h⟩ := bind_ok h
  cases h
  obtain ⟨u, h2, h1⟩ := bind_ok h1
  obtain ⟨k, hk⟩ : ∃ k, (qp.options.maxit - 0).toNat = k + 1 :=
    ⟨(qp.options.maxit - 0).toNat - 1, by omega⟩
  unfold forBrk at h2
  rw [hk] at h2
  simp only [forBrkN] at h2
  obtain ⟨v, h3, h2⟩ := bind_ok h2
  obtain ⟨q1, brk⟩ := v
  refine ⟨?_, fun hc => ?_⟩
  · unfold solveBody at h3
    obtain ⟨_, h3, -⟩ := bind_ok h3
    exact evaluate_touch hP hm h3
  · cases brk with
    | false => exact solveBody_touch hn hm h3
    | true =>
      exfalso
      rw [if_pos rfl] at h2
      cases h2
      apply hc
      rw [← solveBody_count h3]
      dsimp only at h1
      split at h1 <;> (cases h1; rfl)

/-- The factor computed at setup has an entry below the diagonal. -/
theorem SetupDone.entry {pb : Problem K} {si : SetupIn K} {p q : Nat → Nat} {q0 : QP K}
    (hpb : pb.WF) (hd : SetupDone pb si p q q0) : ∃ c, c < pb.N ∧ ∃ lo hi : Int, rd q0.kkt.Lp (c : Nat) = .ok lo ∧
      rd q0.kkt.Lp ((c : Nat) + 1) = .ok hi ∧ lo < hi := by
  classical
  have hk := hd.kkt
  set M := kktCsc pb.P pb.A pb.G (fun _ => Scalar.dec (-1) 0)
  obtain ⟨k, hk1, hk2⟩ := hpb.rows 0 hpb.m_pos
  obtain ⟨j, hj, h1, h2⟩ := hpb.G.exists_col hk1
  have hst : pb.G.Stored 0 j := ⟨k, h1, h2, hk2⟩
  have hjn : j < pb.n := by
    have := hpb.Gn
    show j < pb.P.n
    omega
  have hN : pb.N = pb.n + pb.p + pb.m := rfl
  have hm : 0 < pb.m := hpb.m_pos
  set v := pb.n + pb.p with hv
  have l1 : pb.Linked j v := Or.inr (Or.inr (Or.inl ⟨hjn, 0, hm, rfl, hst⟩))
  have l2 : pb.Linked v j := Or.inr (Or.inr (Or.inr (Or.inr ⟨hjn, 0, hm, rfl, hst⟩)))
  have key : ∀ c r, c < r → r < pb.N → pb.Linked (p c) (p r) → p c ≠ p r → ∃ c, c < pb.N ∧
      ∃ lo hi : Int, rd q0.kkt.Lp (c : Nat) = .ok lo ∧ rd q0.kkt.Lp ((c : Nat) + 1) = .ok hi ∧
        lo < hi := by
    intro c r hcr hr hl hne
    refine ⟨c, by omega, _, _, hk.lp.rd (by omega), hk.lp.rd (i := c + 1) (by omega), ?_⟩
    rw [lpOf_eq hk.wf hk.an hk.am hk.perm, lpOf_eq hk.wf hk.an hk.am hk.perm, sum_range_succ]
    have : 0 < colCount pb.N (fun j k => M.Stored (p j) (p k)) c := by
      unfold colCount
      refine card_pos.mpr ⟨r, mem_filter.mpr ⟨mem_range.mpr hr, ?_⟩⟩
      refine pattern_iff.mpr ⟨hcr, .edge (Or.inl ⟨hcr, ?_⟩)⟩
      exact (kkt_stored hpb _ (hk.perm.p_lt r hr) hne).mpr hl
    omega
  have pj := hk.perm.pq j (by omega)
  have pv := hk.perm.pq v (by omega)
  have qj := hk.perm.q_lt j (by omega)
  have qv := hk.perm.q_lt v (by omega)
  have hne : j ≠ v := by omega
  rcases lt_trichotomy (q j) (q v) with e | e | e
  · exact key _ _ e qv (by rw [pj, pv]; exact l1) (by rw [pj, pv]; exact hne)
  · exact absurd (by rw [← pj, ← pv, e]) hne
  · exact key _ _ e qj (by rw [pj, pv]; exact l2) (by rw [pj, pv]; exact hne.symm)

end Verif
