import Verif.Props.Det
import Verif.Props.Renumber

/-!
# C102: sign of the determinant; products of pivots of different orderings
-/

set_option linter.unusedSectionVars false

namespace Verif

open Finset

section DetSign

variable {K : Type} [Field K] [LinearOrder K] [IsStrictOrderedRing K] [Scalar K] [LawfulScalar K]

/-- The sign of a product with `n` positive factors and `k` negative ones, in any order. -/
theorem prod_sign {N n k : Nat} (hN : N = n + k) {p q : Nat → Nat} (hp : PermPair N p q) {d : Nat → K}
    (hpos : ∀ r, r < N → p r < n → 0 < d r) (hneg : ∀ r, r < N → n ≤ p r → d r < 0) :
    0 < (-1) ^ k * ∏ r ∈ range N, d r := by
  have e : ∏ r ∈ range N, d r = ∏ i ∈ range N, d (q i) := by
    symm
    refine prod_nbij' q p ?_ ?_ ?_ ?_ ?_
    · exact fun i hi => mem_range.mpr (hp.q_lt i (mem_range.mp hi))
    · exact fun i hi => mem_range.mpr (hp.p_lt i (mem_range.mp hi))
    · exact fun i hi => hp.pq i (mem_range.mp hi)
    · exact fun i hi => hp.qp i (mem_range.mp hi)
    · exact fun _ _ => rfl
  have h1 : 0 < ∏ i ∈ range n, d (q i) := prod_pos fun i hi => by
    have hi := mem_range.mp hi
    exact hpos _ (hp.q_lt i (by omega)) (by rw [hp.pq i (by omega)]; exact hi)
  have h2 : 0 < ∏ i ∈ range k, -d (q (n + i)) := prod_pos fun i hi => by
    have hi := mem_range.mp hi
    have := hneg _ (hp.q_lt (n + i) (by omega)) (by rw [hp.pq (n + i) (by omega)]; omega)
    linarith
  rw [prod_neg, card_range] at h2
  rw [e, hN, prod_range_add, mul_left_comm]
  exact mul_pos h1 h2

/-- The determinant of the factored matrix has the sign of `(-1)^(p+m)`. -/
theorem kkt_det_sign {pb : Problem K} (hpb : pb.WF) (hsym : pb.P.Symm) {eps : K} (heps : 1 / 10 ^ 14 < eps)
    (hP : pb.Strong eps) {dd : Nat → K} (hdd : ∀ i, i < pb.m → dd i ≤ 0) {p q : Nat → Nat} {k : Kkt K} {t : FSt K}
    (hk : KktSym pb.N (kktCsc pb.P pb.A pb.G dd) p q k)
    (hf : KktFac pb.N (kktCsc pb.P pb.A pb.G dd) p q t k) :
    ∃ L e, k.Factored pb.N (kktCsc pb.P pb.A pb.G dd) p L t.D e ∧ (∀ i, i < pb.n → e i = 0) ∧
      (∀ i, pb.n ≤ i → i < pb.N → -(1 / 10 ^ 7) ≤ e i ∧ e i ≤ 0) ∧
      0 < (-1) ^ (pb.p + pb.m) * (pb.kktMatrix dd e).det := by
  have hp := hk.perm
  obtain ⟨L, e, hF, hdet⟩ := kkt_det hpb hsym hk hf
  obtain ⟨L', e', f1, f2, f3, f4, f5, _⟩ := kkt_pivots hpb hsym heps hP hdd hp hk hf
  have hu : ∀ i, i < pb.N → e i = e' i := fun i hi => hF.unique f1 hp hi
  have eN : pb.N = pb.n + (pb.p + pb.m) := by
    show pb.n + pb.p + pb.m = _; omega
  have h14 : (0 : K) < 1 / 10 ^ 14 := by positivity
  refine ⟨L, e, hF, fun i hi => ?_, fun i h1 h2 => ?_, ?_⟩
  · rw [hu i (by omega)]; exact f4 i hi
  · rw [hu i h2]; exact f5 i h1 h2
  · rw [← hdet]
    exact prod_sign eN hp (fun r hr h => by have := f2 r hr h; linarith) f3

/-- **C102**, setup: for `P` symmetric and strongly convex and any ordering, the determinant of the matrix factored
has the sign of `(-1)^(p+m)`; the matrix factored is the KKT matrix with at most `1e-7` taken from some diagonal
entries of constraints. -/
theorem C102_sign_setup {amd : Amd} {a : SetupArgs K} {pb : Problem K} {q0 : QP K}
    (h : Started amd a pb q0) (hsym : pb.P.Symm) {eps : K} (heps : 1 / 10 ^ 14 < eps) (hP : pb.Strong eps) :
    ∃ M p L d e, q0.kkt.Factored pb.N M p L d e ∧ (∀ i, i < pb.n → e i = 0) ∧
      (∀ i, pb.n ≤ i → i < pb.N → -(1 / 10 ^ 7) ≤ e i ∧ e i ≤ 0) ∧
      0 < (-1) ^ (pb.p + pb.m) * (pb.kktMatrix (fun _ => -1) e).det := by
  obtain ⟨p, q, hd⟩ := h.done
  obtain ⟨t, hfac, _⟩ := hd.iter
  obtain ⟨L, e, h1, h2, h3, h4⟩ := kkt_det_sign h.wf hsym heps hP (dd := fun _ => Scalar.dec (-1) 0)
    (by intro i _; simp [dec_neg_one]) hd.kkt hfac
  simp only [dec_neg_one] at h4
  exact ⟨_, p, L, _, e, h1, h2, h3, h4⟩

/-- **C102**, iterations. -/
theorem C102_sign_step {amd : Amd} {a : SetupArgs K} {pb : Problem K} {q0 qp qp' : QP K}
    (h : Started amd a pb q0) (hsym : pb.P.Symm) {eps : K} (heps : 1 / 10 ^ 14 < eps) (hP : pb.Strong eps)
    (hr : Reach q0 qp) (hb : solveBody qp = .ok (qp', false)) {x y z s : Nat → K} (hi : qp.Iter pb x y z s) :
    ∃ M p L d e, qp'.kkt.Factored pb.N M p L d e ∧ (∀ i, i < pb.n → e i = 0) ∧
      (∀ i, pb.n ≤ i → i < pb.N → -(1 / 10 ^ 7) ≤ e i ∧ e i ≤ 0) ∧
      0 < (-1) ^ (pb.p + pb.m) * (pb.kktMatrix (fun i => -(s i / z i)) e).det := by
  have hpos := C16_positive h hr hi
  obtain ⟨p, q, hs, _⟩ := h.sinv hr
  obtain ⟨t, hst, _⟩ := (hs.bodyOut h.wf hb hi).step rfl
  simp only at hst
  have esl : slackD z s = fun i => -(s i / z i) := by
    funext i; unfold slackD; rw [neg_div]
  obtain ⟨L, e, h1, h2, h3, h4⟩ := kkt_det_sign h.wf hsym heps hP (dd := slackD z s) (by
      intro i hm
      rw [esl]
      have := div_pos (hpos i hm).1 (hpos i hm).2
      simp only; linarith) hst.sym hst.fac
  rw [esl] at h4
  exact ⟨_, p, L, _, e, h1, h2, h3, h4⟩

/-- **C102**, orderings: if the factorisations of two setups of the same problem are exact, the products of their
pivots agree. -/
theorem C102_orderings {amd amd' : Amd} {a a' : SetupArgs K} {pb : Problem K} {q0 q0' : QP K}
    (h : Started amd a pb q0) (h' : Started amd' a' pb q0') (hsym : pb.P.Symm)
    (hex : q0.kkt.Exact pb.N) (hex' : q0'.kkt.Exact pb.N) {d d' : Nat → K}
    (hd : Buf.Has q0.kkt.D pb.N d) (hd' : Buf.Has q0'.kkt.D pb.N d') :
    ∏ r ∈ range pb.N, d r = ∏ r ∈ range pb.N, d' r := by
  obtain ⟨_, _, _, c, _, h1, _, h2⟩ := C100_setup h hsym
  obtain ⟨_, _, _, c', _, h3, _, h4⟩ := C100_setup h' hsym
  have u : ∀ r, r < pb.N → d r = c r := fun r hr => by
    have e1 := hd r hr
    rw [h1.fac.D r hr] at e1
    simpa using e1.symm
  have u' : ∀ r, r < pb.N → d' r = c' r := fun r hr => by
    have e1 := hd' r hr
    rw [h3.fac.D r hr] at e1
    simpa using e1.symm
  rw [prod_congr rfl fun r hr => u r (mem_range.mp hr), prod_congr rfl fun r hr => u' r (mem_range.mp hr),
    h2 hex, h4 hex']

/-- **C102**, orderings, iterations from points with the same `s` and `z`. -/
theorem C102_orderings_step {amd amd' : Amd} {a a' : SetupArgs K} {pb : Problem K} {q0 q0' qp qp' r r' : QP K}
    (h : Started amd a pb q0) (h' : Started amd' a' pb q0') (hsym : pb.P.Symm) (hr : Reach q0 qp)
    (hr' : Reach q0' qp') (hb : solveBody qp = .ok (r, false)) (hb' : solveBody qp' = .ok (r', false))
    {x y x' y' z s : Nat → K} (hi : qp.Iter pb x y z s) (hi' : qp'.Iter pb x' y' z s)
    (hex : r.kkt.Exact pb.N) (hex' : r'.kkt.Exact pb.N) {d d' : Nat → K}
    (hd : Buf.Has r.kkt.D pb.N d) (hd' : Buf.Has r'.kkt.D pb.N d') :
    ∏ r ∈ range pb.N, d r = ∏ r ∈ range pb.N, d' r := by
  obtain ⟨_, _, _, c, _, h1, _, h2⟩ := C100_step h hsym hr hb hi
  obtain ⟨_, _, _, c', _, h3, _, h4⟩ := C100_step h' hsym hr' hb' hi'
  have u : ∀ r, r < pb.N → d r = c r := fun r hr => by
    have e1 := hd r hr
    rw [h1.fac.D r hr] at e1
    simpa using e1.symm
  have u' : ∀ r, r < pb.N → d' r = c' r := fun r hr => by
    have e1 := hd' r hr
    rw [h3.fac.D r hr] at e1
    simpa using e1.symm
  rw [prod_congr rfl fun r hr => u r (mem_range.mp hr), prod_congr rfl fun r hr => u' r (mem_range.mp hr),
    h2 hex, h4 hex']

end DetSign

/-- C102 for the demo: the determinant of the matrix factored is negative, and two orderings have the
same product of pivots. -/
example : ∃ (q0 q0' : QP ℝ) (d d' e : Nat → ℝ), Started failAmd (idArgs ℝ) (demoPb ℝ) q0 ∧
    Started failAmd (varArgs ℝ) (demoPb ℝ) q0' ∧ Buf.Has q0.kkt.D 6 d ∧ Buf.Has q0'.kkt.D 6 d' ∧
    ((demoPb ℝ).kktMatrix (fun _ => -1) e).det < 0 ∧ ∏ r ∈ range 6, d r = ∏ r ∈ range 6, d' r := by
  obtain ⟨q0, h⟩ := idArgs_started ℝ
  obtain ⟨q0', h'⟩ := varArgs_started ℝ
  have hex := C96_exact_setup h demoPb_symm one_gt_small demoPb_strong (C96_permut h rfl idArgs_first)
    (demo_indep fun _ _ => by norm_num)
  have hex' := C96_exact_setup h' demoPb_symm one_gt_small demoPb_strong (C96_permut h' rfl varArgs_first)
    (demo_indep fun _ _ => by norm_num)
  obtain ⟨_, _, _, d, e, h1, _, _, h2⟩ := C102_sign_setup h demoPb_symm one_gt_small demoPb_strong
  obtain ⟨_, _, _, d', _, h3, _⟩ := C102_sign_setup h' demoPb_symm one_gt_small demoPb_strong
  refine ⟨q0, q0', d, d', e, h, h', h1.fac.D, h3.fac.D, ?_,
    C102_orderings h h' demoPb_symm hex hex' h1.fac.D h3.fac.D⟩
  rw [show (demoPb ℝ).p + (demoPb ℝ).m = 3 from rfl] at h2
  linarith

/-- C102 for the first iteration on the demo. -/
example : ∃ (q0 qp' : QP ℝ) (o : Settings ℝ) (z s e : Nat → ℝ), Started failAmd (idArgs ℝ) (demoPb ℝ) q0 ∧
    solveBody { q0 with options := o } = .ok (qp', false) ∧
    ((demoPb ℝ).kktMatrix (fun i => -(s i / z i)) e).det < 0 := by
  obtain ⟨q0, h⟩ := idArgs_started ℝ
  obtain ⟨o, qp', x, y, z, s, hi, hb⟩ := step_exists h .start
  obtain ⟨_, _, _, _, e, _, _, _, h2⟩ := C102_sign_step h demoPb_symm one_gt_small demoPb_strong
    (.options o .start) hb hi
  rw [show (demoPb ℝ).p + (demoPb ℝ).m = 3 from rfl] at h2
  exact ⟨q0, qp', o, z, s, e, h, hb, by linarith⟩

end Verif
