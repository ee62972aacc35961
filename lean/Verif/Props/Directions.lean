import Verif.Props.Iterates
import Verif.Props.Ldl

/-!
# Search directions and residuals (C30, C31)
-/

set_option linter.unusedSectionVars false

namespace Verif

open Finset

variable {K : Type} [Field K] [LinearOrder K] [IsStrictOrderedRing K] [Scalar K] [LawfulScalar K]

theorem kktEntry_symm {P A G : Csc K} (hP : P.Symm) (d : Nat → K) (r c : Nat) : kktEntry P A G d r c = kktEntry P A G d c r := by
  unfold kktEntry
  dsimp only
  by_cases h1 : r < P.n <;> by_cases h2 : c < P.n
  · simp [h1, h2, hP r c h1 h2]
  · simp [h1, h2]
  · simp [h1, h2]
  · by_cases h3 : r < P.n + A.m <;> by_cases h4 : c < P.n + A.m
    · simp [h1, h2, h3, h4]
    · simp [h1, h2, h3, h4]
      intro h; omega
    · simp [h1, h2, h3, h4]
      intro h; omega
    · simp only [h1, h2, h3, h4, if_false]
      by_cases h5 : r = c
      · subst h5; rfl
      · rw [if_neg h5, if_neg (Ne.symm h5)]

theorem sum_blocks (n p m : Nat) (f : Nat → K) : ∑ c ∈ range (n + p + m), f c
    = ∑ c ∈ range n, f c + ∑ c ∈ range p, f (n + c) + ∑ c ∈ range m, f (n + p + c) := by
  rw [sum_range_add, sum_range_add]

/-- The KKT matrix applied to a vector, block by block. -/
theorem kkt_blocks {pb : Problem K} (hAn : pb.A.n = pb.n) (hGn : pb.G.n = pb.n) (d v : Nat → K) :
    (∀ i, i < pb.n → ∑ c ∈ range pb.N, kktEntry pb.P pb.A pb.G d i c * v c
      = pb.P.mulVec v i + pb.A.tmulVec (fun j => v (pb.n + j)) i
        + pb.G.tmulVec (fun j => v (pb.n + pb.p + j)) i) ∧
    (∀ i, i < pb.p → ∑ c ∈ range pb.N, kktEntry pb.P pb.A pb.G d (pb.n + i) c * v c
      = pb.A.mulVec v i) ∧
    (∀ i, i < pb.m → ∑ c ∈ range pb.N, kktEntry pb.P pb.A pb.G d (pb.n + pb.p + i) c * v c
      = pb.G.mulVec v i + d i * v (pb.n + pb.p + i)) := by
  have blocks : ∀ r, ∑ c ∈ range pb.N, kktEntry pb.P pb.A pb.G d r c * v c
      = ∑ c ∈ range pb.n, kktEntry pb.P pb.A pb.G d r c * v c
        + ∑ c ∈ range pb.p, kktEntry pb.P pb.A pb.G d r (pb.n + c) * v (pb.n + c)
        + ∑ c ∈ range pb.m, kktEntry pb.P pb.A pb.G d r (pb.n + pb.p + c)
            * v (pb.n + pb.p + c) := fun r => sum_blocks _ _ _ _
  have eN : pb.N = pb.n + pb.p + pb.m := rfl
  have hPn : pb.P.n = pb.n := rfl
  have hAm : pb.A.m = pb.p := rfl
  have hGm : pb.G.m = pb.m := rfl
  refine ⟨?_, ?_, ?_⟩
  · intro i hi
    rw [blocks]
    unfold Csc.mulVec Csc.tmulVec
    refine congrArg₂ _ (congrArg₂ _ ?_ ?_) ?_
    · refine sum_congr rfl fun c hc => ?_
      have hc := mem_range.mp hc
      unfold kktEntry
      rw [hPn]
      simp only [hi, show c < pb.n from hc, if_true]
    · refine sum_congr rfl fun c hc => ?_
      have hc := mem_range.mp hc
      unfold kktEntry
      rw [hPn]
      simp only [hi, if_true, show ¬ (pb.n + c < pb.n) by omega, if_false,
        show pb.n + c < pb.n + pb.A.m by omega, Nat.add_sub_cancel_left]
    · refine sum_congr rfl fun c hc => ?_
      have hc := mem_range.mp hc
      unfold kktEntry
      rw [hPn, hAm]
      simp only [hi, if_true, show ¬ (pb.n + pb.p + c < pb.n) by omega, if_false,
        show ¬ (pb.n + pb.p + c < pb.n + pb.p) by omega,
        show pb.n + pb.p + c - pb.n - pb.p = c by omega]
  · intro i hi
    rw [blocks]
    have z1 : ∑ c ∈ range pb.p, kktEntry pb.P pb.A pb.G d (pb.n + i) (pb.n + c)
        * v (pb.n + c) = 0 := by
      refine sum_eq_zero fun c hc => ?_
      have hc := mem_range.mp hc
      unfold kktEntry
      rw [hPn, hAm]
      simp only [show ¬ (pb.n + i < pb.n) by omega, show ¬ (pb.n + c < pb.n) by omega, if_false,
        show pb.n + i < pb.n + pb.p by omega, if_true, zero_mul]
    have z2 : ∑ c ∈ range pb.m, kktEntry pb.P pb.A pb.G d (pb.n + i) (pb.n + pb.p + c)
        * v (pb.n + pb.p + c) = 0 := by
      refine sum_eq_zero fun c hc => ?_
      have hc := mem_range.mp hc
      unfold kktEntry
      rw [hPn, hAm]
      simp only [show ¬ (pb.n + i < pb.n) by omega, show ¬ (pb.n + pb.p + c < pb.n) by omega,
        if_false, show pb.n + i < pb.n + pb.p by omega, if_true, zero_mul]
    rw [z1, z2, add_zero, add_zero]
    unfold Csc.mulVec
    rw [hAn]
    refine sum_congr rfl fun c hc => ?_
    have hc := mem_range.mp hc
    unfold kktEntry
    rw [hPn, hAm]
    simp only [show ¬ (pb.n + i < pb.n) by omega, if_false, show pb.n + i < pb.n + pb.p by omega,
      if_true, show c < pb.n from hc, Nat.add_sub_cancel_left]
  · intro i hi
    rw [blocks]
    have z1 : ∑ c ∈ range pb.p, kktEntry pb.P pb.A pb.G d (pb.n + pb.p + i) (pb.n + c)
        * v (pb.n + c) = 0 := by
      refine sum_eq_zero fun c hc => ?_
      have hc := mem_range.mp hc
      unfold kktEntry
      rw [hPn, hAm]
      simp only [show ¬ (pb.n + pb.p + i < pb.n) by omega, show ¬ (pb.n + c < pb.n) by omega,
        if_false, show ¬ (pb.n + pb.p + i < pb.n + pb.p) by omega,
        show ¬ (pb.n + pb.p + i = pb.n + c) by omega, zero_mul]
    have z2 : ∑ c ∈ range pb.m, kktEntry pb.P pb.A pb.G d (pb.n + pb.p + i)
        (pb.n + pb.p + c) * v (pb.n + pb.p + c) = d i * v (pb.n + pb.p + i) := by
      rw [sum_eq_single i]
      · unfold kktEntry
        rw [hPn, hAm]
        simp only [show ¬ (pb.n + pb.p + i < pb.n) by omega, if_false,
          show ¬ (pb.n + pb.p + i < pb.n + pb.p) by omega, if_true,
          show pb.n + pb.p + i - pb.n - pb.p = i by omega]
      · intro c hc hne
        unfold kktEntry
        rw [hPn, hAm]
        simp only [show ¬ (pb.n + pb.p + i < pb.n) by omega, if_false,
          show ¬ (pb.n + pb.p + i < pb.n + pb.p) by omega,
          show ¬ (pb.n + pb.p + c < pb.n) by omega,
          show ¬ (pb.n + pb.p + i = pb.n + pb.p + c) by omega, zero_mul]
      · intro hc
        exact absurd (mem_range.mpr hi) hc
    have z0 : ∑ c ∈ range pb.n, kktEntry pb.P pb.A pb.G d (pb.n + pb.p + i) c * v c
        = pb.G.mulVec v i := by
      unfold Csc.mulVec
      rw [hGn]
      refine sum_congr rfl fun c hc => ?_
      have hc := mem_range.mp hc
      unfold kktEntry
      rw [hPn, hAm]
      simp only [show ¬ (pb.n + pb.p + i < pb.n) by omega, if_false,
        show ¬ (pb.n + pb.p + i < pb.n + pb.p) by omega, show c < pb.n from hc, if_true,
        show pb.n + pb.p + i - pb.n - pb.p = i by omega]
    rw [z0, z1, z2, add_zero]

/-- The solution of the (perturbed) KKT system is a direction of the linearised conditions. -/
theorem dirF_linearised {pb : Problem K} (hpb : pb.WF) (hsym : pb.P.Symm) {p q : Nat → Nat}
    (hp : PermPair pb.N p q) {t : FSt K} {raw : Nat → K} {x y z s : Nat → K}
    (hr : RowsInv (permCol (kktCsc pb.P pb.A pb.G (slackD z s)) p q) pb.N t raw)
    (hz : ∀ i, i < pb.m → 0 < z i) (tgt : Nat → K) :
    pb.Linearised (regDiag t raw q) x y z s tgt (dirF pb p q t x y z s tgt).dx
      (dirF pb p q t x y z s tgt).dy (dirF pb p q t x y z s tgt).dz
      (dirF pb p q t x y z s tgt).ds := by
  set rhs := rhsF pb.n pb.p (rxF pb x y z) (ryF pb x) (rzF pb x s) tgt z with hrhs
  set v := solveF pb.N t p q rhs with hv
  have ent : ∀ r c, c < pb.N → (kktCsc pb.P pb.A pb.G (slackD z s)).entry r c
      = kktEntry pb.P pb.A pb.G (slackD z s) r c := fun r c hc =>
    kktCsc_entry hpb.P hpb.A hpb.G hpb.Pm hpb.An hpb.Gn hpb.rows _ hc
  have sol : ∀ r, r < pb.N → ∑ c ∈ range pb.N, kktEntry pb.P pb.A pb.G (slackD z s) r c * v c
      + regDiag t raw q r * v r = rhs r := by
    intro r hr'
    have := hr.solve (hpb.kktCsc_wf _) rfl rfl hp (by
      intro r c h1 h2
      rw [ent r c h2, ent c r h1]
      exact kktEntry_symm hsym _ _ _) rhs hr'
    rw [← this]
    show _ = ∑ c ∈ range pb.N, (kktCsc pb.P pb.A pb.G (slackD z s)).entry r c * v c
      + regDiag t raw q r * v r
    refine congrArg (· + _) (sum_congr rfl fun c hc => ?_)
    rw [ent r c (mem_range.mp hc)]
  obtain ⟨k1, k2, k3⟩ := kkt_blocks hpb.An hpb.Gn (slackD z s) v
  have eN : pb.N = pb.n + pb.p + pb.m := rfl
  refine ⟨?_, ?_, ?_, ?_⟩
  · intro i hi
    have h1 := sol i (by omega)
    rw [k1 i hi] at h1
    have e0 : rhs i = pb.rx x y z i := by
      rw [hrhs]
      unfold rhsF
      rw [if_pos hi, rxF_eq hpb x y z hi]
    rw [e0] at h1
    exact h1
  · intro i hi
    have h1 := sol (pb.n + i) (by omega)
    rw [k2 i hi] at h1
    have e0 : rhs (pb.n + i) = pb.ry x i := by
      rw [hrhs]
      unfold rhsF
      rw [if_neg (by omega), if_pos (by omega), Nat.add_sub_cancel_left, ryF_eq hpb]
    rw [e0] at h1
    exact h1
  · intro i hi
    have h1 := sol (pb.n + pb.p + i) (by omega)
    rw [k3 i hi] at h1
    have hzi := (hz i hi).ne'
    have e0 : rhs (pb.n + pb.p + i) = pb.rz x s i - tgt i / z i := by
      rw [hrhs]
      unfold rhsF
      rw [if_neg (by omega), if_neg (by omega), show pb.n + pb.p + i - pb.n - pb.p = i by omega,
        rzF_eq hpb]
    rw [e0] at h1
    show pb.G.mulVec v i + (tgt i - s i * v (pb.n + pb.p + i)) / z i
      + regDiag t raw q (pb.n + pb.p + i) * v (pb.n + pb.p + i) = _
    unfold slackD at h1
    rw [sub_div]
    have : -(s i) / z i * v (pb.n + pb.p + i) = -(s i * v (pb.n + pb.p + i) / z i) := by ring
    rw [this] at h1
    linarith
  · intro i hi
    have hzi := (hz i hi).ne'
    show z i * ((tgt i - s i * v (pb.n + pb.p + i)) / z i) + s i * v (pb.n + pb.p + i) = tgt i
    field_simp
    ring

/-! ## The factor of a structure is determined -/

theorem Smat.Is.entry_eq {S : Smat K} {A B : Csc K} (ha : S.Is A) (hb : S.Is B) (wf : A.WF)
    (r : Nat) {c : Nat} (hc : c < A.n) : A.entry r c = B.entry r c := by
  have hn : A.n = B.n := by have := ha.n.symm.trans hb.n; exact_mod_cast this
  have hz : A.nnz = B.nnz := by have := ha.nnz.symm.trans hb.nnz; exact_mod_cast this
  have hj : ∀ i, i < A.n + 1 → A.jc i = B.jc i := by
    intro i hi
    have := ha.jc.unique (hb.jc.mono (by omega)) hi
    exact_mod_cast this
  have hk : ∀ k, k < A.nnz → A.ir k = B.ir k := by
    intro k hk
    have := ha.ir.unique (hb.ir.mono (by omega)) hk
    exact_mod_cast this
  unfold Csc.entry
  rw [← hj c (by omega), ← hj (c + 1) (by omega)]
  refine sum_congr rfl fun k hk' => ?_
  have h1 := (mem_Ico.mp hk').2
  have h2 : A.jc (c + 1) ≤ A.nnz := wf.le_nnz (by omega)
  rw [hk k (by omega), ha.pr.unique (hb.pr.mono (by omega)) (by omega : k < A.nnz)]

theorem HoldsFactor.entry_eq {n : Nat} {Lp Li : Buf Int} {Lx D : Buf K} {L L' : Csc K}
    {d d' : Nat → K} (h : HoldsFactor n Lp Li Lx D L d) (h' : HoldsFactor n Lp Li Lx D L' d')
    (r : Nat) {c : Nat} (hc : c < n) : L.entry r c = L'.entry r c := by
  have hj : ∀ i, i < n + 1 → L.jc i = L'.jc i := by
    intro i hi
    have := h.lp.unique h'.lp hi
    exact_mod_cast this
  have hz : L.nnz = L'.nnz := by
    unfold Csc.nnz
    rw [h.ln, h'.ln, hj n (by omega)]
  have hk : ∀ k, k < L.nnz → L.ir k = L'.ir k := by
    intro k hk
    have := h.li.unique (h'.li.mono (by omega)) hk
    exact_mod_cast this
  unfold Csc.entry
  rw [← hj c (by omega), ← hj (c + 1) (by omega)]
  refine sum_congr rfl fun k hk' => ?_
  have h1 := (mem_Ico.mp hk').2
  have h2 : L.jc (c + 1) ≤ L.nnz := h.wf.le_nnz (by rw [h.ln]; omega)
  rw [hk k (by omega), h.lx.unique (h'.lx.mono (by omega)) (by omega : k < L.nnz)]

theorem HoldsFactor.ldlt_eq {n : Nat} {Lp Li : Buf Int} {Lx D : Buf K} {L L' : Csc K}
    {d d' : Nat → K} (h : HoldsFactor n Lp Li Lx D L d) (h' : HoldsFactor n Lp Li Lx D L' d')
    (i r : Nat) : ldltEntry n L d i r = ldltEntry n L' d' i r := by
  unfold ldltEntry Csc.unitEntry
  refine sum_congr rfl fun t ht => ?_
  have ht := mem_range.mp ht
  rw [h.entry_eq h' i ht, h.entry_eq h' r ht, h.D.unique h'.D ht]

/-- The perturbation is determined by the structure. -/
theorem Kkt.Factored.unique {k : Kkt K} {N : Nat} {M M' : Csc K} {p p' q : Nat → Nat} {L L' : Csc K}
    {d d' e e' : Nat → K} (h : k.Factored N M p L d e) (h' : k.Factored N M' p' L' d' e')
    (hp : PermPair N p q) {i : Nat} (hi : i < N) : e i = e' i := by
  have hq := hp.q_lt i hi
  have h1 := h.diff _ hq
  have h2 := h'.diff _ hq
  have hpp : p (q i) = p' (q i) := by
    have := h.perm.unique h'.perm hq
    exact_mod_cast this
  rw [h.fac.ldlt_eq h'.fac, h2, ← hpp, hp.pq i hi,
    h.mat.entry_eq h'.mat h.wf _ (by rw [h.mn]; exact hi)] at h1
  exact (add_left_cancel h1).symm

/-! ## One step -/

/-- The step taken: the direction stored, its target, the perturbation. -/
theorem step_linearised {amd : Amd} {a : SetupArgs K} {pb : Problem K} {q0 qp qp' : QP K}
    (h : Started amd a pb q0) (hsym : pb.P.Symm) (hr : Reach q0 qp)
    (hb : solveBody qp = .ok (qp', false)) {x y z s : Nat → K} (hi : qp.Iter pb x y z s) :
    ∃ (p q : Nat → Nat) (t : FSt K) (e piv : Nat → K) (M L : Csc K),
      StepTo pb pb p q t x y z s qp.options.sigma qp' ∧
      qp'.options = { qp.options with sigma := sigF pb p q t x y z s qp.options.sigma } ∧
      qp'.kkt.Factored pb.N M p L t.D e ∧ PermPair pb.N p q ∧
      (∀ r, r < pb.N → e (p r) = t.D r - piv r ∧
        t.D r = if |piv r| ≤ 1 / 10 ^ 14 then
          (if piv r ≤ 0 then -(1 / 10 ^ 7) else 1 / 10 ^ 7) else piv r) ∧
      ∀ tgt, pb.Linearised e x y z s tgt (dirF pb p q t x y z s tgt).dx
        (dirF pb p q t x y z s tgt).dy (dirF pb p q t x y z s tgt).dz
        (dirF pb p q t x y z s tgt).ds := by
  have hpos := C16_positive h hr hi
  obtain ⟨p, q, hs, _⟩ := h.sinv hr
  obtain ⟨t, hst, hopt, _⟩ := (hs.bodyOut h.wf hb hi).step rfl
  simp only at hst hopt
  obtain ⟨raw, hraw⟩ := hst.fac.1.inv
  have hp := hst.sym.perm
  obtain ⟨g1, g2⟩ := factor_exact hst.sym.wf hst.sym.an hst.sym.am hp hraw
  refine ⟨p, q, t, regDiag t raw q, raw, _, facCsc pb.N t, hst, hopt,
    ⟨hst.sym.wf, hst.sym.an, hst.sym.mat, hst.sym.P, hst.fac.2.factor hst.sym.lp, ?_⟩, hp, ?_, ?_⟩
  · intro r hr'
    rw [g1 r hr' r le_rfl, if_pos rfl]
    unfold regDiag
    rw [hp.qp r hr']
  · intro r hr'
    refine ⟨?_, g2 r hr'⟩
    unfold regDiag
    rw [hp.qp r hr']
  · exact fun tgt => dirF_linearised h.wf hsym hp hraw (fun i hi => (hpos i hi).2) tgt

/-! ## C30 -/

/-- C30: in an iteration that takes a step with an exact factorisation, the equality and
inequality residuals are multiplied by `1 - alpha_p`. -/
theorem C30_contract {amd : Amd} {a : SetupArgs K} {pb : Problem K} {q0 qp qp' : QP K}
    (h : Started amd a pb q0) (hsym : pb.P.Symm) (hr : Reach q0 qp)
    (hb : solveBody qp = .ok (qp', false)) (hex : qp'.kkt.Exact pb.N) {x y z s x' y' z' s' : Nat → K}
    (hi : qp.Iter pb x y z s) (hi' : qp'.Iter pb x' y' z' s') :
    (∀ i, i < pb.p → pb.ry x' i = (1 - qp'.stats.alpha_p) * pb.ry x i) ∧
    (∀ i, i < pb.m → pb.rz x' s' i = (1 - qp'.stats.alpha_p) * pb.rz x s i) := by
  obtain ⟨c1, c2, _, _, dx, dy, dz, ds, ap, ad, j1, j2, j3, j4, _, _, _, _, hi2⟩ :=
    C17_steps h hr hb hi
  obtain ⟨p, q, t, e, piv, M, L, hst, hopt, hfac, hp, _, hlin⟩ := step_linearised h hsym hr hb hi
  obtain ⟨M', p', L', d', hf'⟩ := hex
  have he : ∀ i, i < pb.N → e i = 0 := fun i hi => hfac.unique hf' hp hi
  have hl := hlin (tgtF pb p q t x y z s qp.options.sigma)
  set D := dirF pb p q t x y z s (tgtF pb p q t x y z s qp.options.sigma) with hD
  have eD : stepDir pb p q t x y z s qp.options.sigma = D := rfl
  have edx : ∀ i, i < pb.n → dx i = D.dx i := fun i hn => by
    have := j1.unique hst.dx hn; rw [eD] at this; exact this
  have eds : ∀ i, i < pb.m → ds i = D.ds i := fun i hn => by
    have := j4.unique hst.ds hn; rw [eD] at this; exact this
  have ex : ∀ i, i < pb.n → x' i = x i + qp'.stats.alpha_p * D.dx i := fun i hn => by
    rw [hi'.x.unique hi2.x hn, edx i hn]
  have es : ∀ i, i < pb.m → s' i = s i + qp'.stats.alpha_p * D.ds i := fun i hn => by
    rw [hi'.s.unique hi2.s hn, eds i hn]
  have mv : ∀ (B : Csc K), B.n = pb.n → ∀ i, B.mulVec x' i
      = B.mulVec x i + qp'.stats.alpha_p * B.mulVec D.dx i := by
    intro B hB i
    unfold Csc.mulVec
    rw [mul_sum, ← sum_add_distrib]
    refine sum_congr rfl fun c hc => ?_
    rw [ex c (by rw [← hB]; exact mem_range.mp hc)]
    ring
  have eN : pb.N = pb.n + pb.p + pb.m := rfl
  refine ⟨?_, ?_⟩
  · intro i hp'
    have h1 := hl.ry i hp'
    rw [he (pb.n + i) (by omega), zero_mul, add_zero] at h1
    unfold Problem.ry at h1 ⊢
    rw [mv _ h.wf.An, h1]
    ring
  · intro i hm
    have h1 := hl.rz i hm
    rw [he (pb.n + pb.p + i) (by omega), zero_mul, add_zero] at h1
    unfold Problem.rz at h1 ⊢
    rw [mv _ h.wf.Gn, es i hm]
    linear_combination (-qp'.stats.alpha_p) * h1

/-- C30, consequences: no component of these residuals grows or changes sign, and a point
satisfying a constraint exactly keeps doing so. -/
theorem C30_never_grow {amd : Amd} {a : SetupArgs K} {pb : Problem K} {q0 qp qp' : QP K}
    (h : Started amd a pb q0) (hsym : pb.P.Symm) (hr : Reach q0 qp)
    (hb : solveBody qp = .ok (qp', false)) (hex : qp'.kkt.Exact pb.N) {x y z s x' y' z' s' : Nat → K}
    (hi : qp.Iter pb x y z s) (hi' : qp'.Iter pb x' y' z' s') :
    (∀ i, i < pb.p → |pb.ry x' i| ≤ |pb.ry x i| ∧ (pb.ry x i = 0 → pb.ry x' i = 0)) ∧
    (∀ i, i < pb.m → |pb.rz x' s' i| ≤ |pb.rz x s i| ∧ (pb.rz x s i = 0 → pb.rz x' s' i = 0)) := by
  obtain ⟨c1, c2, _⟩ := C17_steps h hr hb hi
  obtain ⟨h1, h2⟩ := C30_contract h hsym hr hb hex hi hi'
  have key : ∀ a b : K, b = (1 - qp'.stats.alpha_p) * a → |b| ≤ |a| ∧ (a = 0 → b = 0) := by
    intro a b e
    refine ⟨?_, fun ha => by rw [e, ha, mul_zero]⟩
    rw [e, abs_mul, abs_of_nonneg (by linarith)]
    have := abs_nonneg a
    nlinarith
  exact ⟨fun i hp => key _ _ (h1 i hp), fun i hm => key _ _ (h2 i hm)⟩

/-! ## C31 -/

section

variable [LawfulSqrt K]

theorem muF_eq {pb : Problem K} {z s : Nat → K} (h : ∀ i, i < pb.m → 0 < s i ∧ 0 < z i) :
    muF pb z s = dot pb.m s z / (pb.m : K) := by
  unfold muF
  rw [dotF_eq, LawfulScalar.ofInt_eq]
  congr 1
  · refine sum_congr rfl fun i hi => ?_
    have := h i (mem_range.mp hi)
    exact lamF_sq (mul_nonneg this.1.le this.2.le)
  · simp

/-- C31: from every reachable state an iteration that takes a step solves the linearised optimality
conditions at its iterate, for the perturbation `e` of the KKT matrix made by the pivot rule.
With an exact factorisation `e` vanishes.
If the centering parameter is not above `sigma_d` the complementarity target is
`-s z + sigma' mu`; otherwise the predictor direction `px, py, pz, ps` with target `-s z` is
computed too, and the target is `-s z - ps pz + sigma' mu`. -/
theorem C31_directions {amd : Amd} {a : SetupArgs K} {pb : Problem K} {q0 qp qp' : QP K}
    (h : Started amd a pb q0) (hsym : pb.P.Symm) (hr : Reach q0 qp)
    (hb : solveBody qp = .ok (qp', false)) {x y z s : Nat → K} (hi : qp.Iter pb x y z s) :
    ∃ e dx dy dz ds tgt : Nat → K, Buf.Has qp'.delta_x pb.n dx ∧ Buf.Has qp'.delta_y pb.p dy ∧
      Buf.Has qp'.delta_z pb.m dz ∧ Buf.Has qp'.delta_s pb.m ds ∧
      (∃ M p L d, qp'.kkt.Factored pb.N M p L d e) ∧
      (qp'.kkt.Exact pb.N → ∀ i, i < pb.N → e i = 0) ∧
      pb.Linearised e x y z s tgt dx dy dz ds ∧
      (qp.options.sigma ≤ pb.sigma_d → qp'.options.sigma = pb.sigma_d ∧ ∀ i, i < pb.m →
        tgt i = -(s i * z i) + pb.sigma_d * (dot pb.m s z / (pb.m : K))) ∧
      (pb.sigma_d < qp.options.sigma → ∃ px py pz ps ap ad,
        pb.Linearised e x y z s (fun i => -(s i * z i)) px py pz ps ∧
        FullStep pb.m s ps ap ∧ FullStep pb.m z pz ad ∧
        qp'.options.sigma = max pb.sigma_d ((min 1 (dot pb.m (fun i => s i + ap * ps i)
          (fun i => z i + ad * pz i) / dot pb.m s z)) ^ 3) ∧
        ∀ i, i < pb.m → tgt i = -(s i * z i) - ps i * pz i
          + qp'.options.sigma * (dot pb.m s z / (pb.m : K))) := by
  have hpos := C16_positive h hr hi
  obtain ⟨p, q, t, e, piv, M, L, hst, hopt, hfac, hp, _, hlin⟩ := step_linearised h hsym hr hb hi
  have hsq : ∀ i, i < pb.m → lamF z s i * lamF z s i = s i * z i := fun i hm =>
    lamF_sq (mul_nonneg (hpos i hm).1.le (hpos i hm).2.le)
  have hmu := muF_eq hpos
  have eS : qp'.options.sigma = sigF pb p q t x y z s qp.options.sigma := by rw [hopt]
  refine ⟨e, _, _, _, _, _, hst.dx, hst.dy, hst.dz, hst.ds, ⟨M, p, L, _, hfac⟩, ?_,
    hlin (tgtF pb p q t x y z s qp.options.sigma), ?_, ?_⟩
  · rintro ⟨M', p', L', d', hf'⟩ i hN
    exact hfac.unique hf' hp hN
  · intro hle
    have hf : Scalar.ltb pb.sigma_d qp.options.sigma = false := by
      rw [ltb_eq]; exact decide_eq_false (not_lt.mpr hle)
    have e1 : sigF pb p q t x y z s qp.options.sigma = pb.sigma_d := by
      unfold sigF; rw [hf]; rfl
    refine ⟨eS.trans e1, fun i hm => ?_⟩
    unfold tgtF
    rw [hf, if_neg (by simp), e1, hsq i hm, hmu]
  · intro hlt
    have hf : Scalar.ltb pb.sigma_d qp.options.sigma = true := by
      rw [ltb_eq]; exact decide_eq_true hlt
    have hl := hlin (tgtN z s)
    set D := predF pb p q t x y z s with hD
    refine ⟨D.dx, D.dy, D.dz, D.ds, _, _, ⟨hl.rx, hl.ry, hl.rz, fun i hm => ?_⟩,
      stepF_full (fun i hm => (hpos i hm).1), stepF_full (fun i hm => (hpos i hm).2), ?_, ?_⟩
    · rw [show D = dirF pb p q t x y z s (tgtN z s) from rfl, hl.comp i hm]
      show -(lamF z s i) * lamF z s i = _
      rw [neg_mul, hsq i hm]
    · rw [eS]
      unfold sigF
      rw [if_pos hf]
      dsimp only
      rw [fmax_eq, fmin_eq, dec_one_zero]
      congr 1
      have er : rhoP pb p q t x y z s = dot pb.m (fun i => s i + stepF pb.m s D.ds * D.ds i)
          (fun i => z i + stepF pb.m z D.dz * D.dz i) / dot pb.m s z := by
        unfold rhoP rhoF
        dsimp only
        rw [foldI_add_eq_sum, zero_add, dotF_eq]
        rfl
      rw [er, pow_succ, pow_two]
    · intro i hm
      unfold tgtF
      rw [if_pos hf, hsq i hm, hmu, eS]

end

end Verif
