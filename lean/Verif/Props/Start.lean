import Verif.Props.Directions
import Verif.Props.Tiny

/-!
# The starting point and the ordering used (C53, C54)
-/

set_option linter.unusedSectionVars false

namespace Verif

open Finset

section Generic

variable {K : Type} [Zero K] [One K] [Add K] [Sub K] [Mul K] [Div K] [Neg K] [Scalar K]

/-- The ordering and its status chosen by `choosePerm` are those stored in the structure. -/
theorem setupRest_perm {amd : Amd} {pb : Problem K} (hpb : pb.WF) {si : SetupIn K}
    (h : si.Give pb) (hs : PermSource amd si.Permut si.argp pb) {At : Option (Smat K)}
    {ybuf : Buf K} (hy : pb.p ≤ ybuf.length) {km : Smat K}
    (hk : km.Is (kktCsc pb.P pb.A pb.G (fun _ => Scalar.dec (-1) 0))) :
    Spec (setupRest amd si At pb.G.transpose.toSmat ybuf km)
      (fun qp => choosePerm amd si km pb.N = .ok (qp.stats.AMD_RESULT, qp.kkt.P)) := by
  unfold setupRest
  have e : si.argm + si.argn + si.p = (pb.N : Int) := by
    rw [h.n, h.m, h.p]; unfold Problem.N; push_cast; ring
  have e' : si.argn + si.argm + si.p = (pb.N : Int) := by
    rw [h.n, h.m, h.p]; unfold Problem.N; push_cast; ring
  simp only [e, e']
  obtain ⟨⟨r, P⟩, hr, p, q, hp, hd⟩ := choosePerm_spec hpb.toShaped h.n h.m hs hk (dim := pb.N) rfl
  rw [hr, ok_bind]
  obtain ⟨hA, hb⟩ := h.eqs
  have ln : (malloc si.argn : Buf K).length = pb.n := by rw [h.n, length_malloc]; simp
  have lm : (malloc si.argm : Buf K).length = pb.m := by rw [h.m, length_malloc]; simp
  have lN : (malloc (pb.N : Int) : Buf K).length = pb.N := by rw [length_malloc]; simp
  have lNi : (malloc (pb.N : Int) : Buf Int).length = pb.N := by rw [length_malloc]; simp
  refine Spec.bind (kkt_initialize_spec hpb (p := p) (q := q)
    (d := fun _ => Scalar.dec (-1) 0)
    ⟨h.n, h.m, h.p, h.sigma_d, h.P, h.G, hA, hb, h.c, h.h, ln.ge, hy, lm.ge, lm.ge, ln.ge, hy, lm.ge,
      lN.ge, ln.ge, hy, lm.ge, lm.ge, lm.ge, lm.ge, ln.ge, hp, hk, hd.has, lNi.ge, lN.ge⟩) ?_
  rintro ⟨f, qp⟩ ⟨h1, h2, h3, _⟩
  simp only at h1 h2 h3
  subst h1
  simp only [one_ne_zero, if_false]
  refine Spec.pure ?_
  rw [h3.perm, h3.amd]

/-- **C54**: a permutation given by the caller is used as it is, with status -3.
Otherwise the ordering routine is called once, on the pattern of the KKT matrix, and its result is
used exactly when its status is not negative; else the identity is used.
The status is the one reported. -/
theorem C54_ordering_used {amd : Amd} {a : SetupArgs K} {pb : Problem K} {q0 : QP K}
    (h : Started amd a pb q0) :
    (∀ B, a.Permut = some B → q0.kkt.P = B ∧ q0.stats.AMD_RESULT = -3) ∧
    (a.Permut = none → ∃ (S : Smat K) (P' : Buf Int),
      S.Is (kktCsc pb.P pb.A pb.G (fun _ => Scalar.dec (-1) 0)) ∧
      amd pb.N S.jc S.ir (malloc pb.N) = .ok (q0.stats.AMD_RESULT, P') ∧
      (0 ≤ q0.stats.AMD_RESULT → q0.kkt.P = P') ∧
      (q0.stats.AMD_RESULT < 0 → Buf.Has q0.kkt.P pb.N (fun i => (i : Int)))) := by
  obtain ⟨h1, h2⟩ := QP_SETUP_eq (amd := amd) h.wf.toShaped h.give
  obtain ⟨At, ybuf, km, e, hAt, hy, hk, k1, k2, k3⟩ := setupTail_rest amd h.wf.toShaped h2
  obtain ⟨qp, e1, e2⟩ := setupRest_perm (At := At) h.wf h2 h.perm hy hk
  have : qp = q0 := by
    have := h.ok
    rw [h1, e, e1] at this
    exact Except.ok.inj this
  subst this
  have hP : (a.toIn pb).Permut = a.Permut := rfl
  constructor
  · intro B hB
    unfold choosePerm at e2
    rw [hP, hB] at e2
    simp only [pure_eq_ok] at e2
    have := Except.ok.inj e2
    exact ⟨(Prod.ext_iff.mp this).2.symm, (Prod.ext_iff.mp this).1.symm⟩
  · intro hN
    have hkn : km.n = pb.N := hk.n
    have hwf := h.wf.toShaped.kktCsc_wf (K := K) (fun _ => Scalar.dec (-1) 0)
    rcases h.perm with ⟨B, p, q, hB, _⟩ | ⟨_, hamd, hor⟩
    · rw [hN] at hB; cases hB
    obtain ⟨st, P', g1, g2, g3⟩ := hamd pb.N
      (kktCsc pb.P pb.A pb.G (fun _ => Scalar.dec (-1) 0)).pattern km.jc km.ir
      (malloc pb.N) ⟨hwf.jc0, hwf.mono, hwf.ir_lt⟩ rfl rfl hk.jc hk.ir (by
        rw [length_malloc]; simp)
    unfold choosePerm at e2
    rw [hP, hN] at e2
    simp only [hkn, g1, ok_bind] at e2
    by_cases hst : st < 0
    · simp only [hst, if_true] at e2
      have hp : (a.toIn pb).argp = pb.p := by
        rcases hor with h' | h'
        · exact h'
        · have := h' pb.N (kktCsc pb.P pb.A pb.G (fun _ => Scalar.dec (-1) 0)).pattern km.jc km.ir
            (malloc pb.N) st P' ⟨hwf.jc0, hwf.mono, hwf.ir_lt⟩ rfl rfl hk.jc hk.ir (by
              rw [length_malloc]; simp) g1
          omega
      rw [h2.n, h2.m, hp] at e2
      have e : ((pb.n : Int) + (pb.m : Int) + (pb.p : Int)) = (pb.N : Int) := by
        unfold Problem.N; push_cast; ring
      rw [e] at e2
      obtain ⟨P2, f1, _, f2, _⟩ := forI_fill (b := P') (n := pb.N) (by omega) (fun i => (i : Int))
        (f := fun idx P => wr P idx idx) (by intro j b' _ _ _ _; rfl)
      rw [f1, ok_bind] at e2
      have := Except.ok.inj e2
      obtain ⟨j1, j2⟩ := Prod.ext_iff.mp this
      simp only at j1 j2
      refine ⟨km, P', hk, by rw [g1, j1], fun h' => by omega, fun _ => by rw [← j2]; exact f2⟩
    · simp only [hst, if_false] at e2
      have := Except.ok.inj e2
      obtain ⟨j1, j2⟩ := Prod.ext_iff.mp this
      simp only at j1 j2
      exact ⟨km, P', hk, by rw [g1, j1], fun _ => j2.symm, fun h' => by omega⟩

end Generic

section Exact

variable {K : Type} [Field K] [LinearOrder K] [IsStrictOrderedRing K] [Scalar K] [LawfulScalar K]

/-- The rows of the KKT matrix, block by block. -/
theorem kkt_rows {pb : Problem K} (hpb : pb.WF) (d v : Nat → K) :
    (∀ i, i < pb.n → ∑ c ∈ range pb.N, kktEntry pb.P pb.A pb.G d i c * v c
      = pb.P.mulVec v i + pb.A.tmulVec (fun k => v (pb.n + k)) i
        + pb.G.tmulVec (fun k => v (pb.n + pb.p + k)) i) ∧
    (∀ i, i < pb.p → ∑ c ∈ range pb.N, kktEntry pb.P pb.A pb.G d (pb.n + i) c * v c
      = pb.A.mulVec v i) ∧
    (∀ i, i < pb.m → ∑ c ∈ range pb.N, kktEntry pb.P pb.A pb.G d (pb.n + pb.p + i) c * v c
      = pb.G.mulVec v i + d i * v (pb.n + pb.p + i)) := by
  have blocks : ∀ r, ∑ c ∈ range pb.N, kktEntry pb.P pb.A pb.G d r c * v c
      = ∑ c ∈ range pb.n, kktEntry pb.P pb.A pb.G d r c * v c
        + ∑ c ∈ range pb.p, kktEntry pb.P pb.A pb.G d r (pb.n + c) * v (pb.n + c)
        + ∑ c ∈ range pb.m, kktEntry pb.P pb.A pb.G d r (pb.n + pb.p + c)
            * v (pb.n + pb.p + c) := fun r => sum_blocks _ _ _ _
  have hPn : pb.P.n = pb.n := rfl
  have hAm : pb.A.m = pb.p := rfl
  have hGm : pb.G.m = pb.m := rfl
  refine ⟨?_, ?_, ?_⟩
  · intro i hi
    rw [blocks]
    unfold Csc.mulVec Csc.tmulVec
    refine congrArg₂ _ (congrArg₂ _ ?_ ?_) ?_
    · refine sum_congr rfl fun c hc => ?_
      have hc : c < pb.n := mem_range.mp hc
      unfold kktEntry
      rw [hPn]
      simp only [hi, hc, if_true]
    · refine sum_congr rfl fun c hc => ?_
      have hc := mem_range.mp hc
      unfold kktEntry
      rw [hPn]
      simp only [hi, if_true, show ¬ (pb.n + c < pb.n) by omega, if_false,
        show pb.n + c < pb.n + pb.A.m by omega, Nat.add_sub_cancel_left]
    · refine sum_congr rfl fun c hc => ?_
      have hc := mem_range.mp hc
      unfold kktEntry
      rw [hPn, hAm]
      simp only [hi, if_true, show ¬ (pb.n + pb.p + c < pb.n) by omega, if_false,
        show ¬ (pb.n + pb.p + c < pb.n + pb.p) by omega,
        show pb.n + pb.p + c - pb.n - pb.p = c by omega]
  · intro i hi
    rw [blocks]
    have z1 : ∑ c ∈ range pb.p, kktEntry pb.P pb.A pb.G d (pb.n + i) (pb.n + c)
        * v (pb.n + c) = 0 := by
      refine sum_eq_zero fun c hc => ?_
      have hc := mem_range.mp hc
      unfold kktEntry
      rw [hPn, hAm]
      simp only [show ¬ (pb.n + i < pb.n) by omega, show ¬ (pb.n + c < pb.n) by omega, if_false,
        show pb.n + i < pb.n + pb.p by omega, if_true, zero_mul]
    have z2 : ∑ c ∈ range pb.m, kktEntry pb.P pb.A pb.G d (pb.n + i) (pb.n + pb.p + c)
        * v (pb.n + pb.p + c) = 0 := by
      refine sum_eq_zero fun c hc => ?_
      have hc := mem_range.mp hc
      unfold kktEntry
      rw [hPn, hAm]
      simp only [show ¬ (pb.n + i < pb.n) by omega, show ¬ (pb.n + pb.p + c < pb.n) by omega,
        if_false, show pb.n + i < pb.n + pb.p by omega, if_true, zero_mul]
    rw [z1, z2, add_zero, add_zero]
    unfold Csc.mulVec
    rw [hpb.An]
    refine sum_congr rfl fun c hc => ?_
    have hc := mem_range.mp hc
    unfold kktEntry
    rw [hPn, hAm]
    simp only [show ¬ (pb.n + i < pb.n) by omega, if_false, show pb.n + i < pb.n + pb.p by omega,
      if_true, show c < pb.n from hc, Nat.add_sub_cancel_left]
  · intro i hi
    rw [blocks]
    have z1 : ∑ c ∈ range pb.p, kktEntry pb.P pb.A pb.G d (pb.n + pb.p + i) (pb.n + c)
        * v (pb.n + c) = 0 := by
      refine sum_eq_zero fun c hc => ?_
      have hc := mem_range.mp hc
      unfold kktEntry
      rw [hPn, hAm]
      simp only [show ¬ (pb.n + pb.p + i < pb.n) by omega, show ¬ (pb.n + c < pb.n) by omega,
        if_false, show ¬ (pb.n + pb.p + i < pb.n + pb.p) by omega,
        show ¬ (pb.n + pb.p + i = pb.n + c) by omega, zero_mul]
    have z2 : ∑ c ∈ range pb.m, kktEntry pb.P pb.A pb.G d (pb.n + pb.p + i)
        (pb.n + pb.p + c) * v (pb.n + pb.p + c) = d i * v (pb.n + pb.p + i) := by
      rw [sum_eq_single i]
      · unfold kktEntry
        rw [hPn, hAm]
        simp only [show ¬ (pb.n + pb.p + i < pb.n) by omega, if_false,
          show ¬ (pb.n + pb.p + i < pb.n + pb.p) by omega, if_true,
          show pb.n + pb.p + i - pb.n - pb.p = i by omega]
      · intro c hc hne
        unfold kktEntry
        rw [hPn, hAm]
        simp only [show ¬ (pb.n + pb.p + i < pb.n) by omega, if_false,
          show ¬ (pb.n + pb.p + i < pb.n + pb.p) by omega,
          show ¬ (pb.n + pb.p + c < pb.n) by omega,
          show ¬ (pb.n + pb.p + i = pb.n + pb.p + c) by omega, zero_mul]
      · intro hc
        exact absurd (mem_range.mpr hi) hc
    have z0 : ∑ c ∈ range pb.n, kktEntry pb.P pb.A pb.G d (pb.n + pb.p + i) c * v c
        = pb.G.mulVec v i := by
      unfold Csc.mulVec
      rw [hpb.Gn]
      refine sum_congr rfl fun c hc => ?_
      have hc := mem_range.mp hc
      unfold kktEntry
      rw [hPn, hAm]
      simp only [show ¬ (pb.n + pb.p + i < pb.n) by omega, if_false,
        show ¬ (pb.n + pb.p + i < pb.n + pb.p) by omega, show c < pb.n from hc, if_true,
        show pb.n + pb.p + i - pb.n - pb.p = i by omega]
    rw [z0, z1, z2, add_zero]

theorem minmaxF_attained (m : Nat) (hm : 0 < m) (z : Nat → K) :
    (∃ i, i < m ∧ (minmaxF m z).1 = z i) ∧ ∃ i, i < m ∧ (minmaxF m z).2 = z i := by
  unfold minmaxF
  refine foldI_induct (lo := 1) (hi := m) hm (fun j (mm : K × K) =>
    (∃ i, i < j ∧ mm.1 = z i) ∧ ∃ i, i < j ∧ mm.2 = z i) ⟨⟨0, by omega, rfl⟩, 0, by omega, rfl⟩ ?_
  rintro j ⟨mn, mx⟩ h1 hj ⟨⟨i, hi, e1⟩, i', hi', e2⟩
  dsimp only at e1 e2 ⊢
  constructor
  · split
    · exact ⟨j, by omega, rfl⟩
    · exact ⟨i, by omega, e1⟩
  · split
    · exact ⟨j, by omega, rfl⟩
    · exact ⟨i', by omega, e2⟩

/-- **C53**: with `P` symmetric, the starting `x` and `y` solve, together with some `w`, the system
`P x + Aᵀ y + Gᵀ w = -c`, `A x = b`, `G x - w = h`, up to the diagonal perturbation `e` made by the
pivot rule (zero for an exact factorisation).
With `r = h - G x`, least entry `lo` and greatest entry `hi`, the slacks are `r` if `lo` is
positive and `r + (1 - lo)` otherwise, and the multipliers are `-r` if `hi` is negative and
`-r + (1 + hi)` otherwise. -/
theorem C53_starting_point {amd : Amd} {a : SetupArgs K} {pb : Problem K} {q0 : QP K}
    (h : Started amd a pb q0) (hsym : pb.P.Symm) {x y z s : Nat → K} (hi : q0.Iter pb x y z s) :
    ∃ e w : Nat → K, (∃ M p L d, q0.kkt.Factored pb.N M p L d e) ∧
      (q0.kkt.Exact pb.N → ∀ i, i < pb.N → e i = 0) ∧
      (∀ i, i < pb.n → pb.P.mulVec x i + pb.A.tmulVec y i + pb.G.tmulVec w i + e i * x i
        = -(pb.c i)) ∧
      (∀ i, i < pb.p → pb.A.mulVec x i + e (pb.n + i) * y i = pb.b i) ∧
      (∀ i, i < pb.m → pb.G.mulVec x i - w i + e (pb.n + pb.p + i) * w i = pb.h i) ∧
      ∃ lo hi : K,
        IsLeast {v | ∃ i, i < pb.m ∧ v = pb.h i - pb.G.mulVec x i} lo ∧
        IsGreatest {v | ∃ i, i < pb.m ∧ v = pb.h i - pb.G.mulVec x i} hi ∧
        (∀ i, i < pb.m → s i = if 0 < lo then pb.h i - pb.G.mulVec x i
          else pb.h i - pb.G.mulVec x i + (1 - lo)) ∧
        (∀ i, i < pb.m → z i = if hi < 0 then -(pb.h i - pb.G.mulVec x i)
          else -(pb.h i - pb.G.mulVec x i) + (1 + hi)) := by
  obtain ⟨p, q, hd⟩ := h.done
  obtain ⟨t, hfac, _, hit⟩ := hd.iter
  obtain ⟨raw, hraw⟩ := hfac.1.inv
  have hp := hd.kkt.perm
  have hpb := h.wf
  set v := sol0 pb p q t with hv
  have ex : ∀ i, i < pb.n → x i = v i := fun i hn => hi.x.unique hit.x hn
  have ey : ∀ i, i < pb.p → y i = v (pb.n + i) := fun i hn => hi.y.unique hit.y hn
  have mvx : ∀ B : Csc K, B.n = pb.n → ∀ i, B.mulVec x i = B.mulVec v i := by
    intro B hB i
    unfold Csc.mulVec
    rw [hB]
    exact sum_congr rfl fun c hc => by rw [ex c (mem_range.mp hc)]
  have ent : ∀ r c, c < pb.N → (kktCsc pb.P pb.A pb.G (fun _ => Scalar.dec (-1) 0)).entry r c
      = kktEntry pb.P pb.A pb.G (fun _ => Scalar.dec (-1) 0) r c := fun r c hc =>
    kktCsc_entry hpb.P hpb.A hpb.G hpb.Pm hpb.An hpb.Gn hpb.rows _ hc
  have sol : ∀ r, r < pb.N → ∑ c ∈ range pb.N,
      kktEntry pb.P pb.A pb.G (fun _ => Scalar.dec (-1) 0) r c * v c
      + regDiag t raw q r * v r = rhs0 pb r := by
    intro r hr'
    have := hraw.solve (hpb.kktCsc_wf _) rfl rfl hp (by
      intro r c h1 h2
      rw [ent r c h2, ent c r h1]
      exact kktEntry_symm hsym _ _ _) (rhs0 pb) hr'
    rw [← this]
    show _ = ∑ c ∈ range pb.N, (kktCsc pb.P pb.A pb.G (fun _ => Scalar.dec (-1) 0)).entry r c * v c
      + regDiag t raw q r * v r
    refine congrArg (· + _) (sum_congr rfl fun c hc => ?_)
    rw [ent r c (mem_range.mp hc)]
  obtain ⟨b1, b2, b3⟩ := kkt_rows hpb (fun _ => Scalar.dec (-1) 0) v
  obtain ⟨g1, g2⟩ := factor_exact hd.kkt.wf hd.kkt.an hd.kkt.am hp hraw
  have hF : q0.kkt.Factored pb.N _ p (facCsc pb.N t) t.D (regDiag t raw q) :=
    ⟨hd.kkt.wf, hd.kkt.an, hd.kkt.mat, hd.kkt.P, hfac.2.factor hd.kkt.lp, by
      intro r hr'
      rw [g1 r hr' r le_rfl, if_pos rfl]
      unfold regDiag
      rw [hp.qp r hr']⟩
  have eN : pb.N = pb.n + pb.p + pb.m := rfl
  have hr0 : ∀ i, interF pb v i = pb.h i - pb.G.mulVec x i := by
    intro i
    unfold interF
    rw [smmF_eq hpb.G, dec_one_zero, mvx pb.G hpb.Gn]
    ring
  refine ⟨regDiag t raw q, fun k => v (pb.n + pb.p + k), ⟨_, p, _, _, hF⟩, ?_, ?_, ?_, ?_,
    (minmaxF pb.m (interF pb v)).1, (minmaxF pb.m (interF pb v)).2, ?_, ?_, ?_, ?_⟩
  · rintro ⟨M', p', L', d', hf'⟩ i hN
    exact hF.unique hf' hp hN
  · intro i hn
    have h1 := sol i (by omega)
    rw [b1 i hn] at h1
    have : pb.A.tmulVec y i = pb.A.tmulVec (fun k => v (pb.n + k)) i := by
      unfold Csc.tmulVec
      exact sum_congr rfl fun c hc => by rw [ey c (mem_range.mp hc)]
    rw [mvx _ rfl, this, ex i hn, h1]
    unfold rhs0
    rw [if_pos hn]
  · intro i hn
    have h1 := sol (pb.n + i) (by omega)
    rw [b2 i hn] at h1
    rw [mvx _ hpb.An, ey i hn, h1]
    unfold rhs0
    rw [if_neg (by omega), if_pos (by omega), Nat.add_sub_cancel_left]
  · intro i hn
    have h1 := sol (pb.n + pb.p + i) (by omega)
    rw [b3 i hn, dec_neg_one] at h1
    have h2 : rhs0 pb (pb.n + pb.p + i) = pb.h i := by
      unfold rhs0
      rw [if_neg (by omega), if_neg (by omega), show pb.n + pb.p + i - pb.n - pb.p = i by omega]
    rw [h2] at h1
    rw [mvx _ hpb.Gn]
    linarith
  · constructor
    · obtain ⟨i, hm, e⟩ := (minmaxF_attained pb.m hpb.m_pos (interF pb v)).1
      exact ⟨i, hm, by rw [e, hr0]⟩
    · rintro _ ⟨i, hm, rfl⟩
      rw [← hr0]
      exact (minmaxF_spec pb.m hpb.m_pos (interF pb v) i hm).1
  · constructor
    · obtain ⟨i, hm, e⟩ := (minmaxF_attained pb.m hpb.m_pos (interF pb v)).2
      exact ⟨i, hm, by rw [e, hr0]⟩
    · rintro _ ⟨i, hm, rfl⟩
      rw [← hr0]
      exact (minmaxF_spec pb.m hpb.m_pos (interF pb v) i hm).2
  · intro i hm
    rw [hi.s.unique hit.s hm]
    unfold initS
    dsimp only
    rw [ltb_eq, dec_one_zero, hr0]
    simp only [decide_eq_true_eq, neg_lt_zero, sub_eq_add_neg]
  · intro i hm
    rw [hi.z.unique hit.z hm]
    unfold initZ
    dsimp only
    rw [ltb_eq, dec_one_zero, hr0]
    simp only [decide_eq_true_eq]

end Exact

/-! ## Examples -/

/-- C53 and C54 apply to the one-variable program, which is set up with the identity permutation. -/
example : ∃ q0 : QP ℝ, Started failAmd (tinyArgs ℝ) (tinyPb ℝ) q0 ∧ (tinyPb ℝ).P.Symm ∧
    ∃ x y z s, q0.Iter (tinyPb ℝ) x y z s := by
  obtain ⟨q0, h⟩ := tiny_started ℝ
  obtain ⟨p, q, hs, _⟩ := h.sinv .start
  exact ⟨q0, h, tiny_symm, hs.iter⟩

end Verif
