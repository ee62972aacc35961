import Verif.Props.Pivots

/-!
# The ordering does not matter

C57: in exact arithmetic two runs of the solver on the same problem with the same options, but with
different orderings, make the same iterates, as long as no pivot is changed by the regularisation
rule.
-/

set_option linter.unusedSectionVars false

namespace Verif

open Finset

section

variable {K : Type} [Field K] [LinearOrder K] [IsStrictOrderedRing K] [Scalar K] [LawfulScalar K]

/-- The length found by the ratio test is determined by its description. -/
theorem FullStep.unique {m : Nat} {s d d' : Nat → K} {a a' : K} (h : FullStep m s d a)
    (h' : FullStep m s d' a') (hd : ∀ i, i < m → d i = d' i) : a = a' := by
  have key : ∀ {d d' : Nat → K} {a a' : K}, FullStep m s d a → FullStep m s d' a' →
      (∀ i, i < m → d i = d' i) → a' ≤ a := by
    intro d d' a a' h h' hd
    rcases h.longest with ⟨hlt, i, hi, hn, e⟩ | ⟨h1, h2⟩
    · have := h'.stays i hi
      rw [← hd i hi] at this
      have hle : (a' - a) * d i ≥ 0 := by linarith
      by_contra hc
      push Not at hc
      have := mul_neg_of_pos_of_neg (sub_pos.mpr hc) hn
      linarith
    · rcases h'.longest with ⟨hlt, i, hi, hn, e⟩ | ⟨h1', _⟩
      · have h3 := h2 i hi (by rw [hd i hi]; exact hn)
        rw [hd i hi] at h3
        have : -(s i / d' i) = a' := by
          have h4 : s i = -(a' * d' i) := by linarith
          rw [h4, neg_div, mul_div_cancel_right₀ _ hn.ne, neg_neg]
        rw [this] at h3
        exact absurd hlt (not_lt.mpr h3)
      · rw [h1, h1']
  exact le_antisymm (key h' h (fun i hi => (hd i hi).symm)) (key h h' hd)

/-- Without perturbation the linearised conditions have one solution if the KKT matrix is
nonsingular. -/
theorem Problem.Linearised.unique {pb : Problem K} (hpb : pb.WF) {x y z s : Nat → K}
    (hz : ∀ i, i < pb.m → 0 < z i)
    (hinj : ∀ v : Nat → K, (∀ r, r < pb.N →
      ∑ c ∈ range pb.N, kktEntry pb.P pb.A pb.G (slackD z s) r c * v c = 0) → ∀ r, r < pb.N → v r = 0)
    {e e' tgt tgt' dx dy dz ds dx' dy' dz' ds' : Nat → K} (he : ∀ i, i < pb.N → e i = 0)
    (he' : ∀ i, i < pb.N → e' i = 0) (ht : ∀ i, i < pb.m → tgt i = tgt' i)
    (h : pb.Linearised e x y z s tgt dx dy dz ds)
    (h' : pb.Linearised e' x y z s tgt' dx' dy' dz' ds') :
    (∀ i, i < pb.n → dx i = dx' i) ∧ (∀ i, i < pb.p → dy i = dy' i) ∧
      (∀ i, i < pb.m → dz i = dz' i) ∧ ∀ i, i < pb.m → ds i = ds' i := by
  have eN : pb.N = pb.n + pb.p + pb.m := rfl
  set v : Nat → K := fun c => if c < pb.n then dx c - dx' c
    else if c < pb.n + pb.p then dy (c - pb.n) - dy' (c - pb.n)
    else dz (c - pb.n - pb.p) - dz' (c - pb.n - pb.p) with hv
  have vx : ∀ c, c < pb.n → v c = dx c - dx' c := fun c hc => by rw [hv]; simp only [if_pos hc]
  have vy : ∀ c, v (pb.n + c) = if c < pb.p then dy c - dy' c else v (pb.n + c) := by
    intro c
    split
    · next hc =>
      rw [hv]
      simp only [if_neg (by omega : ¬ pb.n + c < pb.n), if_pos (by omega : pb.n + c < pb.n + pb.p),
        Nat.add_sub_cancel_left]
    · rfl
  have vz : ∀ c, v (pb.n + pb.p + c) = dz c - dz' c := by
    intro c
    rw [hv]
    simp only [if_neg (by omega : ¬ pb.n + pb.p + c < pb.n),
      if_neg (by omega : ¬ pb.n + pb.p + c < pb.n + pb.p),
      show pb.n + pb.p + c - pb.n - pb.p = c by omega]
  have mv : ∀ B : Csc K, B.n = pb.n → ∀ i, B.mulVec v i = B.mulVec dx i - B.mulVec dx' i := by
    intro B hB i
    unfold Csc.mulVec
    rw [hB, ← sum_sub_distrib]
    exact sum_congr rfl fun c hc => by rw [vx c (mem_range.mp hc)]; ring
  have tA : ∀ i, pb.A.tmulVec (fun k => v (pb.n + k)) i = pb.A.tmulVec dy i - pb.A.tmulVec dy' i := by
    intro i
    unfold Csc.tmulVec
    rw [← sum_sub_distrib]
    refine sum_congr rfl fun c hc => ?_
    show _ * v (pb.n + c) = _
    rw [vy c, if_pos (show c < pb.p from mem_range.mp hc)]; ring
  have tG : ∀ i, pb.G.tmulVec (fun k => v (pb.n + pb.p + k)) i
      = pb.G.tmulVec dz i - pb.G.tmulVec dz' i := by
    intro i
    unfold Csc.tmulVec
    rw [← sum_sub_distrib]
    refine sum_congr rfl fun c hc => ?_
    show _ * v (pb.n + pb.p + c) = _
    rw [vz c]; ring
  obtain ⟨b1, b2, b3⟩ := kkt_rows hpb (slackD z s) v
  have hv0 := hinj v (by
    intro r hr
    by_cases h1 : r < pb.n
    · rw [b1 r h1, mv _ rfl, tA, tG]
      have e1 := h.rx r h1
      have e2 := h'.rx r h1
      rw [he r hr] at e1
      rw [he' r hr] at e2
      linear_combination e1 - e2
    · by_cases h2 : r < pb.n + pb.p
      · obtain ⟨i, rfl⟩ : ∃ i, r = pb.n + i := ⟨r - pb.n, by omega⟩
        rw [b2 i (by omega), mv _ hpb.An]
        have e1 := h.ry i (by omega)
        have e2 := h'.ry i (by omega)
        rw [he _ hr] at e1
        rw [he' _ hr] at e2
        linear_combination e1 - e2
      · obtain ⟨i, rfl⟩ : ∃ i, r = pb.n + pb.p + i := ⟨r - pb.n - pb.p, by omega⟩
        have hi : i < pb.m := by omega
        rw [b3 i hi, mv _ hpb.Gn, vz]
        have e1 := h.rz i hi
        have e2 := h'.rz i hi
        rw [he _ hr] at e1
        rw [he' _ hr] at e2
        have c1 := h.comp i hi
        have c2 := h'.comp i hi
        rw [← ht i hi] at c2
        have hz0 := (hz i hi).ne'
        have : s i / z i * (dz i - dz' i) = -(ds i - ds' i) := by
          rw [div_mul_eq_mul_div, div_eq_iff hz0]
          linear_combination c1 - c2
        unfold slackD
        rw [neg_div]
        linear_combination e1 - e2 - this)
  have k1 : ∀ i, i < pb.n → dx i = dx' i := fun i hi => by
    have := hv0 i (by omega)
    rw [vx i hi] at this
    exact sub_eq_zero.mp this
  have k3 : ∀ i, i < pb.m → dz i = dz' i := fun i hi => by
    have := hv0 (pb.n + pb.p + i) (by omega)
    rw [vz i] at this
    exact sub_eq_zero.mp this
  refine ⟨k1, fun i hi => ?_, k3, fun i hi => ?_⟩
  · have := hv0 (pb.n + i) (by omega)
    rw [vy i, if_pos hi] at this
    exact sub_eq_zero.mp this
  · have c1 := h.comp i hi
    have c2 := h'.comp i hi
    rw [← ht i hi, ← k3 i hi] at c2
    exact mul_left_cancel₀ (hz i hi).ne' (by linear_combination c1 - c2)

/-- An exact factorisation shows that the KKT matrix is nonsingular. -/
theorem kkt_injective {pb : Problem K} (hpb : pb.WF) (hsym : pb.P.Symm) {dd : Nat → K}
    {p q : Nat → Nat} {k : Kkt K} {t : FSt K}
    (hk : KktSym pb.N (kktCsc pb.P pb.A pb.G dd) p q k)
    (hf : KktFac pb.N (kktCsc pb.P pb.A pb.G dd) p q t k) (hex : k.Exact pb.N) (v : Nat → K)
    (hv : ∀ r, r < pb.N → ∑ c ∈ range pb.N, kktEntry pb.P pb.A pb.G dd r c * v c = 0) :
    ∀ r, r < pb.N → v r = 0 := by
  obtain ⟨raw, hraw⟩ := hf.1.inv
  have hp := hk.perm
  obtain ⟨g1, g2⟩ := factor_exact hk.wf hk.an hk.am hp hraw
  have hF : k.Factored pb.N _ p (facCsc pb.N t) t.D (regDiag t raw q) :=
    ⟨hk.wf, hk.an, hk.mat, hk.P, hf.2.factor hk.lp, by
      intro r hr'
      rw [g1 r hr' r le_rfl, if_pos rfl]
      unfold regDiag
      rw [hp.qp r hr']⟩
  obtain ⟨M', p', L', d', hf'⟩ := hex
  have ent : ∀ r c, c < pb.N → (kktCsc pb.P pb.A pb.G dd).entry r c
      = kktEntry pb.P pb.A pb.G dd r c := fun r c hc =>
    kktCsc_entry hpb.P hpb.A hpb.G hpb.Pm hpb.An hpb.Gn hpb.rows _ hc
  refine hraw.injective hk.wf hk.an hk.am hp ?_ ?_ ?_
  · intro r c h1 h2
    rw [ent r c h2, ent c r h1]
    exact kktEntry_symm hsym _ _ _
  · exact fun r hr => hF.unique hf' hp hr
  · intro r hr'
    rw [← hv r hr']
    exact sum_congr rfl fun c hc => by rw [ent r c (mem_range.mp hc)]

theorem QP.Iter.congr {qp : QP K} {pb : Problem K} {x y z s x' y' z' s' : Nat → K}
    (h : qp.Iter pb x y z s) (hx : ∀ i, i < pb.n → x i = x' i) (hy : ∀ i, i < pb.p → y i = y' i)
    (hz : ∀ i, i < pb.m → z i = z' i) (hs : ∀ i, i < pb.m → s i = s' i) :
    qp.Iter pb x' y' z' s' :=
  ⟨h.x.congr hx, h.y.congr hy, h.z.congr hz, h.s.congr hs⟩

section

variable [LawfulSqrt K]

/-- One step from equal states with exact factorisations leads to equal states. -/
theorem step_same {amd amd' : Amd} {a a' : SetupArgs K} {pb : Problem K} {q0 q0' qp qp' r r' : QP K}
    (h : Started amd a pb q0) (h' : Started amd' a' pb q0') (hsym : pb.P.Symm) (hr : Reach q0 qp)
    (hr' : Reach q0' qp') (hsame : SameResult pb qp qp') (hb : solveBody qp = .ok (r, false))
    (hb' : solveBody qp' = .ok (r', false)) (hex : r.kkt.Exact pb.N) (hex' : r'.kkt.Exact pb.N) :
    SameResult pb r r' := by
  obtain ⟨x, y, z, s, hi, hi'⟩ := hsame.iter
  have hpos := C16_positive h hr hi
  obtain ⟨p, q, hs, _⟩ := h.sinv hr
  obtain ⟨p', q', hs', _⟩ := h'.sinv hr'
  have hbo := hs.bodyOut h.wf hb hi
  have hbo' := hs'.bodyOut h.wf hb' hi'
  obtain ⟨t, hst, hopt, re, hstat⟩ := hbo.step rfl
  obtain ⟨t', hst', hopt', re', hstat'⟩ := hbo'.step rfl
  simp only at hst hst' hopt hopt' hstat hstat'
  have hinj := kkt_injective h.wf hsym hst.sym hst.fac hex
  obtain ⟨e, dx, dy, dz, ds, tgt, d1, d2, d3, d4, ⟨M, P, L, d, hF⟩, he, hlin, hA, hB⟩ :=
    C31_directions h hsym hr hb hi
  obtain ⟨e', dx', dy', dz', ds', tgt', d1', d2', d3', d4', ⟨M', P', L', d', hF'⟩, he', hlin', hA',
    hB'⟩ := C31_directions h' hsym hr' hb' hi'
  have he := he hex
  have he' := he' hex'
  have hzp : ∀ i, i < pb.m → 0 < z i := fun i hm => (hpos i hm).2
  -- target and centering parameter
  have key : r.options.sigma = r'.options.sigma ∧ ∀ i, i < pb.m → tgt i = tgt' i := by
    by_cases hc : qp.options.sigma ≤ pb.sigma_d
    · obtain ⟨k1, k2⟩ := hA hc
      obtain ⟨k1', k2'⟩ := hA' (by rw [← hsame.options]; exact hc)
      exact ⟨by rw [k1, k1'], fun i hm => by rw [k2 i hm, k2' i hm]⟩
    · push Not at hc
      obtain ⟨px, py, pz, ps, ap, ad, l1, l2, l3, l4, l5⟩ := hB hc
      obtain ⟨px', py', pz', ps', ap', ad', l1', l2', l3', l4', l5'⟩ :=
        hB' (by rw [← hsame.options]; exact hc)
      obtain ⟨_, _, u3, u4⟩ := l1.unique h.wf hzp hinj he he' (fun _ _ => rfl) l1'
      have eap := l2.unique l2' u4
      have ead := l3.unique l3' u3
      have es : r.options.sigma = r'.options.sigma := by
        rw [l4, l4', eap, ead]
        have : dot pb.m (fun i => s i + ap' * ps i) (fun i => z i + ad' * pz i)
            = dot pb.m (fun i => s i + ap' * ps' i) (fun i => z i + ad' * pz' i) := by
          unfold dot
          refine sum_congr rfl fun i hm => ?_
          simp only
          rw [u3 i (mem_range.mp hm), u4 i (mem_range.mp hm)]
        rw [this]
      exact ⟨es, fun i hm => by rw [l5 i hm, l5' i hm, es, u3 i hm, u4 i hm]⟩
  obtain ⟨es, et⟩ := key
  obtain ⟨u1, u2, u3, u4⟩ := hlin.unique h.wf hzp hinj he he' et hlin'
  -- step lengths
  obtain ⟨_, _, _, _, gx, gy, gz, gs, ap, ad, j1, j2, j3, j4, f1, f2, f3, f4, hn⟩ :=
    C17_steps h hr hb hi
  obtain ⟨_, _, _, _, gx', gy', gz', gs', ap', ad', j1', j2', j3', j4', f1', f2', f3', f4', hn'⟩ :=
    C17_steps h' hr' hb' hi'
  have w1 : ∀ i, i < pb.n → gx i = gx' i := fun i hm => by
    rw [j1.unique d1 hm, j1'.unique d1' hm, u1 i hm]
  have w2 : ∀ i, i < pb.p → gy i = gy' i := fun i hm => by
    rw [j2.unique d2 hm, j2'.unique d2' hm, u2 i hm]
  have w3 : ∀ i, i < pb.m → gz i = gz' i := fun i hm => by
    rw [j3.unique d3 hm, j3'.unique d3' hm, u3 i hm]
  have w4 : ∀ i, i < pb.m → gs i = gs' i := fun i hm => by
    rw [j4.unique d4 hm, j4'.unique d4' hm, u4 i hm]
  have ea : r.stats.alpha_p = r'.stats.alpha_p := by rw [f3, f3', f1.unique f1' w4]
  have eb : r.stats.alpha_d = r'.stats.alpha_d := by rw [f4, f4', f2.unique f2' w3]
  refine ⟨?_, ⟨_, _, _, _, hn, hn'.congr ?_ ?_ ?_ ?_⟩, ?_⟩
  · rw [hopt] at es
    rw [hopt'] at es
    rw [hopt, hopt', hsame.options]
    simp only at es
    rw [hsame.options] at es
    rw [es]
  · intro i hm; rw [w1 i hm, ea]
  · intro i hm; rw [w2 i hm, eb]
  · intro i hm; rw [w3 i hm, eb]
  · intro i hm; rw [w4 i hm, ea]
  · have e1 := hsame.stats
    rw [hstat, hstat'] at ea eb
    simp only at ea eb
    rw [hstat, hstat', ea, eb]
    simp only [evalStats, Stats.mk.injEq, and_true, true_and] at e1 ⊢
    obtain ⟨c1, c2, c3, c4, c5, c6, c7, c8, c9⟩ := e1
    rw [c1, c3, c9]
    simp

end

/-- Two setups of the same problem with exact factorisations produce the same starting point. -/
theorem start_same {amd amd' : Amd} {a a' : SetupArgs K} {pb : Problem K} {q0 q0' : QP K}
    (h : Started amd a pb q0) (h' : Started amd' a' pb q0') (hsym : pb.P.Symm)
    (hex : q0.kkt.Exact pb.N) (hex' : q0'.kkt.Exact pb.N) : SameResult pb q0 q0' := by
  have hpb := h.wf
  obtain ⟨p, q, hd⟩ := h.done
  obtain ⟨p', q', hd'⟩ := h'.done
  obtain ⟨t, hfac, _, hit⟩ := hd.iter
  obtain ⟨t', hfac', _, hit'⟩ := hd'.iter
  have hinj := kkt_injective hpb hsym hd.kkt hfac hex
  obtain ⟨e, w, _, he, r1, r2, r3, lo, hi, m1, m2, m3, m4⟩ := C53_starting_point h hsym hit
  obtain ⟨e', w', _, he', r1', r2', r3', lo', hi', m1', m2', m3', m4'⟩ :=
    C53_starting_point h' hsym hit'
  have he := he hex
  have he' := he' hex'
  set x := sol0 pb p q t
  set x' := sol0 pb p' q' t'
  have eN : pb.N = pb.n + pb.p + pb.m := rfl
  set v : Nat → K := fun c => if c < pb.n + pb.p then x c - x' c
    else w (c - pb.n - pb.p) - w' (c - pb.n - pb.p) with hv
  have vx : ∀ c, c < pb.n + pb.p → v c = x c - x' c := fun c hc => by rw [hv]; simp only [if_pos hc]
  have vz : ∀ c, v (pb.n + pb.p + c) = w c - w' c := by
    intro c
    rw [hv]
    simp only [if_neg (by omega : ¬ pb.n + pb.p + c < pb.n + pb.p),
      show pb.n + pb.p + c - pb.n - pb.p = c by omega]
  have mv : ∀ B : Csc K, B.n = pb.n → ∀ i, B.mulVec v i = B.mulVec x i - B.mulVec x' i := by
    intro B hB i
    unfold Csc.mulVec
    rw [hB, ← sum_sub_distrib]
    exact sum_congr rfl fun c hc => by
      rw [vx c (by have := mem_range.mp hc; omega)]; ring
  have tA : ∀ i, pb.A.tmulVec (fun k => v (pb.n + k)) i
      = pb.A.tmulVec (fun k => x (pb.n + k)) i - pb.A.tmulVec (fun k => x' (pb.n + k)) i := by
    intro i
    unfold Csc.tmulVec
    rw [← sum_sub_distrib]
    refine sum_congr rfl fun c hc => ?_
    have : c < pb.p := mem_range.mp hc
    simp only
    rw [vx (pb.n + c) (by omega)]; ring
  have tG : ∀ i, pb.G.tmulVec (fun k => v (pb.n + pb.p + k)) i
      = pb.G.tmulVec w i - pb.G.tmulVec w' i := by
    intro i
    unfold Csc.tmulVec
    rw [← sum_sub_distrib]
    refine sum_congr rfl fun c hc => ?_
    simp only
    rw [vz c]; ring
  obtain ⟨b1, b2, b3⟩ := kkt_rows hpb (fun _ => Scalar.dec (-1) 0) v
  have hv0 := hinj v (by
    intro r hr
    by_cases h1 : r < pb.n
    · rw [b1 r h1, mv _ rfl, tA, tG]
      have e1 := r1 r h1
      have e2 := r1' r h1
      rw [he r hr] at e1
      rw [he' r hr] at e2
      linear_combination e1 - e2
    · by_cases h2 : r < pb.n + pb.p
      · obtain ⟨i, rfl⟩ : ∃ i, r = pb.n + i := ⟨r - pb.n, by omega⟩
        rw [b2 i (by omega), mv _ hpb.An]
        have e1 := r2 i (by omega)
        have e2 := r2' i (by omega)
        rw [he _ hr] at e1
        rw [he' _ hr] at e2
        linear_combination e1 - e2
      · obtain ⟨i, rfl⟩ : ∃ i, r = pb.n + pb.p + i := ⟨r - pb.n - pb.p, by omega⟩
        have hi : i < pb.m := by omega
        rw [b3 i hi, mv _ hpb.Gn, vz, dec_neg_one]
        have e1 := r3 i hi
        have e2 := r3' i hi
        rw [he _ hr] at e1
        rw [he' _ hr] at e2
        linear_combination e1 - e2)
  have ex : ∀ c, c < pb.n + pb.p → x c = x' c := fun c hc => by
    have := hv0 c (by omega)
    rw [vx c hc] at this
    exact sub_eq_zero.mp this
  have eG : ∀ i, pb.G.mulVec x i = pb.G.mulVec x' i := by
    intro i
    unfold Csc.mulVec
    rw [hpb.Gn]
    refine sum_congr rfl fun c hc => ?_
    have : c < pb.n := mem_range.mp hc
    rw [ex c (by omega)]
  have elo : lo = lo' := m1.unique (by simp only [eG]; exact m1')
  have ehi : hi = hi' := m2.unique (by simp only [eG]; exact m2')
  refine ⟨by rw [hd.options, hd'.options], ⟨_, _, _, _, hit, hit'.congr ?_ ?_ ?_ ?_⟩, ?_⟩
  · exact fun i hm => (ex i (by omega)).symm
  · exact fun i hm => (ex (pb.n + i) (by omega)).symm
  · intro i hm
    rw [m4 i hm, m4' i hm, ehi, eG]
  · intro i hm
    rw [m3 i hm, m3' i hm, elo, eG]
  · obtain ⟨re, h1⟩ := hd.stats
    obtain ⟨re', h1'⟩ := hd'.stats
    rw [h1, h1']

section

variable [LawfulSqrt K]

/-- Whether an iteration stops depends only on the common part. -/
theorem brk_same {amd amd' : Amd} {a a' : SetupArgs K} {pb : Problem K}
    {q0 q0' qp qp' r r' : QP K} {b b' : Bool}
    (h : Started amd a pb q0) (h' : Started amd' a' pb q0') (hr : Reach q0 qp)
    (hr' : Reach q0' qp') (hsame : SameResult pb qp qp') (hb : solveBody qp = .ok (r, b))
    (hb' : solveBody qp' = .ok (r', b')) : b = b' ∧ (b = true → SameResult pb r r') := by
  obtain ⟨x, y, z, s, hi, hi'⟩ := hsame.iter
  obtain ⟨p, q, hs, _⟩ := h.sinv hr
  obtain ⟨p', q', hs', _⟩ := h'.sinv hr'
  have hbo := hs.bodyOut h.wf hb hi
  have hbo' := hs'.bodyOut h.wf hb' hi'
  have e : b = b' := by
    have h1 := hbo.brk
    have h2 := hbo'.brk
    simp only at h1 h2
    rw [h1, h2, hsame.options]
  refine ⟨e, fun ht => ?_⟩
  obtain ⟨g1, _, g3, g4, _⟩ := hbo.stop ht
  obtain ⟨g1', _, g3', g4', _⟩ := hbo'.stop (e ▸ ht)
  simp only at g1 g1' g3 g3' g4 g4'
  refine ⟨by rw [g3, g3', hsame.options], ⟨x, y, z, s, g1, g1'⟩, ?_⟩
  have e1 := hsame.stats
  rw [g4, g4']
  simp only [evalStats, Stats.mk.injEq, and_true, true_and] at e1 ⊢
  obtain ⟨c1, c2, c3, c4, c5, c6, c7, c8, c9⟩ := e1
  rw [c1, c3, c6, c7]
  simp

/-- The runs stay together for as long as the factorisations are exact. -/
theorem iterations_same {amd amd' : Amd} {a a' : SetupArgs K} {pb : Problem K}
    {q0 q0' qp qp' : QP K} (h : Started amd a pb q0) (h' : Started amd' a' pb q0')
    (hsym : pb.P.Symm) (hr : Reach q0 qp) (hr' : Reach q0' qp') (hsame : SameResult pb qp qp')
    (hex : ∀ (k : Nat) qk qk' r r', (k : Int) < qp.options.maxit → Iterations k qp qk →
      Iterations k qp' qk' → SameResult pb qk qk' → solveBody qk = .ok (r, false) → solveBody qk' = .ok (r', false) →
      r.kkt.Exact pb.N ∧ r'.kkt.Exact pb.N) :
    ∀ k qk qk', k ≤ qp.options.maxit.toNat → Iterations k qp qk → Iterations k qp' qk' →
      SameResult pb qk qk' := by
  intro k
  induction k with
  | zero => intro qk qk' _ h1 h2; cases h1; cases h2; exact hsame
  | succ k ih =>
    intro qk qk' hk h1 h2
    obtain _ | ⟨g1, g2⟩ := h1
    obtain _ | ⟨g1', g2'⟩ := h2
    have hk := ih _ _ (by omega) g1 g1'
    obtain ⟨e1, e2⟩ := hex k _ _ _ _ (by omega) g1 g1' hk g2 g2'
    exact step_same h h' hsym (hr.iterations g1) (hr'.iterations g1') hk g2 g2' e1 e2

/-- A prefix of a run. -/
theorem Iterations.prefix {k : Nat} {a b : QP K} (h : Iterations k a b) :
    ∀ j, j < k → ∃ c d, Iterations j a c ∧ solveBody c = .ok (d, false) := by
  induction h with
  | zero => intro j hj; omega
  | succ h hb ih =>
    intro j hj
    rcases Nat.lt_succ_iff_lt_or_eq.mp hj with hj | rfl
    · exact ih j hj
    · exact ⟨_, _, h, hb⟩

/-- Two solves from equal states whose factorisations are exact give the same result. -/
theorem solve_same {amd amd' : Amd} {a a' : SetupArgs K} {pb : Problem K}
    {q0 q0' qp qp' q1 q1' : QP K} {f f' : Int} (h : Started amd a pb q0)
    (h' : Started amd' a' pb q0') (hsym : pb.P.Symm) (hr : Reach q0 qp) (hr' : Reach q0' qp')
    (hsame : SameResult pb qp qp') (hs : QP_SOLVE qp = .ok (f, q1))
    (hs' : QP_SOLVE qp' = .ok (f', q1'))
    (hex : ∀ (k : Nat) qk qk' r r', (k : Int) < qp.options.maxit → Iterations k qp qk →
      Iterations k qp' qk' → SameResult pb qk qk' → solveBody qk = .ok (r, false) → solveBody qk' = .ok (r', false) →
      r.kkt.Exact pb.N ∧ r'.kkt.Exact pb.N) : f = f' ∧ SameResult pb q1 q1' := by
  obtain ⟨p, q, hi, _⟩ := h.sinv hr
  obtain ⟨p', q', hi', _⟩ := h'.sinv hr'
  obtain ⟨k, qk, hk⟩ := QP_SOLVE_inv h.wf hi hs
  obtain ⟨k', qk', hk'⟩ := QP_SOLVE_inv h.wf hi' hs'
  have all := iterations_same h h' hsym hr hr' hsame hex
  obtain ⟨r, h5, h6⟩ := hk.stop
  obtain ⟨r', h5', h6'⟩ := hk'.stop
  have emax : qp.options.maxit = qp'.options.maxit := by rw [hsame.options]
  -- the two runs have the same length
  have no : ∀ {amd amd' : Amd} {a a' : SetupArgs K} {q0 q0' qp qp' : QP K} {j k : Nat}
      {qj qk r : QP K}, Started amd a pb q0 → Started amd' a' pb q0' → Reach q0 qp → Reach q0' qp' →
      Iterations j qp qj → Iterations k qp' qk → solveBody qj = .ok (r, true) →
      (∀ qk qk', Iterations j qp qk → Iterations j qp' qk' → SameResult pb qk qk') → ¬ j < k := by
    intro amd amd' a a' q0 q0' qp qp' j k qj qk r h h' hr hr' i1 i2 hb all hlt
    obtain ⟨c, d, g1, g2⟩ := i2.prefix j hlt
    have := (brk_same h h' (hr.iterations i1) (hr'.iterations g1) (all _ _ i1 g1) hb g2).1
    cases this
  have all' : ∀ k qk qk', k ≤ qp.options.maxit.toNat → Iterations k qp' qk → Iterations k qp qk' →
      SameResult pb qk qk' :=
    fun k qk qk' hk i1 i2 => by
      have := all k qk' qk hk i2 i1
      obtain ⟨x, y, z, s, w1, w2⟩ := this.iter
      exact ⟨this.options.symm, ⟨x, y, z, s, w2, w1⟩, this.stats.symm⟩
  have hkk : k = k' := by
    rcases h5 with ⟨c1, c2⟩ | ⟨c1, c2⟩ <;> rcases h5' with ⟨c1', c2'⟩ | ⟨c1', c2'⟩
    · have n1 := no h h' hr hr' hk.its hk'.its c2 (fun _ _ => all _ _ _ (by omega))
      have n2 := no h' h hr' hr hk'.its hk.its c2' (fun _ _ => all' _ _ _ (by omega))
      omega
    · have n1 := no h h' hr hr' hk.its hk'.its c2 (fun _ _ => all _ _ _ (by omega))
      rw [← emax] at c1'
      omega
    · have n2 := no h' h hr' hr hk'.its hk.its c2' (fun _ _ => all' _ _ _ (by omega))
      rw [← emax] at c1'
      omega
    · rw [c1, c1', emax]
  subst hkk
  have hle : k ≤ qp.options.maxit.toNat := by rcases h5 with ⟨c1, _⟩ | ⟨c1, _⟩ <;> omega
  have hk0 := all k _ _ hle hk.its hk'.its
  have key : SameResult pb r r' := by
    rcases h5 with ⟨c1, c2⟩ | ⟨c1, c2⟩ <;> rcases h5' with ⟨c1', c2'⟩ | ⟨c1', c2'⟩
    · exact (brk_same h h' (hr.iterations hk.its) (hr'.iterations hk'.its) hk0 c2 c2').2 rfl
    · rw [← emax] at c1'; omega
    · rw [← emax] at c1'; omega
    · rw [c2, c2']; exact hk0
  have ec := key.stats
  simp only [Stats.mk.injEq, and_true] at ec
  have e1 : q1.stats.Flag = q1'.stats.Flag ∧ SameResult pb q1 q1' := by
    rw [h6, h6', key.options]
    rw [ec.1]
    split
    · obtain ⟨x, y, z, s, w1, w2⟩ := key.iter
      refine ⟨rfl, rfl, ⟨x, y, z, s, ⟨w1.x, w1.y, w1.z, w1.s⟩, ⟨w2.x, w2.y, w2.z, w2.s⟩⟩, ?_⟩
      obtain ⟨c1, c2, c3, c4, c5, c6, c7, c8, c9⟩ := ec
      simp only [Stats.mk.injEq]
      exact ⟨c1, c2, c3, c4, c5, c6, c7, c8, trivial, trivial, trivial⟩
    · exact ⟨ec.2.2.2.2.2.2.2.2, key⟩
  exact ⟨by rw [hk.ret, hk'.ret]; exact e1.1, e1.2⟩

/-- **C57**: two runs on the same problem (`P` symmetric) with the same options and any two
orderings, in which every factorisation is exact, give the same exit code, the same iterate and the
same statistics. -/
theorem C57_ordering_independent {amd amd' : Amd} {a a' : SetupArgs K} {pb : Problem K}
    {q0 q0' q1 q1' : QP K} {f f' : Int} (h : Started amd a pb q0) (h' : Started amd' a' pb q0')
    (hsym : pb.P.Symm) (o : Settings K)
    (hs : QP_SOLVE { q0 with options := o } = .ok (f, q1))
    (hs' : QP_SOLVE { q0' with options := o } = .ok (f', q1'))
    (hex0 : q0.kkt.Exact pb.N) (hex0' : q0'.kkt.Exact pb.N)
    (hex : ∀ (k : Nat) qk, (k : Int) < o.maxit → Iterations (k + 1) { q0 with options := o } qk →
      qk.kkt.Exact pb.N)
    (hex' : ∀ (k : Nat) qk, (k : Int) < o.maxit → Iterations (k + 1) { q0' with options := o } qk →
      qk.kkt.Exact pb.N) :
    f = f' ∧ SameResult pb q1 q1' := by
  have h0 := start_same h h' hsym hex0 hex0'
  obtain ⟨x, y, z, s, w1, w2⟩ := h0.iter
  refine solve_same h h' hsym (.options o .start) (.options o .start)
    ⟨rfl, ⟨x, y, z, s, ⟨w1.x, w1.y, w1.z, w1.s⟩, ⟨w2.x, w2.y, w2.z, w2.s⟩⟩, h0.stats⟩ hs hs' ?_
  intro k qk qk' r r' hk i1 i2 _ b1 b2
  exact ⟨hex k r hk (i1.succ b1), hex' k r' hk (i2.succ b2)⟩

/-- **C57** for strongly convex problems without equality constraints: it is enough that the first
run visits only points whose ratios of slack to multiplier exceed `1e-14`. -/
theorem C57_strongly_convex {amd amd' : Amd} {a a' : SetupArgs K} {pb : Problem K}
    {q0 q0' q1 q1' : QP K} {f f' : Int} (h : Started amd a pb q0) (h' : Started amd' a' pb q0')
    (hsym : pb.P.Symm) {eps : K} (heps : 1 / 10 ^ 14 < eps) (hP : pb.Strong eps) (hp0 : pb.p = 0)
    (o : Settings K) (hs : QP_SOLVE { q0 with options := o } = .ok (f, q1))
    (hs' : QP_SOLVE { q0' with options := o } = .ok (f', q1'))
    (hsz : ∀ (k : Nat) qk x y z s, (k : Int) < o.maxit → Iterations k { q0 with options := o } qk →
      qk.Iter pb x y z s → ∀ i, i < pb.m → 1 / 10 ^ 14 < s i / z i) :
    f = f' ∧ SameResult pb q1 q1' := by
  have h0 := start_same h h' hsym (C55_exact_setup h hsym heps hP hp0)
    (C55_exact_setup h' hsym heps hP hp0)
  obtain ⟨x, y, z, s, w1, w2⟩ := h0.iter
  refine solve_same h h' hsym (.options o .start) (.options o .start)
    ⟨rfl, ⟨x, y, z, s, ⟨w1.x, w1.y, w1.z, w1.s⟩, ⟨w2.x, w2.y, w2.z, w2.s⟩⟩, h0.stats⟩ hs hs' ?_
  intro k qk qk' r r' hk i1 i2 hsame b1 b2
  obtain ⟨x, y, z, s, w1, w2⟩ := hsame.iter
  have hr := hsz k qk x y z s hk i1 w1
  have r1 : Reach q0 { q0 with options := o } := .options o .start
  have r2 : Reach q0' { q0' with options := o } := .options o .start
  exact ⟨C55_exact_step h hsym heps hP hp0 (r1.iterations i1) b1 w1 hr,
    C55_exact_step h' hsym heps hP hp0 (r2.iterations i2) b2 w2 hr⟩

end

end

/-- C57 for the one-variable program with the natural ordering and with the reversed one: the
results of one iteration agree. -/
example : ∃ (q0 q0' q1 q1' : QP ℝ) (f f' : Int) (o : Settings ℝ),
    Started failAmd (tinyArgs ℝ) (tinyPb ℝ) q0 ∧
    QP_SETUP failAmd ((tinyPb ℝ).args (some (Buf.ofFn 2 (fun i => 1 - (i : Int))))) = .ok q0' ∧
    o.maxit = 1 ∧ QP_SOLVE { q0 with options := o } = .ok (f, q1) ∧
    QP_SOLVE { q0' with options := o } = .ok (f', q1') ∧ f = f' ∧ SameResult (tinyPb ℝ) q1 q1' := by
  have hg : ((tinyPb ℝ).args (some (Buf.ofFn 2 (fun i => 1 - (i : Int))))).Give (tinyPb ℝ) :=
    Problem.args_give _ _ (fun _ => rfl)
  have hpp : PermPair 2 (fun i => 1 - i) (fun i => 1 - i) :=
    ⟨fun i hi => by omega, fun i hi => by omega,
      fun i hi => by omega, fun i hi => by omega⟩
  have hs : PermSource failAmd (some (Buf.ofFn 2 (fun i => 1 - (i : Int))))
      ((tinyPb ℝ).args (some (Buf.ofFn 2 (fun i => 1 - (i : Int))))).p (tinyPb ℝ) :=
    Or.inl ⟨_, _, _, rfl, hpp, (Buf.has_ofFn _ _).congr fun i hi => by
      have : i < 2 := hi
      omega⟩
  obtain ⟨q0, h⟩ := tiny_started ℝ
  obtain ⟨q0', h0⟩ := C26_setup tinyPb_wf hg hs
  have h' : Started failAmd _ (tinyPb ℝ) q0' := ⟨tinyPb_wf, hg, hs, h0⟩
  obtain ⟨o, ho, hv⟩ : ∃ o : Settings ℝ, o.maxit = 1 ∧ o.verbose ≤ 0 :=
    ⟨{ q0.options with maxit := 1, verbose := 0 }, rfl, le_rfl⟩
  obtain ⟨_, f, q1, hq⟩ := C26_solve h (.options o .start) (Or.inl hv)
  obtain ⟨_, f', q1', hq'⟩ := C26_solve h' (.options o .start) (Or.inl hv)
  obtain ⟨e1, e2⟩ := C57_strongly_convex h h' tiny_symm one_gt_small tinyPb_strong rfl o hq hq' (by
    intro k qk x y z s hk hik hit i hi
    have hk : k = 0 := by omega
    subst hk
    cases hik
    have hi : i < 1 := hi
    obtain ⟨_, z0, s0⟩ := tiny_start h (x := x) (y := y) (z := z) (s := s)
      ⟨hit.x, hit.y, hit.z, hit.s⟩
    have : i = 0 := by omega
    subst this
    rw [z0, s0]
    norm_num)
  exact ⟨q0, q0', q1, q1', f, f', o, h, h0, ho, hq, hq', e1, e2⟩

end Verif
