import Verif.Lemmas.AmdInv

/-!
# Second half of an iteration of `AMD_2`
-/

namespace Verif

open Finset

variable {n iwlen me pme1 degme nvpiv elenme : Int} {M : List Int} {S T0 V K Z : Finset Int}
    {E A L : Int → List Int} {rep : Int → Int} {rk : Int → Nat} {s : Amd2}

theorem Mem.insert {iw vp : Int → Int} {C : Int → List Int} {O : Finset Int} {top x : Int}
    (h : Mem iw vp C O top) (hne : C x ≠ []) (hlo : 0 ≤ vp x) (hhi : vp x + (C x).length ≤ top)
    (hb : Blk iw (vp x) (C x))
    (hd : ∀ y ∈ O, vp y + (C y).length ≤ vp x ∨ vp x + (C x).length ≤ vp y) :
    Mem iw vp C (insert x O) top where
  ne := fun y hy => by
    rcases Finset.mem_insert.mp hy with rfl | hy
    exacts [hne, h.ne y hy]
  lo := fun y hy => by
    rcases Finset.mem_insert.mp hy with rfl | hy
    exacts [hlo, h.lo y hy]
  hi := fun y hy => by
    rcases Finset.mem_insert.mp hy with rfl | hy
    exacts [hhi, h.hi y hy]
  blk := fun y hy => by
    rcases Finset.mem_insert.mp hy with rfl | hy
    exacts [hb, h.blk y hy]
  disj := fun y hy z hz hyz => by
    rcases Finset.mem_insert.mp hy with rfl | hy'
    · rcases Finset.mem_insert.mp hz with rfl | hz
      · exact absurd rfl hyz
      · exact (hd z hz).symm
    · rcases Finset.mem_insert.mp hz with rfl | hz
      · exact hd y hy'
      · exact h.disj y hy' z hz hyz

theorem Mid.detCtx (h : Mid n iwlen me pme1 degme nvpiv elenme M S T0 V K Z E A L rep rk s) :
    DetCtx n iwlen me S T0 (fun x => (E x).tail ++ A x) s := by
  have hTV : ∀ x ∈ T0, x ∈ V := fun x hx => (h.VST x).mpr (Or.inr hx)
  have hTO : ∀ x ∈ T0, x ∈ V ∪ K.erase me := fun x hx => Finset.mem_union_left _ (hTV x hx)
  have hl : ∀ x ∈ T0, lst V E A L x = me :: ((E x).tail ++ A x) := by
    intro x hx
    obtain ⟨t, ht⟩ := h.Eme x hx
    unfold lst
    rw [if_pos (hTV x hx), ht]
    rfl
  have hmer := h.g.Kr me h.meK
  refine ⟨by omega, fun x hx => h.g.Vr x (hTV x hx), h.aI, h.aL, ?_, ?_, ?_, ?_, ?_, ?_, h.ST⟩
  · intro x hx
    have := h.mem.blk x (hTO x hx)
    rw [hl x hx] at this
    exact this
  · exact fun x hx => h.mem.lo x (hTO x hx)
  · intro x hx
    have := h.mem.hi x (hTO x hx)
    rw [hl x hx] at this
    simp only [List.length_cons] at this
    push_cast at this
    omega
  · intro x hx
    rw [h.len x (hTO x hx), hl x hx]
    simp
  · intro x hx
    have := h.g.nodup x (hTV x hx)
    obtain ⟨t, ht⟩ := h.Eme x hx
    rw [ht] at this
    simp only [ht, List.tail_cons]
    exact (List.nodup_cons.mp this).2
  · intro x hx y hy
    have key : y ∈ V ∪ K := by
      rcases List.mem_append.mp hy with h' | h'
      · exact Finset.mem_union_right _ (h.g.elt x (hTV x hx) y (List.mem_of_mem_tail h')).1
      · exact Finset.mem_union_left _ ((h.VST y).mpr (Or.inl (h.AS x hx y h')))
    have hr : 0 ≤ y ∧ y < n := by
      rcases Finset.mem_union.mp key with h' | h'
      · exact h.g.Vr y h'
      · exact h.g.Kr y h'
    exact ⟨hr.1, hr.2, h.wne y key⟩

theorem cnt_sum_le (hn : 0 ≤ n) (F : Finset Int) : ∑ x ∈ F, cnt n rep x ≤ n := by
  rw [cnt_sum]
  have := Finset.card_le_card (Finset.filter_subset (fun z => rep z ∈ F) (Finset.Ico 0 n))
  rw [Int.card_Ico] at this
  omega

theorem Mid.sumOk (h : Mid n iwlen me pme1 degme nvpiv elenme M S T0 V K Z E A L rep rk s) :
    SumOk n T0 (DetI n iwlen me nvpiv S T0 V K Z E A L rep s) := by
  rintro live nv pe el i j hl ⟨rep', rk', t, hj, hnv, hnvp, hdg, hwl, hsum, hoff, hel, -, -, -⟩ hi hjl hij
  have hn := h.detCtx.pos
  have hT : ∀ x ∈ T0, (0 ≤ x ∧ x < n) ∧ x ≠ me := by
    intro x hx
    have hV := (h.VST x).mpr (Or.inr hx)
    exact ⟨h.g.Vr x hV, fun e => h.g.VK x hV (e ▸ h.meK)⟩
  obtain ⟨⟨i0, i1⟩, im⟩ := hT i (hl hi)
  obtain ⟨⟨j0, j1⟩, jm⟩ := hT j (hl hjl)
  rw [hnv i i0 i1 im, hnv j j0 j1 jm, if_pos hi, if_pos hjl]
  have h2 := cnt_sum_le (rep := rep') (by omega : 0 ≤ n) {i, j}
  rw [Finset.sum_pair hij] at h2
  omega

set_option maxHeartbeats 1000000 in
theorem iterTail_spec (hBig : 0 ≤ n ∧ 0 ≤ iwlen ∧ 3 * (n + iwlen) + 10 ≤ Int_MAX)
    (h : Mid n iwlen me pme1 degme nvpiv elenme M S T0 V K Z E A L rep rk s) :
    Spec (do
      let s ← forI pme1 (pme1 + M.length) s (amd2Detect n)
      let nleft ← ck (n - s.nel)
      let r ← forI pme1 (pme1 + M.length) (pme1, s) (amd2Restore nleft degme)
      let s ← amd2Finish me nvpiv pme1 elenme r.1 r.2
      pure (degme, nvpiv, s)) (fun r => r.1 = degme ∧ r.2.1 = nvpiv ∧ ∃ V' K' Z' L' rep' rk',
        AInv n iwlen V' K' Z' E A L' rep' rk' r.2.2 ∧ r.2.2.nel = s.nel ∧
        (∀ x, Elim n V' Z' x ↔ Elim n V Z x) ∧ (∀ x, x ∉ T0 → ∀ z, rep' z = x ↔ rep z = x) ∧
        (∀ adj C, QSem n adj V K Z A L rep s.Pe.at C → QSem n adj V' K' Z' A L' rep' r.2.2.Pe.at C)) := by
  have hc := h.detCtx
  have hn := hc.pos
  have hmer := h.g.Kr me h.meK
  have hTV : ∀ x ∈ T0, x ∈ V := fun x hx => (h.VST x).mpr (Or.inr hx)
  have hMr : ∀ i ∈ M, 0 ≤ i ∧ i < n := by
    intro i hi
    rcases h.MT i hi with h' | h'
    · exact h.g.Vr i (hTV i h')
    · exact h.g.Zr i h'
  have hMme : ∀ i ∈ M, i ≠ me := by
    rintro i hi rfl
    rcases h.MT i hi with h' | h'
    · exact h.g.VK i (hTV i h') h.meK
    · exact h.g.KZ i h.meK h'
  obtain ⟨bh, D, B, hD, hB⟩ := h.lists
  have hSTV : S ∪ T0 = V := by ext x; rw [Finset.mem_union, h.VST]
  have h0 : Det n S T0 s (DetI n iwlen me nvpiv S T0 V K Z E A L rep s) T0 T0 s := by
    refine ⟨h.aP, h.aNv, h.aE, h.aN, h.aT, h.aH, h.aW, rfl, rfl, rfl, rfl, rfl, rfl, rfl, Finset.Subset.refl _,
      Finset.Subset.refl _, ?_, fun x hx hx' => absurd hx hx', fun _ _ => rfl, fun _ _ => rfl, fun _ _ => rfl,
      ?_, h.wpos, fun _ _ _ => Iff.rfl, ?_, bh, D, B, hD, hB⟩
    · intro x hx
      have hr := h.g.Vr x (hTV x hx)
      rw [h.nv x hr.1 hr.2 (hMme x (h.TM x hx)), if_pos hx]
      have := h.t.cntP hr.1 hr.2 (h.g.VZ x (hTV x hx))
      omega
    · refine ⟨rep, rk, ?_, ?_, h.nv, h.nvp, ?_, ?_, ?_, fun _ _ => ⟨rfl, rfl⟩,
        fun x hx hx' => absurd hx hx', fun _ _ _ => Iff.rfl, ?_, fun x _ => by rw [hSTV]⟩
      · rw [hSTV, Finset.sdiff_self, Finset.union_empty]; exact h.t
      · rw [hSTV]; exact h.j
      · rw [hSTV]; exact fun e he => (h.dg e he).1
      · rw [hSTV]; exact h.wl
      · rw [hSTV]
      · rw [hSTV, Finset.sdiff_self, Finset.union_empty]; exact fun _ _ h' => h'
    · exact fun x hx => ⟨(hB.rng x hx).2.2.1, (hB.rng x hx).2.2.2⟩
  refine Spec.bind (detect_spec hBig hc h.mergeOk h.sumOk h.p0 h.pf h.blk hMr ?_ h.TM h0 h.w ?_) ?_
  rotate_left
  · have h1 := h.wtop
    have h2 : T0.card ≤ (Finset.Ico 0 n).card := Finset.card_le_card fun x hx =>
      Finset.mem_Ico.mpr (h.g.Vr x (hTV x hx))
    rw [Int.card_Ico] at h2
    omega
  rotate_left
  · intro i hi
    rcases h.MT i hi with h' | h'
    · exact Or.inl h'
    · right
      have hr := hMr i hi
      rw [h.nv i hr.1 hr.2 (hMme i hi), h.t.cntZ h' hr.1]
      simp
  rintro s1 ⟨live, d, hw1, -, D1, hD1⟩
  obtain ⟨rep1, rk1, t1, j1, nv1, nvp1, dg1, wl1, sum1, off1, el1, cn1, sem1, ext1⟩ := d.inv
  have g1 := h.merged d.sub
  have hlV : ∀ x ∈ live, x ∈ S ∪ live := fun x hx => Finset.mem_union_right _ hx
  have hSl : ∀ x ∈ S, x ∉ live := fun x hx h' => h.ST x hx (d.sub h')
  have hlM : ∀ x ∈ live, x ∈ M := fun x hx => h.TM x (d.sub hx)
  have hmeT : me ∉ T0 := fun h' => h.g.VK me (hTV me h') h.meK
  have hmel : me ∉ live := fun h' => hmeT (d.sub h')
  have hmeS : me ∉ S := fun h' => h.g.VK me ((h.VST me).mpr (Or.inl h')) h.meK
  have hsnel : n - s1.nel = ∑ x ∈ S ∪ live, cnt n rep1 x := by
    rw [d.nel, sum1]
    have := h.nel
    omega
  have hneg : ∀ i ∈ M, i ∈ live → s1.Nv.at i < 0 ∧ 0 ≤ s1.Degree.at i ∧ s1.Degree.at i ≤ n ∧ -(s1.Nv.at i) ≤ degme ∧
      -(s1.Nv.at i) ≤ n - s1.nel := by
    intro i hi hil
    have hr := hMr i hi
    have hcn : s1.Nv.at i = -(cnt n rep1 i) := by
      rw [nv1 i hr.1 hr.2 (hMme i hi), if_pos hil]
    refine ⟨d.neg i hil, by rw [d.degree]; exact (h.dgT i (d.sub hil)).1,
      by rw [d.degree]; exact (h.dgT i (d.sub hil)).2, ?_, ?_⟩
    · have h1 := dg1 me h.meK
      rw [h.degme] at h1
      have : cnt n rep1 i ≤ ∑ i ∈ (S ∪ live).filter (fun i => i ∈ L me), cnt n rep1 i :=
        Finset.single_le_sum (fun _ _ => cnt_nonneg _)
          (Finset.mem_filter.mpr ⟨hlV i hil, by rw [h.Lme]; exact hi⟩)
      omega
    · rw [hsnel]
      have : cnt n rep1 i ≤ ∑ i ∈ S ∪ live, cnt n rep1 i :=
        Finset.single_le_sum (fun _ _ => cnt_nonneg _) (hlV i hil)
      omega
  have hzero : ∀ i ∈ M, i ∉ live → s1.Nv.at i = 0 := by
    intro i hi hil
    have hr := hMr i hi
    rcases h.MT i hi with h' | h'
    · exact d.zero i h' hil
    · rw [nv1 i hr.1 hr.2 (hMme i hi), if_neg hil]
      exact t1.cntZ (Finset.mem_union_left _ h') hr.1
  have hnn : n - s1.nel ≤ n := by
    have hmp := t1.cntP hmer.1 hmer.2 (g1.KZ me h.meK)
    have hcard := cnt_sum_le (rep := rep1) hBig.1 (S ∪ live)
    omega
  have aI1 : Arr s1.Iw iwlen s1.pfree := by rw [d.iw, d.pfree]; exact h.aI
  have aD1 : Arr s1.Degree n n := by rw [d.degree]; exact h.aD
  have aL1 : Arr s1.Len n n := by rw [d.len]; exact h.aL
  have hnel0 : 0 ≤ s1.nel := by rw [d.nel]; exact h.nel0
  have hdm : degme ≤ n := by
    have h1 := h.dg me h.meK
    rw [h.degme] at h1
    have := h.lemax
    omega
  have hsp : 0 ≤ ∑ x ∈ S ∪ live, cnt n rep1 x := Finset.sum_nonneg fun _ _ => cnt_nonneg _
  rw [ck_bind (by omega)]
  refine Spec.bind (restore_spec (iwlen := iwlen) hBig hdm (S := S) (live := live) (degme := degme) hMr h.nodup
    (fun i hi h' => ?_) hneg hzero hnn h.p0 (by rw [d.pfree]; exact h.pf) (by rw [d.iw]; exact h.blk)
    aI1 d.aNv d.aN d.aT d.aH aD1 (by rw [d.mindeg]; exact h.md0) ⟨D1, hD1⟩) ?_
  · rcases h.MT i hi with h'' | h''
    · exact h.ST i h' h''
    · exact h.g.VZ i ((h.VST i).mpr (Or.inl h')) h''
  rintro ⟨p, s2⟩ r
  simp only at r ⊢
  have e2 := r.eq
  have ePe2 : s2.Pe = s1.Pe := by rw [e2]
  have eLen2 : s2.Len = s1.Len := by rw [e2]
  have eEl2 : s2.Elen = s1.Elen := by rw [e2]
  have eW2 : s2.W = s1.W := by rw [e2]
  have epf2 : s2.pfree = s1.pfree := by rw [e2]
  have enel2 : s2.nel = s1.nel := by rw [e2]
  have ewf2 : s2.wflg = s1.wflg := by rw [e2]
  have elm2 : s2.lemax = s1.lemax := by rw [e2]
  have hple : p ≤ iwlen := by
    have h1 : p = pme1 + (M.filter (fun x => decide (x ∈ live))).length := r.pp
    have h2 : (M.filter (fun x => decide (x ∈ live))).length ≤ M.length := List.length_filter_le _ _
    have h3 := h.pf
    by_cases h0 : 0 < s.pfree
    · have h4 := h.aI.m_le h0
      omega
    · omega
  refine Spec.bind (amd2Finish_spec ⟨h.p0, by have := r.pp; omega, by omega⟩ hmer (by rw [ePe2]; exact d.aP) r.aNv (by rw [eLen2]; exact aL1)
    (by rw [eW2]; exact d.aW)) ?_
  rintro s3 ⟨Nv, Len, Pe, W, rfl, f1, f2, f3, f4, f5, f6, f7, f8⟩
  refine Spec.pure ⟨rfl, rfl, ?_⟩
  simp only
  -- the new element
  have hM'm : ∀ i, i ∈ M.filter (fun x => x ∈ live) ↔ i ∈ L me ∧ i ∈ S ∪ live := by
    intro i
    rw [List.mem_filter, h.Lme, Finset.mem_union, decide_eq_true_eq]
    constructor
    · rintro ⟨q1, q2⟩; exact ⟨q1, Or.inr q2⟩
    · rintro ⟨q1, q2 | q2⟩
      · exfalso
        rcases h.MT i q1 with h'' | h''
        · exact h.ST i q2 h''
        · exact h.g.VZ i ((h.VST i).mpr (Or.inl q2)) h''
      · exact ⟨q1, q2⟩
  set M' := M.filter (fun x => decide (x ∈ live)) with hM'
  have hpM : p = pme1 + M'.length := r.pp
  have hM'l : M'.length ≤ M.length := List.length_filter_le _ _
  have hpz : p = pme1 ↔ M' = [] := by
    rw [← List.length_eq_zero_iff]; omega
  set K' := K.filter (fun x => x = me → M' ≠ []) with hK'
  set L' : Int → List Int := fun x => if x = me then M' else L x with hL'
  have g2 : GInv n (S ∪ live) K' (Z ∪ (T0 \ live)) E A L' :=
    g1.shrink (me := me) (M' := M') hM'm (by intro x; rw [hK', Finset.mem_filter]) (fun x => rfl)
  have hVme : me ∉ S ∪ live := by
    rw [Finset.mem_union]; tauto
  have hKme : ∀ x, x ≠ me → (x ∈ K' ↔ x ∈ K) := by
    intro x hx
    rw [hK', Finset.mem_filter]
    tauto
  -- old objects that are still alive
  have hO' : ∀ x ∈ (S ∪ live) ∪ K.erase me, x ∈ V ∪ K.erase me := by
    intro x hx
    rcases Finset.mem_union.mp hx with h' | h'
    · refine Finset.mem_union_left _ ((h.VST x).mpr ?_)
      rcases Finset.mem_union.mp h' with h'' | h''
      · exact Or.inl h''
      · exact Or.inr (d.sub h'')
    · exact Finset.mem_union_right _ h'
  have hme' : ∀ x ∈ (S ∪ live) ∪ K.erase me, x ≠ me := by
    rintro x hx rfl
    rcases Finset.mem_union.mp hx with h' | h'
    · exact hVme h'
    · simp at h'
  have hpe1 : ∀ x ∈ (S ∪ live) ∪ K.erase me, s1.Pe.at x = s.Pe.at x := by
    intro x hx
    by_cases hxl : x ∈ live
    · exact d.pe x hxl
    · refine (off1 x ?_).1
      intro hT
      rcases Finset.mem_union.mp hx with h' | h'
      · rcases Finset.mem_union.mp h' with h'' | h''
        · exact h.ST x h'' hT
        · exact hxl h''
      · exact h.g.VK x (hTV x hT) (Finset.mem_of_mem_erase h')
  have hpe3 : ∀ x, x ≠ me → Pe.at x = s1.Pe.at x := by
    intro x hx
    rw [f7, if_neg (fun h' => hx h'.1), ePe2]
  have hlst : ∀ x ∈ (S ∪ live) ∪ K.erase me, lst (S ∪ live) E A L' x = lst V E A L x := by
    intro x hx
    have hne := hme' x hx
    unfold lst
    rcases Finset.mem_union.mp hx with h' | h'
    · have hV : x ∈ V := by
        rw [h.VST]
        rcases Finset.mem_union.mp h' with h'' | h''
        · exact Or.inl h''
        · exact Or.inr (d.sub h'')
      rw [if_pos h', if_pos hV]
    · have hxK := Finset.mem_of_mem_erase h'
      rw [if_neg (fun h'' => g1.VK x h'' hxK), if_neg (fun h'' => h.g.VK x h'' hxK), hL']
      simp only
      rw [if_neg hne]
  have hlme : lst (S ∪ live) E A L' me = M' := by
    unfold lst
    rw [if_neg hVme, hL']
    simp
  have hpfs : s2.pfree = s.pfree := epf2.trans d.pfree
  set pf' := (if elenme ≠ 0 then p else s2.pfree) with hpf'
  have hpfle : pf' ≤ s.pfree := by
    rw [hpf']
    split
    · have := h.pf; omega
    · omega
  have hppf : p ≤ pf' := by
    rw [hpf']
    split
    · omega
    · have := h.pf; omega
  have hiwo : ∀ c, c < pme1 ∨ p ≤ c → s2.Iw.at c = s.Iw.at c := by
    intro c hc'
    rw [r.iw c hc', d.iw]
  have hmemO : Mem s2.Iw.at Pe.at (lst (S ∪ live) E A L') ((S ∪ live) ∪ K.erase me) pf' := by
    refine (h.mem.subset hO').congr ?_ hlst ?_ ?_
    · intro x hx
      rw [hpe3 x (hme' x hx), hpe1 x hx]
    · intro x hx
      have h1 := h.disj x (hO' x hx)
      have h2 := h.mem.hi x (hO' x hx)
      have h3 := h.mem.pos (hO' x hx)
      rw [hpf']
      split
      · next hel =>
        have := h.pf' hel
        omega
      · omega
    · intro x hx c c0 c1
      have h1 := h.disj x (hO' x hx)
      exact hiwo c (by omega)
  have hdisj' : ∀ x ∈ (S ∪ live) ∪ K.erase me, Pe.at x + (lst (S ∪ live) E A L' x).length ≤ pme1 ∨
      pme1 + M'.length ≤ Pe.at x := by
    intro x hx
    rw [hlst x hx, hpe3 x (hme' x hx), hpe1 x hx]
    have h1 := h.disj x (hO' x hx)
    omega
  have hpeme : p ≠ pme1 → Pe.at me = pme1 := by
    intro hp
    rw [f7, if_neg (fun h' => hp h'.2), ePe2, (off1 me hmeT).1]
    exact h.peme
  have hOcase : (M' = [] ∧ (S ∪ live) ∪ K' = (S ∪ live) ∪ K.erase me) ∨
      (M' ≠ [] ∧ (S ∪ live) ∪ K' = insert me ((S ∪ live) ∪ K.erase me)) := by
    by_cases hM0 : M' = []
    · left
      refine ⟨hM0, ?_⟩
      ext x
      simp only [hK', Finset.mem_union, Finset.mem_filter, Finset.mem_erase, hM0]
      tauto
    · right
      refine ⟨hM0, ?_⟩
      ext x
      simp only [hK', Finset.mem_union, Finset.mem_filter, Finset.mem_erase, Finset.mem_insert, ne_eq, hM0,
        not_false_eq_true, implies_true, and_true]
      by_cases hx : x = me
      · subst hx; simp [h.meK]
      · simp [hx]
  have hsumO : ∑ x ∈ (S ∪ live) ∪ K.erase me, ((lst (S ∪ live) E A L' x).length : Int)
      ≤ ∑ x ∈ V ∪ K.erase me, ((lst V E A L x).length : Int) := by
    rw [Finset.sum_congr rfl (fun x hx => by rw [hlst x hx])]
    exact Finset.sum_le_sum_of_subset_of_nonneg hO' (fun _ _ _ => by omega)
  have hmeO : me ∉ (S ∪ live) ∪ K.erase me := fun h' => hme' me h' rfl
  have hpe0 := h.p0
  have hpfx := h.pf
  refine ⟨S ∪ live, K', Z ∪ (T0 \ live), L', rep1, rk1, ?_, enel2.trans d.nel, ?_, cn1, ?_⟩
  rotate_left
  · intro x
    unfold Elim
    rw [Finset.mem_union, Finset.mem_union, Finset.mem_sdiff, h.VST]
    have : x ∈ live → x ∈ T0 := fun h' => d.sub h'
    by_cases hxl : x ∈ live
    · have := this hxl; tauto
    · tauto
  · intro adj C hS
    exact (sem1 adj C hS).shrink h.meK hM'm (fun x => by rw [hK', Finset.mem_filter]) (fun x => rfl) hpe3
  refine ⟨f3, ?_, f2, f1, r.aN, r.aT, r.aH, f4, by simp only; rw [eEl2]; exact d.aE, r.aD, g2, ?_, ?_, ?_, ?_, ?_, ?_,
    ?_, ?_, ?_, ?_, ?_, ?_, ?_, ?_, ?_, r.md0, ?_, ?_, ?_, ?_, by simp only; rw [ewf2]; exact d.wpos, ?_, ?_⟩ <;> try simp only
  · have := r.aI
    rw [d.pfree] at this
    exact this.mono hpfle
  · -- every element has a variable
    intro e he
    have heK := (Finset.mem_filter.mp he)
    by_cases hem : e = me
    · subst hem
      obtain ⟨i, hi⟩ := List.exists_mem_of_ne_nil _ (heK.2 rfl)
      exact ⟨i, ((hM'm i).mp hi).2, by rw [hL']; simpa using hi⟩
    · obtain ⟨i, hi, hiL⟩ := j1 e heK.1 hem
      exact ⟨i, hi, by rw [hL']; simpa [hem] using hiL⟩
  · -- the tree
    rw [eEl2]
    refine ⟨t1.repN, t1.repZ, ?_, t1.elen⟩
    intro x x0 x1 hxV hxK
    by_cases hxm : x = me
    · subst hxm
      left
      have hM0 : M' = [] := by
        by_contra hM0
        exact hxK (Finset.mem_filter.mpr ⟨h.meK, fun _ => hM0⟩)
      refine ⟨?_, fun hz => absurd hz (g1.KZ x h.meK)⟩
      rw [f7, if_pos ⟨rfl, hpz.mpr hM0⟩]
    · rw [hpe3 x hxm]
      exact t1.dead x x0 x1 hxV (fun h' => hxK ((hKme x hxm).mpr h'))
  · -- weights
    intro x x0 x1
    rw [f5]
    split
    · next e => rw [e]; exact nvp1
    · next hxm =>
      rw [r.nv, nv1 x x0 x1 hxm]
      by_cases hxl : x ∈ live
      · simp [hxl, hlM x hxl]
      · simp [hxl]
  · -- the lists
    rcases hOcase with ⟨hM0, hO⟩ | ⟨hM0, hO⟩
    · rw [hO]; exact hmemO
    · rw [hO]
      have hp := hpeme (fun e => hM0 (hpz.mp e))
      refine hmemO.insert (by rw [hlme]; exact hM0) (by rw [hp]; exact hpe0) (by rw [hp, hlme]; omega)
        (by rw [hp, hlme]; exact r.blk) ?_
      intro y hy
      rw [hp, hlme]
      exact hdisj' y hy
  · -- lengths
    intro x hx
    rw [f6]
    split
    · next e => subst e; rw [hlme]; omega
    · next hxm =>
      have hx' : x ∈ (S ∪ live) ∪ K.erase me := by
        rcases hOcase with ⟨hM0, hO⟩ | ⟨hM0, hO⟩
        · rwa [hO] at hx
        · rw [hO] at hx; exact (Finset.mem_insert.mp hx).resolve_left hxm
      rw [hlst x hx', eLen2, d.len]
      exact h.len x (hO' x hx')
  · intro i hi
    rw [eEl2]
    by_cases hil : i ∈ live
    · rw [d.el i hil]; exact h.elen i (hTV i (d.sub hil))
    · have hiS : i ∈ S := (Finset.mem_union.mp hi).resolve_right hil
      rw [(off1 i (h.ST i hiS)).2]
      exact h.elen i ((h.VST i).mpr (Or.inl hiS))
  · intro x x0 x1 hxV
    rw [eEl2]
    have hxS : x ∉ S := fun h' => hxV (Finset.mem_union_left _ h')
    have hxl : x ∉ live := fun h' => hxV (Finset.mem_union_right _ h')
    by_cases hxT : x ∈ T0
    · rw [el1 x hxT hxl]
      unfold EMPTY
      omega
    · rw [(off1 x hxT).2]
      exact h.eb x x0 x1 (by rw [h.VST]; tauto)
  · have := h.size
    rcases hOcase with ⟨hM0, hO⟩ | ⟨hM0, hO⟩
    · rw [hO]; omega
    · rw [hO, Finset.sum_insert hmeO, hlme]; omega
  · omega
  · intro c c0 c1
    by_cases hcc : c < pme1 ∨ p ≤ c
    · rw [hiwo c hcc]; exact h.val c c0 (by omega)
    · have hk : (c - pme1).toNat < M'.length := by omega
      have := r.blk (c - pme1).toNat _ (List.getElem?_eq_getElem hk)
      rw [show pme1 + ((c - pme1).toNat : Int) = c by omega] at this
      rw [this]
      have hm := List.getElem_mem hk
      exact hMr _ (List.mem_of_mem_filter hm)
  · -- degrees of the elements
    intro e he
    have heK := (Finset.mem_filter.mp he).1
    have hel : e ∉ live := fun h' => g1.VK e (hlV e h') heK
    rw [r.deg e (fun h' => hel h'.2), d.degree, elm2, d.lemax]
    refine ⟨?_, (h.dg e heK).2⟩
    have : (S ∪ live).filter (fun i => i ∈ L' e) = (S ∪ live).filter (fun i => i ∈ L e) := by
      refine Finset.filter_congr fun i hi => ?_
      rw [hL']
      simp only
      split
      · next e' => subst e'; rw [hM'm]; tauto
      · rfl
    rw [this]
    exact dg1 e heK
  · exact wl1
  · intro x x0 x1
    rw [f8, ewf2]
    have := hw1 x x0 x1
    have := d.wpos
    split
    · omega
    · rw [eW2]; assumption
  · intro x hx
    have hxr : 0 ≤ x ∧ x < n := by
      rcases Finset.mem_union.mp hx with h' | h'
      · exact g1.Vr x h'
      · exact g2.Kr x h'
    rw [f8, if_neg, eW2]
    · rw [Ne, d.wz x hxr.1 hxr.2]
      refine h.wne x ?_
      rcases Finset.mem_union.mp hx with h' | h'
      · exact Finset.mem_union_left _ ((h.VST x).mpr (by
          rcases Finset.mem_union.mp h' with h'' | h''
          · exact Or.inl h''
          · exact Or.inr (d.sub h'')))
      · exact Finset.mem_union_right _ (Finset.mem_filter.mp h').1
    · rintro ⟨rfl, hp⟩
      rcases Finset.mem_union.mp hx with h' | h'
      · exact hVme h'
      · exact (Finset.mem_filter.mp h').2 rfl (hpz.mp hp)
  · have : S ∪ (M.filter (fun x => decide (x ∈ live))).toFinset = S ∪ live := by
      ext x
      simp only [Finset.mem_union, List.mem_toFinset, List.mem_filter, decide_eq_true_eq]
      have := hlM x
      tauto
    have hdl := r.dl
    rw [this] at hdl
    exact hdl
  · intro x hx
    by_cases hxl : x ∈ live
    · exact r.md2 x (hlM x hxl) hxl
    · have hxS : x ∈ S := (Finset.mem_union.mp hx).resolve_right hxl
      rw [r.deg x (fun h' => hxl h'.2), d.degree]
      have h1 := h.md x hxS
      have h2 := r.md1
      rw [d.mindeg] at h2
      omega
  · rw [enel2, d.nel, sum1]; exact h.nel
  · rw [enel2]; exact hnel0
  · rw [elm2, d.lemax]; exact h.lemax
  · -- degrees of the variables
    intro x hx
    have hQ : ∀ j, QAdj K' A L' x j → QAdj K A L x j := by
      rintro j (hj | ⟨e, he, h1, h2⟩)
      · exact Or.inl hj
      · refine Or.inr ⟨e, (Finset.mem_filter.mp he).1, ?_⟩
        rw [hL'] at h1 h2
        simp only at h1 h2
        split at h1
        · next hem =>
          rw [if_pos hem] at h2
          subst hem
          exact ⟨((hM'm _).mp h1).1, ((hM'm _).mp h2).1⟩
        · next hem =>
          rw [if_neg hem] at h2
          exact ⟨h1, h2⟩
    by_cases hxl : x ∈ live
    · have hxr := hMr x (hlM x hxl)
      have hcx : s1.Nv.at x = -(cnt n rep1 x) := by
        rw [nv1 x hxr.1 hxr.2 (hMme x (hlM x hxl)), if_pos hxl]
      rw [r.degL x (hlM x hxl) hxl, d.degree, hcx]
      have hle : ∑ j ∈ live, cnt n rep1 j ≤ degme := by
        have h1 := dg1 me h.meK
        rw [h.degme] at h1
        rw [← h1]
        refine Finset.sum_le_sum_of_subset_of_nonneg (fun j hj => ?_) fun _ _ _ => cnt_nonneg _
        exact Finset.mem_filter.mpr ⟨hlV j hj, by rw [h.Lme]; exact hlM j hj⟩
      have hSp : extDeg n S K A L rep1 x ≤ s.Degree.at x := by
        refine le_trans (extDeg_mono fun j hj _ hq => ⟨hj, hq, ?_⟩) (h.extT x (d.sub hxl))
        exact cnt_congr (cn1 j (h.ST j hj))
      have hsplit : extDeg n (S ∪ live) K' A L' rep1 x
          ≤ extDeg n S K A L rep1 x + ∑ j ∈ live.erase x, cnt n rep1 j := by
        classical
        unfold extDeg
        rw [← Finset.sum_union]
        · refine Finset.sum_le_sum_of_subset_of_nonneg (fun j hj => ?_) fun _ _ _ => cnt_nonneg _
          simp only [Finset.mem_filter, Finset.mem_union, Finset.mem_erase] at hj ⊢
          rcases hj.1 with h' | h'
          · exact Or.inl ⟨h', hj.2.1, hQ j hj.2.2⟩
          · exact Or.inr ⟨hj.2.1, h'⟩
        · rw [Finset.disjoint_left]
          intro j h1 h2
          simp only [Finset.mem_filter, Finset.mem_erase] at h1 h2
          exact hSl j h1.1 h2.2
      have hall : extDeg n (S ∪ live) K' A L' rep1 x ≤ ∑ j ∈ (S ∪ live).erase x, cnt n rep1 j := by
        classical
        unfold extDeg
        refine Finset.sum_le_sum_of_subset_of_nonneg (fun j hj => ?_) fun _ _ _ => cnt_nonneg _
        simp only [Finset.mem_filter, Finset.mem_erase] at hj ⊢
        exact ⟨hj.2.1, hj.1⟩
      have h1 := Finset.add_sum_erase live (cnt n rep1) hxl
      have h2 := Finset.add_sum_erase (S ∪ live) (cnt n rep1) hx
      omega
    · have hxS : x ∈ S := (Finset.mem_union.mp hx).resolve_right hxl
      rw [r.deg x (fun h' => hxl h'.2), d.degree]
      exact le_trans (extDeg_mono fun j hj _ hq => ⟨hj, hQ j hq, rfl⟩)
        (le_trans (le_of_eq (ext1 x hxS)) (h.extS x hxS))
  · -- exact degrees
    intro hnd x hx hE
    have hQ : ∀ j ∈ S ∪ live, QAdj K A L x j → QAdj K' A L' x j := by
      rintro j hjV (hj | ⟨e, he, h1, h2⟩)
      · exact Or.inl hj
      · right
        by_cases hem : e = me
        · subst hem
          have hx' := (hM'm x).mpr ⟨h1, hx⟩
          have hj' := (hM'm j).mpr ⟨h2, hjV⟩
          refine ⟨e, Finset.mem_filter.mpr ⟨he, fun _ => List.ne_nil_of_mem hx'⟩, ?_⟩
          rw [hL']
          simp only [if_true]
          exact ⟨hx', hj'⟩
        · refine ⟨e, (hKme e hem).mpr he, ?_⟩
          rw [hL']
          simp only [if_neg hem]
          exact ⟨h1, h2⟩
    by_cases hxl : x ∈ live
    · have hxr := hMr x (hlM x hxl)
      have hcx : s1.Nv.at x = -(cnt n rep1 x) := by
        rw [nv1 x hxr.1 hxr.2 (hMme x (hlM x hxl)), if_pos hxl]
      rw [r.degL x (hlM x hxl) hxl, d.degree, hcx]
      have hle : degme = ∑ j ∈ live, cnt n rep1 j := by
        have h1 := dg1 me h.meK
        rw [h.degme] at h1
        rw [← h1]
        refine Finset.sum_congr ?_ fun _ _ => rfl
        ext j
        rw [Finset.mem_filter]
        constructor
        · rintro ⟨q1, q2⟩
          have := (hM'm j).mpr ⟨q2, q1⟩
          rw [hM', List.mem_filter] at this
          simpa using this.2
        · exact fun hj => ⟨hlV j hj, by rw [h.Lme]; exact hlM j hj⟩
      have hSp : s.Degree.at x ≤ extDeg n S K A L rep1 x := by
        refine le_trans (h.ubT x (d.sub hxl) hE) (extDeg_mono fun j hj _ hq => ⟨hj, hq, ?_⟩)
        exact (cnt_congr (cn1 j (h.ST j hj))).symm
      have hsplit : extDeg n S K A L rep1 x + ∑ j ∈ live.erase x, cnt n rep1 j
          ≤ extDeg n (S ∪ live) K' A L' rep1 x := by
        classical
        unfold extDeg
        rw [← Finset.sum_union]
        · refine Finset.sum_le_sum_of_subset_of_nonneg (fun j hj => ?_) fun _ _ _ => cnt_nonneg _
          simp only [Finset.mem_filter, Finset.mem_union, Finset.mem_erase] at hj ⊢
          rcases hj with h' | h'
          · exact ⟨Or.inl h'.1, h'.2.1, hQ j (Finset.mem_union_left _ h'.1) h'.2.2⟩
          · refine ⟨Or.inr h'.2, h'.1, hQ j (hlV j h'.2) (Or.inr ⟨me, h.meK, ?_⟩)⟩
            rw [h.Lme]
            exact ⟨hlM x hxl, hlM j h'.2⟩
        · rw [Finset.disjoint_left]
          intro j h1 h2
          simp only [Finset.mem_filter, Finset.mem_erase] at h1 h2
          exact hSl j h1.1 h2.2
      have h1 := Finset.add_sum_erase live (cnt n rep1) hxl
      omega
    · have hxS : x ∈ S := (Finset.mem_union.mp hx).resolve_right hxl
      rw [r.deg x (fun h' => hxl h'.2), d.degree]
      have hnd' : ∀ z, 0 ≤ z → z < n → rep z ≠ -1 := by
        intro z z0 z1 hz
        refine hnd z z0 z1 ((cn1 (-1) (fun h' => ?_) z).mpr hz)
        have := h.g.Vr _ (hTV _ h')
        omega
      refine le_trans (h.ubS hnd' x hxS hE) (le_trans (le_of_eq (ext1 x hxS).symm) ?_)
      exact extDeg_mono fun j hj _ hq => ⟨hj, hQ j hj hq, rfl⟩

end Verif
