import Verif.Lemmas.AmdIterMid

/-!
# The state in the middle of an iteration of `AMD_2`
-/

namespace Verif

open Finset

namespace BCtx

variable {n iwlen me pme1 pme2 degme wf : Int} {M : List Int} {V K Z : Finset Int}
  {E A L : Int → List Int} {rep : Int → Int} {rk : Int → Nat} {s s0 s2 : Amd2} {W3 W4 : Buf Int}
  {aggr : Bool}

open Classical in
set_option maxHeartbeats 1000000 in
theorem mid (hBig : 0 ≤ n ∧ 0 ≤ iwlen ∧ 3 * (n + iwlen) + 10 ≤ Int_MAX)
    (c : BCtx n iwlen V K Z E A L rep rk me pme1 pme2 degme wf M s s0 s2 W3)
    (h4 : ∀ e, W4.at e = scan1W E (cnt n rep) W3.at s2.Degree.at wf M e) {dg5 nvp5 wf6 : Int} {s5 : Amd2}
    {W6 : Buf Int}
    (h5 : Scan2 n iwlen me (V.erase me) (V.erase me ∪ K.filter (fun x => x ∉ E me)) (lst V E A L) E A (cnt n rep)
      aggr pme1 degme (s.Nv.at me) M M { s2 with wflg := wf, W := W4 } dg5 nvp5 s5)
    (aW6 : Arr W6 n n) (hwf6 : 2 ≤ wf6) (hwt6 : wf6 + n ≤ Int_MAX)
    (hw6 : ∀ x, 0 ≤ x → x < n → W6.at x < wf6)
    (hz6 : ∀ x, 0 ≤ x → x < n → (W6.at x = 0 ↔ s5.W.at x = 0)) :
    ∃ S T0 V1 K1 Z1 E1 A1 L1 rep1 rk1,
      Mid n iwlen me pme1 dg5 nvp5 (E me).length M S T0 V1 K1 Z1 E1 A1 L1 rep1 rk1
        { s5 with Degree := s5.Degree.put me dg5, lemax := max s5.lemax dg5, wflg := wf6, W := W6 } ∧
      (∀ x, Elim n V1 Z1 x ↔ x = me ∨ Elim n V Z x) ∧ (∀ x, x ∉ V → ∀ z, rep1 z = x ↔ rep z = x) ∧
      (∀ adj C, QSem n adj V K Z A L rep s.Pe.at C → ∃ C1, QSem n adj V1 K1 Z1 A1 L1 rep1 s5.Pe.at C1 ∧
        ((C1 me).card : Int) = dg5 ∧ ∀ x, x ≠ me → C1 x = C x) := by
  have g := c.inv.g
  have hmr := c.mer
  have hMV := fun i hi => c.MV (i := i) hi
  set s4 : Amd2 := { s2 with wflg := wf, W := W4 } with hs4
  set mass := s2mass aggr s4 E A with hmass
  set X := (M.filter mass).toFinset with hX
  set Y := K.filter (fun e => e ∉ E me ∧ s2abs aggr s4 E M e) with hYd
  set T0 := (M.filter (fun x => !mass x)).toFinset with hT0
  set S := (V.erase me).filter (fun x => x ∉ M) with hS
  set V1 := (V.erase me).filter (fun x => x ∉ X) with hV1
  set K1 := insert me (K.filter (fun x => x ∉ E me ∧ x ∉ Y)) with hK1
  set Z1 := Z ∪ X with hZ1
  set E1 : Int → List Int := fun i => if i ∈ M then me :: (s2E aggr s4 E i).rotate 1 else E i with hE1
  set A1 : Int → List Int := fun i => if i ∈ M then (s2A s4 A i).rotate 1 else A i with hA1
  set L1 : Int → List Int := fun x => if x = me then M else L x with hL1
  -- membership
  have mX : ∀ x, x ∈ X ↔ x ∈ M ∧ mass x = true := by
    intro x; rw [hX, List.mem_toFinset, List.mem_filter]
  have mT : ∀ x, x ∈ T0 ↔ x ∈ M ∧ mass x = false := by
    intro x; rw [hT0, List.mem_toFinset, List.mem_filter]; simp
  have mS : ∀ x, x ∈ S ↔ x ∈ V ∧ x ≠ me ∧ x ∉ M := by
    intro x; rw [hS, Finset.mem_filter, Finset.mem_erase]; tauto
  have mV1 : ∀ x, x ∈ V1 ↔ x ∈ V ∧ x ≠ me ∧ x ∉ X := by
    intro x; rw [hV1, Finset.mem_filter, Finset.mem_erase]; tauto
  have mK1 : ∀ x, x ∈ K1 ↔ x = me ∨ (x ∈ K ∧ x ∉ E me ∧ x ∉ Y) := by
    intro x; rw [hK1, Finset.mem_insert, Finset.mem_filter]
  have mZ1 : ∀ x, x ∈ Z1 ↔ x ∈ Z ∨ x ∈ X := by
    intro x; rw [hZ1, Finset.mem_union]
  have mY : ∀ x, x ∈ Y ↔ s2abs aggr s4 E M x := by
    intro x
    rw [hYd, Finset.mem_filter]
    constructor
    · exact fun h => h.2.2
    · rintro ⟨⟨i, hi, he⟩, ha⟩
      have := c.abs_ok h4 hi he ha
      exact ⟨this.1, this.2.1, ⟨i, hi, he⟩, ha⟩
  have hYok : ∀ e ∈ Y, e ∈ K ∧ e ∉ E me ∧ ∀ i ∈ V, i ∈ L e → i ∈ M := by
    intro e he
    obtain ⟨⟨i, hi, hei⟩, ha⟩ := (mY e).mp he
    exact c.abs_ok h4 hi hei ha
  have mE : ∀ i ∈ M, ∀ e, e ∈ s2E aggr s4 E i ↔ e ∈ E i ∧ e ∉ E me ∧ e ∉ Y := by
    intro i hi e
    unfold s2E
    rw [List.mem_filter]
    constructor
    · rintro ⟨q1, q2⟩
      obtain ⟨q3, q4⟩ := (c.keep_iff h4 hi q1).mp q2
      exact ⟨q1, q3, fun h => q4 ((mY e).mp h).2⟩
    · rintro ⟨q1, q2, q3⟩
      refine ⟨q1, (c.keep_iff h4 hi q1).mpr ⟨q2, fun h => q3 ((mY e).mpr ⟨⟨i, hi, q1⟩, h⟩)⟩⟩
  have mA : ∀ i ∈ M, ∀ j, j ∈ s2A s4 A i ↔ j ∈ A i ∧ j ∈ V ∧ j ≠ me ∧ j ∉ M := by
    intro i hi j
    unfold s2A
    rw [List.mem_filter, decide_eq_true_eq]
    constructor
    · rintro ⟨q1, q2⟩
      have hv := (g.var i (hMV i hi) j q1).2
      have hr : 0 ≤ j ∧ j < n := by
        rcases hv with h | h
        · exact g.Vr j h
        · exact g.Zr j h
      change 0 < s2.Nv.at j at q2
      rw [c.nv2 hr.1 hr.2] at q2
      split at q2
      · have := cnt_nonneg (n := n) (rep := rep) j
        omega
      · next h =>
        push Not at h
        refine ⟨q1, ?_, h.2, h.1⟩
        rcases hv with h' | h'
        · exact h'
        · rw [c.inv.t.cntZ h' hr.1] at q2
          omega
    · rintro ⟨q1, q2, q3, q4⟩
      refine ⟨q1, ?_⟩
      have hr := g.Vr j q2
      change 0 < s2.Nv.at j
      rw [c.nv2 hr.1 hr.2, if_neg (by tauto)]
      exact c.cpos q2
  have hXM : ∀ x ∈ X, x ∈ M := fun x hx => ((mX x).mp hx).1
  have hTM : ∀ x ∈ T0, x ∈ M := fun x hx => ((mT x).mp hx).1
  have hmX : me ∉ X := fun h => c.meM (hXM me h)
  have hmY : me ∉ Y := fun h => c.Kme (hYok me h).1 rfl
  have hXV : ∀ x ∈ X, x ∈ V ∧ x ≠ me := fun x hx => ⟨hMV x (hXM x hx), c.Mme (hXM x hx)⟩
  have hrot : ∀ (l : List Int) (x : Int), x ∈ l.rotate 1 ↔ x ∈ l := fun l x => List.mem_rotate
  have g1 : GInv n V1 K1 Z1 E1 A1 L1 := by
    refine g.elim c.meV c.mem_M hXM hYok (fun i hi => by rw [hE1]; simp [hi]) (fun i hi => by rw [hA1]; simp [hi])
      ?_ ?_ ?_ mV1 mK1 mZ1 (fun x => rfl)
    · intro i hi e
      rw [hE1]
      simp only
      rw [if_pos hi, List.mem_cons, hrot, mE i hi]
    · intro i hi j
      rw [hA1]
      simp only
      rw [if_pos hi, hrot, mA i hi]
    · intro i hi _
      have hnd := List.nodup_append.mp (g.nodup i (hMV i hi))
      rw [hE1, hA1]
      simp only
      rw [if_pos hi, if_pos hi, List.cons_append, List.nodup_cons, List.nodup_append]
      refine ⟨?_, List.nodup_rotate.mpr (hnd.1.filter _), List.nodup_rotate.mpr (hnd.2.1.filter _), ?_⟩
      · rw [List.mem_append, hrot, hrot, mE i hi, mA i hi]
        rintro (h | h)
        · exact c.Kme (g.elt i (hMV i hi) me h.1).1 rfl
        · exact h.2.2.1 rfl
      · intro a ha b hb
        rw [hrot, mE i hi] at ha
        rw [hrot, mA i hi] at hb
        exact hnd.2.2 a ha.1 b hb.1
  have hcm : ∀ x, cnt n (mrg rep X me) x
      = if x = me then cnt n rep me + ∑ i ∈ X, cnt n rep i else if x ∈ X then 0 else cnt n rep x :=
    fun x => cnt_mrg hmX x
  have hcV1 : ∀ x ∈ V1, cnt n (mrg rep X me) x = cnt n rep x := by
    intro x hx
    obtain ⟨q1, q2, q3⟩ := (mV1 x).mp hx
    rw [hcm, if_neg q2, if_neg q3]
  -- the arrays
  have hPe0 : ∀ x, x ∈ X ∨ x ∈ Y → s5.Pe.at x = FLIP me := by
    intro x hx
    refine h5.pe0 x ?_
    rcases hx with h | h
    · exact Or.inl ((mX x).mp h)
    · exact Or.inr ((mY x).mp h)
  have hPe1 : ∀ x, x ∉ X → x ∉ Y → s5.Pe.at x = s2.Pe.at x := by
    intro x h1 h2
    exact h5.pe1 x (fun h => h1 ((mX x).mpr h)) (fun h => h2 ((mY x).mpr h))
  have hEl : ∀ x, x ∉ M → s5.Elen.at x = s2.Elen.at x := by
    intro x hx
    rw [h5.elen, if_neg hx]
  have hdead : ∀ x, 0 ≤ x → x < n → x ∉ V → x ∉ K → s5.Pe.at x = s.Pe.at x := by
    intro x x0 x1 hxV hxK
    have hxX : x ∉ X := fun h => hxV (hXV x h).1
    have hxY : x ∉ Y := fun h => hxK (hYok x h).1
    rw [hPe1 x hxX hxY, c.b.pe x ?_ (fun e => hxV (e ▸ c.meV)) (fun h => hxK (g.elt me c.meV x h).1), c.ePe]
    rw [Finset.mem_union, Finset.mem_erase, Finset.mem_filter]
    tauto
  obtain ⟨rk1, t1⟩ : ∃ rk1, TInv n V1 K1 Z1 (mrg rep X me) rk1 s5.Pe.at s5.Elen.at := ⟨_, c.inv.t.join (me := me) (X := X) (Y := Y ∪ (E me).toFinset) (V1 := V1) (K1 := K1) (Z1 := Z1)
    (pe' := s5.Pe.at) (el' := s5.Elen.at) c.meV g.Vr g.VZ g.KZ hXV
    (by
      intro x hx
      refine ⟨?_, fun h => ((mV1 me).mp h).2.1 rfl⟩
      rcases Finset.mem_union.mp hx with h | h
      · exact (hYok x h).1
      · exact (g.elt me c.meV x (List.mem_toFinset.mp h)).1)
    (fun x hx => ((mV1 x).mp hx).1)
    (by
      intro x hx hx'
      rw [mV1] at hx'
      tauto)
    (Or.inr ((mK1 me).mpr (Or.inl rfl)))
    (by
      intro x hx hx'
      rw [mK1] at hx'
      rw [Finset.mem_union, List.mem_toFinset]
      tauto)
    mZ1
    (by
      intro x hx
      rw [Finset.mem_union] at hx
      rcases hx with h | h | h
      · exact hPe0 x (Or.inl h)
      · exact hPe0 x (Or.inr h)
      · rw [List.mem_toFinset] at h
        have hxK := (g.elt me c.meV x h).1
        rw [hPe1 x (fun h' => g.VK x (hXV x h').1 hxK) (fun h' => (hYok x h').2.1 h)]
        exact c.b.pees x h)
    hdead
    (by
      intro x x0 x1 hxV
      have hxm : x ≠ me := fun e => hxV (e ▸ c.meV)
      rw [hEl x (fun h => hxV (hMV x h)), c.b.elen, if_neg hxm, c.eEl])
    (by
      intro _
      rw [hEl me c.meM, c.b.elen, if_pos rfl, c.eNv, c.inv.nv me hmr.1 hmr.2]
      have h1 := c.cpos c.meV
      have h2 : 0 ≤ degme := by
        rw [c.b.deg]
        refine List.sum_nonneg fun x hx => ?_
        obtain ⟨i, hi, rfl⟩ := List.mem_map.mp hx
        rw [c.eNv, c.inv.nv i (c.Mr hi).1 (c.Mr hi).2]
        exact cnt_nonneg _
      unfold FLIP
      omega)⟩
  -- sums
  have hsumX : ((M.filter mass).map (cnt n rep)).sum = ∑ x ∈ X, cnt n rep x := list_sum_filter c.b.nodup _ _
  have hdegme : degme = ∑ x ∈ M.toFinset, cnt n rep x := by
    rw [c.b.deg, List.sum_toFinset _ c.b.nodup]
    congr 1
    refine List.map_congr_left fun i hi => ?_
    rw [c.eNv, c.inv.nv i (c.Mr hi).1 (c.Mr hi).2]
  have hMsplit : M.toFinset = X ∪ T0 := by
    ext x
    rw [Finset.mem_union, mX, mT, List.mem_toFinset]
    cases mass x <;> simp
  have hXT : Disjoint X T0 := by
    rw [Finset.disjoint_left]
    intro x h1 h2
    rw [mX] at h1
    rw [mT] at h2
    simp [h1.2] at h2
  have hdg5 : dg5 = ∑ x ∈ T0, cnt n rep x := by
    rw [h5.dg, hsumX, hdegme, hMsplit, Finset.sum_union hXT]
    ring
  have hnvp5 : nvp5 = cnt n rep me + ∑ x ∈ X, cnt n rep x := by
    rw [h5.nvp, hsumX, c.inv.nv me hmr.1 hmr.2]
  have hVST : ∀ x, x ∈ V1 ↔ x ∈ S ∨ x ∈ T0 := by
    intro x
    rw [mV1, mS, mT, mX]
    constructor
    · rintro ⟨q1, q2, q3⟩
      by_cases hM : x ∈ M
      · right
        refine ⟨hM, ?_⟩
        cases hm : mass x
        · rfl
        · exact absurd ⟨hM, hm⟩ q3
      · exact Or.inl ⟨q1, q2, hM⟩
    · rintro (⟨q1, q2, q3⟩ | ⟨q1, q2⟩)
      · exact ⟨q1, q2, fun h => q3 h.1⟩
      · exact ⟨hMV x q1, c.Mme q1, fun h => by simp [q2] at h⟩
  have hVsum : ∑ x ∈ V, cnt n rep x = cnt n rep me + ∑ x ∈ X, cnt n rep x + ∑ x ∈ V1, cnt n rep x := by
    have e : V = insert me (X ∪ V1) := by
      ext x
      rw [Finset.mem_insert, Finset.mem_union, mV1]
      constructor
      · intro h; tauto
      · rintro (rfl | h | h)
        · exact c.meV
        · exact (hXV x h).1
        · exact h.1
    have hd : Disjoint X V1 := by
      rw [Finset.disjoint_left]
      intro x h1 h2
      exact ((mV1 x).mp h2).2.2 h1
    have hm : me ∉ X ∪ V1 := by
      rw [Finset.mem_union, mV1]
      tauto
    have e2 : ∑ x ∈ V, cnt n rep x = ∑ x ∈ insert me (X ∪ V1), cnt n rep x := by rw [← e]
    rw [e2, Finset.sum_insert hm, Finset.sum_union hd]
    ring
  -- lists
  have hOsub : ∀ x ∈ V1 ∪ K1.erase me, x ∈ (V.erase me ∪ K.filter (fun x => x ∉ E me)) ∧ x ∉ X ∧ x ∉ Y := by
    intro x hx
    rw [Finset.mem_union, Finset.mem_erase, mV1, mK1] at hx
    rw [Finset.mem_union, Finset.mem_erase, Finset.mem_filter]
    rcases hx with ⟨q1, q2, q3⟩ | ⟨q1, q2⟩
    · exact ⟨Or.inl ⟨q2, q1⟩, q3, fun h => g.VK x q1 (hYok x h).1⟩
    · obtain ⟨q3, q4, q5⟩ := q2.resolve_left q1
      exact ⟨Or.inr ⟨q3, q4⟩, fun h => g.VK x (hXV x h).1 q3, q5⟩
  have hlst : ∀ x ∈ V1 ∪ K1.erase me, lst V1 E1 A1 L1 x = if x ∈ M then s2C aggr me s4 E A x else lst V E A L x := by
    intro x hx
    rcases Finset.mem_union.mp hx with h | h
    · obtain ⟨q1, q2, q3⟩ := (mV1 x).mp h
      rw [lstV h, lstV q1, hE1, hA1]
      simp only
      split
      · rfl
      · rfl
    · obtain ⟨q1, q2⟩ := Finset.mem_erase.mp h
      have hK := ((mK1 x).mp q2).resolve_left q1
      have hxM : x ∉ M := fun h => g.VK x (hMV x h) hK.1
      rw [if_neg hxM]
      unfold lst
      rw [if_neg (fun h => g.VK x ((mV1 x).mp h).1 hK.1), if_neg (fun h => g.VK x h hK.1), hL1]
      simp only
      rw [if_neg q1]
  have hlC : ∀ x ∈ V1 ∪ K1.erase me, (lst V1 E1 A1 L1 x).length ≤ (lst V E A L x).length := by
    intro x hx
    rw [hlst x hx]
    split
    · next hM =>
      have hro := c.room (aggr := aggr) h4 hM
      rw [← hs4] at hro
      have e : (s2C aggr me s4 E A x).length = (s2E aggr s4 E x).length + (s2A s4 A x).length + 1 := by
        simp [s2C]
      omega
    · exact le_rfl
  have hVO : ∀ x ∈ V1, x ∈ V1 ∪ K1.erase me := fun x hx => Finset.mem_union_left _ hx
  have hDeg : ∀ x, (s5.Degree.put me dg5).at x = if x = me then dg5 else s5.Degree.at x :=
    fun x => h5.aD.at_put hmr.1 hmr.2 _ _
  have hDeg5 : ∀ x, x ∉ M → x ≠ me → s5.Degree.at x = s.Degree.at x := by
    intro x h1 h2
    rw [h5.degN x h1]
    exact c.deg2 h2
  obtain ⟨bh, D, B, hD, hB⟩ := h5.lists
  refine ⟨S, T0, V1, K1, Z1, E1, A1, L1, mrg rep X me, rk1, ?_, ?_, ?_, ?_⟩
  rotate_left
  · intro x
    unfold Elim
    rw [mV1, mZ1]
    constructor
    · rintro ⟨r, q1, q2⟩
      by_cases hx : x = me
      · exact Or.inl hx
      · exact Or.inr ⟨r, by tauto, by tauto⟩
    · rintro (rfl | ⟨r, q1, q2⟩)
      · exact ⟨hmr, by tauto, fun h' => h'.elim (g.VZ x c.meV) hmX⟩
      · exact ⟨r, by tauto, fun h' => h'.elim q2 fun h'' => q1 (hXV x h'').1⟩
  · intro x hx z
    unfold mrg
    split
    · next hz => exact ⟨fun e => absurd (e ▸ c.meV) hx, fun e => absurd (e ▸ (hXV _ hz).1) hx⟩
    · exact Iff.rfl
  · intro adj C hS
    refine ⟨fun x => if x = me then (Finset.Ico 0 n).filter (fun z => rep z ∈ T0) else C x,
      hS.elim g c.inv.t.repN c.meV c.mem_M hXM hYok ?_ ?_ (A1 := A1) (fun i hi => by rw [hA1]; simp [hi]) ?_ mV1 mK1 mZ1
        (fun x => rfl) ?_ hdead (fun x hx => by simp [hx]) ?_, ?_, fun x hx => by simp [hx]⟩
    · intro i hi e he
      obtain ⟨m1, m2⟩ := (mX i).mp hi
      by_contra hne
      have h' := (mE i m1 e).mpr ⟨he, by tauto, by tauto⟩
      rw [(s2mass_iff.mp m2).1] at h'
      simp at h'
    · intro i hi j hj hjV
      obtain ⟨m1, m2⟩ := (mX i).mp hi
      by_contra hne
      have h' := (mA i m1 j).mpr ⟨hj, hjV, by tauto, by tauto⟩
      rw [(s2mass_iff.mp m2).2] at h'
      simp at h'
    · intro i hi j
      rw [hA1]
      simp only
      rw [if_pos hi, hrot, mA i hi]
    · rintro x (h | h)
      · exact hPe0 x (Or.inr h)
      · have hxK := (g.elt me c.meV x h).1
        rw [hPe1 x (fun h' => g.VK x (hXV x h').1 hxK) (fun h' => (hYok x h').2.1 h)]
        exact c.b.pees x h
    · intro z
      simp only [if_true, Finset.mem_filter, Finset.mem_Ico, mT, mX]
      cases hm : mass (rep z) <;> simp
    · simp only [if_true]
      rw [hdg5, cnt_sum]
  refine ⟨h5.aP, h5.aI, h5.aL, h5.aNv, h5.aN, h5.aT, h5.aH, aW6, h5.aE, h5.aD.put hmr.1 hmr.2 _, g1,
    (mK1 me).mpr (Or.inl rfl), by rw [hL1]; simp, ?_, t1, ?_, ?_, hVST, ?_, hTM, ?_, c.b.nodup, ?_, ?_, ?_, h5.blk,
    c.b.p0, ?_, ?_, ?_, ?_, ?_, ?_, ?_, ?_, h5.val, ?_, ?_, ?_, ?_, ?_, ?_, hwt6, ?_, ?_, ?_, ?_, ?_, ?_, ?_, ?_, ?_, ?_, ?_⟩ <;> try simp only
  · -- every element has a variable
    intro e he hem
    obtain ⟨q1, q2, q3⟩ := ((mK1 e).mp he).resolve_left hem
    obtain ⟨i, hi, hiL⟩ := c.inv.j e q1
    have hme : i ≠ me := by
      rintro rfl
      exact q2 (g.le e q1 i hi hiL)
    refine ⟨i, (mV1 i).mpr ⟨hi, hme, fun hx => ?_⟩, by rw [hL1]; simpa [hem] using hiL⟩
    obtain ⟨m1, m2⟩ := (mX i).mp hx
    have := (s2mass_iff.mp m2).1
    have h' := (mE i m1 e).mpr ⟨g.le e q1 i hi hiL, q2, q3⟩
    rw [this] at h'
    simp at h'
  · intro x x0 x1 hxm
    rw [h5.nv, hcm, if_neg hxm]
    change (if x ∈ M ∧ mass x = true then 0 else s2.Nv.at x) = _
    rw [c.nv2 x0 x1]
    by_cases hM : x ∈ M
    · cases hm : mass x
      · have h1 : x ∈ T0 := (mT x).mpr ⟨hM, hm⟩
        have h2 : x ∉ X := fun h => by have := ((mX x).mp h).2; simp [hm] at this
        simp [hM, h1, h2]
      · have h1 : x ∉ T0 := fun h => by have := ((mT x).mp h).2; simp [hm] at this
        have h2 : x ∈ X := (mX x).mpr ⟨hM, hm⟩
        simp [hM, h1, h2]
    · have h1 : x ∉ T0 := fun h => hM (hTM x h)
      have h2 : x ∉ X := fun h => hM (hXM x h)
      simp [hM, h1, h2, hxm]
  · rw [hcm, if_pos rfl]; exact hnvp5
  · intro x hx hx'
    exact ((mS x).mp hx).2.2 (hTM x hx')
  · intro x hx
    rw [mT, mZ1, mX]
    cases hm : mass x
    · exact Or.inl ⟨hx, rfl⟩
    · exact Or.inr (Or.inr ⟨hx, rfl⟩)
  · intro i hi
    refine ⟨(s2E aggr s4 E i).rotate 1, ?_⟩
    rw [hE1]
    simp [hTM i hi]
  · intro i hi j hj
    rw [hA1] at hj
    simp only at hj
    rw [if_pos (hTM i hi), hrot, mA i (hTM i hi)] at hj
    exact (mS j).mpr hj.2
  · -- memory
    have hsub : ∀ x ∈ V1 ∪ K1.erase me, x ∈ (V.erase me ∪ K.filter (fun x => x ∉ E me)).filter
        (fun x => ¬ (x ∈ M ∧ s2mass aggr s4 E A x = true)) := by
      intro x hx
      obtain ⟨q1, q2, q3⟩ := hOsub x hx
      exact Finset.mem_filter.mpr ⟨q1, fun h => q2 ((mX x).mpr h)⟩
    have hpf : s5.pfree = s2.pfree := h5.pfree
    rw [hpf]
    refine (h5.mem.subset hsub).congr ?_ hlst (fun x hx => h5.mem.hi x (hsub x hx)) (fun _ _ _ _ _ => rfl)
    intro x hx
    obtain ⟨q1, q2, q3⟩ := hOsub x hx
    exact hPe1 x q2 q3
  · have hpf : s5.pfree = s2.pfree := h5.pfree
    rw [hpf]; exact c.b.pf
  · intro hne
    have hpf : s5.pfree = s2.pfree := h5.pfree
    rw [hpf]
    refine c.b.pf' (fun h => hne ?_)
    rw [h]; rfl
  · intro x hx
    obtain ⟨q1, q2, q3⟩ := hOsub x hx
    have h1 := c.b.disj x q1
    have h2 := hlC x hx
    rw [hPe1 x q2 q3]
    omega
  · rw [hPe1 me hmX hmY]; exact c.b.peme
  · intro x hx
    obtain ⟨q1, q2, q3⟩ := hOsub x hx
    rw [h5.len, hlst x hx]
    by_cases hM : x ∈ M
    · have : ¬ s2mass aggr s4 E A x = true := fun h => q2 ((mX x).mpr ⟨hM, h⟩)
      rw [if_pos ⟨hM, this⟩, if_pos hM]
    · rw [if_neg (fun h => hM h.1), if_neg hM]
      exact c.b.len x q1
  · intro i hi
    obtain ⟨q1, q2, q3⟩ := (mV1 i).mp hi
    rw [h5.elen, hE1]
    simp only
    by_cases hM : i ∈ M
    · have : ¬ s2mass aggr s4 E A i = true := fun h => q3 ((mX i).mpr ⟨hM, h⟩)
      rw [if_pos hM, if_neg this, if_pos hM]
      simp
    · rw [if_neg hM, if_neg hM]
      change s2.Elen.at i = _
      rw [c.b.elen, if_neg q2, c.eEl]
      exact c.inv.elen i q1
  · intro x x0 x1 hxV
    by_cases hM : x ∈ M
    · have hx : s2mass aggr s4 E A x = true := by
        by_contra hne
        exact hxV ((hVST x).mpr (Or.inr ((mT x).mpr ⟨hM, by simpa [hmass] using hne⟩)))
      rw [h5.elen, if_pos hM, if_pos hx]
      unfold EMPTY
      omega
    · rw [hEl x hM, c.b.elen]
      split
      · have h1 := c.wsum
        have h2 := cnt_sum_le (rep := rep) hBig.1 V
        have h3 : degme = (M.map (cnt n rep)).sum := by
          rw [hdegme, List.sum_toFinset _ c.b.nodup]
        have h4 : 0 ≤ ∑ x ∈ M.toFinset, cnt n rep x := Finset.sum_nonneg fun _ _ => cnt_nonneg _
        have h5 := c.cpos c.meV
        rw [c.eNv, c.inv.nv me hmr.1 hmr.2]
        unfold FLIP
        omega
      · next hxm =>
        rw [c.eEl]
        refine c.inv.eb x x0 x1 fun h' => hxV ((mV1 x).mpr ⟨h', hxm, fun hX' => hM (hXM x hX')⟩)
  · have h1 := c.b.size
    have h2 : ∑ x ∈ V1 ∪ K1.erase me, ((lst V1 E1 A1 L1 x).length : Int)
        ≤ ∑ x ∈ V.erase me ∪ K.filter (fun x => x ∉ E me), ((lst V E A L x).length : Int) := by
      refine (Finset.sum_le_sum fun x hx => ?_).trans
        (Finset.sum_le_sum_of_subset_of_nonneg (fun x hx => (hOsub x hx).1) (fun _ _ _ => by omega))
      exact_mod_cast hlC x hx
    omega
  · -- degrees of the elements
    intro e he
    by_cases hem : e = me
    · subst hem
      rw [hDeg, if_pos rfl]
      have hf : V1.filter (fun i => i ∈ L1 e) = T0 := by
        ext x
        rw [Finset.mem_filter, hL1]
        simp only [if_true]
        rw [hVST]
        constructor
        · rintro ⟨h | h, h'⟩
          · exact absurd h' ((mS x).mp h).2.2
          · exact h
        · exact fun h => ⟨Or.inr h, hTM x h⟩
      rw [hf, Finset.sum_congr rfl (fun x hx => hcV1 x ((hVST x).mpr (Or.inr hx))), ← hdg5]
      exact ⟨rfl, by omega⟩
    · obtain ⟨q1, q2, q3⟩ := ((mK1 e).mp he).resolve_left hem
      have heM : e ∉ M := fun h => g.VK e (hMV e h) q1
      rw [hDeg, if_neg hem, hDeg5 e heM hem]
      have hd := c.inv.dg e q1
      have hlm : s5.lemax = s.lemax := by rw [h5.lemax]; change s2.lemax = _; rw [c.b.lemax, c.elm]
      refine ⟨?_, by omega⟩
      rw [← hd.1]
      have : ∑ i ∈ V1.filter (fun i => i ∈ L1 e), cnt n (mrg rep X me) i
          = ∑ i ∈ V1.filter (fun i => i ∈ L1 e), cnt n rep i :=
        Finset.sum_congr rfl fun x hx => hcV1 x (Finset.mem_filter.mp hx).1
      rw [this]
      refine Finset.sum_congr ?_ (fun _ _ => rfl)
      ext x
      rw [Finset.mem_filter (s := V1), mV1, Finset.mem_filter, hL1]
      simp only
      rw [if_neg hem]
      constructor
      · exact fun h => ⟨h.1.1, h.2⟩
      · rintro ⟨hxV, hxL⟩
        have hxE := g.le e q1 x hxV hxL
        refine ⟨⟨hxV, fun hxm => q2 (hxm ▸ hxE), fun hxX => ?_⟩, hxL⟩
        obtain ⟨m1, m2⟩ := (mX x).mp hxX
        have h' := (mE x m1 e).mpr ⟨hxE, q2, q3⟩
        rw [(s2mass_iff.mp m2).1] at h'
        simp at h'
  · refine le_trans (Finset.sum_le_sum (g := fun i => cnt n rep i * ((E i ++ A i).length : Int)) fun x hx => ?_)
      (le_trans (Finset.sum_le_sum_of_subset_of_nonneg (fun x hx => ((mV1 x).mp hx).1)
        (fun x _ _ => mul_nonneg (cnt_nonneg _) (by omega))) c.inv.wl)
    rw [hcV1 x hx]
    refine mul_le_mul_of_nonneg_left ?_ (cnt_nonneg _)
    have h1 := hlC x (hVO x hx)
    rw [lstV hx, lstV ((mV1 x).mp hx).1] at h1
    exact_mod_cast h1
  · intro i hi
    have hiM := hTM i hi
    rw [hDeg, if_neg (c.Mme hiM)]
    have h1 := h5.degP i hiM
    have h2 : s2.Degree.at i = s.Degree.at i := c.deg2 (c.Mme hiM)
    obtain ⟨D0, hD0⟩ := c.inv.dl
    have h3 := (hD0.rng i (hMV i hiM)).2.2.2
    simp only [hs4] at h1
    omega
  · rw [hDeg, if_pos rfl]
  · exact hw6
  · omega
  · intro x hx
    have hxr : 0 ≤ x ∧ x < n := by
      rcases Finset.mem_union.mp hx with h | h
      · exact g1.Vr x h
      · exact g1.Kr x h
    have hxx : x ∉ E me ∧ x ∉ Y ∧ s.W.at x ≠ 0 := by
      rcases Finset.mem_union.mp hx with h | h
      · obtain ⟨q1, q2, q3⟩ := (mV1 x).mp h
        exact ⟨fun h => g.VK x q1 (g.elt me c.meV x h).1, fun h => g.VK x q1 (hYok x h).1,
          c.inv.wne x (Finset.mem_union_left _ q1)⟩
      · rcases (mK1 x).mp h with rfl | ⟨q1, q2, q3⟩
        · exact ⟨fun h => g.VK x c.meV (g.elt x c.meV x h).1, hmY, c.inv.wne x (Finset.mem_union_left _ c.meV)⟩
        · exact ⟨q2, q3, c.inv.wne x (Finset.mem_union_right _ q1)⟩
    rw [Ne, hz6 x hxr.1 hxr.2, h5.w1 x (fun h => hxx.2.1 ((mY x).mpr h))]
    change ¬ W4.at x = 0
    rw [c.w4_zero h4 hxr.1 hxr.2]
    tauto
  · refine ⟨bh, D, B, hD.congr (fun _ _ => rfl) (fun _ _ => rfl) ?_, hB⟩
    intro x hx
    rw [hDeg, if_neg (fun e => ?_)]
    subst e
    exact ((mS x).mp hx).2.1 rfl
  · rw [h5.mindeg]
    change 0 ≤ s2.mindeg
    rw [c.b.mindeg]; exact c.md0
  · intro x hx
    obtain ⟨q1, q2, q3⟩ := (mS x).mp hx
    rw [hDeg, if_neg q2, hDeg5 x q3 q2, h5.mindeg]
    change s2.mindeg ≤ _
    rw [c.b.mindeg]
    exact c.md x q1
  · rw [h5.nel, hsumX, Finset.sum_congr rfl hcV1]
    change s2.nel + _ + _ = _
    rw [c.b.nel, c.nel0, c.inv.nv me hmr.1 hmr.2]
    have := c.inv.nel
    have e : V1.sum (cnt n rep) = ∑ x ∈ V1, cnt n rep x := rfl
    omega
  · rw [h5.nel]
    change 0 ≤ s2.nel + _
    rw [hsumX, c.b.nel, c.nel0, c.inv.nv me hmr.1 hmr.2]
    have h1 := c.inv.nel0
    have h2 := cnt_nonneg (n := n) (rep := rep) me
    have h3 : 0 ≤ ∑ x ∈ X, cnt n rep x := Finset.sum_nonneg fun _ _ => cnt_nonneg _
    omega
  · have : s5.lemax = s.lemax := by rw [h5.lemax]; change s2.lemax = _; rw [c.b.lemax, c.elm]
    have := c.inv.lemax
    have h1 := cnt_sum_le (rep := rep) hBig.1 T0
    have h2 : 0 ≤ ∑ x ∈ T0, cnt n rep x := Finset.sum_nonneg fun _ _ => cnt_nonneg _
    omega
  · -- degrees of the variables that are not adjacent to the pivot
    intro x hx
    obtain ⟨q1, q2, q3⟩ := (mS x).mp hx
    rw [hDeg, if_neg q2, hDeg5 x q3 q2]
    refine le_trans (extDeg_mono fun j hj _ hq => ⟨((mV1 j).mp hj).1, ?_, hcV1 j hj⟩) (c.inv.ext x q1)
    rcases hq with hq | ⟨e, he, e1, e2⟩
    · left
      rw [hA1] at hq
      simpa [q3] using hq
    · have hem : e ≠ me := by
        rintro rfl
        rw [hL1] at e1
        exact q3 (by simpa using e1)
      rw [hL1] at e1 e2
      simp only [if_neg hem] at e1 e2
      exact Or.inr ⟨e, (((mK1 e).mp he).resolve_left hem).1, e1, e2⟩
  · -- degrees of the variables that are adjacent to the pivot
    intro x hx
    have hxM := hTM x hx
    have hxV := hMV x hxM
    have hxm : ¬ s2mass aggr s4 E A x = true := by
      have := ((mT x).mp hx).2
      rw [hmass] at this
      simp [this]
    rw [hDeg, if_neg (c.Mme hxM), h5.degX x hxM hxm]
    have e0 : s4.Degree.at x = s.Degree.at x := c.deg2 (c.Mme hxM)
    rw [e0]
    have hSV1 : ∀ j ∈ S, j ∈ V1 := fun j hj => (hVST j).mpr (Or.inl hj)
    -- where the neighbours outside the pivot element come from
    have hnb : ∀ j ∈ S, QAdj K1 A1 L1 x j → j ∈ s2A s4 A x ∨ ∃ e ∈ s2E aggr s4 E x, j ∈ L e := by
      intro j hj hq
      have hjS := (mS j).mp hj
      rcases hq with hq | ⟨e, he, e1, e2⟩
      · left
        rw [hA1] at hq
        simp only at hq
        rwa [if_pos hxM, hrot] at hq
      · right
        have hem : e ≠ me := by
          rintro rfl
          rw [hL1] at e2
          exact hjS.2.2 (by simpa using e2)
        rw [hL1] at e1 e2
        simp only [if_neg hem] at e1 e2
        have hk := ((mK1 e).mp he).resolve_left hem
        exact ⟨e, (mE x hxM e).mpr ⟨g.le e hk.1 x hxV e1, hk.2⟩, e2⟩
    refine le_min ?_ ?_
    · refine le_trans (extDeg_mono fun j hj _ hq => ⟨((mS j).mp hj).1, ?_, hcV1 j (hSV1 j hj)⟩) (c.inv.ext x hxV)
      rcases hnb j hj hq with h' | ⟨e, h', hje⟩
      · exact Or.inl ((mA x hxM j).mp h').1
      · have hE := ((mE x hxM e).mp h').1
        have := g.elt x hxV e hE
        exact Or.inr ⟨e, this.1, this.2, hje⟩
    · unfold extDeg
      rw [Finset.sum_congr rfl (g := cnt n rep) (fun j hj => hcV1 j (hSV1 j (Finset.mem_filter.mp hj).1))]
      refine le_trans (sum_le_cover (c := cnt n rep) (fun j => cnt_nonneg j) (la := s2A s4 A x)
        (G := fun e => S.filter (fun j => j ∈ L e)) (s2E aggr s4 E x) ?_) ?_
      · intro j hj
        rw [Finset.mem_filter] at hj
        rcases hnb j hj.1 hj.2.2 with h' | ⟨e, h', hje⟩
        · exact Or.inl h'
        · exact Or.inr ⟨e, h', Finset.mem_filter.mpr ⟨hj.1, hje⟩⟩
      · unfold s2D
        refine add_le_add (List.sum_le_sum fun e he => ?_) (le_of_eq ?_)
        · obtain ⟨k1, k2, k3⟩ := (mE x hxM e).mp he
          have hK := (g.elt x hxV e k1).1
          have hr := g.Kr e hK
          have h3' : W3.at e ≠ 0 := by
            rw [Ne, c.w3zero hr.1 hr.2]
            exact fun h => h.elim k2 (c.inv.wne e (Finset.mem_union_right _ hK))
          change _ ≤ W4.at e - wf
          rw [c.w4_touched h4 h3' ⟨x, hxM, k1⟩, ← (c.inv.dg e hK).1]
          have hsc : scanSum E (cnt n rep) M e = ∑ j ∈ (M.filter (fun i => e ∈ E i)).toFinset, cnt n rep j := by
            unfold scanSum
            exact list_sum_filter c.b.nodup _ _
          have hsub : S.filter (fun j => j ∈ L e) ∪ (M.filter (fun i => e ∈ E i)).toFinset
              ⊆ V.filter (fun i => i ∈ L e) := by
            intro j hj
            rw [Finset.mem_filter]
            rcases Finset.mem_union.mp hj with h' | h'
            · have := Finset.mem_filter.mp h'
              exact ⟨((mS j).mp this.1).1, this.2⟩
            · rw [List.mem_toFinset, List.mem_filter, decide_eq_true_eq] at h'
              exact ⟨hMV j h'.1, (g.elt j (hMV j h'.1) e h'.2).2⟩
          have hdis : Disjoint (S.filter (fun j => j ∈ L e)) (M.filter (fun i => e ∈ E i)).toFinset := by
            rw [Finset.disjoint_left]
            intro j h1 h2
            rw [List.mem_toFinset, List.mem_filter] at h2
            exact ((mS j).mp (Finset.mem_filter.mp h1).1).2.2 h2.1
          have hs := Finset.sum_le_sum_of_subset_of_nonneg (f := cnt n rep) hsub (fun _ _ _ => cnt_nonneg _)
          rw [Finset.sum_union hdis] at hs
          omega
        · congr 1
          refine List.map_congr_left fun j hj => ?_
          obtain ⟨j1, j2, j3, j4⟩ := (mA x hxM j).mp hj
          have hr := g.Vr j j2
          change _ = s2.Nv.at j
          rw [c.nv2 hr.1 hr.2, if_neg (by tauto)]
  · -- exact degrees of the variables that are not adjacent to the pivot
    intro hnd x hx hE
    obtain ⟨q1, q2, q3⟩ := (mS x).mp hx
    rw [hDeg, if_neg q2, hDeg5 x q3 q2]
    have hnd' : ∀ z, 0 ≤ z → z < n → rep z ≠ -1 := by
      intro z z0 z1 hz
      refine hnd z z0 z1 ?_
      unfold mrg
      rw [hz, if_neg]
      intro h'
      have := g.Vr _ (hXV _ h').1
      omega
    have hE' : (E x).length ≤ 2 := by
      rw [hE1] at hE
      simpa only [if_neg q3] using hE
    refine le_trans (c.inv.ub hnd' x q1 hE') (extDeg_mono fun j hj _ hq => ?_)
    have hno : ∀ e, x ∈ L e → e ∈ K → e ∉ E me ∧ e ∉ Y := fun e he heK =>
      ⟨fun h' => q3 ((c.mem_M x).mpr ⟨⟨q1, q2⟩, Or.inr ⟨e, h', he⟩⟩), fun h' => q3 ((hYok e h').2.2 x q1 he)⟩
    have hjV : j ∈ V1 := by
      refine (mV1 j).mpr ⟨hj, ?_, ?_⟩
      · rintro rfl
        refine q3 ((c.mem_M x).mpr ⟨⟨q1, q2⟩, ?_⟩)
        rcases hq with hq | ⟨e, he, e1, e2⟩
        · exact Or.inl (g.sym x q1 j hj hq)
        · exact Or.inr ⟨e, g.le e he j hj e2, e1⟩
      · intro hjX
        obtain ⟨m1, m2⟩ := (mX j).mp hjX
        rcases hq with hq | ⟨e, he, e1, e2⟩
        · have h' := (mA j m1 x).mpr ⟨g.sym x q1 j hj hq, q1, q2, q3⟩
          rw [(s2mass_iff.mp m2).2] at h'
          simp at h'
        · have h' := (mE j m1 e).mpr ⟨g.le e he j hj e2, hno e e1 he⟩
          rw [(s2mass_iff.mp m2).1] at h'
          simp at h'
    refine ⟨hjV, ?_, (hcV1 j hjV).symm⟩
    rcases hq with hq | ⟨e, he, e1, e2⟩
    · left
      rw [hA1]
      simpa [q3] using hq
    · right
      refine ⟨e, (mK1 e).mpr (Or.inr ⟨he, hno e e1 he⟩), ?_⟩
      rw [hL1]
      simp only [if_neg (c.Kme he)]
      exact ⟨e1, e2⟩
  · -- exact degrees of the variables that are adjacent to the pivot
    intro x hx hE
    have hxM := hTM x hx
    have hxV := hMV x hxM
    have hxm : ¬ s2mass aggr s4 E A x = true := by
      have := ((mT x).mp hx).2
      rw [hmass] at this
      simp [this]
    have hE' : (s2E aggr s4 E x).length ≤ 1 := by
      rw [hE1] at hE
      simp only [if_pos hxM, List.length_cons, List.length_rotate] at hE
      omega
    rw [hDeg, if_neg (c.Mme hxM), h5.degX x hxM hxm]
    refine le_trans (min_le_right _ _) ?_
    have hSV1 : ∀ j ∈ S, j ∈ V1 := fun j hj => (hVST j).mpr (Or.inl hj)
    have hnx : ∀ j ∈ S, j ≠ x := fun j hj e => ((mS j).mp hj).2.2 (e ▸ hxM)
    have hAS : ∀ j ∈ s2A s4 A x, j ∈ S ∧ QAdj K1 A1 L1 x j := by
      intro j hj
      refine ⟨(mS j).mpr ((mA x hxM j).mp hj).2, Or.inl ?_⟩
      rw [hA1]
      simp only
      rwa [if_pos hxM, hrot]
    have hLS : ∀ e ∈ s2E aggr s4 E x, ∀ j ∈ L e, QAdj K1 A1 L1 x j := by
      intro e he j hj
      obtain ⟨k1, k2⟩ := (mE x hxM e).mp he
      have hk := g.elt x hxV e k1
      refine Or.inr ⟨e, (mK1 e).mpr (Or.inr ⟨hk.1, k2⟩), ?_⟩
      rw [hL1]
      simp only [if_neg (c.Kme hk.1)]
      exact ⟨hk.2, hj⟩
    have hAsum : ((s2A s4 A x).map s4.Nv.at).sum = ∑ j ∈ (s2A s4 A x).toFinset, cnt n rep j := by
      rw [List.sum_toFinset]
      · congr 1
        refine List.map_congr_left fun j hj => ?_
        obtain ⟨j1, j2, j3, j4⟩ := (mA x hxM j).mp hj
        have hr := g.Vr j j2
        change s2.Nv.at j = _
        rw [c.nv2 hr.1 hr.2, if_neg (by tauto)]
      · exact (List.nodup_append.mp (g.nodup x hxV)).2.1.filter _
    have hEsum : ∀ e ∈ s2E aggr s4 E x, s4.W.at e - s4.wflg ≤ ∑ j ∈ S.filter (fun j => j ∈ L e), cnt n rep j := by
      intro e he
      obtain ⟨k1, k2, k3⟩ := (mE x hxM e).mp he
      have hK := (g.elt x hxV e k1).1
      have hr := g.Kr e hK
      have h3' : W3.at e ≠ 0 := by
        rw [Ne, c.w3zero hr.1 hr.2]
        exact fun h => h.elim k2 (c.inv.wne e (Finset.mem_union_right _ hK))
      change W4.at e - wf ≤ _
      rw [c.w4_touched h4 h3' ⟨x, hxM, k1⟩, ← (c.inv.dg e hK).1]
      have hsc : scanSum E (cnt n rep) M e = ∑ j ∈ (M.filter (fun i => e ∈ E i)).toFinset, cnt n rep j := by
        unfold scanSum
        exact list_sum_filter c.b.nodup _ _
      have hsub : V.filter (fun i => i ∈ L e)
          ⊆ S.filter (fun j => j ∈ L e) ∪ (M.filter (fun i => e ∈ E i)).toFinset := by
        intro j hj
        obtain ⟨j1, j2⟩ := Finset.mem_filter.mp hj
        have hje := g.le e hK j j1 j2
        rw [Finset.mem_union, Finset.mem_filter, List.mem_toFinset, List.mem_filter, decide_eq_true_eq]
        by_cases hjM : j ∈ M
        · exact Or.inr ⟨hjM, hje⟩
        · exact Or.inl ⟨(mS j).mpr ⟨j1, fun h' => k2 (h' ▸ hje), hjM⟩, j2⟩
      have hs := Finset.sum_le_sum_of_subset_of_nonneg (f := cnt n rep) hsub (fun _ _ _ => cnt_nonneg _)
      have hu := Finset.sum_union_inter (s₁ := S.filter (fun j => j ∈ L e))
        (s₂ := (M.filter (fun i => e ∈ E i)).toFinset) (f := cnt n rep)
      have hp : 0 ≤ ∑ j ∈ S.filter (fun j => j ∈ L e) ∩ (M.filter (fun i => e ∈ E i)).toFinset, cnt n rep j :=
        Finset.sum_nonneg fun _ _ => cnt_nonneg _
      omega
    have hfin : ∀ F : Finset Int, (∀ j ∈ F, j ∈ S ∧ QAdj K1 A1 L1 x j) →
        ∑ j ∈ F, cnt n rep j ≤ extDeg n S K1 A1 L1 (mrg rep X me) x := by
      intro F hF
      unfold extDeg
      rw [Finset.sum_congr rfl (g := cnt n rep) (fun j hj => hcV1 j (hSV1 j (Finset.mem_filter.mp hj).1))]
      refine Finset.sum_le_sum_of_subset_of_nonneg (fun j hj => ?_) fun _ _ _ => cnt_nonneg _
      exact Finset.mem_filter.mpr ⟨(hF j hj).1, hnx j (hF j hj).1, (hF j hj).2⟩
    unfold s2D
    rw [hAsum]
    rcases hl : s2E aggr s4 E x with _ | ⟨e, _ | ⟨e', l⟩⟩
    · simp only [List.map_nil, List.sum_nil, zero_add]
      exact hfin _ fun j hj => hAS j (List.mem_toFinset.mp hj)
    · have hes : e ∈ s2E aggr s4 E x := by rw [hl]; simp
      simp only [List.map_cons, List.map_nil, List.sum_cons, List.sum_nil, add_zero]
      refine le_trans (add_le_add_left (hEsum e hes) _) ?_
      rw [← Finset.sum_union]
      · refine hfin _ fun j hj => ?_
        rcases Finset.mem_union.mp hj with h' | h'
        · exact ⟨(Finset.mem_filter.mp h').1, hLS e hes j (Finset.mem_filter.mp h').2⟩
        · exact hAS j (List.mem_toFinset.mp h')
      · rw [Finset.disjoint_left]
        intro j h1 h2
        obtain ⟨j1, j2⟩ := (mA x hxM j).mp (List.mem_toFinset.mp h2)
        exact g.dis x hxV e ((mE x hxM e).mp hes).1 j j1 j2.1 (Finset.mem_filter.mp h1).2
    · rw [hl] at hE'
      simp at hE'

end BCtx

end Verif
