import Verif.Lemmas.AmdIterHead

/-!
# From the second scan to the middle of an iteration of `AMD_2`
-/

namespace Verif

open Finset

namespace BCtx

variable {n iwlen me pme1 pme2 degme wf : Int} {M : List Int} {V K Z : Finset Int}
  {E A L : Int → List Int} {rep : Int → Int} {rk : Int → Nat} {s s0 s2 : Amd2} {W3 W4 : Buf Int}
  {aggr : Bool}

theorem scan2_start (c : BCtx n iwlen V K Z E A L rep rk me pme1 pme2 degme wf M s s0 s2 W3)
    (aW4 : Arr W4 n n) {nv0 : Int} :
    Scan2 n iwlen me (V.erase me) (V.erase me ∪ K.filter (fun x => x ∉ E me)) (lst V E A L) E A (cnt n rep) aggr
      pme1 degme nv0 M [] { s2 with wflg := wf, W := W4 } degme nv0 { s2 with wflg := wf, W := W4 } := by
  have b := c.b
  obtain ⟨D, hD⟩ := b.dl
  refine ⟨b.aP, b.aI, b.aL, b.aNv, b.aN, b.aT, b.aH, aW4, b.aE, b.aD, rfl, rfl, rfl, rfl, by simp, by simp, by simp,
    ?_, fun _ _ _ => rfl, ?_, fun _ _ => rfl, by simp, by simp, by simp, fun _ _ => rfl, by simp, ?_, b.blk, ?_,
    b.val, by simp⟩
  · rintro x (⟨h, _⟩ | ⟨⟨i, h, _⟩, _⟩) <;> simp at h
  · rintro x ⟨⟨i, h, _⟩, _⟩; simp at h
  · simp only [List.not_mem_nil, false_and, not_false_eq_true, if_false]
    rw [Finset.filter_true_of_mem (fun _ _ => trivial)]
    exact b.mem
  · refine ⟨fun _ => EMPTY, D, fun _ => [], hD, ?_⟩
    refine ⟨by simp, by simp, by simp, fun _ _ _ => rfl⟩

theorem scan2 (hBig : 0 ≤ n ∧ 0 ≤ iwlen ∧ 3 * (n + iwlen) + 10 ≤ Int_MAX)
    (c : BCtx n iwlen V K Z E A L rep rk me pme1 pme2 degme wf M s s0 s2 W3) (aW4 : Arr W4 n n)
    (h4 : ∀ e, W4.at e = scan1W E (cnt n rep) W3.at s2.Degree.at wf M e) {nv0 : Int}
    (hnv0 : nv0 = cnt n rep me) :
    Spec (forI pme1 (pme1 + M.length) (degme, nv0, { s2 with wflg := wf, W := W4 }) (amd2Scan2 aggr n me)) (fun r =>
      Scan2 n iwlen me (V.erase me) (V.erase me ∪ K.filter (fun x => x ∉ E me)) (lst V E A L) E A (cnt n rep) aggr
        pme1 degme nv0 M M { s2 with wflg := wf, W := W4 } r.1 r.2.1 r.2.2) := by
  have hmr := c.mer
  have hMe : ∀ i ∈ M, i ∈ V.erase me := fun i hi => Finset.mem_erase.mpr ⟨c.Mme hi, c.MV hi⟩
  have hVn := cnt_sum_le (rep := rep) hBig.1 V
  have hws := c.wsum
  have hcm := c.cpos c.meV
  have hM0 : 0 ≤ (M.map (cnt n rep)).sum := by
    refine List.sum_nonneg fun x hx => ?_
    obtain ⟨i, _, rfl⟩ := List.mem_map.mp hx
    exact cnt_nonneg _
  have hdeg : degme = (M.map (cnt n rep)).sum := by
    rw [c.b.deg]
    congr 1
    refine List.map_congr_left fun i hi => ?_
    rw [c.eNv, c.inv.nv i (c.Mr hi).1 (c.Mr hi).2]
  have hnel : s2.nel = s.nel + cnt n rep me := by
    rw [c.b.nel, c.nel0, c.inv.nv me hmr.1 hmr.2]
  have hnel2 := c.inv.nel
  have hnel3 := c.inv.nel0
  refine scan2_spec (ext := s.Degree.at) hBig ?_ ?_ ⟨⟨by omega, by omega⟩, ⟨by simp only; omega, by simp only; omega⟩,
    by omega, by omega⟩ (by omega) (fun i hi => c.Mr hi) hMe hmr (fun i hi => Finset.mem_union_left _ (hMe i hi))
    (fun i hi => lstV (c.MV hi)) ?_ ?_ ?_ ?_ (fun i hi => c.room h4 hi) ?_ (fun i hi => c.cpos (c.MV hi)) ?_ ?_
    c.b.disj c.b.p0 c.b.pf c.b.nodup (c.scan2_start aW4)
  · intro i hi
    refine ⟨fun e he => ?_, c.esum hi⟩
    have hK := (c.inv.g.elt i (c.MV hi) e he).1
    have hd0 : 0 ≤ s.Degree.at e := by
      rw [← (c.inv.dg e hK).1]
      exact Finset.sum_nonneg fun _ _ => cnt_nonneg _
    refine ⟨hd0, fun hz => ?_⟩
    simp only at hz ⊢
    have h3 : W3.at e ≠ 0 := by
      intro h3
      apply hz
      rw [h4]
      unfold scan1W
      rw [if_neg (fun h => h.1 h3), h3]
    rw [c.w4_touched h4 h3 ⟨i, hi, he⟩]
    have := scanSum_nonneg (E := E) (wt := cnt n rep) (P := M) (e := e) (fun _ _ => cnt_nonneg _)
    omega
  · intro i hi
    have hnd := (List.nodup_append.mp (c.inv.g.nodup i (c.MV hi))).2.1
    have hnd' : (s2A { s2 with wflg := wf, W := W4 } A i).Nodup := hnd.filter _
    rw [← List.sum_toFinset _ hnd']
    refine le_trans (Finset.sum_le_sum (g := cnt n rep) fun x hx => ?_)
      (cnt_sum_le (rep := rep) hBig.1 _)
    rw [List.mem_toFinset] at hx
    unfold s2A at hx
    rw [List.mem_filter] at hx
    have hr : 0 ≤ x ∧ x < n := by
      rcases (c.inv.g.var i (c.MV hi) x hx.1).2 with h | h
      · exact c.inv.g.Vr x h
      · exact c.inv.g.Zr x h
    simp only
    rw [c.nv2 hr.1 hr.2]
    have := cnt_nonneg (n := n) (rep := rep) x
    split <;> omega
  · intro i hi
    simp only
    rw [c.b.elen, if_neg (c.Mme hi), c.eEl]
    exact c.inv.elen i (c.MV hi)
  · intro i hi
    exact c.b.len i (Finset.mem_union_left _ (hMe i hi))
  · intro i hi
    exact (List.nodup_append.mp (c.inv.g.nodup i (c.MV hi))).1
  · intro i hi e he h
    exact c.inv.g.VK e (Finset.mem_of_mem_erase h) (c.inv.g.elt i (c.MV hi) e he).1
  · intro i hi
    simp only
    rw [c.nv2 (c.Mr hi).1 (c.Mr hi).2, if_pos (Or.inl hi)]
  · intro i hi e he hz
    exact c.w4_ge h4 hi he hz
  · intro i hi
    simp only
    rw [c.deg2 (c.Mme hi)]
    obtain ⟨D, hD⟩ := c.inv.dl
    exact (hD.rng i (c.MV hi)).2.2.1

theorem scan1 (hBig : 0 ≤ n ∧ 0 ≤ iwlen ∧ 3 * (n + iwlen) + 10 ≤ Int_MAX) (c : BCtx n iwlen V K Z E A L rep rk me pme1 pme2 degme wf M s s0 s2 W3) :
    Spec (forI pme1 (pme1 + M.length) { s2 with wflg := wf, W := W3 } amd2Scan1) (fun s' =>
      ∃ W, s' = { s2 with wflg := wf, W := W } ∧ Arr W n n ∧
      ∀ e, W.at e = scan1W E (cnt n rep) W3.at s2.Degree.at wf M e) := by
  have b := c.b
  have hMe : ∀ i ∈ M, i ∈ V.erase me ∪ K.filter (fun x => x ∉ E me) := fun i hi =>
    Finset.mem_union_left _ (Finset.mem_erase.mpr ⟨c.Mme hi, c.MV hi⟩)
  refine (scan1_spec (s := { s2 with wflg := wf, W := W3 }) (E := E) (wt := cnt n rep) hBig
    ⟨by have := c.wf2; simp only; omega, c.wtop⟩ ?_ ?_ b.aP b.aI b.aNv c.aW3 b.aE
    b.aD (fun i hi => c.Mr hi) b.p0 b.pf b.blk ?_ ?_ ?_ ?_ ?_ (fun i hi => c.cpos (c.MV hi)) c.w3 ?_).mono ?_
  · intro i hi
    have := cnt_sum_le (rep := rep) hBig.1 {i}
    rwa [Finset.sum_singleton] at this
  · rintro e _ ⟨i, hi, he⟩
    have hK := (c.inv.g.elt i (c.MV hi) e he).1
    simp only
    rw [c.deg2 (c.Kme hK)]
    exact c.deg_le hK
  · intro i hi
    simp only
    rw [c.b.elen, if_neg (c.Mme hi), c.eEl]
    exact c.inv.elen i (c.MV hi)
  · intro i hi
    have h1 := b.mem.blk i (hMe i hi)
    have h2 := b.mem.lo i (hMe i hi)
    have h3 := b.mem.hi i (hMe i hi)
    rw [lstV (c.MV hi)] at h1 h3
    rw [Blk.append_iff] at h1
    rw [List.length_append] at h3
    push_cast at h3
    exact ⟨h1.1, h2, by simp only; omega⟩
  · intro i hi
    exact (List.nodup_append.mp (c.inv.g.nodup i (c.MV hi))).1
  · intro i hi e he
    exact c.inv.g.Kr e (c.inv.g.elt i (c.MV hi) e he).1
  · intro i hi
    simp only
    rw [c.nv2 (c.Mr hi).1 (c.Mr hi).2, if_pos (Or.inl hi)]
  · intro e h1 h2
    exact c.scan1_hyp h1 h2
  · rintro s' ⟨W, rfl, h1, h2⟩
    exact ⟨W, rfl, h1, h2⟩

end BCtx

end Verif
