import Verif.Lemmas.AmdIterMid2

/-!
# One iteration and the main loop of `AMD_2`
-/

namespace Verif

open Finset

variable {n iwlen : Int} {V K Z : Finset Int} {E A L : Int → List Int} {rep : Int → Int} {rk : Int → Nat}
  {s : Amd2}

/-- The loop invariant for some choice of its ghost parameters. -/
def AOk (n iwlen : Int) (s : Amd2) : Prop :=
  ∃ V K Z E A L rep rk, AInv n iwlen V K Z E A L rep rk s

theorem AInv.nelPos (h : AInv n iwlen V K Z E A L rep rk s) : s.nel ≤ n := by
  have h1 := h.nel
  have h2 : 0 ≤ ∑ x ∈ V, cnt n rep x := Finset.sum_nonneg fun _ _ => cnt_nonneg _
  omega

theorem AInv.live (h : AInv n iwlen V K Z E A L rep rk s) (hlt : s.nel < n) : V.Nonempty := by
  by_contra hV
  rw [Finset.not_nonempty_iff_eq_empty] at hV
  have h1 := h.nel
  rw [hV] at h1
  simp at h1
  omega

set_option maxHeartbeats 1000000 in
theorem amd2IterF_spec {wbig : Int} {aggr : Bool} (hBig : 0 ≤ n ∧ 0 ≤ iwlen ∧ 3 * (n + iwlen) + 10 ≤ Int_MAX)
    (hwb : wbig = Int_MAX - n) (h : AInv n iwlen V K Z E A L rep rk s)
    (hlt : s.nel < n) :
    Spec (amd2IterF aggr n iwlen wbig s) (fun r => s.nel < r.2.2.nel ∧
      ∃ V' K' Z' E' A' L' rep' rk' me, AInv n iwlen V' K' Z' E' A' L' rep' rk' r.2.2 ∧
        (∀ x, Elim n V' Z' x ↔ x = me ∨ Elim n V Z x) ∧ me ∈ V ∧ r.2.1 = cnt n rep' me ∧
        (∀ x, x = -1 ∨ Elim n V Z x → ∀ z, rep' z = x ↔ rep z = x) ∧
        (∀ x ∈ V, s.Degree.at me ≤ s.Degree.at x) ∧
        (∀ adj C, QSem n adj V K Z A L rep s.Pe.at C → ∃ C', QSem n adj V' K' Z' A' L' rep' r.2.2.Pe.at C' ∧
          ((C' me).card : Int) = r.1 ∧ ∀ x, x ≠ me → C' x = C x)) := by
  have hn := hBig.1
  have g := h.g
  obtain ⟨D, hD⟩ := h.dl
  unfold amd2IterF
  refine Spec.bind (amd2Pivot_spec h.aN h.aT h.aH hD h.md0 h.md (h.live hlt)) ?_
  rintro ⟨me, s1⟩ ⟨hmV, Lt, Hd, md, rfl, aLt, aHd, hmd0, hmd, hD1, hmde⟩
  simp only at hmV hmd hD1 hmde ⊢
  have hmr := g.Vr me hmV
  have hcm : 0 < cnt n rep me := h.t.cntP hmr.1 hmr.2 (g.VZ me hmV)
  rw [h.aE.rd hmr.1 hmr.2, ok_bind, h.aNv.rd hmr.1 hmr.2, ok_bind, h.elen me hmV]
  have hVn := cnt_sum_le (rep := rep) hn V
  have hmle : cnt n rep me ≤ ∑ x ∈ V, cnt n rep x :=
    Finset.single_le_sum (fun _ _ => cnt_nonneg _) hmV
  have hnel := h.nel
  have hnel0 := h.nel0
  have hnvme := h.nv me hmr.1 hmr.2
  rw [ck_bind (by omega)]
  have hins : insert me (V.erase me ∪ K) = V ∪ K := by
    ext x
    rw [Finset.mem_insert, Finset.mem_union, Finset.mem_union, Finset.mem_erase]
    constructor
    · rintro (rfl | h | h)
      · exact Or.inl hmV
      · exact Or.inl h.2
      · exact Or.inr h
    · tauto
  have hnvV : ∀ x, 0 ≤ x → x < n → x ∈ V ∨ x ∈ Z → x ≠ me → (0 < s.Nv.at x ↔ x ∈ V.erase me) := by
    intro x h0 h1 hx hxm
    rw [h.nv x h0 h1, Finset.mem_erase]
    constructor
    · intro hc
      refine ⟨hxm, hx.resolve_right fun hz => ?_⟩
      rw [h.t.cntZ hz h0] at hc
      omega
    · rintro ⟨_, hv⟩
      exact h.t.cntP h0 h1 (g.VZ x hv)
  have hVZr : ∀ x, x ∈ V ∨ x ∈ Z → 0 ≤ x ∧ x < n := by
    rintro x (hx | hx)
    · exact g.Vr x hx
    · exact g.Zr x hx
  refine Spec.bind (amd2Construct_spec (V := V.erase me) (K := K) (C := lst V E A L) (es := E me) (am := A me)
    (s := { s with Last := Lt, Head := Hd, mindeg := md, nel := s.nel + s.Nv.at me })
    hBig ?_ hn hmr (by simp) (g.VK me hmV) h.aP h.aI h.aL h.aNv h.aN aLt aHd h.aW h.aE h.aD ⟨_, hD1⟩ ?_ (lstV hmV)
    (g.nodup me hmV) ?_ ?_ g.Kr ?_ ?_ h.pf h.val ?_ ?_ ?_ ?_) ?_
  · rw [Finset.insert_erase hmV]
    have hnvs : ∀ x ∈ V, s.Nv.at x = cnt n rep x := fun x hx => h.nv x (g.Vr x hx).1 (g.Vr x hx).2
    refine ⟨fun x hx => ?_, ?_⟩
    · change 0 ≤ s.Nv.at x
      rw [hnvs x hx]; exact cnt_nonneg _
    · change ∑ x ∈ V, s.Nv.at x ≤ n
      rw [Finset.sum_congr rfl hnvs]; exact hVn
  · rw [hins]; exact h.mem
  · rw [hins]; exact h.len
  · intro i hi
    exact g.Vr i (Finset.mem_of_mem_erase hi)
  · intro e he
    have := (g.elt me hmV e he).1
    exact ⟨this, fun h' => g.VK e (Finset.mem_of_mem_erase h') this⟩
  · intro x h0 h1 hxm hxV hxK
    refine h.t.pe_neg h0 h1 (fun hv => hxV (Finset.mem_erase.mpr ⟨hxm, hv⟩)) hxK
  · rw [hins]; exact h.size
  · change 0 < s.Nv.at me
    rw [h.nv me hmr.1 hmr.2]; exact hcm
  · intro i hi
    have hv := g.var me hmV i hi
    have hr := hVZr i hv.2
    exact ⟨hv.1, hr, hnvV i hr.1 hr.2 hv.2 hv.1⟩
  · intro e he i hi
    have heK := (g.elt me hmV e he).1
    have e1 : lst V E A L e = L e := by
      unfold lst
      rw [if_neg (fun h' => g.VK e h' heK)]
    rw [e1] at hi
    have hv := g.lv e heK i hi
    have hr := hVZr i hv
    exact ⟨hr, hnvV i hr.1 hr.2 hv⟩
  rintro ⟨pme1, pme2, degme, s2⟩ ⟨M, b⟩
  simp only at b ⊢
  have hw2 : ∀ x, 0 ≤ x → x < n → s2.W.at x < s2.wflg := by
    intro x h0 h1
    rw [b.w, b.wflg]
    have h2 := h.w x h0 h1
    have h3 := h.w me hmr.1 hmr.2
    simp only
    split
    · next hx =>
      have hxK := (g.elt me hmV x hx).1
      have hwp := h.wpos
      omega
    · exact h2
  refine Spec.bind (clear_flag_spec hn b.aW hw2) ?_
  rintro ⟨wf, W3⟩ ⟨aW3, hwf, hwt, hw3, hz3⟩
  simp only at aW3 hwf hwt hw3 hz3 ⊢
  have c : BCtx n iwlen V K Z E A L rep rk me pme1 pme2 degme wf M s
      { s with Last := Lt, Head := Hd, mindeg := md, nel := s.nel + s.Nv.at me } s2 W3 :=
    ⟨h, hmV, rfl, rfl, rfl, rfl, rfl, rfl, rfl, hmd0, hmd, b, hwf, by omega, aW3, hw3, hz3⟩
  have hp2 : pme2 + 1 = pme1 + M.length := by have := b.p2; omega
  have hptop : 0 ≤ pme1 + M.length ∧ pme1 + M.length ≤ iwlen := by
    have h0 := b.p0
    have h1 := b.pf
    by_cases hpz : 0 < s2.pfree
    · have := b.aI.m_le hpz
      omega
    · omega
  rw [hp2, ck_bind (by omega)]
  refine Spec.bind (c.scan1 hBig) ?_
  rintro _ ⟨W4, rfl, aW4, h4⟩
  refine Spec.bind (c.scan2 hBig (aggr := aggr) aW4 h4 hnvme) ?_
  rintro ⟨dg5, nvp5, s5⟩ h5
  simp only at h5 ⊢
  rw [h5.aD.wr hmr.1 hmr.2, ok_bind]
  have hwt5 : s5.wflg = wf := h5.wflg
  have hlm5 : s5.lemax = s.lemax := by rw [h5.lemax]; change s2.lemax = _; rw [b.lemax]
  have hlm := h.lemax
  have hdg5 : 0 ≤ dg5 ∧ dg5 ≤ n := by
    have h0 : ∀ x ∈ M.map (cnt n rep), 0 ≤ x := fun x hx => by
      obtain ⟨i, _, rfl⟩ := List.mem_map.mp hx
      exact cnt_nonneg _
    have h1 := (List.filter_sublist (l := M) (p := s2mass aggr { s2 with wflg := wf, W := W4 } E A)).map
      (cnt n rep) |>.sum_le_sum h0
    have h2 : 0 ≤ ((M.filter (s2mass aggr { s2 with wflg := wf, W := W4 } E A)).map (cnt n rep)).sum :=
      List.sum_nonneg fun x hx => h0 x ((List.filter_sublist.map _).subset hx)
    have h3 := c.wsum
    have h6 : degme = (M.map (cnt n rep)).sum := by
      rw [b.deg]
      congr 1
      exact List.map_congr_left fun i hi => h.nv i (c.Mr hi).1 (c.Mr hi).2
    have h7 := h5.dg
    omega
  rw [ck_bind (by omega)]
  have hw5 : ∀ x, 0 ≤ x → x < n → s5.W.at x < s5.wflg + max s5.lemax dg5 := by
    intro x h0 h1
    have e1 : s5.wflg = wf := h5.wflg
    have e2 : s5.lemax = s.lemax := by rw [h5.lemax]; change s2.lemax = _; rw [b.lemax]
    have h6 := c.w4_lt h4 h0 h1
    by_cases ha : s2abs aggr { s2 with wflg := wf, W := W4 } E M x
    · rw [h5.w0 x ha]; omega
    · rw [h5.w1 x ha]; simp only; omega
  refine Spec.bind (clear_flag_spec hn h5.aW hw5) ?_
  rintro ⟨wf6, W6⟩ ⟨aW6, hwf6, hwt6, hw6, hz6⟩
  simp only at aW6 hwf6 hwt6 hw6 hz6 ⊢
  obtain ⟨S, T0, V1, K1, Z1, E1, A1, L1, rep1, rk1, hm, em1, cm1, sm1⟩ := c.mid hBig h4 h5 aW6 hwf6 (by omega) hw6 hz6
  refine (iterTail_spec hBig hm).mono ?_
  rintro ⟨r1, r2, s'⟩ ⟨rfl, rfl, V', K', Z', L', rep', rk', hi, hnel, em2, cm2, sm2⟩
  have hmeT : me ∉ T0 := fun h' => hm.g.VK me ((hm.VST me).mpr (Or.inr h')) hm.meK
  refine ⟨?_, V', K', Z', E1, A1, L', rep', rk', me, hi, fun x => (em2 x).trans (em1 x), hmV, ?_, ?_, fun x hx => hmde ▸ hmd x hx, ?_⟩
  rotate_left
  · simp only
    rw [cnt_congr (cm2 me hmeT)]
    exact hm.nvp
  · intro x hx z
    have hx1 : x ∉ V := hx.elim (fun e h' => by have := (g.Vr x h').1; omega) fun h' => h'.2.1
    refine (cm2 x (fun h' => ?_) z).trans (cm1 x hx1 z)
    have h2 := (hm.VST x).mpr (Or.inr h')
    rcases hx with rfl | hx
    · have := (hm.g.Vr _ h2).1
      omega
    · exact ((em1 x).mpr (Or.inr hx)).2.1 h2
  · intro adj C hS
    obtain ⟨C1, q1, q2, q3⟩ := sm1 adj C hS
    exact ⟨C1, sm2 adj C1 q1, q2, q3⟩
  simp only at hnel ⊢
  rw [hnel]
  rw [h5.nel]
  have h7 : 0 ≤ ((M.filter (s2mass aggr { s2 with wflg := wf, W := W4 } E A)).map (cnt n rep)).sum := by
    refine List.sum_nonneg fun x hx => ?_
    obtain ⟨i, _, rfl⟩ := List.mem_map.mp hx
    exact cnt_nonneg _
  have h8 : s2.nel = s.nel + s.Nv.at me := b.nel
  rw [h.nv me hmr.1 hmr.2] at h8
  simp only
  omega

theorem amd2Iter_spec {wbig : Int} {aggr : Bool} (hBig : 0 ≤ n ∧ 0 ≤ iwlen ∧ 3 * (n + iwlen) + 10 ≤ Int_MAX)
    (hwb : wbig = Int_MAX - n) (h : AInv n iwlen V K Z E A L rep rk s)
    (hlt : s.nel < n) :
    Spec (amd2Iter aggr n iwlen wbig s) (fun s' => AOk n iwlen s' ∧ s.nel < s'.nel) := by
  unfold amd2Iter
  refine Spec.bind (amd2IterF_spec hBig hwb h hlt) ?_
  rintro r ⟨h1, V', K', Z', E', A', L', rep', rk', me, h2, _⟩
  exact Spec.pure ⟨⟨V', K', Z', E', A', L', rep', rk', h2⟩, h1⟩

/-- The main loop: it ends with all variables eliminated. -/
theorem amd2Loop_spec {wbig : Int} {aggr : Bool} (hBig : 0 ≤ n ∧ 0 ≤ iwlen ∧ 3 * (n + iwlen) + 10 ≤ Int_MAX)
    (hwb : wbig = Int_MAX - n) (h : AOk n iwlen s) (h0 : 0 ≤ s.nel) :
    Spec (whileM n.toNat (fun s : Amd2 => pure (decide (s.nel < n))) (amd2Iter aggr n iwlen wbig) s)
      (fun s' => AOk n iwlen s' ∧ s'.nel = n) := by
  refine whileM_spec (fun s' : Amd2 => AOk n iwlen s' ∧ 0 ≤ s'.nel) (fun s' => (n - s'.nel).toNat) _ ⟨h, h0⟩
    (by omega) ?_
  rintro s' ⟨⟨V, K, Z, E, A, L, rep, rk, hi⟩, hs0⟩
  refine Spec.pure ?_
  have hle := hi.nelPos
  by_cases hlt : s'.nel < n
  · simp only [hlt, decide_true, if_true]
    refine (amd2Iter_spec hBig hwb hi hlt).mono ?_
    rintro s'' ⟨h1, h2⟩
    exact ⟨⟨h1, by omega⟩, by omega⟩
  · simp only [hlt, decide_false, Bool.false_eq_true, if_false]
    exact ⟨⟨V, K, Z, E, A, L, rep, rk, hi⟩, by omega⟩

end Verif
