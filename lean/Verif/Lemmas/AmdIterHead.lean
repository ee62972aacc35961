import Verif.Lemmas.AmdIterTail

/-!
# First half of an iteration of `AMD_2`
-/

namespace Verif

open Finset

theorem list_sum_filter {M : List Int} (hM : M.Nodup) (p : Int → Bool) (f : Int → Int) :
    ((M.filter p).map f).sum = ∑ x ∈ (M.filter p).toFinset, f x :=
  (List.sum_toFinset f (hM.filter p)).symm

theorem lstV {V : Finset Int} {E A L : Int → List Int} {i : Int} (hi : i ∈ V) :
    lst V E A L i = E i ++ A i := by
  unfold lst
  rw [if_pos hi]

/-- Situation after the construction of the element `me` and the first `clear_flag`: `s` is the state at
the head of the loop, `s0` that after the choice of the pivot, `s2` that after the construction; `wf`
and `W3` come from `clear_flag`. -/
structure BCtx (n iwlen : Int) (V K Z : Finset Int) (E A L : Int → List Int) (rep : Int → Int)
    (rk : Int → Nat) (me pme1 pme2 degme wf : Int) (M : List Int) (s s0 s2 : Amd2) (W3 : Buf Int) :
    Prop where
  inv : AInv n iwlen V K Z E A L rep rk s
  meV : me ∈ V
  eNv : s0.Nv = s.Nv
  eW : s0.W = s.W
  ePe : s0.Pe = s.Pe
  eEl : s0.Elen = s.Elen
  eD : s0.Degree = s.Degree
  nel0 : s0.nel = s.nel + s.Nv.at me
  elm : s0.lemax = s.lemax
  md0 : 0 ≤ s0.mindeg
  md : ∀ x ∈ V, s0.mindeg ≤ s.Degree.at x
  b : Built n iwlen me (V.erase me) (V.erase me ∪ K.filter (fun x => x ∉ E me)) (lst V E A L) (E me) (A me)
    s0 s2 pme1 pme2 degme M
  wf2 : 2 ≤ wf
  wtop : wf + n ≤ Int_MAX
  aW3 : Arr W3 n n
  w3 : ∀ x, 0 ≤ x → x < n → W3.at x < wf
  w3z : ∀ x, 0 ≤ x → x < n → (W3.at x = 0 ↔ s2.W.at x = 0)

namespace BCtx

variable {n iwlen me pme1 pme2 degme wf : Int} {M : List Int} {V K Z : Finset Int}
  {E A L : Int → List Int} {rep : Int → Int} {rk : Int → Nat} {s s0 s2 : Amd2} {W3 W4 : Buf Int}

section

variable (c : BCtx n iwlen V K Z E A L rep rk me pme1 pme2 degme wf M s s0 s2 W3)

include c

theorem mer : 0 ≤ me ∧ me < n := c.inv.g.Vr me c.meV

theorem lstK {e : Int} (he : e ∈ K) : lst V E A L e = L e := by
  unfold lst
  rw [if_neg (fun h => c.inv.g.VK e h he)]

theorem mem_M (i : Int) : i ∈ M ↔ (i ∈ V ∧ i ≠ me) ∧ (i ∈ A me ∨ ∃ e ∈ E me, i ∈ L e) := by
  rw [c.b.mem_iff, Finset.mem_erase]
  have : (∃ e ∈ E me, i ∈ lst V E A L e) ↔ ∃ e ∈ E me, i ∈ L e := by
    constructor
    · rintro ⟨e, he, h⟩
      rw [c.lstK (c.inv.g.elt me c.meV e he).1] at h
      exact ⟨e, he, h⟩
    · rintro ⟨e, he, h⟩
      refine ⟨e, he, ?_⟩
      rw [c.lstK (c.inv.g.elt me c.meV e he).1]
      exact h
  rw [this]
  tauto

theorem MV {i : Int} (hi : i ∈ M) : i ∈ V := ((c.mem_M i).mp hi).1.1

theorem Mme {i : Int} (hi : i ∈ M) : i ≠ me := ((c.mem_M i).mp hi).1.2

theorem Mr {i : Int} (hi : i ∈ M) : 0 ≤ i ∧ i < n := c.inv.g.Vr i (c.MV hi)

theorem meM : me ∉ M := fun h => c.Mme h rfl

theorem cpos {i : Int} (hi : i ∈ V) : 0 < cnt n rep i :=
  c.inv.t.cntP (c.inv.g.Vr i hi).1 (c.inv.g.Vr i hi).2 (c.inv.g.VZ i hi)

theorem nv2 {x : Int} (h0 : 0 ≤ x) (h1 : x < n) :
    s2.Nv.at x = if x ∈ M ∨ x = me then -(cnt n rep x) else cnt n rep x := by
  rw [c.b.nv, c.eNv, c.inv.nv x h0 h1]

theorem w3zero {x : Int} (h0 : 0 ≤ x) (h1 : x < n) : W3.at x = 0 ↔ x ∈ E me ∨ s.W.at x = 0 := by
  rw [c.w3z x h0 h1, c.b.w, c.eW]
  split
  · next h => simp [h]
  · next h => simp [h]

theorem deg2 {x : Int} (hx : x ≠ me) : s2.Degree.at x = s.Degree.at x := by
  rw [c.b.degree, if_neg hx, c.eD]

/-- The weight found by scan 1 is that of the variables of `M` in the element. -/
theorem scanSum_eq (e : Int) :
    scanSum E (cnt n rep) M e = ∑ i ∈ (M.filter (fun i => e ∈ E i)).toFinset, cnt n rep i := by
  unfold scanSum
  exact list_sum_filter c.b.nodup _ _

theorem scan_sub {e : Int} :
    (M.filter (fun i => e ∈ E i)).toFinset ⊆ V.filter (fun i => i ∈ L e) := by
  intro i hi
  simp only [List.mem_toFinset, List.mem_filter, decide_eq_true_eq] at hi
  exact Finset.mem_filter.mpr ⟨c.MV hi.1, (c.inv.g.elt i (c.MV hi.1) e hi.2).2⟩

theorem scanSum_le {e : Int} (he : e ∈ K) : scanSum E (cnt n rep) M e ≤ s.Degree.at e := by
  rw [c.scanSum_eq]
  exact (Finset.sum_le_sum_of_subset_of_nonneg c.scan_sub (fun _ _ _ => cnt_nonneg _)).trans (c.inv.dg e he).1.le

theorem Kme {e : Int} (he : e ∈ K) : e ≠ me := fun h => c.inv.g.VK me c.meV (h ▸ he)

theorem scan1_hyp {e : Int} (_ : W3.at e ≠ 0) (h : ∃ i ∈ M, e ∈ E i) :
    scanSum E (cnt n rep) M e ≤ s2.Degree.at e := by
  obtain ⟨i, hi, he⟩ := h
  have heK := (c.inv.g.elt i (c.MV hi) e he).1
  rw [c.deg2 (c.Kme heK)]
  exact c.scanSum_le heK

/-- The degree of an element is at most `n`. -/
theorem deg_le {e : Int} (he : e ∈ K) : s.Degree.at e ≤ n :=
  (c.inv.dg e he).2.trans c.inv.lemax.2

/-- The weights of the pivot and of the variables of its element sum up to at most the number of
variables that are left. -/
theorem wsum : cnt n rep me + (M.map (cnt n rep)).sum ≤ ∑ x ∈ V, cnt n rep x := by
  have h1 : (M.map (cnt n rep)).sum = ∑ x ∈ M.toFinset, cnt n rep x := (List.sum_toFinset _ c.b.nodup).symm
  have h2 : me ∉ M.toFinset := by rw [List.mem_toFinset]; exact c.meM
  rw [h1, ← Finset.sum_insert h2]
  refine Finset.sum_le_sum_of_subset_of_nonneg ?_ (fun _ _ _ => cnt_nonneg _)
  intro x hx
  rcases Finset.mem_insert.mp hx with rfl | hx
  · exact c.meV
  · exact c.MV (List.mem_toFinset.mp hx)

/-- The degrees of the elements of a variable sum up to at most the size of the workspace. -/
theorem esum {i : Int} (hi : i ∈ M) : ((E i).map s.Degree.at).sum ≤ iwlen := by
  have g := c.inv.g
  have hV := c.MV hi
  have hnd := (List.nodup_append.mp (g.nodup i hV)).1
  have h1 : ((E i).map s.Degree.at).sum = ∑ e ∈ (E i).toFinset, ∑ j ∈ V.filter (fun j => j ∈ L e), cnt n rep j := by
    rw [← List.sum_toFinset _ hnd]
    refine Finset.sum_congr rfl fun e he => ?_
    exact ((c.inv.dg e (g.elt i hV e (List.mem_toFinset.mp he)).1).1).symm
  have h2 : ∑ e ∈ (E i).toFinset, ∑ j ∈ V.filter (fun j => j ∈ L e), cnt n rep j
      = ∑ j ∈ V, ∑ e ∈ (E i).toFinset.filter (fun e => j ∈ L e), cnt n rep j := by
    simp only [Finset.sum_filter]
    exact Finset.sum_comm
  rw [h1, h2]
  refine le_trans (Finset.sum_le_sum fun j hj => ?_) c.inv.wl
  rw [Finset.sum_const, nsmul_eq_mul, mul_comm]
  refine mul_le_mul_of_nonneg_left ?_ (cnt_nonneg _)
  have h3 : ((E i).toFinset.filter (fun e => j ∈ L e)).card ≤ (E j).toFinset.card := by
    refine Finset.card_le_card fun e he => ?_
    rw [Finset.mem_filter, List.mem_toFinset] at he
    rw [List.mem_toFinset]
    exact g.le e (g.elt i hV e he.1).1 j hj he.2
  have h4 := List.toFinset_card_le (E j)
  rw [List.length_append]
  push_cast
  omega

/-- Nothing but the variables of the pivot element are in an element of external degree 0. -/
theorem cover {e i : Int} (hi : i ∈ M) (he : e ∈ E i) (hle : s.Degree.at e ≤ scanSum E (cnt n rep) M e) :
    ∀ i' ∈ V, i' ∈ L e → i' ∈ M := by
  have heK := (c.inv.g.elt i (c.MV hi) e he).1
  intro i' hi' hiL
  by_contra hn
  have h1 := (c.inv.dg e heK).1
  rw [c.scanSum_eq] at hle
  have h2 : i' ∉ (M.filter (fun i => e ∈ E i)).toFinset := by
    simp only [List.mem_toFinset, List.mem_filter]
    exact fun h => hn h.1
  have h3 : insert i' (M.filter (fun i => e ∈ E i)).toFinset ⊆ V.filter (fun i => i ∈ L e) := by
    intro x hx
    rcases Finset.mem_insert.mp hx with rfl | hx
    · exact Finset.mem_filter.mpr ⟨hi', hiL⟩
    · exact c.scan_sub hx
  have h4 := Finset.sum_le_sum_of_subset_of_nonneg h3 (fun x _ _ => cnt_nonneg (n := n) (rep := rep) x)
  rw [Finset.sum_insert h2] at h4
  have := c.cpos hi'
  omega

end

section

variable (c : BCtx n iwlen V K Z E A L rep rk me pme1 pme2 degme wf M s s0 s2 W3)
  (h4 : ∀ e, W4.at e = scan1W E (cnt n rep) W3.at s2.Degree.at wf M e)

include c h4

theorem w4_touched {e : Int} (hz : W3.at e ≠ 0) (h : ∃ i ∈ M, e ∈ E i) :
    W4.at e = wf + s.Degree.at e - scanSum E (cnt n rep) M e := by
  rw [h4]
  unfold scan1W
  rw [if_pos ⟨hz, h⟩]
  obtain ⟨i, hi, he⟩ := h
  rw [c.deg2 (c.Kme (c.inv.g.elt i (c.MV hi) e he).1)]

theorem w4_ge {e i : Int} (hi : i ∈ M) (he : e ∈ E i) (hz : W4.at e ≠ 0) : wf ≤ W4.at e := by
  have heK := (c.inv.g.elt i (c.MV hi) e he).1
  have h3 : W3.at e ≠ 0 := by
    intro h3
    apply hz
    rw [h4]
    unfold scan1W
    rw [if_neg (fun h => h.1 h3), h3]
  rw [c.w4_touched h4 h3 ⟨i, hi, he⟩]
  have := c.scanSum_le heK
  omega

theorem w4_zero {x : Int} (h0 : 0 ≤ x) (h1 : x < n) : W4.at x = 0 ↔ x ∈ E me ∨ s.W.at x = 0 := by
  rw [← c.w3zero h0 h1]
  by_cases h3 : W3.at x = 0
  · rw [h4]
    unfold scan1W
    rw [if_neg (fun h => h.1 h3)]
  · by_cases ht : ∃ i ∈ M, x ∈ E i
    · have e := c.w4_touched h4 h3 ht
      obtain ⟨i, hi, he⟩ := ht
      have := c.scanSum_le (c.inv.g.elt i (c.MV hi) x he).1
      have := c.wf2
      constructor
      · intro h; omega
      · intro h; exact absurd h h3
    · rw [h4]
      unfold scan1W
      rw [if_neg (fun h => ht h.2)]

theorem w4_lt {x : Int} (h0 : 0 ≤ x) (h1 : x < n) : W4.at x < wf + s.lemax := by
  have hl := c.inv.lemax.1
  have h3 := c.w3 x h0 h1
  by_cases ht : W3.at x ≠ 0 ∧ ∃ i ∈ M, x ∈ E i
  · rw [c.w4_touched h4 ht.1 ht.2]
    obtain ⟨i, hi, he⟩ := ht.2
    have hK := (c.inv.g.elt i (c.MV hi) x he).1
    have := (c.inv.dg x hK).2
    have h5 := scanSum_pos (wt := cnt n rep) (fun i hi => c.cpos (c.MV hi)) hi he
    have := c.cpos (c.MV hi)
    omega
  · rw [h4]
    unfold scan1W
    rw [if_neg ht]
    omega

theorem keep_iff {aggr : Bool} {i e : Int} (hi : i ∈ M) (he : e ∈ E i) :
    scanKeep aggr wf (W4.at e) = true ↔ e ∉ E me ∧ ¬ scanAbs aggr wf (W4.at e) = true := by
  have hK := (c.inv.g.elt i (c.MV hi) e he).1
  have hr := c.inv.g.Kr e hK
  have hz := c.w4_zero h4 hr.1 hr.2
  have hw := c.inv.wne e (Finset.mem_union_right _ hK)
  unfold scanKeep scanAbs
  by_cases hem : e ∈ E me
  · simp [hz.mpr (Or.inl hem), hem]
  · have : W4.at e ≠ 0 := fun h => (hz.mp h).elim hem hw
    cases aggr <;> simp [this, hem]

/-- Absorbed elements. -/
theorem abs_ok {aggr : Bool} {i e : Int} (hi : i ∈ M) (he : e ∈ E i)
    (ha : scanAbs aggr wf (W4.at e) = true) :
    e ∈ K ∧ e ∉ E me ∧ ∀ i' ∈ V, i' ∈ L e → i' ∈ M := by
  have hK := (c.inv.g.elt i (c.MV hi) e he).1
  have hr := c.inv.g.Kr e hK
  unfold scanAbs at ha
  simp only [Bool.and_eq_true, decide_eq_true_eq] at ha
  obtain ⟨h1, h2, h3⟩ := ha
  have hz := c.w4_zero h4 hr.1 hr.2
  have hem : e ∉ E me := fun h => h1 (hz.mpr (Or.inl h))
  refine ⟨hK, hem, c.cover hi he ?_⟩
  have h3' : W3.at e ≠ 0 := by
    rw [Ne, c.w3zero hr.1 hr.2]
    exact fun h => h.elim hem (c.inv.wne e (Finset.mem_union_right _ hK))
  rw [c.w4_touched h4 h3' ⟨i, hi, he⟩] at h3
  omega

/-- Something is dropped from the list of every variable of the pivot element. -/
theorem room {aggr : Bool} {i : Int} (hi : i ∈ M) :
    (s2E aggr { s2 with wflg := wf, W := W4 } E i).length
      + (s2A { s2 with wflg := wf, W := W4 } A i).length < (lst V E A L i).length := by
  have hV := c.MV hi
  rw [lstV hV, List.length_append]
  have h1 : (s2E aggr { s2 with wflg := wf, W := W4 } E i).length ≤ (E i).length := List.length_filter_le _ _
  have h2 : (s2A { s2 with wflg := wf, W := W4 } A i).length ≤ (A i).length := List.length_filter_le _ _
  rcases ((c.mem_M i).mp hi).2 with ha | ⟨e, he, hiL⟩
  · have hmA := c.inv.g.sym me c.meV i hV ha
    have : (s2A { s2 with wflg := wf, W := W4 } A i).length < (A i).length := by
      unfold s2A
      rw [List.length_filter_lt_length_iff_exists]
      refine ⟨me, hmA, ?_⟩
      simp only [decide_eq_true_eq]
      rw [c.nv2 c.mer.1 c.mer.2, if_pos (Or.inr rfl)]
      have := c.cpos c.meV
      omega
    omega
  · have heK := (c.inv.g.elt me c.meV e he).1
    have heE := c.inv.g.le e heK i hV hiL
    have : (s2E aggr { s2 with wflg := wf, W := W4 } E i).length < (E i).length := by
      unfold s2E
      rw [List.length_filter_lt_length_iff_exists]
      refine ⟨e, heE, ?_⟩
      simp only
      rw [c.keep_iff h4 hi heE]
      exact fun h => h.1 he
    omega

end

end BCtx

end Verif
