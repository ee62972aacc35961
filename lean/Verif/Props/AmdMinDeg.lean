import Mathlib.Tactic.IntervalCases
import Verif.Lemmas.AmdTrace
import Verif.Props.AmdFill

/-!
# Minimum degree (C92)
-/

namespace Verif

open Finset

theorem ReachThru.congr {N : Nat} {adj adj' : Nat → Nat → Prop} {S : Nat → Prop}
    (he : ∀ u v, u < N → v < N → (adj u v ↔ adj' u v)) {u v : Nat} (hu : u < N) (hv : v < N)
    (h : ReachThru adj (fun w => w < N ∧ S w) u v) : ReachThru adj' (fun w => w < N ∧ S w) u v := by
  induction h with
  | edge h => exact .edge ((he _ _ hu hv).mp h)
  | step h1 h2 _ ih => exact .step ((he _ _ hu h2.1).mp h1) h2 (ih h2.1 hv)

theorem ExternalNeighbour.congr {N : Nat} {adj adj' : Nat → Nat → Prop} {s : Amd2} {x : Int} {v : Nat}
    (he : ∀ u v, u < N → v < N → (adj u v ↔ adj' u v)) (hv : v < N) (h : ExternalNeighbour N adj s x v) :
    ExternalNeighbour N adj' s x v := by
  obtain ⟨h1, u, h2, h3, h4⟩ := h
  exact ⟨h1, u, h2, h3, h4.congr he h2 hv⟩

theorem GroupsOk.congr {N : Nat} {adj adj' : Nat → Nat → Prop} {d d' : Nat → Prop} {s : Amd2}
    (h : GroupsOk N adj d s) (he : ∀ u v, u < N → v < N → (adj u v ↔ adj' u v)) (hd : ∀ u, u < N → (d u ↔ d' u)) :
    GroupsOk N adj' d' s := by
  classical
  refine ⟨fun u hu => by rw [h.group u hu, hd u hu], h.one, h.size, h.state, fun x hx => ?_, fun hn x e hx h1 h2 => ?_⟩
  rotate_left
  · rw [h.exact (fun u hu h' => hn u hu ((hd u hu).mp h')) x e hx h1 h2]
    congr 3
    refine filter_congr fun v hv => ?_
    rw [mem_range] at hv
    exact ⟨fun h' => h'.congr he hv, fun h' => h'.congr (fun u v hu hv => (he u v hu hv).symm) hv⟩
  obtain ⟨a, h1, h2⟩ := h.upper x hx
  refine ⟨a, h1, le_trans ?_ h2⟩
  have : ((range N).filter (ExternalNeighbour N adj' s x)).card ≤ ((range N).filter (ExternalNeighbour N adj s x)).card := by
    refine card_le_card fun v hv => ?_
    rw [mem_filter, mem_range] at hv ⊢
    exact ⟨hv.1, hv.2.congr (fun u v hu hv => (he u v hu hv).symm) hv.1⟩
  exact_mod_cast this

theorem MinDegreeRun.congr {N : Nat} {adj adj' : Nat → Nat → Prop} {deg deg' : Nat → Nat} {limit : Int} {tr : List Amd2}
    (h : MinDegreeRun N adj deg limit tr) (he : ∀ u v, u < N → v < N → (adj u v ↔ adj' u v))
    (hd : ∀ u, u < N → deg u = deg' u) : MinDegreeRun N adj' deg' limit tr := by
  obtain ⟨⟨s, h1, h2⟩, h3, h4, h5, h6⟩ := h
  refine ⟨⟨s, h1, fun u hu => ?_⟩, fun s hs => (h3 s hs).congr he fun u hu => by rw [hd u hu], h4, h5, h6⟩
  rw [← hd u hu]
  exact h2 u hu

/-- The record of an ordering of the pattern of `A + A'`. -/
def RunOf {K : Type} (A : Csc K) (N : Nat) (dense : Int) (r : Option (List Amd2)) : Prop :=
  ∃ tr, r = some tr ∧ MinDegreeRun N A.Edge A.degree (min (N : Int) (max 16 dense)) tr

theorem RunOf.congr {K L : Type} {A : Csc K} {B : Csc L} {N : Nat} {dense : Int}
    {r : Option (List Amd2)} (h : RunOf A N dense r) (hA : A.n = N) (hB : B.n = N)
    (he' : ∀ u v, u < N → v < N → (A.Stored u v ↔ B.Stored v u)) : RunOf B N dense r := by
  classical
  have he : ∀ u v, u < N → v < N → (A.Edge u v ↔ B.Edge u v) := by
    intro u v hu hv
    unfold Csc.Edge
    rw [he' u v hu hv, he' v u hv hu, or_comm]
  obtain ⟨tr, h1, h2⟩ := h
  refine ⟨tr, h1, h2.congr he fun u hu => ?_⟩
  unfold Csc.degree
  rw [hA, hB]
  congr 1
  exact filter_congr fun v hv => he u v hu (mem_range.mp hv)

/-- Counting and ordering of a pattern with sorted columns. -/
private theorem order_tailT {N : Nat} (hB : (N : Int) < SIZE_T_MAX_8) (hN : 0 < N) {A : Csc Unit}
    (hZ : (A.nnz : Int) < SIZE_T_MAX_8) (hA : A.WF) (hn : A.n = N) (hm : A.m = N)
    (hs : A.Sorted) {Ap Ai : Buf Int} (hp : Buf.Has Ap (N + 1) (fun i => (A.jc i : Int)))
    (hi : Buf.Has Ai A.nnz (fun k => (A.ir k : Int))) {W Flag P : Buf Int} (hW : W.length = N)
    (hF : Flag.length = N) (hP : P.length = N) (dense : Int) (aggressive : Bool) (status : Int) (ok : Bool) :
    Spec (do
      let t ← AMD_aat N Ap Ai W P
      let r ← orderSize N t.1
      if (r.1 = true ∧ r.2 < SIZE_T_MAX_8 ∧ r.2 < Int_MAX) ∧ ok = true then do
        let S ← amdMalloc r.2
        let o ← AMD_1T N Ap Ai t.2.2 Flag t.2.1 r.2 S dense aggressive
        pure ((status, o.1.1), some o.2)
      else pure ((AMD_OUT_OF_MEMORY, t.2.2), none) : M ((Int × Buf Int) × Option (List Amd2)))
      (fun r => r.1.1 = AMD_OUT_OF_MEMORY ∧ r.2 = none ∨ RunOf A N dense r.2) := by
  have hb := Csc.patBuf hA hn hm hs hp hi
  have hB' := hB
  have hZ' := hZ
  unfold SIZE_T_MAX_8 at hB' hZ'
  norm_num at hB' hZ'
  have e : A.jc N = A.nnz := by rw [← hn]; rfl
  refine Spec.bind (AMD_aat_spec (n := N) (by unfold Int_MAX; omega) (by omega) hb (by simp [hA.jc0])
    (by simp only [Int.toNat_natCast, e]; norm_num; omega) (by simp only [Int.toNat_natCast, e]; unfold Int_MAX; omega) (Len := W) (Tp := P) (by omega) (by omega)) ?_
  rintro ⟨nzaat, Len, Tp⟩ ⟨D, hD, hsum, hL, hLv, hT⟩
  simp only at hsum hL hLv hT ⊢
  have hpos : 0 ≤ nzaat := by rw [hsum]; exact Finset.sum_nonneg (fun _ _ => by omega)
  have hup := nzaat_le (n := N) (by omega) hb.pat (by simp [hA.jc0]) hD
  rw [← hsum] at hup
  simp only [Int.toNat_natCast] at hup
  rw [e] at hup
  refine Spec.bind (orderSize_spec (n := N) (by omega) hB hpos (by omega)) ?_
  rintro ⟨b, slen⟩ ⟨hr0, hr⟩
  dsimp only at hr0 hr ⊢
  by_cases hc : (b = true ∧ slen < SIZE_T_MAX_8 ∧ slen < Int_MAX) ∧ ok = true
  · rw [if_pos hc, amdMalloc_ok hr0 (by omega), ok_bind]
    rcases hr with ⟨-, hr⟩ | ⟨hr, -⟩
    · have hb1 := hc.1.2.1
      unfold SIZE_T_MAX_8 at hb1
      refine Spec.bind (amd1With_spec (G := fun iwlen s => AMD_2T N dense iwlen aggressive s)
        (Q := fun r => RunOf A N dense (some r.2)) (n := N) (by unfold Int_MAX; omega)
        (by omega) hb hD hL hLv hT (by omega) (by simp; omega) (by omega) (fun D' s hD' hs' =>
          (AMD_2T_spec (by unfold Int_MAX; omega) hs').mono ?_)) ?_
      · rintro ⟨⟨o1, o2⟩, tr⟩ h
        refine ⟨tr, rfl, h.congr (fun u v hu hv => ?_) (fun u hu => nbrs_degree hn hD' hu)⟩
        simp only [hu, true_and]
        exact nbrs_edge hD' u v hu hv
      · intro r hr
        exact Spec.ok (Or.inr hr)
    · simp [hr] at hc
  · rw [if_neg hc]
    exact Spec.ok (Or.inl ⟨rfl, rfl⟩)

/-- The ordering with its record on every pattern. -/
theorem orderT_spec (mem : AmdMem) (dense : Int → Int) (aggressive : Bool) {N : Nat} {A : Csc Unit}
    (hA : A.WF) (hn : A.n = N)
    (hm : A.m = N) {Ap Ai P : Buf Int} (hp : Buf.Has Ap (N + 1) (fun i => (A.jc i : Int)))
    (hi : Buf.Has Ai A.nnz (fun k => (A.ir k : Int))) (hP : P.length = N) :
    Spec (AMD_orderT mem dense aggressive N Ap Ai P)
      (fun r => ((N = 0 ∨ r.1.1 = AMD_OUT_OF_MEMORY) ∧ r.2 = none) ∨
        RunOf A N (dense N) r.2) := by
  classical
  unfold AMD_orderT
  rw [if_neg (by omega)]
  by_cases hN : N = 0
  · subst hN
    rw [if_pos (by simp)]
    exact Spec.ok (Or.inl ⟨Or.inl rfl, rfl⟩)
  rw [if_neg (by omega)]
  have hrd := hp.rd (show N < N + 1 by omega)
  rw [hrd]
  have e : A.jc N = A.nnz := by rw [← hn]; rfl
  rw [e]
  simp only [ok_bind]
  rw [if_neg (by omega)]
  by_cases hbig : (N : Int) ≥ SIZE_T_MAX_8 ∨ (A.nnz : Int) ≥ SIZE_T_MAX_8
  · rw [if_pos hbig]
    exact Spec.ok (Or.inl ⟨Or.inr rfl, rfl⟩)
  rw [if_neg hbig]
  have hle : ∀ c, c ≤ A.n → A.jc c ≤ A.nnz := fun c hc => hA.le_nnz hc
  have hval := C40_valid (m := N) (n := N) hp hi (fun j hj => by
    have := hle j (by omega)
    exact_mod_cast this)
  have hv : ValidPattern N N (fun i => (A.jc i : Int)) (fun k => (A.ir k : Int)) := by
    refine ⟨by simp [hA.jc0], fun j hj => by have := hA.mono j (by omega); simp only; omega, ?_⟩
    intro k hk
    have := hA.ir_lt k (by simp only at hk; rw [hn]; omega)
    simp only
    omega
  have hinc : IncreasingColumns N (fun i => (A.jc i : Int)) (fun k => (A.ir k : Int)) ↔ A.Sorted := by
    unfold IncreasingColumns Csc.Sorted
    constructor
    · intro h c hc k h1 h2
      have := h c (by omega) k (by simp only; omega) (by simp only; omega)
      simp only at this
      omega
    · intro h c hc k h1 h2
      simp only at h1 h2 ⊢
      have := h c (by omega) k (by omega) (by omega)
      omega
  rw [hval, if_neg (not_not.mpr hv)]
  simp only [ok_bind, hinc]
  have hne : (if ¬ A.Sorted then AMD_OK_BUT_JUMBLED else AMD_OK) ≠ AMD_INVALID := by
    split <;> decide
  have hbig' := not_or.mp hbig
  rw [if_neg hne, amdMalloc_ok (by omega) (by omega), ok_bind, ok_bind]
  by_cases hLP : (!mem.Len || !mem.Pinv) = true
  · rw [if_pos hLP]
    exact Spec.ok (Or.inl ⟨Or.inr rfl, rfl⟩)
  rw [if_neg hLP]
  have hL : mem.Len = true ∧ mem.Pinv = true := by simpa using hLP
  by_cases hs : A.Sorted
  · rw [if_neg (not_not.mpr hs), if_neg (by simp [AMD_OK, AMD_OK_BUT_JUMBLED]),
      if_neg (by decide)]
    simp only [pure_eq_ok, ok_bind]
    refine (order_tailT (by omega) (by omega) (by omega) hA hn hm hs hp hi (by simp) (by simp) hP _ _ _ _).mono ?_
    rintro r (⟨ha, hb⟩ | h)
    · exact Or.inl ⟨Or.inr ha, hb⟩
    · exact Or.inr h
  · rw [if_pos hs]
    by_cases hR : (!mem.Rp || !mem.Ri) = true
    · rw [if_pos (by simpa using hR)]
      exact Spec.ok (Or.inl ⟨Or.inr rfl, rfl⟩)
    rw [if_neg (by simpa using hR), if_pos rfl, ck_bind (by
      have := hbig'.1
      unfold SIZE_T_MAX_8 at this
      unfold Int_MAX
      omega), amdMalloc_ok (by omega) (by omega), ok_bind, amdMalloc_ok (by omega) (by
      unfold SIZE_T_MAX_8 at hbig' ⊢
      omega), ok_bind]
    have hRR : mem.Rp = true ∧ mem.Ri = true := by simpa using hR
    obtain ⟨⟨Rp, Ri, W, F⟩, h0, R, h1, h2, h3, h4, h5, h6, h7, h8, h9, h10, h11⟩ :=
      AMD_preprocess_spec hA hn hm hp hi (by unfold Int_MAX; unfold SIZE_T_MAX_8 at hbig; omega) (Rp := malloc (N + 1)) (Ri := malloc (max (A.nnz : Int) 1))
        (W := malloc N) (Flag := malloc N) (by simp) (by simp) (by simp) (by simp)
    rw [h0]
    simp only [pure_eq_ok, ok_bind] at h6 h7 h8 h9 h10 h11 ⊢
    have hlen : (R.nnz : Int) ≤ max (A.nnz : Int) 1 := by
      have : R.nnz ≤ Ri.length := by
        by_contra hc
        have := h7 Ri.length (by omega)
        simp at this
      rw [h9] at this
      simp at this
      omega
    refine (order_tailT (by omega) (by omega) (by
      unfold SIZE_T_MAX_8 at hbig' ⊢
      omega) h1 h2 h3 h4 h6 h7 h10 h11 hP _ _ _ _).mono ?_
    rintro r (⟨ha, hb⟩ | h)
    · exact Or.inl ⟨Or.inr ha, hb⟩
    · exact Or.inr (h.congr h2 hn fun u v hu hv => h5 u v hu hv)

/-- **C92.** On every well-formed square pattern, for every choice of the control parameters, the
ordering routine with a record of its states behaves as without one. Unless the pattern is empty or it
runs out of memory, the record is a run of minimum degree elimination on the graph of `A + A'`: in every
state the nodes that are not dense are partitioned into groups and `Degree` of a waiting group is at
least the number of nodes outside that a path through eliminated nodes joins to it; every iteration
eliminates a waiting group whose `Degree` is smallest. -/
theorem C92_min_degree (mem : AmdMem) (dense : Int → Int) (aggressive : Bool) {N : Nat} {A : Csc Unit}
    (hA : A.WF) (hn : A.n = N) (hm : A.m = N) {Ap Ai P : Buf Int}
    (hp : Buf.Has Ap (N + 1) (fun i => (A.jc i : Int)))
    (hi : Buf.Has Ai A.nnz (fun k => (A.ir k : Int))) (hP : P.length = N) :
    ∃ st P' tr, AMD_orderT mem dense aggressive N Ap Ai P = .ok ((st, P'), tr) ∧
      AMD_order mem dense aggressive N Ap Ai P = .ok (st, P') ∧
      ((N = 0 ∨ st = AMD_OUT_OF_MEMORY) ∧ tr = none ∨
        ∃ t, tr = some t ∧ MinDegreeRun N A.Edge A.degree (min (N : Int) (max 16 (dense N))) t) := by
  obtain ⟨⟨⟨st, P'⟩, tr⟩, h, hg⟩ := orderT_spec mem dense aggressive hA hn hm hp hi hP
  exact ⟨st, P', tr, h, AMD_orderT_eq h, hg⟩

/-- **C92.** What a run of minimum degree elimination tells about a single step: before it, the leader
`x` of the group that is eliminated has at most `Degree [x]` external neighbours, and no other waiting
group has a smaller `Degree`. -/
theorem C92_step {N : Nat} {adj : Nat → Nat → Prop} {deg : Nat → Nat} {limit : Int} {tr : List Amd2}
    (h : MinDegreeRun N adj deg limit tr) {i : Nat} {s s' : Amd2} (h1 : tr[i]? = some s) (h2 : tr[i + 1]? = some s') :
    ∃ x d, Waiting s x ∧ Eliminated s' x ∧ rd s.Degree x = .ok d ∧
      (∀ F : Finset Nat, (∀ v ∈ F, v < N ∧ ExternalNeighbour N adj s x v) → (F.card : Int) ≤ d) ∧
      ∀ y, Waiting s y → ∃ d', rd s.Degree y = .ok d' ∧ d ≤ d' := by
  classical
  obtain ⟨l1, e1⟩ := List.getElem?_eq_some_iff.mp h1
  obtain ⟨l2, e2⟩ := List.getElem?_eq_some_iff.mp h2
  obtain ⟨x, d, a1, a2, a3, -, a4⟩ := e2 ▸ e1 ▸ List.isChain_iff_getElem.mp h.steps i l2
  refine ⟨x, d, a1, a2, a3, fun F hF => ?_, fun y hy => (a4 y hy).2⟩
  obtain ⟨d', b1, b2⟩ := (h.states s (e1 ▸ List.getElem_mem _)).upper x a1
  have : d = d' := by
    rw [a3] at b1
    exact Except.ok.inj b1
  subst this
  refine le_trans ?_ b2
  have : F.card ≤ ((range N).filter (ExternalNeighbour N adj s x)).card := by
    refine card_le_card fun v hv => ?_
    rw [mem_filter, mem_range]
    exact hF v hv
  exact_mod_cast this

theorem jumbledDemo_edge {u v : Nat} (hu : u < 3) (hv : v < 3) :
    jumbledDemo.Edge u v ↔ (u, v) ∈ [(0, 2), (2, 0), (1, 2), (2, 1)] := by
  unfold Csc.Edge
  rw [jumbledDemo_stored u v hv, jumbledDemo_stored v u hu]
  interval_cases u <;> interval_cases v <;> decide

theorem jumbledDemo_degree {u : Nat} (hu : u < 3) :
    jumbledDemo.degree u = ((range 3).filter (fun v => (u, v) ∈ [(0, 2), (2, 0), (1, 2), (2, 1)])).card := by
  classical
  unfold Csc.degree
  rw [show jumbledDemo.n = 3 from rfl]
  congr 1
  exact filter_congr fun v hv => jumbledDemo_edge hu (mem_range.mp hv)

/-- C92 for the pattern of `jumbledDemo`, whose node 2 is joined to 0 and to 1: there is a first step,
and it does not eliminate node 2, which has two neighbours. -/
example : ∃ P' t s s' x, AMD_orderT ⟨true, true, true, true, true⟩ (fun _ => 10) true 3
      (Buf.ofFn 4 (fun i => (jumbledDemo.jc i : Int))) (Buf.ofFn 6 (fun k => (jumbledDemo.ir k : Int))) (malloc 3)
      = .ok ((AMD_OK_BUT_JUMBLED, P'), some t) ∧ t[0]? = some s ∧ t[1]? = some s' ∧
      Waiting s x ∧ Eliminated s' x ∧ x ≠ 2 := by
  classical
  obtain ⟨st, P', tr, h1, h2, h3⟩ := C92_min_degree (N := 3) ⟨true, true, true, true, true⟩ (fun _ => 10) true
    jumbledDemo_wf rfl rfl (Buf.has_ofFn 4 _) (Buf.has_ofFn 6 _) (P := malloc 3) rfl
  obtain ⟨P'', t', h4, -⟩ := demo_orderI
  have h5 := AMD_orderI_eq h4
  have e := h5.symm.trans h2
  rw [Except.ok.injEq, Prod.mk.injEq] at e
  obtain ⟨rfl, rfl⟩ := e
  rcases h3 with ⟨h | h, -⟩ | ⟨t, rfl, hr⟩
  · cases h
  · exact absurd h (by decide)
  have d0 : jumbledDemo.degree 0 = 1 := (jumbledDemo_degree (by decide)).trans (by decide)
  have d2 : jumbledDemo.degree 2 = 2 := (jumbledDemo_degree (by decide)).trans (by decide)
  obtain ⟨s, hs, hu⟩ := hr.start
  obtain ⟨s9, hs9, hw9⟩ := hr.stop
  have w0 : Waiting s 0 := (hu 0 (by decide)).1.mpr (by rw [d0]; decide)
  match t, hs, hs9, hr with
  | [], hs, _, _ => cases hs
  | [a], hs, hs9, _ =>
    cases hs
    cases hs9
    exact absurd w0 (hw9 0)
  | a :: b :: t, hs, _, hr =>
    cases hs
    obtain ⟨x, d, a1, a2, a3, -, a4⟩ := C92_step hr (i := 0) rfl rfl
    refine ⟨P'', _, _, b, x, h1, rfl, rfl, a1, a2, ?_⟩
    rintro rfl
    obtain ⟨d', b1, b2⟩ := a4 0 w0
    have c1 := (hu 2 (by decide)).2.2
    have c2 := (hu 0 (by decide)).2.2
    have e1 := Except.ok.inj (a3.symm.trans c1)
    have e2 := Except.ok.inj (b1.symm.trans c2)
    rw [d2] at e1
    rw [d0] at e2
    omega

end Verif
