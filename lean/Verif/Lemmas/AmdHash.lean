import Verif.Lemmas.AmdDeg

/-! # Hash buckets of `AMD_2` -/

set_option linter.unusedSectionVars false

namespace Verif

/-- The hash buckets hold the variables of `T`; `B h` lists bucket `h`, whose first variable is
`bh h`. -/
structure HashL (n : Int) (nx lt : Int → Int) (T : Finset Int) (bh : Int → Int)
    (B : Int → List Int) : Prop where
  rng : ∀ x ∈ T, 0 ≤ x ∧ x < n ∧ 0 ≤ lt x ∧ lt x < n
  nodup : ∀ h, 0 ≤ h → h < n → (B h).Nodup
  mem : ∀ h, 0 ≤ h → h < n → ∀ x, x ∈ B h ↔ x ∈ T ∧ lt x = h
  seg : ∀ h, 0 ≤ h → h < n → Seg nx (bh h) (B h) EMPTY

variable {n : Int} {S T : Finset Int} {bh : Int → Int} {D B : Int → List Int}

theorem HashL.bh_ge {nx lt : Int → Int} (h : HashL n nx lt T bh B) {d : Int} (h0 : 0 ≤ d) (h1 : d < n) :
    EMPTY ≤ bh d ∧ bh d < n ∨ bh d = EMPTY := by
  have hs := h.seg d h0 h1
  cases hB : B d with
  | nil => rw [hB] at hs; exact Or.inr hs
  | cons f t =>
    rw [hB] at hs
    have e : bh d = f := hs.1
    have := h.rng f ((h.mem d h0 h1 f).mp (by rw [hB]; simp)).1
    left
    unfold EMPTY
    omega

/-- Changing the bucket head of one key. -/
theorem DegL.setBh {hd nx lt dg : Int → Int} (h : DegL n hd nx lt dg S bh D) {d v : Int}
    (h0 : 0 ≤ d) (h1 : d < n) {hd' lt' : Int → Int}
    (e1 : D d = [] → (∀ x, hd' x = if x = d then FLIP v else hd x) ∧ ∀ x ∈ S, lt' x = lt x)
    (e2 : D d ≠ [] → (∀ x, hd' x = hd x) ∧ ∀ x ∈ S, lt' x = if x = hd d then v else lt x) :
    DegL n hd' nx lt' dg S (fun x => if x = d then v else bh x) D where
  rng := h.rng
  nodup := h.nodup
  mem := h.mem
  empty := by
    intro x hx0 hx1 hx
    by_cases hD : D d = []
    · obtain ⟨a, _⟩ := e1 hD
      rw [a]
      split
      · rfl
      · exact h.empty x hx0 hx1 hx
    · obtain ⟨a, _⟩ := e2 hD
      rw [a, if_neg (by rintro rfl; exact hD hx)]
      exact h.empty x hx0 hx1 hx
  chain := by
    intro x hx0 hx1 hx
    obtain ⟨q, hq⟩ := h.chain x hx0 hx1 hx
    have hm : ∀ y ∈ D x, y ∈ S ∧ dg y = x := fun y hy => (h.mem x hx0 hx1 y).mp hy
    by_cases hD : D d = []
    · obtain ⟨a, b⟩ := e1 hD
      have hxd : x ≠ d := by rintro rfl; exact hx hD
      rw [a, if_neg hxd, if_neg hxd]
      exact ⟨q, hq.congr (fun _ _ => rfl) (fun y hy => b y (hm y hy).1)⟩
    · obtain ⟨a, b⟩ := e2 hD
      rw [a]
      obtain ⟨f, t, hft⟩ : ∃ f t, D d = f :: t := by
        cases hh : D d with
        | nil => exact absurd hh hD
        | cons f t => exact ⟨f, t, rfl⟩
      have hf := h.head_cons h0 h1 hft
      by_cases e : x = d
      · subst e
        rw [if_pos rfl]
        rw [hft] at hq ⊢
        have hnd := h.nodup x hx0 hx1
        rw [hft, List.nodup_cons] at hnd
        refine ⟨q, hq.rebase (fun _ _ => rfl) ?_ ?_⟩
        · intro y hy
          rw [b y (hm y (by rw [hft]; simp [hy])).1, if_neg]
          rw [hf.1]
          rintro rfl
          exact hnd.1 hy
        · rw [b f hf.2.2.1, if_pos hf.1.symm]
      · rw [if_neg e]
        refine ⟨q, hq.congr (fun _ _ => rfl) ?_⟩
        intro y hy
        rw [b y (hm y hy).1, if_neg]
        rw [hf.1]
        rintro rfl
        exact e ((hm y hy).2.symm.trans hf.2.2.2.2.2.1)

/-- amd_2.c 1257–1287 -/
theorem hashInsert_spec {s : Amd2} (hI : n + 2 ≤ Int_MAX) (hn : 0 < n) (hN : Arr s.Next n n) (hL : Arr s.Last n n)
    (hH : Arr s.Head n n)
    (h : DegL n s.Head.at s.Next.at s.Last.at s.Degree.at S bh D)
    (hB : HashL n s.Next.at s.Last.at T bh B) {i : Int} (hash : Int) (hi0 : 0 ≤ i) (hi1 : i < n)
    (hiS : i ∉ S) (hiT : i ∉ T) (hST : ∀ x ∈ S, x ∉ T) :
    Spec (hashInsert n i hash s) (fun s' => ∃ Nx Lt Hd bh' B',
      s' = { s with Next := Nx, Last := Lt, Head := Hd } ∧
      Arr Nx n n ∧ Arr Lt n n ∧ Arr Hd n n ∧
      DegL n Hd.at Nx.at Lt.at s.Degree.at S bh' D ∧
      HashL n Nx.at Lt.at (insert i T) bh' B') := by
  unfold hashInsert
  have hh0 : 0 ≤ hash % n := Int.emod_nonneg _ (by omega)
  have hh1 : hash % n < n := Int.emod_lt_of_pos _ hn
  simp only
  generalize hash % n = d at hh0 hh1
  rw [hH.rd hh0 hh1, ok_bind]
  -- the bucket after insertion
  have hbk : ∀ (Nx Lt : Buf Int), (∀ x, Nx.at x = if x = i then bh d else s.Next.at x) →
      (∀ x ∈ T, Lt.at x = s.Last.at x) → Lt.at i = d →
      HashL n Nx.at Lt.at (insert i T) (fun x => if x = d then i else bh x)
        (fun x => if x = d then i :: B x else B x) := by
    intro Nx Lt e1 e2 e3
    constructor
    · intro x hx
      rcases Finset.mem_insert.mp hx with rfl | hx
      · rw [e3]; exact ⟨hi0, hi1, hh0, hh1⟩
      · rw [e2 x hx]; exact hB.rng x hx
    · intro k hk0 hk1
      split
      · rw [List.nodup_cons]
        refine ⟨?_, hB.nodup k hk0 hk1⟩
        rw [hB.mem k hk0 hk1]
        exact fun hh => hiT hh.1
      · exact hB.nodup k hk0 hk1
    · intro k hk0 hk1 x
      have hm := hB.mem k hk0 hk1 x
      rw [Finset.mem_insert]
      by_cases e : k = d
      · rw [if_pos e, List.mem_cons, hm]
        constructor
        · rintro (rfl | ⟨a, b⟩)
          · exact ⟨Or.inl rfl, by rw [e3, e]⟩
          · exact ⟨Or.inr a, by rw [e2 x a]; exact b⟩
        · rintro ⟨rfl | a, b⟩
          · exact Or.inl rfl
          · exact Or.inr ⟨a, by rw [← e2 x a]; exact b⟩
      · rw [if_neg e, hm]
        constructor
        · rintro ⟨a, b⟩; exact ⟨Or.inr a, by rw [e2 x a]; exact b⟩
        · rintro ⟨rfl | a, b⟩
          · rw [e3] at b; exact absurd b.symm e
          · exact ⟨a, by rw [← e2 x a]; exact b⟩
    · intro k hk0 hk1
      have hT : ∀ x ∈ B k, x ≠ i := by
        rintro x hx rfl
        exact hiT ((hB.mem k hk0 hk1 x).mp hx).1
      have hs := (hB.seg k hk0 hk1).congr (nx' := Nx.at) (fun x hx => by rw [e1, if_neg (hT x hx)])
      by_cases e : k = d
      · subst e
        rw [if_pos rfl, if_pos rfl]
        refine ⟨rfl, ?_⟩
        rw [e1, if_pos rfl]
        exact hs
      · rw [if_neg e, if_neg e]; exact hs
  have hneS : ∀ x ∈ S, x ≠ i := by rintro x hx rfl; exact hiS hx
  have hneT : ∀ x ∈ T, x ≠ i := by rintro x hx rfl; exact hiT hx
  cases hD : D d with
  | nil =>
    have hhd := h.empty d hh0 hh1 hD
    have hle : s.Head.at d ≤ EMPTY := by
      rcases hB.bh_ge hh0 hh1 with hb | hb <;> rw [hhd] <;> unfold FLIP EMPTY at * <;> omega
    have hbr : 0 ≤ s.Head.at d + n + 1 ∧ s.Head.at d ≤ 0 := by
      rcases hB.bh_ge hh0 hh1 with hb | hb <;> rw [hhd] <;> unfold FLIP EMPTY at * <;> omega
    rw [if_pos hle, ck_bind (FLIP_ck (by omega)), hN.wr hi0 hi1, ok_bind, ck_bind (FLIP_ck (by omega)), hH.wr hh0 hh1]
    simp only [ok_bind, pure_eq_ok]
    rw [hL.wr hi0 hi1]
    simp only [ok_bind]
    refine Spec.ok ⟨_, _, _, _, _, rfl, hN.put hi0 hi1 _, hL.put hi0 hi1 _, hH.put hh0 hh1 _, ?_,
      hbk _ _ ?_ ?_ ?_⟩
    · refine DegL.setBh (lt := (s.Last.put i d).at) (hd := s.Head.at) ?_ hh0 hh1 ?_ ?_
      · refine h.congr ?_ ?_ (fun _ _ => rfl)
        · intro x hx; rw [hN.at_put hi0 hi1, if_neg (hneS x hx)]
        · intro x hx; rw [hL.at_put hi0 hi1, if_neg (hneS x hx)]
      · intro _
        exact ⟨fun x => hH.at_put hh0 hh1 _ x, fun _ _ => rfl⟩
      · intro hc; exact absurd hD hc
    · intro x
      rw [hN.at_put hi0 hi1, hhd, FLIP_FLIP]
    · intro x hx
      rw [hL.at_put hi0 hi1, if_neg (hneT x hx)]
    · rw [hL.at_put hi0 hi1, if_pos rfl]
  | cons f t =>
    obtain ⟨f1, f2, f3, f4, f5, f6, f7⟩ := h.head_cons hh0 hh1 hD
    have hnl : ¬ s.Head.at d ≤ EMPTY := by rw [f1]; unfold EMPTY; omega
    have hfi : f ≠ i := hneS f f3
    rw [if_neg hnl, f1, hL.rd f4 f5]
    simp only [ok_bind]
    rw [hN.wr hi0 hi1]
    simp only [ok_bind]
    rw [hL.wr f4 f5]
    simp only [ok_bind, pure_eq_ok]
    have hL1 := hL.put f4 f5 i
    rw [hL1.wr hi0 hi1]
    simp only [ok_bind]
    refine Spec.ok ⟨_, _, _, _, _, rfl, hN.put hi0 hi1 _, hL1.put hi0 hi1 _, hH, ?_,
      hbk _ _ ?_ ?_ ?_⟩
    · refine DegL.setBh (lt := s.Last.at) (hd := s.Head.at) ?_ hh0 hh1 ?_ ?_
      · refine h.congr ?_ (fun _ _ => rfl) (fun _ _ => rfl)
        intro x hx; rw [hN.at_put hi0 hi1, if_neg (hneS x hx)]
      · intro hc; rw [hD] at hc; simp at hc
      · intro _
        refine ⟨fun _ => rfl, ?_⟩
        intro x hx
        rw [hL1.at_put hi0 hi1, if_neg (hneS x hx), hL.at_put f4 f5, f1]
    · intro x
      rw [hN.at_put hi0 hi1, f2]
    · intro x hx
      rw [hL1.at_put hi0 hi1, if_neg (hneT x hx), hL.at_put f4 f5, if_neg]
      rintro rfl
      exact hST x f3 hx
    · rw [hL1.at_put hi0 hi1, if_pos rfl]

/-- amd_2.c 1318–1343 -/
theorem hashTake_spec {s : Amd2} (hI : n + 2 ≤ Int_MAX) (hL : Arr s.Last n n) (hH : Arr s.Head n n)
    (h : DegL n s.Head.at s.Next.at s.Last.at s.Degree.at S bh D)
    (hB : HashL n s.Next.at s.Last.at T bh B) {d : Int} (hh0 : 0 ≤ d) (hh1 : d < n)
    (hST : ∀ x ∈ S, x ∉ T) :
    Spec (hashTake d s) (fun r => r.1 = bh d ∧ ∃ Lt Hd,
      r.2 = { s with Last := Lt, Head := Hd } ∧ Arr Lt n n ∧ Arr Hd n n ∧
      (∀ x, x ∉ S → Lt.at x = s.Last.at x) ∧
      DegL n Hd.at s.Next.at Lt.at s.Degree.at S (fun x => if x = d then EMPTY else bh x) D ∧
      HashL n s.Next.at Lt.at (T.filter (fun x => x ∉ B d)) (fun x => if x = d then EMPTY else bh x)
        (fun x => if x = d then [] else B x)) := by
  have hbk : ∀ (Lt : Buf Int), (∀ x ∈ T, Lt.at x = s.Last.at x) →
      HashL n s.Next.at Lt.at (T.filter (fun x => x ∉ B d)) (fun x => if x = d then EMPTY else bh x)
        (fun x => if x = d then [] else B x) := by
    intro Lt e2
    constructor
    · intro x hx
      have hx := (Finset.mem_filter.mp hx).1
      rw [e2 x hx]; exact hB.rng x hx
    · intro k hk0 hk1
      split
      · simp
      · exact hB.nodup k hk0 hk1
    · intro k hk0 hk1 x
      have hm := hB.mem k hk0 hk1 x
      rw [Finset.mem_filter]
      by_cases e : k = d
      · rw [if_pos e]
        simp only [List.not_mem_nil, false_iff]
        rintro ⟨⟨a, b⟩, c⟩
        rw [e2 x a, e] at c
        exact b ((hB.mem d hh0 hh1 x).mpr ⟨a, c⟩)
      · rw [if_neg e, hm]
        constructor
        · rintro ⟨a, b⟩
          refine ⟨⟨a, ?_⟩, by rw [e2 x a]; exact b⟩
          rw [hB.mem d hh0 hh1]
          rintro ⟨_, c⟩
          exact e (b.symm.trans c)
        · rintro ⟨⟨a, _⟩, b⟩
          exact ⟨a, by rw [← e2 x a]; exact b⟩
    · intro k hk0 hk1
      by_cases e : k = d
      · rw [if_pos e, if_pos e]; rfl
      · rw [if_neg e, if_neg e]; exact hB.seg k hk0 hk1
  unfold hashTake
  rw [hH.rd hh0 hh1, ok_bind]
  cases hD : D d with
  | nil =>
    have hhd := h.empty d hh0 hh1 hD
    by_cases hE : s.Head.at d = EMPTY
    · rw [if_pos hE]
      have hbE : bh d = EMPTY := by
        rw [hhd] at hE; unfold FLIP EMPTY at hE; unfold EMPTY; omega
      refine Spec.pure ⟨hbE.symm, s.Last, s.Head, rfl, hL, hH, fun _ _ => rfl, ?_, hbk _ (fun _ _ => rfl)⟩
      refine h.setBh hh0 hh1 ?_ ?_
      · intro _
        refine ⟨fun x => ?_, fun _ _ => rfl⟩
        split
        · rename_i e; rw [e, hE]; rfl
        · rfl
      · intro hc; exact absurd hD hc
    · have hle : s.Head.at d < EMPTY := by
        have : s.Head.at d ≤ EMPTY := by
          rcases hB.bh_ge hh0 hh1 with hb | hb <;> rw [hhd] <;> unfold FLIP EMPTY at * <;> omega
        omega
      have hbr : 0 ≤ s.Head.at d + n + 1 ∧ s.Head.at d ≤ 0 := by
        rcases hB.bh_ge hh0 hh1 with hb | hb <;> rw [hhd] <;> unfold FLIP EMPTY at * <;> omega
      rw [if_neg hE, if_pos hle, ck_bind (FLIP_ck (by omega)), hH.wr hh0 hh1, ok_bind]
      refine Spec.pure ⟨by rw [hhd, FLIP_FLIP], s.Last, _, rfl, hL, hH.put hh0 hh1 _, fun _ _ => rfl, ?_,
        hbk _ (fun _ _ => rfl)⟩
      refine h.setBh hh0 hh1 ?_ ?_
      · intro _
        exact ⟨fun x => hH.at_put hh0 hh1 _ x, fun _ _ => rfl⟩
      · intro hc; exact absurd hD hc
  | cons f t =>
    obtain ⟨f1, f2, f3, f4, f5, f6, f7⟩ := h.head_cons hh0 hh1 hD
    have hE : ¬ s.Head.at d = EMPTY := by rw [f1]; unfold EMPTY; omega
    have hlt : ¬ s.Head.at d < EMPTY := by rw [f1]; unfold EMPTY; omega
    rw [if_neg hE, if_neg hlt, f1, hL.rd f4 f5, ok_bind, hL.wr f4 f5, ok_bind]
    refine Spec.pure ⟨f2, _, s.Head, rfl, hL.put f4 f5 _, hH, ?_, ?_, hbk _ ?_⟩
    · intro x hx
      rw [hL.at_put f4 f5, if_neg]
      rintro rfl; exact hx f3
    · refine h.setBh hh0 hh1 ?_ ?_
      · intro hc; rw [hD] at hc; simp at hc
      · intro _
        refine ⟨fun _ => rfl, ?_⟩
        intro x _
        rw [hL.at_put f4 f5, f1]
    · intro x hx
      rw [hL.at_put f4 f5, if_neg]
      rintro rfl
      exact hST x f3 hx

end Verif
