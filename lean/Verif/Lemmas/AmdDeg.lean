import Mathlib.Tactic.Push
import Mathlib.Data.Finset.Basic
import Verif.Lemmas.AmdList

/-! # Degree lists of `AMD_2` -/

set_option linter.unusedSectionVars false

namespace Verif

/-- Doubly linked segment: entering at pointer `c` with predecessor `p`, walking through `l`, leaving
at pointer `d` with predecessor `q`. -/
def DTo (nx lt : Int → Int) : Int → Int → List Int → Int → Int → Prop
  | p, c, [], q, d => p = q ∧ c = d
  | p, c, f :: t, q, d => c = f ∧ lt f = p ∧ DTo nx lt f (nx f) t q d

theorem DTo.append {nx lt : Int → Int} {l₁ l₂ : List Int} {p c q d : Int} :
    DTo nx lt p c (l₁ ++ l₂) q d ↔ ∃ q' d', DTo nx lt p c l₁ q' d' ∧ DTo nx lt q' d' l₂ q d := by
  induction l₁ generalizing p c with
  | nil =>
    simp only [List.nil_append, DTo]
    constructor
    · intro h; exact ⟨p, c, ⟨rfl, rfl⟩, h⟩
    · rintro ⟨q', d', ⟨rfl, rfl⟩, h⟩; exact h
  | cons f t ih =>
    simp only [List.cons_append, DTo, ih]
    constructor
    · rintro ⟨h1, h2, q', d', h3, h4⟩; exact ⟨q', d', ⟨h1, h2, h3⟩, h4⟩
    · rintro ⟨q', d', ⟨h1, h2, h3⟩, h4⟩; exact ⟨h1, h2, q', d', h3, h4⟩

theorem DTo.congr {nx lt nx' lt' : Int → Int} {l : List Int} {p c q d : Int}
    (h : DTo nx lt p c l q d) (hn : ∀ x ∈ l, nx' x = nx x) (hl : ∀ x ∈ l, lt' x = lt x) :
    DTo nx' lt' p c l q d := by
  induction l generalizing p c with
  | nil => exact h
  | cons f t ih =>
    refine ⟨h.1, ?_, ?_⟩
    · rw [hl f (by simp)]; exact h.2.1
    · rw [hn f (by simp)]
      exact ih h.2.2 (fun x hx => hn x (by simp [hx])) (fun x hx => hl x (by simp [hx]))

theorem DTo.redirect {nx lt nx' lt' : Int → Int} {l : List Int} {y p c q d d' : Int}
    (h : DTo nx lt p c (l ++ [y]) q d) (hn : ∀ x ∈ l, nx' x = nx x)
    (hl : ∀ x ∈ l ++ [y], lt' x = lt x) (hy : nx' y = d') :
    DTo nx' lt' p c (l ++ [y]) y d' := by
  rw [DTo.append] at h ⊢
  obtain ⟨q', e, h1, h2, h3, h4⟩ := h
  refine ⟨q', e, h1.congr hn (fun x hx => hl x (by simp [hx])), h2, ?_, ?_⟩
  · rw [hl y (by simp)]; exact h3
  · exact ⟨rfl, hy⟩

theorem DTo.rebase {nx lt nx' lt' : Int → Int} {l : List Int} {z p p' c q d : Int}
    (h : DTo nx lt p c (z :: l) q d) (hn : ∀ x ∈ z :: l, nx' x = nx x)
    (hl : ∀ x ∈ l, lt' x = lt x) (hz : lt' z = p') :
    DTo nx' lt' p' c (z :: l) q d := by
  refine ⟨h.1, hz, ?_⟩
  rw [hn z (by simp)]
  exact h.2.2.congr (fun x hx => hn x (by simp [hx])) hl

theorem FLIP_FLIP (i : Int) : FLIP (FLIP i) = i := by unfold FLIP; omega

/-- The degree lists hold exactly the variables of `S`, `D d` those of degree `d`. `bh d` is the first
variable of the hash bucket `d` (`EMPTY` when there is none); it is kept in `Head [d]`, flipped, when
the degree list is empty, and in `Last` of the first variable of the list otherwise. -/
structure DegL (n : Int) (hd nx lt dg : Int → Int) (S : Finset Int) (bh : Int → Int)
    (D : Int → List Int) : Prop where
  rng : ∀ x ∈ S, 0 ≤ x ∧ x < n ∧ 0 ≤ dg x ∧ dg x < n
  nodup : ∀ d, 0 ≤ d → d < n → (D d).Nodup
  mem : ∀ d, 0 ≤ d → d < n → ∀ x, x ∈ D d ↔ x ∈ S ∧ dg x = d
  empty : ∀ d, 0 ≤ d → d < n → D d = [] → hd d = FLIP (bh d)
  chain : ∀ d, 0 ≤ d → d < n → D d ≠ [] → ∃ q, DTo nx lt (bh d) (hd d) (D d) q EMPTY

variable {n : Int} {hd nx lt dg : Int → Int} {S : Finset Int} {bh : Int → Int} {D : Int → List Int}

/-- Cells of variables that are not in the lists do not matter. -/
theorem DegL.congr {nx' lt' dg' : Int → Int} (h : DegL n hd nx lt dg S bh D)
    (h1 : ∀ x ∈ S, nx' x = nx x) (h2 : ∀ x ∈ S, lt' x = lt x) (h3 : ∀ x ∈ S, dg' x = dg x) :
    DegL n hd nx' lt' dg' S bh D where
  rng := fun x hx => by rw [h3 x hx]; exact h.rng x hx
  nodup := h.nodup
  mem := by
    intro d h0 h1 x
    rw [h.mem d h0 h1]
    constructor
    · rintro ⟨a, b⟩; exact ⟨a, by rw [h3 x a]; exact b⟩
    · rintro ⟨a, b⟩; exact ⟨a, by rw [← h3 x a]; exact b⟩
  empty := h.empty
  chain := by
    intro d h0 h1' hne
    obtain ⟨q, hq⟩ := h.chain d h0 h1' hne
    have hS : ∀ x ∈ D d, x ∈ S := fun x hx => ((h.mem d h0 h1' x).mp hx).1
    exact ⟨q, hq.congr (fun x hx => h1 x (hS x hx)) (fun x hx => h2 x (hS x hx))⟩

theorem DegL.head_cons (h : DegL n hd nx lt dg S bh D) {d f : Int} {t : List Int} (h0 : 0 ≤ d)
    (h1 : d < n) (e : D d = f :: t) : hd d = f ∧ lt f = bh d ∧ f ∈ S ∧ 0 ≤ f ∧ f < n ∧ dg f = d ∧
      nx f = (t ++ [EMPTY]).head (by simp) := by
  obtain ⟨q, hq⟩ := h.chain d h0 h1 (by rw [e]; simp)
  rw [e] at hq
  have hm := (h.mem d h0 h1 f).mp (by rw [e]; simp)
  have hr := h.rng f hm.1
  refine ⟨hq.1, hq.2.1, hm.1, hr.1, hr.2.1, hm.2, ?_⟩
  have := hq.2.2
  cases t with
  | nil => exact this.2
  | cons g t => exact this.1

/-- Inserting at the head of a list. -/
theorem DegL.insert (h : DegL n hd nx lt dg S bh D) {i d : Int} (hi0 : 0 ≤ i) (hi1 : i < n)
    (h0 : 0 ≤ d) (h1 : d < n) (hiS : i ∉ S) (hb : bh d = EMPTY)
    {hd' nx' lt' dg' : Int → Int} (ehd : ∀ x, hd' x = if x = d then i else hd x)
    (enx : ∀ x, nx' x = if x = i then hd d else nx x)
    (elt : ∀ x ∈ S, lt' x = if x = hd d then i else lt x) (elti : lt' i = EMPTY)
    (edg : ∀ x ∈ S, dg' x = dg x) (edi : dg' i = d) :
    DegL n hd' nx' lt' dg' (insert i S) bh (fun x => if x = d then i :: D x else D x) where
  rng := by
    intro x hx
    rcases Finset.mem_insert.mp hx with rfl | hx
    · rw [edi]; exact ⟨hi0, hi1, h0, h1⟩
    · rw [edg x hx]; exact h.rng x hx
  nodup := by
    intro x hx0 hx1
    split
    · rw [List.nodup_cons]
      refine ⟨?_, h.nodup x hx0 hx1⟩
      rw [h.mem x hx0 hx1]
      exact fun hh => hiS hh.1
    · exact h.nodup x hx0 hx1
  mem := by
    intro x hx0 hx1 y
    have hm := h.mem x hx0 hx1 y
    have hne : y ∈ S → y ≠ i := by rintro hy rfl; exact hiS hy
    rw [Finset.mem_insert]
    by_cases e : x = d
    · rw [if_pos e, List.mem_cons, hm]
      constructor
      · rintro (rfl | ⟨a, b⟩)
        · exact ⟨Or.inl rfl, by rw [edi, e]⟩
        · exact ⟨Or.inr a, by rw [edg y a]; exact b⟩
      · rintro ⟨rfl | a, b⟩
        · exact Or.inl rfl
        · exact Or.inr ⟨a, by rw [← edg y a]; exact b⟩
    · rw [if_neg e, hm]
      constructor
      · rintro ⟨a, b⟩; exact ⟨Or.inr a, by rw [edg y a]; exact b⟩
      · rintro ⟨rfl | a, b⟩
        · rw [edi] at b; exact absurd b.symm e
        · exact ⟨a, by rw [← edg y a]; exact b⟩
  empty := by
    intro x hx0 hx1 hx
    by_cases e : x = d
    · rw [if_pos e] at hx; simp at hx
    · rw [if_neg e] at hx
      rw [ehd, if_neg e]
      exact h.empty x hx0 hx1 hx
  chain := by
    intro x hx0 hx1 hx
    by_cases e : x = d
    · subst e
      rw [ehd, if_pos rfl, if_pos rfl, hb]
      cases hD : D x with
      | nil =>
        have := h.empty x hx0 hx1 hD
        rw [hb] at this
        refine ⟨i, rfl, elti, rfl, ?_⟩
        rw [enx, if_pos rfl, this]; rfl
      | cons f t =>
        obtain ⟨q, hq⟩ := h.chain x hx0 hx1 (by rw [hD]; simp)
        rw [hD] at hq
        have hf : hd x = f := hq.1
        have hS : ∀ y ∈ f :: t, y ∈ S := fun y hy => ((h.mem x hx0 hx1 y).mp (by rw [hD]; exact hy)).1
        have hnd := h.nodup x hx0 hx1
        rw [hD, List.nodup_cons] at hnd
        refine ⟨q, rfl, elti, ?_⟩
        have : nx' i = hd x := by rw [enx, if_pos rfl]
        rw [this]
        refine hq.rebase ?_ ?_ ?_
        · intro y hy
          rw [enx, if_neg (by rintro rfl; exact hiS (hS y hy))]
        · intro y hy
          rw [elt y (hS y (by simp [hy])), if_neg]
          rw [hf]
          rintro rfl
          exact hnd.1 hy
        · rw [elt f (hS f (by simp)), if_pos hf.symm]
    · rw [if_neg e] at hx ⊢
      rw [ehd, if_neg e]
      obtain ⟨q, hq⟩ := h.chain x hx0 hx1 hx
      have hm : ∀ y ∈ D x, y ∈ S ∧ dg y = x := fun y hy => (h.mem x hx0 hx1 y).mp hy
      refine ⟨q, hq.congr ?_ ?_⟩
      · intro y hy
        rw [enx, if_neg (by rintro rfl; exact hiS (hm y hy).1)]
      · intro y hy
        rw [elt y (hm y hy).1, if_neg]
        rintro rfl
        cases hD : D d with
        | nil =>
          have := h.empty d h0 h1 hD
          rw [hb] at this
          have := (h.rng _ (hm _ hy).1).1
          rw [h.empty d h0 h1 hD, hb] at this
          unfold FLIP EMPTY at this
          omega
        | cons f t =>
          have := h.head_cons h0 h1 hD
          have h2 := (hm _ hy).2
          rw [this.1, this.2.2.2.2.2.1] at h2
          exact e h2.symm

/-- Removing a variable. -/
theorem DegL.remove (h : DegL n hd nx lt dg S bh D) {i : Int} (hiS : i ∈ S) (hb : bh (dg i) = EMPTY)
    {hd' nx' lt' : Int → Int}
    (ehd : ∀ x, hd' x = if lt i = EMPTY ∧ x = dg i then nx i else hd x)
    (enx : ∀ x ∈ S, x ≠ i → nx' x = if x = lt i then nx i else nx x)
    (elt : ∀ x ∈ S, x ≠ i → lt' x = if x = nx i then lt i else lt x) :
    DegL n hd' nx' lt' dg (S.erase i) bh (fun x => (D x).erase i) := by
  obtain ⟨hi0, hi1, hd0, hd1⟩ := h.rng i hiS
  have hmi : i ∈ D (dg i) := (h.mem _ hd0 hd1 i).mpr ⟨hiS, rfl⟩
  have hoth : ∀ x, 0 ≤ x → x < n → x ≠ dg i → (D x).erase i = D x := by
    intro x h0 h1 e
    refine List.erase_of_not_mem ?_
    rw [h.mem x h0 h1]
    exact fun hh => e hh.2.symm
  obtain ⟨pre, post, hsplit⟩ := List.append_of_mem hmi
  have hnd := h.nodup _ hd0 hd1
  have herase : (D (dg i)).erase i = pre ++ post := by
    rw [hsplit] at hnd ⊢
    rw [List.nodup_append] at hnd
    have : i ∉ pre := fun hh => hnd.2.2 i hh i (by simp) rfl
    rw [List.erase_append_right _ this]
    simp
  have hS : ∀ y ∈ D (dg i), y ∈ S ∧ dg y = dg i := fun y hy => (h.mem _ hd0 hd1 y).mp hy
  obtain ⟨q, hq⟩ := h.chain _ hd0 hd1 (by rw [hsplit]; simp)
  rw [hb, hsplit, DTo.append] at hq
  obtain ⟨q', c', g1, g2, g3, g4⟩ := hq
  subst g2
  subst g3
  rw [hsplit, List.nodup_append, List.nodup_cons] at hnd
  obtain ⟨n1, ⟨n2, n3⟩, n4⟩ := hnd
  have nipre : ∀ x ∈ pre, x ≠ c' := fun x hx => n4 x hx c' (by simp)
  have nipost : ∀ x ∈ post, x ≠ c' := by rintro x hx rfl; exact n2 hx
  have hSpre : ∀ x ∈ pre, x ∈ S := fun x hx => (hS x (by rw [hsplit]; simp [hx])).1
  have hSpost : ∀ x ∈ post, x ∈ S := fun x hx => (hS x (by rw [hsplit]; simp [hx])).1
  have hSr : ∀ x ∈ S, x ≠ EMPTY := by
    intro x hx e
    have := (h.rng x hx).1
    rw [e] at this
    unfold EMPTY at this
    omega
  -- pointers of `i`
  have hnxi : (nx c' = EMPTY ∧ post = []) ∨ ∃ z zs, post = z :: zs ∧ nx c' = z := by
    cases post with
    | nil => exact Or.inl ⟨g4.2, rfl⟩
    | cons z zs => exact Or.inr ⟨z, zs, rfl, g4.1⟩
  have hlti : (pre = [] ∧ lt c' = EMPTY) ∨ ∃ pr y, pre = pr ++ [y] ∧ lt c' = y := by
    rcases List.eq_nil_or_concat' pre with hp | ⟨pr, y, hp⟩
    · left
      subst hp
      exact ⟨rfl, g1.1.symm⟩
    · right
      refine ⟨pr, y, hp, ?_⟩
      subst hp
      rw [DTo.append] at g1
      obtain ⟨_, _, _, _, _, k1, _⟩ := g1
      exact k1.symm
  have hlt_dg : ∀ y, y = lt c' → y ∈ S → dg y = dg c' := by
    rintro y hy hyS
    rcases hlti with ⟨_, hh⟩ | ⟨pr, y', hp, hh⟩
    · rw [hy, hh] at hyS; exact absurd rfl (hSr _ hyS)
    · rw [hy, hh]
      exact (hS y' (by rw [hsplit, hp]; simp)).2
  have hnx_dg : ∀ y, y = nx c' → y ∈ S → dg y = dg c' := by
    rintro y hy hyS
    rcases hnxi with ⟨hh, _⟩ | ⟨z, zs, hp, hh⟩
    · rw [hy, hh] at hyS; exact absurd rfl (hSr _ hyS)
    · rw [hy, hh]
      exact (hS z (by rw [hsplit, hp]; simp)).2
  constructor
  · intro x hx; exact h.rng x (Finset.mem_of_mem_erase hx)
  · intro d h0 h1; exact (h.nodup d h0 h1).erase _
  · intro d h0 h1 x
    rw [(h.nodup d h0 h1).mem_erase_iff, h.mem d h0 h1, Finset.mem_erase]
    tauto
  · intro d h0 h1 he
    rw [ehd]
    by_cases e : d = dg c'
    · subst e
      simp only [herase, List.append_eq_nil_iff] at he
      obtain ⟨e1, e2⟩ := he
      have k1 : lt c' = EMPTY := by
        rcases hlti with hh | ⟨pr, y, hp, _⟩
        · exact hh.2
        · rw [hp] at e1; simp at e1
      have k2 : nx c' = EMPTY := by
        rcases hnxi with hh | ⟨z, zs, hp, _⟩
        · exact hh.1
        · rw [hp] at e2; simp at e2
      rw [if_pos ⟨k1, rfl⟩, k2, hb]; rfl
    · rw [if_neg (fun hh => e hh.2)]
      rw [hoth d h0 h1 e] at he
      exact h.empty d h0 h1 he
  · intro d h0 h1 hne
    rw [ehd]
    by_cases e : d = dg c'
    · subst e
      simp only [herase] at hne ⊢
      rw [hb]
      refine ⟨if post = [] then lt c' else q, ?_⟩
      rw [DTo.append]
      refine ⟨lt c', nx c', ?_, ?_⟩
      · rcases hlti with ⟨hp, hh⟩ | ⟨pr, y, hp, hh⟩
        · rw [if_pos ⟨hh, trivial⟩, hp, hh]
          exact ⟨rfl, rfl⟩
        · have hy : y ∈ S := hSpre y (by rw [hp]; simp)
          rw [if_neg (fun hc => hSr y hy (hh ▸ hc.1))]
          rw [hp] at g1 ⊢
          rw [hh] at g1 ⊢
          refine g1.redirect ?_ ?_ ?_
          · intro x hx
            have hxp : x ∈ pre := by rw [hp]; simp [hx]
            rw [enx x (hSpre x hxp) (nipre x hxp), if_neg]
            rw [hh]
            rintro rfl
            rw [hp] at n1
            simp [List.nodup_append] at n1
            exact n1.2 x hx rfl
          · intro x hx
            have hxp : x ∈ pre := by rw [hp]; exact hx
            rw [elt x (hSpre x hxp) (nipre x hxp), if_neg]
            intro hc
            rcases hnxi with ⟨hz, _⟩ | ⟨z, zs, hp2, hz⟩
            · rw [hz] at hc; exact hSr x (hSpre x hxp) hc
            · rw [hz] at hc
              exact n4 x hxp z (by rw [hp2]; simp) hc
          · have hyp : y ∈ pre := by rw [hp]; simp
            rw [enx y hy (nipre y hyp), hh, if_pos rfl]
      · rcases hnxi with ⟨hz, hp⟩ | ⟨z, zs, hp, hz⟩
        · rw [if_pos hp, hp, hz]
          exact ⟨rfl, rfl⟩
        · rw [if_neg (by rw [hp]; simp), hp]
          rw [hp] at g4
          refine g4.rebase ?_ ?_ ?_
          · intro x hx
            rw [← hp] at hx
            rw [enx x (hSpost x hx) (nipost x hx), if_neg]
            intro hc
            rcases hlti with ⟨_, hh⟩ | ⟨pr, y, hp2, hh⟩
            · rw [hh] at hc; exact hSr x (hSpost x hx) hc
            · rw [hh] at hc
              exact n4 y (by rw [hp2]; simp) x (by simp [hx]) hc.symm
          · intro x hx
            have hxp : x ∈ post := by rw [hp]; simp [hx]
            rw [elt x (hSpost x hxp) (nipost x hxp), if_neg]
            rw [hz]
            rintro rfl
            rw [hp, List.nodup_cons] at n3
            exact n3.1 hx
          · have hzp : z ∈ post := by rw [hp]; simp
            rw [elt z (hSpost z hzp) (nipost z hzp), hz, if_pos rfl]
    · rw [if_neg (fun hh => e hh.2)]
      simp only [hoth d h0 h1 e] at hne ⊢
      obtain ⟨q2, hq2⟩ := h.chain d h0 h1 hne
      have hm : ∀ y ∈ D d, y ∈ S ∧ dg y = d := fun y hy => (h.mem d h0 h1 y).mp hy
      have hni : ∀ y ∈ D d, y ≠ c' := by rintro y hy rfl; exact e (hm y hy).2.symm
      refine ⟨q2, hq2.congr ?_ ?_⟩
      · intro y hy
        rw [enx y (hm y hy).1 (hni y hy), if_neg]
        intro hc
        exact e ((hm y hy).2.symm.trans (hlt_dg y hc (hm y hy).1))
      · intro y hy
        rw [elt y (hm y hy).1 (hni y hy), if_neg]
        intro hc
        exact e ((hm y hy).2.symm.trans (hnx_dg y hc (hm y hy).1))

/-- Range of the pointers of a listed variable. -/
theorem DegL.ptr (h : DegL n hd nx lt dg S bh D) {i : Int} (hiS : i ∈ S) (hb : bh (dg i) = EMPTY) :
    (nx i = EMPTY ∨ (nx i ∈ S ∧ nx i ≠ i)) ∧ (lt i = EMPTY ∨ (lt i ∈ S ∧ lt i ≠ i)) := by
  obtain ⟨hi0, hi1, hd0, hd1⟩ := h.rng i hiS
  have hmi : i ∈ D (dg i) := (h.mem _ hd0 hd1 i).mpr ⟨hiS, rfl⟩
  obtain ⟨pre, post, hsplit⟩ := List.append_of_mem hmi
  have hnd := h.nodup _ hd0 hd1
  have hS : ∀ y ∈ D (dg i), y ∈ S := fun y hy => ((h.mem _ hd0 hd1 y).mp hy).1
  obtain ⟨q, hq⟩ := h.chain _ hd0 hd1 (by rw [hsplit]; simp)
  rw [hb, hsplit, DTo.append] at hq
  obtain ⟨q', c', g1, g2, g3, g4⟩ := hq
  subst g2
  subst g3
  rw [hsplit, List.nodup_append, List.nodup_cons] at hnd
  obtain ⟨n1, ⟨n2, n3⟩, n4⟩ := hnd
  constructor
  · cases post with
    | nil => exact Or.inl g4.2
    | cons z zs =>
      right
      have e : nx c' = z := g4.1
      rw [e]
      exact ⟨hS z (by rw [hsplit]; simp), by rintro rfl; simp at n2⟩
  · rcases List.eq_nil_or_concat' pre with hp | ⟨pr, y, hp⟩
    · left
      subst hp
      exact g1.1.symm
    · right
      subst hp
      rw [DTo.append] at g1
      obtain ⟨_, _, _, _, _, k1, _⟩ := g1
      rw [← k1]
      exact ⟨hS y (by rw [hsplit]; simp), n4 y (by simp) c' (by simp)⟩

/-- amd_2.c 793–806 and 964–977 -/
theorem degRemove_spec {s : Amd2} (hN : Arr s.Next n n) (hL : Arr s.Last n n) (hH : Arr s.Head n n)
    (hDg : Arr s.Degree n n)
    (h : DegL n s.Head.at s.Next.at s.Last.at s.Degree.at S (fun _ => EMPTY) D) {i : Int} (hi : i ∈ S) :
    Spec (degRemove i s) (fun s' => ∃ Nx Lt Hd, s' = { s with Next := Nx, Last := Lt, Head := Hd } ∧
      Arr Nx n n ∧ Arr Lt n n ∧ Arr Hd n n ∧
      DegL n Hd.at Nx.at Lt.at s.Degree.at (S.erase i) (fun _ => EMPTY) (fun x => (D x).erase i)) := by
  obtain ⟨hi0, hi1, hd0, hd1⟩ := h.rng i hi
  obtain ⟨hnx, hlt⟩ := h.ptr hi rfl
  have nxr : s.Next.at i ≠ EMPTY → 0 ≤ s.Next.at i ∧ s.Next.at i < n := by
    intro hne
    have := h.rng _ (hnx.resolve_left hne).1
    exact ⟨this.1, this.2.1⟩
  have ltr : s.Last.at i ≠ EMPTY → 0 ≤ s.Last.at i ∧ s.Last.at i < n := by
    intro hne
    have := h.rng _ (hlt.resolve_left hne).1
    exact ⟨this.1, this.2.1⟩
  unfold degRemove
  rw [hL.rd hi0 hi1, ok_bind, hN.rd hi0 hi1, ok_bind]
  -- Last
  obtain ⟨Lt, hw, aLt, elt⟩ : ∃ Lt, (if s.Next.at i ≠ EMPTY then wr s.Last (s.Next.at i) (s.Last.at i)
      else pure s.Last) = .ok Lt ∧ Arr Lt n n ∧
      ∀ x ∈ S, x ≠ i → Lt.at x = if x = s.Next.at i then s.Last.at i else s.Last.at x := by
    by_cases e : s.Next.at i = EMPTY
    · refine ⟨s.Last, by rw [if_neg (by simpa using e)]; rfl, hL, ?_⟩
      intro x hx _
      rw [if_neg]
      rw [e]
      have := (h.rng x hx).1
      unfold EMPTY
      omega
    · obtain ⟨a, b⟩ := nxr e
      refine ⟨_, by rw [if_pos e, hL.wr a b], hL.put a b _, ?_⟩
      intro x _ _
      exact hL.at_put a b _ x
  rw [hw, ok_bind]
  by_cases e : s.Last.at i = EMPTY
  · rw [if_neg (by simpa using e), hDg.rd hi0 hi1, ok_bind, hH.wr hd0 hd1, ok_bind]
    refine Spec.pure ⟨s.Next, Lt, _, rfl, hN, aLt, hH.put hd0 hd1 _, ?_⟩
    refine h.remove hi rfl ?_ ?_ elt
    · intro x
      rw [hH.at_put hd0 hd1]
      simp only [e, true_and]
    · intro x hx _
      rw [if_neg]
      rw [e]
      have := (h.rng x hx).1
      unfold EMPTY
      omega
  · obtain ⟨a, b⟩ := ltr e
    rw [if_pos e, hN.wr a b, ok_bind]
    refine Spec.pure ⟨_, Lt, s.Head, rfl, hN.put a b _, aLt, hH, ?_⟩
    refine h.remove hi rfl ?_ ?_ elt
    · intro x
      rw [if_neg (fun hh => e hh.1)]
    · intro x _ _
      exact hN.at_put a b _ x

/-- amd_2.c 699–703 -/
theorem degInsert_spec {s : Amd2} (hN : Arr s.Next n n) (hL : Arr s.Last n n) (hH : Arr s.Head n n)
    (h : DegL n s.Head.at s.Next.at s.Last.at s.Degree.at S (fun _ => EMPTY) D) {i d : Int}
    (hi0 : 0 ≤ i) (hi1 : i < n) (hd0 : 0 ≤ d) (hd1 : d < n) (hi : i ∉ S)
    (hlast : s.Last.at i = EMPTY) (hdeg : s.Degree.at i = d) :
    Spec (degInsert i d s) (fun s' => ∃ Nx Lt Hd, s' = { s with Next := Nx, Last := Lt, Head := Hd } ∧
      Arr Nx n n ∧ Arr Lt n n ∧ Arr Hd n n ∧
      (∀ x, x ∉ S → Lt.at x = s.Last.at x) ∧
      DegL n Hd.at Nx.at Lt.at s.Degree.at (insert i S) (fun _ => EMPTY)
        (fun x => if x = d then i :: D x else D x)) := by
  unfold degInsert
  rw [hH.rd hd0 hd1, ok_bind]
  have hhd : s.Head.at d = EMPTY ∨ (s.Head.at d ∈ S ∧ 0 ≤ s.Head.at d ∧ s.Head.at d < n) := by
    cases hD : D d with
    | nil => left; rw [h.empty d hd0 hd1 hD]; rfl
    | cons f t =>
      right
      have := h.head_cons hd0 hd1 hD
      rw [this.1]; exact ⟨this.2.2.1, this.2.2.2.1, this.2.2.2.2.1⟩
  obtain ⟨Lt, hw, aLt, elt, enS⟩ : ∃ Lt, (if s.Head.at d ≠ EMPTY then wr s.Last (s.Head.at d) i
      else pure s.Last) = .ok Lt ∧ Arr Lt n n ∧
      (∀ x ∈ S, Lt.at x = if x = s.Head.at d then i else s.Last.at x) ∧
      (∀ x, x ∉ S → Lt.at x = s.Last.at x) := by
    by_cases e : s.Head.at d = EMPTY
    · refine ⟨s.Last, by rw [if_neg (by simpa using e)]; rfl, hL, ?_, fun x _ => rfl⟩
      intro x hx
      rw [if_neg]
      rw [e]
      have := (h.rng x hx).1
      unfold EMPTY
      omega
    · obtain ⟨c, a, b⟩ := hhd.resolve_left e
      refine ⟨_, by rw [if_pos e, hL.wr a b], hL.put a b _, ?_, ?_⟩
      · intro x _
        exact hL.at_put a b _ x
      · intro x hx
        rw [hL.at_put a b, if_neg]
        rintro rfl
        exact hx c
  rw [hw, ok_bind, hN.wr hi0 hi1, ok_bind, hH.wr hd0 hd1, ok_bind]
  refine Spec.pure ⟨_, Lt, _, rfl, hN.put hi0 hi1 _, aLt, hH.put hd0 hd1 _, enS, ?_⟩
  refine h.insert hi0 hi1 hd0 hd1 hi rfl ?_ ?_ elt (by rw [enS i hi, hlast]) (fun _ _ => rfl) hdeg
  · intro x; exact hH.at_put hd0 hd1 _ x
  · intro x; exact hN.at_put hi0 hi1 _ x

/-- amd_2.c 727–742 -/
theorem amd2Pivot_spec {s : Amd2} (hN : Arr s.Next n n) (hL : Arr s.Last n n) (hH : Arr s.Head n n)
    (h : DegL n s.Head.at s.Next.at s.Last.at s.Degree.at S (fun _ => EMPTY) D)
    (hm0 : 0 ≤ s.mindeg) (hmd : ∀ x ∈ S, s.mindeg ≤ s.Degree.at x) (hne : S.Nonempty) :
    Spec (amd2Pivot n s) (fun r => r.1 ∈ S ∧ ∃ Lt Hd md, r.2 = { s with Last := Lt, Head := Hd, mindeg := md } ∧
      Arr Lt n n ∧ Arr Hd n n ∧ 0 ≤ md ∧ (∀ x ∈ S, md ≤ s.Degree.at x) ∧
      DegL n Hd.at s.Next.at Lt.at s.Degree.at (S.erase r.1) (fun _ => EMPTY)
        (fun x => (D x).erase r.1) ∧ s.Degree.at r.1 = md) := by
  unfold amd2Pivot
  obtain ⟨x0, hx0⟩ := hne
  obtain ⟨_, _, hdx0, hdx1⟩ := h.rng x0 hx0
  have hmx := hmd x0 hx0
  refine Spec.bind (forBrk_int (by omega) (fun j (r : Int × Int) => r.1 = j ∧ s.mindeg ≤ j ∧
      ∀ x ∈ S, j ≤ s.Degree.at x)
    (fun j r => r.1 = j ∧ r.2 = s.Head.at j ∧ r.2 ≠ EMPTY ∧ s.mindeg ≤ j ∧ j < n ∧
      ∀ x ∈ S, j ≤ s.Degree.at x) ⟨rfl, le_rfl, hmd⟩ ?_) ?_
  · rintro j ⟨r1, r2⟩ hj0 hj1 ⟨e, h1, h2⟩
    simp only at e
    rw [hH.rd (by omega) hj1, ok_bind]
    by_cases hE : s.Head.at j = EMPTY
    · rw [if_neg (by simpa using hE)]
      refine Spec.pure ?_
      simp only [Bool.false_eq_true, if_false]
      refine ⟨trivial, by omega, ?_⟩
      intro x hx
      have hne : s.Degree.at x ≠ j := by
        intro e2
        have hmem := (h.mem j (by omega) hj1 x).mpr ⟨hx, e2⟩
        cases hD : D j with
        | nil => rw [hD] at hmem; simp at hmem
        | cons f t =>
          have := h.head_cons (by omega) hj1 hD
          rw [hE] at this
          have h3 := this.1
          have h4 := this.2.2.2.1
          unfold EMPTY at h3
          omega
      have := h2 x hx
      omega
    · rw [if_pos hE]
      refine Spec.pure ?_
      simp only [if_true]
      exact ⟨trivial, trivial, hE, h1, hj1, h2⟩
  rintro ⟨⟨deg, me⟩, b⟩ hr
  simp only at hr ⊢
  cases b with
  | false =>
    simp only [Bool.false_eq_true, if_false] at hr
    have := hr.2.2 x0 hx0
    omega
  | true =>
    simp only [if_true] at hr
    obtain ⟨j, hj0, hj1, e1, e2, e3, hj2, _, hj3⟩ := hr
    subst e1
    subst e2
    obtain ⟨f, t, hD⟩ : ∃ f t, D deg = f :: t := by
      cases hD : D deg with
      | nil => exact absurd (h.empty deg (by omega) hj1 hD) e3
      | cons f t => exact ⟨f, t, rfl⟩
    have hf := h.head_cons (by omega) hj1 hD
    obtain ⟨f1, f2, f3, f4, f5, f6, f7⟩ := hf
    obtain ⟨hnx, _⟩ := h.ptr f3 rfl
    rw [f1, hN.rd f4 f5, ok_bind]
    have nxr : s.Next.at f ≠ EMPTY → 0 ≤ s.Next.at f ∧ s.Next.at f < n := by
      intro hne
      have := h.rng _ (hnx.resolve_left hne).1
      exact ⟨this.1, this.2.1⟩
    obtain ⟨Lt, hw, aLt, elt⟩ : ∃ Lt, (if s.Next.at f ≠ EMPTY then wr s.Last (s.Next.at f) EMPTY
        else pure s.Last) = .ok Lt ∧ Arr Lt n n ∧
        ∀ x ∈ S, x ≠ f → Lt.at x = if x = s.Next.at f then s.Last.at f else s.Last.at x := by
      by_cases e : s.Next.at f = EMPTY
      · refine ⟨s.Last, by rw [if_neg (by simpa using e)]; rfl, hL, ?_⟩
        intro x hx _
        rw [if_neg]
        rw [e]
        have := (h.rng x hx).1
        unfold EMPTY
        omega
      · obtain ⟨a, b⟩ := nxr e
        refine ⟨_, by rw [if_pos e, hL.wr a b], hL.put a b _, ?_⟩
        intro x _ _
        rw [f2]
        exact hL.at_put a b _ x
    rw [hw, ok_bind, hH.wr (by omega) hj1, ok_bind]
    refine Spec.pure ⟨f3, Lt, _, deg, rfl, aLt, hH.put (by omega) hj1 _, by omega, hj3, ?_⟩
    refine ⟨h.remove f3 rfl ?_ ?_ elt, ((h.mem deg (by omega) hj1 f).mp (by rw [hD]; simp)).2⟩
    · intro x
      rw [hH.at_put (by omega) hj1, f2, f6]
      simp only [true_and]
    · intro x hx _
      rw [if_neg]
      rw [f2]
      have := (h.rng x hx).1
      unfold EMPTY
      omega

end Verif
