import Verif.Lemmas.AmdTree
import Verif.Lemmas.AmdSem
import Verif.Lemmas.AmdScan2
import Verif.Lemmas.AmdRestore

/-!
# Invariant of the main loop of `AMD_2`
-/

namespace Verif

open Finset

variable {n iwlen : Int}

/-- The list stored for an object: elements and variables of a variable, variables of an element. -/
def lst (V : Finset Int) (E A L : Int → List Int) (x : Int) : List Int :=
  if x ∈ V then E x ++ A x else L x

open Classical in
/-- Number of nodes in the groups of `F` that are neighbours of `x` in the quotient graph. -/
noncomputable def extDeg (n : Int) (F K : Finset Int) (A L : Int → List Int) (rep : Int → Int) (x : Int) : Int :=
  ∑ j ∈ F.filter (fun j => j ≠ x ∧ QAdj K A L x j), cnt n rep j

theorem extDeg_mono {F F' K K' : Finset Int} {A A' L L' : Int → List Int} {rep rep' : Int → Int} {x : Int}
    (h : ∀ j ∈ F, j ≠ x → QAdj K A L x j → j ∈ F' ∧ QAdj K' A' L' x j ∧ cnt n rep j = cnt n rep' j) :
    extDeg n F K A L rep x ≤ extDeg n F' K' A' L' rep' x := by
  classical
  unfold extDeg
  have h' : ∀ j ∈ F.filter (fun j => j ≠ x ∧ QAdj K A L x j),
      j ∈ F'.filter (fun j => j ≠ x ∧ QAdj K' A' L' x j) ∧ cnt n rep j = cnt n rep' j := by
    intro j hj
    simp only [Finset.mem_filter] at hj ⊢
    obtain ⟨q1, q2, q3⟩ := h j hj.1 hj.2.1 hj.2.2
    exact ⟨⟨q1, hj.2.1, q2⟩, q3⟩
  rw [Finset.sum_congr rfl fun j hj => (h' j hj).2]
  exact Finset.sum_le_sum_of_subset_of_nonneg (fun j hj => (h' j hj).1) fun _ _ _ => cnt_nonneg _

/-- The weight of a set that is covered by a list of sets and a list of elements. -/
theorem sum_le_cover {c : Int → Int} (hc : ∀ j, 0 ≤ c j) {G : Int → Finset Int} {la : List Int} :
    ∀ (le : List Int) {F : Finset Int}, (∀ j ∈ F, j ∈ la ∨ ∃ e ∈ le, j ∈ G e) →
      ∑ j ∈ F, c j ≤ (le.map (fun e => ∑ j ∈ G e, c j)).sum + (la.map c).sum := by
  intro le
  induction le with
  | nil =>
    intro F h
    have h1 : F ⊆ la.toFinset := fun j hj => by
      rcases h j hj with h' | ⟨e, he, _⟩
      · exact List.mem_toFinset.mpr h'
      · simp at he
    have h2 : ∀ l : List Int, ∑ j ∈ l.toFinset, c j ≤ (l.map c).sum := by
      intro l
      induction l with
      | nil => simp
      | cons a l ih =>
        rw [List.toFinset_cons, List.map_cons, List.sum_cons]
        by_cases ha : a ∈ l.toFinset
        · rw [Finset.insert_eq_of_mem ha]
          have := hc a
          omega
        · rw [Finset.sum_insert ha]
          omega
    have h3 := Finset.sum_le_sum_of_subset_of_nonneg h1 (fun j _ _ => hc j)
    have h4 := h2 la
    simp only [List.map_nil, List.sum_nil]
    omega
  | cons e le ih =>
    intro F h
    have h1 := ih (F := F \ G e) (fun j hj => by
      rw [Finset.mem_sdiff] at hj
      rcases h j hj.1 with h' | ⟨e', he', hje⟩
      · exact Or.inl h'
      · rcases List.mem_cons.mp he' with rfl | he'
        · exact absurd hje hj.2
        · exact Or.inr ⟨e', he', hje⟩)
    have h2 : ∑ j ∈ F ∩ G e, c j ≤ ∑ j ∈ G e, c j :=
      Finset.sum_le_sum_of_subset_of_nonneg Finset.inter_subset_right (fun j _ _ => hc j)
    have h3 := Finset.sum_inter_add_sum_sdiff F (G e) c
    rw [List.map_cons, List.sum_cons]
    omega

/-- Invariant at the head of the main loop. -/
structure AInv (n iwlen : Int) (V K Z : Finset Int) (E A L : Int → List Int) (rep : Int → Int)
    (rk : Int → Nat) (s : Amd2) : Prop where
  aP : Arr s.Pe n n
  aI : Arr s.Iw iwlen s.pfree
  aL : Arr s.Len n n
  aNv : Arr s.Nv n n
  aN : Arr s.Next n n
  aT : Arr s.Last n n
  aH : Arr s.Head n n
  aW : Arr s.W n n
  aE : Arr s.Elen n n
  aD : Arr s.Degree n n
  g : GInv n V K Z E A L
  j : ∀ e ∈ K, ∃ i ∈ V, i ∈ L e
  t : TInv n V K Z rep rk s.Pe.at s.Elen.at
  nv : ∀ x, 0 ≤ x → x < n → s.Nv.at x = cnt n rep x
  mem : Mem s.Iw.at s.Pe.at (lst V E A L) (V ∪ K) s.pfree
  len : ∀ x ∈ V ∪ K, s.Len.at x = (lst V E A L x).length
  elen : ∀ i ∈ V, s.Elen.at i = (E i).length
  eb : ∀ x, 0 ≤ x → x < n → x ∉ V → -(n + 2) ≤ s.Elen.at x ∧ s.Elen.at x ≤ 0
  size : ∑ x ∈ V ∪ K, ((lst V E A L x).length : Int) ≤ iwlen - n
  pf : 0 ≤ s.pfree
  val : ∀ c, 0 ≤ c → c < s.pfree → 0 ≤ s.Iw.at c ∧ s.Iw.at c < n
  dg : ∀ e ∈ K, ∑ i ∈ V.filter (fun i => i ∈ L e), cnt n rep i = s.Degree.at e ∧
    s.Degree.at e ≤ s.lemax
  wl : ∑ i ∈ V, cnt n rep i * ((E i ++ A i).length : Int) ≤ iwlen
  w : ∀ x, 0 ≤ x → x < n → s.W.at x < s.wflg
  wne : ∀ x ∈ V ∪ K, s.W.at x ≠ 0
  dl : ∃ D, DegL n s.Head.at s.Next.at s.Last.at s.Degree.at V (fun _ => EMPTY) D
  md0 : 0 ≤ s.mindeg
  md : ∀ x ∈ V, s.mindeg ≤ s.Degree.at x
  nel : s.nel + ∑ x ∈ V, cnt n rep x = n
  nel0 : 0 ≤ s.nel
  lemax : 0 ≤ s.lemax ∧ s.lemax ≤ n
  wpos : 0 < s.wflg
  ext : ∀ x ∈ V, extDeg n V K A L rep x ≤ s.Degree.at x
  ub : (∀ z, 0 ≤ z → z < n → rep z ≠ -1) → ∀ x ∈ V, (E x).length ≤ 2 → s.Degree.at x ≤ extDeg n V K A L rep x

/-- State of an iteration before the merging of indistinguishable variables. The pivot `me` is an
element with the list `M`; `S` are the live variables that are not adjacent to it, `T0` those that
are. -/
structure Mid (n iwlen me pme1 degme nvpiv elenme : Int) (M : List Int) (S T0 V K Z : Finset Int)
    (E A L : Int → List Int) (rep : Int → Int) (rk : Int → Nat) (s : Amd2) : Prop where
  aP : Arr s.Pe n n
  aI : Arr s.Iw iwlen s.pfree
  aL : Arr s.Len n n
  aNv : Arr s.Nv n n
  aN : Arr s.Next n n
  aT : Arr s.Last n n
  aH : Arr s.Head n n
  aW : Arr s.W n n
  aE : Arr s.Elen n n
  aD : Arr s.Degree n n
  g : GInv n V K Z E A L
  meK : me ∈ K
  Lme : L me = M
  j : ∀ e ∈ K, e ≠ me → ∃ i ∈ V, i ∈ L e
  t : TInv n V K Z rep rk s.Pe.at s.Elen.at
  nv : ∀ x, 0 ≤ x → x < n → x ≠ me → s.Nv.at x = if x ∈ T0 then -(cnt n rep x) else cnt n rep x
  nvp : nvpiv = cnt n rep me
  VST : ∀ x, x ∈ V ↔ x ∈ S ∨ x ∈ T0
  ST : ∀ x ∈ S, x ∉ T0
  TM : ∀ x ∈ T0, x ∈ M
  MT : ∀ x ∈ M, x ∈ T0 ∨ x ∈ Z
  nodup : M.Nodup
  Eme : ∀ i ∈ T0, ∃ t, E i = me :: t
  AS : ∀ i ∈ T0, ∀ j ∈ A i, j ∈ S
  mem : Mem s.Iw.at s.Pe.at (lst V E A L) (V ∪ K.erase me) s.pfree
  blk : Blk s.Iw.at pme1 M
  p0 : 0 ≤ pme1
  pf : pme1 + M.length ≤ s.pfree
  pf' : elenme ≠ 0 → s.pfree = pme1 + M.length
  disj : ∀ x ∈ V ∪ K.erase me, s.Pe.at x + (lst V E A L x).length ≤ pme1 ∨ pme1 + M.length ≤ s.Pe.at x
  peme : s.Pe.at me = pme1
  len : ∀ x ∈ V ∪ K.erase me, s.Len.at x = (lst V E A L x).length
  elen : ∀ i ∈ V, s.Elen.at i = (E i).length
  eb : ∀ x, 0 ≤ x → x < n → x ∉ V → -(n + 2) ≤ s.Elen.at x ∧ s.Elen.at x ≤ 0
  size : (M.length : Int) + ∑ x ∈ V ∪ K.erase me, ((lst V E A L x).length : Int) ≤ iwlen - n
  val : ∀ c, 0 ≤ c → c < s.pfree → 0 ≤ s.Iw.at c ∧ s.Iw.at c < n
  dg : ∀ e ∈ K, ∑ i ∈ V.filter (fun i => i ∈ L e), cnt n rep i = s.Degree.at e ∧
    s.Degree.at e ≤ s.lemax
  wl : ∑ i ∈ V, cnt n rep i * ((E i ++ A i).length : Int) ≤ iwlen
  dgT : ∀ i ∈ T0, 0 ≤ s.Degree.at i ∧ s.Degree.at i ≤ n
  degme : s.Degree.at me = degme
  w : ∀ x, 0 ≤ x → x < n → s.W.at x < s.wflg
  wpos : 0 < s.wflg
  wtop : s.wflg + n ≤ Int_MAX
  wne : ∀ x ∈ V ∪ K, s.W.at x ≠ 0
  lists : ∃ bh D B, DegL n s.Head.at s.Next.at s.Last.at s.Degree.at S bh D ∧
    HashL n s.Next.at s.Last.at T0 bh B
  md0 : 0 ≤ s.mindeg
  md : ∀ x ∈ S, s.mindeg ≤ s.Degree.at x
  nel : s.nel + ∑ x ∈ V, cnt n rep x = n
  nel0 : 0 ≤ s.nel
  lemax : 0 ≤ s.lemax ∧ s.lemax ≤ n
  extS : ∀ x ∈ S, extDeg n V K A L rep x ≤ s.Degree.at x
  extT : ∀ x ∈ T0, extDeg n S K A L rep x ≤ s.Degree.at x
  ubS : (∀ z, 0 ≤ z → z < n → rep z ≠ -1) → ∀ x ∈ S, (E x).length ≤ 2 → s.Degree.at x ≤ extDeg n V K A L rep x
  ubT : ∀ x ∈ T0, (E x).length ≤ 2 → s.Degree.at x ≤ extDeg n S K A L rep x

/-- Merging `j` into `i` keeps the weight of a set that contains both or neither. -/
theorem sum_cnt_merge {rep : Int → Int} {F : Finset Int} {i j : Int} (hij : i ≠ j) (h : i ∈ F ↔ j ∈ F) :
    ∑ x ∈ F.erase j, cnt n (mrg rep {j} i) x = ∑ x ∈ F, cnt n rep x := by
  have hc : ∀ x, cnt n (mrg rep {j} i) x
      = if x = i then cnt n rep i + cnt n rep j else if x = j then 0 else cnt n rep x := by
    intro x
    rw [cnt_mrg (by simpa using hij)]
    simp
  by_cases hj : j ∈ F
  · have hi := h.mpr hj
    have hi' : i ∈ F.erase j := Finset.mem_erase.mpr ⟨hij, hi⟩
    rw [← Finset.add_sum_erase _ _ hj, ← Finset.add_sum_erase _ _ hi', ← Finset.add_sum_erase _ _ hi', hc,
      if_pos rfl]
    have : ∑ x ∈ (F.erase j).erase i, cnt n (mrg rep {j} i) x = ∑ x ∈ (F.erase j).erase i, cnt n rep x := by
      refine Finset.sum_congr rfl fun x hx => ?_
      simp only [Finset.mem_erase] at hx
      rw [hc, if_neg hx.1, if_neg hx.2.1]
    rw [this]
    ring
  · have hi : i ∉ F := fun h' => hj (h.mp h')
    rw [Finset.erase_eq_of_notMem hj]
    refine Finset.sum_congr rfl fun x hx => ?_
    rw [hc, if_neg (fun e : x = i => hi (e ▸ hx)), if_neg (fun e : x = j => hj (e ▸ hx))]

/-- Merging `j` into `i` keeps a weighted sum of values that agree on the two. -/
theorem sum_cnt_mul_merge {rep : Int → Int} {F : Finset Int} {f : Int → Int} {i j : Int} (hij : i ≠ j)
    (hi : i ∈ F) (hj : j ∈ F) (hf : f i = f j) :
    ∑ x ∈ F.erase j, cnt n (mrg rep {j} i) x * f x = ∑ x ∈ F, cnt n rep x * f x := by
  have hc : ∀ x, cnt n (mrg rep {j} i) x
      = if x = i then cnt n rep i + cnt n rep j else if x = j then 0 else cnt n rep x := by
    intro x
    rw [cnt_mrg (by simpa using hij)]
    simp
  have hi' : i ∈ F.erase j := Finset.mem_erase.mpr ⟨hij, hi⟩
  rw [← Finset.add_sum_erase _ _ hj, ← Finset.add_sum_erase _ _ hi', ← Finset.add_sum_erase _ _ hi', hc,
    if_pos rfl]
  have : ∑ x ∈ (F.erase j).erase i, cnt n (mrg rep {j} i) x * f x
      = ∑ x ∈ (F.erase j).erase i, cnt n rep x * f x := by
    refine Finset.sum_congr rfl fun x hx => ?_
    simp only [Finset.mem_erase] at hx
    rw [hc, if_neg hx.1, if_neg hx.2.1]
  rw [this, ← hf]
  ring

/-- What the merging of indistinguishable variables keeps. -/
def DetI (n iwlen me nvpiv : Int) (S T0 V K Z : Finset Int) (E A L : Int → List Int) (rep0 : Int → Int) (s : Amd2)
    (live : Finset Int) (nv pe el : Int → Int) : Prop :=
  ∃ (rep : Int → Int) (rk : Int → Nat), TInv n (S ∪ live) K (Z ∪ (T0 \ live)) rep rk pe el ∧
    (∀ e ∈ K, e ≠ me → ∃ i ∈ S ∪ live, i ∈ L e) ∧
    (∀ x, 0 ≤ x → x < n → x ≠ me → nv x = if x ∈ live then -(cnt n rep x) else cnt n rep x) ∧
    nvpiv = cnt n rep me ∧
    (∀ e ∈ K, ∑ i ∈ (S ∪ live).filter (fun i => i ∈ L e), cnt n rep i = s.Degree.at e) ∧
    ∑ i ∈ S ∪ live, cnt n rep i * ((E i ++ A i).length : Int) ≤ iwlen ∧
    ∑ x ∈ S ∪ live, cnt n rep x = ∑ x ∈ V, cnt n rep0 x ∧
    (∀ x, x ∉ T0 → pe x = s.Pe.at x ∧ el x = s.Elen.at x) ∧
    (∀ x ∈ T0, x ∉ live → el x = EMPTY) ∧
    (∀ x, x ∉ T0 → ∀ z, rep z = x ↔ rep0 z = x) ∧
    (∀ adj C, QSem n adj V K Z A L rep0 s.Pe.at C → QSem n adj (S ∪ live) K (Z ∪ (T0 \ live)) A L rep pe C) ∧
    (∀ x ∈ S, extDeg n (S ∪ live) K A L rep x = extDeg n V K A L rep0 x)

section

variable {me pme1 degme nvpiv elenme : Int} {M : List Int} {S T0 V K Z : Finset Int}
    {E A L : Int → List Int} {rep : Int → Int} {rk : Int → Nat} {s : Amd2}

theorem Mid.merged (h : Mid n iwlen me pme1 degme nvpiv elenme M S T0 V K Z E A L rep rk s)
    {live : Finset Int} (hl : live ⊆ T0) : GInv n (S ∪ live) K (Z ∪ (T0 \ live)) E A L := by
  refine h.g.merge ?_ ?_
  · intro x hx
    rw [h.VST]
    rcases Finset.mem_union.mp hx with h' | h'
    · exact Or.inl h'
    · exact Or.inr (hl h')
  · intro x
    rw [Finset.mem_union, Finset.mem_sdiff, Finset.mem_union, h.VST]
    have := h.ST x
    tauto

theorem Mid.mergeOk (h : Mid n iwlen me pme1 degme nvpiv elenme M S T0 V K Z E A L rep rk s) :
    MergeOk T0 (fun x => (E x).tail ++ A x) (DetI n iwlen me nvpiv S T0 V K Z E A L rep s) := by
  rintro live nv pe el nv' pe' el' i j hl ⟨rep', rk', t, hj, hnv, hnvp, hdg, hwl, hsum, hoff, hel, hcn, hsem, hext⟩ hi hjl hij hC e1 e2 e3
  have g := h.merged hl
  have hiV : i ∈ S ∪ live := Finset.mem_union_right _ hi
  have hjV : j ∈ S ∪ live := Finset.mem_union_right _ hjl
  have hjT := hl hjl
  have hiT := hl hi
  have hjS : j ∉ S := fun h' => h.ST j h' hjT
  have hjr := g.Vr j hjV
  have hir := g.Vr i hiV
  have hVe : S ∪ live.erase j = (S ∪ live).erase j := by
    ext x
    simp only [Finset.mem_union, Finset.mem_erase]
    by_cases hx : x = j
    · subst hx; simp [hjS]
    · simp [hx]
  have hmei : i ≠ me := fun e => g.VK i hiV (e ▸ h.meK)
  have hmej : j ≠ me := fun e => g.VK j hjV (e ▸ h.meK)
  -- the same elements
  have hE : ∀ e ∈ K, (e ∈ E i ↔ e ∈ E j) := by
    have key : ∀ a ∈ T0, ∀ b ∈ T0, (∀ x, x ∈ (E a).tail ++ A a ↔ x ∈ (E b).tail ++ A b) → ∀ e ∈ K,
        e ∈ E a → e ∈ E b := by
      intro a ha b hb hab e he hea
      obtain ⟨ta, hta⟩ := h.Eme a ha
      obtain ⟨tb, htb⟩ := h.Eme b hb
      rw [hta] at hea
      rw [htb]
      rcases List.mem_cons.mp hea with rfl | hea
      · simp
      · have := (hab e).mp (by rw [hta]; simp [hea])
        rw [htb] at this
        simp only [List.tail_cons, List.mem_append] at this
        rcases this with h' | h'
        · simp [h']
        · exact absurd he (h.g.VK e ((h.VST e).mpr (Or.inl (h.AS b hb e h'))))
    exact fun e he => ⟨key i hiT j hjT hC e he, key j hjT i hiT (fun x => (hC x).symm) e he⟩
  have hL : ∀ e ∈ K, (i ∈ L e ↔ j ∈ L e) := by
    intro e he
    constructor
    · intro h'
      exact (g.elt j hjV e ((hE e he).mp (g.le e he i hiV h'))).2
    · intro h'
      exact (g.elt i hiV e ((hE e he).mpr (g.le e he j hjV h'))).2
  have hcm : ∀ x, cnt n (mrg rep' {j} i) x
      = if x = i then cnt n rep' i + cnt n rep' j else if x = j then 0 else cnt n rep' x := by
    intro x
    rw [cnt_mrg (by simpa using hij)]
    simp
  refine ⟨mrg rep' {j} i, _, t.join (V1 := S ∪ live.erase j) (K1 := K) (X := {j}) (Y := ∅)
    (Z1 := Z ∪ (T0 \ live.erase j)) hiV g.Vr g.VZ g.KZ ?_ ?_ ?_ ?_ ?_ ?_ ?_ ?_ ?_ ?_ ?_, ?_, ?_, ?_, ?_, ?_,
    ?_, ?_, ?_, ?_, ?_, ?_⟩
  · intro x hx
    rw [Finset.mem_singleton] at hx
    subst hx
    exact ⟨hjV, fun e => hij e.symm⟩
  · intro x hx; simp at hx
  · intro x hx
    rw [hVe] at hx
    exact Finset.mem_of_mem_erase hx
  · intro x hx hx'
    rw [hVe, Finset.mem_erase] at hx'
    left
    rw [Finset.mem_singleton]
    by_contra hne
    exact hx' ⟨hne, hx⟩
  · left
    rw [hVe, Finset.mem_erase]
    exact ⟨hij, hiV⟩
  · intro x hx hx'; exact absurd hx hx'
  · intro x
    simp only [Finset.mem_union, Finset.mem_sdiff, Finset.mem_erase, Finset.mem_singleton]
    constructor
    · rintro (h' | ⟨q1, q2⟩)
      · exact Or.inl (Or.inl h')
      · by_cases hx : x = j
        · exact Or.inr hx
        · exact Or.inl (Or.inr ⟨q1, fun h' => q2 ⟨hx, h'⟩⟩)
    · rintro ((h' | ⟨q1, q2⟩) | rfl)
      · exact Or.inl h'
      · exact Or.inr ⟨q1, fun h' => q2 h'.2⟩
      · exact Or.inr ⟨hjT, fun h' => h'.1 rfl⟩
  · intro x hx
    have hx : x = j := by
      rcases hx with h' | h'
      · simpa using h'
      · simp at h'
    rw [e2, if_pos hx]
  · intro x _ _ hx _
    rw [e2, if_neg (fun e : x = j => hx (e ▸ hjV))]
  · intro x _ _ hx
    rw [e3, if_neg (fun e : x = j => hx (e ▸ hjV))]
  · intro h'
    rw [hVe, Finset.mem_erase] at h'
    exact absurd ⟨hij, hiV⟩ h'
  · intro e he hne
    obtain ⟨x, hx, hxL⟩ := hj e he hne
    rw [hVe]
    by_cases hxj : x = j
    · subst hxj
      exact ⟨i, Finset.mem_erase.mpr ⟨hij, hiV⟩, (hL e he).mpr hxL⟩
    · exact ⟨x, Finset.mem_erase.mpr ⟨hxj, hx⟩, hxL⟩
  · intro x x0 x1 hxm
    rw [e1, hcm]
    by_cases hxj : x = j
    · subst hxj
      simp [hij.symm]
    · rw [if_neg hxj]
      by_cases hxi : x = i
      · subst hxi
        rw [if_pos rfl, if_pos rfl, if_pos (Finset.mem_erase.mpr ⟨hij, hi⟩), hnv x x0 x1 hxm, if_pos hi,
          hnv j hjr.1 hjr.2 hmej, if_pos hjl]
        ring
      · rw [if_neg hxi, if_neg hxi, if_neg hxj, hnv x x0 x1 hxm]
        simp [hxj]
  · rw [hcm, if_neg hmei.symm, if_neg hmej.symm]
    exact hnvp
  · intro e he
    have hf : ((S ∪ live).erase j).filter (fun i => i ∈ L e)
        = ((S ∪ live).filter (fun i => i ∈ L e)).erase j := by
      ext x
      simp only [Finset.mem_filter, Finset.mem_erase]
      tauto
    rw [hVe, hf, sum_cnt_merge hij]
    · exact hdg e he
    · simp only [Finset.mem_filter, hiV, hjV, true_and]
      exact hL e he
  · rw [hVe, sum_cnt_mul_merge hij hiV hjV]
    · exact hwl
    · have nd : ∀ a ∈ S ∪ live, ∀ b ∈ T0, a = b → (E a ++ A a).length = 1 + ((E a).tail ++ A a).length ∧
          ((E a).tail ++ A a).Nodup := by
        intro a ha b hb hab
        subst hab
        obtain ⟨ta, hta⟩ := h.Eme a hb
        have hnd := g.nodup a ha
        rw [hta, List.cons_append] at hnd
        rw [hta]
        simp only [List.cons_append, List.tail_cons, List.length_cons]
        exact ⟨by omega, (List.nodup_cons.mp hnd).2⟩
      obtain ⟨q1, q2⟩ := nd i hiV i hiT rfl
      obtain ⟨q3, q4⟩ := nd j hjV j hjT rfl
      have : ((E i).tail ++ A i).length = ((E j).tail ++ A j).length :=
        ((List.perm_ext_iff_of_nodup q2 q4).mpr hC).length_eq
      omega
  · rw [hVe, sum_cnt_merge hij ⟨fun _ => hjV, fun _ => hiV⟩]
    exact hsum
  · intro x hx
    have hne : x ≠ j := fun e => hx (e ▸ hjT)
    rw [e2, e3, if_neg hne, if_neg hne]
    exact hoff x hx
  · intro x hx hxl
    rw [e3]
    split
    · rfl
    · next hxj => exact hel x hx fun h' => hxl (Finset.mem_erase.mpr ⟨hxj, h'⟩)
  · intro x hx z
    rw [← hcn x hx z]
    unfold mrg
    split
    · next hz =>
        rw [Finset.mem_singleton] at hz
        exact ⟨fun e => absurd (e ▸ hiT) hx, fun e => absurd (e ▸ hz ▸ hjT) hx⟩
    · exact Iff.rfl
  · intro adj C hS
    refine (hsem adj C hS).merge g hiV hjV hij hL ?_ ?_ ?_ ?_
    · have key : ∀ a ∈ T0, ∀ b ∈ T0, (∀ x, x ∈ (E a).tail ++ A a ↔ x ∈ (E b).tail ++ A b) → a ∈ S ∪ live →
          b ∈ S ∪ live → ∀ x ∈ S ∪ live, x ∈ A a → x ∈ A b := by
        intro a ha b hb hab _ hbV x hx hxa
        have := (hab x).mp (List.mem_append_right _ hxa)
        rcases List.mem_append.mp this with h' | h'
        · exact absurd (g.elt b hbV x (List.mem_of_mem_tail h')).1 (g.VK x hx)
        · exact h'
      exact fun x hx => ⟨key i hiT j hjT hC hiV hjV x hx, key j hjT i hiT (fun x => (hC x).symm) hjV hiV x hx⟩
    · intro x
      rw [hVe, Finset.mem_erase]
      tauto
    · intro x
      simp only [Finset.mem_union, Finset.mem_sdiff, Finset.mem_erase]
      by_cases hx : x = j
      · subst hx; simp [hjT]
      · simp [hx]
    · intro x hx
      rw [e2, if_neg (fun e : x = j => hx (e ▸ hjV))]
  · intro x hx
    refine Eq.trans ?_ (hext x hx)
    have hxV : x ∈ S ∪ live := Finset.mem_union_left _ hx
    have hxi : x ≠ i := fun e => h.ST x hx (e ▸ hiT)
    have hxj : x ≠ j := fun e => h.ST x hx (e ▸ hjT)
    have hA : i ∈ A x ↔ j ∈ A x := by
      have key : ∀ a ∈ T0, ∀ b ∈ T0, (∀ x, x ∈ (E a).tail ++ A a ↔ x ∈ (E b).tail ++ A b) → a ∈ S ∪ live →
          b ∈ S ∪ live → a ∈ A x → b ∈ A x := by
        intro a ha b hb hab haV hbV hax
        have h1 := g.sym x hxV a haV hax
        rcases List.mem_append.mp ((hab x).mp (List.mem_append_right _ h1)) with h' | h'
        · exact absurd (g.elt b hbV x (List.mem_of_mem_tail h')).1 (g.VK x hxV)
        · exact g.sym b hbV x hxV h'
      exact ⟨key i hiT j hjT hC hiV hjV, key j hjT i hiT (fun x => (hC x).symm) hjV hiV⟩
    have hQ : QAdj K A L x i ↔ QAdj K A L x j := by
      unfold QAdj
      rw [hA]
      refine or_congr Iff.rfl (exists_congr fun e => and_congr_right fun he => ?_)
      rw [hL e he]
    classical
    unfold extDeg
    rw [hVe]
    have hf : ((S ∪ live).erase j).filter (fun k => k ≠ x ∧ QAdj K A L x k)
        = ((S ∪ live).filter (fun k => k ≠ x ∧ QAdj K A L x k)).erase j := by
      ext y
      simp only [Finset.mem_filter, Finset.mem_erase]
      tauto
    rw [hf]
    refine sum_cnt_merge hij ?_
    simp only [Finset.mem_filter, hiV, hjV, true_and, hQ, ne_eq, Ne.symm hxi, Ne.symm hxj, not_false_eq_true]

end

end Verif
