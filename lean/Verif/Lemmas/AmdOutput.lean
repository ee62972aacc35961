import Verif.Lemmas.AmdPath
import Verif.Lemmas.LdlBasic
import Mathlib.Data.Fintype.EquivFin

/-!
# From the assembly tree to the permutation
-/

namespace Verif

open Finset

/-! ## Pure part: positions -/

section

variable (n : Int) (Z : Finset Int) (rep : Int → Int) (ord : Int → Int)

/-- The nodes that are not merged. -/
noncomputable def nodes : Finset Int := (Finset.Ico 0 n).filter (fun x => x ∉ Z)

/-- Number of columns before the nodes of order `v` and higher. -/
noncomputable def start (v : Int) : Int := ∑ y ∈ (nodes n Z).filter (fun y => ord y < v), cnt n rep y

/-- Number of columns of all nodes. -/
noncomputable def total : Int := ∑ y ∈ nodes n Z, cnt n rep y

/-- First position of group `g` (`-1`: the dense nodes). -/
noncomputable def base (g : Int) : Int := if g = -1 then total n Z rep else start n Z rep ord (ord g)

/-- Number of variables merged into `g` among the first `k`. -/
def before (k g : Int) : Int := ((Z.filter (fun z => z < k ∧ rep z = g)).card : Int)

/-- Final position of `x`. -/
noncomputable def posOf (x : Int) : Int := base n Z rep ord (rep x) + if x ∈ Z then before Z rep x (rep x) else before Z rep n x

end

section

variable {n m : Int} {Z : Finset Int} {rep : Int → Int} {rk : Int → Nat} {pe : Int → Int} {ord : Int → Int}

theorem mem_nodes {x : Int} : x ∈ nodes n Z ↔ (0 ≤ x ∧ x < n) ∧ x ∉ Z := by
  unfold nodes
  rw [Finset.mem_filter, Finset.mem_Ico]

theorem before_succ {k : Int} (g : Int) :
    before Z rep (k + 1) g = before Z rep k g + if k ∈ Z ∧ rep k = g then 1 else 0 := by
  unfold before
  split
  · next h =>
    have e : Z.filter (fun z => z < k + 1 ∧ rep z = g) = insert k (Z.filter (fun z => z < k ∧ rep z = g)) := by
      ext z
      simp only [Finset.mem_filter, Finset.mem_insert]
      constructor
      · rintro ⟨q1, q2, q3⟩
        by_cases e : z = k
        · exact Or.inl e
        · exact Or.inr ⟨q1, by omega, q3⟩
      · rintro (rfl | ⟨q1, q2, q3⟩)
        · exact ⟨h.1, by omega, h.2⟩
        · exact ⟨q1, by omega, q3⟩
    rw [e, Finset.card_insert_of_notMem (by simp)]
    push_cast
    rfl
  · next h =>
    have e : Z.filter (fun z => z < k + 1 ∧ rep z = g) = Z.filter (fun z => z < k ∧ rep z = g) := by
      refine Finset.filter_congr fun z hz => ?_
      constructor
      · rintro ⟨q2, q3⟩
        refine ⟨?_, q3⟩
        by_contra hc
        have : z = k := by omega
        subst this
        exact h ⟨hz, q3⟩
      · rintro ⟨q2, q3⟩; exact ⟨by omega, q3⟩
    rw [e]; omega

theorem before_nonneg (k g : Int) : 0 ≤ before Z rep k g := by unfold before; omega

theorem before_lt {x y : Int} (hx : x ∈ Z) (hxy : x < y) : before Z rep x (rep x) < before Z rep y (rep x) := by
  unfold before
  have : (Z.filter (fun z => z < x ∧ rep z = rep x)).card < (Z.filter (fun z => z < y ∧ rep z = rep x)).card := by
    refine Finset.card_lt_card ?_
    rw [Finset.ssubset_iff_of_subset]
    · exact ⟨x, by simp [hx, hxy], by simp⟩
    · intro z hz
      rw [Finset.mem_filter] at hz ⊢
      exact ⟨hz.1, by omega, hz.2.2⟩
  omega

theorem before_cnt (hZ : ∀ z ∈ Z, 0 ≤ z ∧ z < n) (g : Int) : before Z rep n g ≤ cnt n rep g := by
  unfold before cnt
  have : (Z.filter (fun z => z < n ∧ rep z = g)).card ≤ ((Finset.Ico 0 n).filter (fun z => rep z = g)).card := by
    refine Finset.card_le_card ?_
    intro z hz
    rw [Finset.mem_filter] at hz ⊢
    exact ⟨Finset.mem_Ico.mpr (hZ z hz.1), hz.2.2⟩
  omega

theorem before_cnt_lt (h : Par n Z rep rk pe) {x : Int} (hx : x ∈ nodes n Z) : before Z rep n x < cnt n rep x := by
  obtain ⟨hr, hz⟩ := mem_nodes.mp hx
  unfold before cnt
  have : (Z.filter (fun z => z < n ∧ rep z = x)).card < ((Finset.Ico 0 n).filter (fun z => rep z = x)).card := by
    refine Finset.card_lt_card ?_
    rw [Finset.ssubset_iff_of_subset]
    · refine ⟨x, ?_, ?_⟩
      · rw [Finset.mem_filter, Finset.mem_Ico]
        exact ⟨hr, h.repN x hr.1 hr.2 hz⟩
      · rw [Finset.mem_filter]; tauto
    · intro z hz
      rw [Finset.mem_filter] at hz ⊢
      exact ⟨Finset.mem_Ico.mpr (h.Zr z hz.1), hz.2.2⟩
  omega

theorem total_dense (hn : 0 ≤ n) (h : Par n Z rep rk pe) : total n Z rep + cnt n rep (-1) = n := by
  have hm : (-1 : Int) ∉ nodes n Z := by
    rw [mem_nodes]; omega
  have e := cnt_sum (n := n) (rep := rep) (insert (-1) (nodes n Z))
  rw [Finset.sum_insert hm] at e
  have hall : (Finset.Ico 0 n).filter (fun z => rep z ∈ insert (-1) (nodes n Z)) = Finset.Ico 0 n := by
    refine Finset.filter_true_of_mem fun z hz => ?_
    rw [Finset.mem_Ico] at hz
    rw [Finset.mem_insert, mem_nodes]
    by_cases hzz : z ∈ Z
    · rcases h.repZ z hzz with h' | h'
      · exact Or.inl h'
      · exact Or.inr ⟨⟨h'.1, h'.2.1⟩, h'.2.2⟩
    · rw [h.repN z hz.1 hz.2 hzz]
      exact Or.inr ⟨hz, hzz⟩
  rw [hall, Int.card_Ico] at e
  unfold total
  omega

theorem start_total (v : Int) : start n Z rep ord v ≤ total n Z rep :=
  Finset.sum_le_sum_of_subset_of_nonneg (Finset.filter_subset _ _) (fun _ _ _ => cnt_nonneg _)

theorem start_step {x : Int} (hx : x ∈ nodes n Z) {v : Int} (hv : ord x < v) :
    start n Z rep ord (ord x) + cnt n rep x ≤ start n Z rep ord v := by
  unfold start
  have hnm : x ∉ (nodes n Z).filter (fun y => ord y < ord x) := by simp
  have e : ∑ y ∈ insert x ((nodes n Z).filter (fun y => ord y < ord x)), cnt n rep y
      ≤ ∑ y ∈ (nodes n Z).filter (fun y => ord y < v), cnt n rep y := by
    refine Finset.sum_le_sum_of_subset_of_nonneg ?_ (fun _ _ _ => cnt_nonneg _)
    intro y hy
    rw [Finset.mem_insert, Finset.mem_filter] at hy
    rw [Finset.mem_filter]
    rcases hy with rfl | hy
    · exact ⟨hx, hv⟩
    · exact ⟨hy.1, by omega⟩
  rw [Finset.sum_insert hnm] at e
  omega

/-- What the postordering gives. -/
structure Ordr (n m : Int) (Z : Finset Int) (ord : Int → Int) : Prop where
  rng : ∀ x ∈ nodes n Z, 0 ≤ ord x ∧ ord x < m
  inj : ∀ x ∈ nodes n Z, ∀ y ∈ nodes n Z, ord x = ord y → x = y
  surj : ∀ v, 0 ≤ v → v < m → ∃ x ∈ nodes n Z, ord x = v

theorem Ordr.le (h : Ordr n m Z ord) (hn : 0 ≤ n) (hm : 0 ≤ m) : m ≤ n := by
  have h1 : (Finset.Ico 0 m).card ≤ (nodes n Z).card := by
    refine Finset.card_le_card_of_surjOn ord ?_
    intro v hv
    rw [Finset.coe_Ico, Set.mem_Ico] at hv
    obtain ⟨x, hx, e⟩ := h.surj v hv.1 hv.2
    exact ⟨x, hx, e⟩
  have h2 : (nodes n Z).card ≤ (Finset.Ico 0 n).card := Finset.card_filter_le _ _
  rw [Int.card_Ico] at h1 h2
  omega

theorem start_all (h : Ordr n m Z ord) {v : Int} (hv : m ≤ v) : start n Z rep ord v = total n Z rep := by
  unfold start total
  rw [Finset.filter_true_of_mem]
  intro x hx
  have := h.rng x hx
  omega

theorem start_succ (h : Ordr n m Z ord) {x : Int} (hx : x ∈ nodes n Z) :
    start n Z rep ord (ord x + 1) = start n Z rep ord (ord x) + cnt n rep x := by
  unfold start
  have e : (nodes n Z).filter (fun y => ord y < ord x + 1) = insert x ((nodes n Z).filter (fun y => ord y < ord x)) := by
    ext y
    rw [Finset.mem_insert, Finset.mem_filter, Finset.mem_filter]
    constructor
    · rintro ⟨q1, q2⟩
      by_cases e : ord y = ord x
      · exact Or.inl (h.inj y q1 x hx e)
      · exact Or.inr ⟨q1, by omega⟩
    · rintro (rfl | ⟨q1, q2⟩)
      · exact ⟨hx, by omega⟩
      · exact ⟨q1, by omega⟩
  rw [e, Finset.sum_insert (by simp)]
  ring

/-- The group of a node: an element or `-1`. -/
theorem group (h : Par n Z rep rk pe) {x : Int} (h0 : 0 ≤ x) (h1 : x < n) :
    rep x = -1 ∨ rep x ∈ nodes n Z := by
  rw [mem_nodes]
  by_cases hz : x ∈ Z
  · rcases h.repZ x hz with h' | h'
    · exact Or.inl h'
    · exact Or.inr ⟨⟨h'.1, h'.2.1⟩, h'.2.2⟩
  · rw [h.repN x h0 h1 hz]
    exact Or.inr ⟨⟨h0, h1⟩, hz⟩

theorem base_node {g : Int} (hg : g ∈ nodes n Z) : base n Z rep ord g = start n Z rep ord (ord g) := by
  unfold base
  rw [if_neg]
  rintro rfl
  have := (mem_nodes.mp hg).1
  omega

theorem base_dense : base n Z rep ord (-1) = total n Z rep := by
  unfold base
  rw [if_pos rfl]

theorem base_bound (hn : 0 ≤ n) (h : Par n Z rep rk pe) {g : Int} (hg : g = -1 ∨ g ∈ nodes n Z) :
    0 ≤ base n Z rep ord g ∧ base n Z rep ord g + cnt n rep g ≤ n := by
  have ht := total_dense hn h
  rcases hg with rfl | hg
  · rw [base_dense]
    refine ⟨Finset.sum_nonneg fun _ _ => cnt_nonneg _, by omega⟩
  · rw [base_node hg]
    have h1 := start_step (rep := rep) (ord := ord) hg (v := ord g + 1) (by omega)
    have h2 := start_total (n := n) (Z := Z) (rep := rep) (ord := ord) (ord g + 1)
    have h3 := cnt_nonneg (n := n) (rep := rep) (-1)
    exact ⟨Finset.sum_nonneg fun _ _ => cnt_nonneg _, by omega⟩

theorem base_disj (ho : Ordr n m Z ord) {g g' : Int} (hg : g = -1 ∨ g ∈ nodes n Z)
    (hg' : g' = -1 ∨ g' ∈ nodes n Z) (hne : g ≠ g') :
    base n Z rep ord g + cnt n rep g ≤ base n Z rep ord g' ∨
    base n Z rep ord g' + cnt n rep g' ≤ base n Z rep ord g := by
  have key : ∀ x ∈ nodes n Z, base n Z rep ord x + cnt n rep x ≤ base n Z rep ord (-1) := by
    intro x hx
    rw [base_dense, base_node hx]
    have h1 := start_step (rep := rep) (ord := ord) hx (v := ord x + 1) (by omega)
    have h2 := start_total (n := n) (Z := Z) (rep := rep) (ord := ord) (ord x + 1)
    omega
  rcases hg with rfl | hg
  · rcases hg' with rfl | hg'
    · exact absurd rfl hne
    · exact Or.inr (key g' hg')
  · rcases hg' with rfl | hg'
    · exact Or.inl (key g hg)
    · rw [base_node hg, base_node hg']
      rcases lt_trichotomy (ord g) (ord g') with h | h | h
      · exact Or.inl (start_step hg h)
      · exact absurd (ho.inj g hg g' hg' h) hne
      · exact Or.inr (start_step hg' h)

theorem off_lt (h : Par n Z rep rk pe) {x : Int} (h0 : 0 ≤ x) (h1 : x < n) :
    0 ≤ (if x ∈ Z then before Z rep x (rep x) else before Z rep n x) ∧
    (if x ∈ Z then before Z rep x (rep x) else before Z rep n x) < cnt n rep (rep x) := by
  split
  · next hz =>
    refine ⟨before_nonneg _ _, ?_⟩
    have := before_lt (rep := rep) hz h1
    have := before_cnt (rep := rep) h.Zr (rep x)
    omega
  · next hz =>
    rw [h.repN x h0 h1 hz]
    exact ⟨before_nonneg _ _, before_cnt_lt h (mem_nodes.mpr ⟨⟨h0, h1⟩, hz⟩)⟩

theorem posOf_rng (hn : 0 ≤ n) (h : Par n Z rep rk pe) {x : Int} (h0 : 0 ≤ x) (h1 : x < n) :
    0 ≤ posOf n Z rep ord x ∧ posOf n Z rep ord x < n := by
  unfold posOf
  have h2 := base_bound (ord := ord) hn h (group h h0 h1)
  have h3 := off_lt h h0 h1
  omega

theorem posOf_inj (ho : Ordr n m Z ord) (h : Par n Z rep rk pe) {x y : Int} (x0 : 0 ≤ x) (x1 : x < n)
    (y0 : 0 ≤ y) (y1 : y < n) (e : posOf n Z rep ord x = posOf n Z rep ord y) : x = y := by
  unfold posOf at e
  have hx := off_lt h x0 x1
  have hy := off_lt h y0 y1
  by_cases hg : rep x = rep y
  · rw [← hg] at e hy
    have e' := add_left_cancel e
    by_cases hxz : x ∈ Z
    · by_cases hyz : y ∈ Z
      · rw [if_pos hxz, if_pos hyz] at e'
        rcases lt_trichotomy x y with hlt | h' | hlt
        · have := before_lt (rep := rep) hxz hlt
          omega
        · exact h'
        · have := before_lt (rep := rep) hyz hlt
          rw [← hg] at this
          omega
      · rw [if_pos hxz, if_neg hyz] at e'
        have := before_lt (rep := rep) hxz x1
        rw [hg, h.repN y y0 y1 hyz] at this e'
        omega
    · by_cases hyz : y ∈ Z
      · rw [if_neg hxz, if_pos hyz] at e'
        have := before_lt (rep := rep) hyz y1
        rw [← hg] at this
        rw [h.repN x x0 x1 hxz] at this e'
        omega
      · rw [h.repN x x0 x1 hxz, h.repN y y0 y1 hyz] at hg
        exact hg
  · exfalso
    have := base_disj (rep := rep) ho (group h x0 x1) (group h y0 y1) hg
    omega

/-- The positions form a permutation. -/
theorem posOf_perm (hn : 0 ≤ n) (ho : Ordr n m Z ord) (h : Par n Z rep rk pe) :
    ∃ p : Nat → Nat, PermPair n.toNat p (fun i => (posOf n Z rep ord i).toNat) := by
  have hlt : ∀ i : Nat, i < n.toNat → (posOf n Z rep ord i).toNat < n.toNat := by
    intro i hi
    have := posOf_rng (ord := ord) hn h (x := i) (by omega) (by omega)
    omega
  let f : Fin n.toNat → Fin n.toNat := fun i => ⟨(posOf n Z rep ord i.1).toNat, hlt i.1 i.2⟩
  have hf : Function.Injective f := by
    intro a b hab
    have e := congrArg Fin.val hab
    simp only [f] at e
    have ha := posOf_rng (ord := ord) hn h (x := a.1) (by omega) (by omega)
    have hb := posOf_rng (ord := ord) hn h (x := b.1) (by omega) (by omega)
    have := posOf_inj ho h (x := a.1) (y := b.1) (by omega) (by omega) (by omega) (by omega) (by omega)
    exact Fin.ext (by omega)
  have hs : Function.Surjective f := Finite.surjective_of_injective hf
  choose g hg using hs
  refine ⟨fun k => if hk : k < n.toNat then (g ⟨k, hk⟩).1 else 0, ?_, hlt, ?_, ?_⟩
  · intro i hi
    simp only [hi, dif_pos]
    exact (g ⟨i, hi⟩).2
  · intro i hi
    simp only [hi, dif_pos]
    exact congrArg Fin.val (hg ⟨i, hi⟩)
  · intro i hi
    simp only [hlt i hi, dif_pos]
    have : f (g (f ⟨i, hi⟩)) = f ⟨i, hi⟩ := hg _
    exact congrArg Fin.val (hf this)

end

end Verif
