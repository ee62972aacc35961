import Mathlib.Logic.Relation
import Verif.Lemmas.AmdPost

/-!
# C42: postordering of the assembly tree

`AMD_postorder` (src/amd_postorder.c, src/amd_post_tree.c) numbers the nodes of a forest. The nodes
are the indices `j < n` with `nv j > 0`; `par j` is the parent of node `j`, or `-1` for a root.
-/

namespace Verif

/-- `par` describes a forest on the indices `j < n` with `nv j > 0`: the parent of a node is `-1` or a
node, and no node is its own ancestor. -/
structure IsForest (n : Nat) (par nv : Nat → Int) : Prop where
  parent : ∀ j < n, 0 < nv j → par j = -1 ∨ ∃ p : Nat, p < n ∧ 0 < nv p ∧ par j = p
  acyclic : ∀ j < n, ¬ Relation.TransGen (fun a b : Nat => a < n ∧ 0 < nv a ∧ par a = (b : Int)) j j

open Classical in
/-- Number of nodes below or at `j`. -/
noncomputable def forestRank (n : Nat) (par nv : Nat → Int) (j : Nat) : Nat :=
  ((Finset.range n).filter (fun x => Relation.ReflTransGen
    (fun a b : Nat => a < n ∧ 0 < nv a ∧ par a = (b : Int)) x j)).card

theorem forestRank_lt {n : Nat} {par nv : Nat → Int} (h : IsForest n par nv) {j p : Nat}
    (hj : j < n) (hv : 0 < nv j) (hp : p < n) (e : par j = (p : Int)) :
    forestRank n par nv j < forestRank n par nv p := by
  classical
  unfold forestRank
  refine Finset.card_lt_card ?_
  rw [Finset.ssubset_iff_of_subset]
  · refine ⟨p, ?_, ?_⟩
    · simp only [Finset.mem_filter, Finset.mem_range]
      exact ⟨hp, Relation.ReflTransGen.refl⟩
    · simp only [Finset.mem_filter, not_and]
      intro _ hc
      exact h.acyclic p hp (Relation.TransGen.tail' hc ⟨hj, hv, e⟩)
  · intro x hx
    simp only [Finset.mem_filter, Finset.mem_range] at hx ⊢
    exact ⟨hx.1, hx.2.tail ⟨hj, hv, e⟩⟩

/-- **C42.** For every forest, of any shape and any size that fits the integer type, `AMD_postorder`
terminates without undefined behaviour; the returned `Order` numbers the nodes with `0, …, k-1`, each number once, marks the other
indices with `-1`, and gives every child a smaller number than its parent. The front sizes `fs` only
decide the order of siblings and are arbitrary (≥ -1). -/
theorem C42_postorder {n : Nat} {par nv fs : Nat → Int} {Parent Nv Fsize Order Child Sibling Stack : Buf Int}
    (hB : n < 2 ^ 63) (hforest : IsForest n par nv) (hfs : ∀ j < n, 0 < nv j → -1 ≤ fs j)
    (hP : Buf.Has Parent n par) (hPl : Parent.length = n)
    (hN : Buf.Has Nv n nv) (hNl : Nv.length = n)
    (hF : Buf.Has Fsize n fs) (hFl : Fsize.length = n)
    (hOl : Order.length = n) (hCl : Child.length = n) (hSl : Sibling.length = n)
    (hTl : Stack.length = n) :
    ∃ O rest, AMD_postorder n Parent Nv Fsize Order Child Sibling Stack = .ok (O, rest) ∧
      ∃ (k : Nat) (num : Nat → Int), Buf.Has O n num ∧
        (∀ j < n, 0 < nv j → ∃ v : Nat, num j = v ∧ v < k) ∧
        (∀ v < k, ∃! j, j < n ∧ 0 < nv j ∧ num j = (v : Int)) ∧
        (∀ j < n, ¬ 0 < nv j → num j = -1) ∧
        (∀ j p : Nat, j < n → 0 < nv j → par j = (p : Int) → num j < num p) := by
  have aP := Arr.of_has hP hPl
  have aN := Arr.of_has hN hNl
  have aF := Arr.of_has hF hFl
  have vP : ∀ j : Nat, j < n → Parent.at (j : Int) = par j := fun j h => Arr.at_has hP h
  have vN : ∀ j : Nat, j < n → Nv.at (j : Int) = nv j := fun j h => Arr.at_has hN h
  have vF : ∀ j : Nat, j < n → Fsize.at (j : Int) = fs j := fun j h => Arr.at_has hF h
  have nat : ∀ j : Int, 0 ≤ j → j < n → ∃ i : Nat, j = i ∧ i < n :=
    fun j h0 h1 => ⟨j.toNat, by omega, by omega⟩
  have := AMD_postorder_spec (nn := (n : Int)) (Order := Order) (Child := Child) (Sibling := Sibling)
    (Stack := Stack) (by unfold Int_MAX; omega) (by omega) aP aN aF (by rw [hOl]) (by rw [hCl]) (by rw [hSl]) (by rw [hTl])
    (by
      intro j h0 h1 hv
      obtain ⟨i, rfl, hi⟩ := nat j h0 h1
      rw [vN i hi] at hv
      rw [vP i hi]
      rcases hforest.parent i hi hv with h | ⟨p, hp, hpv, e⟩
      · exact Or.inl h
      · rw [e]
        exact Or.inr ⟨by omega, by omega, by rw [vN p hp]; exact hpv⟩)
    (fun j => forestRank n par nv j.toNat)
    (by
      intro j h0 h1 hv hE
      obtain ⟨i, rfl, hi⟩ := nat j h0 h1
      rw [vN i hi] at hv
      rw [vP i hi] at hE ⊢
      rcases hforest.parent i hi hv with h | ⟨p, hp, hpv, e⟩
      · exact absurd h hE
      · rw [e, Int.toNat_natCast, Int.toNat_natCast]
        exact forestRank_lt hforest hi hv hp e)
    (by
      intro j h0 h1 hv
      obtain ⟨i, rfl, hi⟩ := nat j h0 h1
      rw [vN i hi] at hv
      rw [vF i hi]
      exact hfs i hi hv)
  obtain ⟨⟨O, rest⟩, he, hO, -, -, -, k, hk, h1, h2, h3, h4, h5⟩ := this
  refine ⟨O, rest, he, k.toNat, fun i => O.at (i : Int), hO.has, ?_, ?_, ?_, ?_⟩
  · intro j hj hv
    have := h1 j (by omega) (by omega) (by rw [vN j hj]; exact hv)
    simp only at this
    exact ⟨(O.at j).toNat, by simp only; omega, by omega⟩
  · intro v hv
    obtain ⟨j, g1, g2, g3, g4⟩ := h4 v (by omega) (by omega)
    obtain ⟨i, rfl, hi⟩ := nat j g1 g2
    refine ⟨i, ⟨hi, by rw [← vN i hi]; exact g3, g4⟩, ?_⟩
    rintro q ⟨hq, hqv, hqe⟩
    have := h3 q i (by omega) (by omega) (by omega) (by omega) (by rw [vN q hq]; exact hqv) g3
      (by simp only at hqe g4 ⊢; rw [hqe, g4])
    omega
  · intro j hj hv
    exact h2 j (by omega) (by omega) (by rw [vN j hj]; exact hv)
  · intro j p hj hv e
    have := h5 j (by omega) (by omega) (by rw [vN j hj]; exact hv)
      (by rw [vP j hj, e]; unfold EMPTY; omega)
    rw [vP j hj, e] at this
    exact this

/-- A forest with six nodes (0 and 1 below 3, 3 and 2 below 4, root 5) and a non-node 6. -/
def forestDemo : List Int := [3, 3, 4, 4, -1, -1, 0]

example : (AMD_postorder 7 (forestDemo.map some)
    ([1, 1, 1, 1, 1, 1, 0].map some) ([9, 1, 1, 1, 1, 1, 1].map some)
    (malloc 7) (malloc 7) (malloc 7) (malloc 7)).toOption.map (fun r => r.1) =
    some [some 2, some 1, some 0, some 3, some 4, some 5, some (-1)] := by decide +kernel

example : IsForest 7 (fun i => forestDemo.getD i 0) (fun i => if i = 6 then 0 else 1) where
  parent := by
    intro j hj hv
    have : j = 0 ∨ j = 1 ∨ j = 2 ∨ j = 3 ∨ j = 4 ∨ j = 5 ∨ j = 6 := by omega
    rcases this with rfl | rfl | rfl | rfl | rfl | rfl | rfl <;> simp [forestDemo] at hv ⊢
    exacts [⟨3, by decide⟩, ⟨3, by decide⟩, ⟨4, by decide⟩, ⟨4, by decide⟩]
  acyclic := by
    intro j hj hc
    have key : ∀ a b : Nat, Relation.TransGen (fun a b : Nat => a < 7 ∧
        0 < (if a = 6 then (0 : Int) else 1) ∧ forestDemo.getD a 0 = (b : Int)) a b → a < b := by
      intro a b h
      induction h with
      | single h =>
        obtain ⟨h1, h2, h3⟩ := h
        have : a = 0 ∨ a = 1 ∨ a = 2 ∨ a = 3 ∨ a = 4 ∨ a = 5 ∨ a = 6 := by omega
        rcases this with rfl | rfl | rfl | rfl | rfl | rfl | rfl <;> simp [forestDemo] at h2 h3 <;> omega
      | tail _ h ih =>
        rename_i b c _
        obtain ⟨h1, h2, h3⟩ := h
        have : b = 0 ∨ b = 1 ∨ b = 2 ∨ b = 3 ∨ b = 4 ∨ b = 5 ∨ b = 6 := by omega
        rcases this with rfl | rfl | rfl | rfl | rfl | rfl | rfl <;> simp [forestDemo] at h2 h3 <;> omega
    exact absurd (key j j hc) (by omega)

end Verif
