import Verif.Lemmas.AmdAat
import Verif.Props.AmdOrder
import Mathlib.Data.Rat.Cast.Order
import Mathlib.Tactic.FieldSimp

/-!
# The statistics about the matrix (C88)
-/

namespace Verif

open Finset

/-- Rows `u` and `v` are joined by an entry of the pattern or of its transpose. -/
def Csc.Edge {K : Type} (A : Csc K) (u v : Nat) : Prop := u ≠ v ∧ (A.Stored u v ∨ A.Stored v u)

open Classical in
/-- The number of pairs of indices below `n` with property `R`. -/
noncomputable def pairs (n : Nat) (R : Nat → Nat → Prop) : Nat :=
  ((range n ×ˢ range n).filter (fun e => R e.1 e.2)).card

/-- `t` describes the pattern `A`: the number of its entries, without repetitions, of those on the
diagonal and of those of the pattern of `A + A'` off the diagonal, and the part of the entries off the
diagonal whose mirror image is an entry, too (1 if there are none). -/
structure InputStats {K : Type} (A : Csc K) (n : Nat) (t : AatInfo) : Prop where
  nz : t.nz = pairs n A.Stored
  nzdiag : t.nzdiag = pairs n (fun u v => u = v ∧ A.Stored u v)
  nzaat : t.nzaat = pairs n A.Edge
  symmetry : t.symmetry = if pairs n (fun u v => u ≠ v ∧ A.Stored u v) = 0 then 1
    else (pairs n (fun u v => u ≠ v ∧ A.Stored u v ∧ A.Stored v u) : ℚ) / pairs n (fun u v => u ≠ v ∧ A.Stored u v)

section

variable {n : Nat} {R R' : Nat → Nat → Prop}

theorem pairs_congr (h : ∀ u v, u < n → v < n → (R u v ↔ R' u v)) : pairs n R = pairs n R' := by
  classical
  unfold pairs
  congr 1
  refine filter_congr fun e he => ?_
  rw [mem_product, mem_range, mem_range] at he
  exact h _ _ he.1 he.2

theorem pairs_swap : pairs n (fun u v => R v u) = pairs n R := by
  classical
  unfold pairs
  refine card_bij (fun e _ => (e.2, e.1)) ?_ ?_ ?_
  · intro e he
    rw [mem_filter, mem_product] at he ⊢
    exact ⟨⟨he.1.2, he.1.1⟩, he.2⟩
  · rintro ⟨a, b⟩ _ ⟨a', b'⟩ _ h
    simp only [Prod.mk.injEq] at h ⊢
    exact ⟨h.2, h.1⟩
  · rintro ⟨a, b⟩ he
    rw [mem_filter, mem_product] at he
    refine ⟨(b, a), ?_, rfl⟩
    rw [mem_filter, mem_product]
    exact ⟨⟨he.1.2, he.1.1⟩, he.2⟩

theorem pairs_or : pairs n (fun u v => R u v ∨ R' u v) + pairs n (fun u v => R u v ∧ R' u v)
    = pairs n R + pairs n R' := by
  classical
  unfold pairs
  have h := card_union_add_card_inter ((range n ×ˢ range n).filter (fun e => R e.1 e.2))
    ((range n ×ˢ range n).filter (fun e => R' e.1 e.2))
  rw [← h]
  congr 2 <;> ext e <;> simp only [mem_filter, mem_union, mem_inter] <;> tauto

theorem pairs_split (P : Nat → Nat → Prop) :
    pairs n R = pairs n (fun u v => P u v ∧ R u v) + pairs n (fun u v => ¬ P u v ∧ R u v) := by
  classical
  have h := pairs_or (n := n) (R := fun u v => P u v ∧ R u v) (R' := fun u v => ¬ P u v ∧ R u v)
  have h1 : pairs n (fun u v => (P u v ∧ R u v) ∨ (¬ P u v ∧ R u v)) = pairs n R :=
    pairs_congr fun u v _ _ => by tauto
  have h2 : pairs n (fun u v => (P u v ∧ R u v) ∧ (¬ P u v ∧ R u v)) = 0 := by
    unfold pairs
    refine card_eq_zero.mpr (eq_empty_of_forall_notMem fun e he => ?_)
    simp only [mem_filter] at he
    exact he.2.2.1 he.2.1.1
  omega

theorem pairs_col : pairs n R = ∑ v ∈ range n, (open Classical in (range n).filter (fun u => R u v)).card := by
  classical
  unfold pairs
  rw [card_eq_sum_card_fiberwise (f := Prod.snd) (t := range n)]
  · refine sum_congr rfl fun v hv => ?_
    refine card_bij (fun e _ => e.1) ?_ ?_ ?_
    · intro e he
      simp only [mem_filter, mem_product] at he ⊢
      obtain ⟨⟨⟨h1, h2⟩, h3⟩, rfl⟩ := he
      exact ⟨h1, h3⟩
    · rintro ⟨a, b⟩ h ⟨a', b'⟩ h' e
      simp only [mem_filter, mem_product] at h h' e ⊢
      rw [e, h.2, h'.2]
    · intro u hu
      rw [mem_filter] at hu
      refine ⟨(u, v), ?_, rfl⟩
      simp only [mem_filter, mem_product]
      exact ⟨⟨⟨hu.1, hv⟩, hu.2⟩, trivial⟩
  · intro e he
    exact (mem_product.mp (mem_filter.mp he).1).2

end

theorem ent_stored {K : Type} (A : Csc K) (u v : Nat) :
    Ent (fun j => (A.jc j.toNat : Int)) (fun q => (A.ir q.toNat : Int)) u v ↔ A.Stored u v := by
  unfold Ent Csc.Stored
  dsimp only
  constructor
  · rintro ⟨q, h1, h2, h3⟩
    refine ⟨q.toNat, ?_, ?_, ?_⟩
    · rw [Int.toNat_natCast] at h1
      omega
    · rw [show ((v : Int) + 1).toNat = v + 1 by omega] at h2
      omega
    · exact_mod_cast h3
  · rintro ⟨k, h1, h2, h3⟩
    refine ⟨k, by simp only [Int.toNat_natCast]; omega, ?_, by simp only [Int.toNat_natCast]; omega⟩
    rw [show ((v : Int) + 1).toNat = v + 1 by omega]
    omega

/-- A column of a sorted pattern has as many rows as entries. -/
theorem Csc.Sorted.col_card {K : Type} {A : Csc K} {N : Nat} (hs : A.Sorted) (hA : A.WF) (hn : A.n = N) (hm : A.m = N)
    {c : Nat} (hc : c < N) :
    (open Classical in (range N).filter (fun u => A.Stored u c)).card = A.jc (c + 1) - A.jc c := by
  classical
  have hst : ∀ d q, A.jc c ≤ q → q + d + 1 < A.jc (c + 1) → A.ir q < A.ir (q + d + 1) := by
    intro d
    induction d with
    | zero => intro q h1 h2; exact hs c (by omega) q h1 h2
    | succ d ih =>
      intro q h1 h2
      exact (ih q h1 (by omega)).trans (hs c (by omega) (q + d + 1) (by omega) h2)
  rw [← Nat.card_Ico]
  symm
  refine card_bij (fun q _ => A.ir q) ?_ ?_ ?_
  · intro q hq
    rw [mem_Ico] at hq
    rw [mem_filter, mem_range]
    have := hA.ir_lt q (lt_of_lt_of_le hq.2 (hA.le_nnz (by omega)))
    exact ⟨by omega, q, hq.1, hq.2, rfl⟩
  · intro a ha b hb e
    rw [mem_Ico] at ha hb
    by_contra hne
    rcases lt_or_gt_of_ne hne with h | h
    · have := hst (b - a - 1) a ha.1 (by omega)
      rw [show a + (b - a - 1) + 1 = b by omega] at this
      omega
    · have := hst (a - b - 1) b hb.1 (by omega)
      rw [show b + (a - b - 1) + 1 = a by omega] at this
      omega
  · intro u hu
    rw [mem_filter] at hu
    obtain ⟨k, h1, h2, h3⟩ := hu.2
    exact ⟨k, mem_Ico.mpr ⟨h1, h2⟩, h3⟩

theorem Csc.Sorted.nnz_eq {K : Type} {A : Csc K} {N : Nat} (hs : A.Sorted) (hA : A.WF) (hn : A.n = N) (hm : A.m = N) :
    A.jc N = pairs N A.Stored := by
  rw [pairs_col, sum_congr rfl fun v hv => hs.col_card hA hn hm (mem_range.mp hv)]
  have : ∀ k, k ≤ N → A.jc k = ∑ v ∈ range k, (A.jc (v + 1) - A.jc v) := by
    intro k
    induction k with
    | zero => intro _; simp [hA.jc0]
    | succ k ih =>
      intro hk
      rw [sum_range_succ, ← ih (by omega)]
      have := hA.mono k (by omega)
      omega
  exact this N le_rfl

section

variable {K : Type} {A : Csc K} {N : Nat} {D : Int → List Int}

theorem nbrs_edge
    (hD : Nbrs N (fun j => (A.jc j.toNat : Int)) (fun q => (A.ir q.toNat : Int)) D) :
    ∀ u v : Nat, u < N → v < N → ((v : Int) ∈ D u ↔ A.Edge u v) := by
  intro u v hu hv
  rw [(hD u (by omega) (by omega)).2, ent_stored, ent_stored]
  unfold Csc.Edge
  constructor
  · rintro ⟨-, h1, h2⟩
    exact ⟨by omega, h2⟩
  · rintro ⟨h1, h2⟩
    exact ⟨by omega, by omega, h2⟩

theorem nbrs_card
    (hD : Nbrs N (fun j => (A.jc j.toNat : Int)) (fun q => (A.ir q.toNat : Int)) D) {u : Nat} (hu : u < N) :
    (D u).length = (open Classical in (range N).filter (A.Edge u)).card := by
  classical
  have h1 := hD u (by omega) (by omega)
  rw [← List.toFinset_card_of_nodup h1.1]
  symm
  refine card_bij (fun v _ => (v : Int)) ?_ ?_ ?_
  · intro v hv
    rw [mem_filter, mem_range] at hv
    exact List.mem_toFinset.mpr ((nbrs_edge hD u v hu hv.1).mpr hv.2)
  · intro a _ b _ h
    exact_mod_cast h
  · intro y hy
    have hy := List.mem_toFinset.mp hy
    have h2 := ((h1.2 y).mp hy).1
    refine ⟨y.toNat, ?_, by omega⟩
    rw [mem_filter, mem_range]
    refine ⟨by omega, (nbrs_edge hD u _ hu (by omega)).mp ?_⟩
    rwa [Int.toNat_of_nonneg h2.1]

theorem sum_Ico_range (f : Int → Int) (n : Nat) : ∑ x ∈ Ico (0 : Int) n, f x = ∑ u ∈ range n, f u := by
  symm
  refine sum_bij (fun u _ => (u : Int)) ?_ ?_ ?_ ?_
  · intro u hu
    rw [mem_range] at hu
    rw [mem_Ico]
    omega
  · intro a _ b _ h
    exact_mod_cast h
  · intro x hx
    rw [mem_Ico] at hx
    exact ⟨x.toNat, mem_range.mpr (by omega), by omega⟩
  · intro u _
    rfl

theorem nbrs_sum
    (hD : Nbrs N (fun j => (A.jc j.toNat : Int)) (fun q => (A.ir q.toNat : Int)) D) :
    ∑ x ∈ Ico (0 : Int) N, ((D x).length : Int) = pairs N A.Edge := by
  rw [sum_Ico_range, ← pairs_swap, pairs_col]
  push_cast
  exact sum_congr rfl fun u hu => by rw [nbrs_card hD (mem_range.mp hu)]

theorem diagCount_eq : diagCount (fun j => (A.jc j.toNat : Int)) (fun q => (A.ir q.toNat : Int)) N
    = pairs N (fun u v => u = v ∧ A.Stored u v) := by
  classical
  unfold diagCount
  norm_cast
  rw [pairs_col, Finset.card_filter]
  have : ∀ v ∈ range N, (@filter Nat (fun u => u = v ∧ A.Stored u v) (fun _ => Classical.propDecidable _) (range N)).card
      = if A.Stored v v then 1 else 0 := by
    intro v hv
    split
    · next h =>
      refine card_eq_one.mpr ⟨v, ?_⟩
      ext u
      simp only [mem_filter, mem_singleton]
      constructor
      · exact fun h => h.2.1
      · rintro rfl
        exact ⟨hv, rfl, h⟩
    · next h =>
      refine card_eq_zero.mpr (eq_empty_of_forall_notMem fun u hu => ?_)
      simp only [mem_filter] at hu
      exact h (hu.2.1 ▸ hu.2.2)
  rw [sum_congr rfl this]
  have h := sum_Ico_range (fun x => ((if Ent (fun j => (A.jc j.toNat : Int)) (fun q => (A.ir q.toNat : Int)) x x
    then 1 else 0 : Nat) : Int)) N
  have h2 : ∑ u ∈ range N, ((if Ent (fun j => (A.jc j.toNat : Int)) (fun q => (A.ir q.toNat : Int)) (u : Int) u
    then 1 else 0 : Nat) : Int) = ∑ u ∈ range N, ((if A.Stored u u then 1 else 0 : Nat) : Int) :=
    sum_congr rfl fun u _ => by simp only [ent_stored]
  rw [h2] at h
  exact_mod_cast h

/-- The numbers of entries off the diagonal, of pairs and of mirror images. -/
theorem edge_count : pairs N A.Edge + pairs N (fun u v => u ≠ v ∧ A.Stored u v ∧ A.Stored v u)
    = 2 * pairs N (fun u v => u ≠ v ∧ A.Stored u v) := by
  have h := pairs_or (n := N) (R := fun u v => u ≠ v ∧ A.Stored u v) (R' := fun u v => u ≠ v ∧ A.Stored v u)
  have h1 : pairs N (fun u v => (u ≠ v ∧ A.Stored u v) ∨ (u ≠ v ∧ A.Stored v u)) = pairs N A.Edge :=
    pairs_congr fun u v _ _ => by unfold Csc.Edge; tauto
  have h2 : pairs N (fun u v => (u ≠ v ∧ A.Stored u v) ∧ (u ≠ v ∧ A.Stored v u))
      = pairs N (fun u v => u ≠ v ∧ A.Stored u v ∧ A.Stored v u) := pairs_congr fun u v _ _ => by tauto
  have h3 : pairs N (fun u v => u ≠ v ∧ A.Stored v u) = pairs N (fun u v => u ≠ v ∧ A.Stored u v) := by
    rw [← pairs_swap (R := fun u v => u ≠ v ∧ A.Stored u v)]
    exact pairs_congr fun u v _ _ => by rw [ne_comm]
  omega

theorem InputStats.congr {L : Type} {B : Csc L} {t : AatInfo} (h : InputStats A N t)
    (he : ∀ u v, u < N → v < N → (A.Stored u v ↔ B.Stored v u)) : InputStats B N t := by
  have e1 : pairs N A.Stored = pairs N B.Stored := by
    rw [← pairs_swap (R := B.Stored)]
    exact pairs_congr he
  have e2 : pairs N (fun u v => u = v ∧ A.Stored u v) = pairs N (fun u v => u = v ∧ B.Stored u v) := by
    refine pairs_congr fun u v hu hv => ?_
    rw [he u v hu hv]
    constructor <;> (rintro ⟨rfl, h⟩; exact ⟨rfl, h⟩)
  have e3 : pairs N A.Edge = pairs N B.Edge := by
    refine pairs_congr fun u v hu hv => ?_
    unfold Csc.Edge
    rw [he u v hu hv, he v u hv hu, or_comm]
  have e4 : pairs N (fun u v => u ≠ v ∧ A.Stored u v) = pairs N (fun u v => u ≠ v ∧ B.Stored u v) := by
    rw [← pairs_swap (R := fun u v => u ≠ v ∧ B.Stored u v)]
    refine pairs_congr fun u v hu hv => ?_
    rw [he u v hu hv, ne_comm]
  have e5 : pairs N (fun u v => u ≠ v ∧ A.Stored u v ∧ A.Stored v u)
      = pairs N (fun u v => u ≠ v ∧ B.Stored u v ∧ B.Stored v u) := by
    refine pairs_congr fun u v hu hv => ?_
    rw [he u v hu hv, he v u hv hu, and_comm (a := B.Stored v u)]
  refine ⟨?_, ?_, ?_, ?_⟩
  · rw [← e1]; exact h.nz
  · rw [← e2]; exact h.nzdiag
  · rw [← e3]; exact h.nzaat
  · rw [← e4, ← e5]; exact h.symmetry

/-- From the counters to the numbers of entries. -/
theorem InputStats.of_counts (hA : A.WF) (hn : A.n = N) (hm : A.m = N) (hs : A.Sorted) {t : AatInfo} {nb : Int}
    (h1 : t.nz = A.jc N)
    (h2 : t.nzdiag = diagCount (fun j => (A.jc j.toNat : Int)) (fun q => (A.ir q.toNat : Int)) N)
    (h3 : t.nzaat = pairs N A.Edge)
    (h4 : 2 * ((A.jc N : Int) - diagCount (fun j => (A.jc j.toNat : Int)) (fun q => (A.ir q.toNat : Int)) N - nb)
      = pairs N A.Edge)
    (h5 : t.symmetry = if (A.jc N : Int) = diagCount (fun j => (A.jc j.toNat : Int)) (fun q => (A.ir q.toNat : Int)) N
      then 1 else (2 * nb : ℚ) / (((A.jc N : Int)
        - diagCount (fun j => (A.jc j.toNat : Int)) (fun q => (A.ir q.toNat : Int)) N : Int) : ℚ)) :
    InputStats A N t := by
  have hnz := hs.nnz_eq hA hn hm
  rw [diagCount_eq] at h2 h4 h5
  have hsp := pairs_split (n := N) (R := A.Stored) (fun u v => u = v)
  have hec := edge_count (A := A) (N := N)
  rw [hnz] at h1 h4 h5
  simp only [← ne_eq] at hsp
  refine ⟨h1, h2, h3, ?_⟩
  rw [h5]
  by_cases h0 : pairs N (fun u v => u ≠ v ∧ A.Stored u v) = 0
  · rw [if_pos h0, if_pos (by omega)]
  · rw [if_neg h0, if_neg (by omega)]
    have e1 : 2 * nb = (pairs N (fun u v => u ≠ v ∧ A.Stored u v ∧ A.Stored v u) : Int) := by omega
    have e2 : (pairs N A.Stored : Int) - pairs N (fun u v => u = v ∧ A.Stored u v)
        = pairs N (fun u v => u ≠ v ∧ A.Stored u v) := by omega
    rw [e2]
    have e3 : (2 * nb : ℚ) = ((2 * nb : Int) : ℚ) := by push_cast; ring
    rw [e3, e1, Int.cast_natCast, Int.cast_natCast]

end

end Verif
