import Mathlib.Algebra.BigOperators.Intervals
import Mathlib.Tactic.Ring
import Mathlib.Tactic.Linarith
import Verif.Spec
import Verif.Lemmas.AmdSem

/-!
# The factor of the permuted matrix is inside the fronts found by `AMD_2`
-/

namespace Verif

open Finset

/-! ## Sums over one front -/

theorem sum_later (T : Finset Nat) (φ : Nat → Int) :
    ∑ j ∈ T, φ ((T.filter (fun k => j < k)).card) = ∑ i ∈ range T.card, φ i := by
  induction T using Finset.induction_on_min with
  | empty => simp
  | insert a s ha ih =>
    have hna : a ∉ s := fun h => lt_irrefl _ (ha a h)
    rw [sum_insert hna, card_insert_of_notMem hna, sum_range_succ, ← ih, add_comm]
    congr 1
    · refine sum_congr rfl fun j hj => ?_
      rw [filter_insert, if_neg (by have := ha j hj; omega)]
    · rw [filter_insert, if_neg (lt_irrefl a), filter_true_of_mem ha]

theorem two_sum (f : Nat) : 2 * ∑ i ∈ range f, (i : Int) = ((f : Int) - 1) * f := by
  induction f with
  | zero => simp
  | succ f ih => rw [sum_range_succ, mul_add, ih]; push_cast; ring

theorem six_sum (f : Nat) : 6 * ∑ i ∈ range f, (i : Int) * i = ((f : Int) - 1) * f * (2 * f - 1) := by
  induction f with
  | zero => simp
  | succ f ih => rw [sum_range_succ, mul_add, ih]; push_cast; ring

theorem sum_lin (f : Nat) (r : Int) :
    ∑ i ∈ range f, (r + (i : Int)) = f * r + ((f : Int) - 1) * f / 2 := by
  rw [sum_add_distrib, sum_const, card_range, nsmul_eq_mul,
    Int.ediv_eq_of_eq_mul_right (by decide) (two_sum f).symm]

theorem sum_sq (f : Nat) (r : Int) : ∑ i ∈ range f, (r + (i : Int)) * (r + i)
    = f * r * r + r * ((f : Int) - 1) * f + ((f : Int) - 1) * f * (2 * f - 1) / 6 := by
  rw [Int.ediv_eq_of_eq_mul_right (by decide) (six_sum f).symm, mul_assoc r, ← two_sum]
  have : ∀ i : Nat, (r + (i : Int)) * (r + i) = r * r + r * 2 * i + i * i := fun i => by ring
  simp only [this, sum_add_distrib, sum_const, card_range, nsmul_eq_mul, ← mul_sum]
  ring

theorem sum_tri (f : Nat) (r : Int) : ∑ i ∈ range f, (r + (i : Int)) * (r + i + 1) / 2
    = (f * r * r + r * ((f : Int) - 1) * f + ((f : Int) - 1) * f * (2 * f - 1) / 6
      + (f * r + ((f : Int) - 1) * f / 2)) / 2 := by
  rw [← sum_sq, ← sum_lin, ← sum_add_distrib]
  refine (Int.ediv_eq_of_eq_mul_right (by decide) ?_).symm
  rw [mul_sum]
  refine sum_congr rfl fun i _ => ?_
  rw [Int.mul_ediv_cancel' (Int.even_mul_succ_self _).two_dvd]
  ring

/-! ## The pattern of the factor -/

theorem LPattern.lt' {S : Nat → Nat → Prop} {k j : Nat} (h : LPattern S k j) : j < k := by
  cases h <;> assumption

theorem LPattern.mono' {S S' : Nat → Nat → Prop} (hS : ∀ j k, j < k → S j k → S' j k) {k j : Nat}
    (h : LPattern S k j) : LPattern S' k j := by
  induction h with
  | entry h1 h2 => exact .entry h1 (hS _ _ h1 h2)
  | fill h1 h2 _ _ ih1 ih2 => exact .fill h1 h2 ih1 ih2

section

variable {N : Nat} {adj : Int → Int → Prop} {Z : Finset Int} {A L : Int → List Int} {rep : Int → Int}
  {rk : Int → Nat} {pe el : Int → Int} {C : Int → Finset Int} {p q : Nat → Nat}

theorem cnt_perm (hp : PermPair N p q) (rep : Int → Int) (g : Int) :
    cnt N rep g = (((range N).filter (fun j => rep (p j) = g)).card : Int) := by
  unfold cnt
  congr 1
  symm
  refine card_bij (fun j _ => (p j : Int)) ?_ ?_ ?_
  · intro j hj
    rw [mem_filter, mem_range] at hj
    have := hp.p_lt j hj.1
    rw [mem_filter, mem_Ico]
    exact ⟨by omega, hj.2⟩
  · intro j hj k hk e
    rw [mem_filter, mem_range] at hj hk
    have e' : p j = p k := by exact_mod_cast e
    rw [← hp.qp j hj.1, e', hp.qp k hk.1]
  · intro z hz
    rw [mem_filter, mem_Ico] at hz
    have h0 : z.toNat < N := by omega
    have h1 : ((z.toNat : Nat) : Int) = z := by omega
    refine ⟨q z.toNat, ?_, ?_⟩
    · rw [mem_filter, mem_range, hp.pq _ h0, h1]
      exact ⟨hp.q_lt _ h0, hz.2⟩
    · rw [hp.pq _ h0, h1]

/-- What the main loop leaves, with the order of the output. -/
structure Final (N : Nat) (adj : Int → Int → Prop) (Z : Finset Int) (A L : Int → List Int) (rep : Int → Int)
    (rk : Int → Nat) (pe el : Int → Int) (C : Int → Finset Int) (p q : Nat → Nat) : Prop where
  t : TInv N ∅ ∅ Z rep rk pe el
  s : QSem N adj ∅ ∅ Z A L rep pe C
  perm : PermPair N p q
  ord : ∀ x y : Nat, x < N → y < N → rep x ≠ -1 →
    (rep y = -1 ∨ (rep x ≠ rep y ∧ Up N ∅ ∅ Z pe (rep x) (rep y))) → q x < q y
  sym : ∀ u v, adj u v → adj v u
  iso : ∀ g, Elim N ∅ Z g → (¬ ∃ v, adj g v) → ∀ z, rep z = g → z = g

namespace Final

variable (h : Final N adj Z A L rep rk pe el C p q)

include h

/-- The dense nodes are last. -/
theorem dense {j k : Nat} (hk : k < N) (hjk : j < k) (hj : rep (p j) = -1) : rep (p k) = -1 := by
  by_contra hne
  have := h.ord (p k) (p j) (h.perm.p_lt k hk) (h.perm.p_lt j (by omega)) hne (Or.inl hj)
  rw [h.perm.qp k hk, h.perm.qp j (by omega)] at this
  omega

theorem elim {j : Nat} (hj : j < N) (hr : rep (p j) ≠ -1) : Elim N ∅ Z (rep (p j)) := by
  have := h.perm.p_lt j hj
  exact (h.t.repRng (by omega) (by omega) hr).resolve_left (by simp)

/-- A node in the front of a group is after the group. -/
theorem later {j k : Nat} (hj : j < N) (hk : k < N) (hr : rep (p k) ≠ -1) (hc : (p j : Int) ∈ C (rep (p k))) : k < j := by
  have hd := h.s.dom _ (h.elim hk hr) _ hc
  have hu := (h.s.up _ (h.elim hk hr) _ hc).2 (by simp)
  have := h.ord (p k) (p j) (h.perm.p_lt k hk) (h.perm.p_lt j hj) hr (Or.inr ⟨fun e => hd.2.2 e.symm, hu⟩)
  rwa [h.perm.qp k hk, h.perm.qp j hj] at this

theorem cov {k j : Nat} (hl : LPattern (fun j k => adj (p j) (p k)) k j) (hk : k < N) (hj1 : rep (p j) ≠ -1)
    (hk1 : rep (p k) ≠ -1) : Cov ∅ rep C (p j) (p k) := by
  induction hl with
  | @entry k j hjk hs =>
    have a1 := h.perm.p_lt j (by omega)
    have a2 := h.perm.p_lt k hk
    exact (h.s.edge _ _ (by omega) (by omega) (by omega) (by omega) hs hj1 hk1).resolve_right (by simp)
  | @fill k j t htj hjk _ _ ih1 ih2 =>
    have ht1 : rep (p t) ≠ -1 := fun e => hj1 (h.dense (by omega) htj e)
    have c1 := ih1 hk ht1 hk1
    have c2 := ih2 (by omega) ht1 hj1
    have c1' : rep (p t) = rep (p k) ∨ (p k : Int) ∈ C (rep (p t)) := by
      rcases c1 with e | e | e
      · exact Or.inl e
      · exact Or.inr e.2
      · have := h.later (by omega) hk hk1 e.2
        omega
    have c2' : rep (p t) = rep (p j) ∨ (p j : Int) ∈ C (rep (p t)) := by
      rcases c2 with e | e | e
      · exact Or.inl e
      · exact Or.inr e.2
      · have := h.later (j := t) (k := j) (by omega) (by omega) hj1 e.2
        omega
    rcases c1' with e1 | e1
    · rcases c2' with e2 | e2
      · exact Or.inl (e2.symm.trans e1)
      · exact Or.inr (Or.inr ⟨by simp, e1 ▸ e2⟩)
    · rcases c2' with e2 | e2
      · exact Or.inr (Or.inl ⟨by simp, e2 ▸ e1⟩)
      · exact (h.s.fill _ (h.elim (by omega) ht1) _ e2 _ e1).resolve_right (by simp)

theorem nis {k j : Nat} (hl : LPattern (fun j k => adj (p j) (p k)) k j) :
    (∃ v, adj (p j) v) ∧ ∃ v, adj (p k) v := by
  induction hl with
  | entry _ hs => exact ⟨⟨_, hs⟩, ⟨_, h.sym _ _ hs⟩⟩
  | fill _ _ _ _ ih1 ih2 => exact ⟨ih2.2, ih1.2⟩

theorem colDense {j : Nat} (hr : rep (p j) = -1) :
    colCount N (fun j k => adj (p j) (p k)) j
      ≤ (((range N).filter (fun k => rep (p k) = -1)).filter (fun k => j < k)).card := by
  classical
  unfold colCount
  refine card_le_card fun k hk => ?_
  rw [mem_filter, mem_range] at hk
  rw [mem_filter, mem_filter, mem_range]
  exact ⟨⟨hk.1, h.dense hk.1 hk.2.lt' hr⟩, hk.2.lt'⟩

theorem colFront {j : Nat} (hj : j < N) (hr : rep (p j) ≠ -1) :
    colCount N (fun j k => adj (p j) (p k)) j
      ≤ ((range N).filter (fun k => rep (p k) = -1)).card + (C (rep (p j))).card
        + (((range N).filter (fun k => rep (p k) = rep (p j))).filter (fun k => j < k)).card := by
  classical
  unfold colCount
  have h1 : ((range N).filter (fun k => (p k : Int) ∈ C (rep (p j)))).card ≤ (C (rep (p j))).card := by
    refine card_le_card_of_injOn (fun k => (p k : Int)) ?_ ?_
    · intro k hk
      exact (mem_filter.mp hk).2
    · intro a ha b hb e
      have ha := (mem_filter.mp (Finset.mem_coe.mp ha)).1
      have hb := (mem_filter.mp (Finset.mem_coe.mp hb)).1
      rw [mem_range] at ha hb
      have e' : p a = p b := by simpa using e
      rw [← h.perm.qp a ha, e', h.perm.qp b hb]
  refine le_trans (card_le_card (t := ((range N).filter (fun k => rep (p k) = -1)
    ∪ (range N).filter (fun k => (p k : Int) ∈ C (rep (p j))))
    ∪ ((range N).filter (fun k => rep (p k) = rep (p j))).filter (fun k => j < k)) ?_) ?_
  · intro k hk
    rw [mem_filter, mem_range] at hk
    obtain ⟨hk, hl⟩ := hk
    have hjk := hl.lt'
    simp only [mem_union, mem_filter, mem_range]
    by_cases hk1 : rep (p k) = -1
    · exact Or.inl (Or.inl ⟨hk, hk1⟩)
    · rcases h.cov hl hk hr hk1 with e | e | e
      · exact Or.inr ⟨⟨hk, e.symm⟩, hjk⟩
      · exact Or.inl (Or.inr ⟨hk, e.2⟩)
      · have := h.later hj hk hk1 e.2
        omega
  · refine le_trans (card_union_le _ _) ?_
    have := card_union_le ((range N).filter (fun k => rep (p k) = -1))
      ((range N).filter (fun k => (p k : Int) ∈ C (rep (p j))))
    omega

theorem colIso {j : Nat} (hr : ¬ ∃ v, adj (p j) v) : colCount N (fun j k => adj (p j) (p k)) j = 0 := by
  classical
  unfold colCount
  rw [card_eq_zero, filter_eq_empty_iff]
  exact fun k _ hl => hr (h.nis hl).1

open Classical in
/-- The sum over all columns is at most the sum over the fronts. -/
theorem sum_le {φ : Nat → Int} (hφ : Monotone φ) (h0 : φ 0 = 0) :
    ∑ j ∈ range N, φ (colCount N (fun j k => adj (p j) (p k)) j)
      ≤ ∑ g ∈ (Ico 0 (N : Int)).filter (fun g => Elim N ∅ Z g ∧ ∃ v, adj g v),
          ∑ i ∈ range ((range N).filter (fun k => rep (p k) = g)).card,
            φ (((range N).filter (fun k => rep (p k) = -1)).card + (C g).card + i)
        + ∑ i ∈ range ((range N).filter (fun k => rep (p k) = -1)).card, φ i := by
  have hm : ∀ j ∈ range N, rep (p j) ∈ insert (-1 : Int) (Ico 0 (N : Int)) := by
    intro j hj
    rw [mem_range] at hj
    rw [mem_insert, mem_Ico]
    by_cases hr : rep (p j) = -1
    · exact Or.inl hr
    · exact Or.inr (h.elim hj hr).1
  rw [← sum_fiberwise_of_maps_to hm, sum_insert (by simp), add_comm,
    sum_filter (s := Ico 0 (N : Int)) (p := fun g => Elim N ∅ Z g ∧ ∃ v, adj g v)]
  refine add_le_add (sum_le_sum fun g hg => ?_) ?_
  · rw [mem_Ico] at hg
    split
    · next hF =>
        rw [← sum_later (φ := fun i => φ (((range N).filter (fun k => rep (p k) = -1)).card + (C g).card + i))]
        refine sum_le_sum fun j hj => hφ ?_
        rw [mem_filter, mem_range] at hj
        have := h.colFront hj.1 (by omega)
        rwa [hj.2] at this
    · next hF =>
        refine le_of_eq (sum_eq_zero fun j hj => ?_)
        rw [mem_filter, mem_range] at hj
        have he := h.elim hj.1 (by omega)
        rw [hj.2] at he
        have hn : ¬ ∃ v, adj g v := fun h' => hF ⟨he, h'⟩
        rw [h.colIso, h0]
        rwa [h.iso g he hn _ hj.2]
  · rw [← sum_later]
    refine sum_le_sum fun j hj => hφ ?_
    rw [mem_filter, mem_range] at hj
    exact h.colDense hj.2

/-- One column. -/
theorem col_le {D : Int} (hD : 1 ≤ D)
    (hF : ∀ g, Elim N ∅ Z g → (∃ v, adj g v) → cnt N rep g + (C g).card + cnt N rep (-1) ≤ D)
    (hd : cnt N rep (-1) ≤ D) {j : Nat} (hj : j < N) :
    (colCount N (fun j k => adj (p j) (p k)) j : Int) + 1 ≤ D := by
  have hlt : ∀ g, rep (p j) = g →
      (((range N).filter (fun k => rep (p k) = g)).filter (fun k => j < k)).card + 1
        ≤ ((range N).filter (fun k => rep (p k) = g)).card := by
    intro g hg
    refine card_lt_card ⟨filter_subset _ _, fun hs => ?_⟩
    have := hs (mem_filter.mpr ⟨mem_range.mpr hj, hg⟩ : j ∈ (range N).filter (fun k => rep (p k) = g))
    simp at this
  by_cases hr : rep (p j) = -1
  · have h1 := h.colDense hr
    have h2 := hlt _ hr
    rw [cnt_perm h.perm] at hd
    omega
  · have he := h.elim hj hr
    by_cases ha : ∃ v, adj (rep (p j)) v
    · have h1 := h.colFront hj hr
      have h2 := hlt _ rfl
      have h3 := hF _ he ha
      rw [cnt_perm h.perm, cnt_perm h.perm] at h3
      omega
    · have h1 := h.iso _ he ha _ rfl
      rw [h.colIso (by rwa [h1])]
      simpa using hD

/-- The dense nodes are at the end. -/
theorem dense_iff {u : Nat} (hu : u < N) : (N : Int) - cnt N rep (-1) ≤ q u ↔ rep u = -1 := by
  rw [cnt_perm h.perm]
  have hq := h.perm.q_lt u hu
  constructor
  · intro hle
    by_contra hne
    have : (range N).filter (fun k => rep (p k) = -1) ⊆ Ico (q u + 1) N := by
      intro k hk
      rw [mem_filter, mem_range] at hk
      rw [mem_Ico]
      refine ⟨?_, hk.1⟩
      have := h.ord u (p k) hu (h.perm.p_lt k hk.1) hne (Or.inl hk.2)
      rw [h.perm.qp k hk.1] at this
      omega
    have := card_le_card this
    rw [Nat.card_Ico] at this
    omega
  · intro hr
    have : Ico (q u) N ⊆ (range N).filter (fun k => rep (p k) = -1) := by
      intro k hk
      rw [mem_Ico] at hk
      rw [mem_filter, mem_range]
      refine ⟨hk.2, ?_⟩
      rcases Nat.eq_or_lt_of_le hk.1 with e | e
      · rw [← e, h.perm.pq u hu]; exact hr
      · exact h.dense hk.2 e (by rw [h.perm.pq u hu]; exact hr)
    have := card_le_card this
    rw [Nat.card_Ico] at this
    omega

end Final

end

end Verif
