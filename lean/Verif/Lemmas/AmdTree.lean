import Mathlib.Order.Interval.Finset.Basic
import Mathlib.Data.Int.Interval
import Mathlib.Algebra.BigOperators.Group.Finset.Basic
import Mathlib.Algebra.Order.BigOperators.Group.Finset
import Mathlib.Algebra.BigOperators.Ring.Finset
import Mathlib.Tactic.Ring
import Verif.Lemmas.AmdList
import Verif.Lemmas.AmdDeg

/-!
# Quotient graph and assembly tree of `AMD_2`
-/

namespace Verif

open Finset

variable {n : Int} {V K Z : Finset Int} {E A L : Int → List Int} {rep : Int → Int} {rk : Int → Nat}
  {pe el : Int → Int}

/-! ## Weights -/

/-- Number of variables represented by `x`. -/
def cnt (n : Int) (rep : Int → Int) (x : Int) : Int :=
  (((Finset.Ico 0 n).filter (fun z => rep z = x)).card : Int)

theorem cnt_congr {rep1 : Int → Int} {x : Int} (h : ∀ z, rep1 z = x ↔ rep z = x) : cnt n rep1 x = cnt n rep x := by
  unfold cnt
  simp only [h]

theorem cnt_nonneg (x : Int) : 0 ≤ cnt n rep x := by unfold cnt; omega

theorem cnt_pos {x : Int} (h0 : 0 ≤ x) (h1 : x < n) (h : rep x = x) : 0 < cnt n rep x := by
  unfold cnt
  have : 0 < ((Finset.Ico 0 n).filter (fun z => rep z = x)).card :=
    Finset.card_pos.mpr ⟨x, by simp [h0, h1, h]⟩
  omega

theorem cnt_zero {x : Int} (h : ∀ z, 0 ≤ z → z < n → rep z ≠ x) : cnt n rep x = 0 := by
  unfold cnt
  rw [Finset.filter_eq_empty_iff.mpr]
  · simp
  · intro z hz
    rw [Finset.mem_Ico] at hz
    exact h z hz.1 hz.2

theorem cnt_sum (X : Finset Int) :
    ∑ x ∈ X, cnt n rep x = (((Finset.Ico 0 n).filter (fun z => rep z ∈ X)).card : Int) := by
  unfold cnt
  rw [Finset.card_eq_sum_card_fiberwise (f := rep) (t := X)]
  · rw [Nat.cast_sum]
    refine Finset.sum_congr rfl fun x hx => ?_
    congr 2
    ext z
    simp only [Finset.mem_filter]
    constructor
    · rintro ⟨h1, rfl⟩; exact ⟨⟨h1, hx⟩, rfl⟩
    · rintro ⟨⟨h1, _⟩, h2⟩; exact ⟨h1, h2⟩
  · intro z hz
    simp only [Finset.coe_filter, Set.mem_ofPred_eq] at hz
    exact hz.2

/-- The nodes `X` are merged into `me`. -/
def mrg (rep : Int → Int) (X : Finset Int) (me : Int) (z : Int) : Int :=
  if rep z ∈ X then me else rep z

theorem cnt_mrg {X : Finset Int} {me : Int} (hme : me ∉ X) (x : Int) :
    cnt n (mrg rep X me) x
      = if x = me then cnt n rep me + ∑ i ∈ X, cnt n rep i else if x ∈ X then 0 else cnt n rep x := by
  by_cases hx : x = me
  · subst hx
    rw [if_pos rfl, cnt_sum]
    unfold cnt
    have : (Finset.Ico 0 n).filter (fun z => mrg rep X x z = x)
        = (Finset.Ico 0 n).filter (fun z => rep z = x) ∪ (Finset.Ico 0 n).filter (fun z => rep z ∈ X) := by
      ext z
      rw [Finset.mem_union, Finset.mem_filter, Finset.mem_filter, Finset.mem_filter]
      unfold mrg
      by_cases h : rep z ∈ X
      · rw [if_pos h]; tauto
      · rw [if_neg h]; tauto
    rw [this, Finset.card_union_of_disjoint]
    · push_cast; rfl
    · rw [Finset.disjoint_left]
      intro z h1 h2
      rw [Finset.mem_filter] at h1 h2
      exact hme (h1.2 ▸ h2.2)
  · rw [if_neg hx]
    split
    · next hX =>
      refine cnt_zero fun z _ _ => ?_
      unfold mrg
      split
      · exact fun e => hx e.symm
      · next h => exact fun e => h (e ▸ hX)
    · next hX =>
      unfold cnt
      refine congrArg (fun s : Finset Int => (s.card : Int)) (Finset.filter_congr fun z _ => ?_)
      unfold mrg
      by_cases h : rep z ∈ X
      · rw [if_pos h]
        constructor
        · exact fun e => absurd e.symm hx
        · exact fun e => absurd (e ▸ h) hX
      · rw [if_neg h]

/-! ## Quotient graph -/

/-- Live variables `V`, live elements `K`, merged variables `Z`; `E i` and `A i` are the elements and
the variables in the list of variable `i`, `L e` is the list of element `e`. -/
structure GInv (n : Int) (V K Z : Finset Int) (E A L : Int → List Int) : Prop where
  Vr : ∀ x ∈ V, 0 ≤ x ∧ x < n
  Kr : ∀ x ∈ K, 0 ≤ x ∧ x < n
  Zr : ∀ x ∈ Z, 0 ≤ x ∧ x < n
  VK : ∀ x ∈ V, x ∉ K
  VZ : ∀ x ∈ V, x ∉ Z
  KZ : ∀ x ∈ K, x ∉ Z
  nodup : ∀ i ∈ V, (E i ++ A i).Nodup
  elt : ∀ i ∈ V, ∀ e ∈ E i, e ∈ K ∧ i ∈ L e
  var : ∀ i ∈ V, ∀ j ∈ A i, j ≠ i ∧ (j ∈ V ∨ j ∈ Z)
  sym : ∀ i ∈ V, ∀ j ∈ V, j ∈ A i → i ∈ A j
  lv : ∀ e ∈ K, ∀ i ∈ L e, i ∈ V ∨ i ∈ Z
  le : ∀ e ∈ K, ∀ i ∈ V, i ∈ L e → e ∈ E i
  dis : ∀ i ∈ V, ∀ e ∈ E i, ∀ j ∈ A i, j ∈ V → j ∉ L e

/-- Some variables are merged. -/
theorem GInv.merge (h : GInv n V K Z E A L) {V' Z' : Finset Int} (hV : ∀ x ∈ V', x ∈ V)
    (hZ : ∀ x, x ∈ Z' ↔ x ∈ Z ∨ (x ∈ V ∧ x ∉ V')) : GInv n V' K Z' E A L := by
  have hVZ : ∀ x, x ∈ V ∨ x ∈ Z → x ∈ V' ∨ x ∈ Z' := by
    intro x hx
    by_cases hx' : x ∈ V'
    · exact Or.inl hx'
    · rw [hZ]; tauto
  refine ⟨fun x hx => h.Vr x (hV x hx), h.Kr, ?_, fun x hx => h.VK x (hV x hx), ?_, ?_,
    fun i hi => h.nodup i (hV i hi), fun i hi => h.elt i (hV i hi), ?_, ?_, ?_, ?_,
    fun i hi e he j hj hjV => h.dis i (hV i hi) e he j hj (hV j hjV)⟩
  · intro x hx
    rcases (hZ x).mp hx with h' | h'
    · exact h.Zr x h'
    · exact h.Vr x h'.1
  · intro x hx hx'
    rcases (hZ x).mp hx' with h' | h'
    · exact h.VZ x (hV x hx) h'
    · exact h'.2 hx
  · intro x hx hx'
    rcases (hZ x).mp hx' with h' | h'
    · exact h.KZ x hx h'
    · exact h.VK x h'.1 hx
  · intro i hi j hj
    have := h.var i (hV i hi) j hj
    exact ⟨this.1, hVZ j this.2⟩
  · exact fun i hi j hj => h.sym i (hV i hi) j (hV j hj)
  · exact fun e he i hi => hVZ i (h.lv e he i hi)
  · exact fun e he i hi => h.le e he i (hV i hi)

/-- The pivot `me` becomes an element with the list `M`; the elements of `me` and those of `Y` are
absorbed, the variables `X` are eliminated with it. -/
theorem GInv.elim (h : GInv n V K Z E A L) {me : Int} (hme : me ∈ V) {M : List Int}
    (hM : ∀ i, i ∈ M ↔ (i ∈ V ∧ i ≠ me) ∧ (i ∈ A me ∨ ∃ e ∈ E me, i ∈ L e))
    {X Y : Finset Int} (hX : ∀ i ∈ X, i ∈ M)
    (hY : ∀ e ∈ Y, e ∈ K ∧ e ∉ E me ∧ ∀ i ∈ V, i ∈ L e → i ∈ M)
    {E1 A1 : Int → List Int} (hE0 : ∀ i, i ∉ M → E1 i = E i) (hA0 : ∀ i, i ∉ M → A1 i = A i)
    (hE1 : ∀ i ∈ M, ∀ e, e ∈ E1 i ↔ e = me ∨ (e ∈ E i ∧ e ∉ E me ∧ e ∉ Y))
    (hA1 : ∀ i ∈ M, ∀ j, j ∈ A1 i ↔ j ∈ A i ∧ j ∈ V ∧ j ≠ me ∧ j ∉ M)
    (hnd : ∀ i ∈ M, i ∉ X → (E1 i ++ A1 i).Nodup) {V1 K1 Z1 : Finset Int} {L1 : Int → List Int}
    (hV1 : ∀ x, x ∈ V1 ↔ x ∈ V ∧ x ≠ me ∧ x ∉ X)
    (hK1 : ∀ x, x ∈ K1 ↔ x = me ∨ (x ∈ K ∧ x ∉ E me ∧ x ∉ Y))
    (hZ1 : ∀ x, x ∈ Z1 ↔ x ∈ Z ∨ x ∈ X)
    (hL1 : ∀ x, L1 x = if x = me then M else L x) :
    GInv n V1 K1 Z1 E1 A1 L1 := by
  have hXV : ∀ x ∈ X, x ∈ V ∧ x ≠ me := fun x hx => ((hM x).mp (hX x hx)).1
  have hmK : me ∉ K := h.VK me hme
  have hV1V : ∀ x ∈ V1, x ∈ V := fun x hx => ((hV1 x).mp hx).1
  have hVZ : ∀ x, x ≠ me → x ∈ V ∨ x ∈ Z → x ∈ V1 ∨ x ∈ Z1 := by
    intro x hne hx
    by_cases hx' : x ∈ V1
    · exact Or.inl hx'
    · rw [hV1] at hx'; rw [hZ1]; tauto
  have hLE : ∀ e ∈ K, ∀ i ∈ V, i ≠ me → i ∉ M → i ∈ L e → e ∉ E me ∧ e ∉ Y := by
    intro e he i hi hne hiM hiL
    exact ⟨fun h' => hiM ((hM i).mpr ⟨⟨hi, hne⟩, Or.inr ⟨e, h', hiL⟩⟩), fun h' => hiM ((hY e h').2.2 i hi hiL)⟩
  have hmL : ∀ e ∈ K, e ∉ E me → me ∉ L e := fun e he h1 h2 => h1 (h.le e he me hme h2)
  refine ⟨fun x hx => h.Vr x (hV1V x hx), ?_, ?_, ?_, ?_, ?_, ?_, ?_, ?_, ?_, ?_, ?_, ?_⟩
  · intro x hx
    rcases (hK1 x).mp hx with rfl | h'
    · exact h.Vr _ hme
    · exact h.Kr x h'.1
  · intro x hx
    rcases (hZ1 x).mp hx with h' | h'
    · exact h.Zr x h'
    · exact h.Vr x (hXV x h').1
  · intro x hx hx'
    rcases (hK1 x).mp hx' with h' | h'
    · exact ((hV1 x).mp hx).2.1 h'
    · exact h.VK x (hV1V x hx) h'.1
  · intro x hx hx'
    rcases (hZ1 x).mp hx' with h' | h'
    · exact h.VZ x (hV1V x hx) h'
    · exact ((hV1 x).mp hx).2.2 h'
  · intro x hx hx'
    rcases (hK1 x).mp hx with rfl | h1
    · rcases (hZ1 x).mp hx' with h' | h'
      · exact h.VZ x hme h'
      · exact (hXV x h').2 rfl
    · rcases (hZ1 x).mp hx' with h' | h'
      · exact h.KZ x h1.1 h'
      · exact h.VK x (hXV x h').1 h1.1
  · intro i hi
    obtain ⟨h1, h2, h3⟩ := (hV1 i).mp hi
    by_cases hiM : i ∈ M
    · exact hnd i hiM h3
    · rw [hE0 i hiM, hA0 i hiM]; exact h.nodup i h1
  · intro i hi e he
    obtain ⟨h1, h2, h3⟩ := (hV1 i).mp hi
    rw [hK1, hL1]
    by_cases hiM : i ∈ M
    · rcases (hE1 i hiM e).mp he with rfl | ⟨q1, q2, q3⟩
      · rw [if_pos rfl]; exact ⟨Or.inl rfl, hiM⟩
      · have := h.elt i h1 e q1
        rw [if_neg (fun e' : e = me => hmK (e' ▸ this.1))]
        exact ⟨Or.inr ⟨this.1, q2, q3⟩, this.2⟩
    · rw [hE0 i hiM] at he
      have := h.elt i h1 e he
      rw [if_neg (fun e' : e = me => hmK (e' ▸ this.1))]
      exact ⟨Or.inr ⟨this.1, hLE e this.1 i h1 h2 hiM this.2⟩, this.2⟩
  · intro i hi j hj
    obtain ⟨h1, h2, h3⟩ := (hV1 i).mp hi
    by_cases hiM : i ∈ M
    · obtain ⟨q1, q2, q3, q4⟩ := (hA1 i hiM j).mp hj
      exact ⟨(h.var i h1 j q1).1, Or.inl ((hV1 j).mpr ⟨q2, q3, fun h' => q4 (hX j h')⟩)⟩
    · rw [hA0 i hiM] at hj
      have := h.var i h1 j hj
      refine ⟨this.1, hVZ j ?_ this.2⟩
      rintro rfl
      exact hiM ((hM i).mpr ⟨⟨h1, h2⟩, Or.inl (h.sym i h1 j hme hj)⟩)
  · intro i hi j hj hji
    obtain ⟨h1, h2, h3⟩ := (hV1 i).mp hi
    obtain ⟨g1, g2, g3⟩ := (hV1 j).mp hj
    by_cases hiM : i ∈ M
    · obtain ⟨q1, q2, q3, q4⟩ := (hA1 i hiM j).mp hji
      rw [hA0 j q4]
      exact h.sym i h1 j g1 q1
    · rw [hA0 i hiM] at hji
      have := h.sym i h1 j g1 hji
      by_cases hjM : j ∈ M
      · exact (hA1 j hjM i).mpr ⟨this, h1, h2, hiM⟩
      · rw [hA0 j hjM]; exact this
  · intro e he i hi
    rw [hL1] at hi
    split at hi
    · obtain ⟨q1, q2⟩ := (hM i).mp hi
      exact hVZ i q1.2 (Or.inl q1.1)
    · next hne =>
      obtain ⟨q1, q2, q3⟩ := ((hK1 e).mp he).resolve_left hne
      exact hVZ i (fun e' => hmL e q1 q2 (e' ▸ hi)) (h.lv e q1 i hi)
  · intro e he i hi hiL
    obtain ⟨h1, h2, h3⟩ := (hV1 i).mp hi
    rw [hL1] at hiL
    split at hiL
    · next h' => exact (hE1 i hiL e).mpr (Or.inl h')
    · next hne =>
      obtain ⟨q1, q2, q3⟩ := ((hK1 e).mp he).resolve_left hne
      have := h.le e q1 i h1 hiL
      by_cases hiM : i ∈ M
      · exact (hE1 i hiM e).mpr (Or.inr ⟨this, q2, q3⟩)
      · rw [hE0 i hiM]; exact this
  · intro i hi e he j hj hjV
    obtain ⟨h1, h2, h3⟩ := (hV1 i).mp hi
    rw [hL1]
    by_cases hiM : i ∈ M
    · obtain ⟨q1, q2, q3, q4⟩ := (hA1 i hiM j).mp hj
      rcases (hE1 i hiM e).mp he with rfl | ⟨k1, -, -⟩
      · rw [if_pos rfl]; exact q4
      · rw [if_neg (fun e' : e = me => hmK (e' ▸ (h.elt i h1 e k1).1))]
        exact h.dis i h1 e k1 j q1 q2
    · rw [hE0 i hiM] at he
      rw [hA0 i hiM] at hj
      rw [if_neg (fun e' : e = me => hmK (e' ▸ (h.elt i h1 e he).1))]
      exact h.dis i h1 e he j hj (hV1V j hjV)

/-- The list of `me` loses its merged variables, and `me` dies when none is left. -/
theorem GInv.shrink (h : GInv n V K Z E A L) {me : Int} {M' : List Int}
    (hM' : ∀ i, i ∈ M' ↔ i ∈ L me ∧ i ∈ V) {K' : Finset Int} {L' : Int → List Int}
    (hK' : ∀ x, x ∈ K' ↔ x ∈ K ∧ (x = me → M' ≠ []))
    (hL' : ∀ x, L' x = if x = me then M' else L x) : GInv n V K' Z E A L' := by
  refine ⟨h.Vr, fun x hx => h.Kr x ((hK' x).mp hx).1, h.Zr, fun x hx h' => h.VK x hx ((hK' x).mp h').1, h.VZ,
    fun x hx => h.KZ x ((hK' x).mp hx).1, h.nodup, ?_, h.var, h.sym, ?_, ?_, ?_⟩
  · intro i hi e he
    obtain ⟨q1, q2⟩ := h.elt i hi e he
    rw [hK', hL']
    by_cases hem : e = me
    · subst hem
      have : i ∈ M' := (hM' i).mpr ⟨q2, hi⟩
      rw [if_pos rfl]
      exact ⟨⟨q1, fun _ => List.ne_nil_of_mem this⟩, this⟩
    · rw [if_neg hem]
      exact ⟨⟨q1, fun e' => absurd e' hem⟩, q2⟩
  · intro e he i hi
    rw [hL'] at hi
    split at hi
    · exact Or.inl ((hM' i).mp hi).2
    · exact h.lv e ((hK' e).mp he).1 i hi
  · intro e he i hi hiL
    rw [hL'] at hiL
    split at hiL
    · next e' => subst e'; exact h.le e ((hK' e).mp he).1 i hi ((hM' i).mp hiL).1
    · exact h.le e ((hK' e).mp he).1 i hi hiL
  · intro i hi e he j hj hjV hjL
    refine h.dis i hi e he j hj hjV ?_
    rw [hL'] at hjL
    split at hjL
    · next e' => subst e'; exact ((hM' j).mp hjL).1
    · exact hjL

/-! ## Assembly tree -/

/-- Every node that is neither a live variable nor a live element is a root or has a parent; the rank
grows along the tree; `rep` is the element or the variable that a merged variable has been merged
into (-1 for a dense one). -/
structure TInv (n : Int) (V K Z : Finset Int) (rep : Int → Int) (rk : Int → Nat) (pe el : Int → Int) :
    Prop where
  repN : ∀ x, 0 ≤ x → x < n → x ∉ Z → rep x = x
  repZ : ∀ x ∈ Z, rep x = -1 ∨ (0 ≤ rep x ∧ rep x < n ∧ rep x ∉ Z)
  dead : ∀ x, 0 ≤ x → x < n → x ∉ V → x ∉ K →
    (pe x = EMPTY ∧ (x ∈ Z → rep x = -1)) ∨
    ∃ y, pe x = FLIP y ∧ 0 ≤ y ∧ y < n ∧ rk x < rk y ∧ (x ∉ Z → y ∉ Z ∧ y ∉ V) ∧
      (x ∈ Z → rep x = rep y ∧ rep x ≠ -1)
  elen : ∀ x, 0 ≤ x → x < n → x ∉ V → x ∉ Z → el x ≤ -1

theorem TInv.pe_neg (h : TInv n V K Z rep rk pe el) {x : Int} (h0 : 0 ≤ x) (h1 : x < n) (hV : x ∉ V)
    (hK : x ∉ K) : pe x < 0 := by
  rcases h.dead x h0 h1 hV hK with ⟨e, _⟩ | ⟨y, e, y0, _⟩
  · rw [e]; unfold EMPTY; omega
  · rw [e]; unfold FLIP; omega

theorem TInv.cntZ (h : TInv n V K Z rep rk pe el) {x : Int} (hx : x ∈ Z) (hr : 0 ≤ x) : cnt n rep x = 0 := by
  refine cnt_zero fun z z0 z1 e => ?_
  by_cases hz : z ∈ Z
  · rcases h.repZ z hz with h' | h'
    · omega
    · exact h'.2.2 (e ▸ hx)
  · have := h.repN z z0 z1 hz
    exact hz (by rw [← this, e]; exact hx)

theorem TInv.cntP (h : TInv n V K Z rep rk pe el) {x : Int} (h0 : 0 ≤ x) (h1 : x < n) (hx : x ∉ Z) :
    0 < cnt n rep x := cnt_pos h0 h1 (h.repN x h0 h1 hx)

/-- The variables `X` are merged into `me` (a variable that stays, or the pivot, which becomes an
element), the elements `Y` are absorbed by it. -/
theorem TInv.join (h : TInv n V K Z rep rk pe el) {me : Int} (hme : me ∈ V)
    (hVr : ∀ x ∈ V, 0 ≤ x ∧ x < n)
    (hVZ : ∀ x ∈ V, x ∉ Z) (hKZ : ∀ x ∈ K, x ∉ Z)
    {X Y V1 K1 Z1 : Finset Int} (hX : ∀ x ∈ X, x ∈ V ∧ x ≠ me) (hY : ∀ x ∈ Y, x ∈ K ∧ me ∉ V1)
    (hV1 : ∀ x ∈ V1, x ∈ V)
    (hV : ∀ x ∈ V, x ∉ V1 → x ∈ X ∨ x = me) (hm1 : me ∈ V1 ∨ me ∈ K1)
    (hK : ∀ x ∈ K, x ∉ K1 → x ∈ Y)
    (hZ1 : ∀ x, x ∈ Z1 ↔ x ∈ Z ∨ x ∈ X) {pe' el' : Int → Int}
    (hp1 : ∀ x, x ∈ X ∨ x ∈ Y → pe' x = FLIP me)
    (hp2 : ∀ x, 0 ≤ x → x < n → x ∉ V → x ∉ K → pe' x = pe x)
    (he1 : ∀ x, 0 ≤ x → x < n → x ∉ V → el' x = el x) (he2 : me ∉ V1 → el' me ≤ -1) :
    TInv n V1 K1 Z1 (mrg rep X me)
      (fun x => if x = me then rk me + ∑ i ∈ X ∪ Y, rk i + 1 else rk x) pe' el' := by
  have hmr := hVr me hme
  have hmX : me ∉ X := fun h' => (hX me h').2 rfl
  have hmZ : me ∉ Z := hVZ me hme
  have hmZ1 : me ∉ Z1 := by rw [hZ1]; tauto
  have hrm : rep me = me := h.repN me hmr.1 hmr.2 hmZ
  have hmm : mrg rep X me me = me := by unfold mrg; rw [hrm, if_neg hmX]
  have hrX : ∀ x ∈ X, rep x = x := fun x hx =>
    h.repN x (hVr x (hX x hx).1).1 (hVr x (hX x hx).1).2 (hVZ x (hX x hx).1)
  have hXm : ∀ x ∈ X, mrg rep X me x = me := by
    intro x hx
    unfold mrg
    rw [hrX x hx, if_pos hx]
  have hmin : me ≠ -1 := by omega
  refine ⟨?_, ?_, ?_, ?_⟩
  · intro x h0 h1 hx
    rw [hZ1] at hx
    push Not at hx
    unfold mrg
    rw [h.repN x h0 h1 hx.1, if_neg hx.2]
  · intro x hx
    by_cases hxm : rep x ∈ X
    · right
      unfold mrg
      rw [if_pos hxm]
      exact ⟨hmr.1, hmr.2, hmZ1⟩
    · unfold mrg
      rw [if_neg hxm]
      rcases (hZ1 x).mp hx with h' | h'
      · rcases h.repZ x h' with h'' | ⟨q1, q2, q3⟩
        · exact Or.inl h''
        · exact Or.inr ⟨q1, q2, by rw [hZ1]; tauto⟩
      · rw [hrX x h'] at hxm
        exact absurd h' hxm
  · intro x h0 h1 hxV hxK
    have hxm : x ≠ me := by rintro rfl; tauto
    by_cases hxXY : x ∈ X ∨ x ∈ Y
    · right
      refine ⟨me, hp1 x hxXY, hmr.1, hmr.2, ?_, ?_, ?_⟩
      · simp only
        rw [if_neg hxm, if_pos trivial]
        have : rk x ≤ ∑ i ∈ X ∪ Y, rk i :=
          Finset.single_le_sum (f := rk) (fun _ _ => Nat.zero_le _) (Finset.mem_union.mpr hxXY)
        omega
      · intro hxZ
        refine ⟨hmZ1, ?_⟩
        rcases hxXY with h' | h'
        · exact absurd ((hZ1 x).mpr (Or.inr h')) hxZ
        · exact (hY x h').2
      · intro hxZ
        have hxX : x ∈ X := by
          rcases hxXY with h' | h'
          · exact h'
          · exact ((hZ1 x).mp hxZ).resolve_left (hKZ x (hY x h').1)
        rw [hXm x hxX, hmm]
        exact ⟨rfl, hmin⟩
    · push Not at hxXY
      have hxV' : x ∉ V := fun h' => (hV x h' hxV).elim hxXY.1 hxm
      have hxK' : x ∉ K := fun h' => hxXY.2 (hK x h' hxK)
      have hxZ' : x ∈ Z1 ↔ x ∈ Z := by rw [hZ1]; tauto
      rw [hp2 x h0 h1 hxV' hxK', hxZ']
      rcases h.dead x h0 h1 hxV' hxK' with ⟨e, hz⟩ | ⟨y, e, y0, y1, hr, hn, hz⟩
      · left
        refine ⟨e, fun hx => ?_⟩
        unfold mrg
        rw [hz hx, if_neg]
        intro hX'
        have := hVr _ (hX _ hX').1
        omega
      · right
        refine ⟨y, e, y0, y1, ?_, ?_, ?_⟩
        · rw [if_neg hxm]
          split
          · next e' => subst e'; omega
          · exact hr
        · intro hx
          obtain ⟨q1, q2⟩ := hn hx
          exact ⟨by rw [hZ1]; rintro (h' | h'); exacts [q1 h', q2 (hX y h').1], fun h' => q2 (hV1 y h')⟩
        · intro hx
          obtain ⟨q1, q2⟩ := hz hx
          unfold mrg
          rw [q1]
          refine ⟨rfl, ?_⟩
          split
          · exact hmin
          · rw [← q1]; exact q2
  · intro x h0 h1 hxV hxZ
    have hxZ' : x ∉ Z ∧ x ∉ X := by rw [hZ1] at hxZ; tauto
    by_cases hxm : x = me
    · subst hxm; exact he2 hxV
    · have hxV' : x ∉ V := fun h' => (hV x h' hxV).elim hxZ'.2 hxm
      rw [he1 x h0 h1 hxV']
      exact h.elen x h0 h1 hxV' hxZ'.1

end Verif
