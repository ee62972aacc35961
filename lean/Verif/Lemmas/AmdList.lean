import Mathlib.Data.List.Nodup
import Mathlib.Data.List.NodupEquivFin
import Mathlib.Data.Finset.Card
import Mathlib.Data.Int.Interval
import Verif.Lemmas.AmdArr
import Verif.Model.Amd

/-! # Linked lists stored in arrays -/

namespace Verif

/-- Following `nx` from pointer `c` visits the nodes of `l` and ends at pointer `d`. -/
def Seg (nx : Int → Int) : Int → List Int → Int → Prop
  | c, [], d => c = d
  | c, f :: t, d => c = f ∧ Seg nx (nx f) t d

theorem Seg.append {nx : Int → Int} {l₁ l₂ : List Int} {c d : Int} :
    Seg nx c (l₁ ++ l₂) d ↔ ∃ m, Seg nx c l₁ m ∧ Seg nx m l₂ d := by
  induction l₁ generalizing c with
  | nil => simp [Seg]
  | cons f t ih =>
    simp only [List.cons_append, Seg, ih]
    constructor
    · rintro ⟨h, m, h1, h2⟩; exact ⟨m, ⟨h, h1⟩, h2⟩
    · rintro ⟨m, ⟨h, h1⟩, h2⟩; exact ⟨h, m, h1, h2⟩

theorem Seg.congr {nx nx' : Int → Int} {l : List Int} {c d : Int} (h : Seg nx c l d)
    (he : ∀ x ∈ l, nx' x = nx x) : Seg nx' c l d := by
  induction l generalizing c with
  | nil => exact h
  | cons f t ih =>
    refine ⟨h.1, ?_⟩
    rw [he f (by simp)]
    exact ih h.2 (fun x hx => he x (by simp [hx]))

/-- The pointer after the last node of a non-empty segment can be redirected. -/
theorem Seg.redirect {nx nx' : Int → Int} {l : List Int} {x c d d' : Int}
    (h : Seg nx c (l ++ [x]) d) (he : ∀ y ∈ l, nx' y = nx y) (hx : nx' x = d') :
    Seg nx' c (l ++ [x]) d' := by
  rw [Seg.append] at h ⊢
  obtain ⟨m, h1, h2⟩ := h
  exact ⟨m, h1.congr he, h2.1, hx⟩

theorem Seg.head {nx : Int → Int} {l : List Int} {c d : Int} (h : Seg nx c l d) :
    c = (l ++ [d]).head (by simp) := by
  cases l with
  | nil => exact h
  | cons f t => exact h.1

/-- A list that starts at EMPTY has no valid nodes. -/
theorem Seg.nil_of_empty {nx : Int → Int} {l : List Int} {c d : Int} (h : Seg nx c l d)
    (hl : ∀ x ∈ l, 0 ≤ x) (hc : c = EMPTY) : l = [] := by
  cases l with
  | nil => rfl
  | cons f t =>
    have h1 : c = f := h.1
    have h2 := hl f (by simp)
    unfold EMPTY at hc
    omega

theorem Seg.ne_nil {nx : Int → Int} {l : List Int} {c : Int} (h : Seg nx c l EMPTY)
    (hc : c ≠ EMPTY) : l ≠ [] := by
  rintro rfl
  exact hc h

/-- Distinct numbers below `n` are at most `n` many. -/
theorem nodup_length_le {l : List Int} {n : Int} (hn : l.Nodup) (hr : ∀ x ∈ l, 0 ≤ x ∧ x < n) :
    (l.length : Int) ≤ n ∨ l = [] := by
  by_cases h : l = []
  · exact Or.inr h
  · left
    obtain ⟨x, hx⟩ := List.exists_mem_of_ne_nil l h
    have h0 := hr x hx
    have h1 : l.toFinset ⊆ Finset.Ico 0 n := by
      intro y hy
      have := hr y (List.mem_toFinset.mp hy)
      exact Finset.mem_Ico.mpr this
    have h2 := Finset.card_le_card h1
    rw [List.toFinset_card_of_nodup hn, Int.card_Ico] at h2
    omega

/-- Rule for a `while` loop that walks along a list. -/
theorem whileM_list {σ : Type} {fuel : Nat} {c : σ → M Bool} {f : σ → M σ} {s : σ}
    (Inv : List Int → List Int → σ → Prop) {l : List Int} (h0 : Inv [] l s) (hl : l.length ≤ fuel)
    (hstep : ∀ done x rest s, l = done ++ x :: rest → Inv done (x :: rest) s →
      c s = .ok true ∧ Spec (f s) (Inv (done ++ [x]) rest))
    (hend : ∀ s, Inv l [] s → c s = .ok false) :
    Spec (whileM fuel c f s) (Inv l []) := by
  have gen : ∀ (rest done : List Int) (fuel : Nat) (s : σ), l = done ++ rest → Inv done rest s →
      rest.length ≤ fuel → Spec (whileM fuel c f s) (Inv l []) := by
    intro rest
    induction rest with
    | nil =>
      intro done fuel s hd hi _
      rw [List.append_nil] at hd
      subst hd
      unfold whileM
      rw [hend s hi]
      simpa [Spec] using hi
    | cons x rest ih =>
      intro done fuel s hd hi hf
      obtain ⟨h1, h2⟩ := hstep done x rest s hd hi
      cases fuel with
      | zero => simp at hf
      | succ fuel =>
        unfold whileM
        rw [h1]
        simp only [ok_bind, if_true]
        refine Spec.bind h2 ?_
        intro s' hs'
        exact ih (done ++ [x]) fuel s' (by rw [hd]; simp) hs' (by simpa using hf)
  exact gen l [] fuel s rfl h0 hl

end Verif
