import Mathlib.Algebra.BigOperators.Group.Finset.Basic
import Mathlib.Algebra.Order.BigOperators.Group.Finset
import Verif.Lemmas.AmdArr

/-!
# Lists stored in a common array

The lists of the nodes are blocks of one array.
-/

namespace Verif

/-- The cells of `iw` from `p` on hold the list `l`. -/
def Blk (iw : Int → Int) (p : Int) (l : List Int) : Prop :=
  ∀ (k : Nat) (v : Int), l[k]? = some v → iw (p + k) = v

namespace Blk

variable {iw iw' : Int → Int} {p : Int} {l l₁ l₂ : List Int} {a : Int}

theorem nil : Blk iw p [] := by intro k v h; simp at h

theorem cons_iff : Blk iw p (a :: l) ↔ iw p = a ∧ Blk iw (p + 1) l := by
  constructor
  · intro h
    refine ⟨by simpa using h 0 a rfl, fun k v hk => ?_⟩
    have := h (k + 1) v (by simpa using hk)
    rw [← this]
    congr 1
    push_cast; omega
  · rintro ⟨h1, h2⟩ k v hk
    cases k with
    | zero => simp at hk; simpa [hk] using h1
    | succ k =>
      have := h2 k v (by simpa using hk)
      rw [← this]
      congr 1
      push_cast; omega

theorem append_iff : Blk iw p (l₁ ++ l₂) ↔ Blk iw p l₁ ∧ Blk iw (p + l₁.length) l₂ := by
  induction l₁ generalizing p with
  | nil => simp [nil]
  | cons a l ih =>
    rw [List.cons_append, cons_iff, cons_iff, ih, and_assoc]
    have : p + 1 + (l.length : Int) = p + ((a :: l).length : Int) := by
      simp only [List.length_cons]; push_cast; omega
    rw [this]

theorem congr (h : Blk iw p l) (e : ∀ c, p ≤ c → c < p + l.length → iw' c = iw c) :
    Blk iw' p l := by
  intro k v hk
  obtain ⟨h1, _⟩ := List.getElem?_eq_some_iff.mp hk
  rw [e _ (by omega) (by omega)]
  exact h k v hk

theorem get (h : Blk iw p l) {c : Int} (h0 : p ≤ c) (h1 : c < p + l.length) :
    ∃ (hk : (c - p).toNat < l.length), iw c = l[(c - p).toNat] := by
  have hk : (c - p).toNat < l.length := by omega
  refine ⟨hk, ?_⟩
  have := h (c - p).toNat _ (List.getElem?_eq_getElem hk)
  rw [← this]
  congr 1
  omega

theorem mem (h : Blk iw p l) {c : Int} (h0 : p ≤ c) (h1 : c < p + l.length) : iw c ∈ l := by
  obtain ⟨hk, e⟩ := h.get h0 h1
  rw [e]
  exact List.getElem_mem hk

theorem of_mem (h : Blk iw p l) {v : Int} (hv : v ∈ l) :
    ∃ c, p ≤ c ∧ c < p + l.length ∧ iw c = v := by
  obtain ⟨k, hk, rfl⟩ := List.getElem_of_mem hv
  exact ⟨p + k, by omega, by omega, h k _ (List.getElem?_eq_getElem hk)⟩

theorem snoc (h : Blk iw p l) (e : ∀ c, p ≤ c → c < p + l.length → iw' c = iw c)
    (ha : iw' (p + l.length) = a) : Blk iw' p (l ++ [a]) := by
  rw [append_iff]
  exact ⟨h.congr e, by rw [cons_iff]; exact ⟨ha, nil⟩⟩

theorem drop (h : Blk iw p l) (j : Nat) : Blk iw (p + j) (l.drop j) := by
  intro k v hk
  rw [List.getElem?_drop] at hk
  have := h (j + k) v hk
  rw [← this]
  congr 1
  push_cast; omega

theorem ext (h : Blk iw p l₁) (h' : Blk iw p l₂) (hl : l₁.length = l₂.length) : l₁ = l₂ := by
  refine List.ext_getElem hl fun k h1 h2 => ?_
  rw [← h k _ (List.getElem?_eq_getElem h1), ← h' k _ (List.getElem?_eq_getElem h2)]

end Blk

/-- The non-empty lists `C x` of the objects `x` of `O` are stored in disjoint blocks below `top`,
that of `x` at `vp x`. -/
structure Mem (iw vp : Int → Int) (C : Int → List Int) (O : Finset Int) (top : Int) : Prop where
  ne : ∀ x ∈ O, C x ≠ []
  lo : ∀ x ∈ O, 0 ≤ vp x
  hi : ∀ x ∈ O, vp x + (C x).length ≤ top
  blk : ∀ x ∈ O, Blk iw (vp x) (C x)
  disj : ∀ x ∈ O, ∀ y ∈ O, x ≠ y →
    vp x + (C x).length ≤ vp y ∨ vp y + (C y).length ≤ vp x

namespace Mem

variable {iw iw' vp vp' : Int → Int} {C C' : Int → List Int} {O O' : Finset Int} {top top' : Int}

theorem pos (h : Mem iw vp C O top) {x : Int} (hx : x ∈ O) : 0 < (C x).length :=
  List.length_pos_iff.mpr (h.ne x hx)

theorem subset (h : Mem iw vp C O top) (hO : ∀ x ∈ O', x ∈ O) : Mem iw vp C O' top where
  ne := fun x hx => h.ne x (hO x hx)
  lo := fun x hx => h.lo x (hO x hx)
  hi := fun x hx => h.hi x (hO x hx)
  blk := fun x hx => h.blk x (hO x hx)
  disj := fun x hx y hy => h.disj x (hO x hx) y (hO y hy)

theorem congr (h : Mem iw vp C O top) (hp : ∀ x ∈ O, vp' x = vp x) (hC : ∀ x ∈ O, C' x = C x)
    (ht : ∀ x ∈ O, vp x + (C x).length ≤ top')
    (hi : ∀ x ∈ O, ∀ c, vp x ≤ c → c < vp x + (C x).length → iw' c = iw c) :
    Mem iw' vp' C' O top' where
  ne := fun x hx => by rw [hC x hx]; exact h.ne x hx
  lo := fun x hx => by rw [hp x hx]; exact h.lo x hx
  hi := fun x hx => by rw [hp x hx, hC x hx]; exact ht x hx
  blk := fun x hx => by
    rw [hp x hx, hC x hx]
    exact (h.blk x hx).congr (hi x hx)
  disj := fun x hx y hy hne => by
    rw [hp x hx, hC x hx, hp y hy, hC y hy]
    exact h.disj x hx y hy hne

/-- One block is rewritten in place, possibly shorter. -/
theorem rewrite (h : Mem iw vp C O top) {i : Int} (hiO : i ∈ O) {l : List Int} (hne : l ≠ [])
    (hl : l.length ≤ (C i).length) (hb : Blk iw' (vp i) l)
    (ho : ∀ c, c < vp i ∨ vp i + (C i).length ≤ c → iw' c = iw c) :
    Mem iw' vp (fun x => if x = i then l else C x) O top where
  ne := fun x hx => by
    split
    · exact hne
    · exact h.ne x hx
  lo := h.lo
  hi := fun x hx => by
    have := h.hi x hx
    split
    · next e => subst e; omega
    · exact this
  blk := fun x hx => by
    split
    · next e => subst e; exact hb
    · next e =>
      refine (h.blk x hx).congr fun c h0 h1 => ho c ?_
      have := h.disj x hx i hiO e
      omega
  disj := fun x hx y hy hne => by
    have := h.disj x hx y hy hne
    split <;> split
    · next e1 e2 => exact absurd (e1.trans e2.symm) hne
    · next e1 _ => subst e1; omega
    · next _ e2 => subst e2; omega
    · exact this

/-- Total length of the lists. -/
theorem sum_le (h : ∀ x ∈ O, (C' x).length ≤ (C x).length) (hO : O' ⊆ O) :
    ∑ x ∈ O', ((C' x).length : Int) ≤ ∑ x ∈ O, ((C x).length : Int) := by
  refine le_trans (Finset.sum_le_sum (g := fun x => ((C x).length : Int)) fun x hx => ?_) ?_
  · exact_mod_cast h x (hO hx)
  · exact Finset.sum_le_sum_of_subset_of_nonneg hO fun x _ _ => by omega

end Mem

end Verif
