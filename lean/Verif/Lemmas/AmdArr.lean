import Verif.Model.Amd

/-!
# Arrays indexed by machine integers

`b.at i` is the contents of cell `i`; `Arr b len m` says that `b` has `len` cells of which the first
`m` are initialised.
-/

namespace Verif

variable {σ τ : Type}

theorem Int_MAX_pos : 0 ≤ Int_MAX := by decide

theorem ck_ok {v : Int} (h : -Int_MAX - 1 ≤ v ∧ v ≤ Int_MAX) : ck v = .ok v := by
  unfold ck chk
  rw [if_pos h]

/-- An operation whose result is in range. -/
theorem ck_bind {v : Int} {f : Int → M σ} (h : -Int_MAX - 1 ≤ v ∧ v ≤ Int_MAX) : (ck v >>= f) = f v := by
  rw [ck_ok h]
  rfl

theorem FLIP_ck {i : Int} (h : -Int_MAX ≤ i ∧ i ≤ Int_MAX - 1) :
    -Int_MAX - 1 ≤ FLIP i ∧ FLIP i ≤ Int_MAX := by
  unfold FLIP
  have := Int_MAX_pos
  omega

/-- Contents of cell `i` (0 when there is none). -/
def Buf.at (b : Buf Int) (i : Int) : Int := if i < 0 then 0 else ((b[i.toNat]?).join).getD 0

/-- `b` with cell `i` overwritten. -/
def Buf.put (b : Buf Int) (i v : Int) : Buf Int := b.set i.toNat (some v)

/-- `b` has `len` cells, the first `m` of which are initialised. -/
structure Arr (b : Buf Int) (len m : Int) : Prop where
  len : (b.length : Int) = len
  init : ∀ i, 0 ≤ i → i < m → b[i.toNat]? = some (some (b.at i))

@[simp] theorem Buf.length_put (b : Buf Int) (i v : Int) : (b.put i v).length = b.length := by
  simp [Buf.put]

theorem Buf.at_put {b : Buf Int} {i : Int} (h0 : 0 ≤ i) (h1 : i < b.length) (v j : Int) :
    (b.put i v).at j = if j = i then v else b.at j := by
  unfold Buf.at Buf.put
  by_cases hj : j < 0
  · rw [if_pos hj, if_pos hj, if_neg (by omega)]
  · rw [if_neg hj, if_neg hj, List.getElem?_set]
    by_cases e : j = i
    · subst e
      have : j.toNat < b.length := by omega
      simp [this]
    · rw [if_neg (by omega), if_neg e]

theorem Buf.at_put_fun {b : Buf Int} {i : Int} (h0 : 0 ≤ i) (h1 : i < b.length) (v : Int) :
    (b.put i v).at = Function.update b.at i v := by
  funext j
  rw [Buf.at_put h0 h1]
  by_cases e : j = i
  · subst e; simp
  · rw [if_neg e, Function.update_of_ne e]

theorem Buf.at_of_some {b : Buf Int} {i v : Int} (h0 : 0 ≤ i) (h : b[i.toNat]? = some (some v)) :
    b.at i = v := by
  unfold Buf.at
  rw [if_neg (by omega), h]
  rfl

namespace Arr

variable {b : Buf Int} {len m i v : Int}

theorem m_le (h : Arr b len m) (h0 : 0 < m) : m ≤ len := by
  have := h.init (m - 1) (by omega) (by omega)
  obtain ⟨h1, _⟩ := List.getElem?_eq_some_iff.mp this
  have := h.len
  omega

theorem rd (h : Arr b len m) (h0 : 0 ≤ i) (h1 : i < m) : Verif.rd b i = .ok (b.at i) := by
  unfold Verif.rd
  rw [if_neg (by omega), h.init i h0 h1]

theorem wr (h : Arr b len m) (h0 : 0 ≤ i) (h1 : i < len) (v : Int) :
    Verif.wr b i v = .ok (b.put i v) := by
  have := h.len
  rw [wr_ok' h0 (by omega)]
  rfl

theorem at_put (h : Arr b len m) (h0 : 0 ≤ i) (h1 : i < len) (v j : Int) :
    (b.put i v).at j = if j = i then v else b.at j :=
  Buf.at_put h0 (by have := h.len; omega) v j

theorem put (h : Arr b len m) (h0 : 0 ≤ i) (h1 : i < len) (v : Int) : Arr (b.put i v) len m where
  len := by rw [Buf.length_put, h.len]
  init := by
    intro j hj0 hj1
    have hl := h.len
    rw [h.at_put h0 h1]
    unfold Buf.put
    rw [List.getElem?_set]
    by_cases e : j = i
    · subst e
      rw [if_pos rfl, if_pos (by omega), if_pos rfl]
    · rw [if_neg (by omega), if_neg e]
      exact h.init j hj0 hj1

/-- Initialising the next cell. -/
theorem push (h : Arr b len m) (h0 : 0 ≤ m) (h1 : m < len) (v : Int) :
    Arr (b.put m v) len (m + 1) where
  len := by rw [Buf.length_put, h.len]
  init := by
    intro j hj0 hj1
    have hl := h.len
    rw [h.at_put h0 h1]
    unfold Buf.put
    rw [List.getElem?_set]
    by_cases e : j = m
    · subst e
      rw [if_pos rfl, if_pos (by omega), if_pos rfl]
    · rw [if_neg (by omega), if_neg e]
      exact h.init j hj0 (by omega)

theorem mono (h : Arr b len m) {m' : Int} (hm : m' ≤ m) : Arr b len m' where
  len := h.len
  init := fun i h0 h1 => h.init i h0 (by omega)

theorem of_has {n : Nat} {f : Nat → Int} (h : Buf.Has b n f) (hl : b.length = n) :
    Arr b n n where
  len := by rw [hl]
  init := by
    intro i h0 h1
    have := h i.toNat (by omega)
    rw [this, Buf.at_of_some h0 this]

theorem at_has {n : Nat} {f : Nat → Int} (h : Buf.Has b n f) {i : Nat} (hi : i < n) :
    b.at (i : Int) = f i := Buf.at_of_some (by omega) (by simpa using h i hi)

theorem has {n : Nat} (h : Arr b len n) : Buf.Has b n (fun i => b.at (i : Int)) := by
  intro i hi
  have := h.init (i : Int) (by omega) (by omega)
  simpa using this

theorem malloc {n : Int} (h : 0 ≤ n) : Arr (Verif.malloc n) n 0 where
  len := by simp; omega
  init := fun i h0 h1 => by omega

end Arr

/-- Invariant rule for counting loops with integer bounds. -/
theorem forI_int {lo hi : Int} (hle : lo ≤ hi) {s : σ} {f : Int → σ → M σ} (Inv : Int → σ → Prop)
    (h0 : Inv lo s)
    (hstep : ∀ j s, lo ≤ j → j < hi → Inv j s → Spec (f j s) (Inv (j + 1))) :
    Spec (forI lo hi s f) (Inv hi) := by
  unfold forI
  have := forN_spec (k := (hi - lo).toNat) (i := lo) (s := s) (f := f) Inv h0
    (fun j s h1 h2 hi => hstep j s h1 (by omega) hi)
  have e : lo + ((hi - lo).toNat : Int) = hi := by omega
  rwa [e] at this

theorem forDown_int {hi : Int} (hle : 0 ≤ hi) {s : σ} {f : Int → σ → M σ} (Inv : Int → σ → Prop)
    (h0 : Inv hi s)
    (hstep : ∀ j s, 0 ≤ j → j < hi → Inv (j + 1) s → Spec (f j s) (Inv j)) :
    Spec (forDown hi s f) (Inv 0) := by
  obtain ⟨n, rfl⟩ : ∃ n : Nat, hi = n := ⟨hi.toNat, by omega⟩
  exact forDown_spec (fun j s => Inv j s) h0 (fun j s h1 h2 => by
    exact hstep j s (by omega) (by omega) (by push_cast at h2; exact h2))

theorem forBrk_int {lo hi : Int} (hle : lo ≤ hi) {s : σ} {f : Int → σ → M (σ × Bool)}
    (Inv : Int → σ → Prop) (Brk : Int → σ → Prop) (h0 : Inv lo s)
    (hstep : ∀ j s, lo ≤ j → j < hi → Inv j s →
      Spec (f j s) (fun r => if r.2 then Brk j r.1 else Inv (j + 1) r.1)) :
    Spec (forBrk lo hi s f)
      (fun r => if r.2 then (∃ j, lo ≤ j ∧ j < hi ∧ Brk j r.1) else Inv hi r.1) := by
  unfold forBrk
  have := forBrkN_spec (k := (hi - lo).toNat) (i := lo) (s := s) (f := f) Inv Brk h0
    (fun j s h1 h2 hi => hstep j s h1 (by omega) hi)
  have e : lo + ((hi - lo).toNat : Int) = hi := by omega
  rwa [e] at this

end Verif
