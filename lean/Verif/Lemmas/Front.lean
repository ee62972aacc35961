import Verif.Model.Front
import Verif.Lemmas.Post
import Verif.Lemmas.Loops
import Verif.Lemmas.Vec

/-! # Copying loops and option lookup of the entry points -/

set_option linter.unusedSectionVars false

namespace Verif

variable {K : Type} [Zero K] [One K] [Add K] [Sub K] [Mul K] [Div K] [Neg K] [Scalar K]

theorem forN_reads {src : Buf K} {dst : Buf K} : ∀ (k : Nat) (i : Nat) (s : Buf K),
    forN k (i : Int) s (fun i d => do
      let v ← rd src i
      wr d i v) = .ok dst → ∀ j, j < k → ∃ v, rd src ((i + j : Nat) : Int) = .ok v := by
  intro k
  induction k with
  | zero => intro i s _ j hj; omega
  | succ k ih =>
    intro i s h j hj
    simp only [forN] at h
    cases hr : rd src (i : Int) with
    | error e => rw [hr] at h; cases h
    | ok v =>
      rw [hr, ok_bind] at h
      cases hw : wr s (i : Int) v with
      | error e => rw [hw] at h; cases h
      | ok s' =>
        rw [hw, ok_bind] at h
        cases j with
        | zero => exact ⟨v, by simpa using hr⟩
        | succ j =>
          have h' := ih (i + 1) s' (by rw [← h]; push_cast; rfl) j (by omega)
          obtain ⟨v', hv'⟩ := h'
          exact ⟨v', by rw [← hv']; congr 1; omega⟩

theorem has_of_rd {src : Buf K} {n : Nat} (h : ∀ j, j < n → ∃ v, rd src (j : Int) = .ok v) :
    ∃ f, Buf.Has src n f := by
  classical
  refine ⟨fun j => if hj : j < n then (h j hj).choose else 0, ?_⟩
  intro j hj
  have := (h j hj).choose_spec
  simp only [hj, dif_pos]
  generalize (h j hj).choose = v at this
  unfold rd at this
  rw [if_neg (by omega)] at this
  simp only [Int.toNat_natCast] at this
  split at this
  · cases this
  · cases this
  · next e => cases this; exact e

theorem forI_copy_eq {src : Buf K} {n : Nat} {f : Nat → K} (hs : Buf.Has src n f) :
    forI 0 (n : Int) (malloc n : Buf K) (fun i d => do
      let v ← rd src i
      wr d i v) = .ok (Buf.ofFn n f) := by
  obtain ⟨d, e, h1, h2⟩ := forI_fill (b := (malloc n : Buf K)) (n := n) (by simp [malloc]) f
    (f := fun i d => do
      let v ← rd src i
      wr d i v) (by
      intro j b' hj hl _ _
      rw [hs.rd hj, ok_bind])
  rw [e]
  congr 1
  refine List.ext_getElem? fun i => ?_
  by_cases hi : i < n
  · rw [h2.1 i hi, Buf.has_ofFn n f i hi]
  · rw [List.getElem?_eq_none (by rw [h1]; simp [malloc]; omega),
      List.getElem?_eq_none (by rw [Buf.length_ofFn]; omega)]

/-- A copying loop succeeds exactly when the numbers are there; it then returns them. -/
theorem pyCopy_iff {src dst : Buf K} {n : Nat} :
    pyCopy src n = .ok dst ↔ ∃ f, Buf.Has src n f ∧ dst = Buf.ofFn n f := by
  constructor
  · intro h
    obtain ⟨f, hf⟩ := has_of_rd (src := src) (n := n) (fun j hj => by
      have := forN_reads (src := src) (dst := dst) n 0 (malloc n) (by
        unfold pyCopy forI at h
        simpa using h) j hj
      simpa using this)
    refine ⟨f, hf, ?_⟩
    have e := forI_copy_eq hf
    unfold pyCopy at h
    rw [e] at h
    cases h
    rfl
  · rintro ⟨f, hf, rfl⟩
    exact forI_copy_eq hf

/-- In a dictionary every key occurs once. -/
theorem pyGet_iff {o : List (String × PyVal K)} (hd : (o.map Prod.fst).Nodup) {k : String}
    {v : PyVal K} : pyGet o k = some v ↔ (k, v) ∈ o := by
  induction o with
  | nil => simp [pyGet]
  | cons e o ih =>
    obtain ⟨k', v'⟩ := e
    simp only [List.map_cons, List.nodup_cons] at hd
    have ih' := ih hd.2
    unfold pyGet at ih' ⊢
    rw [List.find?_cons]
    by_cases hk : k' = k
    · subst hk
      simp only [decide_true, Option.map_some, Option.some.injEq, List.mem_cons, Prod.mk.injEq,
        true_and]
      constructor
      · intro h; exact Or.inl h.symm
      · rintro (h | h)
        · exact h.symm
        · exact absurd (List.mem_map_of_mem (f := Prod.fst) h) hd.1
    · simp only [hk, decide_false, List.mem_cons, Prod.mk.injEq]
      rw [ih']
      constructor
      · exact Or.inr
      · rintro (⟨h, _⟩ | h)
        · exact absurd h.symm hk
        · exact h

theorem pyGet_none {o : List (String × PyVal K)} (hd : (o.map Prod.fst).Nodup) {k : String} :
    pyGet o k = none ↔ ∀ v, (k, v) ∉ o := by
  constructor
  · intro h v hv
    rw [(pyGet_iff hd).mpr hv] at h
    cases h
  · intro h
    cases hg : pyGet o k with
    | none => rfl
    | some v => exact absurd ((pyGet_iff hd).mp hg) (h v)

end Verif
