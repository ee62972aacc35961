import Verif.Basic

/-! # Common loop shapes -/

namespace Verif

variable {α β σ τ : Type}

theorem sub_cast {j off : Nat} (h : off ≤ j) : ((j : Int) - (off : Int)) = ((j - off : Nat) : Int) := by
  omega

/-- A loop that writes cell `j - off` in iteration `j`, `lo ≤ j < hi`. -/
theorem forI_write {lo hi off : Nat} (hle : lo ≤ hi) (hoff : off ≤ lo) {b : Buf α}
    (hlen : hi - off ≤ b.length) {f : Int → Buf α → M (Buf α)} (v : Nat → α)
    (hf : ∀ (j : Nat) (b' : Buf α), lo ≤ j → j < hi → b'.length = b.length →
      (∀ i, lo - off ≤ i → i < j - off → b'[i]? = some (some (v (i + off)))) →
      (∀ i, i < lo - off ∨ j - off ≤ i → b'[i]? = b[i]?) →
      f (j : Int) b' = wr b' ((j - off : Nat) : Int) (v j)) :
    Spec (forI (lo : Int) (hi : Int) b f) (fun (b' : Buf α) => b'.length = b.length ∧
      (∀ i, lo - off ≤ i → i < hi - off → b'[i]? = some (some (v (i + off)))) ∧
      (∀ i, i < lo - off ∨ hi - off ≤ i → b'[i]? = b[i]?)) := by
  refine forI_spec hle (fun j (b' : Buf α) => b'.length = b.length ∧
      (∀ i, lo - off ≤ i → i < j - off → b'[i]? = some (some (v (i + off)))) ∧
      (∀ i, i < lo - off ∨ j - off ≤ i → b'[i]? = b[i]?)) ?_ ?_
  · exact ⟨rfl, fun i h1 h2 => by omega, fun i _ => rfl⟩
  · rintro j b' h1 h2 ⟨hl, hin, hout⟩
    rw [hf j b' h1 h2 hl hin hout, wr_ok (by omega)]
    refine Spec.ok ⟨by simp [hl], ?_, ?_⟩
    · intro i hi1 hi2
      rw [List.getElem?_set]
      by_cases e : j - off = i
      · subst e
        have e2 : j - off + off = j := by omega
        simp [e2, show j - off < b'.length by omega]
      · rw [if_neg e]
        exact hin i hi1 (by omega)
    · intro i hi'
      rw [List.getElem?_set, if_neg (by omega)]
      exact hout i (by omega)

/-- A loop that initialises (or overwrites) cells `0 … n-1` in order. -/
theorem forI_fill {n : Nat} {b : Buf α} (hlen : n ≤ b.length) {f : Int → Buf α → M (Buf α)}
    (v : Nat → α)
    (hf : ∀ (j : Nat) (b' : Buf α), j < n → b'.length = b.length → Buf.Has b' j v →
      (∀ i, j ≤ i → b'[i]? = b[i]?) → f (j : Int) b' = wr b' (j : Int) (v j)) :
    Spec (forI 0 (n : Int) b f) (fun (b' : Buf α) => b'.length = b.length ∧ Buf.Has b' n v ∧
      (∀ i, n ≤ i → b'[i]? = b[i]?)) := by
  have := forI_write (lo := 0) (hi := n) (off := 0) (Nat.zero_le _) le_rfl (b := b) (by simpa using hlen)
    (f := f) v (by
      intro j b' h1 h2 h3 h4 h5
      exact hf j b' h2 h3 (fun i hi => by simpa using h4 i (by omega) (by omega))
        (fun i hi => h5 i (by omega)))
  refine this.mono ?_
  rintro b' ⟨h1, h2, h3⟩
  exact ⟨h1, fun i hi => by simpa using h2 i (by omega) (by omega), fun i hi => h3 i (by omega)⟩

/-- A loop accumulating a value. -/
theorem forI_acc {lo hi : Nat} (hle : lo ≤ hi) {s : σ} {f : Int → σ → M σ} (g : Nat → σ → σ)
    (hf : ∀ (j : Nat) s, lo ≤ j → j < hi → f (j : Int) s = .ok (g j s)) :
    forI (lo : Int) (hi : Int) s f = .ok (foldI lo hi s g) := by
  have := forI_refine hle (t := s) (s := s) (f := f) (g := g) (fun _ t s => t = s) rfl (by
    rintro j t _ h1 h2 rfl
    rw [hf j t h1 h2]
    exact Spec.ok rfl)
  obtain ⟨a, h, rfl⟩ := this
  exact h

theorem forI_acc0 {hi : Nat} {s : σ} {f : Int → σ → M σ} (g : Nat → σ → σ)
    (hf : ∀ (j : Nat) s, j < hi → f (j : Int) s = .ok (g j s)) :
    forI 0 (hi : Int) s f = .ok (foldI 0 hi s g) :=
  forI_acc (lo := 0) (Nat.zero_le hi) g (fun j s _ h => hf j s h)

/-- Writing more cells than the array has fails. -/
theorem forI_write_oob {b : Buf α} {n : Nat} (hb : b.length = n) {N : Nat} (v : Int → α)
    (h : n < N) : forI 0 (N : Int) b (fun i b => wr b i (v i)) = .error .oob := by
  have gen : ∀ (k i : Nat) (b : Buf α), b.length = n → i ≤ n → n < i + k →
      forN k (i : Int) b (fun i b => wr b i (v i)) = .error .oob := by
    intro k
    induction k with
    | zero => intro i b _ h1 h2; omega
    | succ k ih =>
      intro i b hb h1 h2
      simp only [forN]
      by_cases hi : i = n
      · have : wr b (i : Int) (v i) = .error .oob := by
          unfold wr
          rw [if_neg (by omega), if_neg (by simp only [Int.toNat_natCast]; omega)]
        rw [this]; rfl
      · have : wr b (i : Int) (v i) = .ok (b.set i (some (v i))) := by
          unfold wr
          rw [if_neg (by omega), if_pos (by simp only [Int.toNat_natCast]; omega)]
          rfl
        rw [this, ok_bind]
        have := ih (i + 1) (b.set i (some (v i))) (by simpa using hb) (by omega) (by omega)
        push_cast at this
        exact this
  have := gen N 0 b hb (Nat.zero_le _) (by omega)
  unfold forI
  simpa using this

end Verif
