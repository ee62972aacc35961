import Verif.Lemmas.AmdInit

/-!
# Path compression in `AMD_2`
-/

namespace Verif

open Finset

variable {n : Int} {Z : Finset Int} {rep : Int → Int} {rk : Int → Nat} {pe : Int → Int}

/-- The assembly tree with its merged variables `Z`: `rep` is the element that a merged variable belongs
to, `-1` for a dense one. -/
structure Par (n : Int) (Z : Finset Int) (rep : Int → Int) (rk : Int → Nat) (pe : Int → Int) : Prop where
  Zr : ∀ x ∈ Z, 0 ≤ x ∧ x < n
  repN : ∀ x, 0 ≤ x → x < n → x ∉ Z → rep x = x
  repZ : ∀ x ∈ Z, rep x = -1 ∨ (0 ≤ rep x ∧ rep x < n ∧ rep x ∉ Z)
  par : ∀ x, 0 ≤ x → x < n → (pe x = EMPTY ∧ (x ∈ Z → rep x = -1)) ∨
    (0 ≤ pe x ∧ pe x < n ∧ rk x < rk (pe x) ∧ (x ∉ Z → pe x ∉ Z) ∧
      (x ∈ Z → rep x = rep (pe x) ∧ rep x ≠ -1))

/-- Number of nodes of a higher rank. -/
def higher (n : Int) (rk : Int → Nat) (j : Int) : Nat := ((Finset.Ico 0 n).filter (fun z => rk j < rk z)).card

theorem higher_lt {j y : Int} (h0 : 0 ≤ y) (h1 : y < n) (h : rk j < rk y) : higher n rk y < higher n rk j := by
  unfold higher
  refine Finset.card_lt_card ?_
  rw [Finset.ssubset_iff_of_subset]
  · exact ⟨y, by simp [h0, h1, h], by simp⟩
  · intro z hz
    rw [Finset.mem_filter] at hz ⊢
    exact ⟨hz.1, by omega⟩

theorem higher_le (j : Int) : higher n rk j ≤ n.toNat := by
  unfold higher
  have := Finset.card_filter_le (Finset.Ico 0 n) (fun z => rk j < rk z)
  rw [Int.card_Ico] at this
  simpa using this

namespace Par

theorem rkrep (h : Par n Z rep rk pe) {x : Int} (hx : x ∈ Z) (hr : rep x ≠ -1) : rk x < rk (rep x) := by
  induction hk : higher n rk x using Nat.strong_induction_on generalizing x with
  | _ m ih =>
    have hxr := h.Zr x hx
    rcases h.par x hxr.1 hxr.2 with ⟨_, h'⟩ | ⟨p0, p1, p2, p3, p4⟩
    · exact absurd (h' hx) hr
    · obtain ⟨e, _⟩ := p4 hx
      by_cases hy : pe x ∈ Z
      · have := ih (higher n rk (pe x)) (hk ▸ higher_lt p0 p1 p2) hy (e ▸ hr) rfl
        rw [e]; omega
      · rw [e, h.repN _ p0 p1 hy]; exact p2

/-- A merged variable with an element has a parent. -/
theorem some (h : Par n Z rep rk pe) {x : Int} (hx : x ∈ Z) (hr : rep x ≠ -1) :
    0 ≤ pe x ∧ pe x < n ∧ rk x < rk (pe x) ∧ rep x = rep (pe x) := by
  have hxr := h.Zr x hx
  rcases h.par x hxr.1 hxr.2 with ⟨_, h'⟩ | ⟨p0, p1, p2, p3, p4⟩
  · exact absurd (h' hx) hr
  · exact ⟨p0, p1, p2, (p4 hx).1⟩

theorem none (h : Par n Z rep rk pe) {x : Int} (hx : x ∈ Z) : pe x = EMPTY ↔ rep x = -1 := by
  have hxr := h.Zr x hx
  rcases h.par x hxr.1 hxr.2 with ⟨e, h'⟩ | ⟨p0, p1, p2, p3, p4⟩
  · exact ⟨fun _ => h' hx, fun _ => e⟩
  · constructor
    · intro e; rw [e] at p0; exact absurd p0 (by decide)
    · intro e; exact absurd e (p4 hx).2

/-- Replacing the parent of a merged variable by its element. -/
theorem set (h : Par n Z rep rk pe) {x : Int} (hx : x ∈ Z) (hr : rep x ≠ -1) {pe' : Int → Int}
    (h1 : pe' x = rep x) (h2 : ∀ y, y ≠ x → pe' y = pe y) : Par n Z rep rk pe' where
  Zr := h.Zr
  repN := h.repN
  repZ := h.repZ
  par := by
    intro y y0 y1
    by_cases e : y = x
    · subst e
      right
      obtain ⟨q0, q1, q2⟩ := (h.repZ y hx).resolve_left hr
      rw [h1]
      exact ⟨q0, q1, h.rkrep hx hr, fun hn => absurd hx hn, fun _ => ⟨(h.repN _ q0 q1 q2).symm, hr⟩⟩
    · rw [h2 y e]
      exact h.par y y0 y1

end Par

set_option maxHeartbeats 400000 in
theorem amd2Path_spec {Nv Pe : Buf Int} (aNv : Arr Nv n n)
    (hnv : ∀ x, 0 ≤ x → x < n → (Nv.at x = 0 ↔ x ∈ Z)) (aP : Arr Pe n n) (h : Par n Z rep rk Pe.at) {i : Int}
    (hi0 : 0 ≤ i) (hi1 : i < n) :
    Spec (amd2Path n Nv i Pe) (fun Q => Arr Q n n ∧ Par n Z rep rk Q.at ∧
      (∀ x, Q.at x = Pe.at x ∨ (x ∈ Z ∧ rep x ≠ -1 ∧ Q.at x = rep x)) ∧
      (i ∈ Z → rep i ≠ -1 → Q.at i = rep i)) := by
  unfold amd2Path
  rw [aNv.rd hi0 hi1, ok_bind]
  split
  · next hv =>
    have hiZ := (hnv i hi0 hi1).mp hv
    rw [aP.rd hi0 hi1, ok_bind]
    split
    · next he =>
      have hr := (h.none hiZ).mp he
      exact Spec.pure ⟨aP, h, fun x => Or.inl rfl, fun _ hc => absurd hr hc⟩
    · next he =>
      have hr : rep i ≠ -1 := fun e => he ((h.none hiZ).mpr e)
      obtain ⟨p0, p1, p2, p3⟩ := h.some hiZ hr
      refine Spec.bind (whileM_spec (fun j : Int => 0 ≤ j ∧ j < n ∧ rep j = rep i) (higher n rk) (fun e => e = rep i)
        ⟨p0, p1, p3.symm⟩ (higher_le _) ?_) ?_
      · rintro j ⟨j0, j1, jr⟩
        rw [aNv.rd j0 j1, ok_bind]
        refine Spec.pure ?_
        by_cases hz : Nv.at j = 0
        · simp only [hz, decide_true, if_true]
          have hjZ := (hnv j j0 j1).mp hz
          obtain ⟨q0, q1, q2, q3⟩ := h.some hjZ (jr ▸ hr)
          rw [aP.rd j0 j1]
          exact Spec.ok ⟨⟨q0, q1, q3 ▸ jr⟩, higher_lt q0 q1 q2⟩
        · simp only [hz, decide_false, Bool.false_eq_true, if_false]
          rw [← jr]
          exact (h.repN j j0 j1 (fun hh => hz ((hnv j j0 j1).mpr hh))).symm
      · rintro e rfl
        refine Spec.bind (whileM_spec (fun r : Int × Buf Int => 0 ≤ r.1 ∧ r.1 < n ∧ rep r.1 = rep i ∧ Arr r.2 n n ∧
            Par n Z rep rk r.2.at ∧
            (∀ x, r.2.at x = Pe.at x ∨ (x ∈ Z ∧ rep x ≠ -1 ∧ r.2.at x = rep x)) ∧
            (r.1 = i ∨ r.2.at i = rep i)) (fun r => higher n rk r.1)
          (fun r => Arr r.2 n n ∧ Par n Z rep rk r.2.at ∧
            (∀ x, r.2.at x = Pe.at x ∨ (x ∈ Z ∧ rep x ≠ -1 ∧ r.2.at x = rep x)) ∧ r.2.at i = rep i)
          ⟨hi0, hi1, rfl, aP, h, fun x => Or.inl rfl, Or.inl rfl⟩ (higher_le _) ?_) ?_
        · rintro ⟨j, Q⟩ ⟨j0, j1, jr, aQ, hQ, hQe, hj⟩
          simp only at j0 j1 jr aQ hQ hQe hj ⊢
          rw [aNv.rd j0 j1, ok_bind]
          refine Spec.pure ?_
          by_cases hz : Nv.at j = 0
          · simp only [hz, decide_true, if_true]
            have hjZ := (hnv j j0 j1).mp hz
            have hjr : rep j ≠ -1 := by rw [jr]; exact hr
            obtain ⟨q0, q1, q2, q3⟩ := hQ.some hjZ hjr
            rw [aQ.rd j0 j1, ok_bind, aQ.wr j0 j1, ok_bind]
            have hput : ∀ x, (Q.put j (rep i)).at x = if x = j then rep i else Q.at x := fun x => aQ.at_put j0 j1 _ x
            refine Spec.pure ⟨⟨q0, q1, q3 ▸ jr, aQ.put j0 j1 _, ?_, ?_, ?_⟩, higher_lt q0 q1 q2⟩
            · refine hQ.set hjZ hjr ?_ ?_
              · rw [hput, if_pos rfl, jr]
              · intro y hy; rw [hput, if_neg hy]
            · intro x
              simp only
              rw [hput]
              split
              · next e => subst e; exact Or.inr ⟨hjZ, hjr, jr.symm⟩
              · exact hQe x
            · right
              simp only
              rw [hput]
              split
              · rfl
              · next e => exact hj.resolve_left (fun e' => e e'.symm)
          · simp only [hz, decide_false, Bool.false_eq_true, if_false]
            refine ⟨aQ, hQ, hQe, hj.resolve_left ?_⟩
            rintro rfl
            exact hz hv
        · rintro ⟨j, Q⟩ ⟨aQ, hQ, hQe, hq⟩
          exact Spec.pure ⟨aQ, hQ, hQe, fun _ _ => hq⟩
  · next hv =>
    exact Spec.pure ⟨aP, h, fun x => Or.inl rfl, fun hz => absurd ((hnv i hi0 hi1).mpr hz) hv⟩

/-- Path compression: every merged variable points to its element. -/
theorem paths_spec {Nv Pe : Buf Int} (hn : 0 ≤ n) (aNv : Arr Nv n n)
    (hnv : ∀ x, 0 ≤ x → x < n → (Nv.at x = 0 ↔ x ∈ Z)) (aP : Arr Pe n n) (h : Par n Z rep rk Pe.at) :
    Spec (forI 0 n Pe (amd2Path n Nv)) (fun Q => Arr Q n n ∧ Par n Z rep rk Q.at ∧
      (∀ x ∈ Z, Q.at x = rep x) ∧ ∀ x, x ∉ Z → Q.at x = Pe.at x) := by
  refine (forI_int hn (fun k (Q : Buf Int) => Arr Q n n ∧ Par n Z rep rk Q.at ∧
    (∀ x ∈ Z, x < k → rep x ≠ -1 → Q.at x = rep x) ∧ ∀ x, x ∉ Z → Q.at x = Pe.at x) ?_ ?_).mono ?_
  · exact ⟨aP, h, fun x hx hx' => absurd hx' (by have := h.Zr x hx; omega), fun _ _ => rfl⟩
  · rintro k Q k0 k1 ⟨aQ, hQ, hq, hq'⟩
    refine (amd2Path_spec aNv hnv aQ hQ k0 k1).mono ?_
    rintro R ⟨aR, hR, r1, r2⟩
    refine ⟨aR, hR, ?_, ?_⟩
    · intro x hx hxk hxr
      by_cases e : x = k
      · subst e; exact r2 hx hxr
      · rcases r1 x with h' | h'
        · rw [h']; exact hq x hx (by omega) hxr
        · exact h'.2.2
    · intro x hx
      rcases r1 x with h' | h'
      · rw [h']; exact hq' x hx
      · exact absurd h'.1 hx
  · rintro Q ⟨aQ, hQ, hq, hq'⟩
    refine ⟨aQ, hQ, ?_, hq'⟩
    intro x hx
    by_cases hr : rep x = -1
    · rw [(hQ.none hx).mpr hr, hr]; rfl
    · exact hq x hx (hQ.Zr x hx).2 hr

end Verif
