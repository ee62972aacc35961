import Verif.Lemmas.AmdScan
import Verif.Lemmas.AmdDetect

/-!
# Restoring the degree lists and finishing the element in `AMD_2`
-/

namespace Verif

variable {n iwlen : Int} {S live : Finset Int}

/-- State of the last pass over the pivot element, after its variables `P`. -/
structure Rest (n iwlen pme1 nleft degme : Int) (S live : Finset Int) (s0 : Amd2) (P : List Int) (p : Int)
    (s : Amd2) : Prop where
  eq : s = { s0 with Nv := s.Nv, Last := s.Last, Next := s.Next, Head := s.Head, mindeg := s.mindeg
                     Degree := s.Degree, Iw := s.Iw }
  aI : Arr s.Iw iwlen s0.pfree
  aNv : Arr s.Nv n n
  aN : Arr s.Next n n
  aT : Arr s.Last n n
  aH : Arr s.Head n n
  aD : Arr s.Degree n n
  pp : p = pme1 + (P.filter (fun x => x ∈ live)).length
  blk : Blk s.Iw.at pme1 (P.filter (fun x => x ∈ live))
  iw : ∀ c, c < pme1 ∨ p ≤ c → s.Iw.at c = s0.Iw.at c
  nv : ∀ x, s.Nv.at x = if x ∈ P ∧ x ∈ live then -(s0.Nv.at x) else s0.Nv.at x
  deg : ∀ x, ¬ (x ∈ P ∧ x ∈ live) → s.Degree.at x = s0.Degree.at x
  dl : ∃ D, DegL n s.Head.at s.Next.at s.Last.at s.Degree.at
    (S ∪ (P.filter (fun x => x ∈ live)).toFinset) (fun _ => EMPTY) D
  md0 : 0 ≤ s.mindeg
  md1 : s.mindeg ≤ s0.mindeg
  md2 : ∀ x, x ∈ P → x ∈ live → s.mindeg ≤ s.Degree.at x
  degL : ∀ x, x ∈ P → x ∈ live →
    s.Degree.at x = min (s0.Degree.at x + degme - -(s0.Nv.at x)) (nleft - -(s0.Nv.at x))

theorem restoreStep_spec {s0 s : Amd2} {pme1 nleft degme p0 i q : Int} {P : List Int}
    (hBig : 0 ≤ n ∧ 0 ≤ iwlen ∧ 3 * (n + iwlen) + 10 ≤ Int_MAX) (hdm : degme ≤ n)
    (hir : 0 ≤ i ∧ i < n) (hiP : i ∉ P) (hiS : i ∉ S)
    (hl : i ∈ live → s0.Nv.at i < 0 ∧ 0 ≤ s0.Degree.at i ∧ s0.Degree.at i ≤ n ∧
      -(s0.Nv.at i) ≤ degme ∧
      -(s0.Nv.at i) ≤ nleft)
    (hnl : i ∉ live → s0.Nv.at i = 0) (hnn : nleft ≤ n)
    (hp : 0 ≤ pme1) (hP : ((P.filter (fun x => x ∈ live)).length : Int) ≤ q - pme1)
    (hq : q < s0.pfree) (hqi : s0.Iw.at q = i)
    (h : Rest n iwlen pme1 nleft degme S live s0 P p0 s) :
    Spec (amd2Restore nleft degme q (p0, s)) (fun r =>
      Rest n iwlen pme1 nleft degme S live s0 (P ++ [i]) r.1 r.2) := by
  have epf := congrArg Amd2.pfree h.eq
  simp only at epf
  have hp0 := h.pp
  have eq1 : s.Iw.at q = i := by rw [h.iw q (by omega), hqi]
  unfold amd2Restore
  simp only
  rw [h.aI.rd (by omega) hq, ok_bind, eq1, h.aNv.rd hir.1 hir.2, ok_bind]
  have env : s.Nv.at i = s0.Nv.at i := by rw [h.nv, if_neg (fun h' => hiP h'.1)]
  have ed : s.Degree.at i = s0.Degree.at i := h.deg i (fun h' => hiP h'.1)
  have hmemP : ∀ x, x ∈ P ++ [i] ↔ x ∈ P ∨ x = i := by
    intro x; rw [List.mem_append, List.mem_singleton]
  by_cases hil : i ∈ live
  · obtain ⟨h1, h2, h2', h3, h4⟩ := hl hil
    rw [ck_bind (by omega), if_pos (by omega), h.aNv.wr hir.1 hir.2, ok_bind, h.aD.rd hir.1 hir.2, ok_bind, env,
      ed, ck_bind (by omega), ck_bind (by omega), ck_bind (by omega)]
    set d := min (s0.Degree.at i + degme - -(s0.Nv.at i)) (nleft - -(s0.Nv.at i)) with hd
    have hd0 : 0 ≤ d := by omega
    have hd1 : d < n := by omega
    obtain ⟨D, hD⟩ := h.dl
    have hiS' : i ∉ S ∪ (P.filter (fun x => x ∈ live)).toFinset := by simp [hiS, hiP]
    rw [h.aH.rd hd0 hd1, ok_bind]
    have hhd : s.Head.at d = EMPTY ∨ (s.Head.at d ∈ S ∪ (P.filter (fun x => x ∈ live)).toFinset ∧
        0 ≤ s.Head.at d ∧ s.Head.at d < n) := by
      cases hDd : D d with
      | nil => left; rw [hD.empty d hd0 hd1 hDd]; rfl
      | cons f t =>
        right
        have := hD.head_cons hd0 hd1 hDd
        rw [this.1]; exact ⟨this.2.2.1, this.2.2.2.1, this.2.2.2.2.1⟩
    obtain ⟨Lt, hw, aLt, elt⟩ : ∃ Lt, (if s.Head.at d ≠ EMPTY then wr s.Last (s.Head.at d) i
        else pure s.Last) = .ok Lt ∧ Arr Lt n n ∧
        (∀ x ∈ S ∪ (P.filter (fun x => x ∈ live)).toFinset,
          Lt.at x = if x = s.Head.at d then i else s.Last.at x) := by
      by_cases e : s.Head.at d = EMPTY
      · refine ⟨s.Last, by rw [if_neg (by simpa using e)]; rfl, h.aT, ?_⟩
        intro x hx
        rw [if_neg]
        rw [e]
        have := (hD.rng x hx).1
        unfold EMPTY
        omega
      · obtain ⟨c, a, b⟩ := hhd.resolve_left e
        exact ⟨_, by rw [if_pos e, h.aT.wr a b], h.aT.put a b _, fun x _ => h.aT.at_put a b _ x⟩
    have hmI := h.aI.m_le (by omega)
    rw [hw, ok_bind, h.aN.wr hir.1 hir.2, ok_bind, aLt.wr hir.1 hir.2, ok_bind, h.aH.wr hd0 hd1, ok_bind,
      h.aD.wr hir.1 hir.2, ok_bind, h.aI.wr (by omega) (by omega), ok_bind, ck_bind (by omega)]
    have ef : (P ++ [i]).filter (fun x => decide (x ∈ live)) = P.filter (fun x => decide (x ∈ live)) ++ [i] := by
      rw [List.filter_append]; simp [hil]
    have eI : ∀ c, (s.Iw.put p0 i).at c = if c = p0 then i else s.Iw.at c :=
      fun c => h.aI.at_put (by omega) (by omega) _ _
    have eD : ∀ x, (s.Degree.put i d).at x = if x = i then d else s.Degree.at x :=
      fun x => h.aD.at_put hir.1 hir.2 _ _
    refine Spec.pure ⟨?_, h.aI.put (by omega) (by omega) _, h.aNv.put hir.1 hir.2 _, h.aN.put hir.1 hir.2 _,
      aLt.put hir.1 hir.2 _, h.aH.put hd0 hd1 _, h.aD.put hir.1 hir.2 _, ?_, ?_, ?_, ?_, ?_, ?_, ?_, ?_, ?_, ?_⟩
    · have := h.eq
      simp only
      rw [this]
    · rw [ef, hp0]; simp; omega
    · simp only
      rw [ef]
      refine h.blk.snoc (fun c c0 c1 => ?_) ?_
      · rw [eI, if_neg (by omega)]
      · rw [eI, if_pos (by omega)]
    · intro c hc
      simp only at hc ⊢
      rw [eI, if_neg (by omega)]
      exact h.iw c (by omega)
    · intro x
      simp only
      rw [h.aNv.at_put hir.1 hir.2, h.nv]
      by_cases hx : x = i
      · subst hx; simp [hil]
      · simp [hx]
    · intro x hx
      simp only
      have hne : x ≠ i := fun e => hx ⟨(hmemP x).mpr (Or.inr e), e ▸ hil⟩
      rw [eD, if_neg hne]
      exact h.deg x (fun h' => hx ⟨(hmemP x).mpr (Or.inl h'.1), h'.2⟩)
    · simp only
      have e1 : S ∪ ((P ++ [i]).filter (fun x => decide (x ∈ live))).toFinset
          = insert i (S ∪ (P.filter (fun x => decide (x ∈ live))).toFinset) := by
        rw [ef]; ext x; simp only [List.toFinset_append, Finset.mem_union, Finset.mem_insert,
          List.mem_toFinset, List.mem_singleton]; tauto
      rw [e1]
      refine ⟨_, hD.insert hir.1 hir.2 hd0 hd1 hiS' rfl (fun x => h.aH.at_put hd0 hd1 _ _)
        (fun x => h.aN.at_put hir.1 hir.2 _ _) ?_ ?_ ?_ ?_⟩
      · intro x hx
        rw [aLt.at_put hir.1 hir.2, if_neg (fun e : x = i => hiS' (e ▸ hx))]
        exact elt x hx
      · rw [aLt.at_put hir.1 hir.2, if_pos rfl]
      · intro x hx
        rw [eD, if_neg (fun e : x = i => hiS' (e ▸ hx))]
      · rw [eD, if_pos rfl]
    · have := h.md0
      simp only; omega
    · have := h.md1
      simp only; omega
    · intro x hx hxl
      simp only
      rw [eD]
      split
      · omega
      · next hne =>
        have := h.md2 x (((hmemP x).mp hx).resolve_right hne) hxl
        omega
    · intro x hx hxl
      simp only
      rw [eD]
      split
      · next e => rw [e]
      · next hne => exact h.degL x (((hmemP x).mp hx).resolve_right hne) hxl
  · have := hnl hil
    rw [ck_bind (by omega), if_neg (by omega)]
    have ef : (P ++ [i]).filter (fun x => decide (x ∈ live)) = P.filter (fun x => decide (x ∈ live)) := by
      rw [List.filter_append]; simp [hil]
    have hiff : ∀ x, x ∈ P ++ [i] ∧ x ∈ live ↔ x ∈ P ∧ x ∈ live := by
      intro x
      rw [hmemP]
      constructor
      · rintro ⟨h' | rfl, h2⟩
        · exact ⟨h', h2⟩
        · exact absurd h2 hil
      · rintro ⟨h', h2⟩; exact ⟨Or.inl h', h2⟩
    refine Spec.pure ⟨h.eq, h.aI, h.aNv, h.aN, h.aT, h.aH, h.aD, by rw [ef]; exact h.pp, by rw [ef]; exact h.blk,
      h.iw, ?_, ?_, by rw [ef]; exact h.dl, h.md0, h.md1, ?_, ?_⟩
    · intro x
      simp only [hiff]
      exact h.nv x
    · intro x hx
      exact h.deg x (by rwa [hiff] at hx)
    · intro x hx hxl
      obtain ⟨q1, q2⟩ := (hiff x).mp ⟨hx, hxl⟩
      exact h.md2 x q1 q2
    · intro x hx hxl
      obtain ⟨q1, q2⟩ := (hiff x).mp ⟨hx, hxl⟩
      exact h.degL x q1 q2

theorem restore_spec {s0 : Amd2} {pme1 nleft degme : Int} {M : List Int}
    (hBig : 0 ≤ n ∧ 0 ≤ iwlen ∧ 3 * (n + iwlen) + 10 ≤ Int_MAX) (hdm : degme ≤ n)
    (hMr : ∀ i ∈ M, 0 ≤ i ∧ i < n) (hnd : M.Nodup) (hMS : ∀ i ∈ M, i ∉ S)
    (hl : ∀ i ∈ M, i ∈ live → s0.Nv.at i < 0 ∧ 0 ≤ s0.Degree.at i ∧ s0.Degree.at i ≤ n ∧
      -(s0.Nv.at i) ≤ degme ∧
      -(s0.Nv.at i) ≤ nleft)
    (hnl : ∀ i ∈ M, i ∉ live → s0.Nv.at i = 0) (hnn : nleft ≤ n)
    (hp : 0 ≤ pme1) (hpf : pme1 + M.length ≤ s0.pfree) (hb : Blk s0.Iw.at pme1 M)
    (aI : Arr s0.Iw iwlen s0.pfree) (aNv : Arr s0.Nv n n) (aN : Arr s0.Next n n) (aT : Arr s0.Last n n)
    (aH : Arr s0.Head n n) (aD : Arr s0.Degree n n) (hmd : 0 ≤ s0.mindeg)
    (hdl : ∃ D, DegL n s0.Head.at s0.Next.at s0.Last.at s0.Degree.at S (fun _ => EMPTY) D) :
    Spec (forI pme1 (pme1 + M.length) (pme1, s0) (amd2Restore nleft degme)) (fun r =>
      Rest n iwlen pme1 nleft degme S live s0 M r.1 r.2) := by
  refine (forI_int (by omega) (fun j (r : Int × Amd2) => ∃ k : Nat, j = pme1 + k ∧ k ≤ M.length ∧
    Rest n iwlen pme1 nleft degme S live s0 (M.take k) r.1 r.2) ?_ ?_).mono ?_
  · refine ⟨0, by simp, by simp, ?_⟩
    refine ⟨rfl, aI, aNv, aN, aT, aH, aD, by simp, ?_, fun _ _ => rfl, ?_, fun _ _ => rfl, ?_, hmd, le_rfl, ?_, ?_⟩
    · simp only [List.take_zero, List.filter_nil]; exact Blk.nil
    · intro x; simp
    · simpa using hdl
    · intro x hx; simp at hx
    · intro x hx; simp at hx
  · rintro j ⟨p0, s⟩ hj0 hj1 ⟨k, rfl, hk, hs⟩
    simp only at hs
    have hkl : k < M.length := by omega
    have hmem : M[k] ∈ M := List.getElem_mem hkl
    have hfl : ((M.take k).filter (fun x => decide (x ∈ live))).length ≤ k :=
      (List.length_filter_le _ _).trans (by simp)
    refine (restoreStep_spec hBig hdm (hMr _ hmem) (get_notin_take hnd hkl) (hMS _ hmem) (hl _ hmem) (hnl _ hmem) hnn hp
      (by omega) (by omega) (hb k _ (List.getElem?_eq_getElem hkl)) hs).mono ?_
    intro r hr
    refine ⟨k + 1, by push_cast; omega, hkl, ?_⟩
    rw [take_succ_get hkl]
    exact hr
  · rintro r ⟨k, hk1, hk2, hs⟩
    have : k = M.length := by omega
    subst this
    rw [List.take_length] at hs
    exact hs

theorem amd2Finish_spec {s : Amd2} {me nvpiv pme1 elenme p : Int}
    (hck : 0 ≤ pme1 ∧ pme1 ≤ p ∧ p ≤ Int_MAX) (hme : 0 ≤ me ∧ me < n)
    (aP : Arr s.Pe n n) (aNv : Arr s.Nv n n) (aL : Arr s.Len n n) (aW : Arr s.W n n) :
    Spec (amd2Finish me nvpiv pme1 elenme p s) (fun s' => ∃ Nv Len Pe W,
      s' = { s with Nv := Nv, Len := Len, Pe := Pe, W := W
                    pfree := if elenme ≠ 0 then p else s.pfree } ∧
      Arr Nv n n ∧ Arr Len n n ∧ Arr Pe n n ∧ Arr W n n ∧
      (∀ x, Nv.at x = if x = me then nvpiv else s.Nv.at x) ∧
      (∀ x, Len.at x = if x = me then p - pme1 else s.Len.at x) ∧
      (∀ x, Pe.at x = if x = me ∧ p = pme1 then EMPTY else s.Pe.at x) ∧
      (∀ x, W.at x = if x = me ∧ p = pme1 then 0 else s.W.at x)) := by
  unfold amd2Finish
  have aL' := aL.put hme.1 hme.2 (p - pme1)
  have eL : ∀ x, (s.Len.put me (p - pme1)).at x = if x = me then p - pme1 else s.Len.at x :=
    fun x => aL.at_put hme.1 hme.2 _ _
  rw [aNv.wr hme.1 hme.2, ok_bind, ck_bind (by omega), aL.wr hme.1 hme.2, ok_bind, aL'.rd hme.1 hme.2, ok_bind, eL, if_pos rfl]
  by_cases hz : p - pme1 = 0
  · simp only
    rw [if_pos hz, aP.wr hme.1 hme.2, ok_bind, aW.wr hme.1 hme.2, ok_bind, pure_eq_ok, ok_bind]
    refine Spec.pure ⟨s.Nv.put me nvpiv, s.Len.put me (p - pme1), s.Pe.put me EMPTY, s.W.put me 0, ?_,
      aNv.put hme.1 hme.2 _, aL', aP.put hme.1 hme.2 _, aW.put hme.1 hme.2 _,
      fun x => aNv.at_put hme.1 hme.2 _ _, eL, ?_, ?_⟩
    · split <;> rfl
    · intro x
      rw [aP.at_put hme.1 hme.2]
      have : p = pme1 := by omega
      simp [this]
    · intro x
      rw [aW.at_put hme.1 hme.2]
      have : p = pme1 := by omega
      simp [this]
  · simp only
    rw [if_neg hz, pure_eq_ok, ok_bind]
    have : ¬ p = pme1 := by omega
    refine Spec.pure ⟨s.Nv.put me nvpiv, s.Len.put me (p - pme1), s.Pe, s.W, ?_,
      aNv.put hme.1 hme.2 _, aL', aP, aW, fun x => aNv.at_put hme.1 hme.2 _ _, eL, ?_, ?_⟩
    · split <;> rfl
    · intro x; simp [this]
    · intro x; simp [this]

end Verif
