import Verif.Lemmas.AmdHash
import Verif.Lemmas.AmdMem

/-!
# Detection of indistinguishable variables in `AMD_2`
-/

namespace Verif

variable {n iwlen me : Int} {S T0 : Finset Int} {C : Int → List Int} {s1 : Amd2}

/-- Rule for a `while` loop with a decreasing bound. -/
theorem whileM_idx {σ : Type} {c : σ → M Bool} {f : σ → M σ} (Inv : Nat → σ → Prop) {Q : σ → Prop}
    (hstep : ∀ k s, Inv k s → Spec (c s) (fun b => if b = true
      then Spec (f s) (fun s' => ∃ k', k' < k ∧ Inv k' s') else Q s)) :
    ∀ {k fuel : Nat} {s : σ}, Inv k s → k ≤ fuel → Spec (whileM fuel c f s) Q := by
  intro k
  induction k using Nat.strong_induction_on with
  | _ k ih =>
    intro fuel s hs hk
    obtain ⟨b, hb, hq⟩ := hstep k s hs
    cases b with
    | false =>
      unfold whileM
      rw [hb]
      simpa [Spec] using hq
    | true =>
      simp only [if_true] at hq
      obtain ⟨s', hs', k', hk', hi⟩ := hq
      cases fuel with
      | zero => omega
      | succ fuel =>
        unfold whileM
        rw [hb]
        simp only [ok_bind, if_true]
        rw [hs', ok_bind]
        exact ih k' hk' hi (by omega)

/-- The lists that detection looks at: variable `x` of `T0` has the list `me :: C x`. -/
structure DetCtx (n iwlen me : Int) (S T0 : Finset Int) (C : Int → List Int) (s1 : Amd2) : Prop where
  pos : 0 < n
  rng : ∀ x ∈ T0, 0 ≤ x ∧ x < n
  aI : Arr s1.Iw iwlen s1.pfree
  aL : Arr s1.Len n n
  blk : ∀ x ∈ T0, Blk s1.Iw.at (s1.Pe.at x) (me :: C x)
  lo : ∀ x ∈ T0, 0 ≤ s1.Pe.at x
  hi : ∀ x ∈ T0, s1.Pe.at x + (C x).length + 1 ≤ s1.pfree
  len : ∀ x ∈ T0, s1.Len.at x = (C x).length + 1
  nodup : ∀ x ∈ T0, (C x).Nodup
  cr : ∀ x ∈ T0, ∀ y ∈ C x, 0 ≤ y ∧ y < n ∧ s1.W.at y ≠ 0
  disj : ∀ x ∈ S, x ∉ T0

/-- State of detection: `live` are the variables of `T0` that are not merged yet, `T` those still in a
hash bucket, `I` any property that survives merging. -/
structure Det (n : Int) (S T0 : Finset Int) (s1 : Amd2)
    (I : Finset Int → (Int → Int) → (Int → Int) → (Int → Int) → Prop) (T live : Finset Int) (s : Amd2) :
    Prop where
  aP : Arr s.Pe n n
  aNv : Arr s.Nv n n
  aE : Arr s.Elen n n
  aN : Arr s.Next n n
  aT : Arr s.Last n n
  aH : Arr s.Head n n
  aW : Arr s.W n n
  iw : s.Iw = s1.Iw
  len : s.Len = s1.Len
  degree : s.Degree = s1.Degree
  pfree : s.pfree = s1.pfree
  nel : s.nel = s1.nel
  mindeg : s.mindeg = s1.mindeg
  lemax : s.lemax = s1.lemax
  sub : live ⊆ T0
  Tsub : T ⊆ live
  neg : ∀ x ∈ live, s.Nv.at x < 0
  zero : ∀ x ∈ T0, x ∉ live → s.Nv.at x = 0
  nvo : ∀ x, x ∉ T0 → s.Nv.at x = s1.Nv.at x
  pe : ∀ x ∈ live, s.Pe.at x = s1.Pe.at x
  el : ∀ x ∈ live, s.Elen.at x = s1.Elen.at x
  inv : I live s.Nv.at s.Pe.at s.Elen.at
  wpos : 0 < s.wflg
  wz : ∀ x, 0 ≤ x → x < n → (s.W.at x = 0 ↔ s1.W.at x = 0)
  last : ∀ x ∈ T0, 0 ≤ s.Last.at x ∧ s.Last.at x < n
  lists : ∃ bh D B, DegL n s.Head.at s.Next.at s.Last.at s.Degree.at S bh D ∧
    HashL n s.Next.at s.Last.at T bh B

/-- `I` survives the merging of `j` into `i`. -/
def MergeOk (T0 : Finset Int) (C : Int → List Int)
    (I : Finset Int → (Int → Int) → (Int → Int) → (Int → Int) → Prop) : Prop :=
  ∀ live nv pe el nv' pe' el' i j, live ⊆ T0 → I live nv pe el → i ∈ live → j ∈ live → i ≠ j →
    (∀ x, x ∈ C i ↔ x ∈ C j) →
    (∀ x, nv' x = if x = j then 0 else if x = i then nv i + nv j else nv x) →
    (∀ x, pe' x = if x = j then FLIP i else pe x) →
    (∀ x, el' x = if x = j then EMPTY else el x) →
    I (live.erase j) nv' pe' el'

/-- The weights of two variables that may be merged. -/
def SumOk (n : Int) (T0 : Finset Int)
    (I : Finset Int → (Int → Int) → (Int → Int) → (Int → Int) → Prop) : Prop :=
  ∀ live nv pe el i j, live ⊆ T0 → I live nv pe el → i ∈ live → j ∈ live → i ≠ j → -n ≤ nv i + nv j

variable {I : Finset Int → (Int → Int) → (Int → Int) → (Int → Int) → Prop} {T live : Finset Int}

theorem HashL.congr {nx lt nx' lt' : Int → Int} {bh : Int → Int} {B : Int → List Int}
    (h : HashL n nx lt T bh B) (h1 : ∀ x ∈ T, nx' x = nx x) (h2 : ∀ x ∈ T, lt' x = lt x) :
    HashL n nx' lt' T bh B where
  rng := fun x hx => by rw [h2 x hx]; exact h.rng x hx
  nodup := h.nodup
  mem := by
    intro d h0 h1' x
    rw [h.mem d h0 h1']
    constructor
    · rintro ⟨hx, e⟩; exact ⟨hx, by rw [h2 x hx]; exact e⟩
    · rintro ⟨hx, e⟩; exact ⟨hx, by rw [h2 x hx] at e; exact e⟩
  seg := fun d h0 h1' => (h.seg d h0 h1').congr fun x hx => h1 x ((h.mem d h0 h1' x).mp hx).1

theorem nodup_same {l₁ l₂ : List Int} (h1 : l₁.Nodup) (h2 : l₂.Nodup) (hl : l₁.length = l₂.length)
    (hs : ∀ x ∈ l₂, x ∈ l₁) (x : Int) : x ∈ l₁ ↔ x ∈ l₂ := by
  have : l₂.toFinset ⊆ l₁.toFinset := fun y hy => by
    rw [List.mem_toFinset] at hy ⊢; exact hs y hy
  have he := Finset.eq_of_subset_of_card_le this (by
    rw [List.toFinset_card_of_nodup h1, List.toFinset_card_of_nodup h2, hl])
  rw [← List.mem_toFinset (l := l₁), ← List.mem_toFinset (l := l₂), he]

theorem samePattern_spec (hBig : 0 ≤ n ∧ 0 ≤ iwlen ∧ 3 * (n + iwlen) + 10 ≤ Int_MAX)
    (hc : DetCtx n iwlen me S T0 C s1) {s : Amd2} (h : Det n S T0 s1 I T live s)
    {i j eln : Int} (hi : i ∈ live) (hj : j ∈ live)
    (hW : ∀ x, 0 ≤ x → x < n → (s.W.at x = s.wflg ↔ x ∈ C i)) :
    Spec (samePattern ((C i).length + 1) eln j s) (fun b => b = true → ∀ x, x ∈ C i ↔ x ∈ C j) := by
  have hi0 := h.sub hi
  have hj0 := h.sub hj
  have hjr := hc.rng j hj0
  have aI : Arr s.Iw iwlen s1.pfree := by rw [h.iw]; exact hc.aI
  have aL : Arr s.Len n n := by rw [h.len]; exact hc.aL
  unfold samePattern
  rw [aL.rd hjr.1 hjr.2, ok_bind, h.aE.rd hjr.1 hjr.2, ok_bind]
  split
  · next hle =>
    have el : s.Len.at j = (C j).length + 1 := by rw [h.len]; exact hc.len j hj0
    have hll : (C i).length = (C j).length := by omega
    have hb := hc.blk j hj0
    rw [Blk.cons_iff] at hb
    have hlo := hc.lo j hj0
    have hhi := hc.hi j hj0
    have hpl := hc.aI.m_le (by omega)
    rw [h.aP.rd hjr.1 hjr.2, ok_bind, h.pe j hj, ck_bind (by omega), ck_bind (by omega)]
    refine Spec.bind (forBrk_int (by omega) (fun q (_ : Unit) => ∀ x ∈ (C j).take (q - (s1.Pe.at j + 1)).toNat,
      x ∈ C i) (fun _ _ => True) (by simp) ?_) ?_
    · rintro q u hq0 hq1 hinv
      have hk : (q - (s1.Pe.at j + 1)).toNat < (C j).length := by omega
      have e : s.Iw.at q = (C j)[(q - (s1.Pe.at j + 1)).toNat] := by
        rw [h.iw, ← hb.2 _ _ (List.getElem?_eq_getElem hk)]
        congr 1; omega
      have hr := hc.cr j hj0 _ (List.getElem_mem hk)
      rw [aI.rd (by omega) (by omega), ok_bind, e, h.aW.rd hr.1 hr.2.1, ok_bind]
      refine Spec.pure ?_
      simp only
      split
      · trivial
      · next hne =>
        simp only [ne_eq, decide_not, Bool.not_eq_true', Bool.not_eq_false, decide_eq_true_eq] at hne
        have hne' : s.W.at (C j)[(q - (s1.Pe.at j + 1)).toNat] = s.wflg := by simpa using hne
        have hin := (hW _ hr.1 hr.2.1).mp hne'
        intro x hx
        rw [show (q + 1 - (s1.Pe.at j + 1)).toNat = (q - (s1.Pe.at j + 1)).toNat + 1 by omega,
          List.take_add_one, List.getElem?_eq_getElem hk, List.mem_append] at hx
        rcases hx with hx | hx
        · exact hinv x hx
        · simp only [Option.toList_some, List.mem_singleton] at hx
          rw [hx]; exact hin
    · rintro r hr
      refine Spec.pure ?_
      intro hb'
      have hr2 : r.2 = false := by simpa using hb'
      rw [hr2] at hr
      simp only [Bool.false_eq_true, if_false] at hr
      rw [show (s1.Pe.at j + ((C i).length + 1) - (s1.Pe.at j + 1)).toNat = (C j).length by omega,
        List.take_length] at hr
      exact nodup_same (hc.nodup i hi0) (hc.nodup j hj0) hll hr
  · exact Spec.pure (by simp)

theorem DegL.congrBh {hd nx lt dg : Int → Int} {bh bh' : Int → Int} {D : Int → List Int}
    (h : DegL n hd nx lt dg S bh D) (hb : ∀ d, 0 ≤ d → d < n → bh' d = bh d) :
    DegL n hd nx lt dg S bh' D :=
  ⟨h.rng, h.nodup, h.mem, fun d d0 d1 hd => by rw [hb d d0 d1]; exact h.empty d d0 d1 hd,
    fun d d0 d1 hd => by rw [hb d d0 d1]; exact h.chain d d0 d1 hd⟩

theorem amd2Compare_spec (hBig : 0 ≤ n ∧ 0 ≤ iwlen ∧ 3 * (n + iwlen) + 10 ≤ Int_MAX)
    (hc : DetCtx n iwlen me S T0 C s1) (hI : MergeOk T0 C I) (hIs : SumOk n T0 I) {s : Amd2}
    (h : Det n S T0 s1 I T live s) {i j jl eln : Int} (hi : i ∈ live) (hj : j ∈ live) (hij : i ≠ j)
    (hjT : j ∉ T) (hl : jl ∈ live) (hlT : jl ∉ T) (hlj : jl ≠ j)
    (hW : ∀ x, 0 ≤ x → x < n → (s.W.at x = s.wflg ↔ x ∈ C i)) :
    Spec (amd2Compare ((C i).length + 1) eln i (jl, j, s)) (fun r => r.2.1 = s.Next.at j ∧
      r.2.2.W = s.W ∧ r.2.2.wflg = s.wflg ∧
      ((r.1 = jl ∧ (∀ x, r.2.2.Next.at x = if x = jl then s.Next.at j else s.Next.at x) ∧
          Det n S T0 s1 I T (live.erase j) r.2.2) ∨
        (r.1 = j ∧ r.2.2 = s))) := by
  have hir := hc.rng i (h.sub hi)
  have hjr := hc.rng j (h.sub hj)
  have hlr := hc.rng jl (h.sub hl)
  unfold amd2Compare
  refine Spec.bind (samePattern_spec hBig hc h hi hj hW) ?_
  intro ok hok
  simp only
  by_cases hk : ok = true
  · have aN1 := h.aNv.put hir.1 hir.2 (s.Nv.at i + s.Nv.at j)
    have hsm := hIs live _ _ _ i j h.sub h.inv hi hj hij
    have hni := h.neg i hi
    have hnj := h.neg j hj
    rw [if_pos hk, ck_bind (FLIP_ck (by omega)), h.aP.wr hjr.1 hjr.2, ok_bind, h.aNv.rd hir.1 hir.2, ok_bind,
      h.aNv.rd hjr.1 hjr.2, ok_bind, ck_bind (by omega), h.aNv.wr hir.1 hir.2, ok_bind, aN1.wr hjr.1 hjr.2, ok_bind, h.aE.wr hjr.1 hjr.2, ok_bind,
      h.aN.rd hjr.1 hjr.2, ok_bind, h.aN.wr hlr.1 hlr.2, ok_bind]
    have eNv : ∀ x, ((s.Nv.put i (s.Nv.at i + s.Nv.at j)).put j 0).at x
        = if x = j then 0 else if x = i then s.Nv.at i + s.Nv.at j else s.Nv.at x := by
      intro x
      rw [aN1.at_put hjr.1 hjr.2, h.aNv.at_put hir.1 hir.2]
    have ePe : ∀ x, (s.Pe.put j (FLIP i)).at x = if x = j then FLIP i else s.Pe.at x :=
      fun x => h.aP.at_put hjr.1 hjr.2 _ _
    have eEl : ∀ x, (s.Elen.put j EMPTY).at x = if x = j then EMPTY else s.Elen.at x :=
      fun x => h.aE.at_put hjr.1 hjr.2 _ _
    have eNx : ∀ x, (s.Next.put jl (s.Next.at j)).at x = if x = jl then s.Next.at j else s.Next.at x :=
      fun x => h.aN.at_put hlr.1 hlr.2 _ _
    refine Spec.pure ⟨rfl, rfl, rfl, Or.inl ⟨rfl, eNx, ?_⟩⟩
    refine ⟨h.aP.put hjr.1 hjr.2 _, aN1.put hjr.1 hjr.2 _, h.aE.put hjr.1 hjr.2 _,
      h.aN.put hlr.1 hlr.2 _, h.aT, h.aH, h.aW, h.iw, h.len, h.degree, h.pfree, h.nel, h.mindeg, h.lemax,
      fun x hx => h.sub (Finset.mem_of_mem_erase hx), ?_, ?_, ?_, ?_, ?_, ?_, ?_, h.wpos, h.wz, h.last,
      ?_⟩ <;> try simp only
    · intro x hx
      exact Finset.mem_erase.mpr ⟨fun e => hjT (e ▸ hx), h.Tsub hx⟩
    · intro x hx
      obtain ⟨hx1, hx2⟩ := Finset.mem_erase.mp hx
      have := h.neg x hx2
      rw [eNv, if_neg hx1]
      split <;> omega
    · intro x hx hx'
      rw [eNv]
      by_cases e : x = j
      · rw [if_pos e]
      · have hx2 : x ∉ live := fun h' => hx' (Finset.mem_erase.mpr ⟨e, h'⟩)
        rw [if_neg e, if_neg (fun e' : x = i => hx2 (e' ▸ hi))]
        exact h.zero x hx hx2
    · intro x hx
      rw [eNv, if_neg (fun e : x = j => hx (e ▸ h.sub hj)), if_neg (fun e : x = i => hx (e ▸ h.sub hi))]
      exact h.nvo x hx
    · intro x hx
      obtain ⟨hx1, hx2⟩ := Finset.mem_erase.mp hx
      rw [ePe, if_neg hx1]; exact h.pe x hx2
    · intro x hx
      obtain ⟨hx1, hx2⟩ := Finset.mem_erase.mp hx
      rw [eEl, if_neg hx1]; exact h.el x hx2
    · exact hI live _ _ _ _ _ _ i j h.sub h.inv hi hj hij (hok hk) eNv ePe eEl
    · obtain ⟨bh, D, B, hD, hB⟩ := h.lists
      refine ⟨bh, D, B, hD.congr ?_ (fun _ _ => rfl) (fun _ _ => rfl), hB.congr ?_ (fun _ _ => rfl)⟩
      · intro x hx
        rw [eNx, if_neg]
        rintro rfl
        exact hc.disj x hx (h.sub hl)
      · intro x hx
        rw [eNx, if_neg]
        rintro rfl
        exact hlT hx
  · rw [if_neg hk, h.aN.rd hjr.1 hjr.2, ok_bind]
    exact Spec.pure ⟨rfl, rfl, rfl, Or.inr ⟨rfl, rfl⟩⟩

/-- All flags are below `wflg`. -/
def WOk (n : Int) (s : Amd2) : Prop := ∀ x, 0 ≤ x → x < n → s.W.at x < s.wflg

theorem amd2Bucket_spec (hBig : 0 ≤ n ∧ 0 ≤ iwlen ∧ 3 * (n + iwlen) + 10 ≤ Int_MAX)
    (hc : DetCtx n iwlen me S T0 C s1) (hI : MergeOk T0 C I) (hIs : SumOk n T0 I) {s : Amd2}
    (h : Det n S T0 s1 I T live s) (hW : WOk n s) {i : Int} {l : List Int} {c : Int} (hc0 : 0 ≤ c)
    (hwf : s.wflg + (l.length + 1) + c ≤ Int_MAX)
    (hs : Seg s.Next.at i (i :: l) EMPTY) (hnd : (i :: l).Nodup)
    (hl : ∀ x ∈ i :: l, x ∈ live ∧ x ∉ T) :
    Spec (amd2Bucket n (i, s)) (fun r => ∃ live' l', Det n S T0 s1 I T live' r.2 ∧ WOk n r.2 ∧
      Seg r.2.Next.at r.1 l' EMPTY ∧ l'.Nodup ∧ (∀ x ∈ l', x ∈ live' ∧ x ∉ T) ∧
      l'.length ≤ l.length ∧ r.2.wflg + l'.length + c ≤ Int_MAX) := by
  have hi := (hl i (by simp)).1
  have hi0 := h.sub hi
  have hir := hc.rng i hi0
  have aI : Arr s.Iw iwlen s1.pfree := by rw [h.iw]; exact hc.aI
  have aL : Arr s.Len n n := by rw [h.len]; exact hc.aL
  have el : s.Len.at i = (C i).length + 1 := by rw [h.len]; exact hc.len i hi0
  have hb := hc.blk i hi0
  rw [Blk.cons_iff] at hb
  have hlo := hc.lo i hi0
  have hhi := hc.hi i hi0
  have hpl := hc.aI.m_le (by omega)
  have hwp := h.wpos
  unfold amd2Bucket
  simp only
  rw [aL.rd hir.1 hir.2, ok_bind, h.aE.rd hir.1 hir.2, ok_bind, h.aP.rd hir.1 hir.2, ok_bind, el,
    h.pe i hi, ck_bind (by omega), ck_bind (by omega)]
  -- scatter
  refine Spec.bind (Q := fun W => Arr W n n ∧ ∀ x, W.at x = if x ∈ C i then s.wflg else s.W.at x) ?_ ?_
  · refine (forI_int (by omega) (fun q (W : Buf Int) => Arr W n n ∧
      ∀ x, W.at x = if x ∈ (C i).take (q - (s1.Pe.at i + 1)).toNat then s.wflg else s.W.at x) ?_ ?_).mono ?_
    · exact ⟨h.aW, by simp⟩
    · rintro q W hq0 hq1 ⟨w1, w2⟩
      have hk : (q - (s1.Pe.at i + 1)).toNat < (C i).length := by omega
      have e : s.Iw.at q = (C i)[(q - (s1.Pe.at i + 1)).toNat] := by
        rw [h.iw, ← hb.2 _ _ (List.getElem?_eq_getElem hk)]
        congr 1; omega
      have hr := hc.cr i hi0 _ (List.getElem_mem hk)
      rw [aI.rd (by omega) (by omega), ok_bind, e, w1.wr hr.1 hr.2.1]
      refine Spec.ok ⟨w1.put hr.1 hr.2.1 _, fun x => ?_⟩
      rw [w1.at_put hr.1 hr.2.1, w2,
        show (q + 1 - (s1.Pe.at i + 1)).toNat = (q - (s1.Pe.at i + 1)).toNat + 1 by omega,
        List.take_add_one, List.getElem?_eq_getElem hk]
      simp only [Option.toList_some, List.mem_append, List.mem_singleton]
      by_cases hx : x = (C i)[(q - (s1.Pe.at i + 1)).toNat]
      · simp only [← hx, or_true, if_true]
      · simp only [hx, or_false, if_false]
    · rintro W ⟨w1, w2⟩
      refine ⟨w1, ?_⟩
      rw [show (s1.Pe.at i + ((C i).length + 1) - (s1.Pe.at i + 1)).toNat = (C i).length by omega,
        List.take_length] at w2
      exact w2
  rintro W ⟨w1, w2⟩
  have h' : Det n S T0 s1 I T live { s with W := W } := by
    refine ⟨h.aP, h.aNv, h.aE, h.aN, h.aT, h.aH, w1, h.iw, h.len, h.degree, h.pfree, h.nel, h.mindeg,
      h.lemax, h.sub, h.Tsub, h.neg, h.zero, h.nvo, h.pe, h.el, h.inv, h.wpos, ?_, h.last, h.lists⟩
    intro x x0 x1
    simp only
    rw [w2]
    split
    · next hx =>
      have := (hc.cr i hi0 x hx).2.2
      have := h.wpos
      constructor <;> intro <;> omega
    · exact h.wz x x0 x1
  have hmk : ∀ x, 0 ≤ x → x < n → (W.at x = s.wflg ↔ x ∈ C i) ∧ W.at x ≤ s.wflg := by
    intro x x0 x1
    have := hW x x0 x1
    rw [w2]
    split
    · next hx => simp [hx]
    · next hx => exact ⟨⟨fun e => by omega, fun e => absurd e hx⟩, by omega⟩
  rw [h.aN.rd hir.1 hir.2, ok_bind]
  have hnl : l.length ≤ n.toNat := by
    have := nodup_length_le (n := n) (List.nodup_cons.mp hnd).2
      (fun x hx => hc.rng x (h.sub (hl x (by simp [hx])).1))
    rcases this with h' | h'
    · omega
    · rw [h']; simp
  refine Spec.bind (whileM_list (l := l) (fun _ rest (r : Int × Int × Amd2) => ∃ live' k0,
      Det n S T0 s1 I T live' r.2.2 ∧ r.2.2.W = W ∧ r.2.2.wflg = s.wflg ∧
      (k0 ++ [r.1] ++ rest).Nodup ∧ (k0 ++ [r.1]).head? = some i ∧
      (∀ x ∈ k0 ++ [r.1] ++ rest, x ∈ live' ∧ x ∉ T) ∧
      Seg r.2.2.Next.at i (k0 ++ [r.1]) r.2.1 ∧ Seg r.2.2.Next.at r.2.1 rest EMPTY ∧
      (k0 ++ [r.1] ++ rest).length ≤ l.length + 1) ?_ hnl ?_ ?_) ?_
  · refine ⟨live, [], h', rfl, rfl, hnd, rfl, hl, ?_, hs.2, by simp⟩
    exact ⟨rfl, rfl⟩
  · rintro done x rest ⟨jl, j, s2⟩ hd ⟨live', k0, c1, c2, c3, c4, c5, c6, c7, c8, c9⟩
    simp only at c1 c2 c3 c4 c5 c6 c7 c8 c9
    obtain ⟨hjx, hrest⟩ := c8
    subst hjx
    have hjm : j ∈ k0 ++ [jl] ++ j :: rest := by simp
    have hjlm : jl ∈ k0 ++ [jl] ++ j :: rest := by simp
    have him : i ∈ k0 ++ [jl] := by
      exact List.mem_of_mem_head? c5
    have hjr := hc.rng j (c1.sub (c6 j hjm).1)
    have hnd' := List.nodup_append.mp c4
    have hij : i ≠ j := fun e => hnd'.2.2 _ him j (by simp) e
    have hlj : jl ≠ j := fun e => hnd'.2.2 jl (by simp) j (by simp) e
    refine ⟨by
      have : j ≠ EMPTY := by unfold EMPTY; omega
      simp [pure_eq_ok, this], ?_⟩
    refine (amd2Compare_spec hBig hc hI hIs c1 (c6 i (List.mem_append_left _ him)).1 (c6 j hjm).1 hij
      (c6 j hjm).2 (c6 jl hjlm).1 (c6 jl hjlm).2 hlj (fun x x0 x1 => by
        rw [c2, c3]; exact (hmk x x0 x1).1)).mono ?_
    rintro ⟨jl', j', s3⟩ ⟨d1, d2, d3, d4⟩
    simp only at d1 d2 d3 d4
    subst d1
    have hrl : (k0 ++ [jl] ++ rest).Sublist (k0 ++ [jl] ++ j :: rest) :=
      List.Sublist.append_left (List.sublist_cons_self _ _) _
    rcases d4 with ⟨rfl, e2, e3⟩ | ⟨rfl, rfl⟩
    · refine ⟨live'.erase j, k0, e3, d2.trans c2, d3.trans c3, c4.sublist hrl, c5, ?_, ?_, ?_, ?_⟩
      · intro x hx
        have hx' := c6 x (hrl.subset hx)
        refine ⟨Finset.mem_erase.mpr ⟨?_, hx'.1⟩, hx'.2⟩
        rintro rfl
        rcases List.mem_append.mp hx with hx | hx
        · exact hnd'.2.2 x hx x (by simp) rfl
        · exact (List.nodup_cons.mp hnd'.2.1).1 hx
      · refine c7.redirect ?_ (by rw [e2, if_pos rfl])
        intro y hy
        rw [e2, if_neg]
        rintro rfl
        exact (List.nodup_append.mp hnd'.1).2.2 y hy y (by simp) rfl
      · refine hrest.congr ?_
        intro y hy
        rw [e2, if_neg]
        rintro rfl
        exact hnd'.2.2 y (by simp) y (by simp [hy]) rfl
      · simp only [List.length_append, List.length_cons, List.length_nil] at c9 ⊢
        omega
    · refine ⟨live', k0 ++ [jl], c1, c2, c3, ?_, ?_, ?_, ?_, hrest, ?_⟩
      · simpa using c4
      · simp only [List.append_assoc] at *
        rw [← c5]
        cases k0 <;> simp
      · simpa using c6
      · rw [Seg.append]
        exact ⟨jl', c7, rfl, rfl⟩
      · simpa using c9
  · rintro ⟨jl, j, s2⟩ ⟨live', k0, c1, c2, c3, c4, c5, c6, c7, c8, c9⟩
    have : j = EMPTY := c8
    simp [pure_eq_ok, this]
  rintro ⟨jl, j, s2⟩ ⟨live', k0, c1, c2, c3, c4, c5, c6, c7, c8, c9⟩
  simp only at c1 c2 c3 c4 c5 c6 c7 c8 c9 ⊢
  rw [List.append_nil] at c4 c6 c9
  have hj : j = EMPTY := c8
  subst hj
  obtain ⟨l', hl'⟩ : ∃ l', k0 ++ [jl] = i :: l' := by
    cases hk : k0 ++ [jl] with
    | nil => simp at hk
    | cons a b =>
      rw [hk] at c5
      simp only [List.head?_cons, Option.some.injEq] at c5
      exact ⟨b, by rw [c5]⟩
  rw [hl'] at c4 c6 c7 c9
  have c9' : l'.length ≤ l.length := by simpa using c9
  rw [ck_bind (by omega), c1.aN.rd hir.1 hir.2, ok_bind]
  refine Spec.pure ⟨live', l', ?_, ?_, c7.2, (List.nodup_cons.mp c4).2, fun x hx => c6 x (by simp [hx]),
    c9', by simp only; omega⟩
  · have hw := c1.wpos
    exact ⟨c1.aP, c1.aNv, c1.aE, c1.aN, c1.aT, c1.aH, c1.aW, c1.iw, c1.len, c1.degree, c1.pfree, c1.nel,
      c1.mindeg, c1.lemax, c1.sub, c1.Tsub, c1.neg, c1.zero, c1.nvo, c1.pe, c1.el, c1.inv,
      by simp only; omega, c1.wz, c1.last, c1.lists⟩
  · intro x x0 x1
    have := (hmk x x0 x1).2
    simp only
    rw [c2, c3]
    omega

theorem amd2Detect_spec (hBig : 0 ≤ n ∧ 0 ≤ iwlen ∧ 3 * (n + iwlen) + 10 ≤ Int_MAX)
    (hc : DetCtx n iwlen me S T0 C s1) (hI : MergeOk T0 C I) (hIs : SumOk n T0 I) {s : Amd2}
    (h : Det n S T0 s1 I T live s) (hW : WOk n s) (hwf : s.wflg + T.card ≤ Int_MAX) {i p : Int} (hp : 0 ≤ p ∧ p < s1.pfree)
    (hpi : s1.Iw.at p = i) (hir : 0 ≤ i ∧ i < n) (hi : i ∈ T0 ∨ s1.Nv.at i = 0) :
    Spec (amd2Detect n p s) (fun s' => ∃ live' T', Det n S T0 s1 I T' live' s' ∧ WOk n s' ∧ T' ⊆ T ∧
      i ∉ T' ∧ s'.wflg + T'.card ≤ Int_MAX) := by
  have aI : Arr s.Iw iwlen s1.pfree := by rw [h.iw]; exact hc.aI
  unfold amd2Detect
  rw [aI.rd hp.1 hp.2, ok_bind, h.iw, hpi, h.aNv.rd hir.1 hir.2, ok_bind]
  split
  · next hneg =>
    have hi0 : i ∈ T0 := by
      by_contra hn
      have := hi.resolve_left hn
      rw [← h.nvo i hn] at this
      omega
    have hlt := h.last i hi0
    rw [h.aT.rd hir.1 hir.2, ok_bind]
    obtain ⟨bh, D, B, hD, hB⟩ := h.lists
    have hST : ∀ x ∈ S, x ∉ T := fun x hx hx' => hc.disj x hx (h.sub (h.Tsub hx'))
    refine Spec.bind (hashTake_spec (by omega) h.aT h.aH hD hB hlt.1 hlt.2 hST) ?_
    rintro ⟨i0, s2⟩ ⟨e1, Lt, Hd, rfl, a1, a2, a3, a4, a5⟩
    simp only at e1
    have h2 : Det n S T0 s1 I (T.filter (fun x => x ∉ B (s.Last.at i))) live
        { s with Last := Lt, Head := Hd } := by
      refine ⟨h.aP, h.aNv, h.aE, h.aN, a1, a2, h.aW, h.iw, h.len, h.degree, h.pfree, h.nel, h.mindeg,
        h.lemax, h.sub, fun x hx => h.Tsub (Finset.mem_filter.mp hx).1, h.neg, h.zero, h.nvo, h.pe, h.el,
        h.inv, h.wpos, h.wz, ?_, _, _, _, a4, a5⟩
      intro x hx
      simp only
      rw [a3 x (fun hx' => hc.disj x hx' hx)]
      exact h.last x hx
    have hiT : i ∉ T.filter (fun x => x ∉ B (s.Last.at i)) := by
      rw [Finset.mem_filter]
      rintro ⟨q1, q2⟩
      exact q2 ((hB.mem _ hlt.1 hlt.2 i).mpr ⟨q1, rfl⟩)
    have hBT : ∀ x ∈ B (s.Last.at i), x ∈ live ∧ x ∉ T.filter (fun x => x ∉ B (s.Last.at i)) := by
      intro x hx
      refine ⟨h.Tsub ((hB.mem _ hlt.1 hlt.2 x).mp hx).1, ?_⟩
      rw [Finset.mem_filter]; exact fun q => q.2 hx
    have hcard : ((B (s.Last.at i)).length : Int) + (T.filter (fun x => x ∉ B (s.Last.at i))).card ≤ T.card := by
      have e1 : (B (s.Last.at i)).length = (T.filter (fun x => x ∈ B (s.Last.at i))).card := by
        rw [← List.toFinset_card_of_nodup (hB.nodup _ hlt.1 hlt.2)]
        congr 1
        ext x
        rw [List.mem_toFinset, Finset.mem_filter]
        exact ⟨fun hx => ⟨((hB.mem _ hlt.1 hlt.2 x).mp hx).1, hx⟩, fun hx => hx.2⟩
      have e2 := Finset.card_filter_add_card_filter_not (s := T) (fun x => x ∈ B (s.Last.at i))
      omega
    refine Spec.bind (whileM_idx (fun k (r : Int × Amd2) => ∃ live' l,
        Det n S T0 s1 I (T.filter (fun x => x ∉ B (s.Last.at i))) live' r.2 ∧ WOk n r.2 ∧
        Seg r.2.Next.at r.1 l EMPTY ∧ l.Nodup ∧
        (∀ x ∈ l, x ∈ live' ∧ x ∉ T.filter (fun x => x ∉ B (s.Last.at i))) ∧ l.length ≤ k ∧
        r.2.wflg + l.length + (T.filter (fun x => x ∉ B (s.Last.at i))).card ≤ Int_MAX)
        (Q := fun r => ∃ live', Det n S T0 s1 I (T.filter (fun x => x ∉ B (s.Last.at i))) live' r.2 ∧
          WOk n r.2 ∧ r.2.wflg + (T.filter (fun x => x ∉ B (s.Last.at i))).card ≤ Int_MAX) ?_ (k := n.toNat) ?_ le_rfl) ?_
    · rintro k ⟨i1, s3⟩ ⟨live', l, c1, c2, c3, c4, c5, c6, c7⟩
      simp only at c1 c2 c3 c4 c5 c6 c7 ⊢
      by_cases hie : i1 = EMPTY
      · rw [if_neg (by simpa using hie)]
        refine Spec.pure ?_
        simp only [Bool.false_eq_true, if_false]
        exact ⟨live', c1, c2, by omega⟩
      · rw [if_pos hie]
        cases l with
        | nil => exact absurd c3 hie
        | cons f t =>
          obtain ⟨rfl, c3'⟩ := c3
          have hfr := hc.rng i1 (c1.sub (c5 i1 (by simp)).1)
          rw [c1.aN.rd hfr.1 hfr.2, ok_bind]
          refine Spec.pure ?_
          split
          · refine (amd2Bucket_spec hBig hc hI hIs c1 c2
              (c := (T.filter (fun x => x ∉ B (s.Last.at i))).card) (by omega)
              (by simp only [List.length_cons] at c7; push_cast at c7; omega) ⟨rfl, c3'⟩ c4 c5).mono ?_
            rintro r ⟨live2, l2, d1, d2, d3, d4, d5, d6, d7⟩
            refine ⟨l2.length, ?_, live2, l2, d1, d2, d3, d4, d5, le_rfl, d7⟩
            simp only [List.length_cons] at c6
            omega
          · exact ⟨live', c1, c2, by omega⟩
    · refine ⟨live, B (s.Last.at i), h2, hW, ?_, hB.nodup _ hlt.1 hlt.2, hBT, ?_, by simp only; omega⟩
      · rw [e1]; exact hB.seg _ hlt.1 hlt.2
      · rcases nodup_length_le (n := n) (hB.nodup _ hlt.1 hlt.2)
          (fun x hx => hc.rng x (h.sub (hBT x hx).1)) with h' | h'
        · omega
        · rw [h']; simp
    · rintro r ⟨live', c1, c2, c3⟩
      exact Spec.pure ⟨live', _, c1, c2, Finset.filter_subset _ _, hiT, c3⟩
  · next hneg =>
    refine Spec.pure ⟨live, T, h, hW, Finset.Subset.refl _, fun hiT => ?_, hwf⟩
    have := h.neg i (h.Tsub hiT)
    omega

/-- Detection over the whole pivot element `M`. -/
theorem detect_spec (hBig : 0 ≤ n ∧ 0 ≤ iwlen ∧ 3 * (n + iwlen) + 10 ≤ Int_MAX)
    (hc : DetCtx n iwlen me S T0 C s1) (hI : MergeOk T0 C I) (hIs : SumOk n T0 I) {M : List Int} {pme1 : Int}
    (hp : 0 ≤ pme1) (hpf : pme1 + M.length ≤ s1.pfree) (hb : Blk s1.Iw.at pme1 M)
    (hMr : ∀ i ∈ M, 0 ≤ i ∧ i < n) (hM : ∀ i ∈ M, i ∈ T0 ∨ s1.Nv.at i = 0) (hT : ∀ i ∈ T, i ∈ M) {s : Amd2}
    (h : Det n S T0 s1 I T live s) (hW : WOk n s) (hwf : s.wflg + T.card ≤ Int_MAX) :
    Spec (forI pme1 (pme1 + M.length) s (amd2Detect n)) (fun s' => ∃ live',
      Det n S T0 s1 I ∅ live' s' ∧ WOk n s' ∧ s'.wflg ≤ Int_MAX ∧
      ∃ D, DegL n s'.Head.at s'.Next.at s'.Last.at s'.Degree.at S (fun _ => EMPTY) D) := by
  refine (forI_int (by omega) (fun j (s' : Amd2) => ∃ (k : Nat) (live' T' : Finset Int),
    j = pme1 + k ∧ k ≤ M.length ∧ Det n S T0 s1 I T' live' s' ∧ WOk n s' ∧ s'.wflg + T'.card ≤ Int_MAX ∧ T' ⊆ T ∧
    ∀ x ∈ M.take k, x ∉ T') ?_ ?_).mono ?_
  · exact ⟨0, live, T, by simp, by simp, h, hW, hwf, Finset.Subset.refl _, by simp⟩
  · rintro j s' hj0 hj1 ⟨k, live', T', rfl, hk, c1, c2, cw, c3, c4⟩
    have hkl : k < M.length := by omega
    have ei : s1.Iw.at (pme1 + k) = M[k] := hb k _ (List.getElem?_eq_getElem hkl)
    have hmem : M[k] ∈ M := List.getElem_mem hkl
    refine (amd2Detect_spec hBig hc hI hIs c1 c2 cw ⟨by omega, by omega⟩ ei (hMr _ hmem) (hM _ hmem)).mono ?_
    rintro s2 ⟨live2, T2, d1, d2, d3, d4, d5⟩
    refine ⟨k + 1, live2, T2, by push_cast; omega, hkl, d1, d2, d5, d3.trans c3, ?_⟩
    intro x hx hx'
    rw [List.take_add_one, List.getElem?_eq_getElem hkl, List.mem_append] at hx
    rcases hx with hx | hx
    · exact c4 x hx (d3 hx')
    · simp only [Option.toList_some, List.mem_singleton] at hx
      subst hx
      exact d4 hx'
  · rintro s' ⟨k, live', T', hk1, hk2, c1, c2, cw, c3, c4⟩
    have : k = M.length := by omega
    subst this
    rw [List.take_length] at c4
    have hT0 : T' = ∅ := by
      ext x
      simp only [Finset.notMem_empty, iff_false]
      exact fun hx => c4 x (hT x (c3 hx)) hx
    subst hT0
    refine ⟨live', c1, c2, by simpa using cw, ?_⟩
    obtain ⟨bh, D, B, hD, hB⟩ := c1.lists
    have hbe : ∀ d, 0 ≤ d → d < n → bh d = EMPTY := by
      intro d d0 d1
      have hs := hB.seg d d0 d1
      have : B d = [] := by
        rw [List.eq_nil_iff_forall_not_mem]
        intro x hx
        have := ((hB.mem d d0 d1 x).mp hx).1
        simp at this
      rw [this] at hs
      exact hs
    exact ⟨D, hD.congrBh fun d d0 d1 => (hbe d d0 d1).symm⟩

end Verif
