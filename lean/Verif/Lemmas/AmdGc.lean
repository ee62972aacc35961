import Verif.Lemmas.AmdMem
import Verif.Lemmas.AmdDeg

/-!
# Garbage collection in `AMD_2`
-/

namespace Verif

variable {n len m top : Int} {O : Finset Int} {C : Int → List Int}

theorem Mem.inj {iw vp : Int → Int} (h : Mem iw vp C O top) {x y : Int} (hx : x ∈ O) (hy : y ∈ O)
    (e : vp x = vp y) : x = y := by
  by_contra hne
  have h1 := h.pos hx
  have h2 := h.pos hy
  have := h.disj x hx y hy hne
  omega

/-- The heads of the lists are exchanged with the names of their owners. -/
structure Marked (O : Finset Int) (pe iw pe1 iw1 : Int → Int) : Prop where
  hd : ∀ x ∈ O, pe1 x = iw (pe x)
  own : ∀ x ∈ O, iw1 (pe x) = FLIP x
  peo : ∀ x, x ∉ O → pe1 x = pe x
  oth : ∀ c, (∀ x ∈ O, c ≠ pe x) → iw1 c = iw c

theorem gcMark_spec {Pe Iw : Buf Int} (hB : n ≤ Int_MAX) (hn : 0 ≤ n) (hP : Arr Pe n n) (hI : Arr Iw len m)
    (h : Mem Iw.at Pe.at C O top) (hm : top ≤ m)
    (hO : ∀ x ∈ O, 0 ≤ x ∧ x < n) (hneg : ∀ x, 0 ≤ x → x < n → x ∉ O → Pe.at x < 0) :
    Spec (gcMark n Pe Iw) (fun r => Arr r.1 n n ∧ Arr r.2 len m ∧
      Marked O Pe.at Iw.at r.1.at r.2.at) := by
  unfold gcMark
  refine Spec.mono (forI_int hn (fun j (r : Buf Int × Buf Int) => Arr r.1 n n ∧ Arr r.2 len m ∧
    Marked (O.filter (fun x => x < j)) Pe.at Iw.at r.1.at r.2.at) ?_ ?_) ?_
  · refine ⟨hP, hI, ?_, ?_, fun _ _ => rfl, fun _ _ => rfl⟩
    · intro x hx
      have := hO x (Finset.mem_filter.mp hx).1
      have := (Finset.mem_filter.mp hx).2
      omega
    · intro x hx
      have := hO x (Finset.mem_filter.mp hx).1
      have := (Finset.mem_filter.mp hx).2
      omega
  · rintro j ⟨Pe1, Iw1⟩ hj0 hj1 ⟨a1, a2, a3⟩
    simp only at a1 a2 a3 ⊢
    rw [a1.rd hj0 hj1, ok_bind]
    have hjO : j ∉ O.filter (fun x => x < j) := by simp
    have ej := a3.peo j hjO
    by_cases hj : j ∈ O
    · have h0 := h.lo j hj
      have h1 := h.hi j hj
      have h2 := h.pos hj
      have h3 := a2.m_le (by omega)
      have hother : ∀ x ∈ O.filter (fun x => x < j), Pe.at j ≠ Pe.at x := by
        intro x hx e
        have hx' := (Finset.mem_filter.mp hx).1
        have := h.inj hj hx' e
        subst this
        exact hjO hx
      have eI := a3.oth _ hother
      rw [ej, if_pos (by omega), a2.rd h0 (by omega), ok_bind, a1.wr hj0 hj1, ok_bind,
        ck_bind (FLIP_ck (by omega)), a2.wr h0 (by omega), ok_bind]
      refine Spec.pure ⟨a1.put hj0 hj1 _, a2.put h0 (by omega) _, ?_, ?_, ?_, ?_⟩
      · intro x hx
        rw [a1.at_put hj0 hj1]
        split
        · next e => subst e; exact eI
        · next e =>
          exact a3.hd x (by simp only [Finset.mem_filter] at hx ⊢; exact ⟨hx.1, by omega⟩)
      · intro x hx
        have hx1 := (Finset.mem_filter.mp hx).1
        rw [a2.at_put h0 (by omega)]
        split
        · next e => rw [h.inj hx1 hj e]
        · next e =>
          have : x ≠ j := by rintro rfl; exact e rfl
          exact a3.own x (by simp only [Finset.mem_filter] at hx ⊢; exact ⟨hx.1, by omega⟩)
      · intro x hx
        rw [a1.at_put hj0 hj1]
        split
        · next e => subst e; exact absurd (by simp [hj]) hx
        · exact a3.peo x (by
            simp only [Finset.mem_filter] at hx ⊢
            rintro ⟨h1, h2⟩
            exact hx ⟨h1, by omega⟩)
      · intro c hc
        rw [a2.at_put h0 (by omega), if_neg (hc j (by simp [hj]))]
        exact a3.oth c (fun x hx => hc x (by
          simp only [Finset.mem_filter] at hx ⊢; exact ⟨hx.1, by omega⟩))
    · have := hneg j hj0 hj1 hj
      rw [ej, if_neg (by omega)]
      have e : O.filter (fun x => x < j + 1) = O.filter (fun x => x < j) := by
        ext x
        simp only [Finset.mem_filter]
        constructor
        · rintro ⟨h1, h2⟩
          have : x ≠ j := by rintro rfl; exact hj h1
          exact ⟨h1, by omega⟩
        · rintro ⟨h1, h2⟩
          exact ⟨h1, by omega⟩
      rw [e]
      exact Spec.pure ⟨a1, a2, a3⟩
  · rintro r ⟨a1, a2, a3⟩
    have e : O.filter (fun x => x < n) = O := Finset.filter_true_of_mem fun x hx => (hO x hx).2
    rw [e] at a3
    exact ⟨a1, a2, a3⟩

/-- Invariant of the compression loop. -/
structure GcInv (n len m top : Int) (O : Finset Int) (C : Int → List Int) (pe0 pe1 iw0 iw1 : Int → Int)
    (s : GcSt) : Prop where
  aP : Arr s.Pe n n
  aI : Arr s.Iw len m
  d0 : 0 ≤ s.pdst
  ds : s.pdst ≤ s.psrc
  st : s.psrc ≤ top
  sum : s.pdst = ∑ x ∈ O.filter (fun x => pe0 x < s.psrc), ((C x).length : Int)
  edge : ∀ x ∈ O, pe0 x + (C x).length ≤ s.psrc ∨ s.psrc ≤ pe0 x
  mem : Mem s.Iw.at s.Pe.at C (O.filter (fun x => pe0 x < s.psrc)) s.pdst
  rest : ∀ x, x ∉ O.filter (fun x => pe0 x < s.psrc) → s.Pe.at x = pe1 x
  src : ∀ c, s.psrc ≤ c → s.Iw.at c = iw1 c
  val : ∀ c, 0 ≤ c → c < s.pdst → 0 ≤ s.Iw.at c ∧ s.Iw.at c < n

theorem gcCopy_spec {Iw : Buf Int} {p q t : Int} (hB : len + 2 ≤ Int_MAX) (h0 : 0 ≤ q) (hpq : q ≤ p) (ht : 0 ≤ t)
    (hI : Arr Iw len m) (hm : p + t ≤ m) :
    Spec (forI 0 t (p, q, Iw) (fun _ r => do
      let v ← rd r.2.2 r.1
      let Iw ← wr r.2.2 r.2.1 v
      let psrc ← ck (r.1 + 1)
      let pdst ← ck (r.2.1 + 1)
      pure (psrc, pdst, Iw)))
    (fun r => r.1 = p + t ∧ r.2.1 = q + t ∧ Arr r.2.2 len m ∧
      (∀ c, c < q ∨ p + t ≤ c → r.2.2.at c = Iw.at c) ∧
      ∀ k, 0 ≤ k → k < t → r.2.2.at (q + k) = Iw.at (p + k)) := by
  refine Spec.mono (forI_int ht (fun j (r : Int × Int × Buf Int) => r.1 = p + j ∧ r.2.1 = q + j ∧
    Arr r.2.2 len m ∧ (∀ c, c < q ∨ p + j ≤ c → r.2.2.at c = Iw.at c) ∧
    ∀ k, 0 ≤ k → k < j → r.2.2.at (q + k) = Iw.at (p + k)) ?_ ?_) (fun r h => h)
  · exact ⟨by simp, by simp, hI, fun _ _ => rfl, fun k _ _ => by omega⟩
  · rintro j ⟨a, b, I⟩ hj0 hj1 ⟨e1, e2, h1, h2, h3⟩
    simp only at e1 e2 h1 h2 h3 ⊢
    subst e1 e2
    have hml := h1.m_le (by omega)
    rw [h1.rd (by omega) (by omega), ok_bind, h1.wr (by omega) (by omega), ok_bind, ck_bind (by omega),
      ck_bind (by omega)]
    refine Spec.pure ⟨by simp only; omega, by simp only; omega, h1.put (by omega) (by omega) _, ?_, ?_⟩
    · intro c hc
      simp only
      rw [h1.at_put (by omega) (by omega), if_neg (by omega)]
      exact h2 c (by omega)
    · intro k hk0 hk1
      simp only
      rw [h1.at_put (by omega) (by omega)]
      split
      · have : k = j := by omega
        subst this
        exact h2 _ (by omega)
      · exact h3 k hk0 (by omega)

theorem gcStep_spec {pe0 pe1 iw0 iw1 : Int → Int} {Len : Buf Int} (hB : 0 ≤ n ∧ 0 ≤ len ∧ 3 * (n + len) + 10 ≤ Int_MAX) (hL : Arr Len n n)
    (hlen : ∀ x ∈ O, Len.at x = (C x).length) (h : Mem iw0 pe0 C O top) (hm : top ≤ m)
    (hO : ∀ x ∈ O, 0 ≤ x ∧ x < n)
    (hmk : Marked O pe0 iw0 pe1 iw1) (hv : ∀ c, 0 ≤ c → c < m → 0 ≤ iw0 c ∧ iw0 c < n) {s : GcSt}
    (hs : GcInv n len m top O C pe0 pe1 iw0 iw1 s) (hlt : s.psrc < top) :
    Spec (gcStep Len s) (fun s' => GcInv n len m top O C pe0 pe1 iw0 iw1 s' ∧ s.psrc < s'.psrc) := by
  unfold gcStep
  have d0 := hs.d0
  have ds := hs.ds
  have hml := hs.aI.m_le (by omega)
  have esrc := hs.src s.psrc le_rfl
  rw [hs.aI.rd (by omega) (by omega), ok_bind, ck_bind (by omega)]
  by_cases hx : ∃ x ∈ O, pe0 x = s.psrc
  · obtain ⟨x, hxO, ex⟩ := hx
    obtain ⟨x0, x1⟩ := hO x hxO
    have hown := hmk.own x hxO
    have hpos := h.pos hxO
    have hhi := h.hi x hxO
    rw [esrc, ← ex, hown, FLIP_FLIP, ck_bind (by omega), if_pos (by omega), hs.aP.rd x0 x1, ok_bind,
      hs.aI.wr (by omega) (by omega), ok_bind, hs.aP.wr x0 x1, ok_bind, ck_bind (by omega),
      hL.rd x0 x1, ok_bind, hlen x hxO, ck_bind (by omega)]
    have hxR : x ∉ O.filter (fun x => pe0 x < s.psrc) := by
      simp only [Finset.mem_filter]; rintro ⟨_, h'⟩; omega
    have ePx : s.Pe.at x = iw0 (pe0 x) := by rw [hs.rest x hxR, hmk.hd x hxO]
    have aI1 := hs.aI.put d0 (by omega : s.pdst < len) (s.Pe.at x)
    refine Spec.bind (gcCopy_spec (by omega) (by omega) (by omega) (by omega) aI1 (by omega)) ?_
    rintro ⟨a, b, I⟩ ⟨e1, e2, b1, b2, b3⟩
    simp only at e1 e2 b1 b2 b3 ⊢
    -- processed objects afterwards
    have hR : O.filter (fun y => pe0 y < a) = insert x (O.filter (fun y => pe0 y < s.psrc)) := by
      ext y
      simp only [Finset.mem_filter, Finset.mem_insert]
      constructor
      · rintro ⟨hy, hlt'⟩
        by_cases e : y = x
        · exact Or.inl e
        · have := h.disj y hy x hxO e
          have := h.pos hy
          exact Or.inr ⟨hy, by omega⟩
      · rintro (rfl | ⟨hy, hlt'⟩)
        · exact ⟨hxO, by omega⟩
        · exact ⟨hy, by omega⟩
    have hold : ∀ c, c < s.pdst → I.at c = s.Iw.at c := by
      intro c hc
      rw [b2 c (by omega), hs.aI.at_put d0 (by omega), if_neg (by omega)]
    -- the moved block
    have hblk : Blk I.at s.pdst (C x) := by
      have hB := h.blk x hxO
      intro k v hk
      obtain ⟨hk1, _⟩ := List.getElem?_eq_some_iff.mp hk
      have hv' := hB k v hk
      cases k with
      | zero =>
        rw [b2 _ (by left; push_cast; omega), hs.aI.at_put d0 (by omega), if_pos (by push_cast; omega), ePx]
        simpa using hv'
      | succ k =>
        have e1 : s.pdst + ((k + 1 : Nat) : Int) = s.pdst + 1 + (k : Int) := by push_cast; omega
        have e2 : pe0 x + 1 + (k : Int) = pe0 x + ((k + 1 : Nat) : Int) := by push_cast; omega
        rw [e1, b3 k (by omega) (by omega), hs.aI.at_put d0 (by omega), if_neg (by omega),
          hs.src _ (by omega), e2, hmk.oth _ ?_, hv']
        intro y hy e
        by_cases hyx : y = x
        · subst hyx; push_cast at e; omega
        · have := h.disj y hy x hxO hyx
          have := h.pos hy
          push_cast at e
          omega
    refine Spec.pure ⟨⟨hs.aP.put x0 x1 _, b1, ?_, ?_, ?_, ?_, ?_, ?_, ?_, ?_, ?_⟩, ?_⟩ <;> simp only
    · omega
    · omega
    · omega
    · rw [hR, Finset.sum_insert hxR, ← hs.sum]; omega
    · intro y hy
      by_cases hyx : y = x
      · subst hyx; left; omega
      · have := h.disj y hy x hxO hyx
        have := h.pos hy
        have := hs.edge y hy
        omega
    · rw [hR]
      refine ⟨?_, ?_, ?_, ?_, ?_⟩
      · intro y hy
        refine h.ne y ?_
        rcases Finset.mem_insert.mp hy with rfl | hy
        · exact hxO
        · exact (Finset.mem_filter.mp hy).1
      · intro y hy
        rw [hs.aP.at_put x0 x1]
        split
        · exact d0
        · next e => exact hs.mem.lo y (Finset.mem_of_mem_insert_of_ne hy e)
      · intro y hy
        rw [hs.aP.at_put x0 x1]
        split
        · next e => subst e; omega
        · next e =>
          have := hs.mem.hi y (Finset.mem_of_mem_insert_of_ne hy e)
          omega
      · intro y hy
        rw [hs.aP.at_put x0 x1]
        split
        · next e => subst e; exact hblk
        · next e =>
          have hy' := Finset.mem_of_mem_insert_of_ne hy e
          have := hs.mem.hi y hy'
          exact (hs.mem.blk y hy').congr fun c _ h1 => hold c (by omega)
      · intro y hy z hz hne
        rw [hs.aP.at_put x0 x1, hs.aP.at_put x0 x1]
        split <;> split
        · next e1 e2 => exact absurd (e1.trans e2.symm) hne
        · next e1 e2 =>
          have := hs.mem.hi z (Finset.mem_of_mem_insert_of_ne hz e2)
          right; exact this
        · next e1 e2 =>
          have := hs.mem.hi y (Finset.mem_of_mem_insert_of_ne hy e1)
          left; exact this
        · next e1 e2 =>
          exact hs.mem.disj y (Finset.mem_of_mem_insert_of_ne hy e1) z
            (Finset.mem_of_mem_insert_of_ne hz e2) hne
    · intro y hy
      rw [hR] at hy
      rw [hs.aP.at_put x0 x1, if_neg (by rintro rfl; exact hy (by simp))]
      exact hs.rest y (fun h' => hy (by simp only [Finset.mem_insert]; exact Or.inr h'))
    · intro c hc
      rw [b2 c (by omega), hs.aI.at_put d0 (by omega), if_neg (by omega)]
      exact hs.src c (by omega)
    · intro c h0 h1
      by_cases hc : c < s.pdst
      · rw [hold c hc]; exact hs.val c h0 hc
      · have : I.at c = iw0 (pe0 x + (c - s.pdst)) := by
          obtain ⟨hk, e⟩ := hblk.get (c := c) (by omega) (by omega)
          rw [e, ← h.blk x hxO (c - s.pdst).toNat _ (List.getElem?_eq_getElem hk)]
          congr 1
          omega
        rw [this]
        exact hv _ (by omega) (by omega)
    · omega
  · have hx' : ∀ x ∈ O, s.psrc ≠ pe0 x := fun x hxO e => hx ⟨x, hxO, e.symm⟩
    have hv' := hv s.psrc (by omega) (by omega)
    have e0 : iw1 s.psrc = iw0 s.psrc := hmk.oth _ hx'
    rw [esrc, e0, ck_bind (FLIP_ck (by omega)), if_neg (by unfold FLIP; omega)]
    have hR : O.filter (fun y => pe0 y < s.psrc + 1) = O.filter (fun y => pe0 y < s.psrc) := by
      ext y
      simp only [Finset.mem_filter]
      constructor
      · rintro ⟨hy, hlt'⟩
        have := hx' y hy
        exact ⟨hy, by omega⟩
      · rintro ⟨hy, hlt'⟩
        exact ⟨hy, by omega⟩
    refine Spec.pure ⟨⟨hs.aP, hs.aI, d0, ?_, ?_, ?_, ?_, ?_, ?_, ?_, hs.val⟩, ?_⟩ <;> simp only
    · omega
    · omega
    · rw [hR]; exact hs.sum
    · intro y hy
      have := hs.edge y hy
      have := hx' y hy
      omega
    · rw [hR]; exact hs.mem
    · rw [hR]; exact hs.rest
    · intro c hc
      exact hs.src c (by omega)
    · omega

/-- Compression: the blocks are moved to the front, followed by the cells `[pme1, pfree)`. -/
theorem gc_spec {Pe Iw Len : Buf Int} {pme1 pfree : Int} (hB : 0 ≤ n ∧ 0 ≤ len ∧ 3 * (n + len) + 10 ≤ Int_MAX) (hlen0 : pfree ≤ len) (hn : 0 ≤ n) (hP : Arr Pe n n)
    (hI : Arr Iw len pfree) (hL : Arr Len n n) (h0 : 0 ≤ pme1) (h1 : pme1 ≤ pfree)
    (h : Mem Iw.at Pe.at C O pme1) (hlen : ∀ x ∈ O, Len.at x = (C x).length)
    (hO : ∀ x ∈ O, 0 ≤ x ∧ x < n) (hneg : ∀ x, 0 ≤ x → x < n → x ∉ O → Pe.at x < 0)
    (hv : ∀ c, 0 ≤ c → c < pfree → 0 ≤ Iw.at c ∧ Iw.at c < n) :
    Spec (gcMark n Pe Iw >>= fun mk => gcCompress pme1 pfree mk.1 mk.2 Len) (fun r =>
      Arr r.1 n n ∧ r.2.2.1 = ∑ x ∈ O, ((C x).length : Int) ∧ r.2.2.1 ≤ pme1 ∧
      r.2.2.2 = r.2.2.1 + (pfree - pme1) ∧ Arr r.2.1 len r.2.2.2 ∧
      Mem r.2.1.at r.1.at C O r.2.2.1 ∧ (∀ x, x ∉ O → r.1.at x = Pe.at x) ∧
      (∀ k, 0 ≤ k → k < pfree - pme1 → r.2.1.at (r.2.2.1 + k) = Iw.at (pme1 + k)) ∧
      ∀ c, 0 ≤ c → c < r.2.2.2 → 0 ≤ r.2.1.at c ∧ r.2.1.at c < n) := by
  refine Spec.bind (gcMark_spec (by omega) hn hP hI h h1 hO hneg) ?_
  rintro ⟨Pe1, Iw1⟩ ⟨a1, a2, hmk⟩
  simp only at a1 a2 hmk ⊢
  unfold gcCompress
  rw [ck_bind (by omega)]
  have hfuel : pme1.toNat ≤ Iw1.length := by
    by_cases hp : pfree = 0
    · have : pme1 = 0 := by omega
      subst this; simp
    · have := a2.m_le (by omega)
      have := a2.len
      omega
  refine Spec.bind (whileM_spec (GcInv n len pfree pme1 O C Pe.at Pe1.at Iw.at Iw1.at)
    (fun s => (pme1 - s.psrc).toNat)
    (fun s => GcInv n len pfree pme1 O C Pe.at Pe1.at Iw.at Iw1.at s ∧ s.psrc = pme1) ?_ ?_ ?_) ?_
  · have hE : O.filter (fun x => Pe.at x < 0) = ∅ := by
      rw [Finset.filter_eq_empty_iff]
      intro x hx
      have := h.lo x hx
      omega
    refine ⟨a1, a2, le_rfl, le_rfl, h0, ?_, ?_, ?_, ?_, fun _ _ => rfl, fun c _ _ => by simp only at *; omega⟩ <;>
      simp only
    · rw [hE]; simp
    · intro x hx
      exact Or.inr (h.lo x hx)
    · rw [hE]
      exact ⟨by simp, by simp, by simp, by simp, by simp⟩
    · intro x _; trivial
  · simp only; omega
  · intro s hs
    refine Spec.pure ?_
    by_cases hlt : s.psrc < pme1
    · rw [if_pos (by simp; omega)]
      refine (gcStep_spec hB hL hlen h h1 hO hmk hv hs hlt).mono ?_
      rintro s' ⟨b1, b2⟩
      have := b1.st
      exact ⟨b1, by omega⟩
    · rw [if_neg (by simp; omega)]
      have := hs.st
      exact ⟨hs, by omega⟩
  · rintro g ⟨hg, eg⟩
    have hR : O.filter (fun x => Pe.at x < g.psrc) = O := by
      refine Finset.filter_true_of_mem fun x hx => ?_
      have := h.hi x hx
      have := h.pos hx
      omega
    have hsum := hg.sum
    have hmem := hg.mem
    have hrest := hg.rest
    have hd0 := hg.d0
    have hds := hg.ds
    have haI := hg.aI
    have hsrc := hg.src
    have hval := hg.val
    rw [hR] at hsum hmem hrest
    rw [eg] at hsrc hds
    have hml : 0 < pfree → pfree ≤ len := fun hp => haI.m_le hp
    rw [ck_bind (by omega), show pfree - 1 + 1 = pfree by omega]
    refine Spec.bind (forI_int h1 (fun j (r : Int × Buf Int) => r.1 = g.pdst + (j - pme1) ∧
      Arr r.2 len pfree ∧ (∀ c, c < g.pdst ∨ j ≤ c → r.2.at c = g.Iw.at c) ∧
      ∀ k, 0 ≤ k → k < j - pme1 → r.2.at (g.pdst + k) = Iw.at (pme1 + k)) ?_ ?_) ?_
    · exact ⟨by simp, haI, fun _ _ => rfl, fun k _ _ => by omega⟩
    · rintro j ⟨a, I⟩ hj0 hj1 ⟨e1, c1, c2, c3⟩
      simp only at e1 c1 c2 c3 ⊢
      subst e1
      have := hml (by omega)
      rw [c1.rd (by omega) hj1, ok_bind, c1.wr (by omega) (by omega), ok_bind, ck_bind (by omega)]
      refine Spec.pure ⟨by simp only; omega, c1.put (by omega) (by omega) _, ?_, ?_⟩
      · intro c hc
        simp only
        rw [c1.at_put (by omega) (by omega), if_neg (by omega)]
        exact c2 c (by omega)
      · intro k hk0 hk1
        simp only
        rw [c1.at_put (by omega) (by omega)]
        split
        · have e : k = j - pme1 := by omega
          have e' : pme1 + k = j := by omega
          rw [e', c2 j (by omega), hsrc j (by omega), hmk.oth]
          intro x hx
          have := h.hi x hx
          have := h.pos hx
          omega
        · exact c3 k hk0 (by omega)
    · rintro ⟨a, I⟩ ⟨e1, c1, c2, c3⟩
      simp only at e1 c1 c2 c3 ⊢
      refine Spec.pure ⟨hg.aP, hsum, hds, e1, c1.mono (by simp only; omega), ?_, ?_, c3, ?_⟩ <;>
        simp only
      · refine hmem.congr (fun _ _ => rfl) (fun _ _ => rfl) hmem.hi ?_
        intro x hx c _ hc
        have := hmem.hi x hx
        exact c2 c (by omega)
      · intro x hx
        rw [hrest x hx, hmk.peo x hx]
      · intro c hc0 hc1
        by_cases hc : c < g.pdst
        · rw [c2 c (by omega)]; exact hval c hc0 hc
        · have := c3 (c - g.pdst) (by omega) (by omega)
          rw [show g.pdst + (c - g.pdst) = c by omega] at this
          rw [this]
          exact hv _ (by omega) (by omega)

end Verif
