import Verif.Lemmas.AmdConstruct

/-!
# The two scans of `AMD_2`
-/

namespace Verif

variable {n iwlen me : Int} {V : Finset Int}

/-! ## clear_flag -/

theorem clear_flag_spec {wflg wbig : Int} {W : Buf Int} (hn : 0 ≤ n) (aW : Arr W n n)
    (hlt : ∀ x, 0 ≤ x → x < n → W.at x < wflg) :
    Spec (clear_flag wflg wbig W n) (fun r => Arr r.2 n n ∧ 2 ≤ r.1 ∧
      (r.1 = 2 ∨ r.1 < wbig) ∧ (∀ x, 0 ≤ x → x < n → r.2.at x < r.1) ∧
      ∀ x, 0 ≤ x → x < n → (r.2.at x = 0 ↔ W.at x = 0)) := by
  unfold clear_flag
  split
  · refine Spec.bind (forI_int hn (fun j (U : Buf Int) => Arr U n n ∧
        (∀ x, x < j → U.at x = if W.at x ≠ 0 then 1 else W.at x) ∧ ∀ x, j ≤ x → U.at x = W.at x)
        ?_ ?_) ?_
    · refine ⟨aW, fun x hx => ?_, fun _ _ => rfl⟩
      have : W.at x = 0 := by
        unfold Buf.at
        rw [if_pos hx]
      simp [this]
    · rintro j U hj0 hj1 ⟨h1, h2, h3⟩
      rw [h1.rd hj0 hj1, ok_bind, h3 j le_rfl]
      split
      · next h =>
        rw [h1.wr hj0 hj1]
        refine Spec.ok ⟨h1.put hj0 hj1 _, fun x hx => ?_, fun x hx => ?_⟩
        · rw [h1.at_put hj0 hj1]
          split
          · next e => subst e; rw [if_pos h]
          · exact h2 x (by omega)
        · rw [h1.at_put hj0 hj1, if_neg (by omega)]; exact h3 x (by omega)
      · next h =>
        refine Spec.pure ⟨h1, fun x hx => ?_, fun x hx => h3 x (by omega)⟩
        by_cases e : x = j
        · subst e; rw [h3 x le_rfl, if_neg h]
        · exact h2 x (by omega)
    · rintro U ⟨h1, h2, h3⟩
      refine Spec.pure ⟨h1, le_rfl, Or.inl rfl, fun x x0 x1 => ?_, fun x x0 x1 => ?_⟩
      · simp only; rw [h2 x x1]; split <;> omega
      · simp only; rw [h2 x x1]; split
        · next h => simp [h]
        · rfl
  · exact Spec.pure ⟨aW, by simp only; omega, Or.inr (by simp only; omega), hlt, fun _ _ _ => Iff.rfl⟩

/-! ## Scan 1 -/

/-- Weight in the part `P` of the pivot element of the variables adjacent to element `e`. -/
def scanSum (E : Int → List Int) (wt : Int → Int) (P : List Int) (e : Int) : Int :=
  ((P.filter (fun i => e ∈ E i)).map wt).sum

theorem scanSum_nonneg {E : Int → List Int} {wt : Int → Int} {P : List Int} {e : Int}
    (h : ∀ i ∈ P, 0 ≤ wt i) : 0 ≤ scanSum E wt P e := by
  unfold scanSum
  refine List.sum_nonneg fun x hx => ?_
  obtain ⟨i, hi, rfl⟩ := List.mem_map.mp hx
  exact h i (List.mem_filter.mp hi).1

theorem scanSum_append {E : Int → List Int} {wt : Int → Int} {P Q : List Int} {e : Int} :
    scanSum E wt (P ++ Q) e = scanSum E wt P e + scanSum E wt Q e := by
  simp [scanSum]

theorem scanSum_singleton {E : Int → List Int} {wt : Int → Int} {i e : Int} :
    scanSum E wt [i] e = if e ∈ E i then wt i else 0 := by
  unfold scanSum
  by_cases h : e ∈ E i <;> simp [h]

theorem scanSum_pos {E : Int → List Int} {wt : Int → Int} {P : List Int} {e i : Int}
    (h : ∀ i ∈ P, 0 < wt i) (hi : i ∈ P) (he : e ∈ E i) : wt i ≤ scanSum E wt P e := by
  obtain ⟨P1, P2, rfl⟩ := List.append_of_mem hi
  rw [show P1 ++ i :: P2 = P1 ++ ([i] ++ P2) by simp, scanSum_append, scanSum_append,
    scanSum_singleton, if_pos he]
  have h1 := scanSum_nonneg (E := E) (wt := wt) (P := P1) (e := e)
    (fun x hx => (h x (by simp [hx])).le)
  have h2 := scanSum_nonneg (E := E) (wt := wt) (P := P2) (e := e)
    (fun x hx => (h x (by simp [hx])).le)
  omega

theorem scanSum_zero {E : Int → List Int} {wt : Int → Int} {P : List Int} {e : Int}
    (h : ∀ i ∈ P, e ∉ E i) : scanSum E wt P e = 0 := by
  unfold scanSum
  rw [List.filter_eq_nil_iff.mpr (by simpa using h)]
  rfl

/-- The flag of element `e` after the variables `P` are scanned. -/
def scan1W (E : Int → List Int) (wt w0 dg : Int → Int) (wf : Int) (P : List Int) (e : Int) : Int :=
  if w0 e ≠ 0 ∧ ∃ i ∈ P, e ∈ E i then wf + dg e - scanSum E wt P e else w0 e

/-- The elements of one variable. -/
theorem scan1Elems_spec {Iw Degree W : Buf Int} {p nvi wf pf : Int} {l : List Int}
    {f : Int → Int} (aI : Arr Iw iwlen pf) (aD : Arr Degree n n) (aW : Arr W n n)
    (hl : l.Nodup) (hr : ∀ e ∈ l, 0 ≤ e ∧ e < n) (hb : Blk Iw.at p l) (hp : 0 ≤ p)
    (hpf : p + l.length ≤ pf)
    (hf : ∀ e ∈ l, f e = if W.at e ≥ wf then W.at e - nvi else if W.at e ≠ 0
      then Degree.at e + (wf - nvi) else W.at e)
    (hck : ∀ e ∈ l, -Int_MAX - 1 ≤ f e ∧ f e ≤ Int_MAX) :
    Spec (forI p (p + l.length) W (amd2Scan1Elem nvi (wf - nvi) wf Iw Degree)) (fun W' => Arr W' n n ∧
      ∀ x, W'.at x = if x ∈ l then f x else W.at x) := by
  refine (forI_int (by omega) (fun j (U : Buf Int) => ∃ k : Nat, j = p + k ∧ k ≤ l.length ∧ Arr U n n ∧
    ∀ x, U.at x = if x ∈ l.take k then f x else W.at x) ?_ ?_).mono ?_
  · exact ⟨0, by simp, by simp, aW, by simp⟩
  · rintro j U hj0 hj1 ⟨k, rfl, hk, h1, h2⟩
    have hkl : k < l.length := by omega
    have ei : Iw.at (p + k) = l[k] := hb k _ (List.getElem?_eq_getElem hkl)
    have hmem : l[k] ∈ l := List.getElem_mem hkl
    have hrr := hr _ hmem
    have htk : l.take (k + 1) = l.take k ++ [l[k]] := by
      rw [List.take_add_one, List.getElem?_eq_getElem hkl]; rfl
    have hnot : l[k] ∉ l.take k := by
      intro hc
      have hd := hl
      rw [← List.take_append_drop k l, List.nodup_append] at hd
      have hm : l[k] ∈ l.drop k := by rw [List.drop_eq_getElem_cons hkl]; exact List.mem_cons_self
      exact hd.2.2 _ hc _ hm rfl
    have eU : U.at l[k] = W.at l[k] := by rw [h2, if_neg hnot]
    have hfin : ∀ v, v = f l[k] → Spec (wr U l[k] v) (fun U' => ∃ k' : Nat, p + k + 1 = p + k' ∧
        k' ≤ l.length ∧ Arr U' n n ∧ ∀ x, U'.at x = if x ∈ l.take k' then f x else W.at x) := by
      intro v hv
      rw [h1.wr hrr.1 hrr.2]
      refine Spec.ok ⟨k + 1, by push_cast; omega, hkl, h1.put hrr.1 hrr.2 _, fun x => ?_⟩
      rw [h1.at_put hrr.1 hrr.2, htk]
      simp only [List.mem_append, List.mem_singleton]
      by_cases hx : x = l[k]
      · simp only [hx, or_true, if_true]; exact hv
      · simp only [hx, or_false, if_false]; exact h2 x
    unfold amd2Scan1Elem
    rw [aI.rd (by omega) (by omega), ok_bind, ei, h1.rd hrr.1 hrr.2, ok_bind, eU]
    have hff := hf _ hmem
    split
    · next h =>
      rw [if_pos h] at hff
      rw [ck_bind (hff ▸ hck _ hmem)]
      exact hfin _ hff.symm
    · next h =>
      rw [if_neg h] at hff
      split
      · next h' =>
        rw [if_pos h'] at hff
        rw [aD.rd hrr.1 hrr.2, ok_bind, ck_bind (hff ▸ hck _ hmem)]
        exact hfin _ hff.symm
      · next h' => rw [if_neg h'] at hff; exact hfin _ hff.symm
  · rintro U ⟨k, hk1, hk2, h1, h2⟩
    have : k = l.length := by omega
    subst this
    rw [List.take_length] at h2
    exact ⟨h1, h2⟩

theorem scan1_spec {s : Amd2} {pme1 : Int} {M : List Int} {E : Int → List Int} {wt : Int → Int}
    (hB : 0 ≤ n ∧ 0 ≤ iwlen ∧ 3 * (n + iwlen) + 10 ≤ Int_MAX)
    (hwf : 0 ≤ s.wflg ∧ s.wflg + n ≤ Int_MAX) (hwn : ∀ i ∈ M, wt i ≤ n)
    (hdn : ∀ e, s.W.at e ≠ 0 → (∃ i ∈ M, e ∈ E i) → s.Degree.at e ≤ n)
    (aP : Arr s.Pe n n) (aI : Arr s.Iw iwlen s.pfree) (aNv : Arr s.Nv n n) (aW : Arr s.W n n)
    (aE : Arr s.Elen n n) (aD : Arr s.Degree n n)
    (hMr : ∀ i ∈ M, 0 ≤ i ∧ i < n) (hp : 0 ≤ pme1) (hpf : pme1 + M.length ≤ s.pfree)
    (hb : Blk s.Iw.at pme1 M) (hE : ∀ i ∈ M, s.Elen.at i = (E i).length)
    (hEb : ∀ i ∈ M, Blk s.Iw.at (s.Pe.at i) (E i) ∧ 0 ≤ s.Pe.at i ∧
      s.Pe.at i + (E i).length ≤ s.pfree)
    (hEn : ∀ i ∈ M, (E i).Nodup) (hEr : ∀ i ∈ M, ∀ e ∈ E i, 0 ≤ e ∧ e < n)
    (hnv : ∀ i ∈ M, s.Nv.at i = -(wt i)) (hwt : ∀ i ∈ M, 0 < wt i)
    (hlt : ∀ x, 0 ≤ x → x < n → s.W.at x < s.wflg)
    (hdg : ∀ e, s.W.at e ≠ 0 → (∃ i ∈ M, e ∈ E i) → scanSum E wt M e ≤ s.Degree.at e) :
    Spec (forI pme1 (pme1 + M.length) s amd2Scan1) (fun s' => ∃ W, s' = { s with W := W } ∧ Arr W n n ∧
      ∀ e, W.at e = scan1W E wt s.W.at s.Degree.at s.wflg M e) := by
  refine (forI_int (by omega) (fun j (s' : Amd2) => ∃ (k : Nat) (W : Buf Int), j = pme1 + k ∧
    k ≤ M.length ∧ s' = { s with W := W } ∧ Arr W n n ∧
    ∀ e, W.at e = scan1W E wt s.W.at s.Degree.at s.wflg (M.take k) e) ?_ ?_).mono ?_
  · exact ⟨0, s.W, by simp, by simp, rfl, aW, fun e => by simp [scan1W]⟩
  · rintro j s' hj0 hj1 ⟨k, W, rfl, hk, rfl, h1, h2⟩
    have hkl : k < M.length := by omega
    have ei : s.Iw.at (pme1 + k) = M[k] := hb k _ (List.getElem?_eq_getElem hkl)
    have hmem : M[k] ∈ M := List.getElem_mem hkl
    have hrr := hMr _ hmem
    have htk : M.take (k + 1) = M.take k ++ [M[k]] := by
      rw [List.take_add_one, List.getElem?_eq_getElem hkl]; rfl
    have hext : ∀ e, e ∉ E M[k] → scan1W E wt s.W.at s.Degree.at s.wflg (M.take (k + 1)) e
        = scan1W E wt s.W.at s.Degree.at s.wflg (M.take k) e := by
      intro e he
      unfold scan1W
      rw [htk, scanSum_append, scanSum_singleton, if_neg he]
      have : (∃ i ∈ M.take k ++ [M[k]], e ∈ E i) ↔ ∃ i ∈ M.take k, e ∈ E i := by
        constructor
        · rintro ⟨i, hi, hei⟩
          rcases List.mem_append.mp hi with h | h
          · exact ⟨i, h, hei⟩
          · rw [List.mem_singleton] at h; subst h; exact absurd hei he
        · rintro ⟨i, hi, hei⟩; exact ⟨i, List.mem_append_left _ hi, hei⟩
      simp only [this, add_zero]
    unfold amd2Scan1
    simp only
    rw [aI.rd (by omega) (by omega), ok_bind, ei, aE.rd hrr.1 hrr.2, ok_bind, hE _ hmem]
    split
    · next hpos =>
      obtain ⟨b1, b2, b3⟩ := hEb _ hmem
      have hw0 := hwt _ hmem
      have hwi := hwn _ hmem
      have hnvi := hnv _ hmem
      have hpl := aI.m_le (by omega)
      rw [aNv.rd hrr.1 hrr.2, ok_bind, ck_bind (by omega), ck_bind (by omega), aP.rd hrr.1 hrr.2, ok_bind,
        ck_bind (by omega)]
      refine Spec.bind (scan1Elems_spec (f := scan1W E wt s.W.at s.Degree.at s.wflg (M.take (k + 1)))
        aI aD h1 (hEn _ hmem) (hEr _ hmem) b1 b2 b3 ?_ ?_) ?_
      · intro e he
        have her := hEr _ hmem e he
        have hlt' := hlt e her.1 her.2
        rw [h2, hnv _ hmem]
        unfold scan1W
        rw [htk, scanSum_append, scanSum_singleton, if_pos he]
        have hex : ∃ i ∈ M.take k ++ [M[k]], e ∈ E i :=
          ⟨M[k], List.mem_append_right _ (List.mem_singleton_self _), he⟩
        by_cases hw : s.W.at e = 0
        · simp only [hw, ne_eq, not_true_eq_false, false_and, if_false]
          rw [hw] at hlt'
          rw [if_neg (by omega)]
        · by_cases hprev : ∃ i ∈ M.take k, e ∈ E i
          · have hge : scanSum E wt (M.take k) e ≤ s.Degree.at e := by
              have := hdg e hw ⟨M[k], hmem, he⟩
              rw [← List.take_append_drop k M, scanSum_append] at this
              have h0 := scanSum_nonneg (E := E) (wt := wt) (P := M.drop k) (e := e)
                (fun i hi => (hwt i (List.mem_of_mem_drop hi)).le)
              omega
            simp only [ne_eq, hw, not_false_eq_true, true_and, hprev, hex, if_true]
            rw [if_pos (by omega)]
            omega
          · have hz : scanSum E wt (M.take k) e = 0 :=
              scanSum_zero fun i hi hei => hprev ⟨i, hi, hei⟩
            simp only [ne_eq, hw, not_false_eq_true, true_and, hprev, hex, if_true, if_false]
            rw [if_neg (by omega)]
            omega
      · intro e he
        unfold scan1W
        split
        · next h =>
          have h1 := hdg e h.1 ⟨M[k], hmem, he⟩
          have h2 := hdn e h.1 ⟨M[k], hmem, he⟩
          rw [← List.take_append_drop (k + 1) M, scanSum_append] at h1
          have h3 := scanSum_nonneg (E := E) (wt := wt) (P := M.drop (k + 1)) (e := e)
            (fun i hi => (hwt i (List.mem_of_mem_drop hi)).le)
          have h4 := scanSum_nonneg (E := E) (wt := wt) (P := M.take (k + 1)) (e := e)
            (fun i hi => (hwt i (List.mem_of_mem_take hi)).le)
          omega
        · next h =>
          have hz : s.W.at e = 0 := by
            by_contra hz
            exact h ⟨hz, M[k], by rw [htk]; exact List.mem_append_right _ (List.mem_singleton_self _), he⟩
          have := Int_MAX_pos
          omega
      · rintro W' ⟨c1, c2⟩
        refine Spec.pure ⟨k + 1, W', by push_cast; omega, hkl, rfl, c1, fun e => ?_⟩
        rw [c2]
        split
        · rfl
        · next h => rw [hext e h]; exact h2 e
    · next hpos =>
      have hnil : E M[k] = [] := List.length_eq_zero_iff.mp (by omega)
      refine Spec.pure ⟨k + 1, W, by push_cast; omega, hkl, rfl, h1, fun e => ?_⟩
      rw [hext e (by rw [hnil]; simp)]
      exact h2 e
  · rintro s' ⟨k, W, hk1, hk2, h0, h1, h2⟩
    have : k = M.length := by omega
    subst this
    rw [List.take_length] at h2
    exact ⟨W, h0, h1, h2⟩

/-! ## Scan 2 -/

/-- Is an element with flag `w` kept by scan 2? -/
def scanKeep (aggr : Bool) (wf w : Int) : Bool := decide (w ≠ 0) && !(aggr && decide (w ≤ wf))

/-- Is an element with flag `w` absorbed by scan 2? -/
def scanAbs (aggr : Bool) (wf w : Int) : Bool := decide (w ≠ 0) && (aggr && decide (w ≤ wf))

theorem take_succ_get {l : List Int} {k : Nat} (hk : k < l.length) :
    l.take (k + 1) = l.take k ++ [l[k]] := by
  rw [List.take_add_one, List.getElem?_eq_getElem hk]; rfl

theorem get_notin_take {l : List Int} (hl : l.Nodup) {k : Nat} (hk : k < l.length) :
    l[k] ∉ l.take k := by
  intro hc
  have hd := hl
  rw [← List.take_append_drop k l, List.nodup_append] at hd
  have hm : l[k] ∈ l.drop k := by rw [List.drop_eq_getElem_cons hk]; exact List.mem_cons_self
  exact hd.2.2 _ hc _ hm rfl

theorem scan2Elems_spec {s : Amd2} {aggr : Bool} {p : Int} {l : List Int} {x : Int → Int}
    (hB : 0 ≤ n ∧ 0 ≤ iwlen ∧ 3 * (n + iwlen) + 10 ≤ Int_MAX)
    (hme : 0 ≤ me ∧ me < n)
    (hx : ∀ e ∈ l, 0 ≤ x e ∧ (s.W.at e ≠ 0 → s.W.at e - s.wflg ≤ x e)) (hxs : (l.map x).sum ≤ iwlen)
    (aP : Arr s.Pe n n) (aI : Arr s.Iw iwlen s.pfree) (aW : Arr s.W n n)
    (hl : l.Nodup) (hr : ∀ e ∈ l, 0 ≤ e ∧ e < n) (hb : Blk s.Iw.at p l) (hp : 0 ≤ p)
    (hpf : p + l.length ≤ s.pfree) (hge : ∀ e ∈ l, s.W.at e ≠ 0 → s.wflg ≤ s.W.at e)
    (hval : ∀ c, 0 ≤ c → c < s.pfree → 0 ≤ s.Iw.at c ∧ s.Iw.at c < n) :
    Spec (forI p (p + l.length) { pn := p, deg := 0, hash := 0, s := s } (amd2Scan2Elem aggr me))
      (fun a => ∃ Iw Pe W, a.s = { s with Iw := Iw, Pe := Pe, W := W } ∧ Arr Iw iwlen s.pfree ∧
        Arr Pe n n ∧ Arr W n n ∧ 0 ≤ a.deg ∧ (a.deg ≤ iwlen ∧
          a.deg = ((l.filter (fun e => scanKeep aggr s.wflg (s.W.at e))).map (fun e => s.W.at e - s.wflg)).sum) ∧
        a.pn = p + (l.filter (fun e => scanKeep aggr s.wflg (s.W.at e))).length ∧
        Blk Iw.at p (l.filter (fun e => scanKeep aggr s.wflg (s.W.at e))) ∧
        (∀ c, c < p ∨ p + l.length ≤ c → Iw.at c = s.Iw.at c) ∧
        (∀ x, Pe.at x = if x ∈ l ∧ scanAbs aggr s.wflg (s.W.at x) then FLIP me else s.Pe.at x) ∧
        (∀ x, W.at x = if x ∈ l ∧ scanAbs aggr s.wflg (s.W.at x) then 0 else s.W.at x) ∧
        ∀ c, 0 ≤ c → c < s.pfree → 0 ≤ Iw.at c ∧ Iw.at c < n) := by
  set kp : Int → Bool := fun e => scanKeep aggr s.wflg (s.W.at e) with hkp
  set ab : Int → Bool := fun e => scanAbs aggr s.wflg (s.W.at e) with hab
  refine (forI_int (by omega) (fun j (a : Scan2St) => ∃ (k : Nat) (Iw Pe W : Buf Int), j = p + k ∧
    k ≤ l.length ∧ a.s = { s with Iw := Iw, Pe := Pe, W := W } ∧ Arr Iw iwlen s.pfree ∧
    Arr Pe n n ∧ Arr W n n ∧ (0 ≤ a.deg ∧ a.deg ≤ ((l.take k).map x).sum ∧
      a.deg = (((l.take k).filter kp).map (fun e => s.W.at e - s.wflg)).sum) ∧
    a.pn = p + ((l.take k).filter kp).length ∧
    Blk Iw.at p ((l.take k).filter kp) ∧
    (∀ c, c < p ∨ j ≤ c → Iw.at c = s.Iw.at c) ∧
    (∀ x, Pe.at x = if x ∈ l.take k ∧ ab x then FLIP me else s.Pe.at x) ∧
    (∀ x, W.at x = if x ∈ l.take k ∧ ab x then 0 else s.W.at x) ∧
    ∀ c, 0 ≤ c → c < s.pfree → 0 ≤ Iw.at c ∧ Iw.at c < n) ?_ ?_).mono ?_
  · exact ⟨0, s.Iw, s.Pe, s.W, by simp, by simp, rfl, aI, aP, aW, by simp, by simp,
      by simp [Blk.nil], fun _ _ => rfl, by simp, by simp, hval⟩
  · rintro j ⟨pn, dg, hs, s'⟩ hj0 hj1 ⟨k, Iw, Pe, W, rfl, hk, h1, h2, h3, h4, h5, h6, h7, h8, h9, h10, h11⟩
    simp only at h1 h5 h6
    subst h1
    have hkl : k < l.length := by omega
    have ei : Iw.at (p + k) = l[k] := by
      rw [h8 _ (Or.inr le_rfl)]; exact hb k _ (List.getElem?_eq_getElem hkl)
    have hmem : l[k] ∈ l := List.getElem_mem hkl
    have hrr := hr _ hmem
    have htk := take_succ_get hkl
    have hnot := get_notin_take hl hkl
    have eW : W.at l[k] = s.W.at l[k] := by rw [h10, if_neg (fun h => hnot h.1)]
    have hlen : ((l.take k).filter kp).length ≤ k :=
      (List.length_filter_le _ _).trans (by simp)
    have hmemk : ∀ x, x ∈ l.take (k + 1) ↔ x ∈ l.take k ∨ x = l[k] := by
      intro x; rw [htk, List.mem_append, List.mem_singleton]
    have hxk := hx _ hmem
    have hmap : ((l.take (k + 1)).map x).sum = ((l.take k).map x).sum + x l[k] := by
      rw [htk, List.map_append, List.sum_append, List.map_singleton, List.sum_singleton]
    have hle : ((l.take (k + 1)).map x).sum ≤ (l.map x).sum := by
      have h := congrArg (fun l => (l.map x).sum) (List.take_append_drop (k + 1) l)
      simp only [List.map_append, List.sum_append] at h
      have h0 : 0 ≤ ((l.drop (k + 1)).map x).sum := List.sum_nonneg fun y hy => by
        obtain ⟨e, he, rfl⟩ := List.mem_map.mp hy
        exact (hx e (List.mem_of_mem_drop he)).1
      omega
    unfold amd2Scan2Elem
    simp only
    rw [h2.rd (by omega) (by omega), ok_bind, ei, h4.rd hrr.1 hrr.2, ok_bind, eW]
    by_cases hw : s.W.at l[k] = 0
    · rw [if_neg (by simpa using hw)]
      have hk0 : kp l[k] = false := by simp [hkp, scanKeep, hw]
      have ha0 : ab l[k] = false := by simp [hab, scanAbs, hw]
      have hnab : ∀ x, x ∈ l.take (k + 1) ∧ ab x ↔ x ∈ l.take k ∧ ab x := by
        intro x; rw [hmemk]
        constructor
        · rintro ⟨h | rfl, h'⟩
          · exact ⟨h, h'⟩
          · rw [ha0] at h'; exact absurd h' (by simp)
        · rintro ⟨h, h'⟩; exact ⟨Or.inl h, h'⟩
      have hf : (l.take (k + 1)).filter kp = (l.take k).filter kp := by
        rw [htk, List.filter_append]; simp [hk0]
      refine Spec.pure ⟨k + 1, Iw, Pe, W, by push_cast; omega, hkl, rfl, h2, h3, h4,
        ⟨h5.1, by simp only; omega, by rw [hf]; exact h5.2.2⟩, ?_, ?_, ?_, ?_, ?_,
        h11⟩
      · rw [hf]; exact h6
      · rw [hf]; exact h7
      · exact fun c hc => h8 c (by omega)
      · intro x; simp only [hnab]; exact h9 x
      · intro x; simp only [hnab]; exact h10 x
    · have hwge := hge _ hmem hw
      have hwle := hxk.2 hw
      rw [if_pos (by simpa using hw), ck_bind (by omega)]
      by_cases hag : aggr = true ∧ ¬ (s.W.at l[k] - s.wflg > 0)
      · rw [if_pos hag, ck_bind (FLIP_ck (by omega)), h3.wr hrr.1 hrr.2, ok_bind, h4.wr hrr.1 hrr.2, ok_bind]
        have hlw : s.W.at l[k] ≤ s.wflg := by omega
        have hk0 : kp l[k] = false := by simp [hkp, scanKeep, hag.1, hlw]
        have ha0 : ab l[k] = true := by simp [hab, scanAbs, hw, hag.1, hlw]
        have hf : (l.take (k + 1)).filter kp = (l.take k).filter kp := by
          rw [htk, List.filter_append]; simp [hk0]
        refine Spec.pure ⟨k + 1, Iw, _, _, by push_cast; omega, hkl, rfl, h2, h3.put hrr.1 hrr.2 _,
          h4.put hrr.1 hrr.2 _, ⟨h5.1, by simp only; omega, by rw [hf]; exact h5.2.2⟩, ?_, ?_, ?_, ?_, ?_, h11⟩
        · rw [hf]; exact h6
        · rw [hf]; exact h7
        · exact fun c hc => h8 c (by omega)
        · intro x
          rw [h3.at_put hrr.1 hrr.2]
          by_cases hx : x = l[k]
          · subst hx; simp [hmemk, ha0]
          · simp only [hx, if_false, hmemk, or_false]; exact h9 x
        · intro x
          rw [h4.at_put hrr.1 hrr.2]
          by_cases hx : x = l[k]
          · subst hx; simp [hmemk, ha0]
          · simp only [hx, if_false, hmemk, or_false]; exact h10 x
      · have hml := h2.m_le (by omega)
        have hpn0 : 0 ≤ pn := by omega
        have hpn1 : pn < s.pfree := by omega
        rw [if_neg hag, ck_bind (by omega), h2.wr hpn0 (by omega), ok_bind, ck_bind (by omega)]
        have hge' := hge _ hmem hw
        have hk0 : kp l[k] = true := by
          by_cases ha : aggr = true
          · have : ¬ s.W.at l[k] ≤ s.wflg := fun h => hag ⟨ha, by omega⟩
            simp [hkp, scanKeep, hw, this]
          · simp [hkp, scanKeep, hw, ha]
        have ha0 : ab l[k] = false := by
          by_cases ha : aggr = true
          · have : ¬ s.W.at l[k] ≤ s.wflg := fun h => hag ⟨ha, by omega⟩
            simp [hab, scanAbs, this]
          · simp [hab, scanAbs, ha]
        have hnab : ∀ x, x ∈ l.take (k + 1) ∧ ab x ↔ x ∈ l.take k ∧ ab x := by
          intro x; rw [hmemk]
          constructor
          · rintro ⟨h | rfl, h'⟩
            · exact ⟨h, h'⟩
            · rw [ha0] at h'; exact absurd h' (by simp)
          · rintro ⟨h, h'⟩; exact ⟨Or.inl h, h'⟩
        have hf : (l.take (k + 1)).filter kp = (l.take k).filter kp ++ [l[k]] := by
          rw [htk, List.filter_append]; simp [hk0]
        have hv : ∀ c, (Iw.put pn l[k]).at c = if c = pn then l[k] else Iw.at c :=
          fun c => h2.at_put hpn0 (by omega) _ _
        refine Spec.pure ⟨k + 1, _, Pe, W, by push_cast; omega, hkl, rfl, h2.put hpn0 (by omega) _, h3, h4,
          ⟨by simp only; omega, by simp only; omega, by
            rw [hf, List.map_append, List.sum_append, List.map_singleton, List.sum_singleton]
            simp only; omega⟩, ?_, ?_, ?_, ?_, ?_, ?_⟩
        · rw [hf]; simp only [List.length_append, List.length_singleton]; push_cast; omega
        · rw [hf]
          exact h7.snoc (fun c c0 c1 => by rw [hv, if_neg (by omega)]) (by rw [hv, if_pos (by omega)])
        · intro c hc; rw [hv, if_neg (by omega)]; exact h8 c (by omega)
        · intro x; simp only [hnab]; exact h9 x
        · intro x; simp only [hnab]; exact h10 x
        · intro c c0 c1
          rw [hv]
          split
          · exact hrr
          · exact h11 c c0 c1
  · rintro a ⟨k, Iw, Pe, W, hk1, hk2, h1, h2, h3, h4, h5, h6, h7, h8, h9, h10, h11⟩
    have : k = l.length := by omega
    subst this
    rw [List.take_length] at h5 h6 h7
    simp only [List.take_length] at h9 h10
    exact ⟨Iw, Pe, W, h1, h2, h3, h4, h5.1, ⟨by omega, h5.2.2⟩, h6, h7, h8, h9, h10, h11⟩

theorem scan2Vars_spec {a : Scan2St} {p : Int} {l : List Int}
    (hB : 0 ≤ n ∧ 0 ≤ iwlen ∧ 3 * (n + iwlen) + 10 ≤ Int_MAX)
    (hdg : 0 ≤ a.deg ∧ a.deg ≤ iwlen)
    (hsum : ((l.filter (fun j => decide (0 < a.s.Nv.at j))).map a.s.Nv.at).sum ≤ n)
    (aNv : Arr a.s.Nv n n)
    (aI : Arr a.s.Iw iwlen a.s.pfree) (hr : ∀ e ∈ l, 0 ≤ e ∧ e < n) (hb : Blk a.s.Iw.at p l)
    (hpn : 0 ≤ a.pn) (hp : a.pn ≤ p) (hpf : p + l.length ≤ a.s.pfree)
    (hval : ∀ c, 0 ≤ c → c < a.s.pfree → 0 ≤ a.s.Iw.at c ∧ a.s.Iw.at c < n) :
    Spec (forI p (p + l.length) a amd2Scan2Var) (fun a' => ∃ Iw, a'.s = { a.s with Iw := Iw } ∧
      Arr Iw iwlen a.s.pfree ∧
      (a.deg ≤ a'.deg ∧ a'.deg = a.deg + ((l.filter (fun j => decide (0 < a.s.Nv.at j))).map a.s.Nv.at).sum) ∧
      a'.pn = a.pn + (l.filter (fun j => decide (0 < a.s.Nv.at j))).length ∧
      Blk Iw.at a.pn (l.filter (fun j => decide (0 < a.s.Nv.at j))) ∧
      (∀ c, c < a.pn ∨ p + l.length ≤ c → Iw.at c = a.s.Iw.at c) ∧
      ∀ c, 0 ≤ c → c < a.s.pfree → 0 ≤ Iw.at c ∧ Iw.at c < n) := by
  set kp : Int → Bool := fun j => decide (0 < a.s.Nv.at j) with hkp
  refine (forI_int (by omega) (fun j (a' : Scan2St) => ∃ (k : Nat) (Iw : Buf Int), j = p + k ∧
    k ≤ l.length ∧ a'.s = { a.s with Iw := Iw } ∧
      Arr Iw iwlen a.s.pfree ∧ (a.deg ≤ a'.deg ∧
        a'.deg = a.deg + (((l.take k).filter kp).map a.s.Nv.at).sum) ∧
      a'.pn = a.pn + ((l.take k).filter kp).length ∧
      Blk Iw.at a.pn ((l.take k).filter kp) ∧
      (∀ c, c < a.pn ∨ p + k ≤ c → Iw.at c = a.s.Iw.at c) ∧
      ∀ c, 0 ≤ c → c < a.s.pfree → 0 ≤ Iw.at c ∧ Iw.at c < n) ?_ ?_).mono ?_
  · exact ⟨0, a.s.Iw, by simp, by simp, rfl, aI, by simp, by simp, by simp [Blk.nil], fun _ _ => rfl, hval⟩
  · rintro j ⟨pn, dg, hs, s'⟩ hj0 hj1 ⟨k, Iw, rfl, hk, h1, h2, h3, h4, h5, h6, h7⟩
    simp only at h1 h3 h4
    subst h1
    have hkl : k < l.length := by omega
    have ei : Iw.at (p + k) = l[k] := by
      rw [h6 _ (Or.inr le_rfl)]; exact hb k _ (List.getElem?_eq_getElem hkl)
    have hmem : l[k] ∈ l := List.getElem_mem hkl
    have hrr := hr _ hmem
    have htk := take_succ_get hkl
    have hlen : ((l.take k).filter kp).length ≤ k :=
      (List.length_filter_le _ _).trans (by simp)
    unfold amd2Scan2Var
    simp only
    rw [h2.rd (by omega) (by omega), ok_bind, ei, aNv.rd hrr.1 hrr.2, ok_bind]
    by_cases hj : a.s.Nv.at l[k] > 0
    · have hml := h2.m_le (by omega)
      have hk0 : kp l[k] = true := by simpa [hkp] using hj
      have hf : (l.take (k + 1)).filter kp = (l.take k).filter kp ++ [l[k]] := by
        rw [htk, List.filter_append]; simp [hk0]
      have hmap : (((l.take (k + 1)).filter kp).map a.s.Nv.at).sum
          = (((l.take k).filter kp).map a.s.Nv.at).sum + a.s.Nv.at l[k] := by
        rw [hf, List.map_append, List.sum_append, List.map_singleton, List.sum_singleton]
      have hle : (((l.take (k + 1)).filter kp).map a.s.Nv.at).sum ≤ ((l.filter kp).map a.s.Nv.at).sum := by
        have h := congrArg (fun l => ((l.filter kp).map a.s.Nv.at).sum) (List.take_append_drop (k + 1) l)
        simp only [List.filter_append, List.map_append, List.sum_append] at h
        have h0 : 0 ≤ (((l.drop (k + 1)).filter kp).map a.s.Nv.at).sum := List.sum_nonneg fun y hy => by
          obtain ⟨e, he, rfl⟩ := List.mem_map.mp hy
          have := (List.mem_filter.mp he).2
          simp only [hkp, decide_eq_true_eq] at this
          omega
        omega
      rw [if_pos hj, ck_bind (by omega), h2.wr (by omega) (by omega), ok_bind, ck_bind (by omega)]
      have hv : ∀ c, (Iw.put pn l[k]).at c = if c = pn then l[k] else Iw.at c :=
        fun c => h2.at_put (by omega) (by omega) _ _
      refine Spec.pure ⟨k + 1, _, by push_cast; omega, hkl, rfl, h2.put (by omega) (by omega) _,
        ⟨by simp only; omega, by simp only; omega⟩, ?_, ?_, ?_, ?_⟩
      · rw [hf]; simp only [List.length_append, List.length_singleton]; push_cast; omega
      · rw [hf]
        exact h5.snoc (fun c c0 c1 => by rw [hv, if_neg (by omega)]) (by rw [hv, if_pos (by omega)])
      · intro c hc; push_cast at hc; rw [hv, if_neg (by omega)]; exact h6 c (by omega)
      · intro c c0 c1
        rw [hv]
        split
        · exact hrr
        · exact h7 c c0 c1
    · rw [if_neg hj]
      have hk0 : kp l[k] = false := by simpa [hkp] using hj
      have hf : (l.take (k + 1)).filter kp = (l.take k).filter kp := by
        rw [htk, List.filter_append]; simp [hk0]
      refine Spec.pure ⟨k + 1, Iw, by push_cast; omega, hkl, rfl, h2, ⟨h3.1, by rw [hf]; exact h3.2⟩, ?_, ?_, ?_, h7⟩
      · rw [hf]; exact h4
      · rw [hf]; exact h5
      · exact fun c hc => h6 c (by push_cast at hc; omega)
  · rintro a' ⟨k, Iw, hk1, hk2, h1, h2, h3, h4, h5, h6, h7⟩
    have : k = l.length := by omega
    subst this
    rw [List.take_length] at h3 h4 h5
    exact ⟨Iw, h1, h2, h3, h4, h5, h6, h7⟩

end Verif
