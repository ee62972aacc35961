import Verif.Lemmas.AmdScan
import Verif.Lemmas.AmdHash

/-!
# The second scan of `AMD_2`
-/

namespace Verif

variable {n iwlen me : Int} {V : Finset Int}

/-- The pivot element goes to the front of a list, the first element and the first variable to the
end of their parts. -/
theorem Blk.insMe {iw : Int → Int} {p1 p3 pn me : Int} {Ef Af : List Int} (h1 : Blk iw p1 Ef)
    (h2 : Blk iw p3 Af) (e3 : p3 = p1 + Ef.length) (en : pn = p3 + Af.length) {iw1 iw2 iw3 : Int → Int}
    (f1 : ∀ c, iw1 c = if c = pn then iw p3 else iw c)
    (f2 : ∀ c, iw2 c = if c = p3 then iw1 p1 else iw1 c)
    (f3 : ∀ c, iw3 c = if c = p1 then me else iw2 c) :
    Blk iw3 p1 (me :: (Ef.rotate 1 ++ Af.rotate 1)) := by
  cases Ef with
  | nil =>
    simp only [List.length_nil, Nat.cast_zero, add_zero] at e3
    subst e3
    cases Af with
    | nil =>
      simp only [List.rotate_nil, List.append_nil]
      rw [Blk.cons_iff]
      exact ⟨by rw [f3, if_pos rfl], Blk.nil⟩
    | cons a0 At =>
      simp only [List.length_cons, Nat.cast_add, Nat.cast_one] at en
      rw [Blk.cons_iff] at h2
      simp only [List.rotate_nil, List.nil_append, List.rotate_cons_succ, List.rotate_zero]
      rw [Blk.cons_iff]
      refine ⟨by rw [f3, if_pos rfl], h2.2.snoc (fun c c0 c1 => ?_) ?_⟩
      · rw [f3, if_neg (by omega), f2, if_neg (by omega), f1, if_neg (by omega)]
      · rw [f3, if_neg (by omega), f2, if_neg (by omega), f1, if_pos (by omega)]
        exact h2.1
  | cons e0 Et =>
    simp only [List.length_cons, Nat.cast_add, Nat.cast_one] at e3
    rw [Blk.cons_iff] at h1
    cases Af with
    | nil =>
      simp only [List.length_nil, Nat.cast_zero, add_zero] at en
      subst en
      simp only [List.rotate_nil, List.append_nil, List.rotate_cons_succ, List.rotate_zero]
      rw [Blk.cons_iff]
      refine ⟨by rw [f3, if_pos rfl], h1.2.snoc (fun c c0 c1 => ?_) ?_⟩
      · rw [f3, if_neg (by omega), f2, if_neg (by omega), f1, if_neg (by omega)]
      · rw [f3, if_neg (by omega), f2, if_pos (by omega), f1, if_neg (by omega)]
        exact h1.1
    | cons a0 At =>
      simp only [List.length_cons, Nat.cast_add, Nat.cast_one] at en
      rw [Blk.cons_iff] at h2
      simp only [List.rotate_cons_succ, List.rotate_zero]
      rw [Blk.cons_iff, Blk.append_iff]
      refine ⟨by rw [f3, if_pos rfl], h1.2.snoc (fun c c0 c1 => ?_) ?_, ?_⟩
      · rw [f3, if_neg (by omega), f2, if_neg (by omega), f1, if_neg (by omega)]
      · rw [f3, if_neg (by omega), f2, if_pos (by omega), f1, if_neg (by omega)]
        exact h1.1
      · have e : p1 + 1 + ((Et ++ [e0]).length : Int) = p3 + 1 := by
          simp only [List.length_append, List.length_singleton]; push_cast; omega
        rw [e]
        refine h2.2.snoc (fun c c0 c1 => ?_) ?_
        · rw [f3, if_neg (by omega), f2, if_neg (by omega), f1, if_neg (by omega)]
        · rw [f3, if_neg (by omega), f2, if_neg (by omega), f1, if_pos (by omega)]
          exact h2.1

/-- Lists after scan 2: the elements that are kept, the variables that are kept, the whole list. -/
def s2E (aggr : Bool) (s1 : Amd2) (E : Int → List Int) (i : Int) : List Int :=
  (E i).filter (fun e => scanKeep aggr s1.wflg (s1.W.at e))

def s2A (s1 : Amd2) (A : Int → List Int) (i : Int) : List Int :=
  (A i).filter (fun j => decide (0 < s1.Nv.at j))

def s2C (aggr : Bool) (me : Int) (s1 : Amd2) (E A : Int → List Int) (i : Int) : List Int :=
  me :: ((s2E aggr s1 E i).rotate 1 ++ (s2A s1 A i).rotate 1)

/-- Is `i` eliminated together with the pivot? -/
def s2mass (aggr : Bool) (s1 : Amd2) (E A : Int → List Int) (i : Int) : Bool :=
  (s2E aggr s1 E i).isEmpty && (s2A s1 A i).isEmpty

theorem s2mass_iff {aggr : Bool} {s1 : Amd2} {E A : Int → List Int} {i : Int} :
    s2mass aggr s1 E A i = true ↔ s2E aggr s1 E i = [] ∧ s2A s1 A i = [] := by
  simp [s2mass]

/-- The bound of the external degree that scan 2 computes. -/
def s2D (aggr : Bool) (s1 : Amd2) (E A : Int → List Int) (i : Int) : Int :=
  ((s2E aggr s1 E i).map (fun e => s1.W.at e - s1.wflg)).sum + ((s2A s1 A i).map s1.Nv.at).sum

/-- Was element `x` absorbed while `P` was scanned? -/
def s2abs (aggr : Bool) (s1 : Amd2) (E : Int → List Int) (P : List Int) (x : Int) : Prop :=
  (∃ i ∈ P, x ∈ E i) ∧ scanAbs aggr s1.wflg (s1.W.at x) = true

/-- State of scan 2 after the variables `P` of the pivot element `M`. -/
structure Scan2 (n iwlen me : Int) (V O : Finset Int) (C E A : Int → List Int) (wt : Int → Int)
    (aggr : Bool) (pme1 dg0 nv0 : Int) (M P : List Int) (s1 : Amd2) (dg nvp : Int) (s : Amd2) :
    Prop where
  aP : Arr s.Pe n n
  aI : Arr s.Iw iwlen s.pfree
  aL : Arr s.Len n n
  aNv : Arr s.Nv n n
  aN : Arr s.Next n n
  aT : Arr s.Last n n
  aH : Arr s.Head n n
  aW : Arr s.W n n
  aE : Arr s.Elen n n
  aD : Arr s.Degree n n
  pfree : s.pfree = s1.pfree
  mindeg : s.mindeg = s1.mindeg
  wflg : s.wflg = s1.wflg
  lemax : s.lemax = s1.lemax
  nel : s.nel = s1.nel + ((P.filter (s2mass aggr s1 E A)).map wt).sum
  dg : dg = dg0 - ((P.filter (s2mass aggr s1 E A)).map wt).sum
  nvp : nvp = nv0 + ((P.filter (s2mass aggr s1 E A)).map wt).sum
  pe0 : ∀ x, (x ∈ P ∧ s2mass aggr s1 E A x = true) ∨ s2abs aggr s1 E P x → s.Pe.at x = FLIP me
  pe1 : ∀ x, ¬ (x ∈ P ∧ s2mass aggr s1 E A x = true) → ¬ s2abs aggr s1 E P x → s.Pe.at x = s1.Pe.at x
  w0 : ∀ x, s2abs aggr s1 E P x → s.W.at x = 0
  w1 : ∀ x, ¬ s2abs aggr s1 E P x → s.W.at x = s1.W.at x
  nv : ∀ x, s.Nv.at x = if x ∈ P ∧ s2mass aggr s1 E A x = true then 0 else s1.Nv.at x
  elen : ∀ x, s.Elen.at x = if x ∈ P then
    (if s2mass aggr s1 E A x = true then EMPTY else (s2E aggr s1 E x).length + 1) else s1.Elen.at x
  len : ∀ x, s.Len.at x = if x ∈ P ∧ ¬ s2mass aggr s1 E A x = true
    then ((s2C aggr me s1 E A x).length : Int) else s1.Len.at x
  degN : ∀ x, x ∉ P → s.Degree.at x = s1.Degree.at x
  degP : ∀ x ∈ P, 0 ≤ s.Degree.at x ∧ s.Degree.at x ≤ s1.Degree.at x
  mem : Mem s.Iw.at s1.Pe.at (fun x => if x ∈ P then s2C aggr me s1 E A x else C x)
    (O.filter (fun x => ¬ (x ∈ P ∧ s2mass aggr s1 E A x = true))) s1.pfree
  blk : Blk s.Iw.at pme1 M
  lists : ∃ bh D B, DegL n s.Head.at s.Next.at s.Last.at s.Degree.at (V.filter (fun x => x ∉ M)) bh D ∧
    HashL n s.Next.at s.Last.at (P.filter (fun x => !s2mass aggr s1 E A x)).toFinset bh B
  val : ∀ c, 0 ≤ c → c < s.pfree → 0 ≤ s.Iw.at c ∧ s.Iw.at c < n
  degX : ∀ x ∈ P, ¬ s2mass aggr s1 E A x = true → s.Degree.at x = min (s1.Degree.at x) (s2D aggr s1 E A x)

theorem s2abs_snoc {aggr : Bool} {s1 : Amd2} {E : Int → List Int} {P : List Int} {i x : Int} :
    s2abs aggr s1 E (P ++ [i]) x ↔
      s2abs aggr s1 E P x ∨ (x ∈ E i ∧ scanAbs aggr s1.wflg (s1.W.at x) = true) := by
  unfold s2abs
  constructor
  · rintro ⟨⟨j, hj, hx⟩, h⟩
    rcases List.mem_append.mp hj with h' | h'
    · exact Or.inl ⟨⟨j, h', hx⟩, h⟩
    · rw [List.mem_singleton] at h'; subst h'; exact Or.inr ⟨hx, h⟩
  · rintro (⟨⟨j, hj, hx⟩, h⟩ | ⟨hx, h⟩)
    · exact ⟨⟨j, List.mem_append_left _ hj, hx⟩, h⟩
    · exact ⟨⟨i, List.mem_append_right _ (List.mem_singleton_self _), hx⟩, h⟩

theorem scan2Step_spec {O : Finset Int} {C E A : Int → List Int} {wt : Int → Int} {aggr : Bool}
    {pme1 dg0 nv0 dg nvp : Int} {M P : List Int} {s1 s : Amd2} {i p : Int} {ext : Int → Int}
    (hBig : 0 ≤ n ∧ 0 ≤ iwlen ∧ 3 * (n + iwlen) + 10 ≤ Int_MAX)
    (hx : ∀ i ∈ M, (∀ e ∈ E i, 0 ≤ ext e ∧ (s1.W.at e ≠ 0 → s1.W.at e - s1.wflg ≤ ext e)) ∧
      ((E i).map ext).sum ≤ iwlen)
    (hxA : ∀ i ∈ M, ((s2A s1 A i).map s1.Nv.at).sum ≤ n)
    (hS : (0 ≤ nv0 ∧ nv0 + (M.map wt).sum ≤ n) ∧ (0 ≤ s1.nel ∧ s1.nel + (M.map wt).sum ≤ n) ∧
      0 ≤ dg0 ∧ dg0 ≤ n)
    (hsum : 0 ≤ ((P.filter (s2mass aggr s1 E A)).map wt).sum ∧
      ((P.filter (s2mass aggr s1 E A)).map wt).sum + wt i ≤ (M.map wt).sum) (hn : 0 < n)
    (hMr : ∀ i ∈ M, 0 ≤ i ∧ i < n) (hMV : ∀ i ∈ M, i ∈ V) (hme : 0 ≤ me ∧ me < n)
    (hVO : ∀ i ∈ M, i ∈ O) (hC : ∀ i ∈ M, C i = E i ++ A i)
    (hEl : ∀ i ∈ M, s1.Elen.at i = (E i).length) (hLn : ∀ i ∈ M, s1.Len.at i = (C i).length)
    (hEn : ∀ i ∈ M, (E i).Nodup) (hEV : ∀ i ∈ M, ∀ e ∈ E i, e ∉ V)
    (hroom : ∀ i ∈ M, (s2E aggr s1 E i).length + (s2A s1 A i).length < (C i).length)
    (hnv : ∀ i ∈ M, s1.Nv.at i = -(wt i)) (hwt : ∀ i ∈ M, 0 < wt i)
    (hge : ∀ i ∈ M, ∀ e ∈ E i, s1.W.at e ≠ 0 → s1.wflg ≤ s1.W.at e)
    (hdeg : ∀ i ∈ M, 0 ≤ s1.Degree.at i)
    (hdisj : ∀ x ∈ O, s1.Pe.at x + (C x).length ≤ pme1 ∨ pme1 + M.length ≤ s1.Pe.at x)
    (hiM : i ∈ M) (hPM : ∀ x ∈ P, x ∈ M) (hiP : i ∉ P)
    (hpi : s.Iw.at p = i) (hpr : 0 ≤ p ∧ p < s1.pfree)
    (h : Scan2 n iwlen me V O C E A wt aggr pme1 dg0 nv0 M P s1 dg nvp s) :
    Spec (amd2Scan2 aggr n me p (dg, nvp, s)) (fun r =>
      Scan2 n iwlen me V O C E A wt aggr pme1 dg0 nv0 M (P ++ [i]) s1 r.1 r.2.1 r.2.2) := by
  have hir := hMr i hiM
  have hiV := hMV i hiM
  have hiO : i ∈ O.filter (fun x => ¬ (x ∈ P ∧ s2mass aggr s1 E A x = true)) := by
    simp [hVO i hiM, hiP]
  have hCP : (if i ∈ P then s2C aggr me s1 E A i else C i) = C i := by simp [hiP]
  -- the list of i
  have hb := h.mem.blk i hiO
  have hlo := h.mem.lo i hiO
  have hhi := h.mem.hi i hiO
  rw [hCP] at hb hhi
  have hl : (C i).length = (E i).length + (A i).length := by rw [hC i hiM, List.length_append]
  rw [hC i hiM, Blk.append_iff] at hb
  have hnabs : ¬ s2abs aggr s1 E P i := by
    rintro ⟨⟨j, hj, hx⟩, _⟩
    exact hEV j (hPM j hj) i hx hiV
  have ePe : s.Pe.at i = s1.Pe.at i := h.pe1 i (fun h' => hiP h'.1) hnabs
  have eEl : s.Elen.at i = (E i).length := by rw [h.elen, if_neg hiP, hEl i hiM]
  have eLn : s.Len.at i = (C i).length := by rw [h.len, if_neg (fun h' => hiP h'.1), hLn i hiM]
  have hEr : ∀ e ∈ E i, 0 ≤ e ∧ e < n := by
    intro e he
    obtain ⟨c, c0, c1, rfl⟩ := hb.1.of_mem he
    exact h.val c (by omega) (by rw [h.pfree]; omega)
  have hAr : ∀ e ∈ A i, 0 ≤ e ∧ e < n := by
    intro e he
    obtain ⟨c, c0, c1, rfl⟩ := hb.2.of_mem he
    exact h.val c (by omega) (by rw [h.pfree]; omega)
  have hkeep : ∀ e ∈ E i, scanKeep aggr s.wflg (s.W.at e) = scanKeep aggr s1.wflg (s1.W.at e) ∧
      (s.W.at e ≠ 0 → s.wflg ≤ s.W.at e) := by
    intro e he
    rw [h.wflg]
    by_cases ha : s2abs aggr s1 E P e
    · rw [h.w0 e ha]
      refine ⟨?_, fun h' => absurd rfl h'⟩
      have := ha.2
      unfold scanAbs at this
      unfold scanKeep
      simp only [Bool.and_eq_true, decide_eq_true_eq] at this
      simp [this.2.1, this.2.2]
    · rw [h.w1 e ha]
      exact ⟨rfl, hge i hiM e he⟩
  have hf : (E i).filter (fun e => scanKeep aggr s.wflg (s.W.at e)) = s2E aggr s1 E i := by
    unfold s2E
    exact List.filter_congr fun e he => (hkeep e he).1
  have hpl := h.aI.m_le (by rw [h.pfree]; omega)
  rw [h.pfree] at hpl
  have hnvj : ∀ j ∈ A i, 0 < s1.Nv.at j → s.Nv.at j = s1.Nv.at j := by
    intro j _ hp
    rw [h.nv, if_neg]
    rintro ⟨h1, _⟩
    have h1' := hnv j (hPM j h1)
    have h2' := hwt j (hPM j h1)
    omega
  unfold amd2Scan2
  simp only
  rw [h.aI.rd hpr.1 (by rw [h.pfree]; exact hpr.2), ok_bind, hpi, h.aP.rd hir.1 hir.2, ok_bind, ePe,
    h.aE.rd hir.1 hir.2, ok_bind, eEl, ck_bind (by omega)]
  refine Spec.bind (scan2Elems_spec (me := me) (aggr := aggr) (x := ext) hBig hme (fun e he => by
      refine ⟨((hx i hiM).1 e he).1, fun hw => ?_⟩
      have hna : ¬ s2abs aggr s1 E P e := fun ha => hw (h.w0 e ha)
      rw [h.w1 e hna] at hw ⊢
      rw [h.wflg]
      exact ((hx i hiM).1 e he).2 hw) (hx i hiM).2 h.aP h.aI h.aW (hEn i hiM) hEr hb.1 hlo
    (by rw [h.pfree]; omega) (fun e he => (hkeep e he).2) h.val) ?_
  rintro ⟨pn, dgi, hash, s2⟩ ⟨Iw, Pe, W, h1, h2, h3, h4, h5, h5u, h6, h7, h8, h9, h10, h11⟩
  simp only at h1 h5 h5u h6
  subst h1
  rw [hf] at h6 h7 h5u
  have hlenE : (s2E aggr s1 E i).length ≤ (E i).length := List.length_filter_le _ _
  have hlenA : (s2A s1 A i).length ≤ (A i).length := List.length_filter_le _ _
  have hrm := hroom i hiM
  simp only
  rw [ck_bind (by omega), ck_bind (by omega), h.aE.wr hir.1 hir.2, ok_bind, h.aL.rd hir.1 hir.2, ok_bind,
    eLn, ck_bind (by omega), show s1.Pe.at i + ((C i).length : Int) = (s1.Pe.at i + (E i).length) + (A i).length by omega]
  have aE' := h.aE.put hir.1 hir.2 (pn - s1.Pe.at i + 1)
  have hfA : (A i).filter (fun j => decide (0 < s.Nv.at j)) = s2A s1 A i := by
    unfold s2A
    refine List.filter_congr fun j hj => ?_
    rw [h.nv]
    split
    · next h' =>
      have h1 := hnv j (hPM j h'.1)
      have h2 := hwt j (hPM j h'.1)
      have : ¬ 0 < s1.Nv.at j := by omega
      simp [this]
    · rfl
  refine Spec.bind (scan2Vars_spec (a := ⟨pn, dgi, hash,
    { s with Pe := Pe, Iw := Iw, W := W, Elen := s.Elen.put i (pn - s1.Pe.at i + 1) }⟩) (p := s1.Pe.at i + (E i).length)
    hBig ⟨h5, h5u.1⟩ (by
      simp only
      rw [hfA, List.map_congr_left (g := s1.Nv.at)]
      · exact hxA i hiM
      · intro j hj
        obtain ⟨j1, j2⟩ := List.mem_filter.mp hj
        exact hnvj j j1 (by simpa using j2)) h.aNv h2 hAr
    (hb.2.congr (fun c c0 c1 => h8 c (by omega))) (by simp only; omega) (by simp only; omega)
    (by simp only; rw [h.pfree]; omega) h11) ?_
  rintro ⟨pn', dgi', hash', s3⟩ ⟨Iw', k1, k2, k3, k4, k5, k6, k7⟩
  simp only at k1 k2 k3 k4 k5 k6 k7
  subst k1
  have k30 := k3.1
  rw [hfA] at k3 k4 k5
  have hdx : dgi' = s2D aggr s1 E A i := by
    rw [k3.2, h5u.2]
    unfold s2D
    congr 2
    · refine List.map_congr_left fun e he => ?_
      have hk := (List.mem_filter.mp he).2
      have hna : ¬ s2abs aggr s1 E P e := by
        rintro ⟨_, ha⟩
        unfold scanAbs at ha
        unfold scanKeep at hk
        simp only [Bool.and_eq_true, decide_eq_true_eq] at ha
        simp [ha.2.1, ha.2.2] at hk
      rw [h.w1 e hna, h.wflg]
    · refine List.map_congr_left fun j hj => ?_
      obtain ⟨j1, j2⟩ := List.mem_filter.mp hj
      exact hnvj j j1 (by simpa using j2)
  simp only
  have hmlI := k2.m_le (by rw [h.pfree]; omega)
  rw [h.pfree] at hmlI
  have eEl' : (s.Elen.put i (pn - s1.Pe.at i + 1)).at i = (s2E aggr s1 E i).length + 1 := by
    rw [h.aE.at_put hir.1 hir.2, if_pos rfl]; omega
  have hE' : ∀ x, (s.Elen.put i (pn - s1.Pe.at i + 1)).at x
      = if x = i then ((s2E aggr s1 E i).length + 1 : Int) else s.Elen.at x := by
    intro x
    rw [h.aE.at_put hir.1 hir.2]
    split
    · omega
    · rfl
  -- the absorbed elements
  have hab : ∀ x, (x ∈ E i ∧ scanAbs aggr s.wflg (s.W.at x) = true) ∨ s2abs aggr s1 E P x ↔
      s2abs aggr s1 E (P ++ [i]) x := by
    intro x
    rw [s2abs_snoc]
    by_cases ha : s2abs aggr s1 E P x
    · simp [ha]
    · rw [h.w1 x ha, h.wflg]; tauto
  have hPe0 : ∀ x, s2abs aggr s1 E (P ++ [i]) x → Pe.at x = FLIP me := by
    intro x hx
    rw [h9]
    split
    · rfl
    · next h' => exact h.pe0 x (Or.inr (((hab x).mpr hx).resolve_left h'))
  have hPe1 : ∀ x, ¬ s2abs aggr s1 E (P ++ [i]) x → Pe.at x = s.Pe.at x := by
    intro x hx
    rw [h9, if_neg (fun h' => hx ((hab x).mp (Or.inl h')))]
  have hW0 : ∀ x, s2abs aggr s1 E (P ++ [i]) x → W.at x = 0 := by
    intro x hx
    rw [h10]
    split
    · rfl
    · next h' => exact h.w0 x (((hab x).mpr hx).resolve_left h')
  have hW1 : ∀ x, ¬ s2abs aggr s1 E (P ++ [i]) x → W.at x = s1.W.at x := by
    intro x hx
    rw [h10, if_neg (fun h' => hx ((hab x).mp (Or.inl h')))]
    exact h.w1 x (fun h' => hx ((hab x).mp (Or.inr h')))
  have hPs : ∀ x, ¬ s2abs aggr s1 E (P ++ [i]) x → ¬ s2abs aggr s1 E P x :=
    fun x hx h' => hx ((hab x).mp (Or.inr h'))
  have hnabs' : ¬ s2abs aggr s1 E (P ++ [i]) i := by
    rintro ⟨⟨j, hj, hx⟩, _⟩
    rcases List.mem_append.mp hj with h' | h'
    · exact hEV j (hPM j h') i hx hiV
    · rw [List.mem_singleton] at h'; subst h'; exact hEV j hiM j hx hiV
  have hmemP : ∀ x, x ∈ P ++ [i] ↔ x ∈ P ∨ x = i := by
    intro x; rw [List.mem_append, List.mem_singleton]
  have hIwo : ∀ c, c < s1.Pe.at i ∨ s1.Pe.at i + (C i).length ≤ c → Iw'.at c = s.Iw.at c := by
    intro c hc
    rw [k6 c (by omega)]
    exact h8 c (by omega)
  have hdi := hdisj i (hVO i hiM)
  obtain ⟨bh, D, B, hD, hB⟩ := h.lists
  rw [aE'.rd hir.1 hir.2, ok_bind, eEl']
  by_cases hmass : s2mass aggr s1 E A i = true
  · -- mass elimination
    obtain ⟨m1, m2⟩ := s2mass_iff.mp hmass
    rw [m1] at h6 hE'
    rw [m2] at k4
    simp only [List.length_nil, Nat.cast_zero, add_zero] at k4 h6
    have env : s.Nv.at i = -(wt i) := by
      rw [h.nv, if_neg (fun h' => hiP h'.1), hnv i hiM]
    have hwi := hwt i hiM
    have q1 := h.dg
    have q2 := h.nvp
    have q3 := h.nel
    rw [if_pos ⟨by rw [m1]; simp, by omega⟩, ck_bind (FLIP_ck (by omega)), h3.wr hir.1 hir.2, ok_bind,
      h.aNv.rd hir.1 hir.2, ok_bind, ck_bind (by omega), ck_bind (by omega), ck_bind (by omega),
      ck_bind (by omega), h.aNv.wr hir.1 hir.2, ok_bind, aE'.wr hir.1 hir.2, ok_bind]
    have hfm : (P ++ [i]).filter (s2mass aggr s1 E A) = P.filter (s2mass aggr s1 E A) ++ [i] := by
      rw [List.filter_append]; simp [hmass]
    refine Spec.pure ⟨h3.put hir.1 hir.2 _, k2, h.aL, h.aNv.put hir.1 hir.2 _, h.aN, h.aT, h.aH, h4,
      aE'.put hir.1 hir.2 _, h.aD, h.pfree, h.mindeg, h.wflg, h.lemax, ?_, ?_, ?_, ?_, ?_, hW0, hW1, ?_,
      ?_, ?_, ?_, ?_, ?_, ?_, ?_, k7, ?_⟩ <;> simp only
    · rw [hfm, h.nel, env]; simp; omega
    · rw [hfm, h.dg, env]; simp; omega
    · rw [hfm, h.nvp, env]; simp; omega
    · intro x hx
      rw [h3.at_put hir.1 hir.2]
      split
      · rfl
      · next hne =>
        by_cases ha : s2abs aggr s1 E (P ++ [i]) x
        · exact hPe0 x ha
        · rw [hPe1 x ha]
          rcases hx with ⟨hx, hx'⟩ | hx
          · exact h.pe0 x (Or.inl ⟨((hmemP x).mp hx).resolve_right hne, hx'⟩)
          · exact absurd hx ha
    · intro x hx ha
      have hne : x ≠ i := fun e => hx ⟨(hmemP x).mpr (Or.inr e), e ▸ hmass⟩
      rw [h3.at_put hir.1 hir.2, if_neg hne, hPe1 x ha]
      exact h.pe1 x (fun h' => hx ⟨(hmemP x).mpr (Or.inl h'.1), h'.2⟩) (hPs x ha)
    · intro x
      rw [h.aNv.at_put hir.1 hir.2, h.nv]
      by_cases hx : x = i
      · subst hx; simp [hmass]
      · simp [hx]
    · intro x
      rw [aE'.at_put hir.1 hir.2, hE', h.elen]
      by_cases hx : x = i
      · subst hx; simp [hmass]
      · simp [hx]
    · intro x
      rw [h.len]
      by_cases hx : x = i
      · subst hx; simp [hmass, hiP]
      · simp [hx]
    · intro x hx
      exact h.degN x (fun h' => hx ((hmemP x).mpr (Or.inl h')))
    · intro x hx
      rcases (hmemP x).mp hx with h' | rfl
      · exact h.degP x h'
      · rw [h.degN x hiP]; exact ⟨hdeg x hiM, le_rfl⟩
    · have hsub : ∀ x ∈ O.filter (fun x => ¬ (x ∈ P ++ [i] ∧ s2mass aggr s1 E A x = true)),
          x ∈ O.filter (fun x => ¬ (x ∈ P ∧ s2mass aggr s1 E A x = true)) ∧ x ≠ i := by
        intro x hx
        rw [Finset.mem_filter] at hx
        exact ⟨Finset.mem_filter.mpr ⟨hx.1, fun h' => hx.2 ⟨(hmemP x).mpr (Or.inl h'.1), h'.2⟩⟩,
          fun e => hx.2 ⟨(hmemP x).mpr (Or.inr e), e ▸ hmass⟩⟩
      refine (h.mem.subset (fun x hx => (hsub x hx).1)).congr (fun _ _ => rfl) ?_
        (fun x hx => h.mem.hi x (hsub x hx).1) ?_
      · intro x hx
        simp [(hsub x hx).2]
      · intro x hx c c0 c1
        refine hIwo c ?_
        have := h.mem.disj x (hsub x hx).1 i hiO (hsub x hx).2
        rw [hCP] at this
        omega
    · exact h.blk.congr fun c c0 c1 => hIwo c (by omega)
    · refine ⟨bh, D, B, hD, ?_⟩
      have : (P ++ [i]).filter (fun x => !s2mass aggr s1 E A x)
          = P.filter (fun x => !s2mass aggr s1 E A x) := by
        rw [List.filter_append]; simp [hmass]
      rw [this]
      exact hB
    · intro x hx hxm
      rcases (hmemP x).mp hx with h' | rfl
      · exact h.degX x h' hxm
      · exact absurd hmass hxm
  · -- the variable stays
    have hcond : ¬ (((s2E aggr s1 E i).length : Int) + 1 = 1 ∧ pn = pn') := by
      rintro ⟨q1, q2⟩
      refine hmass (s2mass_iff.mpr ⟨List.length_eq_zero_iff.mp (by omega),
        List.length_eq_zero_iff.mp (by omega)⟩)
    rw [if_neg hcond, h.aD.rd hir.1 hir.2, ok_bind, h.aD.wr hir.1 hir.2, ok_bind,
      k2.rd (by omega) (by rw [h.pfree]; omega), ok_bind, k2.wr (by omega) (by omega), ok_bind]
    have aI1 := k2.put (by omega : 0 ≤ pn') (by omega) (Iw'.at pn)
    have f1 : ∀ c, (Iw'.put pn' (Iw'.at pn)).at c = if c = pn' then Iw'.at pn else Iw'.at c :=
      fun c => k2.at_put (by omega) (by omega) _ _
    rw [aI1.rd hlo (by rw [h.pfree]; omega), ok_bind, aI1.wr (by omega) (by omega), ok_bind]
    have aI2 := aI1.put (by omega : 0 ≤ pn) (by omega) ((Iw'.put pn' (Iw'.at pn)).at (s1.Pe.at i))
    have f2 : ∀ c, ((Iw'.put pn' (Iw'.at pn)).put pn ((Iw'.put pn' (Iw'.at pn)).at (s1.Pe.at i))).at c
        = if c = pn then (Iw'.put pn' (Iw'.at pn)).at (s1.Pe.at i)
          else (Iw'.put pn' (Iw'.at pn)).at c :=
      fun c => aI1.at_put (by omega) (by omega) _ _
    rw [aI2.wr hlo (by omega), ok_bind, ck_bind (by omega), ck_bind (by omega), h.aL.wr hir.1 hir.2, ok_bind]
    have aI3 := aI2.put hlo (by omega) me
    have f3 : ∀ c, (((Iw'.put pn' (Iw'.at pn)).put pn
        ((Iw'.put pn' (Iw'.at pn)).at (s1.Pe.at i))).put (s1.Pe.at i) me).at c
        = if c = s1.Pe.at i then me else ((Iw'.put pn' (Iw'.at pn)).put pn
          ((Iw'.put pn' (Iw'.at pn)).at (s1.Pe.at i))).at c :=
      fun c => aI2.at_put hlo (by omega) _ _
    have hbE : Blk Iw'.at (s1.Pe.at i) (s2E aggr s1 E i) :=
      h7.congr (fun c c0 c1 => k6 c (by omega))
    have hblk := hbE.insMe (me := me) k5 h6 k4 f1 f2 f3
    set Iw3 := ((Iw'.put pn' (Iw'.at pn)).put pn
        ((Iw'.put pn' (Iw'.at pn)).at (s1.Pe.at i))).put (s1.Pe.at i) me with hIw3
    have hlC : (s2C aggr me s1 E A i).length
        = (s2E aggr s1 E i).length + (s2A s1 A i).length + 1 := by
      simp [s2C]
    have h3o : ∀ c, c < s1.Pe.at i ∨ s1.Pe.at i + (C i).length ≤ c → Iw3.at c = s.Iw.at c := by
      intro c hc
      rw [f3, if_neg (by omega), f2, if_neg (by omega), f1, if_neg (by omega)]
      exact hIwo c hc
    have hval3 : ∀ c, 0 ≤ c → c < s.pfree → 0 ≤ Iw3.at c ∧ Iw3.at c < n := by
      intro c c0 c1
      rw [f3]
      split
      · exact hme
      · rw [f2]
        split
        · rw [f1]
          split
          · exact k7 _ (by omega) (by rw [h.pfree]; omega)
          · exact k7 _ (by omega) (by rw [h.pfree]; omega)
        · rw [f1]
          split
          · exact k7 _ (by omega) (by rw [h.pfree]; omega)
          · exact k7 _ c0 c1
    have hiS : i ∉ V.filter (fun x => x ∉ M) := by simp [hiM]
    have eD' : ∀ x, (s.Degree.put i (min (s.Degree.at i) dgi')).at x
        = if x = i then min (s.Degree.at i) dgi' else s.Degree.at x :=
      fun x => h.aD.at_put hir.1 hir.2 _ _
    have hD' : DegL n s.Head.at s.Next.at s.Last.at (s.Degree.put i (min (s.Degree.at i) dgi')).at
        (V.filter (fun x => x ∉ M)) bh D := by
      refine hD.congr (fun _ _ => rfl) (fun _ _ => rfl) ?_
      intro x hx
      rw [eD', if_neg (fun e : x = i => hiS (e ▸ hx))]
    refine Spec.bind (hashInsert_spec (T := (P.filter (fun x => !s2mass aggr s1 E A x)).toFinset)
      (s := { s with
        Pe := Pe, W := W, Elen := s.Elen.put i (pn - s1.Pe.at i + 1), Iw := Iw3
        Degree := s.Degree.put i (min (s.Degree.at i) dgi')
        Len := s.Len.put i (pn' - s1.Pe.at i + 1) }) (by omega) hn h.aN h.aT h.aH hD' hB hash' hir.1 hir.2 hiS ?_ ?_) ?_
    · simp [hiP]
    · intro x hx hx'
      simp only [List.mem_toFinset, List.mem_filter] at hx'
      exact (Finset.mem_filter.mp hx).2 (hPM x hx'.1)
    rintro s4 ⟨Nx, Lt, Hd, bh', B', rfl, a1, a2, a3, a4, a5⟩
    have hfm : (P ++ [i]).filter (s2mass aggr s1 E A) = P.filter (s2mass aggr s1 E A) := by
      rw [List.filter_append]; simp [hmass]
    refine Spec.pure ⟨h3, aI3, h.aL.put hir.1 hir.2 _, h.aNv, a1, a2, a3, h4, aE',
      h.aD.put hir.1 hir.2 _, h.pfree, h.mindeg, h.wflg, h.lemax, ?_, ?_, ?_, ?_, ?_, hW0, hW1, ?_,
      ?_, ?_, ?_, ?_, ?_, ?_, ?_, hval3, ?_⟩ <;> simp only
    · rw [hfm, h.nel]
    · rw [hfm, h.dg]
    · rw [hfm, h.nvp]
    · intro x hx
      by_cases ha : s2abs aggr s1 E (P ++ [i]) x
      · exact hPe0 x ha
      · rw [hPe1 x ha]
        rcases hx with ⟨hx, hx'⟩ | hx
        · rcases (hmemP x).mp hx with h' | h'
          · exact h.pe0 x (Or.inl ⟨h', hx'⟩)
          · subst h'; exact absurd hx' hmass
        · exact absurd hx ha
    · intro x hx ha
      rw [hPe1 x ha]
      exact h.pe1 x (fun h' => hx ⟨(hmemP x).mpr (Or.inl h'.1), h'.2⟩) (hPs x ha)
    · intro x
      rw [h.nv]
      by_cases hx : x = i
      · subst hx; simp [hmass]
      · simp [hx]
    · intro x
      rw [hE', h.elen]
      by_cases hx : x = i
      · subst hx; simp [hmass]
      · simp [hx]
    · intro x
      rw [h.aL.at_put hir.1 hir.2, h.len]
      by_cases hx : x = i
      · subst hx
        rw [if_pos rfl, if_pos ⟨(hmemP x).mpr (Or.inr rfl), hmass⟩, hlC]
        push_cast; omega
      · simp [hx]
    · intro x hx
      have hne : x ≠ i := fun e => hx ((hmemP x).mpr (Or.inr e))
      rw [eD', if_neg hne]
      exact h.degN x (fun h' => hx ((hmemP x).mpr (Or.inl h')))
    · intro x hx
      rw [eD']
      split
      · next e =>
        subst e
        rw [h.degN x hiP]
        have := hdeg x hiM
        omega
      · next hne => exact h.degP x (((hmemP x).mp hx).resolve_right hne)
    · have hO : O.filter (fun x => ¬ (x ∈ P ++ [i] ∧ s2mass aggr s1 E A x = true))
          = O.filter (fun x => ¬ (x ∈ P ∧ s2mass aggr s1 E A x = true)) := by
        refine Finset.filter_congr fun x _ => ?_
        rw [hmemP]
        constructor
        · rintro q ⟨q1, q2⟩; exact q ⟨Or.inl q1, q2⟩
        · rintro q ⟨q1 | q1, q2⟩
          · exact q ⟨q1, q2⟩
          · subst q1; exact hmass q2
      rw [hO]
      refine (h.mem.rewrite hiO (l := s2C aggr me s1 E A i) (iw' := Iw3.at) (by simp [s2C]) ?_ hblk
        ?_).congr (fun _ _ => rfl) ?_ ?_ (fun _ _ _ _ _ => rfl)
      · rw [hCP]; omega
      · intro c hc
        rw [hCP] at hc
        exact h3o c hc
      · intro x hx
        simp only [hmemP]
        by_cases hx : x = i
        · subst hx; simp
        · simp [hx]
      · intro x hx
        have := h.mem.hi x hx
        split
        · next e => subst e; omega
        · exact this
    · exact h.blk.congr fun c c0 c1 => h3o c (by omega)
    · refine ⟨bh', D, B', a4, ?_⟩
      have : ((P ++ [i]).filter (fun x => !s2mass aggr s1 E A x)).toFinset
          = insert i (P.filter (fun x => !s2mass aggr s1 E A x)).toFinset := by
        rw [List.filter_append]
        ext x
        simp [hmass]
      rw [this]
      exact a5
    · intro x hx hxm
      rw [eD']
      split
      · next e => rw [e, h.degN i hiP, hdx]
      · next hne => exact h.degX x (((hmemP x).mp hx).resolve_right hne) hxm

/-- Scan 2 over the whole pivot element. -/
theorem scan2_spec {O : Finset Int} {C E A : Int → List Int} {wt : Int → Int} {aggr : Bool}
    {pme1 dg0 nv0 : Int} {M : List Int} {s1 : Amd2} {ext : Int → Int}
    (hBig : 0 ≤ n ∧ 0 ≤ iwlen ∧ 3 * (n + iwlen) + 10 ≤ Int_MAX)
    (hx : ∀ i ∈ M, (∀ e ∈ E i, 0 ≤ ext e ∧ (s1.W.at e ≠ 0 → s1.W.at e - s1.wflg ≤ ext e)) ∧
      ((E i).map ext).sum ≤ iwlen)
    (hxA : ∀ i ∈ M, ((s2A s1 A i).map s1.Nv.at).sum ≤ n)
    (hS : (0 ≤ nv0 ∧ nv0 + (M.map wt).sum ≤ n) ∧ (0 ≤ s1.nel ∧ s1.nel + (M.map wt).sum ≤ n) ∧
      0 ≤ dg0 ∧ dg0 ≤ n)
    (hn : 0 < n)
    (hMr : ∀ i ∈ M, 0 ≤ i ∧ i < n) (hMV : ∀ i ∈ M, i ∈ V) (hme : 0 ≤ me ∧ me < n)
    (hVO : ∀ i ∈ M, i ∈ O) (hC : ∀ i ∈ M, C i = E i ++ A i)
    (hEl : ∀ i ∈ M, s1.Elen.at i = (E i).length) (hLn : ∀ i ∈ M, s1.Len.at i = (C i).length)
    (hEn : ∀ i ∈ M, (E i).Nodup) (hEV : ∀ i ∈ M, ∀ e ∈ E i, e ∉ V)
    (hroom : ∀ i ∈ M, (s2E aggr s1 E i).length + (s2A s1 A i).length < (C i).length)
    (hnv : ∀ i ∈ M, s1.Nv.at i = -(wt i)) (hwt : ∀ i ∈ M, 0 < wt i)
    (hge : ∀ i ∈ M, ∀ e ∈ E i, s1.W.at e ≠ 0 → s1.wflg ≤ s1.W.at e)
    (hdeg : ∀ i ∈ M, 0 ≤ s1.Degree.at i)
    (hdisj : ∀ x ∈ O, s1.Pe.at x + (C x).length ≤ pme1 ∨ pme1 + M.length ≤ s1.Pe.at x)
    (hp0 : 0 ≤ pme1) (hpf : pme1 + M.length ≤ s1.pfree) (hnd : M.Nodup)
    (h : Scan2 n iwlen me V O C E A wt aggr pme1 dg0 nv0 M [] s1 dg0 nv0 s1) :
    Spec (forI pme1 (pme1 + M.length) (dg0, nv0, s1) (amd2Scan2 aggr n me)) (fun r =>
      Scan2 n iwlen me V O C E A wt aggr pme1 dg0 nv0 M M s1 r.1 r.2.1 r.2.2) := by
  refine (forI_int (by omega) (fun j (r : Int × Int × Amd2) => ∃ k : Nat, j = pme1 + k ∧ k ≤ M.length ∧
    Scan2 n iwlen me V O C E A wt aggr pme1 dg0 nv0 M (M.take k) s1 r.1 r.2.1 r.2.2) ?_ ?_).mono ?_
  · exact ⟨0, by simp, by simp, by simpa using h⟩
  · rintro j ⟨dg, nvp, s⟩ hj0 hj1 ⟨k, rfl, hk, hs⟩
    simp only at hs
    have hkl : k < M.length := by omega
    have ei : s.Iw.at (pme1 + k) = M[k] := hs.blk k _ (List.getElem?_eq_getElem hkl)
    have hwn : ∀ l : List Int, (∀ x ∈ l, x ∈ M) → 0 ≤ (l.map wt).sum := fun l hl =>
      List.sum_nonneg fun y hy => by
        obtain ⟨z, hz, rfl⟩ := List.mem_map.mp hy
        exact (hwt z (hl z hz)).le
    have hsum : (((M.take k).filter (s2mass aggr s1 E A)).map wt).sum ≤ ((M.take k).map wt).sum := by
      have : ∀ l : List Int, (∀ x ∈ l, x ∈ M) →
          ((l.filter (s2mass aggr s1 E A)).map wt).sum ≤ (l.map wt).sum := by
        intro l hl
        induction l with
        | nil => simp
        | cons a l ih =>
          have h1 := ih fun x hx => hl x (List.mem_cons_of_mem _ hx)
          have h2 := hwt a (hl a List.mem_cons_self)
          rw [List.filter_cons]
          split <;> simp only [List.map_cons, List.sum_cons] <;> omega
      exact this _ fun x hx => List.mem_of_mem_take hx
    have hall : (M.map wt).sum = ((M.take k).map wt).sum + (wt M[k] + ((M.drop (k + 1)).map wt).sum) := by
      conv_lhs => rw [← List.take_append_drop k M, List.drop_eq_getElem_cons hkl]
      rw [List.map_append, List.sum_append, List.map_cons, List.sum_cons]
    have hdr := hwn (M.drop (k + 1)) fun x hx => List.mem_of_mem_drop hx
    refine (scan2Step_spec hBig hx hxA hS
      ⟨hwn _ fun x hx => List.mem_of_mem_take (List.mem_filter.mp hx).1, by omega⟩ hn hMr hMV hme hVO hC hEl hLn hEn hEV hroom hnv hwt hge hdeg hdisj
      (List.getElem_mem hkl) (fun x hx => List.mem_of_mem_take hx) (get_notin_take hnd hkl) ei
      ⟨by omega, by omega⟩ hs).mono ?_
    intro r hr
    refine ⟨k + 1, by push_cast; omega, hkl, ?_⟩
    rw [take_succ_get hkl]
    exact hr
  · rintro r ⟨k, hk1, hk2, hs⟩
    have : k = M.length := by omega
    subst this
    rw [List.take_length] at hs
    exact hs

end Verif
