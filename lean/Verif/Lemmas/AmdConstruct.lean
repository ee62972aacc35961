import Verif.Lemmas.AmdGc

/-!
# Construction of an element in `AMD_2`
-/

namespace Verif

variable {n iwlen me e : Int} {V : Finset Int}

theorem length_lt_of_mem_range {M : List Int} (hnd : M.Nodup) (hr : ∀ i ∈ M, 0 ≤ i ∧ i < n)
    {j : Int} (hj : j ∉ M) (h0 : 0 ≤ j) (h1 : j < n) : (M.length : Int) < n := by
  have := nodup_length_le (n := n) (l := j :: M) (List.nodup_cons.mpr ⟨hj, hnd⟩) (by
    intro x hx
    rcases List.mem_cons.mp hx with rfl | hx
    · exact ⟨h0, h1⟩
    · exact hr x hx)
  simp at this
  omega

/-- The weights of different members of `V` sum up to at most the weight of `V`. -/
theorem nodup_sum_le {M : List Int} {N1 : Int → Int} (hnd : M.Nodup) (hs : ∀ i ∈ M, i ∈ V)
    (hwt : (∀ x ∈ V, 0 ≤ N1 x) ∧ ∑ x ∈ V, N1 x ≤ n) : 0 ≤ (M.map N1).sum ∧ (M.map N1).sum ≤ n := by
  have e : (M.map N1).sum = ∑ x ∈ M.toFinset, N1 x := (List.sum_toFinset N1 hnd).symm
  have hsub : M.toFinset ⊆ V := fun x hx => hs x (by simpa using hx)
  rw [e]
  exact ⟨Finset.sum_nonneg fun x hx => hwt.1 x (hsub hx),
    (Finset.sum_le_sum_of_subset_of_nonneg hsub fun x hx _ => hwt.1 x hx).trans hwt.2⟩

theorem nodup_sum_add_le {M : List Int} {N1 : Int → Int} (hnd : M.Nodup) (hs : ∀ i ∈ M, i ∈ V)
    (hwt : (∀ x ∈ V, 0 ≤ N1 x) ∧ ∑ x ∈ V, N1 x ≤ n) {i : Int} (hi : i ∈ V) (hiM : i ∉ M) :
    0 ≤ (M.map N1).sum ∧ 0 ≤ N1 i ∧ (M.map N1).sum + N1 i ≤ n := by
  have h1 := nodup_sum_le hnd hs hwt
  have h2 := nodup_sum_le (n := n) (V := V) (M := i :: M) (List.nodup_cons.mpr ⟨hiM, hnd⟩) (by
    intro x hx
    rcases List.mem_cons.mp hx with rfl | hx
    · exact hi
    · exact hs x hx) hwt
  simp only [List.map_cons, List.sum_cons] at h2
  exact ⟨h1.1, hwt.1 i hi, by omega⟩

/-- What does not depend on the memory layout while element `me` is being constructed: `M` is the
list so far, `V` the live variables other than `me`, `N1` the weights, `s0` the state before. -/
structure Cons (n iwlen : Int) (V : Finset Int) (N1 : Int → Int) (s0 s : Amd2) (pme1 degme : Int)
    (M : List Int) : Prop where
  aP : Arr s.Pe n n
  aI : Arr s.Iw iwlen s.pfree
  aL : Arr s.Len n n
  aNv : Arr s.Nv n n
  aN : Arr s.Next n n
  aT : Arr s.Last n n
  aH : Arr s.Head n n
  aW : Arr s.W n n
  aE : Arr s.Elen n n
  aD : Arr s.Degree n n
  elen : s.Elen = s0.Elen
  degree : s.Degree = s0.Degree
  nel : s.nel = s0.nel
  mindeg : s.mindeg = s0.mindeg
  wflg : s.wflg = s0.wflg
  lemax : s.lemax = s0.lemax
  nodup : M.Nodup
  sub : ∀ i ∈ M, i ∈ V
  nv : ∀ x, s.Nv.at x = if x ∈ M then -N1 x else N1 x
  deg : degme = (M.map N1).sum
  dl : ∃ D, DegL n s.Head.at s.Next.at s.Last.at s.Degree.at (V.filter (fun x => x ∉ M))
    (fun _ => EMPTY) D
  p0 : 0 ≤ pme1
  blk : Blk s.Iw.at pme1 M
  val : ∀ c, 0 ≤ c → c < s.pfree → 0 ≤ s.Iw.at c ∧ s.Iw.at c < n

/-- Moving variable `i` from its degree list to the element. -/
theorem Cons.push {N1 : Int → Int} {s0 s : Amd2} {pme1 degme : Int} {M : List Int}
    (h : Cons n iwlen V N1 s0 s pme1 degme M) {i : Int} (hi : i ∈ V) (hiM : i ∉ M)
    (hr : 0 ≤ i ∧ i < n) {Iw : Buf Int} {pf : Int} (aI : Arr Iw iwlen pf)
    (hb : Blk Iw.at pme1 (M ++ [i]))
    (hv : ∀ c, 0 ≤ c → c < pf → 0 ≤ Iw.at c ∧ Iw.at c < n) :
    Spec (do
      let Nv ← wr s.Nv i (-(s.Nv.at i))
      degRemove i { s with Nv := Nv, Iw := Iw, pfree := pf }) (fun s' =>
        Cons n iwlen V N1 s0 s' pme1 (degme + s.Nv.at i) (M ++ [i]) ∧
        s'.Pe = s.Pe ∧ s'.Iw = Iw ∧ s'.Len = s.Len ∧ s'.pfree = pf ∧ s'.W = s.W) := by
  rw [h.aNv.wr hr.1 hr.2, ok_bind]
  obtain ⟨D, hD⟩ := h.dl
  have hiS : i ∈ V.filter (fun x => x ∉ M) := by simp [hi, hiM]
  have ni : s.Nv.at i = N1 i := by rw [h.nv, if_neg hiM]
  refine (degRemove_spec (s := { s with Nv := s.Nv.put i (-(s.Nv.at i)), Iw := Iw, pfree := pf })
    h.aN h.aT h.aH h.aD hD hiS).mono ?_
  rintro s' ⟨Nx, Lt, Hd, rfl, a1, a2, a3, a4⟩
  refine ⟨⟨h.aP, aI, h.aL, h.aNv.put hr.1 hr.2 _, a1, a2, a3, h.aW, h.aE, h.aD, h.elen, h.degree, h.nel,
    h.mindeg, h.wflg, h.lemax, ?_, ?_, ?_, ?_, ?_, h.p0, hb, hv⟩, rfl, rfl, rfl, rfl, rfl⟩
  · rw [List.nodup_append]
    exact ⟨h.nodup, by simp, by
      intro a ha b hb e
      rw [List.mem_singleton] at hb
      exact hiM (hb ▸ e ▸ ha)⟩
  · intro x hx
    rcases List.mem_append.mp hx with hx | hx
    · exact h.sub x hx
    · simp at hx; subst hx; exact hi
  · intro x
    simp only
    rw [h.aNv.at_put hr.1 hr.2, ni]
    by_cases e : x = i
    · subst e; simp
    · simp only [e, if_false, List.mem_append, List.mem_singleton, or_false]
      exact h.nv x
  · rw [ni, h.deg]; simp
  · refine ⟨fun x => (D x).erase i, ?_⟩
    have : (V.filter (fun x => x ∉ M)).erase i = V.filter (fun x => x ∉ M ++ [i]) := by
      ext x
      simp only [Finset.mem_erase, Finset.mem_filter, List.mem_append, List.mem_singleton]
      tauto
    rw [← this]
    exact a4

/-! ## In place -/

theorem inPlace_spec {N1 : Int → Int} {s : Amd2} {pme1 : Int} {l : List Int}
    (hB : 0 ≤ n ∧ 0 ≤ iwlen ∧ 3 * (n + iwlen) + 10 ≤ Int_MAX)
    (hwt : (∀ x ∈ V, 0 ≤ N1 x) ∧ ∑ x ∈ V, N1 x ≤ n)
    (h : Cons n iwlen V N1 s s pme1 0 []) (hl : l.Nodup) (hb : Blk s.Iw.at pme1 l)
    (hlr : ∀ i ∈ l, 0 ≤ i ∧ i < n) (hhi : pme1 + l.length ≤ s.pfree)
    (hpos : ∀ i ∈ l, 0 < N1 i ↔ i ∈ V) :
    Spec (forI pme1 (pme1 + l.length) (0, pme1 - 1, s) amd2InPlaceStep) (fun r =>
      ∃ M, M = l.filter (fun i => i ∈ V) ∧ Cons n iwlen V N1 s r.2.2 pme1 r.1 M ∧
        r.2.1 = pme1 + M.length - 1 ∧ r.2.2.Pe = s.Pe ∧ r.2.2.Len = s.Len ∧ r.2.2.pfree = s.pfree ∧
        r.2.2.W = s.W ∧
        ∀ c, c < pme1 ∨ pme1 + l.length ≤ c → r.2.2.Iw.at c = s.Iw.at c) := by
  have hp0 := h.p0
  refine (forI_int (by omega) (fun j (r : Int × Int × Amd2) => ∃ k : Nat, j = pme1 + k ∧
      k ≤ l.length ∧ Cons n iwlen V N1 s r.2.2 pme1 r.1 ((l.take k).filter (fun i => i ∈ V)) ∧
      r.2.1 = pme1 + ((l.take k).filter (fun i => i ∈ V)).length - 1 ∧ r.2.2.Pe = s.Pe ∧
      r.2.2.Len = s.Len ∧ r.2.2.pfree = s.pfree ∧ r.2.2.W = s.W ∧
      (∀ c, c < pme1 ∨ j ≤ c → r.2.2.Iw.at c = s.Iw.at c)) ?_ ?_).mono ?_
  · exact ⟨0, by simp, by simp, by simpa using h, by simp, rfl, rfl, rfl, rfl, fun _ _ => rfl⟩
  · rintro j ⟨dg, pm, s'⟩ hj0 hj1 ⟨k, rfl, hk, h1, h2, h3, h4, h5, h6, h7⟩
    simp only at h1 h2 h3 h4 h5 h6 h7 ⊢
    have hkl : k < l.length := by omega
    have ei : s'.Iw.at (pme1 + k) = l[k] := by
      rw [h7 _ (by omega)]
      exact hb k _ (List.getElem?_eq_getElem hkl)
    have hmem : l[k] ∈ l := List.getElem_mem hkl
    have hr := hlr _ hmem
    have htk : l.take (k + 1) = l.take k ++ [l[k]] := by
      rw [List.take_add_one, List.getElem?_eq_getElem hkl]; rfl
    have hnot : l[k] ∉ l.take k := by
      intro hc
      have hd := hl
      rw [← List.take_append_drop k l, List.nodup_append] at hd
      have hm : l[k] ∈ l.drop k := by rw [List.drop_eq_getElem_cons hkl]; exact List.mem_cons_self
      exact hd.2.2 _ hc _ hm rfl
    have hnotM : l[k] ∉ (l.take k).filter (fun i => i ∈ V) := fun hc => hnot (List.mem_filter.mp hc).1
    have hnv : s'.Nv.at l[k] = N1 l[k] := by rw [h1.nv, if_neg hnotM]
    have hlen : ((l.take k).filter (fun i => i ∈ V)).length ≤ k :=
      (List.length_filter_le _ _).trans (by simp)
    unfold amd2InPlaceStep
    simp only
    rw [h1.aI.rd (by omega) (by omega), ok_bind, ei, h1.aNv.rd hr.1 hr.2, ok_bind]
    by_cases hV : l[k] ∈ V
    · rw [if_pos (by rw [hnv]; exact (hpos _ hmem).mpr hV)]
      have hml := h1.aI.m_le (by omega)
      have e1 : pm + 1 = pme1 + ((l.take k).filter (fun i => i ∈ V)).length := by omega
      have aI' := h1.aI.put (by omega : 0 ≤ pm + 1) (by omega) l[k]
      have hval : ∀ c, (s'.Iw.put (pm + 1) l[k]).at c = if c = pm + 1 then l[k] else s'.Iw.at c :=
        fun c => h1.aI.at_put (by omega) (by omega) _ _
      have hpush := h1.push hV hnotM hr (Iw := s'.Iw.put (pm + 1) l[k]) (pf := s'.pfree) aI'
        (h1.blk.snoc (by
          intro c hc0 hc1
          rw [hval, if_neg (by omega)]) (by rw [hval, if_pos (by omega)]))
        (by
          intro c hc0 hc1
          rw [hval]
          split
          · exact hr
          · exact h1.val c hc0 hc1)
      rw [h1.aNv.wr hr.1 hr.2, ok_bind] at hpush
      have hw := nodup_sum_add_le h1.nodup h1.sub hwt hV hnotM
      have hdg := h1.deg
      rw [ck_bind (by omega), ck_bind (by omega), h1.aNv.wr hr.1 hr.2, ok_bind, ck_bind (by omega),
        h1.aI.wr (by omega) (by omega), ok_bind]
      refine Spec.bind hpush ?_
      rintro s2 ⟨b1, b2, b3, b4, b5, b6⟩
      have hf : (l.take (k + 1)).filter (fun i => i ∈ V)
          = (l.take k).filter (fun i => i ∈ V) ++ [l[k]] := by
        rw [htk, List.filter_append]; simp [hV]
      refine Spec.pure ⟨k + 1, by push_cast; omega, hkl, ?_⟩
      rw [hf]
      refine ⟨b1, ?_, b2.trans h3, b4.trans h4, b5.trans h5, b6.trans h6, ?_⟩
      · simp only [List.length_append, List.length_singleton]; push_cast; omega
      · intro c hc
        rw [b3, hval, if_neg (by omega)]
        exact h7 c (by omega)
    · rw [if_neg (by rw [hnv]; exact fun hc => hV ((hpos _ hmem).mp hc))]
      have hf : (l.take (k + 1)).filter (fun i => i ∈ V) = (l.take k).filter (fun i => i ∈ V) := by
        rw [htk, List.filter_append]; simp [hV]
      refine Spec.pure ⟨k + 1, by push_cast; omega, hkl, ?_⟩
      rw [hf]
      exact ⟨h1, h2, h3, h4, h5, h6, fun c hc => h7 c (by omega)⟩
  · rintro ⟨dg, pm, s'⟩ ⟨k, hk1, hk2, h1, h2, h3, h4, h5, h6, h7⟩
    have : k = l.length := by omega
    subst this
    rw [List.take_length] at h1 h2
    exact ⟨_, rfl, h1, h2, h3, h4, h5, h6, h7⟩

/-! ## In free space -/

/-- `O`, with `x` added unless its list `l` is empty. -/
def oins (O : Finset Int) (x : Int) (l : List Int) : Finset Int := if l = [] then O else insert x O

theorem mem_oins {O : Finset Int} {x : Int} {l : List Int} {y : Int} :
    y ∈ oins O x l ↔ y ∈ O ∨ (y = x ∧ l ≠ []) := by
  unfold oins
  split
  · next h => simp [h]
  · next h => simp [h, or_comm]

theorem sum_oins {O : Finset Int} {x : Int} (hx : x ∉ O) (C : Int → List Int) :
    ∑ y ∈ oins O x (C x), ((C y).length : Int) = ∑ y ∈ O, ((C y).length : Int) + (C x).length := by
  unfold oins
  split
  · next h => simp [h]
  · rw [Finset.sum_insert hx]; omega

/-- A cursor moves to the next entry of its list. -/
theorem Mem.advance {iw vp vp' : Int → Int} {C C' : Int → List Int} {O : Finset Int} {x a top : Int}
    {l : List Int} (hx : x ∉ O) (h : Mem iw vp C (oins O x (a :: l)) top) (hc : C x = a :: l)
    (hc' : C' x = l) (hO : ∀ y ∈ O, C' y = C y ∧ vp' y = vp y) (hvx : vp' x = vp x + 1) :
    Mem iw vp' C' (oins O x l) top := by
  have hxm : x ∈ oins O x (a :: l) := by simp [mem_oins]
  have hsub : ∀ y, y ∈ oins O x l → y ∈ oins O x (a :: l) := by
    intro y hy
    rw [mem_oins] at hy ⊢
    rcases hy with h | h
    · exact Or.inl h
    · exact Or.inr ⟨h.1, by simp⟩
  have key : ∀ y ∈ oins O x l, (y = x ∧ C' y = l ∧ l ≠ [] ∧ vp' y = vp x + 1) ∨
      (y ≠ x ∧ y ∈ O ∧ C' y = C y ∧ vp' y = vp y) := by
    intro y hy
    rcases mem_oins.mp hy with h' | ⟨rfl, h'⟩
    · exact Or.inr ⟨fun e => hx (e ▸ h'), h', hO y h'⟩
    · exact Or.inl ⟨rfl, hc', h', hvx⟩
  have hlen : (C x).length = l.length + 1 := by rw [hc]; simp
  constructor
  · intro y hy
    rcases key y hy with ⟨rfl, e, h', _⟩ | ⟨_, h', e, _⟩
    · rw [e]; exact h'
    · rw [e]; exact h.ne y (hsub y hy)
  · intro y hy
    have h0 := h.lo y (hsub y hy)
    rcases key y hy with ⟨rfl, e, h', e2⟩ | ⟨_, h', e, e2⟩
    · omega
    · omega
  · intro y hy
    have h0 := h.hi y (hsub y hy)
    rcases key y hy with ⟨rfl, e, h', e2⟩ | ⟨_, h', e, e2⟩
    · rw [e, e2]; omega
    · rw [e, e2]; exact h0
  · intro y hy
    have h0 := h.blk y (hsub y hy)
    rcases key y hy with ⟨rfl, e, h', e2⟩ | ⟨_, h', e, e2⟩
    · rw [e, e2]
      rw [hc, Blk.cons_iff] at h0
      exact h0.2
    · rw [e, e2]; exact h0
  · intro y hy z hz hne
    have h0 := h.disj y (hsub y hy) z (hsub z hz) hne
    rcases key y hy with ⟨rfl, e, h', e2⟩ | ⟨_, h', e, e2⟩ <;>
    rcases key z hz with ⟨rfl, e3, h3, e4⟩ | ⟨_, h3, e3, e4⟩
    · exact absurd rfl hne
    · rw [e, e2, e3, e4]; omega
    · rw [e, e2, e3, e4]; omega
    · rw [e, e2, e3, e4]; exact h0

/-- Position of the lists while `e` is searched for element `me`. -/
def curVp (me e : Int) (b : BuildSt) (x : Int) : Int :=
  if x = e then b.pj else if x = me then b.p else b.s.Pe.at x

/-- The lists that are still needed while `e` is searched: `Q` is what is left of the list of `e`,
`R` what is left of the list of `me` (nothing for `e = me`), the others are as in `C`. -/
def curC (me e : Int) (C : Int → List Int) (Q R : List Int) (x : Int) : List Int :=
  if x = e then Q else if x = me then R else C x

/-- Memory while `e` is searched. -/
structure Cur (n me e : Int) (O : Finset Int) (C : Int → List Int) (b : BuildSt) (Q R : List Int) :
    Prop where
  me0 : 0 ≤ me
  me1 : me < n
  e0 : 0 ≤ e
  e1 : e < n
  rng : ∀ x ∈ O, 0 ≤ x ∧ x < n
  meO : me ∉ O
  eO : e ∉ O
  same : e = me → R = []
  mem : Mem b.s.Iw.at (curVp me e b) (curC me e C Q R) (oins (oins O me R) e Q) b.pme1
  len : ∀ x ∈ O, b.s.Len.at x = (C x).length
  neg : ∀ x, 0 ≤ x → x < n → x ∉ O → x ≠ e → x ≠ me → b.s.Pe.at x < 0

theorem Cur.e_notin {O : Finset Int} {C : Int → List Int} {b : BuildSt} {Q R : List Int}
    (h : Cur n me e O C b Q R) : e ∉ oins O me R := by
  rw [mem_oins]
  rintro (h' | ⟨h1, h2⟩)
  · exact h.eO h'
  · exact h2 (h.same h1)

theorem Cur.sum {O : Finset Int} {C : Int → List Int} {b : BuildSt} {Q R : List Int}
    (h : Cur n me e O C b Q R) : ∑ x ∈ oins (oins O me R) e Q, ((curC me e C Q R x).length : Int)
      = ∑ x ∈ O, ((C x).length : Int) + R.length + Q.length := by
  have e1 : curC me e C Q R e = Q := by simp [curC]
  have s1 := sum_oins h.e_notin (curC me e C Q R)
  rw [e1] at s1
  rw [s1]
  have hO : ∑ x ∈ O, ((curC me e C Q R x).length : Int) = ∑ x ∈ O, ((C x).length : Int) := by
    refine Finset.sum_congr rfl fun x hx => ?_
    have h1 : x ≠ e := fun h' => h.eO (h' ▸ hx)
    have h2 : x ≠ me := fun h' => h.meO (h' ▸ hx)
    simp [curC, h1, h2]
  by_cases hem : e = me
  · have := h.same hem
    subst this
    simp [oins, hO]
  · have e2 : curC me e C Q R me = R := by simp [curC, Ne.symm hem]
    have s2 := sum_oins h.meO (curC me e C Q R)
    rw [e2, hO] at s2
    rw [s2]

/-- One entry of the list is read. -/
theorem Cur.advance {O : Finset Int} {C : Int → List Int} {b : BuildSt} {a : Int} {Q R : List Int}
    (h : Cur n me e O C b (a :: Q) R) : Cur n me e O C { b with pj := b.pj + 1 } Q R := by
  refine ⟨h.me0, h.me1, h.e0, h.e1, h.rng, h.meO, h.eO, h.same, ?_, h.len, h.neg⟩
  refine Mem.advance h.e_notin h.mem (by simp [curC]) (by simp [curC]) ?_ (by simp [curVp])
  intro y hy
  have : y ≠ e := fun e' => h.e_notin (e' ▸ hy)
  simp [curC, curVp, this]

theorem amd2Compress_spec {N1 : Int → Int} {s0 : Amd2} {O : Finset Int} {C : Int → List Int}
    {b : BuildSt} {Q R M : List Int} {knt1 knt2 ln : Int}
    (hB : 0 ≤ n ∧ 0 ≤ iwlen ∧ 3 * (n + iwlen) + 10 ≤ Int_MAX)
    (hck : -Int_MAX ≤ b.s.Len.at me - knt1 ∧ b.s.Len.at me - knt1 ≤ Int_MAX) (hQm : (Q.length : Int) ≤ iwlen)
    (hfull : b.s.pfree ≤ iwlen) (hn : 0 ≤ n)
    (hc : Cur n me e O C b Q R) (hs : Cons n iwlen V N1 s0 b.s b.pme1 b.degme M)
    (hpf : b.s.pfree = b.pme1 + M.length) (hQ : ln - knt2 = Q.length)
    (hR : e ≠ me → b.s.Len.at me - knt1 = R.length) :
    Spec (amd2Compress n me e knt1 knt2 ln b) (fun b' => Cur n me e O C b' Q R ∧
      Cons n iwlen V N1 s0 b'.s b'.pme1 b'.degme M ∧
      b'.pme1 = ∑ x ∈ O, ((C x).length : Int) + R.length + Q.length ∧
      b'.s.pfree = b'.pme1 + M.length ∧ b'.s.W = b.s.W ∧
      ∀ x, x ∉ O → x ≠ e → x ≠ me → b'.s.Pe.at x = b.s.Pe.at x) := by
  unfold amd2Compress
  have m0 := hc.me0
  have m1 := hc.me1
  have e0 := hc.e0
  have e1 := hc.e1
  have aP1 := hs.aP.put m0 m1 b.p
  have aL1 := hs.aL.put m0 m1 (b.s.Len.at me - knt1)
  have eL1 : (b.s.Len.put me (b.s.Len.at me - knt1)).at me = b.s.Len.at me - knt1 := by
    rw [hs.aL.at_put m0 m1, if_pos rfl]
  simp only
  rw [hs.aP.wr m0 m1, ok_bind, hs.aL.rd m0 m1, ok_bind, ck_bind (by omega),
    hs.aL.wr m0 m1, ok_bind, aL1.rd m0 m1,
    ok_bind, eL1]
  -- pointer of `me`
  obtain ⟨P1, hP1, aP2, eP1⟩ : ∃ P1, (if b.s.Len.at me - knt1 = 0 then wr (b.s.Pe.put me b.p) me EMPTY
      else pure (b.s.Pe.put me b.p)) = (.ok P1 : Verif.M (Buf Int)) ∧ Arr P1 n n ∧
      ∀ x, P1.at x = if x = me then (if b.s.Len.at me - knt1 = 0 then EMPTY else b.p)
        else b.s.Pe.at x := by
    split
    · refine ⟨_, aP1.wr m0 m1 _, aP1.put m0 m1 _, fun x => ?_⟩
      rw [aP1.at_put m0 m1, hs.aP.at_put m0 m1]
      split <;> rfl
    · exact ⟨_, rfl, aP1, fun x => by rw [hs.aP.at_put m0 m1]⟩
  rw [hP1, ok_bind, aP2.wr e0 e1, ok_bind, ck_bind (by omega), aL1.wr e0 e1, ok_bind]
  have aP3 := aP2.put e0 e1 b.pj
  have aL2 := aL1.put e0 e1 (ln - knt2)
  have eL2 : ((b.s.Len.put me (b.s.Len.at me - knt1)).put e (ln - knt2)).at e = ln - knt2 := by
    rw [aL1.at_put e0 e1, if_pos rfl]
  rw [aL2.rd e0 e1, ok_bind, eL2]
  set Len2 := (b.s.Len.put me (b.s.Len.at me - knt1)).put e (ln - knt2) with hLen2
  obtain ⟨P2, hP2, aP4, eP2⟩ : ∃ P2, (if ln - knt2 = 0 then wr (P1.put e b.pj) e EMPTY
      else pure (P1.put e b.pj)) = (.ok P2 : Verif.M (Buf Int)) ∧ Arr P2 n n ∧
      ∀ x, P2.at x = if x = e then (if ln - knt2 = 0 then EMPTY else b.pj) else P1.at x := by
    split
    · refine ⟨_, aP3.wr e0 e1 _, aP3.put e0 e1 _, fun x => ?_⟩
      rw [aP3.at_put e0 e1, aP2.at_put e0 e1]
      split <;> rfl
    · exact ⟨_, rfl, aP3, fun x => by rw [aP2.at_put e0 e1]⟩
  rw [hP2, ok_bind]
  -- the objects
  set Oin := oins (oins O me R) e Q with hOin
  have hQ0 : Q = [] ↔ ln - knt2 = 0 := by rw [hQ]; simp
  have hR0 : e ≠ me → (R = [] ↔ b.s.Len.at me - knt1 = 0) := fun h' => by rw [hR h']; simp
  have hmemO : ∀ x, x ∈ Oin ↔ x ∈ O ∨ (x = me ∧ R ≠ []) ∨ (x = e ∧ Q ≠ []) := by
    intro x
    rw [hOin, mem_oins, mem_oins, or_assoc]
  have hvp : ∀ x ∈ Oin, P2.at x = curVp me e b x := by
    intro x hx
    rw [eP2, eP1]
    unfold curVp
    by_cases h1 : x = e
    · subst h1
      have hQn : Q ≠ [] := by
        rcases (hmemO x).mp hx with h' | ⟨rfl, h'⟩ | ⟨_, h'⟩
        · exact absurd h' hc.eO
        · exact absurd (hc.same rfl) h'
        · exact h'
      rw [if_pos rfl, if_pos rfl, if_neg (fun h' => hQn (hQ0.mpr h'))]
    · rw [if_neg h1, if_neg h1]
      by_cases h2 : x = me
      · subst h2
        have hRn : R ≠ [] := by
          rcases (hmemO x).mp hx with h' | ⟨_, h'⟩ | ⟨h', _⟩
          · exact absurd h' hc.meO
          · exact h'
          · exact absurd h' h1
        rw [if_pos rfl, if_pos rfl, if_neg (fun h' => hRn ((hR0 (Ne.symm h1)).mpr h'))]
      · rw [if_neg h2, if_neg h2]
  have hmem : Mem b.s.Iw.at P2.at (curC me e C Q R) Oin b.pme1 :=
    hc.mem.congr hvp (fun _ _ => rfl) hc.mem.hi (fun _ _ _ _ _ => rfl)
  have hrng : ∀ x ∈ Oin, 0 ≤ x ∧ x < n := by
    intro x hx
    rcases (hmemO x).mp hx with h' | ⟨rfl, _⟩ | ⟨rfl, _⟩
    · exact hc.rng x h'
    · exact ⟨m0, m1⟩
    · exact ⟨e0, e1⟩
  have hneg : ∀ x, 0 ≤ x → x < n → x ∉ Oin → P2.at x < 0 := by
    intro x x0 x1 hx
    have hx' : x ∉ O ∧ (x = me → R = []) ∧ (x = e → Q = []) := by
      rw [hmemO] at hx; tauto
    rw [eP2, eP1]
    by_cases h1 : x = e
    · rw [if_pos h1, if_pos (hQ0.mp (hx'.2.2 h1))]; decide
    · rw [if_neg h1]
      by_cases h2 : x = me
      · subst h2
        rw [if_pos rfl, if_pos ((hR0 (Ne.symm h1)).mp (hx'.2.1 rfl))]; decide
      · rw [if_neg h2]
        exact hc.neg x x0 x1 hx'.1 h1 h2
  have hlen : ∀ x ∈ Oin, Len2.at x = (curC me e C Q R x).length := by
    intro x hx
    rw [hLen2, aL1.at_put e0 e1, hs.aL.at_put m0 m1]
    unfold curC
    by_cases h1 : x = e
    · rw [if_pos h1, if_pos h1, hQ]
    · rw [if_neg h1, if_neg h1]
      by_cases h2 : x = me
      · rw [if_pos h2, if_pos h2, hR (fun h' => h1 (h2.trans h'.symm))]
      · rw [if_neg h2, if_neg h2]
        rcases (hmemO x).mp hx with h' | ⟨h', _⟩ | ⟨h', _⟩
        · exact hc.len x h'
        · exact absurd h' h2
        · exact absurd h' h1
  have hgc := gc_spec (len := iwlen) hB hfull hn aP4 hs.aI aL2 hs.p0 (by omega) hmem hlen hrng hneg hs.val
  obtain ⟨r, hr, aP', hsum, hle, hpf', aI', hmem', hpo, hcp, hval⟩ := hgc
  obtain ⟨mk, hmk, hr⟩ : ∃ mk, gcMark n P2 b.s.Iw = .ok mk ∧
      gcCompress b.pme1 b.s.pfree mk.1 mk.2 Len2 = .ok r := by
    cases hm : gcMark n P2 b.s.Iw with
    | error err => rw [hm] at hr; cases hr
    | ok mk => rw [hm] at hr; exact ⟨mk, rfl, hr⟩
  rw [hmk, ok_bind, hr, ok_bind, aP'.rd e0 e1, ok_bind, aP'.rd m0 m1, ok_bind]
  rw [hc.sum] at hsum
  rw [hpf] at hpf'
  have hpf2 : r.2.2.2 = r.2.2.1 + M.length := by omega
  refine Spec.pure ⟨⟨m0, m1, e0, e1, hc.rng, hc.meO, hc.eO, hc.same, ?_, ?_, ?_⟩, ?_, hsum, hpf2, rfl,
    ?_⟩ <;> simp only
  · refine hmem'.congr ?_ (fun _ _ => rfl) hmem'.hi (fun _ _ _ _ _ => rfl)
    intro x hx
    unfold curVp
    simp only
    split
    · next h' => rw [h']
    · split
      · next h' => rw [h']
      · rfl
  · intro x hx
    rw [hLen2, aL1.at_put e0 e1, hs.aL.at_put m0 m1, if_neg (fun h' : x = e => hc.eO (h' ▸ hx)),
      if_neg (fun h' : x = me => hc.meO (h' ▸ hx))]
    exact hc.len x hx
  · intro x x0 x1 hxO h1 h2
    have hx : x ∉ Oin := by
      rw [hmemO]; rintro (h' | ⟨h', _⟩ | ⟨h', _⟩)
      · exact hxO h'
      · exact h2 h'
      · exact h1 h'
    rw [hpo x hx, eP2, if_neg h1, eP1, if_neg h2]
    exact hc.neg x x0 x1 hxO h1 h2
  · have hS : 0 ≤ r.2.2.1 := by
      rw [hsum]
      have : 0 ≤ ∑ x ∈ O, ((C x).length : Int) := Finset.sum_nonneg fun x _ => by omega
      omega
    refine ⟨aP', aI', aL2, hs.aNv, hs.aN, hs.aT, hs.aH, hs.aW, hs.aE, hs.aD, hs.elen, hs.degree, hs.nel,
      hs.mindeg, hs.wflg, hs.lemax, hs.nodup, hs.sub, hs.nv, hs.deg, hs.dl, hS, ?_, hval⟩
    intro k v hk
    obtain ⟨hk1, _⟩ := List.getElem?_eq_some_iff.mp hk
    rw [hcp k (by omega) (by rw [hpf]; omega)]
    exact hs.blk k v hk
  · intro x hxO h1 h2
    have hx : x ∉ Oin := by
      rw [hmemO]; rintro (h' | ⟨h', _⟩ | ⟨h', _⟩)
      · exact hxO h'
      · exact h2 h'
      · exact h1 h'
    rw [hpo x hx, eP2, if_neg h1, eP1, if_neg h2]

theorem amd2Search_spec {N1 : Int → Int} {s0 : Amd2} {O : Finset Int} {C : Int → List Int}
    {b : BuildSt} {l R M0 : List Int} {knt1 : Int}
    (hB : 0 ≤ n ∧ 0 ≤ iwlen ∧ 3 * (n + iwlen) + 10 ≤ Int_MAX)
    (hwt : (∀ x ∈ V, 0 ≤ N1 x) ∧ ∑ x ∈ V, N1 x ≤ n)
    (hn : 0 ≤ n)
    (hc : Cur n me e O C b l R) (hs : Cons n iwlen V N1 s0 b.s b.pme1 b.degme M0)
    (hpf : b.s.pfree = b.pme1 + M0.length)
    (hsz : (M0.length : Int) + ∑ x ∈ O, ((C x).length : Int) + R.length + l.length ≤ iwlen - n)
    (hst : ((e ≠ me → b.s.Len.at me - knt1 = R.length) ∧ -Int_MAX ≤ b.s.Len.at me - knt1 ∧
      b.s.Len.at me - knt1 ≤ Int_MAX) ∨ b.s.pfree + n ≤ iwlen + M0.length)
    (hlr : ∀ i ∈ l, 0 ≤ i ∧ i < n) (hVr : ∀ i ∈ V, 0 ≤ i ∧ i < n)
    (hpos : ∀ i ∈ l, 0 < N1 i ↔ i ∈ V) :
    Spec (forI 1 (l.length + 1) b (amd2SearchStep n iwlen me e knt1 l.length)) (fun b' =>
      ∃ M, Cur n me e O C b' [] R ∧ Cons n iwlen V N1 s0 b'.s b'.pme1 b'.degme M ∧
      b'.s.pfree = b'.pme1 + M.length ∧ (∀ i, i ∈ M ↔ i ∈ M0 ∨ (i ∈ V ∧ i ∈ l)) ∧
      (M.length : Int) + ∑ x ∈ O, ((C x).length : Int) + R.length ≤ iwlen - n ∧
      ((b'.s.Len.at me = b.s.Len.at me ∧ (e ≠ me → b.s.Len.at me - knt1 = R.length) ∧
        -Int_MAX ≤ b.s.Len.at me - knt1 ∧ b.s.Len.at me - knt1 ≤ Int_MAX) ∨
        b'.s.pfree + n ≤ iwlen + M.length) ∧
      b'.s.W = b.s.W ∧ ∀ x, x ∉ O → x ≠ e → x ≠ me → b'.s.Pe.at x = b.s.Pe.at x) := by
  refine (forI_int (by omega) (fun j (b' : BuildSt) => ∃ (k : Nat) (M : List Int), j = 1 + k ∧
      k ≤ l.length ∧ Cur n me e O C b' (l.drop k) R ∧
      Cons n iwlen V N1 s0 b'.s b'.pme1 b'.degme M ∧
      b'.s.pfree = b'.pme1 + M.length ∧ (∀ i, i ∈ M ↔ i ∈ M0 ∨ (i ∈ V ∧ i ∈ l.take k)) ∧
      (M.length : Int) + ∑ x ∈ O, ((C x).length : Int) + R.length + (l.drop k).length ≤ iwlen - n ∧
      ((b'.s.Len.at me = b.s.Len.at me ∧ (e ≠ me → b.s.Len.at me - knt1 = R.length) ∧
        -Int_MAX ≤ b.s.Len.at me - knt1 ∧ b.s.Len.at me - knt1 ≤ Int_MAX) ∨
        b'.s.pfree + n ≤ iwlen + M.length) ∧
      b'.s.W = b.s.W ∧ ∀ x, x ∉ O → x ≠ e → x ≠ me → b'.s.Pe.at x = b.s.Pe.at x) ?_ ?_).mono ?_
  · refine ⟨0, M0, by simp, by simp, hc, hs, hpf, by simp, hsz, ?_, rfl, fun _ _ _ _ => rfl⟩
    rcases hst with h | h
    · exact Or.inl ⟨rfl, h⟩
    · exact Or.inr h
  · rintro j b1 hj0 hj1 ⟨k, M, rfl, hk, h1, h2, h3, h4, h5, h6, h7, h8⟩
    have hkl : k < l.length := by omega
    have hd : l.drop k = l[k] :: l.drop (k + 1) := List.drop_eq_getElem_cons hkl
    rw [hd] at h1
    have hmem : l[k] ∈ l := List.getElem_mem hkl
    have hr := hlr _ hmem
    have htk : l.take (k + 1) = l.take k ++ [l[k]] := by
      rw [List.take_add_one, List.getElem?_eq_getElem hkl]; rfl
    have hein : e ∈ oins (oins O me R) e (l[k] :: l.drop (k + 1)) :=
      mem_oins.mpr (Or.inr ⟨rfl, List.cons_ne_nil _ _⟩)
    have b0 := h1.mem.lo e hein
    have bh := h1.mem.hi e hein
    have bb := h1.mem.blk e hein
    have ev : curVp me e b1 e = b1.pj := by simp [curVp]
    have eC : curC me e C (l[k] :: l.drop (k + 1)) R e = l[k] :: l.drop (k + 1) := by simp [curC]
    rw [ev] at b0 bh bb
    rw [eC] at bh bb
    have ei : b1.s.Iw.at b1.pj = l[k] := by
      have := bb 0 l[k] rfl
      simpa using this
    have hadv := h1.advance
    have hdl : (l.drop k).length = (l.drop (k + 1)).length + 1 := by
      simp only [List.length_drop]; omega
    simp only [List.length_cons] at bh
    unfold amd2SearchStep
    simp only
    have hpl := h2.aI.m_le (by omega)
    rw [h2.aI.rd b0 (by omega), ok_bind, ck_bind (by omega), ei, h2.aNv.rd hr.1 hr.2, ok_bind]
    by_cases hin : l[k] ∈ V ∧ l[k] ∉ M
    · obtain ⟨hV, hM⟩ := hin
      have hnv : b1.s.Nv.at l[k] = N1 l[k] := by rw [h2.nv, if_neg hM]
      rw [if_pos (by rw [hnv]; exact (hpos _ hmem).mpr hV)]
      have hMn : (M.length : Int) < n :=
        length_lt_of_mem_range h2.nodup (fun i hi => hVr i (h2.sub i hi)) hM hr.1 hr.2
      -- after a possible garbage collection
      have hgc : Spec (if ({ b1 with pj := b1.pj + 1 } : BuildSt).s.pfree ≥ iwlen then
            amd2Compress n me e knt1 (1 + (k : Int)) l.length { b1 with pj := b1.pj + 1 }
          else pure { b1 with pj := b1.pj + 1 }) (fun b2 =>
          Cur n me e O C b2 (l.drop (k + 1)) R ∧
          Cons n iwlen V N1 s0 b2.s b2.pme1 b2.degme M ∧ b2.s.pfree = b2.pme1 + M.length ∧
          b2.s.pfree < iwlen ∧
          ((b2.s.Len.at me = b.s.Len.at me ∧ (e ≠ me → b.s.Len.at me - knt1 = R.length) ∧
        -Int_MAX ≤ b.s.Len.at me - knt1 ∧ b.s.Len.at me - knt1 ≤ Int_MAX) ∨
            b2.s.pfree + n ≤ iwlen + M.length) ∧
          b2.s.W = b.s.W ∧ ∀ x, x ∉ O → x ≠ e → x ≠ me → b2.s.Pe.at x = b.s.Pe.at x) := by
        by_cases hfull : b1.s.pfree ≥ iwlen
        · simp only [hfull, if_true]
          rcases h6 with ⟨h6a, h6b, h6c⟩ | h6
          · refine (amd2Compress_spec (b := { b1 with pj := b1.pj + 1 }) (s0 := s0) (N1 := N1) (V := V)
              (M := M) (iwlen := iwlen) hB (by rw [h6a]; exact h6c)
              (by have : 0 ≤ ∑ x ∈ O, ((C x).length : Int) := Finset.sum_nonneg fun x _ => by omega
                  omega) hpl hn hadv h2 h3 (by rw [List.length_drop]; omega)
              (fun h => by rw [← h6b h, ← h6a])).mono ?_
            rintro b2 ⟨c1, c2, c3, c4, c5, c6⟩
            have hp : b2.s.pfree + 1 ≤ iwlen - n := by
              rw [c4, c3]; omega
            exact ⟨c1, c2, c4, by omega, Or.inr (by omega), c5.trans h7,
              fun x x1 x2 x3 => (c6 x x1 x2 x3).trans (h8 x x1 x2 x3)⟩
          · omega
        · simp only [hfull, if_false]
          exact Spec.pure ⟨hadv, h2, h3, by show b1.s.pfree < iwlen; omega, h6, h7, h8⟩
      refine Spec.bind hgc ?_
      rintro b2 ⟨c1, c2, c3, c4, c5, c6, c7⟩
      have hnv2 : b2.s.Nv.at l[k] = N1 l[k] := by rw [c2.nv, if_neg hM]
      have hp0 := c2.p0
      have hpf0 : 0 ≤ b2.s.pfree := by omega
      have hval : ∀ c, (b2.s.Iw.put b2.s.pfree l[k]).at c
          = if c = b2.s.pfree then l[k] else b2.s.Iw.at c :=
        fun c => c2.aI.at_put hpf0 c4 _ _
      have hpush := c2.push hV hM hr (Iw := b2.s.Iw.put b2.s.pfree l[k]) (pf := b2.s.pfree + 1)
        (c2.aI.push hpf0 c4 _)
        (c2.blk.snoc (by
          intro c hc0 hc1
          rw [hval, if_neg (by omega)]) (by rw [hval, if_pos (by omega)]))
        (by
          intro c hc0 hc1
          rw [hval]
          split
          · exact hr
          · exact c2.val c hc0 (by omega))
      rw [c2.aNv.wr hr.1 hr.2, ok_bind, hnv2] at hpush
      have hw := nodup_sum_add_le h2.nodup h2.sub hwt hV hM
      have hdg := c2.deg
      rw [hnv, ck_bind (by omega), ck_bind (by omega), c2.aNv.wr hr.1 hr.2, ok_bind, c2.aI.wr hpf0 c4,
        ok_bind, ck_bind (by omega)]
      refine Spec.bind hpush ?_
      rintro s2 ⟨d1, d2, d3, d4, d5, d6⟩
      refine Spec.pure ⟨k + 1, M ++ [l[k]], by push_cast; omega, hkl, ?_, d1, ?_, ?_, ?_, ?_, ?_, ?_⟩
      · refine ⟨c1.me0, c1.me1, c1.e0, c1.e1, c1.rng, c1.meO, c1.eO, c1.same, ?_, ?_, ?_⟩ <;> simp only
        · refine c1.mem.congr ?_ (fun _ _ => rfl) c1.mem.hi ?_
          · intro x hx
            simp only [curVp, d2]
          · intro x hx c hc0 hc1
            have := c1.mem.hi x hx
            rw [d3, hval, if_neg (by omega)]
        · intro x hx
          rw [d4]; exact c1.len x hx
        · intro x x0 x1 x2 x3 x4
          rw [d2]; exact c1.neg x x0 x1 x2 x3 x4
      · simp only [d5, List.length_append, List.length_singleton]; push_cast; omega
      · intro i
        rw [List.mem_append, List.mem_singleton, h4, htk, List.mem_append, List.mem_singleton]
        constructor
        · rintro ((h | ⟨h, h'⟩) | rfl)
          · exact Or.inl h
          · exact Or.inr ⟨h, Or.inl h'⟩
          · exact Or.inr ⟨hV, Or.inr rfl⟩
        · rintro (h | ⟨h, h' | h'⟩)
          · exact Or.inl (Or.inl h)
          · exact Or.inl (Or.inr ⟨h, h'⟩)
          · exact Or.inr h'
      · simp only [List.length_append, List.length_singleton]; push_cast; omega
      · simp only [d4, d5, List.length_append, List.length_singleton]
        rcases c5 with h | h
        · exact Or.inl h
        · exact Or.inr (by push_cast; omega)
      · simp only [d6]; exact c6
      · simp only [d2]; exact c7
    · have hnv : ¬ b1.s.Nv.at l[k] > 0 := by
        rw [h2.nv]
        by_cases hM : l[k] ∈ M
        · rw [if_pos hM]
          have := (hpos _ hmem).mpr (h2.sub _ hM)
          omega
        · rw [if_neg hM]
          intro h
          exact hin ⟨(hpos _ hmem).mp h, hM⟩
      rw [if_neg hnv]
      refine Spec.pure ⟨k + 1, M, by push_cast; omega, hkl, hadv, h2, h3, ?_, by omega, h6, h7, h8⟩
      intro i
      rw [h4, htk, List.mem_append, List.mem_singleton]
      constructor
      · rintro (h | ⟨h, h'⟩)
        · exact Or.inl h
        · exact Or.inr ⟨h, Or.inl h'⟩
      · rintro (h | ⟨h, h' | h'⟩)
        · exact Or.inl h
        · exact Or.inr ⟨h, h'⟩
        · subst h'
          have : l[k] ∈ M := by
            by_contra hM
            exact hin ⟨h, hM⟩
          exact (h4 _).mp this
  · rintro b' ⟨k, M, hk1, hk2, h1, h2, h3, h4, h5, h6, h7, h8⟩
    have : k = l.length := by omega
    subst this
    rw [List.drop_length] at h1
    rw [List.take_length] at h4
    simp only [List.drop_length, List.length_nil] at h5
    exact ⟨M, h1, h2, h3, h4, by omega, h6, h7, h8⟩

/-- A counting loop whose last iteration is different. -/
theorem forI_last {σ : Type _} {lo hi : Int} (hle : lo ≤ hi) {s : σ} {f : Int → σ → Verif.M σ}
    (Inv : Int → σ → Prop) {Q : σ → Prop} (h0 : Inv lo s)
    (hstep : ∀ j s, lo ≤ j → j < hi → Inv j s → Spec (f j s) (Inv (j + 1)))
    (hl : ∀ s, Inv hi s → Spec (f hi s) Q) : Spec (forI lo (hi + 1) s f) Q := by
  refine (forI_int (by omega) (fun j s => if j = hi + 1 then Q s else Inv j s) ?_ ?_).mono ?_
  · rw [if_neg (by omega)]; exact h0
  · intro j s h1 h2 h3
    rw [if_neg (by omega)] at h3
    by_cases h : j = hi
    · subst h
      simpa using hl s h3
    · simp only [show ¬ j + 1 = hi + 1 by omega, if_false]
      exact hstep j s h1 (by omega) h3
  · intro s h
    simpa using h

/-- The memory before list number `t` is searched for element `me`: `es` are the elements of `me`,
`am` its variables, `V` the other live variables, `K` the live elements. -/
def consO (V K : Finset Int) (es : List Int) (t : Nat) : Finset Int :=
  V ∪ K.filter (fun x => x ∉ es.take t)

theorem Cur.toSearch {O O' : Finset Int} {C : Int → List Int} {b : BuildSt} {R : List Int}
    (h : Cur n me me O C { b with pj := b.p } (e :: R) []) (he : e ∈ O) (hO : O' = O.erase e) :
    Cur n me e O' C { b with p := b.p + 1, pj := b.s.Pe.at e } (C e) R := by
  have ha := h.advance
  have hem : e ≠ me := fun h' => h.meO (h' ▸ he)
  have her := h.rng e he
  have hne : C e ≠ [] := by
    have := ha.mem.ne e (by rw [mem_oins, mem_oins]; exact Or.inl (Or.inl he))
    simpa [curC, hem] using this
  subst hO
  refine ⟨h.me0, h.me1, her.1, her.2, fun x hx => h.rng x (Finset.mem_of_mem_erase hx),
    fun h' => h.meO (Finset.mem_of_mem_erase h'), by simp, fun h' => absurd h' hem, ?_,
    fun x hx => h.len x (Finset.mem_of_mem_erase hx), ?_⟩
  · have hs : oins (oins (O.erase e) me R) e (C e) = oins (oins O me []) me R := by
      ext x
      simp only [mem_oins, Finset.mem_erase]
      by_cases hx : x = e
      · subst hx; simp [he, hne]
      · simp [hx]
    rw [hs]
    have hcong : ∀ x ∈ oins (oins O me []) me R,
        curC me e C (C e) R x = curC me me C R [] x ∧
        curVp me e { b with p := b.p + 1, pj := b.s.Pe.at e } x
          = curVp me me { b with pj := b.p + 1 } x := by
      intro x hx
      unfold curC curVp
      simp only
      by_cases h1 : x = e
      · subst h1; simp [hem]
      · by_cases h2 : x = me
        · subst h2; simp [h1]
        · simp [h1, h2]
    refine ha.mem.congr (fun x hx => (hcong x hx).2) (fun x hx => (hcong x hx).1) ?_
      (fun _ _ _ _ _ => rfl)
    intro x hx
    exact ha.mem.hi x hx
  · intro x x0 x1 x2 x3 x4
    exact h.neg x x0 x1 (fun h' => x2 (Finset.mem_erase.mpr ⟨x3, h'⟩)) x4 x4

theorem Cur.ofSearch {O : Finset Int} {C : Int → List Int} {b : BuildSt} {R : List Int}
    (h : Cur n me e O C b [] R) (hem : e ≠ me) {s : Amd2} (hi : s.Iw = b.s.Iw) (hl : s.Len = b.s.Len)
    (hp : ∀ x, s.Pe.at x = if x = e then FLIP me else b.s.Pe.at x) :
    Cur n me me O C { b with pj := b.p, s := s } R [] := by
  refine ⟨h.me0, h.me1, h.me0, h.me1, h.rng, h.meO, h.meO, fun _ => rfl, ?_, ?_, ?_⟩
  · have hs : oins (oins O me []) me R = oins (oins O me R) e [] := by simp [oins]
    rw [hs]
    have hcong : ∀ x ∈ oins (oins O me R) e [],
        curC me me C R [] x = curC me e C [] R x ∧
        curVp me me { b with pj := b.p, s := s } x = curVp me e b x := by
      intro x hx
      have hxe : x ≠ e := by
        rintro rfl
        rw [mem_oins] at hx
        rcases hx with h' | h'
        · exact h.e_notin h'
        · simp at h'
      unfold curC curVp
      simp only
      rw [hp x, if_neg hxe, if_neg hxe, if_neg hxe]
      by_cases h2 : x = me <;> simp [h2]
    refine h.mem.congr (fun x hx => (hcong x hx).2) (fun x hx => (hcong x hx).1) ?_ ?_
    · intro x hx
      exact h.mem.hi x hx
    · intro _ _ _ _ _
      simp only [hi]
  · intro x hx
    simp only [hl]; exact h.len x hx
  · intro x x0 x1 x2 x3 x4
    simp only
    rw [hp]
    split
    · have := h.me0; unfold FLIP; omega
    · next h' => exact h.neg x x0 x1 x2 h' x3

theorem Cur.peek {O : Finset Int} {C : Int → List Int} {b : BuildSt} {a : Int} {Q R : List Int}
    (h : Cur n me e O C b (a :: Q) R) : 0 ≤ b.pj ∧ b.pj < b.pme1 ∧ b.s.Iw.at b.pj = a := by
  have hein : e ∈ oins (oins O me R) e (a :: Q) :=
    mem_oins.mpr (Or.inr ⟨rfl, List.cons_ne_nil _ _⟩)
  have b0 := h.mem.lo e hein
  have bh := h.mem.hi e hein
  have bb := h.mem.blk e hein
  have ev : curVp me e b e = b.pj := by simp [curVp]
  have eC : curC me e C (a :: Q) R e = a :: Q := by simp [curC]
  rw [ev] at b0 bh bb
  rw [eC] at bh bb
  have := bb 0 a rfl
  simp only [List.length_cons] at bh
  refine ⟨b0, by omega, ?_⟩
  simpa using this

theorem amd2Lists_spec {N1 : Int → Int} {s0 : Amd2} {K : Finset Int} {C : Int → List Int}
    {b : BuildSt} {es am : List Int}
    (hB : 0 ≤ n ∧ 0 ≤ iwlen ∧ 3 * (n + iwlen) + 10 ≤ Int_MAX)
    (hwt : (∀ x ∈ V, 0 ≤ N1 x) ∧ ∑ x ∈ V, N1 x ≤ n)
    (hn : 0 ≤ n) (hes : es.Nodup)
    (hc : Cur n me me (V ∪ K) C { b with pj := b.p } (es ++ am) [])
    (hs : Cons n iwlen V N1 s0 b.s b.pme1 b.degme []) (hpf : b.s.pfree = b.pme1)
    (hK : ∀ e ∈ es, e ∈ K ∧ e ∉ V)
    (hsz : ∑ x ∈ V ∪ K, ((C x).length : Int) + (es ++ am).length ≤ iwlen - n)
    (hlen : b.s.Len.at me = (es ++ am).length)
    (hVr : ∀ i ∈ V, 0 ≤ i ∧ i < n)
    (ham : ∀ i ∈ am, (0 ≤ i ∧ i < n) ∧ (0 < N1 i ↔ i ∈ V))
    (hL : ∀ e ∈ es, ∀ i ∈ C e, (0 ≤ i ∧ i < n) ∧ (0 < N1 i ↔ i ∈ V)) :
    Spec (forI 1 (es.length + 2) b (amd2SearchList n iwlen me es.length am.length)) (fun b' =>
      ∃ M, Cur n me me (V ∪ K.filter (fun x => x ∉ es)) C b' [] [] ∧
      Cons n iwlen V N1 s0 b'.s b'.pme1 b'.degme M ∧
      b'.s.pfree = b'.pme1 + M.length ∧
      (∀ i, i ∈ M ↔ i ∈ V ∧ (i ∈ am ∨ ∃ e ∈ es, i ∈ C e)) ∧
      (M.length : Int) + ∑ x ∈ V ∪ K.filter (fun x => x ∉ es), ((C x).length : Int) ≤ iwlen - n ∧
      (∀ x ∈ es, b'.s.Pe.at x = FLIP me) ∧
      (∀ x, b'.s.W.at x = if x ∈ es then 0 else b.s.W.at x) ∧
      ∀ x, x ∉ V → x ∉ K → x ≠ me → b'.s.Pe.at x = b.s.Pe.at x) := by
  -- the elements
  have hOt : ∀ t (ht : t < es.length), consO V K es (t + 1) = (consO V K es t).erase es[t] := by
    intro t ht
    have htk : es.take (t + 1) = es.take t ++ [es[t]] := by
      rw [List.take_add_one, List.getElem?_eq_getElem ht]; rfl
    have hk := hK _ (List.getElem_mem ht)
    ext x
    unfold consO
    simp only [Finset.mem_union, Finset.mem_filter, Finset.mem_erase, htk, List.mem_append,
      List.mem_singleton]
    constructor
    · rintro (h | ⟨h, h'⟩)
      · exact ⟨fun e => hk.2 (e ▸ h), Or.inl h⟩
      · exact ⟨fun e => h' (Or.inr e), Or.inr ⟨h, fun e => h' (Or.inl e)⟩⟩
    · rintro ⟨h, h' | ⟨h', h''⟩⟩
      · exact Or.inl h'
      · exact Or.inr ⟨h', fun e => e.elim h'' h⟩
  have hmemO : ∀ t (ht : t < es.length), es[t] ∈ consO V K es t := by
    intro t ht
    have hnot : es[t] ∉ es.take t := by
      intro hc
      have hd := hes
      rw [← List.take_append_drop t es, List.nodup_append] at hd
      have hm : es[t] ∈ es.drop t := by rw [List.drop_eq_getElem_cons ht]; exact List.mem_cons_self
      exact hd.2.2 _ hc _ hm rfl
    unfold consO
    simp only [Finset.mem_union, Finset.mem_filter]
    exact Or.inr ⟨(hK _ (List.getElem_mem ht)).1, hnot⟩
  have hO0 : consO V K es 0 = V ∪ K := by simp [consO]
  have hOe : consO V K es es.length = V ∪ K.filter (fun x => x ∉ es) := by simp [consO]
  rw [show (es.length : Int) + 2 = (es.length + 1) + 1 by omega]
  refine forI_last (by omega) (fun j (b' : BuildSt) => ∃ (t : Nat) (M : List Int),
      j = 1 + t ∧ t ≤ es.length ∧
      Cur n me me (consO V K es t) C { b' with pj := b'.p } ((es ++ am).drop t) [] ∧
      Cons n iwlen V N1 s0 b'.s b'.pme1 b'.degme M ∧
      b'.s.pfree = b'.pme1 + M.length ∧ (∀ i, i ∈ M ↔ i ∈ V ∧ ∃ e ∈ es.take t, i ∈ C e) ∧
      (M.length : Int) + ∑ x ∈ consO V K es t, ((C x).length : Int) + ((es ++ am).drop t).length
        ≤ iwlen - n ∧
      (b'.s.Len.at me = (es ++ am).length ∨ b'.s.pfree + n ≤ iwlen + M.length) ∧
      (∀ x ∈ es.take t, b'.s.Pe.at x = FLIP me) ∧
      (∀ x, b'.s.W.at x = if x ∈ es.take t then 0 else b.s.W.at x) ∧
      ∀ x, x ∉ V → x ∉ K → x ≠ me → b'.s.Pe.at x = b.s.Pe.at x) ?_ ?_ ?_
  · refine ⟨0, [], by simp, by simp, ?_, hs, by simpa using hpf, by simp, ?_, Or.inl hlen, by simp,
      by simp, fun _ _ _ _ => rfl⟩
    · rw [hO0]; exact hc
    · rw [hO0]; simpa using hsz
  · rintro j b1 hj0 hj1 ⟨t, M, rfl, ht, h1, h2, h3, h4, h5, h6, h7, h8, h9⟩
    have htl : t < es.length := by omega
    have hdr : (es ++ am).drop t = es[t] :: (es ++ am).drop (t + 1) := by
      rw [List.drop_eq_getElem_cons (by simp; omega), List.getElem_append_left htl]
    rw [hdr] at h1
    have htk : es.take (t + 1) = es.take t ++ [es[t]] := by
      rw [List.take_add_one, List.getElem?_eq_getElem htl]; rfl
    have hkV := hK _ (List.getElem_mem htl)
    have hmO := hmemO t htl
    have hem : es[t] ≠ me := fun h' => h1.meO (h' ▸ hmO)
    have her := h1.rng _ hmO
    obtain ⟨q0, q1, q2⟩ := h1.peek
    simp only at q0 q1 q2
    have hsr := h1.toSearch hmO (hOt t htl)
    have hlenE := h1.len _ hmO
    simp only at hlenE
    unfold amd2SearchList
    have hpl := h2.aI.m_le (by omega)
    rw [if_neg (by omega), h2.aI.rd q0 (by omega), ok_bind, ck_bind (by omega), q2, h2.aP.rd her.1 her.2, ok_bind,
      h2.aL.rd her.1 her.2, ok_bind, hlenE]
    rw [pure_eq_ok, ok_bind]
    dsimp only
    have hS : ∀ t, 0 ≤ ∑ x ∈ consO V K es t, ((C x).length : Int) :=
      fun t => Finset.sum_nonneg fun x _ => by omega
    have hS0 := hS t
    have hS1 := hS (t + 1)
    have hsum : ∑ x ∈ consO V K es (t + 1), ((C x).length : Int) + ((C es[t]).length : Int)
        = ∑ x ∈ consO V K es t, ((C x).length : Int) := by
      rw [hOt t htl]
      exact Finset.sum_erase_add _ _ hmO
    have hdl : ((es ++ am).drop t).length = ((es ++ am).drop (t + 1)).length + 1 := by
      rw [hdr, List.length_cons]
    have hsp := amd2Search_spec (b := { b1 with p := b1.p + 1, pj := b1.s.Pe.at es[t] })
      (knt1 := 1 + (t : Int)) hB hwt hn hsr h2 h3 (by omega)
      (by
        rcases h6 with h | h
        · have hl : (es ++ am).length = es.length + am.length := List.length_append
          have e1 : (((es ++ am).drop (t + 1)).length : Int) = (es ++ am).length - (1 + t) := by
            rw [List.length_drop]; omega
          simp only [h]
          exact Or.inl ⟨fun _ => by omega, by omega, by omega⟩
        · exact Or.inr h)
      (fun i hi => (hL _ (List.getElem_mem htl) i hi).1) hVr
      (fun i hi => (hL _ (List.getElem_mem htl) i hi).2)
    rw [ck_bind (by omega)]
    refine Spec.bind hsp ?_
    rintro b2 ⟨M', c1, c2, c3, c4, c5, c6, c7, c8⟩
    simp only at c6 c7 c8
    rw [if_pos hem, ck_bind (FLIP_ck (by have := hc.me0; have := hc.me1; omega)), c2.aP.wr her.1 her.2, ok_bind, c2.aW.wr her.1 her.2]
    have hPe : ∀ x, (b2.s.Pe.put es[t] (FLIP me)).at x
        = if x = es[t] then FLIP me else b2.s.Pe.at x := fun x => c2.aP.at_put her.1 her.2 _ _
    refine Spec.pure ⟨t + 1, M', by push_cast; omega, htl, ?_, ?_, c3, ?_, by omega, ?_, ?_, ?_, ?_⟩
    · exact c1.ofSearch hem (s := { b2.s with
        Pe := b2.s.Pe.put es[t] (FLIP me), W := b2.s.W.put es[t] 0 }) rfl rfl hPe
    · exact ⟨c2.aP.put her.1 her.2 _, c2.aI, c2.aL, c2.aNv, c2.aN, c2.aT, c2.aH,
        c2.aW.put her.1 her.2 _, c2.aE, c2.aD,
        c2.elen, c2.degree, c2.nel, c2.mindeg, c2.wflg, c2.lemax, c2.nodup, c2.sub, c2.nv, c2.deg,
        c2.dl, c2.p0, c2.blk, c2.val⟩
    · intro i
      rw [c4, h4, htk]
      simp only [List.mem_append, List.mem_singleton]
      constructor
      · rintro (⟨h, e, he, hi⟩ | ⟨h, h'⟩)
        · exact ⟨h, e, Or.inl he, hi⟩
        · exact ⟨h, _, Or.inr rfl, h'⟩
      · rintro ⟨h, e, he | he, hi⟩
        · exact Or.inl ⟨h, e, he, hi⟩
        · subst he; exact Or.inr ⟨h, hi⟩
    · rcases c6 with h | h
      · refine Or.inl ?_
        simp only
        have := h.2.1 hem
        rw [List.length_drop] at this
        have hl : (es ++ am).length = es.length + am.length := List.length_append
        omega
      · exact Or.inr h
    · intro x hx
      simp only
      rw [hPe]
      split
      · rfl
      · next hne =>
        rw [htk, List.mem_append, List.mem_singleton] at hx
        have hxt := hx.resolve_right hne
        rw [c8 x ?_ hne ?_, h7 x hxt]
        · unfold consO
          simp only [Finset.mem_union, Finset.mem_filter, not_or, not_and, not_not]
          refine ⟨(hK x (List.mem_of_mem_take hxt)).2, fun _ => ?_⟩
          rw [htk]; exact List.mem_append_left _ hxt
        · intro e
          exact hc.meO (Finset.mem_union_right _ (e ▸ (hK x (List.mem_of_mem_take hxt)).1))
    · intro x
      simp only
      rw [c2.aW.at_put her.1 her.2, c7, h8, htk]
      simp only [List.mem_append, List.mem_singleton]
      by_cases hx : x = es[t] <;> simp [hx]
    · intro x x1 x2 x3
      simp only
      have x4 : x ≠ es[t] := fun e => x2 (by rw [e]; exact hkV.1)
      rw [hPe, if_neg x4, c8 x ?_ x4 x3, h9 x x1 x2 x3]
      unfold consO
      simp [x1, x2]
  · rintro b1 ⟨t, M, ht', ht, h1, h2, h3, h4, h5, h6, h7, h8, h9⟩
    obtain rfl : t = es.length := by omega
    rw [List.take_length] at h4 h7
    rw [hOe] at h1 h5
    have hdr : (es ++ am).drop es.length = am := by simp
    rw [hdr] at h1 h5
    unfold amd2SearchList
    rw [if_pos (by omega)]
    rw [pure_eq_ok, ok_bind]
    dsimp only
    have hS : 0 ≤ ∑ x ∈ V ∪ K.filter (fun x => x ∉ es), ((C x).length : Int) :=
      Finset.sum_nonneg fun x _ => by omega
    have hS2 : 0 ≤ ∑ x ∈ V ∪ K, ((C x).length : Int) := Finset.sum_nonneg fun x _ => by omega
    rw [ck_bind (by omega)]
    have hsp := amd2Search_spec (b := { b1 with pj := b1.p }) (knt1 := (es.length : Int) + 1) hB hwt hn h1 h2 h3
      (by simp only [List.length_nil]; omega) (by
        rcases h6 with h | h
        · have hl : (es ++ am).length = es.length + am.length := List.length_append
          simp only [h]
          exact Or.inl ⟨fun h => absurd rfl h, by omega, by omega⟩
        · exact Or.inr h) (fun i hi => (ham i hi).1) hVr
      (fun i hi => (ham i hi).2)
    refine Spec.bind hsp ?_
    rintro b2 ⟨M', c1, c2, c3, c4, c5, c6, c7, c8⟩
    simp only at c6 c7 c8
    rw [if_neg (by simp)]
    have hmeK : me ∉ es := fun h => hc.meO (Finset.mem_union_right _ (hK _ h).1)
    refine Spec.ok ⟨M', c1, c2, c3, ?_, by simpa using c5, ?_, ?_, ?_⟩
    · intro i
      rw [c4, h4]
      constructor
      · rintro (⟨h, h'⟩ | ⟨h, h'⟩)
        · exact ⟨h, Or.inr h'⟩
        · exact ⟨h, Or.inl h'⟩
      · rintro ⟨h, h' | h'⟩
        · exact Or.inr ⟨h, h'⟩
        · exact Or.inl ⟨h, h'⟩
    · intro x hx
      have hxm : x ≠ me := fun e => hmeK (e ▸ hx)
      rw [c8 x ?_ hxm hxm, h7 x hx]
      simp [(hK x hx).2, hx]
    · intro x
      rw [c7, h8, List.take_length]
    · intro x x1 x2 x3
      rw [c8 x ?_ x3 x3, h9 x x1 x2 x3]
      simp [x1, x2]

/-- What holds after element `me` is constructed: `es` are the absorbed elements of `me`, `am` its
variables, `V` the other live variables, `O` the other objects, `s0` the state before. -/
structure Built (n iwlen me : Int) (V O : Finset Int) (C : Int → List Int) (es am : List Int)
    (s0 s : Amd2) (pme1 pme2 degme : Int) (M : List Int) : Prop where
  aP : Arr s.Pe n n
  aI : Arr s.Iw iwlen s.pfree
  aL : Arr s.Len n n
  aNv : Arr s.Nv n n
  aN : Arr s.Next n n
  aT : Arr s.Last n n
  aH : Arr s.Head n n
  aW : Arr s.W n n
  aE : Arr s.Elen n n
  aD : Arr s.Degree n n
  nel : s.nel = s0.nel
  mindeg : s.mindeg = s0.mindeg
  wflg : s.wflg = s0.wflg
  lemax : s.lemax = s0.lemax
  degree : ∀ x, s.Degree.at x = if x = me then degme else s0.Degree.at x
  elen : ∀ x, s.Elen.at x = if x = me then FLIP (s0.Nv.at me + degme) else s0.Elen.at x
  len : ∀ x ∈ O, s.Len.at x = (C x).length
  lenme : s.Len.at me = M.length
  nodup : M.Nodup
  mem_iff : ∀ i, i ∈ M ↔ i ∈ V ∧ (i ∈ am ∨ ∃ e ∈ es, i ∈ C e)
  nv : ∀ x, s.Nv.at x = if x ∈ M ∨ x = me then -(s0.Nv.at x) else s0.Nv.at x
  deg : degme = (M.map s0.Nv.at).sum
  dl : ∃ D, DegL n s.Head.at s.Next.at s.Last.at s.Degree.at (V.filter (fun x => x ∉ M))
    (fun _ => EMPTY) D
  mem : Mem s.Iw.at s.Pe.at C O s.pfree
  p0 : 0 ≤ pme1
  p2 : pme2 = pme1 + M.length - 1
  pf : pme1 + M.length ≤ s.pfree
  pf' : es ≠ [] → s.pfree = pme1 + M.length
  blk : Blk s.Iw.at pme1 M
  disj : ∀ x ∈ O, s.Pe.at x + (C x).length ≤ pme1 ∨ pme1 + M.length ≤ s.Pe.at x
  peme : s.Pe.at me = pme1
  pees : ∀ x ∈ es, s.Pe.at x = FLIP me
  pe : ∀ x, x ∉ O → x ≠ me → x ∉ es → s.Pe.at x = s0.Pe.at x
  w : ∀ x, s.W.at x = if x ∈ es then 0 else s0.W.at x
  val : ∀ c, 0 ≤ c → c < s.pfree → 0 ≤ s.Iw.at c ∧ s.Iw.at c < n
  size : (M.length : Int) + ∑ x ∈ O, ((C x).length : Int) ≤ iwlen - n

theorem amd2Construct_spec {s : Amd2} {K : Finset Int} {C : Int → List Int} {es am : List Int}
    (hB : 0 ≤ n ∧ 0 ≤ iwlen ∧ 3 * (n + iwlen) + 10 ≤ Int_MAX)
    (hwt : (∀ x ∈ insert me V, 0 ≤ s.Nv.at x) ∧ ∑ x ∈ insert me V, s.Nv.at x ≤ n)
    (hn : 0 ≤ n) (hme : 0 ≤ me ∧ me < n) (hmV : me ∉ V) (hmK : me ∉ K)
    (aP : Arr s.Pe n n) (aI : Arr s.Iw iwlen s.pfree) (aL : Arr s.Len n n) (aNv : Arr s.Nv n n)
    (aN : Arr s.Next n n) (aT : Arr s.Last n n) (aH : Arr s.Head n n) (aW : Arr s.W n n)
    (aE : Arr s.Elen n n) (aD : Arr s.Degree n n)
    (hdl : ∃ D, DegL n s.Head.at s.Next.at s.Last.at s.Degree.at V (fun _ => EMPTY) D)
    (hmem : Mem s.Iw.at s.Pe.at C (insert me (V ∪ K)) s.pfree)
    (hCm : C me = es ++ am) (hnd : (es ++ am).Nodup)
    (hlen : ∀ x ∈ insert me (V ∪ K), s.Len.at x = (C x).length)
    (hVr : ∀ i ∈ V, 0 ≤ i ∧ i < n) (hKr : ∀ i ∈ K, 0 ≤ i ∧ i < n)
    (hK : ∀ e ∈ es, e ∈ K ∧ e ∉ V)
    (hneg : ∀ x, 0 ≤ x → x < n → x ≠ me → x ∉ V → x ∉ K → s.Pe.at x < 0)
    (hpf : 0 ≤ s.pfree)
    (hval : ∀ c, 0 ≤ c → c < s.pfree → 0 ≤ s.Iw.at c ∧ s.Iw.at c < n)
    (hsz : ∑ x ∈ insert me (V ∪ K), ((C x).length : Int) ≤ iwlen - n)
    (hnm : 0 < s.Nv.at me)
    (ham : ∀ i ∈ am, i ≠ me ∧ (0 ≤ i ∧ i < n) ∧ (0 < s.Nv.at i ↔ i ∈ V))
    (hL : ∀ e ∈ es, ∀ i ∈ C e, (0 ≤ i ∧ i < n) ∧ (i ≠ me → (0 < s.Nv.at i ↔ i ∈ V))) :
    Spec (amd2Construct n iwlen me es.length (s.Nv.at me) s) (fun r => ∃ M,
      Built n iwlen me V (V ∪ K.filter (fun x => x ∉ es)) C es am s r.2.2.2 r.1 r.2.1 r.2.2.1 M) := by
  have hmO : me ∉ V ∪ K := by simp [hmV, hmK]
  have hmin : me ∈ insert me (V ∪ K) := Finset.mem_insert_self _ _
  have hmlen := hlen me hmin
  have hml : ((es ++ am).length : Int) = es.length + am.length := by
    rw [List.length_append]; push_cast; rfl
  have hsum : ∑ x ∈ insert me (V ∪ K), ((C x).length : Int)
      = ∑ x ∈ V ∪ K, ((C x).length : Int) + (es ++ am).length := by
    rw [Finset.sum_insert hmO, hCm]; omega
  rw [hsum] at hsz
  rw [hCm] at hmlen
  have hmlo := hmem.lo me hmin
  have hmhi := hmem.hi me hmin
  have hmbl := hmem.blk me hmin
  rw [hCm] at hmhi hmbl
  have hsub : ∀ x ∈ V ∪ K, x ∈ insert me (V ∪ K) := fun x hx => Finset.mem_insert_of_mem hx
  have hOr : ∀ x ∈ V ∪ K, 0 ≤ x ∧ x < n := by
    intro x hx
    rcases Finset.mem_union.mp hx with h | h
    · exact hVr x h
    · exact hKr x h
  unfold amd2Construct
  have hwm : ∑ x ∈ insert me V, s.Nv.at x = s.Nv.at me + ∑ x ∈ V, s.Nv.at x := Finset.sum_insert hmV
  have hw0 : 0 ≤ ∑ x ∈ V, s.Nv.at x :=
    Finset.sum_nonneg fun x hx => hwt.1 x (Finset.mem_insert_of_mem hx)
  rw [ck_bind (by omega), aNv.wr hme.1 hme.2, ok_bind]
  set N1 : Int → Int := (s.Nv.put me (-(s.Nv.at me))).at with hN1
  have eN1 : ∀ x, N1 x = if x = me then -(s.Nv.at me) else s.Nv.at x :=
    fun x => aNv.at_put hme.1 hme.2 _ _
  have eNV : ∀ x ∈ V, N1 x = s.Nv.at x := fun x hx => by
    rw [eN1, if_neg (fun e : x = me => hmV (e ▸ hx))]
  have hsV : ∑ x ∈ V, N1 x = ∑ x ∈ V, s.Nv.at x := Finset.sum_congr rfl eNV
  have hwV : (∀ x ∈ V, 0 ≤ N1 x) ∧ ∑ x ∈ V, N1 x ≤ n :=
    ⟨fun x hx => by rw [eNV x hx]; exact hwt.1 x (Finset.mem_insert_of_mem hx), by omega⟩
  set s1 : Amd2 := { s with Nv := s.Nv.put me (-(s.Nv.at me)) } with hs1
  have hcons : ∀ p, 0 ≤ p → Cons n iwlen V N1 s1 s1 p 0 [] := by
    intro p hp
    refine ⟨aP, aI, aL, aNv.put hme.1 hme.2 _, aN, aT, aH, aW, aE, aD, rfl, rfl, rfl, rfl, rfl, rfl,
      List.nodup_nil, by simp, fun x => by simp [hN1, hs1], by simp, ?_, hp, Blk.nil, hval⟩
    simpa using hdl
  have hposA : ∀ i ∈ am, (0 ≤ i ∧ i < n) ∧ (0 < N1 i ↔ i ∈ V) := by
    intro i hi
    obtain ⟨h1, h2, h3⟩ := ham i hi
    refine ⟨h2, ?_⟩
    rw [eN1, if_neg h1]; exact h3
  have hposL : ∀ e ∈ es, ∀ i ∈ C e, (0 ≤ i ∧ i < n) ∧ (0 < N1 i ↔ i ∈ V) := by
    intro e he i hi
    obtain ⟨h2, h3⟩ := hL e he i hi
    refine ⟨h2, ?_⟩
    rw [eN1]
    split
    · next h => subst h; simp only [hmV, iff_false]; omega
    · next h => exact h3 h
  have hpl : 0 < s.pfree → s.pfree ≤ iwlen := fun h => aI.m_le h
  have hS2 : 0 ≤ ∑ x ∈ V ∪ K, ((C x).length : Int) := Finset.sum_nonneg fun x _ => by omega
  -- the two ways of constructing the element
  have key : Spec (if (es.length : Int) = 0 then do
      let pme1 ← rd s1.Pe me
      let pme2 ← ck (pme1 - 1)
      let l ← rd s1.Len me
      let top ← ck (pme1 + l)
      let r ← forI pme1 top (0, pme2, s1) amd2InPlaceStep
      pure (pme1, r.2.1, r.1, r.2.2)
    else do
      let p ← rd s1.Pe me
      let l ← rd s1.Len me
      let slenme ← ck (l - es.length)
      let top ← ck ((es.length : Int) + 2)
      let b ← forI 1 top { p := p, pj := 0, pme1 := s1.pfree, degme := 0, s := s1 }
        (amd2SearchList n iwlen me es.length slenme)
      let pme2 ← ck (b.s.pfree - 1)
      pure (b.pme1, pme2, b.degme, b.s) : Verif.M (Int × Int × Int × Amd2)) (fun r =>
      ∃ M, Cons n iwlen V N1 s1 r.2.2.2 r.1 r.2.2.1 M ∧ r.2.1 = r.1 + M.length - 1 ∧
        r.1 + M.length ≤ r.2.2.2.pfree ∧ (es ≠ [] → r.2.2.2.pfree = r.1 + M.length) ∧
        (∀ i, i ∈ M ↔ i ∈ V ∧ (i ∈ am ∨ ∃ e ∈ es, i ∈ C e)) ∧
        (∀ x ∈ V ∪ K.filter (fun x => x ∉ es), r.2.2.2.Len.at x = (C x).length) ∧
        Mem r.2.2.2.Iw.at r.2.2.2.Pe.at C (V ∪ K.filter (fun x => x ∉ es)) r.2.2.2.pfree ∧
        (∀ x ∈ V ∪ K.filter (fun x => x ∉ es),
          r.2.2.2.Pe.at x + (C x).length ≤ r.1 ∨ r.1 + M.length ≤ r.2.2.2.Pe.at x) ∧
        (∀ x ∈ es, r.2.2.2.Pe.at x = FLIP me) ∧
        (∀ x, x ∉ V → x ∉ K → x ≠ me → r.2.2.2.Pe.at x = s.Pe.at x) ∧
        (∀ x, r.2.2.2.W.at x = if x ∈ es then 0 else s.W.at x) ∧
        (M.length : Int) + ∑ x ∈ V ∪ K.filter (fun x => x ∉ es), ((C x).length : Int)
          ≤ iwlen - n) := by
    by_cases hes : es = []
    · subst hes
      simp only [List.length_nil, Nat.cast_zero, if_true, List.not_mem_nil, not_false_eq_true,
        Finset.filter_true]
      simp only [List.nil_append] at hmhi hmbl hsz hmlen hnd
      have e1 : s1.Pe = s.Pe := rfl
      have e2 : s1.Len = s.Len := rfl
      rw [e1, e2, aP.rd hme.1 hme.2, ok_bind, ck_bind (by omega), aL.rd hme.1 hme.2, ok_bind, hmlen,
        ck_bind (by omega)]
      refine Spec.bind (inPlace_spec hB hwV (hcons _ hmlo) hnd hmbl (fun i hi => (hposA i hi).1) hmhi
        (fun i hi => (hposA i hi).2)) ?_
      rintro ⟨dg, pm, s2⟩ ⟨M, hM, h1, h2, h3, h4, h5, h6, h7⟩
      simp only at h1 h2 h3 h4 h5 h6 h7
      have hMl : M.length ≤ am.length := by rw [hM]; exact List.length_filter_le _ _
      have hmemV : ∀ x ∈ V ∪ K, s.Pe.at x + (C x).length ≤ s.Pe.at me ∨
          s.Pe.at me + am.length ≤ s.Pe.at x := by
        intro x hx
        have := hmem.disj x (hsub x hx) me hmin (fun e => hmO (e ▸ hx))
        rw [hCm, List.nil_append] at this
        exact this
      refine Spec.pure ⟨M, h1, h2, ?_, by simp, ?_, ?_, ?_, ?_, by simp, ?_, ?_, ?_⟩ <;> try simp only
      · rw [h5]; show s.Pe.at me + M.length ≤ s.pfree; omega
      · intro i; rw [hM]; simp; tauto
      · intro x hx; rw [h4]; exact hlen x (hsub x hx)
      · rw [h3, h5]
        refine (hmem.subset (fun x hx => hsub x hx)).congr (fun _ _ => rfl) (fun _ _ => rfl)
          (fun x hx => hmem.hi x (hsub x hx)) ?_
        intro x hx c c0 c1
        rw [h7 c]
        rcases hmemV x hx with h | h
        · left; omega
        · right; omega
      · intro x hx
        rw [h3]
        rcases hmemV x hx with h | h
        · exact Or.inl h
        · right; show _ ≤ s.Pe.at x; omega
      · intro x _ _ _; rw [h3]
      · intro x; simp [h6, hs1]
      · omega
    · have hel : (es.length : Int) ≠ 0 := by simpa using hes
      simp only [hel, if_false]
      have e1 : s1.Pe = s.Pe := rfl
      have e2 : s1.Len = s.Len := rfl
      rw [e1, e2, aP.rd hme.1 hme.2, ok_bind, aL.rd hme.1 hme.2, ok_bind, hmlen, hml,
        show ((es.length : Int) + am.length - es.length) = am.length by omega, ck_bind (by omega),
        ck_bind (by omega)]
      have hne : es ++ am ≠ [] := by simp [hes]
      have hcur : Cur n me me (V ∪ K) C
          { p := s.Pe.at me, pj := s.Pe.at me, pme1 := s1.pfree, degme := 0, s := s1 }
          (es ++ am) [] := by
        refine ⟨hme.1, hme.2, hme.1, hme.2, hOr, hmO, hmO, fun _ => rfl, ?_,
          fun x hx => hlen x (hsub x hx), ?_⟩
        · have hO : oins (oins (V ∪ K) me []) me (es ++ am) = insert me (V ∪ K) := by
            unfold oins
            rw [if_pos rfl, if_neg hne]
          rw [hO]
          refine hmem.congr ?_ ?_ hmem.hi (fun _ _ _ _ _ => rfl)
          · intro x hx
            unfold curVp
            split
            · next h => rw [h]
            · rfl
          · intro x hx
            unfold curC
            split
            · next h => rw [h, hCm]
            · rfl
        · intro x x0 x1 x2 x3 x4
          exact hneg x x0 x1 x3 (fun h => x2 (Finset.mem_union_left _ h))
            (fun h => x2 (Finset.mem_union_right _ h))
      refine Spec.bind (amd2Lists_spec (V := V) (K := K) (C := C) (N1 := N1) (s0 := s1)
        (b := { p := s.Pe.at me, pj := 0, pme1 := s1.pfree, degme := 0, s := s1 }) hB hwV hn
        (List.nodup_append.mp hnd).1 hcur (hcons _ hpf) rfl hK hsz hmlen hVr hposA hposL) ?_
      rintro b ⟨M, h1, h2, h3, h4, h5, h6, h7, h8⟩
      have hO : oins (oins (V ∪ K.filter (fun x => x ∉ es)) me []) me []
          = V ∪ K.filter (fun x => x ∉ es) := by simp [oins]
      have h1m := h1.mem
      rw [hO] at h1m
      have hcv : ∀ x ∈ V ∪ K.filter (fun x => x ∉ es), curVp me me b x = b.s.Pe.at x ∧
          curC me me C [] [] x = C x := by
        intro x hx
        have : x ≠ me := fun e => h1.meO (e ▸ hx)
        simp [curVp, curC, this]
      have hpl2 : 0 < b.s.pfree → b.s.pfree ≤ iwlen := fun h => h2.aI.m_le h
      have hp0 := h2.p0
      rw [ck_bind (by omega)]
      refine Spec.pure ⟨M, h2, by simp only; omega, by simp only; omega, fun _ => h3, h4, h1.len, ?_, ?_,
        h6, ?_, h7, h5⟩ <;> simp only
      · refine h1m.congr (fun x hx => (hcv x hx).1.symm) (fun x hx => (hcv x hx).2.symm) ?_
          (fun _ _ _ _ _ => rfl)
        intro x hx
        have := h1m.hi x hx
        omega
      · intro x hx
        have := h1m.hi x hx
        rw [(hcv x hx).1, (hcv x hx).2] at this
        exact Or.inl this
      · exact h8
  refine Spec.bind key ?_
  rintro ⟨p1, p2, dg, s2⟩ ⟨M, h1, h2, h3, h3', h4, h5, h6, h7, h8, h9, h10, h11⟩
  simp only at h1 h2 h3 h3' h4 h5 h6 h7 h8 h9 h10 h11 ⊢
  have hmO' : me ∉ V ∪ K.filter (fun x => x ∉ es) := by simp [hmV, hmK]
  have hmes : me ∉ es := fun h => hmK (hK _ h).1
  have hmM : me ∉ M := fun h => hmV ((h4 _).mp h).1
  have hdw := nodup_sum_le h1.nodup h1.sub hwV
  have hdg := h1.deg
  have hp0 := h1.p0
  have hdw2 : s.Nv.at me + dg ≤ n := by
    have hs' : (M.map N1).sum ≤ ∑ x ∈ V, N1 x :=
      (nodup_sum_le (n := ∑ x ∈ V, N1 x) h1.nodup h1.sub ⟨hwV.1, le_rfl⟩).2
    omega
  have hpl2 : 0 < s2.pfree → s2.pfree ≤ iwlen := fun h => h1.aI.m_le h
  rw [h1.aD.wr hme.1 hme.2, ok_bind, h1.aP.wr hme.1 hme.2, ok_bind, ck_bind (by omega), ck_bind (by omega),
    h1.aL.wr hme.1 hme.2, ok_bind,
    ck_bind (by omega), ck_bind (FLIP_ck (by omega)), h1.aE.wr hme.1 hme.2, ok_bind]
  have eP : ∀ x, (s2.Pe.put me p1).at x = if x = me then p1 else s2.Pe.at x :=
    fun x => h1.aP.at_put hme.1 hme.2 _ _
  have ePO : ∀ x ∈ V ∪ K.filter (fun x => x ∉ es), (s2.Pe.put me p1).at x = s2.Pe.at x := by
    intro x hx
    rw [eP, if_neg (fun e : x = me => hmO' (e ▸ hx))]
  have eD : ∀ x, (s2.Degree.put me dg).at x = if x = me then dg else s.Degree.at x := by
    intro x
    rw [h1.aD.at_put hme.1 hme.2, h1.degree]
  refine Spec.pure ⟨M, h1.aP.put hme.1 hme.2 _, h1.aI, h1.aL.put hme.1 hme.2 _, h1.aNv, h1.aN, h1.aT,
    h1.aH, h1.aW, h1.aE.put hme.1 hme.2 _, h1.aD.put hme.1 hme.2 _, h1.nel, h1.mindeg, h1.wflg,
    h1.lemax, eD, ?_, ?_, ?_, h1.nodup, h4, ?_, ?_, ?_, ?_, h1.p0, h2, h3, h3', h1.blk, ?_, ?_, ?_, ?_,
    h10, h1.val, h11⟩ <;> simp only
  · intro x
    rw [h1.aE.at_put hme.1 hme.2, h1.elen]
  · intro x hx
    rw [h1.aL.at_put hme.1 hme.2, if_neg (fun e : x = me => hmO' (e ▸ hx))]
    exact h5 x hx
  · rw [h1.aL.at_put hme.1 hme.2, if_pos rfl]; omega
  · intro x
    rw [h1.nv, eN1]
    by_cases hx : x = me
    · subst hx; simp [hmM]
    · simp [hx]
  · rw [h1.deg]
    congr 1
    refine List.map_congr_left fun x hx => ?_
    rw [eN1, if_neg (fun e : x = me => hmM (e ▸ hx))]
  · obtain ⟨D, hD⟩ := h1.dl
    refine ⟨D, hD.congr (fun _ _ => rfl) (fun _ _ => rfl) ?_⟩
    intro x hx
    rw [h1.aD.at_put hme.1 hme.2, if_neg]
    rintro rfl
    exact hmV (Finset.mem_filter.mp hx).1
  · exact h6.congr ePO (fun _ _ => rfl) h6.hi (fun _ _ _ _ _ => rfl)
  · intro x hx
    rw [ePO x hx]; exact h7 x hx
  · rw [eP, if_pos rfl]
  · intro x hx
    rw [eP, if_neg (fun e : x = me => hmes (e ▸ hx))]; exact h8 x hx
  · intro x x1 x2 x3
    rw [eP, if_neg x2]
    have x4 : x ∉ V := fun h => x1 (Finset.mem_union_left _ h)
    exact h9 x x4 (fun h => x1 (Finset.mem_union_right _ (Finset.mem_filter.mpr ⟨h, x3⟩))) x2

end Verif
