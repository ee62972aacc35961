import Verif.Lemmas.AmdIter

/-!
# Initialisation of `AMD_2`
-/

namespace Verif

open Finset

/-- What `AMD_2` receives: for every node a list of neighbours without repetition, without the node
itself, symmetric; the lists do not overlap and there are `n` free cells beyond them. -/
structure GIn (n iwlen : Int) (A : Int → List Int) (s : Amd2) : Prop where
  aP : Arr s.Pe n n
  aI : Arr s.Iw iwlen s.pfree
  aL : Arr s.Len n n
  lNv : (s.Nv.length : Int) = n
  lN : (s.Next.length : Int) = n
  lT : (s.Last.length : Int) = n
  lH : (s.Head.length : Int) = n
  lW : (s.W.length : Int) = n
  lE : (s.Elen.length : Int) = n
  lD : (s.Degree.length : Int) = n
  nodup : ∀ i, 0 ≤ i → i < n → (A i).Nodup
  nbr : ∀ i, 0 ≤ i → i < n → ∀ j ∈ A i, 0 ≤ j ∧ j < n ∧ j ≠ i
  sym : ∀ i, 0 ≤ i → i < n → ∀ j ∈ A i, i ∈ A j
  mem : Mem s.Iw.at s.Pe.at A ((Finset.Ico 0 n).filter (fun x => A x ≠ [])) s.pfree
  len : ∀ i, 0 ≤ i → i < n → s.Len.at i = (A i).length
  size : ∑ x ∈ Finset.Ico 0 n, ((A x).length : Int) ≤ iwlen - n
  pf : 0 ≤ s.pfree
  val : ∀ c, 0 ≤ c → c < s.pfree → 0 ≤ s.Iw.at c ∧ s.Iw.at c < n

theorem arr0 {b : Buf Int} {n : Int} (h : (b.length : Int) = n) : Arr b n 0 :=
  ⟨h, fun i h0 h1 => absurd h1 (by omega)⟩

/-- State of the first loop of the initialisation. -/
structure Init1 (n : Int) (s : Amd2) (k : Int) (t : Amd2) : Prop where
  ePe : t.Pe = s.Pe
  eIw : t.Iw = s.Iw
  eLen : t.Len = s.Len
  epf : t.pfree = s.pfree
  aT : Arr t.Last n k
  aH : Arr t.Head n k
  aN : Arr t.Next n k
  aNv : Arr t.Nv n k
  aW : Arr t.W n k
  aE : Arr t.Elen n k
  aD : Arr t.Degree n k
  vT : ∀ x, 0 ≤ x → x < k → t.Last.at x = EMPTY
  vH : ∀ x, 0 ≤ x → x < k → t.Head.at x = EMPTY
  vN : ∀ x, 0 ≤ x → x < k → t.Next.at x = EMPTY
  vNv : ∀ x, 0 ≤ x → x < k → t.Nv.at x = 1
  vW : ∀ x, 0 ≤ x → x < k → t.W.at x = 1
  vE : ∀ x, 0 ≤ x → x < k → t.Elen.at x = 0
  vD : ∀ x, 0 ≤ x → x < k → t.Degree.at x = s.Len.at x

theorem put_vals {b : Buf Int} {n k v : Int} {f : Int → Int} (h : Arr b n k) (h0 : 0 ≤ k) (h1 : k < n)
    (hv : ∀ x, 0 ≤ x → x < k → b.at x = f x) (hk : v = f k) :
    ∀ x, 0 ≤ x → x < k + 1 → (b.put k v).at x = f x := by
  intro x x0 x1
  rw [h.at_put h0 h1]
  split
  · next e => rw [e, hk]
  · exact hv x x0 (by omega)

theorem initNodes_spec {n iwlen : Int} {A : Int → List Int} {s : Amd2} (hn : 0 ≤ n) (h : GIn n iwlen A s) :
    Spec (forI 0 n s amd2InitNode) (Init1 n s n) := by
  refine forI_int hn (fun k t => Init1 n s k t) ?_ ?_
  · exact ⟨rfl, rfl, rfl, rfl, arr0 h.lT, arr0 h.lH, arr0 h.lN, arr0 h.lNv, arr0 h.lW, arr0 h.lE, arr0 h.lD,
      fun x a b => absurd b (by omega), fun x a b => absurd b (by omega), fun x a b => absurd b (by omega),
      fun x a b => absurd b (by omega), fun x a b => absurd b (by omega), fun x a b => absurd b (by omega),
      fun x a b => absurd b (by omega)⟩
  · intro k t hk0 hk1 ht
    unfold amd2InitNode
    have hkl : Verif.rd t.Len k = .ok (s.Len.at k) := by rw [ht.eLen]; exact h.aL.rd hk0 hk1
    rw [ht.aT.wr hk0 hk1, ok_bind, ht.aH.wr hk0 hk1, ok_bind, ht.aN.wr hk0 hk1, ok_bind, ht.aNv.wr hk0 hk1, ok_bind,
      ht.aW.wr hk0 hk1, ok_bind, ht.aE.wr hk0 hk1, ok_bind, hkl, ok_bind, ht.aD.wr hk0 hk1, ok_bind]
    refine Spec.pure ?_
    exact ⟨ht.ePe, ht.eIw, ht.eLen, ht.epf, ht.aT.push hk0 hk1 _, ht.aH.push hk0 hk1 _, ht.aN.push hk0 hk1 _,
      ht.aNv.push hk0 hk1 _, ht.aW.push hk0 hk1 _, ht.aE.push hk0 hk1 _, ht.aD.push hk0 hk1 _,
      put_vals ht.aT hk0 hk1 ht.vT rfl, put_vals ht.aH hk0 hk1 ht.vH rfl, put_vals ht.aN hk0 hk1 ht.vN rfl,
      put_vals ht.aNv hk0 hk1 ht.vNv rfl, put_vals ht.aW hk0 hk1 ht.vW rfl, put_vals ht.aE hk0 hk1 ht.vE rfl,
      put_vals ht.aD hk0 hk1 ht.vD rfl⟩

/-- State of the classification of the nodes: `s` is the state before, `dg` the degrees. -/
structure Init2 (n dense : Int) (s : Amd2) (k : Int) (t : Amd2) : Prop where
  eIw : t.Iw = s.Iw
  eLen : t.Len = s.Len
  eD : t.Degree = s.Degree
  epf : t.pfree = s.pfree
  emd : t.mindeg = s.mindeg
  elm : t.lemax = s.lemax
  ewf : t.wflg = s.wflg
  aP : Arr t.Pe n n
  aT : Arr t.Last n n
  aH : Arr t.Head n n
  aN : Arr t.Next n n
  aNv : Arr t.Nv n n
  aW : Arr t.W n n
  aE : Arr t.Elen n n
  vT : ∀ x, k ≤ x → x < n → t.Last.at x = EMPTY
  vP : ∀ x, t.Pe.at x = if (0 ≤ x ∧ x < k) ∧ (s.Degree.at x = 0 ∨ dense < s.Degree.at x) then EMPTY else s.Pe.at x
  vE : ∀ x, t.Elen.at x = if (0 ≤ x ∧ x < k) ∧ s.Degree.at x = 0 then FLIP 1
    else if (0 ≤ x ∧ x < k) ∧ dense < s.Degree.at x then EMPTY else s.Elen.at x
  vNv : ∀ x, t.Nv.at x = if (0 ≤ x ∧ x < k) ∧ dense < s.Degree.at x then 0 else s.Nv.at x
  vW : ∀ x, t.W.at x = if (0 ≤ x ∧ x < k) ∧ s.Degree.at x = 0 then 0 else s.W.at x
  dl : ∃ D, DegL n t.Head.at t.Next.at t.Last.at s.Degree.at
    ((Finset.Ico 0 k).filter (fun x => s.Degree.at x ≠ 0 ∧ s.Degree.at x ≤ dense)) (fun _ => EMPTY) D
  nel : t.nel + (((Finset.Ico 0 k).filter (fun x => s.Degree.at x ≠ 0 ∧ s.Degree.at x ≤ dense)).card : Int)
    = s.nel + k

theorem Ico_succ_int {k : Int} (h0 : 0 ≤ k) : Finset.Ico 0 (k + 1) = insert k (Finset.Ico 0 k) := by
  ext x
  simp only [Finset.mem_Ico, Finset.mem_insert]
  omega

theorem classify_start {n dense : Int} {s : Amd2}
    (aP : Arr s.Pe n n) (aT : Arr s.Last n n) (aH : Arr s.Head n n) (aN : Arr s.Next n n) (aNv : Arr s.Nv n n)
    (aW : Arr s.W n n) (aE : Arr s.Elen n n)
    (vT : ∀ x, 0 ≤ x → x < n → s.Last.at x = EMPTY) (vH : ∀ x, 0 ≤ x → x < n → s.Head.at x = EMPTY) :
    Init2 n dense s 0 s := by
  refine ⟨rfl, rfl, rfl, rfl, rfl, rfl, rfl, aP, aT, aH, aN, aNv, aW, aE, vT, ?_, ?_, ?_, ?_, ⟨fun _ => [], ?_⟩, ?_⟩
  · intro x; rw [if_neg (by omega)]
  · intro x; rw [if_neg (by omega), if_neg (by omega)]
  · intro x; rw [if_neg (by omega)]
  · intro x; rw [if_neg (by omega)]
  · refine ⟨?_, fun _ _ _ => List.nodup_nil, ?_, ?_, fun _ _ _ h => absurd rfl h⟩
    · intro x hx; simp at hx
    · intro d _ _ x; simp
    · intro d h0 h1 _
      rw [vH d h0 h1]; rfl
  · simp

theorem classify_step {n dense : Int} {s : Amd2} (hB : n ≤ Int_MAX) (hs0 : s.nel = 0) (hd0 : 0 ≤ dense)
    (aD : Arr s.Degree n n)
    (hdg : ∀ x, 0 ≤ x → x < n → 0 ≤ s.Degree.at x ∧ s.Degree.at x < n) {k : Int} {t : Amd2} (hk0 : 0 ≤ k)
    (hk1 : k < n) (ht : Init2 n dense s k t) : Spec (amd2Classify dense k t) (Init2 n dense s (k + 1)) := by
  have aDt : Arr t.Degree n n := by rw [ht.eD]; exact aD
  unfold amd2Classify
  rw [aDt.rd hk0 hk1, ok_bind, ht.eD]
  have hf : (Finset.Ico 0 (k + 1)).filter (fun x => s.Degree.at x ≠ 0 ∧ s.Degree.at x ≤ dense)
      = if s.Degree.at k ≠ 0 ∧ s.Degree.at k ≤ dense
        then insert k ((Finset.Ico 0 k).filter (fun x => s.Degree.at x ≠ 0 ∧ s.Degree.at x ≤ dense))
        else (Finset.Ico 0 k).filter (fun x => s.Degree.at x ≠ 0 ∧ s.Degree.at x ≤ dense) := by
    rw [Ico_succ_int hk0, Finset.filter_insert]
  have hnk : k ∉ (Finset.Ico 0 k).filter (fun x => s.Degree.at x ≠ 0 ∧ s.Degree.at x ≤ dense) := by
    simp
  have hkd := hdg k hk0 hk1
  have hcard : (((Finset.Ico 0 k).filter
      (fun x => s.Degree.at x ≠ 0 ∧ s.Degree.at x ≤ dense)).card : Int) ≤ k := by
    have := Finset.card_filter_le (Finset.Ico 0 k) (fun x => s.Degree.at x ≠ 0 ∧ s.Degree.at x ≤ dense)
    rw [Int.card_Ico] at this
    omega
  have hnelk := ht.nel
  by_cases h0 : s.Degree.at k = 0
  · rw [if_pos h0, ht.aE.wr hk0 hk1, ok_bind, ck_bind (by omega), ht.aP.wr hk0 hk1, ok_bind, ht.aW.wr hk0 hk1, ok_bind]
    refine Spec.pure ?_
    rw [if_neg (by omega)] at hf
    refine ⟨ht.eIw, ht.eLen, rfl, ht.epf, ht.emd, ht.elm, ht.ewf, ht.aP.put hk0 hk1 _, ht.aT, ht.aH, ht.aN,
      ht.aNv, ht.aW.put hk0 hk1 _, ht.aE.put hk0 hk1 _, fun x a b => ht.vT x (by omega) b, ?_, ?_, ?_, ?_, ?_, ?_⟩
    · intro x
      simp only
      rw [ht.aP.at_put hk0 hk1, ht.vP]
      by_cases e : x = k
      · subst e; rw [if_pos rfl, if_pos (by omega)]
      · rw [if_neg e]
        exact if_congr (by omega) rfl rfl
    · intro x
      simp only
      rw [ht.aE.at_put hk0 hk1, ht.vE]
      by_cases e : x = k
      · subst e; rw [if_pos rfl, if_pos (by omega)]
      · rw [if_neg e]
        exact if_congr (by omega) rfl (if_congr (by omega) rfl rfl)
    · intro x
      simp only
      rw [ht.vNv]
      by_cases e : x = k
      · subst e; rw [if_neg (by omega), if_neg (by omega)]
      · exact if_congr (by omega) rfl rfl
    · intro x
      simp only
      rw [ht.aW.at_put hk0 hk1, ht.vW]
      by_cases e : x = k
      · subst e; rw [if_pos rfl, if_pos (by omega)]
      · rw [if_neg e]
        exact if_congr (by omega) rfl rfl
    · rw [hf]; exact ht.dl
    · rw [hf]; have := ht.nel; simp only; omega
  · rw [if_neg h0]
    by_cases h1 : s.Degree.at k > dense
    · rw [if_pos h1, ht.aNv.wr hk0 hk1, ok_bind, ht.aE.wr hk0 hk1, ok_bind, ck_bind (by omega), ht.aP.wr hk0 hk1, ok_bind]
      refine Spec.pure ?_
      rw [if_neg (by omega)] at hf
      refine ⟨ht.eIw, ht.eLen, rfl, ht.epf, ht.emd, ht.elm, ht.ewf, ht.aP.put hk0 hk1 _, ht.aT, ht.aH, ht.aN,
        ht.aNv.put hk0 hk1 _, ht.aW, ht.aE.put hk0 hk1 _, fun x a b => ht.vT x (by omega) b, ?_, ?_, ?_, ?_, ?_,
        ?_⟩
      · intro x
        simp only
        rw [ht.aP.at_put hk0 hk1, ht.vP]
        by_cases e : x = k
        · subst e; rw [if_pos rfl, if_pos (by omega)]
        · rw [if_neg e]
          exact if_congr (by omega) rfl rfl
      · intro x
        simp only
        rw [ht.aE.at_put hk0 hk1, ht.vE]
        by_cases e : x = k
        · subst e; rw [if_pos rfl, if_neg (by omega), if_pos (by omega)]
        · rw [if_neg e]
          exact if_congr (by omega) rfl (if_congr (by omega) rfl rfl)
      · intro x
        simp only
        rw [ht.aNv.at_put hk0 hk1, ht.vNv]
        by_cases e : x = k
        · subst e; rw [if_pos rfl, if_pos (by omega)]
        · rw [if_neg e]
          exact if_congr (by omega) rfl rfl
      · intro x
        simp only
        rw [ht.vW]
        by_cases e : x = k
        · subst e; rw [if_neg (by omega), if_neg (by omega)]
        · exact if_congr (by omega) rfl rfl
      · rw [hf]; exact ht.dl
      · rw [hf]; have := ht.nel; simp only; omega
    · rw [if_neg h1]
      rw [if_pos (by omega)] at hf
      obtain ⟨D, hD⟩ := ht.dl
      rw [← ht.eD] at hD
      refine (degInsert_spec ht.aN ht.aT ht.aH hD hk0 hk1 hkd.1 hkd.2 ?_ (ht.vT k le_rfl hk1)
        (by rw [ht.eD])).mono ?_
      · rw [ht.eD]; exact hnk
      rintro _ ⟨Nx, Lt, Hd, rfl, a1, a2, a3, hl, hD'⟩
      refine ⟨ht.eIw, ht.eLen, ht.eD, ht.epf, ht.emd, ht.elm, ht.ewf, ht.aP, a2, a3, a1,
        ht.aNv, ht.aW, ht.aE, ?_, ?_, ?_, ?_, ?_, ?_, ?_⟩
      · intro x hx hx1
        simp only
        rw [hl x (fun hm => ?_)]
        · exact ht.vT x (by omega) hx1
        · have := (Finset.mem_Ico.mp (Finset.mem_filter.mp hm).1).2
          omega
      · intro x
        simp only
        rw [ht.vP]
        by_cases e : x = k
        · subst e; rw [if_neg (by omega), if_neg (by omega)]
        · exact if_congr (by omega) rfl rfl
      · intro x
        simp only
        rw [ht.vE]
        by_cases e : x = k
        · subst e; rw [if_neg (by omega), if_neg (by omega), if_neg (by omega), if_neg (by omega)]
        · exact if_congr (by omega) rfl (if_congr (by omega) rfl rfl)
      · intro x
        simp only
        rw [ht.vNv]
        by_cases e : x = k
        · subst e; rw [if_neg (by omega), if_neg (by omega)]
        · exact if_congr (by omega) rfl rfl
      · intro x
        simp only
        rw [ht.vW]
        by_cases e : x = k
        · subst e; rw [if_neg (by omega), if_neg (by omega)]
        · exact if_congr (by omega) rfl rfl
      · rw [hf]
        rw [ht.eD] at hD'
        exact ⟨_, hD'⟩
      · rw [hf, Finset.card_insert_of_notMem hnk]
        have := ht.nel
        simp only
        push_cast
        omega

theorem classify_spec {n dense : Int} {s : Amd2} (hB : n ≤ Int_MAX) (hs0 : s.nel = 0) (hn : 0 ≤ n) (hd0 : 0 ≤ dense)
    (aP : Arr s.Pe n n) (aT : Arr s.Last n n) (aH : Arr s.Head n n) (aN : Arr s.Next n n) (aNv : Arr s.Nv n n)
    (aW : Arr s.W n n) (aE : Arr s.Elen n n) (aD : Arr s.Degree n n)
    (vT : ∀ x, 0 ≤ x → x < n → s.Last.at x = EMPTY) (vH : ∀ x, 0 ≤ x → x < n → s.Head.at x = EMPTY)
    (hdg : ∀ x, 0 ≤ x → x < n → 0 ≤ s.Degree.at x ∧ s.Degree.at x < n) :
    Spec (forI 0 n s (amd2Classify dense)) (Init2 n dense s n) := by
  exact forI_int hn (fun k t => Init2 n dense s k t) (classify_start aP aT aH aN aNv aW aE vT vH)
    fun k t hk0 hk1 ht => classify_step hB hs0 hd0 aD hdg hk0 hk1 ht

/-- What the initialisation leaves: the nodes without neighbours are eliminated, the dense ones taken
out. -/
def InitOut (n iwlen dense : Int) (A : Int → List Int) (t : Amd2) : Prop :=
  0 ≤ t.nel ∧ ∃ V Z, AInv n iwlen V ∅ Z (fun _ => []) A (fun _ => []) (fun x => if x ∈ Z then -1 else x) (fun _ => 0) t ∧
    (∀ x, x ∈ V ↔ (0 ≤ x ∧ x < n) ∧ A x ≠ [] ∧ ((A x).length : Int) ≤ dense) ∧
    (∀ x, x ∈ Z ↔ (0 ≤ x ∧ x < n) ∧ dense < ((A x).length : Int)) ∧
    ∀ x, 0 ≤ x → x < n → t.Degree.at x = (A x).length

theorem init_deg {n iwlen : Int} {A : Int → List Int} {s s1 : Amd2} (h : GIn n iwlen A s) (h1 : Init1 n s n s1) :
    ∀ x, 0 ≤ x → x < n → 0 ≤ s1.Degree.at x ∧ s1.Degree.at x < n := by
  intro x x0 x1
  rw [h1.vD x x0 x1, h.len x x0 x1]
  refine ⟨by omega, ?_⟩
  have hnd : (x :: A x).Nodup := List.nodup_cons.mpr ⟨fun hx => (h.nbr x x0 x1 x hx).2.2 rfl, h.nodup x x0 x1⟩
  have := nodup_length_le (n := n) hnd (by
    intro y hy
    rcases List.mem_cons.mp hy with rfl | hy
    · exact ⟨x0, x1⟩
    · exact ⟨(h.nbr x x0 x1 y hy).1, (h.nbr x x0 x1 y hy).2.1⟩)
  rcases this with h' | h'
  · simp only [List.length_cons] at h'
    omega
  · simp at h'

theorem init_fin {n iwlen dense wf : Int} {W : Buf Int} {A : Int → List Int} {s s1 t : Amd2} (hn : 0 ≤ n) (hd : 0 ≤ dense)
    (h : GIn n iwlen A s) (h1 : Init1 n s n s1) (hwf : 0 < wf) (hWlt : ∀ x, 0 ≤ x → x < n → W.at x < wf)
    (hWz : ∀ x, 0 ≤ x → x < n → (W.at x = 0 ↔ s1.W.at x = 0))
    (ht : Init2 n dense { s1 with nel := 0, mindeg := 0, lemax := 0, wflg := wf, W := W } n t) :
    InitOut n iwlen dense A t := by
  set s2 : Amd2 := { s1 with nel := 0, mindeg := 0, lemax := 0, wflg := wf, W := W } with hs2
  have hlen : ∀ x, 0 ≤ x → x < n → s2.Degree.at x = (A x).length := by
    intro x x0 x1
    rw [← h.len x x0 x1]; exact h1.vD x x0 x1
  set V := (Finset.Ico 0 n).filter (fun x => s2.Degree.at x ≠ 0 ∧ s2.Degree.at x ≤ dense) with hV
  set Z := (Finset.Ico 0 n).filter (fun x => dense < s2.Degree.at x) with hZ
  have mV : ∀ x, x ∈ V ↔ (0 ≤ x ∧ x < n) ∧ A x ≠ [] ∧ s2.Degree.at x ≤ dense := by
    intro x
    rw [hV, Finset.mem_filter, Finset.mem_Ico]
    constructor
    · rintro ⟨q1, q2, q3⟩
      refine ⟨q1, fun e => q2 ?_, q3⟩
      rw [hlen x q1.1 q1.2, e]; rfl
    · rintro ⟨q1, q2, q3⟩
      refine ⟨q1, ?_, q3⟩
      rw [hlen x q1.1 q1.2]
      have := List.length_pos_of_ne_nil q2
      omega
  have mZ : ∀ x, x ∈ Z ↔ (0 ≤ x ∧ x < n) ∧ dense < s2.Degree.at x := by
    intro x
    rw [hZ, Finset.mem_filter, Finset.mem_Ico]
  have hVZ : ∀ x ∈ V, x ∉ Z := by
    intro x hx hz
    have h1 := (mV x).mp hx
    have h2 := (mZ x).mp hz
    omega
  have hnbr : ∀ i, 0 ≤ i → i < n → ∀ j ∈ A i, j ∈ V ∨ j ∈ Z := by
    intro i i0 i1 j hj
    have hr := h.nbr i i0 i1 j hj
    have hne : A j ≠ [] := List.ne_nil_of_mem (h.sym i i0 i1 j hj)
    rw [mV, mZ]
    by_cases hd : s2.Degree.at j ≤ dense
    · exact Or.inl ⟨⟨hr.1, hr.2.1⟩, hne, hd⟩
    · exact Or.inr ⟨⟨hr.1, hr.2.1⟩, by omega⟩
  set rep : Int → Int := fun x => if x ∈ Z then -1 else x with hrep
  have hcV : ∀ x, 0 ≤ x → x ∉ Z → x < n → cnt n rep x = 1 := by
    intro x x0 hz x1
    have e : (Finset.Ico 0 n).filter (fun z => rep z = x) = {x} := by
      ext z
      rw [Finset.mem_filter, Finset.mem_Ico, Finset.mem_singleton, hrep]
      simp only
      constructor
      · rintro ⟨_, q⟩
        split at q
        · omega
        · exact q
      · rintro rfl
        exact ⟨⟨x0, x1⟩, by rw [if_neg hz]⟩
    unfold cnt
    rw [e]; simp
  have hcZ : ∀ x, 0 ≤ x → x ∈ Z → cnt n rep x = 0 := by
    intro x x0 hz
    refine cnt_zero fun z _ _ e => ?_
    rw [hrep] at e
    simp only at e
    split at e
    · omega
    · next h' => exact h' (e ▸ hz)
  have hlst : ∀ x ∈ V, lst V (fun _ => []) A (fun _ => []) x = A x := by
    intro x hx
    rw [lstV hx, List.nil_append]
  have hVsub : ∀ x ∈ V, x ∈ (Finset.Ico 0 n).filter (fun x => A x ≠ []) := by
    intro x hx
    obtain ⟨q1, q2, q3⟩ := (mV x).mp hx
    rw [Finset.mem_filter, Finset.mem_Ico]
    exact ⟨q1, q2⟩
  have hPeV : ∀ x ∈ V, t.Pe.at x = s.Pe.at x := by
    intro x hx
    have hx' := Finset.mem_filter.mp (hV ▸ hx)
    rw [ht.vP, if_neg (by omega)]
    change s1.Pe.at x = _
    rw [h1.ePe]
  have eIw : t.Iw = s.Iw := ht.eIw.trans h1.eIw
  have epf : t.pfree = s.pfree := ht.epf.trans h1.epf
  have hnel := ht.nel
  have hnel' : t.nel + (V.card : Int) = n := by
    rw [hV, hnel, hs2]; simp
  have hcard : (V.card : Int) ≤ n := by
    have := Finset.card_filter_le (Finset.Ico 0 n) (fun x => s2.Degree.at x ≠ 0 ∧ s2.Degree.at x ≤ dense)
    rw [Int.card_Ico, ← hV] at this
    omega
  have hdg := init_deg h h1
  refine ⟨by omega, V, Z, ?_, fun x => ?_, fun x => ?_, fun x x0 x1 => by rw [ht.eD]; exact hlen x x0 x1⟩
  rotate_left
  · rw [mV]
    exact and_congr_right fun q => by rw [hlen x q.1 q.2]
  · rw [mZ]
    exact and_congr_right fun q => by rw [hlen x q.1 q.2]
  change AInv n iwlen V ∅ Z (fun _ => []) A (fun _ => []) rep (fun _ => 0) t
  refine ⟨ht.aP, by rw [eIw, epf]; exact h.aI, by rw [ht.eLen]; change Arr s1.Len n n; rw [h1.eLen]; exact h.aL,
    ht.aNv, ht.aN, ht.aT, ht.aH, ht.aW, ht.aE, by rw [ht.eD]; exact h1.aD, ?_, by simp, ?_, ?_, ?_, ?_, ?_, ?_, ?_,
    by rw [epf]; exact h.pf, by rw [eIw, epf]; exact h.val, by simp, ?_, ?_, ?_, by rw [ht.eD]; exact ht.dl,
    by rw [ht.emd], ?_, ?_, by omega, by rw [ht.elm]; exact ⟨le_rfl, hn⟩, by rw [ht.ewf]; change 0 < wf; omega, ?_, ?_⟩
  · refine ⟨fun x hx => ((mV x).mp hx).1, by simp, fun x hx => ((mZ x).mp hx).1, by simp, hVZ, by simp, ?_, by simp,
      ?_, ?_, by simp, by simp, by simp⟩
    · intro i hi
      have := ((mV i).mp hi).1
      simpa using h.nodup i this.1 this.2
    · intro i hi j hj
      have := ((mV i).mp hi).1
      exact ⟨(h.nbr i this.1 this.2 j hj).2.2, hnbr i this.1 this.2 j hj⟩
    · intro i hi j _ hj
      have := ((mV i).mp hi).1
      exact h.sym i this.1 this.2 j hj
  · refine ⟨fun x _ _ hx => by rw [hrep]; simp [hx], fun x hx => by rw [hrep]; simp [hx], ?_, ?_⟩
    · intro x x0 x1 hxV _
      left
      refine ⟨?_, fun hz => by rw [hrep]; simp [hz]⟩
      rw [ht.vP, if_pos]
      refine ⟨⟨x0, x1⟩, ?_⟩
      by_contra hc
      push Not at hc
      exact hxV (by rw [hV, Finset.mem_filter, Finset.mem_Ico]; exact ⟨⟨x0, x1⟩, hc⟩)
    · intro x x0 x1 hxV hxZ
      have hd0 : s2.Degree.at x = 0 := by
        by_contra hc
        rw [hV, Finset.mem_filter, Finset.mem_Ico] at hxV
        rw [mZ] at hxZ
        exact hxV ⟨⟨x0, x1⟩, hc, by omega⟩
      rw [ht.vE, if_pos ⟨⟨x0, x1⟩, hd0⟩]
      decide
  · intro x x0 x1
    rw [ht.vNv]
    by_cases hz : x ∈ Z
    · rw [hcZ x x0 hz, if_pos ((mZ x).mp hz)]
    · rw [hcV x x0 hz x1, if_neg (fun h' => hz ((mZ x).mpr h'))]
      exact h1.vNv x x0 x1
  · rw [Finset.union_empty, eIw, epf]
    exact (h.mem.subset hVsub).congr hPeV hlst (fun x hx => h.mem.hi x (hVsub x hx)) (fun _ _ _ _ _ => rfl)
  · rw [Finset.union_empty]
    intro x hx
    have hr := ((mV x).mp hx).1
    rw [hlst x hx, ht.eLen]
    change s1.Len.at x = _
    rw [h1.eLen, h.len x hr.1 hr.2]
  · intro i hi
    have hx' := Finset.mem_filter.mp (hV ▸ hi)
    have hr := ((mV i).mp hi).1
    rw [ht.vE, if_neg (by omega), if_neg (by omega)]
    exact h1.vE i hr.1 hr.2
  · intro x x0 x1 _
    rw [ht.vE]
    split
    · unfold FLIP; omega
    · split
      · unfold EMPTY; omega
      · change -(n + 2) ≤ s1.Elen.at x ∧ s1.Elen.at x ≤ 0
        rw [h1.vE x x0 x1]
        omega
  · rw [Finset.union_empty, Finset.sum_congr rfl (fun x hx => by rw [hlst x hx])]
    refine le_trans ?_ h.size
    exact Finset.sum_le_sum_of_subset_of_nonneg (Finset.filter_subset _ _) (fun _ _ _ => by omega)
  · rw [Finset.sum_congr rfl (g := fun x => ((A x).length : Int)) (fun x hx => by
      rw [hcV x ((mV x).mp hx).1.1 (hVZ x hx) ((mV x).mp hx).1.2, one_mul]; simp)]
    have h2 := Finset.sum_le_sum_of_subset_of_nonneg (f := fun x => ((A x).length : Int))
      (Finset.filter_subset (fun x => s2.Degree.at x ≠ 0 ∧ s2.Degree.at x ≤ dense) (Finset.Ico 0 n))
      (fun _ _ _ => by omega)
    have h3 := h.size
    rw [← hV] at h2
    omega
  · intro x x0 x1
    rw [ht.vW, ht.ewf]
    change _ < wf
    split
    · omega
    · exact hWlt x x0 x1
  · rw [Finset.union_empty]
    intro x hx
    have hx' := Finset.mem_filter.mp (hV ▸ hx)
    have hr := ((mV x).mp hx).1
    rw [ht.vW, if_neg (by omega)]
    change W.at x ≠ 0
    rw [Ne, hWz x hr.1 hr.2, h1.vW x hr.1 hr.2]
    omega
  · intro x hx
    have hr := ((mV x).mp hx).1
    rw [ht.emd, ht.eD]
    exact (hdg x hr.1 hr.2).1
  · rw [Finset.sum_congr rfl (fun x hx => hcV x ((mV x).mp hx).1.1 (hVZ x hx) ((mV x).mp hx).1.2)]
    simp only [Finset.sum_const, nsmul_eq_mul, mul_one]
    exact hnel'
  · intro x hx
    have hr := ((mV x).mp hx).1
    rw [ht.eD, hlen x hr.1 hr.2]
    classical
    unfold extDeg
    have h1 := sum_le_cover (c := cnt n rep) (fun j => cnt_nonneg j) (G := fun _ => ∅) (la := A x) []
      (F := V.filter (fun j => j ≠ x ∧ QAdj ∅ A (fun _ => []) x j)) (by
        intro j hj
        left
        rcases (Finset.mem_filter.mp hj).2.2 with h' | ⟨e, he, _⟩
        · exact h'
        · simp at he)
    refine le_trans h1 ?_
    simp only [List.map_nil, List.sum_nil, zero_add]
    have h2 : ∀ l : List Int, (∀ j ∈ l, cnt n rep j ≤ 1) → (l.map (cnt n rep)).sum ≤ l.length := by
      intro l
      induction l with
      | nil => simp
      | cons a l ih =>
        intro hl
        have h3 := ih fun j hj => hl j (List.mem_cons_of_mem _ hj)
        have h4 := hl a List.mem_cons_self
        rw [List.map_cons, List.sum_cons, List.length_cons]
        push_cast
        omega
    refine h2 _ fun j hj => ?_
    have hjr := h.nbr x hr.1 hr.2 j hj
    by_cases hz : j ∈ Z
    · rw [hcZ j hjr.1 hz]; omega
    · rw [hcV j hjr.1 hz hjr.2.1]
  · intro hnd x hx _
    have hr := ((mV x).mp hx).1
    rw [ht.eD, hlen x hr.1 hr.2]
    have hz : ∀ j ∈ A x, j ∉ Z := by
      intro j hj hjZ
      have hjr := h.nbr x hr.1 hr.2 j hj
      exact hnd j hjr.1 hjr.2.1 (by rw [hrep]; simp [hjZ])
    classical
    unfold extDeg
    have h1 : ((A x).length : Int) = ∑ j ∈ (A x).toFinset, cnt n rep j := by
      rw [Finset.sum_congr rfl (g := fun _ => (1 : Int)) (fun j hj => by
        have hj := List.mem_toFinset.mp hj
        have hjr := h.nbr x hr.1 hr.2 j hj
        exact hcV j hjr.1 (hz j hj) hjr.2.1)]
      rw [Finset.sum_const, List.toFinset_card_of_nodup (h.nodup x hr.1 hr.2)]
      simp
    rw [h1]
    refine Finset.sum_le_sum_of_subset_of_nonneg (fun j hj => ?_) fun _ _ _ => cnt_nonneg _
    have hj := List.mem_toFinset.mp hj
    exact Finset.mem_filter.mpr ⟨(hnbr x hr.1 hr.2 j hj).resolve_right (hz j hj),
      (h.nbr x hr.1 hr.2 j hj).2.2, Or.inl hj⟩

/-- The initialisation establishes the loop invariant. -/
theorem amd2Init_spec {n iwlen dense0 wbig : Int} {A : Int → List Int} {s : Amd2} (hB : n ≤ Int_MAX) (hn : 0 ≤ n)
    (h : GIn n iwlen A s) :
    Spec (amd2Init n dense0 wbig s) (InitOut n iwlen (min n (max 16 dense0)) A) := by
  unfold amd2Init
  refine Spec.bind (initNodes_spec hn h) ?_
  intro s1 h1
  have hcf : clear_flag 0 wbig s1.W n = clear_flag 2 2 s1.W n := by
    unfold clear_flag
    rw [if_pos (Or.inl (by omega)), if_pos (Or.inr (by omega))]
  rw [hcf]
  refine Spec.bind (clear_flag_spec hn h1.aW (fun x x0 x1 => by rw [h1.vW x x0 x1]; omega)) ?_
  rintro ⟨wf, W⟩ ⟨aW, hwf, -, hWlt, hWz⟩
  simp only at aW hwf hWlt hWz ⊢
  have hdg := init_deg h h1
  refine (classify_spec (dense := min n (max 16 dense0))
    (s := { s1 with nel := 0, mindeg := 0, lemax := 0, wflg := wf, W := W }) hB rfl hn (by omega)
    (by simp only; rw [h1.ePe]; exact h.aP) h1.aT h1.aH h1.aN h1.aNv aW h1.aE h1.aD h1.vT h1.vH hdg).mono ?_
  exact fun t ht => init_fin hn (by omega) h h1 (by omega) hWlt hWz ht

end Verif
