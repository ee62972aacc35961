import Verif.Lemmas.AmdOutput
import Verif.Lemmas.AmdPost

/-!
# Specification of the last part of `AMD_2`
-/

namespace Verif

open Finset

variable {n m : Int} {Z : Finset Int} {rep : Int → Int} {rk : Int → Nat} {pe : Int → Int} {ord : Int → Int}

theorem total_nonneg : 0 ≤ total n Z rep := Finset.sum_nonneg fun _ _ => cnt_nonneg _

theorem total_le (hn : 0 ≤ n) : total n Z rep ≤ n := cnt_sum_le hn _

theorem start_nonneg {k : Int} : 0 ≤ start n Z rep ord k := Finset.sum_nonneg fun _ _ => cnt_nonneg _

theorem start_le {k : Int} (hn : 0 ≤ n) : start n Z rep ord k ≤ n := cnt_sum_le hn _

theorem before_le {k : Int} (g : Int) (hk : 0 ≤ k) (hZ : ∀ z ∈ Z, 0 ≤ z) : before Z rep k g ≤ k := by
  unfold before
  have : (Z.filter (fun z => z < k ∧ rep z = g)).card ≤ (Finset.Ico 0 k).card := by
    refine Finset.card_le_card ?_
    intro z hz
    rw [Finset.mem_filter] at hz
    exact Finset.mem_Ico.mpr ⟨hZ z hz.1, hz.2.1⟩
  rw [Int.card_Ico] at this
  omega

theorem flip_spec {B : Buf Int} (hB : ∀ x, 0 ≤ x → x < n → -Int_MAX ≤ B.at x ∧ B.at x ≤ Int_MAX - 1)
    (hn : 0 ≤ n) (aB : Arr B n n) :
    Spec (forI 0 n B (fun i B => do
      let v ← rd B i
      let f ← ck (FLIP v)
      wr B i f)) (fun C => Arr C n n ∧ ∀ x, 0 ≤ x → x < n → C.at x = FLIP (B.at x)) := by
  refine (forI_int hn (fun k (C : Buf Int) => Arr C n n ∧
    ∀ x, 0 ≤ x → x < n → C.at x = if x < k then FLIP (B.at x) else B.at x) ?_ ?_).mono ?_
  · exact ⟨aB, fun x x0 _ => by rw [if_neg (by omega)]⟩
  · rintro k C k0 k1 ⟨aC, hC⟩
    have hk := hB k k0 k1
    have ek := hC k k0 k1
    rw [if_neg (by omega)] at ek
    rw [aC.rd k0 k1, ok_bind, ck_bind (FLIP_ck (by rw [ek]; exact hk)), aC.wr k0 k1]
    refine Spec.ok ⟨aC.put k0 k1 _, ?_⟩
    intro x x0 x1
    rw [aC.at_put k0 k1]
    split
    · next e => subst e; rw [if_pos (by omega), hC x x0 x1, if_neg (by omega)]
    · next e => rw [hC x x0 x1]; exact if_congr (by omega) rfl rfl
  · rintro C ⟨aC, hC⟩
    exact ⟨aC, fun x x0 x1 => by rw [hC x x0 x1, if_pos x1]⟩

theorem heads_spec {W Head : Buf Int} (hn : 0 ≤ n) (hm0 : 0 ≤ m) (hm : m ≤ n) (aW : Arr W n n) (aH : Arr Head n n)
    (hH : ∀ v, 0 ≤ v → v < n → Head.at v = EMPTY) (ho : Ordr n m Z W.at)
    (hE : ∀ x, 0 ≤ x → x < n → x ∈ Z → W.at x = EMPTY) :
    Spec (forI 0 n Head (fun e Head => do
      let k ← rd W e
      if k ≠ EMPTY then wr Head k e else pure Head)) (fun H => Arr H n n ∧
      (∀ x ∈ nodes n Z, H.at (W.at x) = x) ∧ ∀ v, m ≤ v → v < n → H.at v = EMPTY) := by
  refine (forI_int hn (fun k (H : Buf Int) => Arr H n n ∧ (∀ x ∈ nodes n Z, x < k → H.at (W.at x) = x) ∧
    ∀ v, m ≤ v → v < n → H.at v = EMPTY) ?_ ?_).mono ?_
  · refine ⟨aH, fun x hx hx' => absurd hx' (by have := (mem_nodes.mp hx).1; omega), ?_⟩
    exact fun v v0 v1 => hH v (by omega) v1
  · rintro k H k0 k1 ⟨a1, h1, h2⟩
    rw [aW.rd k0 k1, ok_bind]
    by_cases hk : k ∈ Z
    · rw [hE k k0 k1 hk, if_neg (by simp)]
      refine Spec.pure ⟨a1, fun x hx hx' => ?_, h2⟩
      have : x ≠ k := fun e => (mem_nodes.mp hx).2 (e ▸ hk)
      exact h1 x hx (by omega)
    · have hkN : k ∈ nodes n Z := mem_nodes.mpr ⟨⟨k0, k1⟩, hk⟩
      obtain ⟨r0, r1⟩ := ho.rng k hkN
      rw [if_pos (by unfold EMPTY; omega), a1.wr r0 (by omega)]
      refine Spec.ok ⟨a1.put r0 (by omega) _, ?_, ?_⟩
      · intro x hx hx'
        rw [a1.at_put r0 (by omega)]
        split
        · next e => exact (ho.inj x hx k hkN e).symm
        · next e => exact h1 x hx (by
            have : x ≠ k := fun e' => e (by rw [e'])
            omega)
      · intro v v0 v1
        rw [a1.at_put r0 (by omega), if_neg (by omega)]
        exact h2 v v0 v1
  · rintro H ⟨a1, h1, h2⟩
    exact ⟨a1, fun x hx => h1 x hx (mem_nodes.mp hx).1.2, h2⟩

theorem starts_spec {Nv Head Next : Buf Int} (hB : n ≤ Int_MAX) (hn : 0 ≤ n) (hm0 : 0 ≤ m) (hm : m ≤ n) (aNv : Arr Nv n n)
    (aH : Arr Head n n) (aN : Arr Next n n) (hnv : ∀ x, 0 ≤ x → x < n → Nv.at x = cnt n rep x)
    (ho : Ordr n m Z ord) (hH : ∀ x ∈ nodes n Z, Head.at (ord x) = x)
    (hE : ∀ v, m ≤ v → v < n → Head.at v = EMPTY) :
    Spec (amd2Starts n Nv Head Next) (fun r => Arr r.1 n n ∧
      (∀ x ∈ nodes n Z, r.1.at x = start n Z rep ord (ord x)) ∧ r.2 = total n Z rep) := by
  unfold amd2Starts
  refine Spec.bind (forBrk_int hn
    (fun k (r : Buf Int × Int) => k ≤ m ∧ Arr r.1 n n ∧
      (∀ x ∈ nodes n Z, ord x < k → r.1.at x = start n Z rep ord (ord x)) ∧ r.2 = start n Z rep ord k)
    (fun k (r : Buf Int × Int) => k = m ∧ Arr r.1 n n ∧
      (∀ x ∈ nodes n Z, ord x < k → r.1.at x = start n Z rep ord (ord x)) ∧ r.2 = start n Z rep ord k) ?_ ?_) ?_
  · refine ⟨hm0, aN, fun x hx hx' => absurd hx' (by have := ho.rng x hx; omega), ?_⟩
    simp only
    unfold start
    rw [Finset.filter_false_of_mem (fun x hx => by have := ho.rng x hx; omega), Finset.sum_empty]
  · rintro k ⟨N, c⟩ k0 k1 ⟨hkm, a1, h1, h2⟩
    simp only at a1 h1 h2 ⊢
    rw [aH.rd k0 k1, ok_bind]
    by_cases hk : k < m
    · obtain ⟨x, hx, rfl⟩ := ho.surj k k0 hk
      have hxr := (mem_nodes.mp hx).1
      rw [hH x hx, if_neg (by unfold EMPTY; omega), a1.wr hxr.1 hxr.2, ok_bind, aNv.rd hxr.1 hxr.2, ok_bind]
      have hs1 := start_nonneg (n := n) (Z := Z) (rep := rep) (ord := ord) (k := ord x)
      have hs2 := start_le (Z := Z) (rep := rep) (ord := ord) (k := ord x + 1) hn
      have hs3 := cnt_nonneg (n := n) (rep := rep) x
      rw [start_succ ho hx] at hs2
      rw [ck_bind (by rw [h2, hnv x hxr.1 hxr.2]; omega)]
      refine Spec.pure ?_
      simp only [Bool.false_eq_true, if_false]
      refine ⟨by omega, a1.put hxr.1 hxr.2 _, ?_, ?_⟩
      · intro y hy hy'
        rw [a1.at_put hxr.1 hxr.2]
        split
        · next e => rw [e, h2]
        · next e =>
          refine h1 y hy ?_
          have : ord y ≠ ord x := fun e' => e (ho.inj y hy x hx e')
          omega
      · rw [start_succ ho hx, h2, hnv x hxr.1 hxr.2]
    · have : k = m := by omega
      subst this
      rw [hE k le_rfl k1, if_pos rfl]
      refine Spec.pure ?_
      simp only [if_true]
      exact ⟨trivial, a1, h1, h2⟩
  · rintro ⟨⟨N, c⟩, b⟩ hb
    refine Spec.pure ?_
    have key : ∀ k, m ≤ k → (∀ x ∈ nodes n Z, ord x < k → N.at x = start n Z rep ord (ord x)) →
        c = start n Z rep ord k → Arr N n n → Arr N n n ∧
        (∀ x ∈ nodes n Z, N.at x = start n Z rep ord (ord x)) ∧ c = total n Z rep := by
      intro k hk h1 h2 a1
      refine ⟨a1, fun x hx => h1 x hx (by have := ho.rng x hx; omega), ?_⟩
      rw [h2, start_all ho hk]
    cases b with
    | true =>
      simp only [if_true] at hb
      obtain ⟨k, _, _, hk, a1, h1, h2⟩ := hb
      exact key k (by omega) h1 h2 a1
    | false =>
      simp only [Bool.false_eq_true, if_false] at hb
      obtain ⟨hk, a1, h1, h2⟩ := hb
      exact key n (by omega) h1 h2 a1

theorem place_spec {Nv Pe Next : Buf Int} {T : Int} (hB : 2 * n ≤ Int_MAX) (hn : 0 ≤ n) (aNv : Arr Nv n n) (aP : Arr Pe n n)
    (aN : Arr Next n n) (hnv : ∀ x, 0 ≤ x → x < n → (Nv.at x = 0 ↔ x ∈ Z)) (hp : Par n Z rep rk pe)
    (hPe : ∀ x ∈ Z, Pe.at x = rep x)
    (h0 : ∀ x ∈ nodes n Z, Next.at x = start n Z rep ord (ord x)) (hT : T = total n Z rep) :
    Spec (forI 0 n (Next, T) (amd2Place Nv Pe)) (fun r => Arr r.1 n n ∧
      ∀ x, 0 ≤ x → x < n → r.1.at x = posOf n Z rep ord x) := by
  refine (forI_int hn (fun k (r : Buf Int × Int) => Arr r.1 n n ∧
    (∀ x ∈ nodes n Z, r.1.at x = start n Z rep ord (ord x) + before Z rep k x) ∧
    (∀ x ∈ Z, x < k → r.1.at x = base n Z rep ord (rep x) + before Z rep x (rep x)) ∧
    r.2 = total n Z rep + before Z rep k (-1)) ?_ ?_).mono ?_
  · have hb : ∀ g, before Z rep 0 g = 0 := by
      intro g
      unfold before
      rw [Finset.filter_false_of_mem (fun z hz => by have := hp.Zr z hz; omega)]
      rfl
    refine ⟨aN, fun x hx => ?_, fun x hx hx' => absurd hx' (by have := hp.Zr x hx; omega), ?_⟩
    · rw [h0 x hx, hb, add_zero]
    · simp only; rw [hT, hb, add_zero]
  · rintro k ⟨N, c⟩ k0 k1 ⟨a1, h1, h2, h3⟩
    simp only at a1 h1 h2 h3
    unfold amd2Place
    rw [aNv.rd k0 k1, ok_bind]
    by_cases hk : k ∈ Z
    · rw [if_pos ((hnv k k0 k1).mpr hk), aP.rd k0 k1, ok_bind, hPe k hk]
      simp only
      have hbs := fun g => before_succ (Z := Z) (rep := rep) (k := k) g
      rcases hp.repZ k hk with hr | ⟨g0, g1, g2⟩
      · rw [hr, if_neg (by simp [EMPTY]), a1.wr k0 k1, ok_bind]
        have hs1 := total_nonneg (n := n) (Z := Z) (rep := rep)
        have hs2 := total_le (Z := Z) (rep := rep) hn
        have hs3 := before_nonneg (Z := Z) (rep := rep) k (-1)
        have hs4 := before_le (Z := Z) (rep := rep) (k := k) (-1) k0 (fun z hz => (hp.Zr z hz).1)
        rw [ck_bind (by omega)]
        refine Spec.pure ⟨a1.put k0 k1 _, ?_, ?_, ?_⟩
        · intro x hx
          have hxr := mem_nodes.mp hx
          simp only
          rw [a1.at_put k0 k1, if_neg (fun e : x = k => hxr.2 (e ▸ hk)), h1 x hx, hbs, if_neg (by omega), add_zero]
        · intro x hx hx'
          simp only
          rw [a1.at_put k0 k1]
          split
          · next e => subst e; rw [h3, hr, base_dense]
          · exact h2 x hx (by omega)
        · simp only
          rw [h3, hbs, if_pos ⟨hk, hr⟩]
          ring
      · have hgN : rep k ∈ nodes n Z := mem_nodes.mpr ⟨⟨g0, g1⟩, g2⟩
        have hne : rep k ≠ k := fun e => by rw [e] at g2; exact g2 hk
        rw [if_pos (by unfold EMPTY; omega), a1.rd g0 g1, ok_bind, a1.wr k0 k1, ok_bind]
        unfold incr
        have a2 := a1.put k0 k1 (N.at (rep k))
        have hs1 := start_nonneg (n := n) (Z := Z) (rep := rep) (ord := ord) (k := ord (rep k))
        have hs2 := start_le (Z := Z) (rep := rep) (ord := ord) (k := ord (rep k)) hn
        have hs3 := before_nonneg (Z := Z) (rep := rep) k (rep k)
        have hs4 := before_le (Z := Z) (rep := rep) (k := k) (rep k) k0 (fun z hz => (hp.Zr z hz).1)
        have hs5 := h1 _ hgN
        rw [a2.rd g0 g1, ok_bind, ck_bind (by rw [a1.at_put k0 k1, if_neg hne]; omega), a2.wr g0 g1, ok_bind]
        refine Spec.pure ⟨a2.put g0 g1 _, ?_, ?_, ?_⟩
        · intro x hx
          have hxr := mem_nodes.mp hx
          simp only
          rw [a2.at_put g0 g1, hbs]
          split
          · next e =>
            subst e
            rw [if_pos ⟨hk, rfl⟩, a1.at_put k0 k1, if_neg hne, h1 _ hx]
            ring
          · next e =>
            rw [a1.at_put k0 k1, if_neg (fun e : x = k => hxr.2 (e ▸ hk)), h1 x hx, if_neg (fun e' => e e'.2.symm),
              add_zero]
        · intro x hx hx'
          simp only
          rw [a2.at_put g0 g1, if_neg (fun e : x = rep k => g2 (e ▸ hx)), a1.at_put k0 k1]
          split
          · next e => subst e; rw [h1 _ hgN, base_node hgN]
          · exact h2 x hx (by omega)
        · simp only
          rw [h3, hbs, if_neg (by omega), add_zero]
    · rw [if_neg (fun e => hk ((hnv k k0 k1).mp e))]
      have hbs : ∀ g, before Z rep (k + 1) g = before Z rep k g := by
        intro g
        rw [before_succ, if_neg (fun h => hk h.1), add_zero]
      refine Spec.pure ⟨a1, fun x hx => by rw [hbs]; exact h1 x hx, fun x hx hx' => h2 x hx ?_, by rw [hbs]; exact h3⟩
      have : x ≠ k := fun e => hk (e ▸ hx)
      omega
  · rintro ⟨N, c⟩ ⟨a1, h1, h2, h3⟩
    refine ⟨a1, ?_⟩
    intro x x0 x1
    unfold posOf
    by_cases hx : x ∈ Z
    · rw [if_pos hx]; exact h2 x hx x1
    · have hN : x ∈ nodes n Z := mem_nodes.mpr ⟨⟨x0, x1⟩, hx⟩
      rw [if_neg hx, hp.repN x x0 x1 hx, base_node hN]
      exact h1 x hN

set_option maxHeartbeats 400000 in
/-- The last part of `AMD_2` turns a complete elimination into a permutation and its inverse. -/
theorem amd2Output_spec {iwlen : Int} {V K : Finset Int} {E A L : Int → List Int} {s : Amd2}
    (hBig : 0 ≤ n ∧ 0 ≤ iwlen ∧ 3 * (n + iwlen) + 10 ≤ Int_MAX)
    (h : AInv n iwlen V K Z E A L rep rk s) (hnel : s.nel = n) :
    Spec (amd2Output n s) (fun r => ∃ p q : Nat → Nat, PermPair n.toNat p q ∧ (r.1.length : Int) = n ∧
      (r.2.length : Int) = n ∧ Buf.Has r.1 n.toNat (fun i => (p i : Int)) ∧
      Buf.Has r.2 n.toNat (fun i => (q i : Int)) ∧
      ∀ x y : Nat, x < n.toNat → y < n.toNat → rep x ≠ -1 →
        (rep y = -1 ∨ (rep x ≠ rep y ∧ Up n V K Z s.Pe.at (rep x) (rep y))) → q x < q y) := by
  have hn := hBig.1
  have hV : V = ∅ := by
    by_contra hne
    obtain ⟨x, hx⟩ := Finset.nonempty_iff_ne_empty.mpr hne
    have h1 := h.nel
    have hr := h.g.Vr x hx
    have h2 := h.t.cntP hr.1 hr.2 (h.g.VZ x hx)
    have h3 : cnt n rep x ≤ ∑ x ∈ V, cnt n rep x := Finset.single_le_sum (fun _ _ => cnt_nonneg _) hx
    omega
  have hK : K = ∅ := by
    by_contra hne
    obtain ⟨e, he⟩ := Finset.nonempty_iff_ne_empty.mpr hne
    obtain ⟨i, hi, _⟩ := h.j e he
    rw [hV] at hi
    simp at hi
  subst hV hK
  have hnv : ∀ x, 0 ≤ x → x < n → (s.Nv.at x = 0 ↔ x ∈ Z) := by
    intro x x0 x1
    rw [h.nv x x0 x1]
    constructor
    · intro e
      by_contra hz
      have := h.t.cntP x0 x1 hz
      omega
    · exact fun hz => h.t.cntZ hz x0
  have hnvp : ∀ x, 0 ≤ x → x < n → (0 < s.Nv.at x ↔ x ∉ Z) := by
    intro x x0 x1
    rw [← hnv x x0 x1, h.nv x x0 x1]
    have := cnt_nonneg (n := n) (rep := rep) x
    omega
  unfold amd2Output
  refine Spec.bind (flip_spec ?_ hn h.aP) ?_
  · intro x x0 x1
    rcases h.t.dead x x0 x1 (by simp) (by simp) with ⟨e, _⟩ | ⟨y, e, y0, y1, _⟩
    · rw [e]; unfold EMPTY; omega
    · rw [e]; unfold FLIP; omega
  rintro Pe1 ⟨aP1, hP1⟩
  refine Spec.bind (flip_spec ?_ hn h.aE) ?_
  · intro x x0 x1
    have := h.eb x x0 x1 (by simp)
    omega
  rintro El ⟨aE1, hE1⟩
  have hpar1 : Par n Z rep rk Pe1.at := by
    refine ⟨h.g.Zr, h.t.repN, h.t.repZ, ?_⟩
    intro x x0 x1
    rw [hP1 x x0 x1]
    rcases h.t.dead x x0 x1 (by simp) (by simp) with ⟨e, h'⟩ | ⟨y, e, y0, y1, y2, y3, y4⟩
    · left
      exact ⟨by rw [e]; decide, h'⟩
    · right
      rw [e, FLIP_FLIP]
      exact ⟨y0, y1, y2, fun hz => (y3 hz).1, y4⟩
  refine Spec.bind (paths_spec hn h.aNv hnv aP1 hpar1) ?_
  rintro Pe2 ⟨aP2, hpar, hrep, hPe2⟩
  refine Spec.bind (AMD_postorder_spec (by omega) hn aP2 h.aNv aE1 h.aW.len h.aH.len h.aN.len h.aT.len ?_ rk ?_ ?_) ?_
  · intro j j0 j1 hj
    have hjZ := (hnvp j j0 j1).mp hj
    rcases hpar.par j j0 j1 with ⟨e, _⟩ | ⟨p0, p1, p2, p3, p4⟩
    · exact Or.inl e
    · exact Or.inr ⟨p0, p1, (hnvp _ p0 p1).mpr (p3 hjZ)⟩
  · intro j j0 j1 hj he
    rcases hpar.par j j0 j1 with ⟨e, _⟩ | ⟨p0, p1, p2, p3, p4⟩
    · exact absurd e he
    · exact p2
  · intro j j0 j1 hj
    have hjZ := (hnvp j j0 j1).mp hj
    rw [hE1 j j0 j1]
    have := h.t.elen j j0 j1 (by simp) hjZ
    unfold FLIP
    omega
  rintro ⟨W, Hd0, Nx0, Lt0⟩ ⟨aW, lH, lN, lT, m, hm0, o1, o2, o3, o4, o5⟩
  simp only at aW lH lN lT o1 o2 o3 o4 o5 ⊢
  have ho : Ordr n m Z W.at := by
    refine ⟨?_, ?_, ?_⟩
    · intro x hx
      obtain ⟨hr, hz⟩ := mem_nodes.mp hx
      exact o1 x hr.1 hr.2 ((hnvp x hr.1 hr.2).mpr hz)
    · intro x hx y hy e
      obtain ⟨hr, hz⟩ := mem_nodes.mp hx
      obtain ⟨hr', hz'⟩ := mem_nodes.mp hy
      exact o3 x y hr.1 hr.2 hr'.1 hr'.2 ((hnvp x hr.1 hr.2).mpr hz) ((hnvp y hr'.1 hr'.2).mpr hz') e
    · intro v v0 v1
      obtain ⟨j, j0, j1, jp, e⟩ := o4 v v0 v1
      exact ⟨j, mem_nodes.mpr ⟨⟨j0, j1⟩, (hnvp j j0 j1).mp jp⟩, e⟩
  have hm := ho.le hn hm0
  refine Spec.bind (forI_int hn (fun k (st : Buf Int × Buf Int) => Arr st.1 n k ∧ Arr st.2 n k ∧
    ∀ x, 0 ≤ x → x < k → st.1.at x = EMPTY) ?_ ?_) ?_
  · exact ⟨arr0 lH, arr0 lN, fun x a b => absurd b (by omega)⟩
  · rintro k ⟨B, C⟩ k0 k1 ⟨a1, a2, h1⟩
    simp only at a1 a2 h1 ⊢
    rw [a1.wr k0 k1, ok_bind, a2.wr k0 k1, ok_bind]
    exact Spec.pure ⟨a1.push k0 k1 _, a2.push k0 k1 _, put_vals a1 k0 k1 h1 rfl⟩
  rintro ⟨Hd1, Nx1⟩ ⟨aH1, aN1, hH1⟩
  simp only at aH1 aN1 hH1 ⊢
  refine Spec.bind (heads_spec hn hm0 hm aW aH1 hH1 ho ?_) ?_
  · intro x x0 x1 hx
    exact o2 x x0 x1 (by rw [hnvp x x0 x1]; tauto)
  rintro Hd2 ⟨aH2, hh1, hh2⟩
  refine Spec.bind (starts_spec (rep := rep) (by omega) hn hm0 hm h.aNv aH2 aN1 h.nv ho hh1 hh2) ?_
  rintro ⟨Nx2, T⟩ ⟨aN2, hst, hT⟩
  simp only at aN2 hst hT ⊢
  refine Spec.bind (place_spec (by omega) hn h.aNv aP2 aN2 hnv hpar hrep hst hT) ?_
  rintro ⟨Nx3, T3⟩ ⟨aN3, hpos⟩
  simp only at aN3 hpos ⊢
  obtain ⟨p, hpp⟩ := posOf_perm hn ho hpar
  have hn' : ((n.toNat : Nat) : Int) = n := by omega
  have hpn : ∀ i : Nat, i < n.toNat → Nx3.at (i : Int) = ((posOf n Z rep W.at i).toNat : Int) := by
    intro i hi
    rw [hpos i (by omega) (by omega)]
    have := (posOf_rng (ord := W.at) hn hpar (x := i) (by omega) (by omega)).1
    omega
  have hsc := forI_scatter (X := Lt0) hpp.symm (by omega) (f := fun i Last => do
      let k ← rd Nx3 i
      wr Last k i) (fun j => (j : Int)) (by
    intro j b hj _
    rw [aN3.rd (by omega) (by omega), ok_bind, hpn j hj])
  rw [hn'] at hsc
  refine Spec.bind hsc ?_
  rintro Last ⟨l1, l2, _⟩
  refine Spec.pure ⟨p, _, hpp, by simp only; omega, aN3.len, l2, ?_, ?_⟩
  · intro i hi
    simp only
    rw [← hpn i hi]
    have := aN3.init (i : Int) (by omega) (by omega)
    simpa using this
  · intro x y hx hy hxr hxy
    have hxR := posOf_rng (ord := W.at) hn hpar (x := x) (by omega) (by omega)
    have hxg := (group hpar (x := x) (by omega) (by omega)).resolve_left hxr
    have hox := off_lt hpar (x := x) (by omega) (by omega)
    have hoy := off_lt hpar (x := y) (by omega) (by omega)
    have hb : base n Z rep W.at (rep x) + cnt n rep (rep x) ≤ base n Z rep W.at (rep y) := by
      rcases hxy with e | ⟨hne, hup⟩
      · rw [e, base_dense, base_node hxg]
        have h1 := start_step (rep := rep) (ord := W.at) hxg (v := W.at (rep x) + 1) (by omega)
        have h2 := start_total (n := n) (Z := Z) (rep := rep) (ord := W.at) (W.at (rep x) + 1)
        omega
      · have key : ∀ a b, Up n ∅ ∅ Z s.Pe.at a b → a ∈ nodes n Z → b ∈ nodes n Z ∧ W.at a ≤ W.at b := by
          intro a b hab ha
          induction hab with
          | refl => exact ⟨ha, le_rfl⟩
          | @tail b c _ hbc ih =>
            obtain ⟨hb, hle⟩ := ih
            obtain ⟨hr, hz⟩ := mem_nodes.mp hb
            have hp2 : Pe2.at b = c := by
              rw [hPe2 b hz, hP1 b hr.1 hr.2, hbc.2.2.1, FLIP_FLIP]
            have hcne : c ≠ EMPTY := hbc.2.2.2
            have h5 := o5 b hr.1 hr.2 ((hnvp b hr.1 hr.2).mpr hz) (by rw [hp2]; exact hcne)
            rw [hp2] at h5
            refine ⟨?_, by omega⟩
            rcases hpar.par b hr.1 hr.2 with ⟨e, _⟩ | ⟨p0, p1, p2, p3, p4⟩
            · rw [hp2] at e; exact absurd e hcne
            · rw [hp2] at p0 p1 p3
              exact mem_nodes.mpr ⟨⟨p0, p1⟩, p3 hz⟩
        obtain ⟨hyg, hle⟩ := key _ _ hup hxg
        rw [base_node hxg, base_node hyg]
        refine start_step hxg ?_
        have : W.at (rep x) ≠ W.at (rep y) := fun e => hne (ho.inj _ hxg _ hyg e)
        omega
    have : posOf n Z rep W.at x < posOf n Z rep W.at y := by
      unfold posOf
      omega
    omega

/-- `AMD_2`: for a symmetric graph the result is a permutation and its inverse. -/
theorem AMD_2_spec {iwlen dense0 : Int} {aggr : Bool} {A : Int → List Int} {s : Amd2}
    (hBig : 0 ≤ n ∧ 0 ≤ iwlen ∧ 3 * (n + iwlen) + 10 ≤ Int_MAX)
    (h : GIn n iwlen A s) :
    Spec (AMD_2 n dense0 iwlen aggr s) (fun r => ∃ p q : Nat → Nat, PermPair n.toNat p q ∧
      (r.1.length : Int) = n ∧ (r.2.length : Int) = n ∧ Buf.Has r.1 n.toNat (fun i => (p i : Int)) ∧
      Buf.Has r.2 n.toNat (fun i => (q i : Int))) := by
  have hn := hBig.1
  unfold AMD_2
  rw [ck_bind (by omega)]
  refine Spec.bind (amd2Init_spec (by omega) hn h) ?_
  rintro s1 ⟨h1n, V1, Z1, h1, -⟩
  refine Spec.bind (amd2Loop_spec hBig rfl ⟨_, _, _, _, _, _, _, _, h1⟩ h1n) ?_
  rintro s2 ⟨⟨V, K, Z, E, A', L, rep, rk, h2⟩, h2n⟩
  refine (amd2Output_spec hBig h2 h2n).mono ?_
  rintro r ⟨p, q, q1, q2, q3, q4, q5, -⟩
  exact ⟨p, q, q1, q2, q3, q4, q5⟩

end Verif
