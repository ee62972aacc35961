import Mathlib.Data.List.Chain
import Verif.Lemmas.AmdStat
import Verif.Lemmas.AmdRel
import Verif.Lemmas.Checked
import Verif.Model.AmdTrace
import Verif.SpecOrder

/-!
# Groups and degrees in the states of the ordering routine
-/

namespace Verif

open Finset

section

variable {n iwlen : Int} {V K Z : Finset Int} {E A L : Int → List Int} {rep : Int → Int} {rk : Int → Nat}
  {s : Amd2}

theorem Arr.rd_inv {b : Buf Int} {len i v : Int} (h : Arr b len len) (hr : Verif.rd b i = .ok v) :
    (0 ≤ i ∧ i < len) ∧ b.at i = v := by
  obtain ⟨h0, h1, h2⟩ := rd_run hr
  have := h.len
  refine ⟨⟨h0, by omega⟩, Buf.at_of_some h0 h2⟩

theorem AInv.nvZ (h : AInv n iwlen V K Z E A L rep rk s) {x : Int} (x0 : 0 ≤ x) (x1 : x < n) :
    (x ∈ Z → s.Nv.at x = 0) ∧ (x ∉ Z → 0 < s.Nv.at x) := by
  rw [h.nv x x0 x1]
  exact ⟨fun hz => h.t.cntZ hz x0, fun hz => h.t.cntP x0 x1 hz⟩

theorem AInv.waiting_iff (h : AInv n iwlen V K Z E A L rep rk s) {x : Int} : Waiting s x ↔ x ∈ V := by
  constructor
  · rintro ⟨v, e, h1, h2, h3, h4⟩
    obtain ⟨⟨x0, x1⟩, h1⟩ := h.aNv.rd_inv h1
    obtain ⟨-, h3⟩ := h.aE.rd_inv h3
    by_contra hV
    have hz : x ∉ Z := fun hz => by have := (h.nvZ x0 x1).1 hz; omega
    have := h.t.elen x x0 x1 hV hz
    omega
  · intro hV
    obtain ⟨x0, x1⟩ := h.g.Vr x hV
    refine ⟨_, _, h.aNv.rd x0 x1, (h.nvZ x0 x1).2 (h.g.VZ x hV), h.aE.rd x0 x1, ?_⟩
    rw [h.elen x hV]
    omega

theorem AInv.eliminated_iff (h : AInv n iwlen V K Z E A L rep rk s) {x : Int} : Eliminated s x ↔ Elim n V Z x := by
  constructor
  · rintro ⟨v, e, h1, h2, h3, h4⟩
    obtain ⟨⟨x0, x1⟩, h1⟩ := h.aNv.rd_inv h1
    obtain ⟨-, h3⟩ := h.aE.rd_inv h3
    refine ⟨⟨x0, x1⟩, fun hV => ?_, fun hz => ?_⟩
    · have := h.elen x hV
      omega
    · have := (h.nvZ x0 x1).1 hz
      omega
  · rintro ⟨⟨x0, x1⟩, hV, hZ⟩
    refine ⟨_, _, h.aNv.rd x0 x1, (h.nvZ x0 x1).2 hZ, h.aE.rd x0 x1, ?_⟩
    have := h.t.elen x x0 x1 hV hZ
    omega

theorem AInv.group_rep (h : AInv n iwlen V K Z E A L rep rk s) {z x : Int} (hg : InGroup s z x) :
    (0 ≤ z ∧ z < n) ∧ rep z = x ∧ x ≠ -1 := by
  induction hg with
  | self h1 h2 =>
    obtain ⟨⟨x0, x1⟩, h1⟩ := h.aNv.rd_inv h1
    refine ⟨⟨x0, x1⟩, h.t.repN _ x0 x1 fun hz => ?_, by omega⟩
    have := (h.nvZ x0 x1).1 hz
    omega
  | @up z p x h1 h2 h3 _ ih =>
    obtain ⟨⟨z0, z1⟩, h1⟩ := h.aNv.rd_inv h1
    obtain ⟨-, h2⟩ := h.aP.rd_inv h2
    have hz : z ∈ Z := by
      by_contra hz
      have := (h.nvZ z0 z1).2 hz
      omega
    refine ⟨⟨z0, z1⟩, ?_, ih.2.2⟩
    rcases h.t.dead z z0 z1 (fun hv => h.g.VZ z hv hz) (fun hk => h.g.KZ z hk hz) with ⟨e, -⟩ | ⟨y, e, -, -, -, -, h6⟩
    · exact absurd (h2.symm.trans e) h3
    · have : FLIP p = y := by
        rw [← h2, e]
        unfold FLIP
        omega
      rw [this] at ih
      rw [(h6 hz).1, ih.2.1]

theorem AInv.rep_group (h : AInv n iwlen V K Z E A L rep rk s) {z : Int} (z0 : 0 ≤ z) (z1 : z < n)
    (hr : rep z ≠ -1) : InGroup s z (rep z) := by
  set B := (Ico 0 n).sup rk with hB
  suffices H : ∀ k, ∀ z, 0 ≤ z → z < n → rep z ≠ -1 → B - rk z = k → InGroup s z (rep z) from
    H _ z z0 z1 hr rfl
  intro k
  induction k using Nat.strong_induction_on with
  | _ k ih =>
    intro z z0 z1 hr hk
    by_cases hz : z ∈ Z
    · rcases h.t.dead z z0 z1 (fun hv => h.g.VZ z hv hz) (fun hk => h.g.KZ z hk hz) with ⟨-, h'⟩ | ⟨y, e, y0, y1, hrk, -, h6⟩
      · exact absurd (h' hz) hr
      · have e1 := (h6 hz).1
        have hy : rk y ≤ B := Finset.le_sup (f := rk) (mem_Ico.mpr ⟨y0, y1⟩)
        refine InGroup.up (p := FLIP y) ?_ ?_ ?_ ?_
        · rw [h.aNv.rd z0 z1, (h.nvZ z0 z1).1 hz]
        · rw [h.aP.rd z0 z1, e]
        · unfold FLIP EMPTY; omega
        · have : FLIP (FLIP y) = y := by unfold FLIP; omega
          rw [this, e1]
          exact ih _ (by omega) y y0 y1 (by rw [← e1]; exact hr) rfl
    · rw [h.t.repN z z0 z1 hz]
      exact .self (h.aNv.rd z0 z1) ((h.nvZ z0 z1).2 hz)

theorem AInv.group_iff (h : AInv n iwlen V K Z E A L rep rk s) {z x : Int} (z0 : 0 ≤ z) (z1 : z < n) (hx : x ≠ -1) :
    InGroup s z x ↔ rep z = x :=
  ⟨fun hg => (h.group_rep hg).2.1, fun e => e ▸ h.rep_group z0 z1 (e ▸ hx)⟩

/-! ## Paths through eliminated nodes -/

theorem Up.below {pe : Int → Int} {x y e : Int} (he : e ∈ K) (h1 : Up n V K Z pe x y) (h2 : Up n V K Z pe x e) :
    Up n V K Z pe y e := by
  induction h1 using Relation.ReflTransGen.head_induction_on with
  | refl => exact h2
  | head hab _ ih =>
    rcases Relation.ReflTransGen.cases_head h2 with h | ⟨y, hy, hy'⟩
    · exact absurd (h ▸ he) hab.2.1
    · have := FLIP_inj (hab.2.2.1.symm.trans hy.2.2.1)
      subst this
      exact ih hy'

variable {adj : Int → Int → Prop} {C : Int → Finset Int} {pe : Int → Int}

/-- From an eliminated node. -/
theorem QSem.reach_gone (h : QSem n adj V K Z A L rep pe C) (ht : TInv n V K Z rep rk pe s.Elen.at) {S : Nat → Prop}
    (hS : ∀ w : Nat, S w → (w : Int) < n ∧ rep w ≠ -1 ∧ rep w ∉ V) {w v : Nat}
    (hr : ReachThru (fun u v : Nat => adj u v) S w v) (hw : S w) (hv : (v : Int) < n) (hvV : rep v ∈ V) (hv1 : rep v ≠ -1) :
    ∃ e ∈ K, Up n V K Z pe (rep w) e ∧ rep v ∈ L e := by
  have hel : ∀ w : Nat, S w → Elim n V Z (rep w) := fun w hw =>
    (ht.repRng (by omega) (hS w hw).1 (hS w hw).2.1).resolve_left (hS w hw).2.2
  induction hr with
  | @edge w v huv =>
    obtain ⟨w1, w2, w3⟩ := hS w hw
    rcases h.edge w v (by omega) w1 (by omega) hv huv w2 hv1 with (h' | h' | h') | h'
    · exact absurd (h' ▸ hvV) w3
    · exact (h.up _ (hel w hw) v h'.2).1 hvV
    · exact absurd hvV h'.1
    · exact absurd h'.1 w3
  | @step w w' v hww hw' _ ih =>
    obtain ⟨e, he, h1, h2⟩ := ih hw' hv hvV hv1
    obtain ⟨w1, w2, w3⟩ := hS w hw
    obtain ⟨w4, w5, w6⟩ := hS w' hw'
    refine ⟨e, he, ?_, h2⟩
    rcases h.edge w w' (by omega) w1 (by omega) w4 hww w2 w5 with (h' | h' | h') | h'
    · rw [h']; exact h1
    · exact ((h.up _ (hel w hw) w' h'.2).2 w6).trans h1
    · exact Up.below he ((h.up _ (hel w' hw') w h'.2).2 w3) h1
    · exact absurd h'.1 w3

/-- From a waiting node. -/
theorem QSem.reach (h : QSem n adj V K Z A L rep pe C) (ht : TInv n V K Z rep rk pe s.Elen.at) {S : Nat → Prop}
    (hS : ∀ w : Nat, S w → (w : Int) < n ∧ rep w ≠ -1 ∧ rep w ∉ V) {u v : Nat}
    (hr : ReachThru (fun u v : Nat => adj u v) S u v) (hu : (u : Int) < n) (huV : rep u ∈ V) (hu1 : rep u ≠ -1)
    (hv : (v : Int) < n) (hvV : rep v ∈ V) (hv1 : rep v ≠ -1) :
    rep u = rep v ∨ QAdj K A L (rep u) (rep v) := by
  cases hr with
  | edge huv =>
    rcases h.edge u v (by omega) hu (by omega) hv huv hu1 hv1 with (h' | h' | h') | h'
    · exact Or.inl h'
    · exact absurd huV h'.1
    · exact absurd hvV h'.1
    · exact Or.inr h'.2.2
  | @step _ w _ huw hw hwv =>
    obtain ⟨e, he, h1, h2⟩ := h.reach_gone ht hS hwv hw hv hvV hv1
    obtain ⟨w1, w2, w3⟩ := hS w hw
    have hel : Elim n V Z (rep w) := (ht.repRng (by omega) w1 w2).resolve_left w3
    rcases h.edge u w (by omega) hu (by omega) w1 huw hu1 w2 with (h' | h' | h') | h'
    · exact absurd (h' ▸ huV) w3
    · exact absurd huV h'.1
    · obtain ⟨f, hf, h3, h4⟩ := (h.up _ hel u h'.2).1 huV
      have := Up.unique he hf h1 h3
      subst this
      exact Or.inr (Or.inr ⟨e, he, h4, h2⟩)
    · exact absurd h'.2.1 w3

/-- The neighbours in the quotient graph are joined by paths through eliminated nodes. -/
theorem QSem.sound (h : QSem n adj V K Z A L rep pe C) (hK : ∀ e ∈ K, (0 ≤ e ∧ e < n) ∧ rep e = e ∧ e ∉ V) {u v : Int}
    (u0 : 0 ≤ u) (u1 : u < n) (v0 : 0 ≤ v) (v1 : v < n) (hu : rep u ∈ V) (hv : rep v ∈ V)
    (hq : QAdj K A L (rep u) (rep v)) : ReachThru adj (InElim n V rep) u v := by
  rcases hq with hq | ⟨e, he, e1, e2⟩
  · exact h.sndA u v u0 u1 v0 v1 hu hv hq
  · obtain ⟨k1, k2, k3⟩ := hK e he
    exact (h.sndL e he u u0 u1 hu e1).2.trans ⟨k1, by omega, by rw [k2]; exact k3⟩ (h.sndL e he v v0 v1 hv e2).1

theorem ReachThru.toNat {S : Int → Prop} {S' : Nat → Prop} (hS : ∀ w, S w → 0 ≤ w ∧ S' w.toNat) {u v : Int}
    (h : ReachThru adj S u v) : ∀ {a b : Nat}, u = a → v = b → ReachThru (fun x y : Nat => adj x y) S' a b := by
  induction h with
  | edge e =>
    rintro a b rfl rfl
    exact .edge e
  | @step u w v e hw _ ih =>
    rintro a b rfl rfl
    obtain ⟨w0, hw'⟩ := hS w hw
    refine .step (w := w.toNat) ?_ hw' (ih (by omega) rfl)
    rwa [Int.toNat_of_nonneg w0]

end

section

variable {N : Nat} {iwlen : Int} {V K Z : Finset Int} {E A L : Int → List Int} {rep : Int → Int} {rk : Int → Nat}
  {s : Amd2} {adj : Int → Int → Prop} {C : Int → Finset Int}

open Classical in
theorem AInv.upper_le (h : AInv N iwlen V K Z E A L rep rk s) (hs : QSem N adj V K Z A L rep s.Pe.at C) (x : Int)
    (hx : x ∈ V) : (((range N).filter (ExternalNeighbour N (fun u v => adj u v) s x)).card : Int)
      ≤ extDeg N V K A L rep x := by
  unfold extDeg
  rw [cnt_sum]
  have hle : ((range N).filter (ExternalNeighbour N (fun u v => adj u v) s x)).card ≤
      ((Ico 0 (N : Int)).filter (fun z => rep z ∈ V.filter (fun j => j ≠ x ∧ QAdj K A L x j))).card := by
    refine card_le_card_of_injOn (fun u : Nat => (u : Int)) ?_ (Nat.cast_injective.injOn)
    intro v hv
    rw [mem_coe, mem_filter, mem_range] at hv
    obtain ⟨hvN, ⟨y, hy, hyw, hyx⟩, u, huN, hu, hr⟩ := hv
    rw [h.waiting_iff] at hyw
    obtain ⟨-, ey, y1⟩ := h.group_rep hy
    obtain ⟨-, ex, x1'⟩ := h.group_rep hu
    have := hs.reach h.t (S := fun w => w < N ∧ Gone s w) (fun w hw => by
      obtain ⟨-, g, hg, hge⟩ := hw
      rw [h.eliminated_iff] at hge
      obtain ⟨q1, q2, q3⟩ := h.group_rep hg
      exact ⟨q1.2, q2 ▸ q3, q2 ▸ hge.2.1⟩) hr (by omega) (ex ▸ hx) (ex ▸ x1') (by omega) (ey ▸ hyw) (ey ▸ y1)
    rw [mem_coe, mem_filter, mem_Ico, mem_filter]
    dsimp only
    refine ⟨by omega, ey ▸ hyw, ey ▸ hyx, ?_⟩
    rw [ex] at this
    exact this.resolve_left fun e => hyx (ey ▸ e.symm)
  exact_mod_cast hle

open Classical in
theorem AInv.upper_ge (h : AInv N iwlen V K Z E A L rep rk s) (hs : QSem N adj V K Z A L rep s.Pe.at C) (x : Int)
    (hx : x ∈ V) : extDeg N V K A L rep x
      ≤ (((range N).filter (ExternalNeighbour N (fun u v => adj u v) s x)).card : Int) := by
  obtain ⟨x0, x1⟩ := h.g.Vr x hx
  have hrx : rep x = x := h.t.repN x x0 x1 (h.g.VZ x hx)
  unfold extDeg
  rw [cnt_sum]
  have hle : ((Ico 0 (N : Int)).filter (fun z => rep z ∈ V.filter (fun j => j ≠ x ∧ QAdj K A L x j))).card ≤
      ((range N).filter (ExternalNeighbour N (fun u v => adj u v) s x)).card := by
    refine card_le_card_of_injOn Int.toNat ?_ ?_
    · intro z hz
      rw [mem_coe, mem_filter, mem_Ico, mem_filter] at hz
      obtain ⟨⟨z0, z1⟩, hzV, hzx, hq⟩ := hz
      have hz1 : rep z ≠ -1 := by
        have := h.g.Vr _ hzV
        omega
      rw [mem_coe, mem_filter, mem_range]
      refine ⟨by omega, ⟨rep z, ?_, h.waiting_iff.mpr hzV, hzx⟩, x.toNat, by omega, ?_, ?_⟩
      · rw [Int.toNat_of_nonneg z0]
        exact h.rep_group z0 z1 hz1
      · rw [Int.toNat_of_nonneg x0, h.group_iff x0 x1 (by omega), hrx]
      · refine ReachThru.toNat (S := InElim N V rep) ?_ (hs.sound ?_ x0 x1 z0 z1 (hrx.symm ▸ hx) hzV
          (hrx.symm ▸ hq)) (Int.toNat_of_nonneg x0).symm (Int.toNat_of_nonneg z0).symm
        · rintro w ⟨⟨w0, w1⟩, w2, w3⟩
          refine ⟨w0, by omega, rep w, ?_, ?_⟩
          · rw [Int.toNat_of_nonneg w0]
            exact h.rep_group w0 w1 w2
          · rw [h.eliminated_iff]
            exact (h.t.repRng w0 w1 w2).resolve_left w3
        · intro e he
          obtain ⟨e0, e1⟩ := h.g.Kr e he
          exact ⟨⟨e0, e1⟩, h.t.repN e e0 e1 (h.g.KZ e he), fun h' => h.g.VK e h' he⟩
    · intro a ha b hb hab
      rw [mem_coe, mem_filter, mem_Ico] at ha hb
      omega
  exact_mod_cast hle

theorem AInv.groupsOk (h : AInv N iwlen V K Z E A L rep rk s) (hs : QSem N adj V K Z A L rep s.Pe.at C)
    {dense : Nat → Prop} (hz : ∀ u : Nat, u < N → (rep u = -1 ↔ dense u)) :
    GroupsOk N (fun u v => adj u v) dense s := by
  classical
  refine ⟨?_, ?_, ?_, ?_, ?_, ?_⟩
  · intro u hu
    rw [← hz u hu]
    constructor
    · rintro ⟨x, hx⟩
      obtain ⟨-, h1, h2⟩ := h.group_rep hx
      rw [h1]; exact h2
    · exact fun hr => ⟨_, h.rep_group (by omega) (by omega) hr⟩
  · intro u x y hx hy
    rw [← (h.group_rep hx).2.1, (h.group_rep hy).2.1]
  · intro x v hx
    obtain ⟨⟨x0, x1⟩, h1⟩ := h.aNv.rd_inv hx
    rw [← h1, h.nv x x0 x1]
    unfold cnt
    congr 1
    refine (card_bij (fun (u : Nat) _ => (u : Int)) ?_ (fun _ _ _ _ e => by exact_mod_cast e) ?_).symm
    · intro u hu
      rw [mem_filter, mem_range] at hu
      rw [mem_filter, mem_Ico]
      exact ⟨by omega, (h.group_rep hu.2).2.1⟩
    · intro z hz
      rw [mem_filter, mem_Ico] at hz
      refine ⟨z.toNat, ?_, by omega⟩
      rw [mem_filter, mem_range, Int.toNat_of_nonneg hz.1.1]
      exact ⟨by omega, (h.group_iff hz.1.1 hz.1.2 (by omega)).mpr hz.2⟩
  · intro x v hx hv
    obtain ⟨⟨x0, x1⟩, h1⟩ := h.aNv.rd_inv hx
    rw [h.waiting_iff, h.eliminated_iff]
    by_cases hV : x ∈ V
    · exact Or.inl hV
    · refine Or.inr ⟨⟨x0, x1⟩, hV, fun hZ => ?_⟩
      have := (h.nvZ x0 x1).1 hZ
      omega
  · intro x hx
    rw [h.waiting_iff] at hx
    obtain ⟨x0, x1⟩ := h.g.Vr x hx
    exact ⟨_, h.aD.rd x0 x1, le_trans (h.upper_le hs x hx) (h.ext x hx)⟩
  · intro hd x e hx he h2
    have hub := h.upper_ge hs
    have hup := h.upper_le hs
    rw [h.waiting_iff] at hx
    obtain ⟨x0, x1⟩ := h.g.Vr x hx
    have he' := (h.aE.rd_inv he).2
    rw [h.elen x hx] at he'
    have h3 := h.ub (fun z z0 z1 hz' => hd z.toNat (by omega) ((hz z.toNat (by omega)).mp (by
      rw [Int.toNat_of_nonneg z0]; exact hz'))) x hx (by omega)
    rw [h.aD.rd x0 x1]
    congr 1
    have h4 := h.ext x hx
    have h5 := hub x hx
    have h6 := hup x hx
    omega

/-! ## The main loop -/

open Classical in
/-- The eliminated groups that were not alone. -/
noncomputable def joined (N : Nat) (adj : Int → Int → Prop) (V Z : Finset Int) : Finset Int :=
  (Ico 0 (N : Int)).filter (fun x => Elim N V Z x ∧ ∃ w, adj x w)

theorem AInv.elems (h : AInv N iwlen V K Z E A L rep rk s) (hs : QSem N adj V K Z A L rep s.Pe.at C) {x e : Int}
    (hx : Waiting s x) (he : rd s.Elen x = .ok e) : e ≤ (joined N adj V Z).card := by
  rw [h.waiting_iff] at hx
  have he' := (h.aE.rd_inv he).2
  rw [h.elen x hx] at he'
  have hnd := (List.nodup_append.mp (h.g.nodup x hx)).1
  have : (E x).toFinset.card ≤ (joined N adj V Z).card := by
    refine card_le_card fun f hf => ?_
    obtain ⟨hfK, hfL⟩ := h.g.elt x hx f (List.mem_toFinset.mp hf)
    have hfr := h.g.Kr f hfK
    have hxr := h.g.Vr x hx
    unfold joined
    simp only [mem_filter, mem_Ico]
    refine ⟨hfr, ⟨hfr, fun h' => h.g.VK f h' hfK, h.g.KZ f hfK⟩, ?_⟩
    have hrx : rep x = x := h.t.repN x hxr.1 hxr.2 (h.g.VZ x hx)
    cases (hs.sndL f hfK x hxr.1 hxr.2 (hrx.symm ▸ hx) (hrx.symm ▸ hfL)).1 with
    | edge e => exact ⟨_, e⟩
    | step e _ _ => exact ⟨_, e⟩
  rw [List.toFinset_card_of_nodup hnd] at this
  omega

/-- The record of the main loop: `s` is the last state. -/
def LoopT (N : Nat) (iwlen : Int) (adj : Int → Int → Prop) (dense : Nat → Prop) (s0 : Amd2) (r : List Amd2 × Amd2) : Prop :=
  0 ≤ r.2.nel ∧ (∃ V K Z E A L rep rk C, AInv N iwlen V K Z E A L rep rk r.2 ∧
    QSem N adj V K Z A L rep r.2.Pe.at C ∧ (∀ u : Nat, u < N → (rep u = -1 ↔ dense u)) ∧
      (joined N adj V Z).card + 1 ≤ r.1.length) ∧
    r.1.head? = some s0 ∧ r.1.getLast? = some r.2 ∧ r.1.IsChain PivotStep ∧
    (∀ s ∈ r.1, GroupsOk N (fun u v => adj u v) dense s) ∧
    ∀ (i : Nat) s x e, r.1[i]? = some s → Waiting s x → rd s.Elen x = .ok e → e ≤ i

theorem loopT_spec {wbig : Int} {aggr : Bool} {dense : Nat → Prop} {s0 : Amd2}
    (hBig : 0 ≤ (N : Int) ∧ 0 ≤ iwlen ∧ 3 * (N + iwlen) + 10 ≤ Int_MAX)
    (hwb : wbig = Int_MAX - N) {r : List Amd2 × Amd2} (h : LoopT N iwlen adj dense s0 r) :
    Spec (whileM (N : Int).toNat (fun r : List Amd2 × Amd2 => pure (decide (r.2.nel < (N : Int)))) (amd2IterT aggr N iwlen wbig) r)
      (fun r' => LoopT N iwlen adj dense s0 r' ∧ r'.2.nel = N) := by
  refine whileM_spec (LoopT N iwlen adj dense s0) (fun r => ((N : Int) - r.2.nel).toNat) _ h
    (by have := h.1; omega) ?_
  rintro ⟨t, s⟩ h
  obtain ⟨h0, ⟨V, K, Z, E, A, L, rep, rk, C, hi, hs, hz, hj⟩, hh, hl, hc, hg, hel⟩ := id h
  refine Spec.pure ?_
  simp only at hi hs h0 hh hl hc hg hj hel ⊢
  have hle := hi.nelPos
  by_cases hlt : s.nel < N
  · simp only [hlt, decide_true, if_true]
    unfold amd2IterT amd2Iter
    rw [bind_assoc]
    refine Spec.bind (amd2IterF_spec hBig hwb hi hlt) ?_
    rintro ⟨degme, nvpiv, s'⟩ ⟨h1, V', K', Z', E', A', L', rep', rk', me, hi', hE, hme, hnv, hrep, hmin, hsem⟩
    obtain ⟨C', hs', -, -⟩ := hsem adj C hs
    simp only at h1 hi' hs' ⊢
    have hz' : ∀ u : Nat, u < N → (rep' u = -1 ↔ dense u) := fun u hu => by
      rw [hrep _ (Or.inl rfl), hz u hu]
    have hmr := hi.g.Vr me hme
    have hj' : (joined N adj V' Z').card ≤ (joined N adj V Z).card + 1 := by
      refine le_trans (card_le_card (t := insert me (joined N adj V Z)) fun x hx => ?_) (card_insert_le _ _)
      unfold joined at hx ⊢
      simp only [mem_insert, mem_filter] at hx ⊢
      rw [hE] at hx
      tauto
    refine Spec.pure ⟨⟨by simp only; omega, ⟨V', K', Z', E', A', L', rep', rk', C', hi', hs', hz', ?_⟩, ?_, ?_, ?_, ?_, ?_⟩,
      by simp only; omega⟩
    · simp only [List.length_append, List.length_singleton]
      omega
    · rw [List.head?_append, hh]; rfl
    · simp
    · rw [List.isChain_append]
      refine ⟨hc, List.isChain_singleton _, ?_⟩
      intro a ha b hb
      rw [hl] at ha
      cases ha
      cases hb
      refine ⟨me, _, hi.waiting_iff.mpr hme, hi'.eliminated_iff.mpr ((hE me).mpr (Or.inl rfl)),
        hi.aD.rd hmr.1 hmr.2, ?_, ?_⟩
      · intro y hy
        rw [hi.eliminated_iff] at hy
        exact hi'.eliminated_iff.mpr ((hE y).mpr (Or.inr hy))
      · intro y hy
        rw [hi.waiting_iff] at hy
        have hyr := hi.g.Vr y hy
        refine ⟨fun he => ?_, _, hi.aD.rd hyr.1 hyr.2, hmin y hy⟩
        rw [hi'.eliminated_iff, hE] at he
        exact he.resolve_right fun h' => h'.2.1 hy
    · intro a ha
      rcases List.mem_append.mp ha with ha | ha
      · exact hg a ha
      · rw [List.mem_singleton] at ha
        subst ha
        exact hi'.groupsOk hs' hz'
    · intro i a x e ha hx he
      rw [List.getElem?_append] at ha
      split at ha
      · exact hel i a x e ha hx he
      · rw [List.getElem?_singleton] at ha
        split at ha
        · next h2 h3 =>
          cases ha
          have := hi'.elems hs' hx he
          omega
        · cases ha
  · simp only [hlt, decide_false, Bool.false_eq_true, if_false]
    exact ⟨h, by omega⟩

theorem AMD_2T_spec {dense0 : Int} {aggr : Bool} {A : Int → List Int} {s : Amd2}
    (hBig : 0 ≤ iwlen ∧ 3 * (N + iwlen) + 10 ≤ Int_MAX)
    (h : GIn N iwlen A s) :
    Spec (AMD_2T N dense0 iwlen aggr s) (fun r =>
      MinDegreeRun N (fun u v => u < N ∧ (v : Int) ∈ A u) (fun u => (A u).length) (min N (max 16 dense0)) r.2) := by
  have hBig' : 0 ≤ (N : Int) ∧ 0 ≤ iwlen ∧ 3 * (N + iwlen) + 10 ≤ Int_MAX := ⟨by omega, hBig⟩
  unfold AMD_2T
  rw [ck_bind (by omega)]
  refine Spec.bind (amd2Init_spec (by omega) (by omega) h) ?_
  rintro s1 ⟨h1n, V, Z, h1, hV, hZ, hd⟩
  have hq : QSem N (fun u v => (0 ≤ u ∧ u < (N : Int)) ∧ v ∈ A u) V ∅ Z A (fun _ => []) (fun x => if x ∈ Z then -1 else x)
      s1.Pe.at (fun _ => ∅) := by
    have hin : ∀ u v, ((0 ≤ u ∧ u < (N : Int)) ∧ v ∈ A u) → u ∉ Z → u ∈ V := by
      intro u v huv hz
      rw [hV]
      refine ⟨huv.1, List.ne_nil_of_mem huv.2, ?_⟩
      by_contra hc
      exact hz ((hZ u).mpr ⟨huv.1, by omega⟩)
    refine ⟨by simp, ?_, ?_, by simp, by simp, ?_, by simp⟩
    · intro x hx
      obtain ⟨q1, q2, q3⟩ := (hV x).mp hx
      obtain ⟨v, hv⟩ := List.exists_mem_of_ne_nil _ q2
      exact ⟨v, q1, hv⟩
    · intro u v u0 u1 v0 v1 huv hu hv
      simp only [ne_eq] at hu hv ⊢
      have hu' : u ∉ Z := fun h' => hu (by simp [h'])
      have hv' : v ∉ Z := fun h' => hv (by simp [h'])
      refine Or.inr ?_
      simp only [hu', hv', if_false]
      exact ⟨hin u v huv hu', hin v u ⟨⟨v0, v1⟩, h.sym u u0 u1 v huv.2⟩ hv', Or.inl huv.2⟩
    · intro u v u0 u1 _ _ hu hv huv
      have key : ∀ x : Int, (if x ∈ Z then (-1 : Int) else x) ∈ V → (if x ∈ Z then (-1 : Int) else x) = x := by
        intro x hx
        split at hx
        · have := h1.g.Vr _ hx
          omega
        · next hz => simp [hz]
      rw [key u hu, key v hv] at huv
      exact .edge ⟨⟨u0, u1⟩, huv⟩
  have hz : ∀ u : Nat, u < N → ((if (u : Int) ∈ Z then -1 else (u : Int)) = -1 ↔
      min (N : Int) (max 16 dense0) < ((A u).length : Int)) := by
    intro u hu
    split
    · next h' => simp [((hZ _).mp h').2]
    · next h' =>
      rw [hZ] at h'
      constructor
      · intro h''; omega
      · intro h''
        exact absurd ⟨⟨by omega, by omega⟩, h''⟩ h'
  have hj : joined N (fun u v => (0 ≤ u ∧ u < (N : Int)) ∧ v ∈ A u) V Z = ∅ := by
    rw [eq_empty_iff_forall_notMem]
    intro x hx
    unfold joined at hx
    simp only [mem_filter, mem_Ico] at hx
    obtain ⟨hr, ⟨-, hxV, hxZ⟩, w, -, hw⟩ := hx
    rw [hV] at hxV
    rw [hZ] at hxZ
    exact hxV ⟨hr, List.ne_nil_of_mem hw, by
      by_contra hc
      exact hxZ ⟨hr, by omega⟩⟩
  have hl : LoopT N iwlen (fun u v => (0 ≤ u ∧ u < (N : Int)) ∧ v ∈ A u)
      (fun u => min (N : Int) (max 16 dense0) < ((A u).length : Int)) s1 ([s1], s1) :=
    ⟨h1n, ⟨V, ∅, Z, _, A, _, _, _, _, h1, hq, hz, by simp [hj]⟩, rfl, rfl, List.isChain_singleton _, by
      intro a ha
      rw [List.mem_singleton] at ha
      subst ha
      exact h1.groupsOk hq hz, by
      intro i a x e ha hx he
      rw [List.getElem?_singleton] at ha
      split at ha
      · cases ha
        have := h1.elems hq hx he
        rw [hj] at this
        simp at this
        omega
      · cases ha⟩
  refine Spec.bind (loopT_spec hBig' rfl hl) ?_
  rintro ⟨t, s2⟩ ⟨⟨_, ⟨V', K', Z', E', A', L', rep', rk', C', hi, hs, hz', -⟩, hh, hla, hc, hg, hel⟩, hnel⟩
  simp only at hi hs hnel hh hla hc hg hel ⊢
  refine Spec.bind (amd2Output_spec hBig' hi hnel) ?_
  rintro ⟨b1, b2⟩ -
  refine Spec.pure ⟨⟨s1, hh, ?_⟩, ?_, hc, ⟨s2, hla, ?_⟩, hel⟩
  · intro u hu
    refine ⟨?_, ?_, ?_⟩
    · rw [h1.waiting_iff, hV]
      have : A u ≠ [] ↔ 0 < (A u).length := by rw [List.length_pos_iff]
      rw [this]
      exact ⟨fun h' => h'.2, fun h' => ⟨by omega, h'⟩⟩
    · rw [h1.group_iff (by omega) (by omega) (by omega)]
      have := hz u hu
      constructor
      · intro e
        rw [e] at this
        by_contra hc'
        have := this.mpr (by omega)
        omega
      · intro e
        split
        · next h' =>
          rw [if_pos h'] at this
          have := this.mp rfl
          omega
        · rfl
    · rw [h1.aD.rd (by omega) (by omega), hd u (by omega) (by omega)]
  · intro a ha
    have := hg a ha
    have e : (fun u v : Nat => (0 ≤ (u : Int) ∧ (u : Int) < N) ∧ (v : Int) ∈ A u)
        = fun u v : Nat => u < N ∧ (v : Int) ∈ A u := by
      funext u v
      simp
    rwa [e] at this
  · intro x hx
    rw [hi.waiting_iff] at hx
    have h1 := hi.nel
    have hr := hi.g.Vr x hx
    have h2 := hi.t.cntP hr.1 hr.2 (hi.g.VZ x hx)
    have h3 : cnt N rep' x ≤ ∑ x ∈ V', cnt N rep' x := Finset.single_le_sum (fun _ _ => cnt_nonneg _) hx
    omega

end

/-! ## The record changes nothing -/

theorem AMD_2T_rel {n dense0 iwlen : Int} {aggr : Bool} {s : Amd2} :
    Rel (fun x y => y = x.1) (AMD_2T n dense0 iwlen aggr s) (AMD_2 n dense0 iwlen aggr s) := by
  unfold AMD_2T AMD_2
  refine Rel.same fun wbig => Rel.same fun s1 => ?_
  refine Rel.bind (R := fun x y => y = x.2) ?_ ?_
  · refine Rel.whileM rfl (fun s s' e => by rw [e]) ?_
    rintro ⟨t, s⟩ s' rfl
    unfold amd2IterT
    have : Rel (fun (x : List Amd2 × Amd2) y => y = x.2)
        (amd2Iter aggr n iwlen wbig s' >>= fun a => pure (t ++ [a], a)) (amd2Iter aggr n iwlen wbig s' >>= fun a => pure a) :=
      Rel.same fun a => Rel.pure rfl
    rwa [bind_pure] at this
  · rintro ⟨t, s2⟩ s2' rfl
    have : Rel (fun (x : (Buf Int × Buf Int) × List Amd2) y => y = x.1)
        (amd2Output n s2' >>= fun o => pure (o, t)) (amd2Output n s2' >>= fun o => pure o) :=
      Rel.same fun a => Rel.pure rfl
    rwa [bind_pure] at this

theorem AMD_1T_rel {n slen dense0 : Int} {aggr : Bool} {Ap Ai P Pinv Len S : Buf Int} :
    Rel (fun x y => y = x.1) (AMD_1T n Ap Ai P Pinv Len slen S dense0 aggr)
      (AMD_1 n Ap Ai P Pinv Len slen S dense0 aggr) := by
  unfold AMD_1T AMD_1
  refine Rel.same fun t => Rel.same fun iwlen => ?_
  refine Rel.same fun ⟨_, _⟩ => Rel.same fun ⟨_, _⟩ => Rel.same fun ⟨_, _⟩ => Rel.same fun ⟨_, _⟩ => ?_
  refine Rel.same fun ⟨_, _⟩ => Rel.same fun ⟨_, _⟩ => Rel.same fun ⟨_, _⟩ => Rel.same fun r => ?_
  exact AMD_2T_rel

theorem AMD_orderT_rel {mem : AmdMem} {dense0 : Int → Int} {aggr : Bool} {n : Int} {Ap Ai P : Buf Int} :
    Rel (fun x y => y = x.1) (AMD_orderT mem dense0 aggr n Ap Ai P) (AMD_order mem dense0 aggr n Ap Ai P) := by
  unfold AMD_orderT AMD_order
  refine Rel.ite (Rel.pure rfl) (Rel.ite (Rel.pure rfl) ?_)
  refine Rel.same fun nz => Rel.ite (Rel.pure rfl) (Rel.ite (Rel.pure rfl) ?_)
  refine Rel.same fun status => Rel.ite (Rel.pure rfl) ?_
  refine Rel.same fun Len => Rel.same fun Pinv => Rel.ite (Rel.pure rfl) (Rel.ite (Rel.pure rfl) ?_)
  refine Rel.same fun c => Rel.same fun t => Rel.same fun r => Rel.ite ?_ (Rel.pure rfl)
  refine Rel.same fun S => Rel.bind AMD_1T_rel ?_
  rintro o o' rfl
  exact Rel.pure rfl

/-- The ordering routine returns the same with and without the record. -/
theorem AMD_orderT_eq {mem : AmdMem} {dense0 : Int → Int} {aggr : Bool} {n : Int} {Ap Ai P : Buf Int}
    {x : (Int × Buf Int) × Option (List Amd2)} (h : AMD_orderT mem dense0 aggr n Ap Ai P = .ok x) :
    AMD_order mem dense0 aggr n Ap Ai P = .ok x.1 := by
  obtain ⟨y, h1, rfl⟩ := AMD_orderT_rel _ h
  exact h1

end Verif
