import Mathlib.Logic.Relation
import Mathlib.Tactic.Tauto
import Verif.Lemmas.AmdTree
import Verif.SpecOrder

/-!
# What the quotient graph of `AMD_2` represents

`adj` is the graph that is ordered. For every eliminated element `g` the set `C g` contains the nodes
of its front that are eliminated later.
-/

namespace Verif

open Finset

/-- `x` is an eliminated element. -/
def Elim (n : Int) (V Z : Finset Int) (x : Int) : Prop := (0 ≤ x ∧ x < n) ∧ x ∉ V ∧ x ∉ Z

/-- `y` is the parent of the absorbed element `x`. -/
def PLink (n : Int) (V K Z : Finset Int) (pe : Int → Int) (x y : Int) : Prop :=
  Elim n V Z x ∧ x ∉ K ∧ pe x = FLIP y ∧ y ≠ -1

/-- `y` is `x` or an ancestor of it. -/
abbrev Up (n : Int) (V K Z : Finset Int) (pe : Int → Int) : Int → Int → Prop :=
  Relation.ReflTransGen (PLink n V K Z pe)

/-- `u` and `v` are in the same group or one is in the front of the group of the other. -/
def Cov (V : Finset Int) (rep : Int → Int) (C : Int → Finset Int) (u v : Int) : Prop :=
  rep u = rep v ∨ (rep u ∉ V ∧ v ∈ C (rep u)) ∨ (rep v ∉ V ∧ u ∈ C (rep v))

/-- Two live variables are neighbours in the quotient graph. -/
def QAdj (K : Finset Int) (A L : Int → List Int) (a b : Int) : Prop :=
  b ∈ A a ∨ ∃ e ∈ K, a ∈ L e ∧ b ∈ L e

theorem ReachThru.mono {α : Type} {adj : α → α → Prop} {S S' : α → Prop} (h : ∀ w, S w → S' w) {u v : α}
    (hr : ReachThru adj S u v) : ReachThru adj S' u v := by
  induction hr with
  | edge e => exact .edge e
  | step e hw _ ih => exact .step e (h _ hw) ih

theorem ReachThru.trans {α : Type} {adj : α → α → Prop} {S : α → Prop} {u w v : α}
    (h1 : ReachThru adj S u w) (hw : S w) (h2 : ReachThru adj S w v) : ReachThru adj S u v := by
  induction h1 with
  | edge e => exact .step e hw h2
  | step e h' _ ih => exact .step e h' (ih hw h2)

/-- Node `w` is in the group of an eliminated element. -/
def InElim (n : Int) (V : Finset Int) (rep : Int → Int) (w : Int) : Prop :=
  (0 ≤ w ∧ w < n) ∧ rep w ≠ -1 ∧ rep w ∉ V

structure QSem (n : Int) (adj : Int → Int → Prop) (V K Z : Finset Int) (A L : Int → List Int)
    (rep pe : Int → Int) (C : Int → Finset Int) : Prop where
  dom : ∀ g, Elim n V Z g → ∀ v ∈ C g, (0 ≤ v ∧ v < n) ∧ rep v ≠ -1 ∧ rep v ≠ g
  nis : ∀ x ∈ V, ∃ v, adj x v
  edge : ∀ u v, 0 ≤ u → u < n → 0 ≤ v → v < n → adj u v → rep u ≠ -1 → rep v ≠ -1 →
    Cov V rep C u v ∨ (rep u ∈ V ∧ rep v ∈ V ∧ QAdj K A L (rep u) (rep v))
  fill : ∀ g, Elim n V Z g → ∀ v ∈ C g, ∀ w ∈ C g, Cov V rep C v w ∨ (rep v ∈ V ∧ rep w ∈ V)
  up : ∀ g, Elim n V Z g → ∀ v ∈ C g,
    (rep v ∈ V → ∃ e ∈ K, Up n V K Z pe g e ∧ rep v ∈ L e) ∧
    (rep v ∉ V → Up n V K Z pe g (rep v))
  sndA : ∀ u v, 0 ≤ u → u < n → 0 ≤ v → v < n → rep u ∈ V → rep v ∈ V → rep v ∈ A (rep u) →
    ReachThru adj (InElim n V rep) u v
  sndL : ∀ e ∈ K, ∀ v, 0 ≤ v → v < n → rep v ∈ V → rep v ∈ L e →
    ReachThru adj (InElim n V rep) e v ∧ ReachThru adj (InElim n V rep) v e

variable {n : Int} {adj : Int → Int → Prop} {V K Z : Finset Int} {E A L : Int → List Int}
  {rep : Int → Int} {rk : Int → Nat} {pe el : Int → Int} {C : Int → Finset Int}

theorem Cov.symm {u v : Int} (h : Cov V rep C u v) : Cov V rep C v u := by
  unfold Cov at *
  rcases h with h | h | h
  · exact Or.inl h.symm
  · exact Or.inr (Or.inr h)
  · exact Or.inr (Or.inl h)

theorem FLIP_inj {x y : Int} (h : FLIP x = FLIP y) : x = y := by unfold FLIP at h; omega

theorem Up.mono {V1 K1 Z1 : Finset Int} {pe1 : Int → Int}
    (h : ∀ x, Elim n V Z x → x ∉ K → (Elim n V1 Z1 x ∧ x ∉ K1) ∧ pe1 x = pe x) {x y : Int}
    (hu : Up n V K Z pe x y) : Up n V1 K1 Z1 pe1 x y := by
  induction hu with
  | refl => exact Relation.ReflTransGen.refl
  | tail _ hab ih =>
    obtain ⟨h1, h2, h3, h4⟩ := hab
    obtain ⟨⟨q1, q2⟩, q3⟩ := h _ h1 h2
    exact ih.tail ⟨q1, q2, q3.trans h3, h4⟩

/-- Two live elements above `x` are equal. -/
theorem Up.unique {x e f : Int} (he : e ∈ K) (hf : f ∈ K) (h1 : Up n V K Z pe x e) (h2 : Up n V K Z pe x f) :
    e = f := by
  induction h1 using Relation.ReflTransGen.head_induction_on with
  | refl =>
    rcases Relation.ReflTransGen.cases_head h2 with h | ⟨y, hy, _⟩
    · exact h
    · exact absurd he hy.2.1
  | head hab _ ih =>
    rcases Relation.ReflTransGen.cases_head h2 with h | ⟨y, hy, hy'⟩
    · exact absurd (h ▸ hf) hab.2.1
    · have := FLIP_inj (hab.2.2.1.symm.trans hy.2.2.1)
      subst this
      exact ih hy'

/-- Where the members of a group are. -/
theorem TInv.repRng (h : TInv n V K Z rep rk pe el) {z : Int} (z0 : 0 ≤ z) (z1 : z < n) (hz : rep z ≠ -1) :
    rep z ∈ V ∨ Elim n V Z (rep z) := by
  have : (0 ≤ rep z ∧ rep z < n) ∧ rep z ∉ Z := by
    by_cases hZ : z ∈ Z
    · have := (h.repZ z hZ).resolve_left hz
      exact ⟨⟨this.1, this.2.1⟩, this.2.2⟩
    · rw [h.repN z z0 z1 hZ]
      exact ⟨⟨z0, z1⟩, hZ⟩
  by_cases hV : rep z ∈ V
  · exact Or.inl hV
  · exact Or.inr ⟨this.1, hV, this.2⟩

/-- The pivot `me` becomes an element with the list `M`; the elements of `me` and those of `Y` are
absorbed, the variables `X` are eliminated with it. -/
theorem QSem.elim (h : QSem n adj V K Z A L rep pe C) (g : GInv n V K Z E A L)
    (hN : ∀ x, 0 ≤ x → x < n → x ∉ Z → rep x = x)
    {me : Int} (hme : me ∈ V) {M : List Int}
    (hM : ∀ i, i ∈ M ↔ (i ∈ V ∧ i ≠ me) ∧ (i ∈ A me ∨ ∃ e ∈ E me, i ∈ L e))
    {X Y : Finset Int} (hX : ∀ i ∈ X, i ∈ M)
    (hY : ∀ e ∈ Y, e ∈ K ∧ e ∉ E me ∧ ∀ i ∈ V, i ∈ L e → i ∈ M)
    (hXE : ∀ i ∈ X, ∀ e ∈ E i, e ∈ E me ∨ e ∈ Y)
    (hXA : ∀ i ∈ X, ∀ j ∈ A i, j ∈ V → j = me ∨ j ∈ M)
    {A1 : Int → List Int} (hA0 : ∀ i, i ∉ M → A1 i = A i)
    (hA1 : ∀ i ∈ M, ∀ j, j ∈ A1 i ↔ j ∈ A i ∧ j ∈ V ∧ j ≠ me ∧ j ∉ M)
    {V1 K1 Z1 : Finset Int} {L1 : Int → List Int}
    (hV1 : ∀ x, x ∈ V1 ↔ x ∈ V ∧ x ≠ me ∧ x ∉ X)
    (hK1 : ∀ x, x ∈ K1 ↔ x = me ∨ (x ∈ K ∧ x ∉ E me ∧ x ∉ Y))
    (hZ1 : ∀ x, x ∈ Z1 ↔ x ∈ Z ∨ x ∈ X)
    (hL1 : ∀ x, L1 x = if x = me then M else L x) {pe1 : Int → Int}
    (hp1 : ∀ x, x ∈ Y ∨ x ∈ E me → pe1 x = FLIP me)
    (hp2 : ∀ x, 0 ≤ x → x < n → x ∉ V → x ∉ K → pe1 x = pe x)
    {C1 : Int → Finset Int}
    (hC0 : ∀ x, x ≠ me → C1 x = C x)
    (hC1 : ∀ z, z ∈ C1 me ↔ (0 ≤ z ∧ z < n) ∧ rep z ∈ M ∧ rep z ∉ X) :
    QSem n adj V1 K1 Z1 A1 L1 (mrg rep X me) pe1 C1 := by
  have hMV : ∀ i ∈ M, i ∈ V ∧ i ≠ me := fun i hi => ((hM i).mp hi).1
  have hXV : ∀ x ∈ X, x ∈ V ∧ x ≠ me := fun x hx => hMV x (hX x hx)
  have hmX : me ∉ X := fun h' => (hXV me h').2 rfl
  have hmK : me ∉ K := g.VK me hme
  have hmV1 : me ∉ V1 := fun h' => ((hV1 me).mp h').2.1 rfl
  have hmr := g.Vr me hme
  -- the members of the new group, and the others
  have hgo : ∀ z, rep z = me ∨ rep z ∈ X → mrg rep X me z = me := by
    intro z hz
    unfold mrg
    split
    · rfl
    · exact hz.resolve_right (by assumption)
  have hst : ∀ z, ¬ (rep z = me ∨ rep z ∈ X) → mrg rep X me z = rep z := by
    intro z hz
    unfold mrg
    rw [if_neg (fun h' => hz (Or.inr h'))]
  have hstV : ∀ z, rep z ∈ V → ¬ (rep z = me ∨ rep z ∈ X) → rep z ∈ V1 := by
    intro z hz h'
    rw [hV1]; tauto
  have hnV : ∀ z, rep z ∉ V → ¬ (rep z = me ∨ rep z ∈ X) := by
    rintro z hz (h' | h')
    · exact hz (h' ▸ hme)
    · exact hz (hXV _ h').1
  have hnV1 : ∀ x, x ∉ V → x ∉ V1 := fun x hx h' => hx ((hV1 x).mp h').1
  have hel : ∀ x, Elim n V1 Z1 x ↔ x = me ∨ Elim n V Z x := by
    intro x
    unfold Elim
    rw [hV1, hZ1]
    constructor
    · rintro ⟨r, q1, q2⟩
      by_cases hx : x = me
      · exact Or.inl hx
      · exact Or.inr ⟨r, by tauto, by tauto⟩
    · rintro (rfl | ⟨r, q1, q2⟩)
      · exact ⟨hmr, by tauto, fun h' => h'.elim (g.VZ x hme) hmX⟩
      · exact ⟨r, by tauto, fun h' => h'.elim q2 fun h'' => q1 (hXV x h'').1⟩
  have helm : ∀ x, Elim n V Z x → x ≠ me := fun x hx e => hx.2.1 (e ▸ hme)
  -- a neighbour of a member of the new group is in the new front
  have habs : ∀ a, a = me ∨ a ∈ X → ∀ e ∈ K, a ∈ L e → e ∈ E me ∨ e ∈ Y := by
    rintro a (rfl | ha) e he hae
    · exact Or.inl (g.le e he a hme hae)
    · exact hXE a ha e (g.le e he a (hXV a ha).1 hae)
  have hcov : ∀ e, e ∈ E me ∨ e ∈ Y → ∀ b ∈ V, b ≠ me → b ∈ L e → b ∈ M := by
    rintro e (he | he) b hb hbm hbe
    · exact (hM b).mpr ⟨⟨hb, hbm⟩, Or.inr ⟨e, he, hbe⟩⟩
    · exact (hY e he).2.2 b hb hbe
  have hkey : ∀ a, a = me ∨ a ∈ X → ∀ b ∈ V, b ≠ me → QAdj K A L a b → b ∈ M := by
    rintro a ha b hb hbm (hab | ⟨e, he, hae, hbe⟩)
    · rcases ha with rfl | ha
      · exact (hM b).mpr ⟨⟨hb, hbm⟩, Or.inl hab⟩
      · exact (hXA a ha b hab hb).resolve_left hbm
    · exact hcov e (habs a ha e he hae) b hb hbm hbe
  have hsymQ : ∀ a ∈ V, ∀ b ∈ V, QAdj K A L a b → QAdj K A L b a := by
    rintro a ha b hb (h' | ⟨e, he, h1, h2⟩)
    · exact Or.inl (g.sym a ha b hb h')
    · exact Or.inr ⟨e, he, h2, h1⟩
  have hCm : ∀ u v, Cov V rep C u v → Cov V1 (mrg rep X me) C1 u v := by
    have key : ∀ u v, rep u ∉ V → v ∈ C (rep u) → mrg rep X me u ∉ V1 ∧ v ∈ C1 (mrg rep X me u) := by
      intro u v h1 h2
      have h3 := hnV u h1
      rw [hst u h3, hC0 (rep u) (fun e => h1 (e ▸ hme))]
      exact ⟨hnV1 _ h1, h2⟩
    rintro u v (e | ⟨h1, h2⟩ | ⟨h1, h2⟩)
    · left
      unfold mrg
      rw [e]
    · exact Or.inr (Or.inl (key u v h1 h2))
    · exact Or.inr (Or.inr (key v u h1 h2))
  -- a member of the new group and a live neighbour
  have hnew : ∀ u v, 0 ≤ v → v < n → (rep u = me ∨ rep u ∈ X) → rep v ∈ M → ¬ (rep v = me ∨ rep v ∈ X) →
      Cov V1 (mrg rep X me) C1 u v := by
    intro u v v0 v1 hu hv hv'
    refine Or.inr (Or.inl ?_)
    rw [hgo u hu]
    exact ⟨hmV1, (hC1 v).mpr ⟨⟨v0, v1⟩, hv, fun h' => hv' (Or.inr h')⟩⟩
  have hUp : ∀ x y, Up n V K Z pe x y → Up n V1 K1 Z1 pe1 x y := by
    intro x y hu
    refine Up.mono ?_ hu
    intro a h1 h2
    refine ⟨⟨(hel a).mpr (Or.inr h1), ?_⟩, hp2 a h1.1.1 h1.1.2 h1.2.1 h2⟩
    rw [hK1]
    have := helm a h1
    tauto
  have hIn : ∀ w, InElim n V rep w → InElim n V1 (mrg rep X me) w := by
    rintro w ⟨q1, q2, q3⟩
    have := hnV w q3
    unfold InElim
    rw [hst w this]
    exact ⟨q1, q2, hnV1 _ q3⟩
  have hold : ∀ z, mrg rep X me z ∈ V1 → rep z ∈ V ∧ mrg rep X me z = rep z := by
    intro z hz
    by_cases hz' : rep z = me ∨ rep z ∈ X
    · rw [hgo z hz'] at hz
      exact absurd hz hmV1
    · rw [hst z hz'] at hz
      exact ⟨((hV1 _).mp hz).1, hst z hz'⟩
  have hrm : rep me = me := hN me hmr.1 hmr.2 (g.VZ me hme)
  refine ⟨?_, ?_, ?_, ?_, ?_, ?_, ?_⟩
  · intro x hx v hv
    by_cases hxm : x = me
    · subst hxm
      obtain ⟨r, q1, q2⟩ := (hC1 v).mp hv
      have hvV := hMV _ q1
      have hgo' : ¬ (rep v = x ∨ rep v ∈ X) := by tauto
      rw [hst v hgo']
      refine ⟨r, fun e => ?_, hvV.2⟩
      have := (g.Vr _ hvV.1).1
      omega
    · have hx' := ((hel x).mp hx).resolve_left hxm
      rw [hC0 x hxm] at hv
      obtain ⟨r, q1, q2⟩ := h.dom x hx' v hv
      refine ⟨r, ?_, ?_⟩
      · unfold mrg
        split
        · omega
        · exact q1
      · unfold mrg
        split
        · exact fun e => hxm e.symm
        · exact q2
  · exact fun x hx => h.nis x ((hV1 x).mp hx).1
  · intro u v u0 u1 v0 v1 hadj hu hv
    have hu' : rep u ≠ -1 := by
      intro e
      unfold mrg at hu
      rw [e] at hu
      split at hu
      · next h' =>
        have := (g.Vr _ (hXV _ h').1).1
        omega
      · exact hu rfl
    have hv' : rep v ≠ -1 := by
      intro e
      unfold mrg at hv
      rw [e] at hv
      split at hv
      · next h' =>
        have := (g.Vr _ (hXV _ h').1).1
        omega
      · exact hv rfl
    rcases h.edge u v u0 u1 v0 v1 hadj hu' hv' with hc | ⟨h1, h2, h3⟩
    · exact Or.inl (hCm u v hc)
    · by_cases pu : rep u = me ∨ rep u ∈ X
      · left
        by_cases pv : rep v = me ∨ rep v ∈ X
        · exact Or.inl ((hgo u pu).trans (hgo v pv).symm)
        · exact hnew u v v0 v1 pu (hkey _ pu _ h2 (fun e => pv (Or.inl e)) h3) pv
      · by_cases pv : rep v = me ∨ rep v ∈ X
        · left
          exact (hnew v u u0 u1 pv (hkey _ pv _ h1 (fun e => pu (Or.inl e)) (hsymQ _ h1 _ h2 h3)) pu).symm
        · right
          rw [hst u pu, hst v pv]
          refine ⟨hstV u h1 pu, hstV v h2 pv, ?_⟩
          have hboth : rep u ∈ M → rep v ∈ M → QAdj K1 A1 L1 (rep u) (rep v) := by
            intro m1 m2
            refine Or.inr ⟨me, (hK1 me).mpr (Or.inl rfl), ?_⟩
            rw [hL1, if_pos rfl]
            exact ⟨m1, m2⟩
          rcases h3 with h3 | ⟨e, he, h3, h4⟩
          · by_cases m1 : rep u ∈ M
            · by_cases m2 : rep v ∈ M
              · exact hboth m1 m2
              · exact Or.inl ((hA1 _ m1 _).mpr ⟨h3, h2, fun e => pv (Or.inl e), m2⟩)
            · left
              rw [hA0 _ m1]; exact h3
          · by_cases hab : e ∈ E me ∨ e ∈ Y
            · exact hboth (hcov e hab _ h1 (fun e => pu (Or.inl e)) h3)
                (hcov e hab _ h2 (fun e => pv (Or.inl e)) h4)
            · have hem : e ≠ me := fun e' => hmK (e' ▸ he)
              refine Or.inr ⟨e, (hK1 e).mpr (Or.inr ⟨he, by tauto, by tauto⟩), ?_⟩
              rw [hL1, if_neg hem]
              exact ⟨h3, h4⟩
  · intro x hx v hv w hw
    by_cases hxm : x = me
    · subst hxm
      right
      have key : ∀ v ∈ C1 x, mrg rep X x v ∈ V1 := by
        intro v hv
        obtain ⟨r, q1, q2⟩ := (hC1 v).mp hv
        have hvV := hMV _ q1
        have hgo' : ¬ (rep v = x ∨ rep v ∈ X) := by tauto
        rw [hst v hgo']
        exact hstV v hvV.1 hgo'
      exact ⟨key v hv, key w hw⟩
    · have hx' := ((hel x).mp hx).resolve_left hxm
      rw [hC0 x hxm] at hv hw
      rcases h.fill x hx' v hv w hw with hc | ⟨h1, h2⟩
      · exact Or.inl (hCm v w hc)
      · obtain ⟨e, he, hue, hve⟩ := (h.up x hx' v hv).1 h1
        obtain ⟨f, hf, huf, hwf⟩ := (h.up x hx' w hw).1 h2
        have := Up.unique he hf hue huf
        subst this
        have hq : QAdj K A L (rep v) (rep w) := Or.inr ⟨e, he, hve, hwf⟩
        obtain ⟨v0, v1⟩ := (h.dom x hx' v hv).1
        obtain ⟨w0, w1⟩ := (h.dom x hx' w hw).1
        by_cases pu : rep v = me ∨ rep v ∈ X
        · left
          by_cases pv : rep w = me ∨ rep w ∈ X
          · exact Or.inl ((hgo v pu).trans (hgo w pv).symm)
          · exact hnew v w w0 w1 pu (hkey _ pu _ h2 (fun e => pv (Or.inl e)) hq) pv
        · by_cases pv : rep w = me ∨ rep w ∈ X
          · left
            exact (hnew w v v0 v1 pv (hkey _ pv _ h1 (fun e => pu (Or.inl e)) (hsymQ _ h1 _ h2 hq)) pu).symm
          · right
            rw [hst v pu, hst w pv]
            exact ⟨hstV v h1 pu, hstV w h2 pv⟩
  · intro x hx v hv
    by_cases hxm : x = me
    · subst hxm
      obtain ⟨r, q1, q2⟩ := (hC1 v).mp hv
      have hvV := hMV _ q1
      have hgo' : ¬ (rep v = x ∨ rep v ∈ X) := by tauto
      rw [hst v hgo']
      refine ⟨fun _ => ⟨x, (hK1 x).mpr (Or.inl rfl), Relation.ReflTransGen.refl, ?_⟩,
        fun h' => absurd (hstV v hvV.1 hgo') h'⟩
      rw [hL1, if_pos rfl]; exact q1
    · have hx' := ((hel x).mp hx).resolve_left hxm
      rw [hC0 x hxm] at hv
      obtain ⟨q1, q2⟩ := h.up x hx' v hv
      by_cases hvV : rep v ∈ V
      · obtain ⟨e, he, hue, hve⟩ := q1 hvV
        have hem : e ≠ me := fun e' => hmK (e' ▸ he)
        by_cases hab : e ∈ E me ∨ e ∈ Y
        · have hup : Up n V1 K1 Z1 pe1 x me := by
            refine (hUp x e hue).tail ⟨(hel e).mpr (Or.inr ⟨g.Kr e he, fun h' => g.VK e h' he, g.KZ e he⟩), ?_,
              hp1 e hab.symm, by omega⟩
            rw [hK1]
            tauto
          by_cases pv : rep v = me ∨ rep v ∈ X
          · rw [hgo v pv]
            exact ⟨fun h' => absurd h' hmV1, fun _ => hup⟩
          · rw [hst v pv]
            refine ⟨fun _ => ⟨me, (hK1 me).mpr (Or.inl rfl), hup, ?_⟩, fun h' => absurd (hstV v hvV pv) h'⟩
            rw [hL1, if_pos rfl]
            exact hcov e hab _ hvV (fun e => pv (Or.inl e)) hve
        · have pv : ¬ (rep v = me ∨ rep v ∈ X) := fun h' => hab (habs _ h' e he hve)
          rw [hst v pv]
          refine ⟨fun _ => ⟨e, (hK1 e).mpr (Or.inr ⟨he, by tauto, by tauto⟩), hUp x e hue, ?_⟩,
            fun h' => absurd (hstV v hvV pv) h'⟩
          rw [hL1, if_neg hem]; exact hve
      · rw [hst v (hnV v hvV)]
        exact ⟨fun h' => absurd h' (hnV1 _ hvV), fun _ => hUp x _ (q2 hvV)⟩
  · intro u v u0 u1 v0 v1 hu hv huv
    obtain ⟨q1, q2⟩ := hold u hu
    obtain ⟨q3, q4⟩ := hold v hv
    rw [q2, q4] at huv
    refine (h.sndA u v u0 u1 v0 v1 q1 q3 ?_).mono hIn
    by_cases hM' : rep u ∈ M
    · exact ((hA1 _ hM' _).mp huv).1
    · rwa [hA0 _ hM'] at huv
  · intro e he v v0 v1 hv hve
    obtain ⟨q3, q4⟩ := hold v hv
    rw [q4, hL1] at hve
    by_cases hem : e = me
    · subst hem
      rw [if_pos rfl] at hve
      rcases ((hM _).mp hve).2 with h' | ⟨f, hf, h'⟩
      · refine ⟨(h.sndA e v hmr.1 hmr.2 v0 v1 (hrm.symm ▸ hme) q3 (hrm.symm ▸ h')).mono hIn,
          (h.sndA v e v0 v1 hmr.1 hmr.2 q3 (hrm.symm ▸ hme) ?_).mono hIn⟩
        rw [hrm]
        exact g.sym e hme _ q3 h'
      · obtain ⟨hfK, hfL⟩ := g.elt e hme f hf
        have hfr := g.Kr f hfK
        have hrf : rep f = f := hN f hfr.1 hfr.2 (g.KZ f hfK)
        have hfE : InElim n V rep f := ⟨hfr, by omega, by rw [hrf]; exact fun h'' => g.VK f h'' hfK⟩
        have r1 := h.sndL f hfK e hmr.1 hmr.2 (hrm.symm ▸ hme) (hrm.symm ▸ hfL)
        have r2 := h.sndL f hfK v v0 v1 q3 h'
        exact ⟨(r1.2.trans hfE r2.1).mono hIn, (r2.2.trans hfE r1.1).mono hIn⟩
    · rw [if_neg hem] at hve
      have := h.sndL e (((hK1 e).mp he).resolve_left hem).1 v v0 v1 q3 hve
      exact ⟨this.1.mono hIn, this.2.mono hIn⟩

/-- The variable `j` is merged into `i`: the two have the same elements and the same neighbours. -/
theorem QSem.merge (h : QSem n adj V K Z A L rep pe C) (g : GInv n V K Z E A L) {i j : Int} (hi : i ∈ V)
    (hj : j ∈ V) (hij : i ≠ j) (hL : ∀ e ∈ K, (i ∈ L e ↔ j ∈ L e)) (hA : ∀ x ∈ V, (x ∈ A i ↔ x ∈ A j))
    {V1 Z1 : Finset Int} (hV1 : ∀ x, x ∈ V1 ↔ x ∈ V ∧ x ≠ j) (hZ1 : ∀ x, x ∈ Z1 ↔ x ∈ Z ∨ x = j)
    {pe1 : Int → Int} (hp : ∀ x, x ∉ V → pe1 x = pe x) :
    QSem n adj V1 K Z1 A L (mrg rep {j} i) pe1 C := by
  have hr : ∀ z, mrg rep {j} i z = if rep z = j then i else rep z := by
    intro z; unfold mrg; simp
  have hst : ∀ z, rep z ≠ j → mrg rep {j} i z = rep z := fun z hz => by rw [hr, if_neg hz]
  have hi1 : i ∈ V1 := (hV1 i).mpr ⟨hi, hij⟩
  have hV : ∀ z, mrg rep {j} i z ∈ V1 ↔ rep z ∈ V := by
    intro z
    rw [hr]
    split
    · next e => rw [e]; exact ⟨fun _ => hj, fun _ => hi1⟩
    · next e => rw [hV1]; tauto
  have hnV : ∀ z, rep z ∉ V → mrg rep {j} i z = rep z := fun z hz => hst z fun e => hz (e ▸ hj)
  have hel : ∀ x, Elim n V1 Z1 x ↔ Elim n V Z x := by
    intro x
    unfold Elim
    rw [hV1, hZ1]
    by_cases hx : x = j
    · subst hx; tauto
    · tauto
  have hUp : ∀ x y, Up n V K Z pe x y → Up n V1 K Z1 pe1 x y := by
    intro x y hu
    refine Up.mono ?_ hu
    intro a h1 h2
    exact ⟨⟨(hel a).mpr h1, h2⟩, hp a h1.2.1⟩
  have hCm : ∀ u v, Cov V rep C u v → Cov V1 (mrg rep {j} i) C u v := by
    have key : ∀ u v, rep u ∉ V → v ∈ C (rep u) → mrg rep {j} i u ∉ V1 ∧ v ∈ C (mrg rep {j} i u) := by
      intro u v h1 h2
      rw [hV, hnV u h1]
      exact ⟨h1, h2⟩
    rintro u v (e | ⟨h1, h2⟩ | ⟨h1, h2⟩)
    · left
      rw [hr, hr, e]
    · exact Or.inr (Or.inl (key u v h1 h2))
    · exact Or.inr (Or.inr (key v u h1 h2))
  have hLm : ∀ e ∈ K, ∀ z, (mrg rep {j} i z ∈ L e ↔ rep z ∈ L e) := by
    intro e he z
    rw [hr]
    split
    · next q => rw [q]; exact hL e he
    · rfl
  have hIn : ∀ w, InElim n V rep w → InElim n V1 (mrg rep {j} i) w := by
    rintro w ⟨q1, q2, q3⟩
    unfold InElim
    rw [hV, hnV w q3]
    exact ⟨q1, q2, q3⟩
  refine ⟨?_, fun x hx => h.nis x ((hV1 x).mp hx).1, ?_, ?_, ?_, ?_, ?_⟩
  · intro x hx v hv
    have hx' := (hel x).mp hx
    obtain ⟨r, q1, q2⟩ := h.dom x hx' v hv
    refine ⟨r, ?_, ?_⟩
    · rw [hr]
      split
      · have := (g.Vr i hi).1
        omega
      · exact q1
    · rw [hr]
      split
      · exact fun e => hx'.2.1 (e ▸ hi)
      · exact q2
  · intro u v u0 u1 v0 v1 hadj hu hv
    have hne : ∀ z, mrg rep {j} i z ≠ -1 → rep z ≠ -1 := by
      intro z hz e
      have : rep z ≠ j := fun e' => by
        have := (g.Vr j hj).1
        omega
      rw [hst z this] at hz
      exact hz e
    rcases h.edge u v u0 u1 v0 v1 hadj (hne u hu) (hne v hv) with hc | ⟨h1, h2, h3⟩
    · exact Or.inl (hCm u v hc)
    · right
      refine ⟨(hV u).mpr h1, (hV v).mpr h2, ?_⟩
      rcases h3 with h3 | ⟨e, he, h3, h4⟩
      · left
        have s1 : rep v ∈ A (mrg rep {j} i u) := by
          rw [hr]
          split
          · next e =>
            rw [e] at h3
            exact (hA _ h2).mpr h3
          · exact h3
        have hu1 : mrg rep {j} i u ∈ V := ((hV1 _).mp ((hV u).mpr h1)).1
        rw [hr v]
        split
        · next e =>
          rw [e] at s1
          exact g.sym i hi _ hu1 ((hA _ hu1).mpr (g.sym _ hu1 j hj s1))
        · exact s1
      · exact Or.inr ⟨e, he, (hLm e he u).mpr h3, (hLm e he v).mpr h4⟩
  · intro x hx v hv w hw
    rcases h.fill x ((hel x).mp hx) v hv w hw with hc | ⟨h1, h2⟩
    · exact Or.inl (hCm v w hc)
    · exact Or.inr ⟨(hV v).mpr h1, (hV w).mpr h2⟩
  · intro x hx v hv
    obtain ⟨q1, q2⟩ := h.up x ((hel x).mp hx) v hv
    refine ⟨fun h' => ?_, fun h' => ?_⟩
    · obtain ⟨e, he, hue, hve⟩ := q1 ((hV v).mp h')
      exact ⟨e, he, hUp x e hue, (hLm e he v).mpr hve⟩
    · rw [hV] at h'
      rw [hnV v h']
      exact hUp x _ (q2 h')
  · intro u v u0 u1 v0 v1 hu hv huv
    have hu' := (hV u).mp hu
    have hv' := (hV v).mp hv
    have hu1 : mrg rep {j} i u ∈ V := ((hV1 _).mp hu).1
    refine (h.sndA u v u0 u1 v0 v1 hu' hv' ?_).mono hIn
    have s1 : rep v ∈ A (mrg rep {j} i u) := by
      rw [hr v] at huv
      split at huv
      · next e =>
        rw [e]
        exact g.sym j hj _ hu1 ((hA _ hu1).mp (g.sym _ hu1 i hi huv))
      · exact huv
    rw [hr] at s1
    split at s1
    · next e =>
      rw [e]
      exact (hA _ hv').mp s1
    · exact s1
  · intro e he v v0 v1 hv hve
    have := h.sndL e he v v0 v1 ((hV v).mp hv) ((hLm e he v).mp hve)
    exact ⟨this.1.mono hIn, this.2.mono hIn⟩

/-- The list of `me` loses its merged variables, and `me` dies when none is left. -/
theorem QSem.shrink (h : QSem n adj V K Z A L rep pe C) {me : Int} (hme : me ∈ K) {M' : List Int}
    (hM' : ∀ i, i ∈ M' ↔ i ∈ L me ∧ i ∈ V) {K' : Finset Int} {L' : Int → List Int}
    (hK' : ∀ x, x ∈ K' ↔ x ∈ K ∧ (x = me → M' ≠ []))
    (hL' : ∀ x, L' x = if x = me then M' else L x) {pe1 : Int → Int} (hp : ∀ x, x ≠ me → pe1 x = pe x) :
    QSem n adj V K' Z A L' rep pe1 C := by
  have hUp : ∀ x y, Up n V K Z pe x y → Up n V K' Z pe1 x y := by
    intro x y hu
    refine Up.mono ?_ hu
    intro a h1 h2
    exact ⟨⟨h1, fun h' => h2 ((hK' a).mp h').1⟩, hp a fun e => h2 (e ▸ hme)⟩
  have hk : ∀ e ∈ K, ∀ a ∈ V, a ∈ L e → e ∈ K' ∧ a ∈ L' e := by
    intro e he a ha hae
    rw [hK', hL']
    by_cases hem : e = me
    · subst hem
      have := (hM' a).mpr ⟨hae, ha⟩
      rw [if_pos rfl]
      exact ⟨⟨he, fun _ => List.ne_nil_of_mem this⟩, this⟩
    · rw [if_neg hem]
      exact ⟨⟨he, fun e' => absurd e' hem⟩, hae⟩
  refine ⟨h.dom, h.nis, ?_, h.fill, ?_, h.sndA, ?_⟩
  · intro u v u0 u1 v0 v1 hadj hu hv
    rcases h.edge u v u0 u1 v0 v1 hadj hu hv with hc | ⟨h1, h2, h3⟩
    · exact Or.inl hc
    · refine Or.inr ⟨h1, h2, ?_⟩
      rcases h3 with h3 | ⟨e, he, h3, h4⟩
      · exact Or.inl h3
      · exact Or.inr ⟨e, (hk e he _ h1 h3).1, (hk e he _ h1 h3).2, (hk e he _ h2 h4).2⟩
  · intro x hx v hv
    obtain ⟨q1, q2⟩ := h.up x hx v hv
    refine ⟨fun h' => ?_, fun h' => hUp x _ (q2 h')⟩
    obtain ⟨e, he, hue, hve⟩ := q1 h'
    exact ⟨e, (hk e he _ h' hve).1, hUp x e hue, (hk e he _ h' hve).2⟩
  · intro e he v v0 v1 hv hve
    refine h.sndL e ((hK' e).mp he).1 v v0 v1 hv ?_
    rw [hL'] at hve
    split at hve
    · next e' => subst e'; exact ((hM' _).mp hve).1
    · exact hve

end Verif
