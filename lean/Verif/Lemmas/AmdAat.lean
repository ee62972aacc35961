import Mathlib.Combinatorics.Enumerative.DoubleCounting
import Verif.Lemmas.AmdTrav
import Verif.Lemmas.AmdPre
import Verif.Lemmas.AmdOutput2

/-!
# `AMD_aat` and `AMD_1`
-/

namespace Verif

open Finset

/-- The action of `AMD_aat` on a pair. -/
def cntPair (g : AatSt) (a b : Int) : M AatSt := do
  let Len ← incr g.Len a
  let Len ← incr Len b
  pure { g with Len := Len }

/-- The action of `AMD_aat` on an entry of the diagonal. -/
def cntDiag (g : AatSt) : M AatSt := do
  let nd ← ck (g.nzdiag + 1)
  pure { g with nzdiag := nd }

/-- The action of `AMD_aat` on an entry whose mirror image has been visited. -/
def cntBoth (g : AatSt) : M AatSt := do
  let nb ← ck (g.nzboth + 1)
  pure { g with nzboth := nb }

theorem aatLower_eq : aatLower = trLower cntPair cntBoth := by
  funext Ap Ai k j Len pj
  unfold aatLower trLower cntPair cntBoth
  simp only [bind_assoc, pure_bind]

theorem aatCol_eq : aatCol = trCol cntPair cntDiag cntBoth := by
  funext Ap Ai k st
  unfold aatCol trCol
  rw [aatLower_eq]
  unfold cntPair cntDiag
  simp only [bind_assoc, pure_bind]

theorem aatRest_eq : aatRest = trRest cntPair := rfl

theorem amd1Col_eq : amd1Col = trCol putPair pure pure := rfl

theorem amd1Rest_eq : amd1Rest = trRest putPair := rfl

variable {n iwlen : Int} {jc ir : Int → Int} {D F : Int → List Int} {Ap Ai : Buf Int}

/-- The neighbours of every node in the pattern of `A + A'`. -/
def Nbrs (n : Int) (jc ir : Int → Int) (D : Int → List Int) : Prop :=
  ∀ x, 0 ≤ x → x < n → (D x).Nodup ∧
    ∀ y, y ∈ D x ↔ (0 ≤ y ∧ y < n) ∧ x ≠ y ∧ (Ent jc ir x y ∨ Ent jc ir y x)

theorem updD_length {a b : Int} (hab : a ≠ b) (x : Int) :
    ((updD D a b x).length : Int) = (if x = b then 1 else 0) + ((if x = a then 1 else 0) + (D x).length) := by
  unfold updD
  by_cases e : x = a
  · subst e; simp [hab]; omega
  · by_cases e' : x = b
    · subst e'; simp [e]; omega
    · simp [e, e']

theorem range_length {l : List Int} (hn : 0 ≤ n) (hl : l.Nodup) (hr : ∀ y ∈ l, 0 ≤ y ∧ y < n) :
    (l.length : Int) ≤ n := by
  have h1 : l.toFinset.card ≤ (Finset.Ico 0 n).card :=
    Finset.card_le_card fun y hy => Finset.mem_Ico.mpr (hr y (List.mem_toFinset.mp hy))
  rw [List.toFinset_card_of_nodup hl, Int.card_Ico] at h1
  omega

theorem GoodD.len_lt (h : GoodD n jc ir D) {a b : Int} (a0 : 0 ≤ a) (a1 : a < n)
    (b0 : 0 ≤ b) (b1 : b < n) (hb : b ∉ D a) : ((D a).length : Int) + 1 ≤ n := by
  have h1 := h a a0 a1
  have h2 := range_length (n := n) (l := b :: D a) (by omega) (List.nodup_cons.mpr ⟨hb, h1.1⟩) (fun y hy => by
    rcases List.mem_cons.mp hy with rfl | hy
    · exact ⟨b0, b1⟩
    · exact (h1.2 y hy).1)
  simpa using h2

/-- Sum of the lengths of the lists. -/
theorem updD_sum {a b : Int} (hab : a ≠ b) (a0 : 0 ≤ a) (a1 : a < n) (b0 : 0 ≤ b) (b1 : b < n) :
    ∑ x ∈ Finset.Ico 0 n, ((updD D a b x).length : Int) = ∑ x ∈ Finset.Ico 0 n, ((D x).length : Int) + 2 := by
  simp only [updD_length hab, Finset.sum_add_distrib]
  rw [Finset.sum_ite_eq' (Finset.Ico 0 n) b, Finset.sum_ite_eq' (Finset.Ico 0 n) a,
    if_pos (Finset.mem_Ico.mpr ⟨b0, b1⟩), if_pos (Finset.mem_Ico.mpr ⟨a0, a1⟩)]
  ring

/-- The counters after `c` entries, `d` of them on the diagonal, with neighbours `D`. -/
structure CntInv (n : Int) (D : Int → List Int) (c d : Int) (g : AatSt) : Prop where
  arr : Arr g.Len n n
  len : ∀ x, 0 ≤ x → x < n → g.Len.at x = (D x).length
  diag : g.nzdiag = d
  both : 0 ≤ g.nzboth
  diag0 : 0 ≤ d
  sum : 2 * (c - g.nzdiag - g.nzboth) = ∑ x ∈ Finset.Ico 0 n, ((D x).length : Int)

theorem cntPair_ok (hn : 0 ≤ n) (hB : n ≤ Int_MAX) (hz : jc n - jc 0 ≤ Int_MAX) :
    EmitOk n jc ir cntPair cntDiag cntBoth (CntInv n) := by
  refine ⟨?_, ?_, ?_⟩
  · rintro D c d ⟨Len, nd, nb⟩ a b ⟨hA, hv, h1, h2, h3, h4⟩ hG a0 a1 b0 b1 hab - hbD haD
    simp only at hA hv h1 h2 h3 h4
    unfold cntPair
    have la := hG.len_lt a0 a1 b0 b1 hbD
    have lb := hG.len_lt b0 b1 a0 a1 haD
    have va := hv a a0 a1
    have vb := hv b b0 b1
    rw [incr_ok hA a0 a1 (by omega), ok_bind]
    have hA1 := hA.put a0 a1 (Len.at a + 1)
    rw [incr_ok hA1 b0 b1 (by rw [hA.at_put a0 a1, if_neg hab.symm]; omega), ok_bind]
    refine Spec.ok ⟨hA1.put b0 b1 _, fun x x0 x1 => ?_, h1, h2, h3, ?_⟩
    · simp only
      rw [hA1.at_put b0 b1, hA.at_put a0 a1, hA.at_put a0 a1, updD_length hab, ← hv x x0 x1]
      by_cases e : x = b
      · subst e
        simp only [if_true, hab.symm, if_false]
        omega
      · by_cases e' : x = a
        · subst e'
          simp only [e, if_true, if_false]
          omega
        · simp [e, e']
    · simp only
      rw [updD_sum hab a0 a1 b0 b1]
      omega
  · rintro D c d ⟨Len, nd, nb⟩ ⟨hA, hv, h1, h2, h3, h4⟩ d0 d1
    simp only at hA hv h1 h2 h3 h4
    unfold cntDiag
    rw [ck_bind (by simp only; omega)]
    refine Spec.ok ⟨hA, hv, by simp only; omega, h2, by omega, ?_⟩
    simp only
    omega
  · rintro D c d ⟨Len, nd, nb⟩ ⟨hA, hv, h1, h2, h3, h4⟩ hc
    simp only at hA hv h1 h2 h3 h4
    have hpos : 0 ≤ ∑ x ∈ Finset.Ico 0 n, ((D x).length : Int) := Finset.sum_nonneg (fun _ _ => by omega)
    unfold cntBoth
    rw [ck_bind (by simp only; omega)]
    refine Spec.ok ⟨hA, hv, h1, by simp only; omega, h3, ?_⟩
    simp only
    omega

/-! ## Size of the pattern of `A + A'` -/

open Classical in
/-- The pattern of `A + A'` without diagonal has at most twice as many entries as `A`. -/
theorem nzaat_le (hn : 0 ≤ n) (hp : Pat n jc ir) (h0 : jc 0 = 0) (hN : Nbrs n jc ir F) :
    ∑ x ∈ Finset.Ico 0 n, ((F x).length : Int) ≤ 2 * jc n := by
  have hmono : ∀ (d : Nat) (x : Int), 0 ≤ x → x + d ≤ n → jc x ≤ jc (x + d) := by
    intro d
    induction d with
    | zero => intro x _ _; simp
    | succ d ih =>
      intro x x0 x1
      have := ih x x0 (by push_cast at x1; omega)
      have h2 := hp.mono (x + d) (by omega) (by push_cast at x1; omega)
      have e : x + ((d + 1 : Nat) : Int) = x + d + 1 := by push_cast; omega
      rw [e]
      omega
  have hle : ∀ x y, 0 ≤ x → x ≤ y → y ≤ n → jc x ≤ jc y := by
    intro x y x0 xy yn
    have := hmono (y - x).toNat x x0 (by omega)
    rwa [show x + ((y - x).toNat : Int) = y by omega] at this
  set R := Finset.Ico (0 : Int) n with hR
  set E := (R ×ˢ R).filter (fun e => Ent jc ir e.1 e.2) with hE
  have hEc : E.card ≤ (Finset.Ico (0 : Int) (jc n)).card := by
    refine Finset.card_le_card_of_forall_subsingleton (fun e q => jc e.2 ≤ q ∧ q < jc (e.2 + 1) ∧ ir q = e.1) ?_ ?_
    · rintro ⟨x, y⟩ he
      rw [hE, Finset.mem_filter, Finset.mem_product, hR, Finset.mem_Ico, Finset.mem_Ico] at he
      obtain ⟨⟨-, hy⟩, q, q0, q1, q2⟩ := he
      simp only at hy q0 q1 q2
      refine ⟨q, ?_, q0, q1, q2⟩
      rw [Finset.mem_Ico]
      have a1 := hle 0 y le_rfl hy.1 (by omega)
      have a2 := hle (y + 1) n (by omega) (by omega) le_rfl
      omega
    · rintro q - ⟨x, y⟩ ⟨he, q0, q1, q2⟩ ⟨x', y'⟩ ⟨he', q0', q1', q2'⟩
      simp only at q0 q1 q2 q0' q1' q2'
      rw [hE, Finset.mem_filter, Finset.mem_product, hR, Finset.mem_Ico, Finset.mem_Ico] at he he'
      have hy := he.1.2
      have hy' := he'.1.2
      simp only at hy hy'
      have : y = y' := by
        rcases lt_trichotomy y y' with h | h | h
        · have := hle (y + 1) y' (by omega) (by omega) (by omega); omega
        · exact h
        · have := hle (y' + 1) y (by omega) (by omega) (by omega); omega
      subst this
      rw [← q2, ← q2']
  have hcol : ∀ x ∈ R, ((F x).length : Int) = (((R ×ˢ R).filter (fun e => e.1 = x ∧ e.2 ∈ F x)).card : Int) := by
    intro x hx
    have hx' := Finset.mem_Ico.mp hx
    have h1 := hN x hx'.1 hx'.2
    have : (R ×ˢ R).filter (fun e => e.1 = x ∧ e.2 ∈ F x) = (F x).toFinset.image (fun y => (x, y)) := by
      ext ⟨a, b⟩
      rw [Finset.mem_filter, Finset.mem_product, Finset.mem_image]
      constructor
      · rintro ⟨_, rfl, hb⟩
        exact ⟨b, List.mem_toFinset.mpr hb, rfl⟩
      · rintro ⟨y, hy, e⟩
        obtain ⟨rfl, rfl⟩ := Prod.mk.inj e
        have hy := List.mem_toFinset.mp hy
        exact ⟨⟨hx, Finset.mem_Ico.mpr ((h1.2 y).mp hy).1⟩, rfl, hy⟩
    rw [this, Finset.card_image_of_injective _ (fun a b e => (Prod.mk.inj e).2), List.toFinset_card_of_nodup h1.1]
  have hsub : (R ×ˢ R).filter (fun e => e.2 ∈ F e.1) ⊆ E ∪ E.image Prod.swap := by
    rintro ⟨a, b⟩ he
    rw [Finset.mem_filter, Finset.mem_product] at he
    obtain ⟨⟨ha, hb⟩, he⟩ := he
    simp only at ha hb he
    have ha' := Finset.mem_Ico.mp ha
    rcases (((hN a ha'.1 ha'.2).2 b).mp he).2.2 with h | h
    · exact Finset.mem_union_left _ (Finset.mem_filter.mpr ⟨Finset.mem_product.mpr ⟨ha, hb⟩, h⟩)
    · exact Finset.mem_union_right _ (Finset.mem_image.mpr ⟨(b, a),
        Finset.mem_filter.mpr ⟨Finset.mem_product.mpr ⟨hb, ha⟩, h⟩, rfl⟩)
  have hsum : ∑ x ∈ R, ((F x).length : Int) = (((R ×ˢ R).filter (fun e => e.2 ∈ F e.1)).card : Int) := by
    rw [Finset.sum_congr rfl hcol, Finset.card_eq_sum_card_fiberwise (f := Prod.fst) (t := R)]
    · push_cast
      refine Finset.sum_congr rfl fun x _ => ?_
      congr 2
      ext ⟨a, b⟩
      simp only [Finset.mem_filter, Finset.mem_product]
      constructor
      · rintro ⟨h1, rfl, h2⟩; exact ⟨⟨h1, h2⟩, rfl⟩
      · rintro ⟨⟨h1, h2⟩, rfl⟩; exact ⟨h1, rfl, h2⟩
    · rintro ⟨a, b⟩ he
      exact (Finset.mem_product.mp (Finset.mem_filter.mp he).1).1
  rw [hsum]
  have h1 := Finset.card_le_card hsub
  have h2 := Finset.card_union_le E (E.image Prod.swap)
  have h3 : (E.image Prod.swap).card ≤ E.card := Finset.card_image_le
  have h4 : ((Finset.Ico (0 : Int) (jc n)).card : Int) = jc n := by
    have := hle 0 n le_rfl hn le_rfl
    simp; omega
  omega

/-- `AMD_aat` counts the neighbours of every node, the entries on the diagonal and, through the sum of the
lengths, those with a mirror image. -/
theorem AMD_aatI_spec (hB : n ≤ Int_MAX) (hn : 0 ≤ n) (hb : PatBuf n Ap Ai jc ir)
    (h0 : jc 0 = 0) (hz : 2 * jc n < 2 ^ 64) (hz1 : jc n ≤ Int_MAX) {Len Tp : Buf Int} (hL : (Len.length : Int) = n)
    (hT : (Tp.length : Int) = n) :
    Spec (AMD_aatI n Ap Ai Len Tp) (fun r => ∃ D, Nbrs n jc ir D ∧
      (r.1.1 = ∑ x ∈ Finset.Ico 0 n, ((D x).length : Int) ∧ Arr r.1.2.1 n n ∧
      (∀ x, 0 ≤ x → x < n → r.1.2.1.at x = (D x).length) ∧ (r.1.2.2.length : Int) = n) ∧
      r.2.nz = jc n ∧ r.2.nzdiag = diagCount jc ir n ∧ r.2.nzaat = ∑ x ∈ Finset.Ico 0 n, ((D x).length : Int) ∧
      ∃ nb : Int, 2 * (jc n - diagCount jc ir n - nb) = ∑ x ∈ Finset.Ico 0 n, ((D x).length : Int) ∧ 0 ≤ nb ∧
        r.2.symmetry = if jc n = diagCount jc ir n then 1 else (2 * nb : Rat) / ((jc n - diagCount jc ir n : Int) : Rat)) := by
  unfold AMD_aatI
  refine Spec.bind (forI_int hn (fun k (L : Buf Int) => Arr L n k ∧ ∀ x, 0 ≤ x → x < k → L.at x = 0) ?_ ?_) ?_
  · exact ⟨arr0 hL, fun x a b => absurd b (by omega)⟩
  · rintro k L k0 kn ⟨hA, hv⟩
    rw [hA.wr k0 kn]
    exact Spec.ok ⟨hA.push k0 kn _, put_vals (f := fun _ => 0) hA k0 kn hv rfl⟩
  · rintro L ⟨hA, hv⟩
    rw [hb.rdp n hn le_rfl]
    simp only [ok_bind]
    have h := trAll_spec hn hb (cntPair_ok hn hB (by omega)) (g := { Len := L, nzdiag := 0, nzboth := 0 }) (Tp := Tp)
      ⟨hA, by simpa using hv, rfl, le_rfl, le_rfl, by simp⟩ hT
    rw [aatCol_eq, aatRest_eq]
    obtain ⟨⟨⟨L', nd, nb⟩, T'⟩, h1, D, ⟨hA', hv', e1, e2, e3, e4⟩, hT', hN⟩ := h
    simp only at hA' hv' hT' e1 e2 e3 e4
    cases hst : forI 0 n ({ Len := L, nzdiag := 0, nzboth := 0 }, Tp) (trCol cntPair cntDiag cntBoth Ap Ai) with
    | error e => rw [hst] at h1; cases h1
    | ok st =>
      rw [hst] at h1
      simp only [ok_bind] at h1 ⊢
      cases hL' : forI 0 n st.1 (trRest cntPair Ap Ai st.2) with
      | error e => rw [hL'] at h1; cases h1
      | ok L'' =>
        rw [hL'] at h1
        simp only [ok_bind, pure_eq_ok, Except.ok.injEq, Prod.mk.injEq] at h1 ⊢
        obtain ⟨rfl, rfl⟩ := h1
        rw [h0, sub_zero] at e4
        have hpos : 0 ≤ ∑ x ∈ Finset.Ico 0 n, ((D x).length : Int) := Finset.sum_nonneg (fun _ _ => by omega)
        refine Spec.bind (Q := fun v : Rat => v = if jc n = diagCount jc ir n then 1
          else (2 * nb : Rat) / ((jc n - diagCount jc ir n : Int) : Rat)) ?_ ?_
        · subst e1
          split
          · exact Spec.ok rfl
          · rw [ck_bind (by simp only; omega)]
            exact Spec.ok rfl
        rintro sym hsym
        refine Spec.bind (forI_int hn (fun k (acc : Int) =>
          acc = ∑ x ∈ Finset.Ico 0 k, ((D x).length : Int)) (by simp) ?_) ?_
        · rintro k acc k0 kn rfl
          rw [hA'.rd k0 kn, hv' k k0 kn]
          refine Spec.ok ?_
          have htot := nzaat_le hn hb.pat h0 hN
          have hpart : ∑ x ∈ Finset.Ico 0 (k + 1), ((D x).length : Int) ≤ ∑ x ∈ Finset.Ico 0 n, ((D x).length : Int) :=
            Finset.sum_le_sum_of_subset_of_nonneg (fun x hx => by rw [Finset.mem_Ico] at hx ⊢; omega)
              (fun _ _ _ => by omega)
          have hpos : 0 ≤ ∑ x ∈ Finset.Ico 0 k, ((D x).length : Int) := Finset.sum_nonneg (fun _ _ => by omega)
          rw [Ico_succ_int k0, Finset.sum_insert (by simp)] at hpart ⊢
          unfold addSize
          rw [Int.emod_eq_of_lt (by omega) (by omega)]
          omega
        · rintro acc rfl
          exact Spec.ok ⟨D, hN, ⟨rfl, hA', hv', hT'⟩, rfl, e1, rfl, nb, by rw [← e1]; exact e4, e2, hsym⟩

theorem AMD_aat_spec (hB : n ≤ Int_MAX) (hn : 0 ≤ n) (hb : PatBuf n Ap Ai jc ir)
    (h0 : jc 0 = 0) (hz : 2 * jc n < 2 ^ 64) (hz1 : jc n ≤ Int_MAX) {Len Tp : Buf Int} (hL : (Len.length : Int) = n)
    (hT : (Tp.length : Int) = n) :
    Spec (AMD_aat n Ap Ai Len Tp) (fun r => ∃ D, Nbrs n jc ir D ∧
      r.1 = ∑ x ∈ Finset.Ico 0 n, ((D x).length : Int) ∧ Arr r.2.1 n n ∧
      (∀ x, 0 ≤ x → x < n → r.2.1.at x = (D x).length) ∧ (r.2.2.length : Int) = n) := by
  unfold AMD_aat
  refine Spec.bind (AMD_aatI_spec hB hn hb h0 hz hz1 hL hT) ?_
  rintro r ⟨D, h1, h2, -⟩
  exact Spec.ok ⟨D, h1, h2⟩

/-! ## Construction of the lists -/

/-- `(Iw, Sp)` after the neighbours `D`; `pe` are the starts of the lists. -/
structure Bld (n iwlen : Int) (pe : Int → Int) (D : Int → List Int) (st : Buf Int × Buf Int) : Prop where
  lI : (st.1.length : Int) = iwlen
  aS : Arr st.2 n n
  vS : ∀ x, 0 ≤ x → x < n → st.2.at x = pe x + (D x).length
  ini : ∀ x, 0 ≤ x → x < n → ∀ c, pe x ≤ c → c < pe x + (D x).length → st.1[c.toNat]? = some (some (st.1.at c))
  blk : ∀ x, 0 ≤ x → x < n → Blk st.1.at (pe x) (D x)

/-- Starts of consecutive lists. -/
structure Starts (n iwlen : Int) (pe : Int → Int) (F : Int → List Int) : Prop where
  zero : pe 0 = 0
  succ : ∀ x, 0 ≤ x → x < n → pe (x + 1) = pe x + (F x).length
  top : pe n ≤ iwlen

namespace Starts

variable {pe : Int → Int}

theorem le (h : Starts n iwlen pe F) : ∀ (d : Nat) (x : Int), 0 ≤ x → x + d ≤ n → pe x ≤ pe (x + d) := by
  intro d
  induction d with
  | zero => intro x _ _; simp
  | succ d ih =>
    intro x x0 x1
    have := ih x x0 (by push_cast at x1; omega)
    have h2 := h.succ (x + d) (by omega) (by push_cast at x1; omega)
    have e : x + ((d + 1 : Nat) : Int) = x + d + 1 := by push_cast; omega
    rw [e]
    omega

theorem lt (h : Starts n iwlen pe F) {x y : Int} (x0 : 0 ≤ x) (xy : x < y) (yn : y ≤ n) :
    pe x + (F x).length ≤ pe y := by
  have h1 := h.succ x x0 (by omega)
  have h2 := h.le (y - (x + 1)).toNat (x + 1) (by omega) (by omega)
  have e : x + 1 + ((y - (x + 1)).toNat : Int) = y := by omega
  rw [e] at h2
  omega

theorem nonneg (h : Starts n iwlen pe F) {x : Int} (x0 : 0 ≤ x) (x1 : x ≤ n) : 0 ≤ pe x := by
  have := h.le x.toNat 0 le_rfl (by omega)
  have e : (0 : Int) + (x.toNat : Int) = x := by omega
  rw [e, h.zero] at this
  exact this

theorem cover (h : Starts n iwlen pe F) : ∀ (d : Nat), (d : Int) ≤ n → ∀ c, 0 ≤ c → c < pe d →
    ∃ x : Int, 0 ≤ x ∧ x < d ∧ pe x ≤ c ∧ c < pe x + (F x).length := by
  intro d
  induction d with
  | zero => intro _ c c0 c1; have := h.zero; simp only [Nat.cast_zero] at c1; omega
  | succ d ih =>
    intro hd c c0 c1
    push_cast at hd c1 ⊢
    by_cases hc : c < pe d
    · obtain ⟨x, x0, x1, x2⟩ := ih (by omega) c c0 hc
      exact ⟨x, x0, by omega, x2⟩
    · have := h.succ d (by omega) (by omega)
      exact ⟨d, by omega, by omega, by omega, by omega⟩

theorem sum (h : Starts n iwlen pe F) : ∀ (d : Nat), (d : Int) ≤ n →
    ∑ x ∈ Finset.Ico 0 (d : Int), ((F x).length : Int) = pe d := by
  intro d
  induction d with
  | zero => intro _; simp [h.zero]
  | succ d ih =>
    intro hd
    push_cast at hd ⊢
    rw [Ico_succ_int (by omega), Finset.sum_insert (by simp), ih (by omega), h.succ d (by omega) (by omega)]
    omega

end Starts

theorem putNext_spec {pe : Int → Int} (hI : iwlen ≤ Int_MAX) (hs : Starts n iwlen pe F) {st : Buf Int × Buf Int}
    (hF : ∀ x, 0 ≤ x → x < n → (D x).length ≤ (F x).length)
    (h : Bld n iwlen pe D st) {a b : Int} (a0 : 0 ≤ a) (a1 : a < n) (hlt : (D a).length < (F a).length) :
    Spec (putNext st a b) (Bld n iwlen pe (Function.update D a (D a ++ [b]))) := by
  unfold putNext
  have hpa := hs.nonneg a0 (by omega)
  have htop := hs.lt a0 a1 le_rfl
  have hl := h.lI
  have ht := hs.top
  rw [h.aS.rd a0 a1, h.vS a a0 a1, ok_bind, ck_bind (by omega)]
  rw [wr_ok' (by omega) (by omega)]
  simp only [ok_bind]
  rw [h.aS.wr a0 a1]
  simp only [ok_bind]
  have hat : ∀ c, (st.1.put (pe a + (D a).length) b).at c =
      if c = pe a + (D a).length then b else st.1.at c := Buf.at_put (by omega) (by omega) b
  have hdis : ∀ x, 0 ≤ x → x < n → x ≠ a → ∀ c, pe x ≤ c → c < pe x + (D x).length →
      c ≠ pe a + (D a).length := by
    intro x x0 x1 hne c c0 c1 e
    have := hF x x0 x1
    rcases lt_or_gt_of_ne hne with hlt' | hlt'
    · have := hs.lt x0 hlt' (by omega)
      omega
    · have := hs.lt a0 hlt' (by omega)
      omega
  have hset : ∀ c, 0 ≤ c → (st.1.put (pe a + (D a).length) b)[c.toNat]? =
      if c = pe a + (D a).length then some (some b) else st.1[c.toNat]? := by
    intro c c0
    unfold Buf.put
    rw [List.getElem?_set]
    by_cases e : c = pe a + (D a).length
    · rw [if_pos (by omega), if_pos (by omega), if_pos e]
    · rw [if_neg (by omega), if_neg e]
  refine Spec.ok ⟨?_, h.aS.put a0 a1 _, ?_, ?_, ?_⟩
  · exact (congrArg _ (Buf.length_put st.1 _ b)).trans hl
  · intro x x0 x1
    simp only
    rw [h.aS.at_put a0 a1]
    by_cases e : x = a
    · subst e; simp; omega
    · simp [e, h.vS x x0 x1]
  · intro x x0 x1 c c0 c1
    simp only
    have hp := hs.nonneg x0 (by omega)
    show (st.1.put (pe a + (D a).length) b)[c.toNat]? = some (some ((st.1.put (pe a + (D a).length) b).at c))
    rw [hset c (by omega), hat]
    by_cases e : c = pe a + (D a).length
    · rw [if_pos e, if_pos e]
    · rw [if_neg e, if_neg e]
      by_cases e' : x = a
      · subst e'
        simp only [Function.update_self, List.length_append, List.length_singleton] at c1
        push_cast at c1
        exact h.ini x x0 x1 c c0 (by omega)
      · rw [Function.update_of_ne e'] at c1
        exact h.ini x x0 x1 c c0 c1
  · intro x x0 x1
    show Blk (st.1.put (pe a + (D a).length) b).at _ _
    by_cases e' : x = a
    · subst e'
      rw [Function.update_self]
      refine (h.blk x x0 x1).snoc ?_ ?_
      · intro c c0 c1
        rw [hat, if_neg (by omega)]
      · rw [hat, if_pos rfl]
    · rw [Function.update_of_ne e']
      refine (h.blk x x0 x1).congr ?_
      intro c c0 c1
      rw [hat, if_neg (hdis x x0 x1 e' c c0 c1)]

theorem updD_eq {a b : Int} (hab : a ≠ b) : updD D a b =
    Function.update (Function.update D a (D a ++ [b])) b (Function.update D a (D a ++ [b]) b ++ [a]) := by
  funext x
  unfold updD
  by_cases e : x = a
  · subst e; simp [hab]
  · by_cases e' : x = b
    · subst e'; simp [e]
    · simp [e, e']

theorem GoodD.le (hN : Nbrs n jc ir F) (h : GoodD n jc ir D) {x : Int} (x0 : 0 ≤ x) (x1 : x < n) :
    (D x).length ≤ (F x).length := by
  have h1 := h x x0 x1
  have h2 := hN x x0 x1
  exact (List.subperm_of_subset h1.1 (fun y hy => (h2.2 y).mpr (h1.2 y hy))).length_le

theorem GoodD.lt (hN : Nbrs n jc ir F) (h : GoodD n jc ir D) {a b : Int} (a0 : 0 ≤ a) (a1 : a < n)
    (b0 : 0 ≤ b) (b1 : b < n) (hab : a ≠ b) (he : Ent jc ir a b ∨ Ent jc ir b a) (hb : b ∉ D a) :
    (D a).length < (F a).length := by
  have h1 := h a a0 a1
  have h2 := hN a a0 a1
  have h3 : (b :: D a).Nodup := List.nodup_cons.mpr ⟨hb, h1.1⟩
  have := (List.subperm_of_subset h3 (l₂ := F a) (fun y hy => by
    rcases List.mem_cons.mp hy with rfl | hy
    · exact (h2.2 y).mpr ⟨⟨b0, b1⟩, hab, he⟩
    · exact (h2.2 y).mpr (h1.2 y hy))).length_le
  simpa using this

theorem putPair_ok {pe : Int → Int} (hI : iwlen ≤ Int_MAX) (hs : Starts n iwlen pe F) (hN : Nbrs n jc ir F) :
    EmitOk n jc ir putPair pure pure (fun D _ _ => Bld n iwlen pe D) := by
  refine ⟨?_, fun _ _ _ _ h _ _ => Spec.ok h, fun _ _ _ _ h _ => Spec.ok h⟩
  intro D _ _ st a b hB hG a0 a1 b0 b1 hab he hb ha
  unfold putPair
  have hF : ∀ x, 0 ≤ x → x < n → (D x).length ≤ (F x).length := fun x x0 x1 => hG.le hN x0 x1
  have hla := hG.lt hN a0 a1 b0 b1 hab he hb
  have hlb := hG.lt hN b0 b1 a0 a1 hab.symm he.symm ha
  rw [updD_eq hab]
  refine Spec.bind (putNext_spec hI hs hF hB a0 a1 hla) ?_
  intro st1 h1
  refine putNext_spec hI hs ?_ h1 b0 b1 ?_
  · intro x x0 x1
    by_cases e : x = a
    · subst e; simp; omega
    · rw [Function.update_of_ne e]; exact hF x x0 x1
  · rw [Function.update_of_ne hab.symm]; exact hlb

/-- `amd_1.c` 46–163: the lists of neighbours one after the other. -/
theorem amd1Build_spec (hIM : iwlen ≤ Int_MAX) (hn : 0 ≤ n) (hb : PatBuf n Ap Ai jc ir) (hN : Nbrs n jc ir F) {Len Pe Sp Tp Iw : Buf Int}
    (hL : Arr Len n n) (hLv : ∀ x, 0 ≤ x → x < n → Len.at x = (F x).length) (hPe : (Pe.length : Int) = n)
    (hSp : (Sp.length : Int) = n) (hTp : (Tp.length : Int) = n) (hI : (Iw.length : Int) = iwlen)
    (hsz : ∑ x ∈ Finset.Ico 0 n, ((F x).length : Int) ≤ iwlen) :
    Spec (amd1Build n Ap Ai Len Pe Sp Tp Iw) (fun r => ∃ D pe, Nbrs n jc ir D ∧
      (∀ x, 0 ≤ x → x < n → (D x).length = (F x).length) ∧ Starts n iwlen pe D ∧
      Bld n iwlen pe D (r.2.1, r.2.2.1) ∧ Arr r.1 n n ∧ (∀ x, 0 ≤ x → x < n → r.1.at x = pe x) ∧
      (r.2.2.2.1.length : Int) = n ∧ r.2.2.2.2 = pe n) := by
  unfold amd1Build
  set pe : Int → Int := fun k => ∑ x ∈ Finset.Ico 0 k, ((F x).length : Int) with hpe
  have hs : Starts n iwlen pe F := by
    refine ⟨by simp [hpe], ?_, hsz⟩
    intro x x0 x1
    simp only [hpe]
    rw [Ico_succ_int x0, Finset.sum_insert (by simp)]
    omega
  refine Spec.bind (forI_int hn (fun j (r : Buf Int × Buf Int × Int) => Arr r.1 n j ∧ Arr r.2.1 n j ∧
    (∀ x, 0 ≤ x → x < j → r.1.at x = pe x) ∧ (∀ x, 0 ≤ x → x < j → r.2.1.at x = pe x) ∧ r.2.2 = pe j) ?_ ?_) ?_
  · exact ⟨arr0 hPe, arr0 hSp, fun x a b => absurd b (by omega), fun x a b => absurd b (by omega),
      hs.zero.symm⟩
  · rintro j ⟨P, S, q⟩ j0 jn ⟨h1, h2, h3, h4, h5⟩
    simp only at h1 h2 h3 h4 h5 ⊢
    rw [h1.wr j0 jn, ok_bind, h2.wr j0 jn, ok_bind, hL.rd j0 jn, ok_bind, hLv j j0 jn]
    have q1 := hs.nonneg j0 (by omega)
    have q2 := hs.lt j0 jn le_rfl
    have q3 := hs.top
    rw [ck_bind (by omega)]
    exact Spec.ok ⟨h1.push j0 jn _, h2.push j0 jn _, put_vals h1 j0 jn h3 h5, put_vals h2 j0 jn h4 h5,
      by rw [hs.succ j j0 jn, h5]⟩
  · rintro ⟨P, S, q⟩ ⟨h1, h2, h3, h4, h5⟩
    simp only at h1 h2 h3 h4 h5 ⊢
    have hB : Bld n iwlen pe (fun _ => []) (Iw, S) := by
      refine ⟨hI, h2, ?_, ?_, fun _ _ _ => Blk.nil⟩
      · intro x x0 x1; simp [h4 x x0 x1]
      · intro x x0 x1 c c0 c1
        simp only [List.length_nil] at c1
        omega
    have h := trAll_spec hn hb (putPair_ok hIM hs hN) (g := (Iw, S)) (Tp := Tp) hB hTp
    rw [amd1Col_eq, amd1Rest_eq]
    obtain ⟨⟨g, T'⟩, e1, D, hB', hT', hND⟩ := h
    simp only at hB' hT'
    have hle : ∀ x, 0 ≤ x → x < n → (D x).length = (F x).length := by
      intro x x0 x1
      have a1 := hND x x0 x1
      have a2 := hN x x0 x1
      exact ((List.perm_ext_iff_of_nodup a1.1 a2.1).mpr (fun y => by rw [a1.2, a2.2])).length_eq
    have hs' : Starts n iwlen pe D := ⟨hs.zero, fun x x0 x1 => by rw [hs.succ x x0 x1, hle x x0 x1], hs.top⟩
    cases hst : forI 0 n ((Iw, S), Tp) (trCol putPair pure pure Ap Ai) with
    | error e => rw [hst] at e1; cases e1
    | ok st =>
      rw [hst] at e1
      simp only [ok_bind] at e1 ⊢
      cases hL' : forI 0 n st.1 (trRest putPair Ap Ai st.2) with
      | error e => rw [hL'] at e1; cases e1
      | ok L'' =>
        rw [hL'] at e1
        simp only [ok_bind, pure_eq_ok, Except.ok.injEq, Prod.mk.injEq] at e1 ⊢
        obtain ⟨rfl, rfl⟩ := e1
        exact Spec.ok ⟨D, pe, hND, hle, hs', hB', h1, h3, hT', h5⟩

theorem cut_ok {S : Buf Int} {l n : Int} (h : (S.length : Int) = l) (h0 : 0 ≤ n) (h1 : n ≤ l) :
    ∃ A B : Buf Int, cut S n = .ok (A, B) ∧ (A.length : Int) = n ∧ (B.length : Int) = l - n := by
  refine ⟨S.take n.toNat, S.drop n.toNat, ?_, ?_, ?_⟩
  · unfold cut
    rw [if_pos (by omega)]
  · rw [List.length_take]; omega
  · rw [List.length_drop]; omega

/-- `AMD_1` with `G` in the place of `AMD_2`. -/
def amd1With {α : Type} (G : Int → Amd2 → M α) (n : Int) (Ap Ai P Pinv Len : Buf Int) (slen : Int) (S : Buf Int) :
    M α := do
  let t ← ck (6 * n)
  let iwlen ← ck (slen - t)
  let (Pe, S) ← cut S n
  let (Nv, S) ← cut S n
  let (Head, S) ← cut S n
  let (Elen, S) ← cut S n
  let (Degree, S) ← cut S n
  let (W, S) ← cut S n
  let (Iw, _) ← cut S iwlen
  let r ← amd1Build n Ap Ai Len Pe Nv W Iw
  G iwlen
    { Pe := r.1, Iw := r.2.1, Len := Len, Nv := r.2.2.1, Next := Pinv, Last := P
      Head := Head, Elen := Elen, Degree := Degree, W := r.2.2.2.1
      pfree := r.2.2.2.2, nel := 0, mindeg := 0, wflg := 0, lemax := 0 }

set_option maxHeartbeats 800000 in
/-- `AMD_1` up to the call of `AMD_2`. -/
theorem amd1With_spec {α : Type} {G : Int → Amd2 → M α} {Q : α → Prop} {slen : Int} (hBig : 3 * slen + 10 ≤ Int_MAX) (hn : 0 ≤ n) (hb : PatBuf n Ap Ai jc ir)
    (hN : Nbrs n jc ir F) {P Pinv Len : Buf Int}
    (hL : Arr Len n n) (hLv : ∀ x, 0 ≤ x → x < n → Len.at x = (F x).length)
    (hP : (P.length : Int) = n) (hPi : (Pinv.length : Int) = n) {S : Buf Int}
    (hS : (S.length : Int) = slen)
    (hsz : ∑ x ∈ Finset.Ico 0 n, ((F x).length : Int) + 7 * n ≤ slen)
    (hG : ∀ D s, Nbrs n jc ir D → GIn n (slen - 6 * n) D s → Spec (G (slen - 6 * n) s) Q) :
    Spec (amd1With G n Ap Ai P Pinv Len slen S) Q := by
  unfold amd1With
  have hsum : 0 ≤ ∑ x ∈ Finset.Ico 0 n, ((F x).length : Int) := Finset.sum_nonneg (fun _ _ => by omega)
  rw [ck_bind (by omega), ck_bind (by omega)]
  obtain ⟨Pe0, S1, e1, l1, m1⟩ := cut_ok hS hn (by omega)
  obtain ⟨Nv0, S2, e2, l2, m2⟩ := cut_ok m1 hn (by omega)
  obtain ⟨Hd0, S3, e3, l3, m3⟩ := cut_ok m2 hn (by omega)
  obtain ⟨El0, S4, e4, l4, m4⟩ := cut_ok m3 hn (by omega)
  obtain ⟨Dg0, S5, e5, l5, m5⟩ := cut_ok m4 hn (by omega)
  obtain ⟨W0, S6, e6, l6, m6⟩ := cut_ok m5 hn (by omega)
  obtain ⟨Iw0, S7, e7, l7, m7⟩ := cut_ok (n := slen - 6 * n) m6 (by omega) (by omega)
  rw [e1, ok_bind]
  dsimp only
  rw [e2, ok_bind]
  dsimp only
  rw [e3, ok_bind]
  dsimp only
  rw [e4, ok_bind]
  dsimp only
  rw [e5, ok_bind]
  dsimp only
  rw [e6, ok_bind]
  dsimp only
  rw [e7, ok_bind]
  dsimp only
  refine Spec.bind (amd1Build_spec (iwlen := slen - 6 * n) (by omega) hn hb hN hL hLv l1 l2 l6
    l7 (by omega)) ?_
  rintro ⟨Pe, Iw, Sp, Tp, pfree⟩ ⟨D, pe, hND, hle, hs, hB, hPe, hPv, hT, hpf⟩
  simp only at hB hPe hPv hT hpf ⊢
  have hsumD : ∑ x ∈ Finset.Ico 0 n, ((D x).length : Int) = pe n := by
    have := hs.sum n.toNat (by omega)
    rwa [Int.toNat_of_nonneg hn] at this
  have hsumF : ∑ x ∈ Finset.Ico 0 n, ((F x).length : Int) = pe n := by
    rw [← hsumD]
    refine Finset.sum_congr rfl fun x hx => ?_
    rw [Finset.mem_Ico] at hx
    rw [hle x hx.1 hx.2]
  have hcov : ∀ c, 0 ≤ c → c < pfree → ∃ x, 0 ≤ x ∧ x < n ∧ pe x ≤ c ∧ c < pe x + (D x).length := by
    intro c c0 c1
    have := hs.cover n.toNat (by omega) c c0 (by rw [Int.toNat_of_nonneg hn]; omega)
    rwa [Int.toNat_of_nonneg hn] at this
  refine hG D _ hND ⟨hPe, ⟨hB.lI, ?_⟩, hL, ?_, hPi, hP, l3, hT, l4, l5, ?_, ?_, ?_,
    ?_, ?_, ?_, ?_, ?_⟩
  · intro c c0 c1
    obtain ⟨x, x0, x1, x2, x3⟩ := hcov c c0 c1
    exact hB.ini x x0 x1 c x2 x3
  · exact hB.aS.len
  · exact fun i i0 i1 => (hND i i0 i1).1
  · intro i i0 i1 j hj
    have := ((hND i i0 i1).2 j).mp hj
    exact ⟨this.1.1, this.1.2, this.2.1.symm⟩
  · intro i i0 i1 j hj
    have := ((hND i i0 i1).2 j).mp hj
    exact ((hND j this.1.1 this.1.2).2 i).mpr ⟨⟨i0, i1⟩, this.2.1.symm, this.2.2.symm⟩
  · refine ⟨?_, ?_, ?_, ?_, ?_⟩
    · intro x hx
      exact (Finset.mem_filter.mp hx).2
    · intro x hx
      have hx := Finset.mem_Ico.mp (Finset.mem_filter.mp hx).1
      simp only
      rw [hPv x hx.1 hx.2]
      exact hs.nonneg hx.1 (by omega)
    · intro x hx
      have hx := Finset.mem_Ico.mp (Finset.mem_filter.mp hx).1
      simp only
      rw [hPv x hx.1 hx.2, hpf]
      exact hs.lt hx.1 hx.2 le_rfl
    · intro x hx
      have hx := Finset.mem_Ico.mp (Finset.mem_filter.mp hx).1
      simp only
      rw [hPv x hx.1 hx.2]
      exact hB.blk x hx.1 hx.2
    · intro x hx y hy hne
      have hx := Finset.mem_Ico.mp (Finset.mem_filter.mp hx).1
      have hy := Finset.mem_Ico.mp (Finset.mem_filter.mp hy).1
      simp only
      rw [hPv x hx.1 hx.2, hPv y hy.1 hy.2]
      rcases lt_or_gt_of_ne hne with h | h
      · exact Or.inl (hs.lt hx.1 h (by omega))
      · exact Or.inr (hs.lt hy.1 h (by omega))
  · intro i i0 i1
    simp only
    rw [hLv i i0 i1, hle i i0 i1]
  · rw [hsumD, ← hsumF]; omega
  · simp only; rw [hpf]; exact hs.nonneg hn le_rfl
  · intro c c0 c1
    obtain ⟨x, x0, x1, x2, x3⟩ := hcov c c0 c1
    have := (((hND x x0 x1).2 _).mp ((hB.blk x x0 x1).mem x2 x3)).1
    exact this

/-- `AMD_1` returns a permutation and its inverse. -/
theorem AMD_1_spec {slen dense0 : Int} {aggr : Bool} (hBig : 3 * slen + 10 ≤ Int_MAX) (hn : 0 ≤ n) (hb : PatBuf n Ap Ai jc ir)
    (hN : Nbrs n jc ir F) {P Pinv Len : Buf Int}
    (hL : Arr Len n n) (hLv : ∀ x, 0 ≤ x → x < n → Len.at x = (F x).length)
    (hP : (P.length : Int) = n) (hPi : (Pinv.length : Int) = n) {S : Buf Int}
    (hS : (S.length : Int) = slen)
    (hsz : ∑ x ∈ Finset.Ico 0 n, ((F x).length : Int) + 7 * n ≤ slen) :
    Spec (AMD_1 n Ap Ai P Pinv Len slen S dense0 aggr) (fun r => ∃ p q : Nat → Nat, PermPair n.toNat p q ∧
      (r.1.length : Int) = n ∧ (r.2.length : Int) = n ∧ Buf.Has r.1 n.toNat (fun i => (p i : Int)) ∧
      Buf.Has r.2 n.toNat (fun i => (q i : Int))) := by
  have hsum : 0 ≤ ∑ x ∈ Finset.Ico 0 n, ((F x).length : Int) := Finset.sum_nonneg (fun _ _ => by omega)
  exact amd1With_spec (G := fun iwlen s => AMD_2 n dense0 iwlen aggr s) hBig hn hb hN hL hLv hP hPi hS hsz
    fun D s _ hg => AMD_2_spec (by omega) hg

end Verif
