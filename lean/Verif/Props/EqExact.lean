import Verif.Lemmas.QuasiAny
import Verif.Props.EqRun

/-!
# C98: exactly when the factorisation is exact, for any ordering
-/

set_option linter.unusedSectionVars false

namespace Verif

open Finset

/-! ## Specification -/

/-- Row `i` of the KKT matrix comes before position `r` in the elimination order `P`. -/
def Earlier (P : Buf Int) (r i : Nat) : Prop := ∃ t, t < r ∧ P[t]? = some (some (i : Int))

section Spec

variable {K : Type} [Field K] [LinearOrder K]

/-- `(x, y, z)` is the elimination vector of equality constraint `k`, which is at position `r` of the order `P`: its
entry at the constraint is one, it is zero outside the rows that come earlier, and the earlier rows of the KKT
matrix with diagonal `-w` annihilate it. -/
structure Problem.ElimVector (pb : Problem K) (P : Buf Int) (w : Nat → K) (r k : Nat) (x y z : Nat → K) : Prop where
  one : y k = 1
  suppX : ∀ j, j < pb.n → ¬ Earlier P r j → x j = 0
  suppY : ∀ l, l < pb.p → l ≠ k → ¬ Earlier P r (pb.n + l) → y l = 0
  suppZ : ∀ i, i < pb.m → ¬ Earlier P r (pb.n + pb.p + i) → z i = 0
  rowX : ∀ j, j < pb.n → Earlier P r j → pb.P.mulVec x j + pb.A.tmulVec y j + pb.G.tmulVec z j = 0
  rowY : ∀ l, l < pb.p → Earlier P r (pb.n + l) → pb.A.mulVec x l = 0
  rowZ : ∀ i, i < pb.m → Earlier P r (pb.n + pb.p + i) → pb.G.mulVec x i = w i * z i

/-- The energy of every elimination vector exceeds `1e-14`. -/
def Problem.OrderIndep (pb : Problem K) (P : Buf Int) (w : Nat → K) : Prop :=
  ∀ r k x y z, r < pb.N → k < pb.p → P[r]? = some (some ((pb.n + k : Nat) : Int)) → pb.ElimVector P w r k x y z →
    1 / 10 ^ 14 < dot pb.n x (pb.P.mulVec x) + ∑ i ∈ range pb.m, w i * (z i * z i)

end Spec

section Exact

variable {K : Type} [Field K] [LinearOrder K] [IsStrictOrderedRing K] [Scalar K] [LawfulScalar K]

theorem earlier_iff {N : Nat} {P : Buf Int} {p q : Nat → Nat} (hp : PermPair N p q)
    (hP : Buf.Has P N (fun i => ((p i : Nat) : Int))) {r i : Nat} (hr : r < N) (hi : i < N) :
    Earlier P r i ↔ q i < r := by
  constructor
  · rintro ⟨t, ht, e⟩
    rw [hP t (by omega)] at e
    have := Option.some.inj (Option.some.inj e)
    simp only at this
    have : p t = i := by omega
    rw [← this, hp.qp t (by omega)]
    exact ht
  · intro h
    refine ⟨q i, h, ?_⟩
    rw [hP (q i) (hp.q_lt i hi)]
    simp only [hp.pq i hi]

/-- The energy of a vector in block form. -/
theorem energy_blocks {pb : Problem K} (dd v : Nat → K) :
    ∑ i ∈ range pb.n, v i * ∑ j ∈ range pb.n, kktEntry pb.P pb.A pb.G dd i j * v j
      + ∑ c ∈ Ico pb.n pb.N, (if c < pb.n + pb.p then 0 else -(dd (c - pb.n - pb.p))) * (v c * v c)
    = dot pb.n v (pb.P.mulVec v) + ∑ i ∈ range pb.m, -(dd i) * (v (pb.n + pb.p + i) * v (pb.n + pb.p + i)) := by
  have eN : pb.N = pb.n + pb.p + pb.m := rfl
  congr 1
  · unfold dot Csc.mulVec
    refine sum_congr rfl fun i hi => ?_
    congr 1
    refine sum_congr rfl fun j hj => ?_
    have hi' : i < pb.P.n := mem_range.mp hi
    have hj' : j < pb.P.n := mem_range.mp hj
    simp only [kktEntry, if_pos hi', if_pos hj']
  · rw [← sum_Ico_consecutive _ (by omega : pb.n ≤ pb.n + pb.p) (by omega : pb.n + pb.p ≤ pb.N)]
    rw [sum_eq_zero (s := Ico pb.n (pb.n + pb.p)), zero_add, sum_Ico_eq_sum_range,
      show pb.N - (pb.n + pb.p) = pb.m by omega]
    · refine sum_congr rfl fun i _ => ?_
      rw [if_neg (by omega), show pb.n + pb.p + i - pb.n - pb.p = i by omega]
    · intro c hc
      rw [if_pos (mem_Ico.mp hc).2, zero_mul]

/-- The vector with the blocks `x`, `y`, `z`. -/
def stack (n p : Nat) (x y z : Nat → K) (c : Nat) : K :=
  if c < n then x c else if c < n + p then y (c - n) else z (c - n - p)

theorem stack_x {n p : Nat} {x y z : Nat → K} {i : Nat} (hi : i < n) : stack n p x y z i = x i := by
  unfold stack; rw [if_pos hi]

theorem stack_y {n p : Nat} {x y z : Nat → K} {i : Nat} (hi : i < p) : stack n p x y z (n + i) = y i := by
  unfold stack; rw [if_neg (by omega), if_pos (by omega), show n + i - n = i by omega]

theorem stack_z {n p : Nat} {x y z : Nat → K} {i : Nat} : stack n p x y z (n + p + i) = z i := by
  unfold stack; rw [if_neg (by omega), if_neg (by omega), show n + p + i - n - p = i by omega]

/-- The factorisation is exact if and only if every elimination vector has enough energy. -/
theorem kkt_exact_iff {pb : Problem K} (hpb : pb.WF) (hsym : pb.P.Symm) {eps : K}
    (heps : 1 / 10 ^ 14 < eps) (hP : pb.Strong eps) {dd : Nat → K} (hdd : ∀ i, i < pb.m → 1 / 10 ^ 14 < -(dd i))
    {p q : Nat → Nat} {k : Kkt K} {t : FSt K}
    (hk : KktSym pb.N (kktCsc pb.P pb.A pb.G dd) p q k)
    (hf : KktFac pb.N (kktCsc pb.P pb.A pb.G dd) p q t k) :
    k.Exact pb.N ↔ pb.OrderIndep k.P (fun i => -(dd i)) := by
  have hp := hk.perm
  have eN : pb.N = pb.n + pb.p + pb.m := rfl
  have h14 : (0 : K) < 1 / 10 ^ 14 := by positivity
  have hs : ∀ r c, kktEntry pb.P pb.A pb.G dd r c = kktEntry pb.P pb.A pb.G dd c r :=
    fun r c => kktEntry_symm hsym dd r c
  obtain ⟨raw, hF, u1, u0, hM, g2⟩ := kkt_raw hpb hk hf
  have bl := fun v => kkt_blocks hpb.An hpb.Gn dd v
  have ear : ∀ {r i}, r < pb.N → i < pb.N → (Earlier k.P r i ↔ q i < r) := fun hr hi => earlier_iff hp hk.P hr hi
  constructor
  · intro hex r l x y z hr hl hpr he
    have hkeep : ∀ r, r < pb.N → t.D r = raw r := by
      obtain ⟨M', p', L', d', hf'⟩ := hex
      intro r hr
      have h2 := hF.unique hf' hp (hp.p_lt r hr)
      unfold regDiag at h2
      rw [hp.qp r hr] at h2
      exact sub_eq_zero.mp h2
    have e1 : p r = pb.n + l := by
      rw [hk.P r hr] at hpr
      have := Option.some.inj (Option.some.inj hpr)
      simp only at this
      omega
    set v := stack pb.n pb.p x y z with hv
    have vx : ∀ i, i < pb.n → v i = x i := fun i hi => stack_x hi
    have vy : ∀ i, i < pb.p → v (pb.n + i) = y i := fun i hi => stack_y hi
    have vz : ∀ i, v (pb.n + pb.p + i) = z i := fun i => stack_z
    have mP : ∀ i, pb.P.mulVec v i = pb.P.mulVec x i := fun i =>
      sum_congr rfl fun c hc => by rw [vx c (mem_range.mp hc)]
    have mA : ∀ i, pb.A.mulVec v i = pb.A.mulVec x i := fun i => by
      unfold Csc.mulVec
      rw [hpb.An]
      exact sum_congr rfl fun c hc => by rw [vx c (mem_range.mp hc)]
    have mG : ∀ i, pb.G.mulVec v i = pb.G.mulVec x i := fun i => by
      unfold Csc.mulVec
      rw [hpb.Gn]
      exact sum_congr rfl fun c hc => by rw [vx c (mem_range.mp hc)]
    have mAt : ∀ i, pb.A.tmulVec (fun j => v (pb.n + j)) i = pb.A.tmulVec y i := fun i =>
      sum_congr rfl fun c hc => by simp only [vy c (mem_range.mp hc)]
    have mGt : ∀ i, pb.G.tmulVec (fun j => v (pb.n + pb.p + j)) i = pb.G.tmulVec z i := fun i =>
      sum_congr rfl fun c _ => by simp only [vz]
    have v1 : v (p r) = 1 := by rw [e1, vy l hl]; exact he.one
    have v0 : ∀ c, c < pb.N → r < q c → v c = 0 := by
      intro c hc hq
      have hne : ¬ Earlier k.P r c := by rw [ear hr hc]; omega
      rcases Nat.lt_or_ge c pb.n with c1 | c1
      · rw [vx c c1]; exact he.suppX c c1 hne
      rcases Nat.lt_or_ge c (pb.n + pb.p) with c2 | c2
      · have ec : pb.n + (c - pb.n) = c := by omega
        rw [← ec, vy _ (by omega)]
        refine he.suppY _ (by omega) ?_ (by rwa [ec])
        intro h
        have : c = p r := by omega
        rw [this, hp.qp r hr] at hq
        omega
      · have ec : pb.n + pb.p + (c - pb.n - pb.p) = c := by omega
        rw [← ec, vz]
        exact he.suppZ _ (by omega) (by rwa [ec])
    have row : ∀ c, c < pb.N → q c < r → ∑ c' ∈ range pb.N, kktEntry pb.P pb.A pb.G dd c c' * v c' = 0 := by
      intro c hc hq
      have hb : Earlier k.P r c := (ear hr hc).mpr hq
      rcases Nat.lt_or_ge c pb.n with c1 | c1
      · rw [(bl v).1 c c1, mP, mAt, mGt]; exact he.rowX c c1 hb
      rcases Nat.lt_or_ge c (pb.n + pb.p) with c2 | c2
      · have ec : pb.n + (c - pb.n) = c := by omega
        have := (bl v).2.1 (c - pb.n) (by omega)
        rw [ec] at this
        rw [this, mA]
        exact he.rowY _ (by omega) (by rwa [ec])
      · have ec : pb.n + pb.p + (c - pb.n - pb.p) = c := by omega
        have := (bl v).2.2 (c - pb.n - pb.p) (by omega)
        rw [ec] at this
        rw [this, mG, he.rowZ _ (by omega) (by rwa [ec]), ← ec, vz, ec]
        ring
    have hraw := (pivot_any hp u1 u0 hM hs hr (fun s hs' => hkeep s (by omega))).2 v v1 v0 row
    rw [row_energy (n := pb.n) (by omega) hp hs (kkt_low dd) hr (by omega) v1 v0 row, energy_blocks] at hraw
    have ed : dot pb.n v (pb.P.mulVec v) = dot pb.n x (pb.P.mulVec x) :=
      sum_congr rfl fun i hi => by rw [vx i (mem_range.mp hi), mP]
    simp only [vz] at hraw
    rw [ed] at hraw
    have nn : 0 ≤ dot pb.n x (pb.P.mulVec x) + ∑ i ∈ range pb.m, -(dd i) * (z i * z i) := by
      refine add_nonneg ?_ (sum_nonneg fun i hi => mul_nonneg ?_ (mul_self_nonneg _))
      · refine le_trans ?_ (hP x)
        exact mul_nonneg (by linarith) (sum_nonneg fun i _ => mul_self_nonneg _)
      · have := hdd i (mem_range.mp hi); linarith
    by_contra hcon
    rw [not_lt] at hcon
    have habs : |raw r| ≤ 1 / 10 ^ 14 := by
      rw [hraw, abs_neg, abs_of_nonneg nn]; exact hcon
    have h2 := g2 r hr
    rw [if_pos habs, hkeep r hr, if_pos (by rw [hraw]; linarith)] at h2
    rw [h2, abs_neg, abs_of_pos (by positivity)] at habs
    norm_num at habs
  · intro hind
    obtain ⟨L, e, hF', _, _, e1, _, e3⟩ := kkt_pivots hpb hsym heps hP
      (fun i hi => by have := hdd i hi; linarith) hp hk hf
    have hee : ∀ i, i < pb.N → e i = regDiag t raw q i := fun i hi => hF'.unique hF hp hi
    have hkeep : ∀ r, r < pb.N → t.D r = raw r := by
      intro r
      induction r using Nat.strong_induction_on with
      | _ r ih =>
      intro hr
      have hpr := hp.p_lt r hr
      have hreg : e (p r) = 0 → t.D r = raw r := by
        intro h
        have h2 := hee (p r) hpr
        rw [h] at h2
        unfold regDiag at h2
        rw [hp.qp r hr] at h2
        exact (sub_eq_zero.mp h2.symm)
      rcases Nat.lt_or_ge (p r) pb.n with c1 | c1
      · exact hreg (e1 _ c1)
      rcases Nat.lt_or_ge (p r) (pb.n + pb.p) with c2 | c2
      · have ec : pb.n + (p r - pb.n) = p r := by omega
        obtain ⟨⟨v, v1, v0, row⟩, huse⟩ := pivot_any hp u1 u0 hM hs hr (fun s hs' => ih s hs' (by omega))
        have hraw := huse v v1 v0 row
        rw [row_energy (n := pb.n) (by omega) hp hs (kkt_low dd) hr (by omega) v1 v0 row, energy_blocks] at hraw
        have sup : ∀ c, c < pb.N → c ≠ p r → ¬ Earlier k.P r c → v c = 0 := by
          intro c hc hne hE
          rw [ear hr hc] at hE
          refine v0 c hc ?_
          rcases Nat.lt_trichotomy (q c) r with h | h | h
          · exact absurd h hE
          · exact absurd (by rw [← h, hp.pq c hc]) hne
          · exact h
        have hin := hind r (p r - pb.n) v (fun j => v (pb.n + j)) (fun j => v (pb.n + pb.p + j)) hr (by omega)
          (by rw [ec]; exact hk.P r hr)
          { one := by rw [ec]; exact v1
            suppX := fun j hj hE => sup j (by omega) (by omega) hE
            suppY := fun l hl hne hE => sup _ (by omega) (by omega) hE
            suppZ := fun i hi hE => sup _ (by omega) (by omega) hE
            rowX := fun j hj hE => by
              rw [← (bl v).1 j hj]; exact row j (by omega) ((ear hr (by omega)).mp hE)
            rowY := fun l hl hE => by
              rw [← (bl v).2.1 l hl]; exact row _ (by omega) ((ear hr (by omega)).mp hE)
            rowZ := fun i hi hE => by
              have h1 := (bl v).2.2 i hi
              rw [row _ (by omega) ((ear hr (by omega)).mp hE)] at h1
              linear_combination -h1 }
        rw [g2 r hr, if_neg]
        rw [hraw, abs_neg, abs_of_pos (by linarith)]
        linarith
      · have := e3 (p r - pb.n - pb.p) (by omega) (hdd _ (by omega))
        rw [show pb.n + pb.p + (p r - pb.n - pb.p) = p r by omega] at this
        exact hreg this
    refine hF.exact (fun r hr => hp.p_lt r hr) fun i hi => ?_
    unfold regDiag
    rw [hkeep _ (hp.q_lt i hi), sub_self]

/-- **C98**, setup: the factorisation is exact if and only if every elimination vector has energy above `1e-14`. -/
theorem C98_setup {amd : Amd} {a : SetupArgs K} {pb : Problem K} {q0 : QP K}
    (h : Started amd a pb q0) (hsym : pb.P.Symm) {eps : K} (heps : 1 / 10 ^ 14 < eps)
    (hP : pb.Strong eps) : q0.kkt.Exact pb.N ↔ pb.OrderIndep q0.kkt.P (fun _ => 1) := by
  obtain ⟨p, q, hd⟩ := h.done
  obtain ⟨t, hfac, _⟩ := hd.iter
  have := kkt_exact_iff h.wf hsym heps hP (dd := fun _ => Scalar.dec (-1) 0) (fun i _ => by
    simp only [dec_neg_one, neg_neg]
    rw [div_lt_one (by positivity)]; norm_num) hd.kkt hfac
  simpa only [dec_neg_one, neg_neg] using this

/-- **C98**, iterations: the same for every iteration from a point whose ratios of slack to multiplier exceed
`1e-14`, with these ratios as weights. -/
theorem C98_step {amd : Amd} {a : SetupArgs K} {pb : Problem K} {q0 qp qp' : QP K}
    (h : Started amd a pb q0) (hsym : pb.P.Symm) {eps : K} (heps : 1 / 10 ^ 14 < eps)
    (hP : pb.Strong eps) (hr : Reach q0 qp)
    (hb : solveBody qp = .ok (qp', false)) {x y z s : Nat → K} (hi : qp.Iter pb x y z s)
    (hsz : ∀ i, i < pb.m → 1 / 10 ^ 14 < s i / z i) :
    qp'.kkt.Exact pb.N ↔ pb.OrderIndep q0.kkt.P (fun i => s i / z i) := by
  obtain ⟨p, q, hs, _⟩ := h.sinv hr
  obtain ⟨_, _, _, hsd⟩ := h.sinv (.iteration hr hb)
  obtain ⟨t, hst, _⟩ := (hs.bodyOut h.wf hb hi).step rfl
  simp only at hst
  have esl : slackD z s = fun i => -(s i / z i) := by
    funext i; unfold slackD; rw [neg_div]
  have := kkt_exact_iff h.wf hsym heps hP (dd := slackD z s) (fun i hm => by
    rw [esl]; simpa using hsz i hm) hst.sym hst.fac
  rw [hsd.perm] at this
  rw [this, esl]
  simp only [neg_neg]

end Exact

/-! ## Examples -/

theorem demoPermut_get : ∀ i, i < 6 → demoPermut[i]? = some (some (demoPerm i : Int)) :=
  fun i hi => Buf.has_ofFn 6 (fun i => (demoPerm i : Int)) i hi

theorem demoPerm_eq : ∀ i, i < 6 → demoPerm i = 3 → i = 2 := by decide

theorem demo_earlier : ∀ i, i < 6 → (Earlier demoPermut 2 i ↔ demoPermInv i < 2) := fun i hi =>
  earlier_iff demoPerm_pair (Buf.has_ofFn 6 (fun i => (demoPerm i : Int))) (by decide) hi

/-- In the order of the demo the equality constraint comes before two of its variables; its elimination vector has
energy `1/5`. -/
theorem demo_orderIndep : (demoPb ℝ).OrderIndep demoPermut (fun _ => 1) := by
  intro r k x y z hr hk hpr he
  have hr : r < 6 := hr
  have hk : k < 1 := hk
  have hk0 : k = 0 := by omega
  subst hk0
  have hr2 : r = 2 := by
    rw [demoPermut_get r hr] at hpr
    have := Option.some.inj (Option.some.inj hpr)
    have h3 : ((demoPb ℝ).n + 0 : Nat) = 3 := rfl
    rw [h3] at this
    exact demoPerm_eq r hr (by omega)
  subst hr2
  have n0 : ¬ Earlier demoPermut 2 0 := by rw [demo_earlier 0 (by decide)]; decide
  have n1 : ¬ Earlier demoPermut 2 1 := by rw [demo_earlier 1 (by decide)]; decide
  have n4 : ¬ Earlier demoPermut 2 4 := by rw [demo_earlier 4 (by decide)]; decide
  have y2 : Earlier demoPermut 2 2 := by rw [demo_earlier 2 (by decide)]; decide
  have y5 : Earlier demoPermut 2 5 := by rw [demo_earlier 5 (by decide)]; decide
  have x0 := he.suppX 0 (by decide) n0
  have x1 := he.suppX 1 (by decide) n1
  have z0 := he.suppZ 0 (by decide) n4
  have y1 := he.one
  have a := he.rowX 2 (by decide) y2
  have b := he.rowZ 1 (by decide) y5
  simp [Csc.mulVec, Csc.tmulVec, demoPb, Csc.lit, Csc.entry, sum_Ico_eq_sum_range, sum_range_succ, x1, y1] at a b
  simp [dot, Csc.mulVec, Problem.n, Problem.m, demoPb, Csc.lit, Csc.entry, sum_Ico_eq_sum_range, sum_range_succ,
    x0, x1, z0]
  have hx : x 2 = -(1 / 5) := by linarith
  have hz : z 1 = 1 / 5 := by linarith
  rw [hx, hz]
  norm_num

/-- C98 for the demo with the ordering that comes with it: exact, although two variables follow the equality
constraint. -/
example : ∃ q0 : QP ℝ, Started failAmd (demoArgs ℝ) (demoPb ℝ) q0 ∧ ¬ VarsFirst (demoPb ℝ) q0.kkt.P ∧
    q0.kkt.Exact 6 := by
  obtain ⟨q0, h⟩ := demo_started ℝ
  have hP := ((C54_ordering_used h).1 _ rfl).1
  refine ⟨q0, h, ?_, (C98_setup h demoPb_symm one_gt_small demoPb_strong).mpr (by rw [hP]; exact demo_orderIndep)⟩
  rw [hP]
  intro hv
  have := hv 5 2 0 3 (by decide) (by decide) rfl rfl (by decide) (by decide) (by decide)
  omega

/-- C98 in the other direction: with the equality constraint first its elimination vector has no energy. -/
example : ∃ q0 : QP ℝ, Started failAmd (eqArgs ℝ) (demoPb ℝ) q0 ∧ ¬ (demoPb ℝ).OrderIndep q0.kkt.P (fun _ => 1) ∧
    ¬ q0.kkt.Exact 6 := by
  obtain ⟨q0, h⟩ := eqArgs_started ℝ
  have hP := ((C54_ordering_used h).1 _ rfl).1
  have hno : ¬ (demoPb ℝ).OrderIndep q0.kkt.P (fun _ => 1) := by
    rw [hP]
    intro hi
    have hE : ∀ i, ¬ Earlier (Buf.ofFn 6 (fun i => (eqFirst i : Int))) 0 i := fun i ⟨t, ht, _⟩ => absurd ht (by omega)
    have := hi 0 0 (fun _ => 0) (fun _ => 1) (fun _ => 0) (by decide) (by decide) rfl
      { one := rfl
        suppX := fun _ _ _ => rfl
        suppY := fun l hl hne _ => absurd hl (by
          have : (demoPb ℝ).p = 1 := rfl
          omega)
        suppZ := fun _ _ _ => rfl
        rowX := fun _ _ h => absurd h (hE _)
        rowY := fun _ _ h => absurd h (hE _)
        rowZ := fun _ _ h => absurd h (hE _) }
    simp [dot] at this
    norm_num at this
  exact ⟨q0, h, hno, fun hex => hno ((C98_setup h demoPb_symm one_gt_small demoPb_strong).mp hex)⟩

/-- C98 for an iteration: the hypotheses are met with the rows in order. -/
example : ∃ (q0 qp qp' : QP ℝ) (z s : Nat → ℝ), Started failAmd (idArgs ℝ) (demoPb ℝ) q0 ∧ Reach q0 qp ∧
    solveBody qp = .ok (qp', false) ∧ (demoPb ℝ).OrderIndep q0.kkt.P (fun i => s i / z i) := by
  obtain ⟨q0, h⟩ := idArgs_started ℝ
  have hv := C96_permut h rfl idArgs_first
  obtain ⟨o, qp', x, y, z, s, hi, hb⟩ := step_exists h .start
  have hrat := id_ratiosAbove h o 0 _ x y z s (by decide) (.zero _) ⟨hi.x, hi.y, hi.z, hi.s⟩
  have hsz : ∀ i, i < (demoPb ℝ).m → 1 / 10 ^ 14 < s i / z i := fun i hm => lt_of_lt_of_le one_gt_small (hrat i hm)
  exact ⟨q0, _, qp', z, s, h, .options o .start, hb,
    (C98_step h demoPb_symm one_gt_small demoPb_strong (.options o .start) hb hi hsz).mp
      (C96_exact_step h demoPb_symm one_gt_small demoPb_strong hv (.options o .start) hb hi hsz
        (demo_indep fun i hm => le_trans (by norm_num) (hrat i hm)))⟩

end Verif
