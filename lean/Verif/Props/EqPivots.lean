import Verif.Lemmas.QuasiEq
import Verif.Props.Pivots
import Verif.Props.Order

/-!
# C96: pivots of equality constraints
-/

set_option linter.unusedSectionVars false

namespace Verif

open Finset

/-! ## Specification -/

section Spec

variable {K : Type} [Field K] [LinearOrder K]

/-- The elimination order in the array `P` takes every variable before every equality constraint. -/
def VarsFirst (pb : Problem K) (P : Buf Int) : Prop :=
  ∀ (i j : Nat) (u v : Int), i < pb.N → j < pb.N → P[i]? = some (some u) → P[j]? = some (some v) →
    u < pb.n → (pb.n : Int) ≤ v → v < ((pb.n + pb.p : Nat) : Int) → i < j

/-- No equality constraint is close to a combination of other constraints: if `Px + Aᵀy + Gᵀz = 0` and some component of
`y` is one, then `xᵀPx + ∑ w z²` exceeds `1e-14`. -/
def Problem.EqIndep (pb : Problem K) (w : Nat → K) : Prop :=
  ∀ x y z : Nat → K, (∀ i, i < pb.n → pb.P.mulVec x i + pb.A.tmulVec y i + pb.G.tmulVec z i = 0) →
    ∀ k, k < pb.p → y k = 1 → 1 / 10 ^ 14 < dot pb.n x (pb.P.mulVec x) + ∑ i ∈ range pb.m, w i * (z i * z i)

end Spec

section Exact

variable {K : Type} [Field K] [LinearOrder K] [IsStrictOrderedRing K] [Scalar K] [LawfulScalar K]

/-- The unit triangular factor as a function on all indices. -/
def uFun (N : Nat) (t : FSt K) (i j : Nat) : K :=
  if j < N then (facCsc N t).unitEntry i j else if i = j then 1 else 0

theorem uFun_self (N : Nat) (t : FSt K) (i : Nat) : uFun N t i i = 1 := by
  unfold uFun
  split
  · unfold Csc.unitEntry; rw [if_pos rfl]
  · rw [if_pos rfl]

theorem uFun_zero {N : Nat} {t : FSt K} (low : ∀ c, c < N → ∀ r, (facCsc N t).Stored r c → c < r) {i j : Nat} (hij : i < j) :
    uFun N t i j = 0 := by
  unfold uFun
  split
  · rename_i h
    unfold Csc.unitEntry
    rw [if_neg (by omega)]
    unfold Csc.entry
    refine sum_eq_zero fun k hk' => ?_
    rw [if_neg]
    intro e
    have := low j h i ⟨k, by
      have := mem_Ico.mp hk'; exact this.1, (mem_Ico.mp hk').2, e⟩
    omega
  · rw [if_neg (by omega)]

/-- The factorisation stored in the structure, with the pivots before the rule is applied. -/
theorem kkt_raw {pb : Problem K} (hpb : pb.WF) {dd : Nat → K} {p q : Nat → Nat} {k : Kkt K} {t : FSt K}
    (hk : KktSym pb.N (kktCsc pb.P pb.A pb.G dd) p q k)
    (hf : KktFac pb.N (kktCsc pb.P pb.A pb.G dd) p q t k) :
    ∃ raw, k.Factored pb.N (kktCsc pb.P pb.A pb.G dd) p (facCsc pb.N t) t.D (regDiag t raw q) ∧
      (∀ i, uFun pb.N t i i = 1) ∧ (∀ i j, i < j → uFun pb.N t i j = 0) ∧
      (∀ r, r < pb.N → ∀ i, i ≤ r → ∑ c ∈ range pb.N, uFun pb.N t i c * t.D c * uFun pb.N t r c
        = kktEntry pb.P pb.A pb.G dd (p i) (p r) + if i = r then t.D r - raw r else 0) ∧
      (∀ r, r < pb.N → t.D r = if |raw r| ≤ 1 / 10 ^ 14 then
        (if raw r ≤ 0 then -(1 / 10 ^ 7) else 1 / 10 ^ 7) else raw r) := by
  have hp := hk.perm
  obtain ⟨raw, hraw⟩ := hf.1.inv
  obtain ⟨g1, g2⟩ := factor_exact hk.wf hk.an hk.am hp hraw
  have ent : ∀ r c, c < pb.N → (kktCsc pb.P pb.A pb.G dd).entry r c
      = kktEntry pb.P pb.A pb.G dd r c := fun r c hc =>
    kktCsc_entry hpb.P hpb.A hpb.G hpb.Pm hpb.An hpb.Gn hpb.rows _ hc
  refine ⟨raw, ⟨hk.wf, hk.an, hk.mat, hk.P, hf.2.factor hk.lp, ?_⟩, uFun_self _ _,
    fun i j => uFun_zero (hf.2.factor hk.lp).lower, ?_, g2⟩
  · intro r hr'
    rw [g1 r hr' r le_rfl, if_pos rfl]
    unfold regDiag
    rw [hp.qp r hr']
  · intro r hr i hi
    rw [← ent _ _ (hp.p_lt r hr), ← g1 r hr i hi]
    unfold ldltEntry uFun
    refine sum_congr rfl fun j hj => ?_
    simp only [if_pos (mem_range.mp hj)]

/-- The value of the KKT matrix in the rows and columns of the constraints. -/
theorem kkt_low {pb : Problem K} (dd : Nat → K) : ∀ i j, pb.n ≤ i → pb.n ≤ j → i < pb.N → j < pb.N →
    kktEntry pb.P pb.A pb.G dd i j
      = if i = j then -(if i < pb.n + pb.p then 0 else -(dd (i - pb.n - pb.p))) else 0 := by
  intro i j hi hj hiN hjN
  have hi' : ¬ i < pb.P.n := Nat.not_lt.mpr hi
  have hj' : ¬ j < pb.P.n := Nat.not_lt.mpr hj
  simp only [kktEntry, if_neg hi', if_neg hj']
  show (if i < pb.n + pb.p then 0 else if i = j then dd (i - pb.n - pb.p) else 0) = _
  by_cases h1 : i < pb.n + pb.p
  · simp [h1]
  · by_cases h2 : i = j
    · subst h2; simp [h1]
    · simp [h1, h2]

/-- All pivots stay as they are. -/
theorem kkt_exact {pb : Problem K} (hpb : pb.WF) (hsym : pb.P.Symm) {eps : K}
    (heps : 1 / 10 ^ 14 < eps) (hP : pb.Strong eps) {dd : Nat → K} (hdd : ∀ i, i < pb.m → 1 / 10 ^ 14 < -(dd i))
    {p q : Nat → Nat} {k : Kkt K} {t : FSt K}
    (hk : KktSym pb.N (kktCsc pb.P pb.A pb.G dd) p q k)
    (hf : KktFac pb.N (kktCsc pb.P pb.A pb.G dd) p q t k)
    (hv : VarsFirst pb k.P) (hind : pb.EqIndep (fun i => -(dd i))) : k.Exact pb.N := by
  have hp := hk.perm
  have eN : pb.N = pb.n + pb.p + pb.m := rfl
  have h14 : (0 : K) < 1 / 10 ^ 14 := by positivity
  obtain ⟨raw, hF, u1, u0, hM, g2⟩ := kkt_raw hpb hk hf
  obtain ⟨L, e, hF', _, _, e1, _, e3⟩ := kkt_pivots hpb hsym heps hP (fun i hi => by have := hdd i hi; linarith) hp hk hf
  have hee : ∀ i, i < pb.N → e i = regDiag t raw q i := fun i hi => hF'.unique hF hp hi
  have hkeep : ∀ r, r < pb.N → t.D r = raw r := by
    intro r
    induction r using Nat.strong_induction_on with
    | _ r ih =>
    intro hr
    have hpr := hp.p_lt r hr
    have hreg : e (p r) = 0 → t.D r = raw r := by
      intro h
      have h2 := hee (p r) hpr
      rw [h] at h2
      unfold regDiag at h2
      rw [hp.qp r hr] at h2
      exact (sub_eq_zero.mp h2.symm)
    rcases Nat.lt_or_ge (p r) pb.n with c1 | c1
    · exact hreg (e1 _ c1)
    rcases Nat.lt_or_ge (p r) (pb.n + pb.p) with c2 | c2
    · have hfirst : ∀ i, i < pb.n → q i < r := by
        intro i hi
        have hiN : i < pb.N := by omega
        have h1 := hk.P (q i) (hp.q_lt i hiN)
        have h2 := hk.P r hr
        simp only [hp.pq i hiN] at h1 h2
        exact hv (q i) r _ _ (hp.q_lt i hiN) hr h1 h2 (by omega) (by omega) (by omega)
      obtain ⟨w, w1, wx, wr⟩ := eq_pivot (n := pb.n) (by omega) hp u1 u0 hM
        (fun r c => kktEntry_symm hsym dd r c) (kkt_low dd) hr c1 hfirst (fun s hs => ih s hs (by omega))
      have hrows := (kkt_blocks hpb.An hpb.Gn dd w).1
      have hin := hind w (fun j => w (pb.n + j)) (fun j => w (pb.n + pb.p + j))
        (fun i hi => by rw [← hrows i hi]; exact wx i hi) (p r - pb.n) (by omega)
        (by rw [show pb.n + (p r - pb.n) = p r by omega]; exact w1)
      have s1 : ∑ i ∈ range pb.n, w i * ∑ j ∈ range pb.n, kktEntry pb.P pb.A pb.G dd i j * w j
          = dot pb.n w (pb.P.mulVec w) := by
        unfold dot Csc.mulVec
        refine sum_congr rfl fun i hi => ?_
        congr 1
        refine sum_congr rfl fun j hj => ?_
        have hi' : i < pb.P.n := mem_range.mp hi
        have hj' : j < pb.P.n := mem_range.mp hj
        simp only [kktEntry, if_pos hi', if_pos hj']
      have s2 : ∑ c ∈ Ico pb.n pb.N, (if c < pb.n + pb.p then 0 else -(dd (c - pb.n - pb.p))) * (w c * w c)
          = ∑ i ∈ range pb.m, -(dd i) * (w (pb.n + pb.p + i) * w (pb.n + pb.p + i)) := by
        rw [← sum_Ico_consecutive _ (by omega : pb.n ≤ pb.n + pb.p) (by omega : pb.n + pb.p ≤ pb.N)]
        rw [sum_eq_zero (s := Ico pb.n (pb.n + pb.p)), zero_add, sum_Ico_eq_sum_range,
          show pb.N - (pb.n + pb.p) = pb.m by omega]
        · refine sum_congr rfl fun i _ => ?_
          rw [if_neg (by omega), show pb.n + pb.p + i - pb.n - pb.p = i by omega]
        · intro c hc
          rw [if_pos (mem_Ico.mp hc).2, zero_mul]
      rw [s1, s2] at wr
      rw [g2 r hr, if_neg]
      rw [wr, abs_neg, abs_of_pos (by linarith)]
      linarith
    · have := e3 (p r - pb.n - pb.p) (by omega) (hdd _ (by omega))
      rw [show pb.n + pb.p + (p r - pb.n - pb.p) = p r by omega] at this
      exact hreg this
  refine hF.exact (fun r hr => hp.p_lt r hr) fun i hi => ?_
  unfold regDiag
  rw [hkeep _ (hp.q_lt i hi), sub_self]

/-- **C96**, setup: with `P` symmetric and strongly convex, variables eliminated before equality constraints and
independent constraints the factorisation of setup is exact. -/
theorem C96_exact_setup {amd : Amd} {a : SetupArgs K} {pb : Problem K} {q0 : QP K}
    (h : Started amd a pb q0) (hsym : pb.P.Symm) {eps : K} (heps : 1 / 10 ^ 14 < eps)
    (hP : pb.Strong eps) (hv : VarsFirst pb q0.kkt.P) (hind : pb.EqIndep (fun _ => 1)) : q0.kkt.Exact pb.N := by
  obtain ⟨p, q, hd⟩ := h.done
  obtain ⟨t, hfac, _⟩ := hd.iter
  refine kkt_exact h.wf hsym heps hP (dd := fun _ => Scalar.dec (-1) 0) ?_ hd.kkt hfac hv ?_
  · intro i _
    simp only [dec_neg_one, neg_neg]
    rw [div_lt_one (by positivity)]; norm_num
  · simpa only [dec_neg_one, neg_neg] using hind

/-- **C96**, iterations: the same for every iteration from a point whose ratios of slack to multiplier exceed
`1e-14`. -/
theorem C96_exact_step {amd : Amd} {a : SetupArgs K} {pb : Problem K} {q0 qp qp' : QP K}
    (h : Started amd a pb q0) (hsym : pb.P.Symm) {eps : K} (heps : 1 / 10 ^ 14 < eps)
    (hP : pb.Strong eps) (hv : VarsFirst pb q0.kkt.P) (hr : Reach q0 qp)
    (hb : solveBody qp = .ok (qp', false)) {x y z s : Nat → K} (hi : qp.Iter pb x y z s)
    (hsz : ∀ i, i < pb.m → 1 / 10 ^ 14 < s i / z i) (hind : pb.EqIndep (fun i => s i / z i)) :
    qp'.kkt.Exact pb.N := by
  obtain ⟨p, q, hs, _⟩ := h.sinv hr
  obtain ⟨_, _, _, hsd⟩ := h.sinv (.iteration hr hb)
  obtain ⟨t, hst, _⟩ := (hs.bodyOut h.wf hb hi).step rfl
  simp only at hst
  have esl : slackD z s = fun i => -(s i / z i) := by
    funext i; unfold slackD; rw [neg_div]
  refine kkt_exact h.wf hsym heps hP (dd := slackD z s) ?_ hst.sym hst.fac (by rw [hsd.perm]; exact hv) ?_
  · intro i hm
    rw [esl]
    simpa using hsz i hm
  · rw [esl]
    simpa using hind

/-- **C96**, consequence: in such an iteration the residuals of both kinds of constraints shrink by exactly one minus
the primal step. -/
theorem C96_contract {amd : Amd} {a : SetupArgs K} {pb : Problem K} {q0 qp qp' : QP K} [LawfulSqrt K]
    (h : Started amd a pb q0) (hsym : pb.P.Symm) {eps : K} (heps : 1 / 10 ^ 14 < eps)
    (hP : pb.Strong eps) (hv : VarsFirst pb q0.kkt.P) (hr : Reach q0 qp)
    (hb : solveBody qp = .ok (qp', false)) {x y z s x' y' z' s' : Nat → K} (hi : qp.Iter pb x y z s)
    (hi' : qp'.Iter pb x' y' z' s')
    (hsz : ∀ i, i < pb.m → 1 / 10 ^ 14 < s i / z i) (hind : pb.EqIndep (fun i => s i / z i)) :
    (∀ i, i < pb.p → pb.ry x' i = (1 - qp'.stats.alpha_p) * pb.ry x i) ∧
    (∀ i, i < pb.m → pb.rz x' s' i = (1 - qp'.stats.alpha_p) * pb.rz x s i) :=
  C30_contract h hsym hr hb (C96_exact_step h hsym heps hP hv hr hb hi hsz hind) hi hi'

/-- A permutation given by the caller is the elimination order. -/
theorem C96_permut {amd : Amd} {a : SetupArgs K} {pb : Problem K} {q0 : QP K} (h : Started amd a pb q0)
    {B : Buf Int} (hB : a.Permut = some B) (hv : VarsFirst pb B) : VarsFirst pb q0.kkt.P := by
  rw [((C54_ordering_used h).1 B hB).1]
  exact hv

/-- **C96**, a sufficient condition: `Px` and `Gᵀz` are bounded by multiples of `x` and `z`, `Aᵀy` is not small,
and the weights are not small. -/
theorem C96_indep {pb : Problem K} {w : Nat → K} {eps om kap Lam gam tt : K} (hP : pb.Strong eps)
    (hw : ∀ i, i < pb.m → om ≤ w i) (ht : 0 ≤ tt)
    (hA : ∀ y, kap * dot pb.p y y ≤ dot pb.n (pb.A.tmulVec y) (pb.A.tmulVec y))
    (hPb : ∀ x, dot pb.n (pb.P.mulVec x) (pb.P.mulVec x) ≤ Lam * dot pb.n x x)
    (hG : ∀ z, dot pb.n (pb.G.tmulVec z) (pb.G.tmulVec z) ≤ gam * dot pb.m z z)
    (h1 : 2 * Lam ≤ tt * eps) (h2 : 2 * gam ≤ tt * om) (hk : 0 ≤ kap) (h3 : tt * (1 / 10 ^ 14) < kap) :
    pb.EqIndep w := by
  intro x y z hrow k hk' hy
  by_contra hcon
  rw [not_lt] at hcon
  have hyy : 1 ≤ dot pb.p y y := by
    have := single_le_sum (f := fun i => y i * y i) (fun i _ => mul_self_nonneg (y i)) (mem_range.mpr hk')
    simp only [hy, mul_one] at this
    exact this
  have hxx : 0 ≤ dot pb.n x x := sum_nonneg fun i _ => mul_self_nonneg _
  have hzz : 0 ≤ dot pb.m z z := sum_nonneg fun i _ => mul_self_nonneg _
  have hsq : dot pb.n (pb.A.tmulVec y) (pb.A.tmulVec y)
      ≤ 2 * dot pb.n (pb.P.mulVec x) (pb.P.mulVec x) + 2 * dot pb.n (pb.G.tmulVec z) (pb.G.tmulVec z) := by
    unfold dot
    rw [mul_sum, mul_sum, ← sum_add_distrib]
    refine sum_le_sum fun i hi => ?_
    have e : pb.A.tmulVec y i = -(pb.P.mulVec x i + pb.G.tmulVec z i) := by
      linear_combination hrow i (mem_range.mp hi)
    rw [e]
    nlinarith [mul_self_nonneg (pb.P.mulVec x i - pb.G.tmulVec z i)]
  have hwz : om * dot pb.m z z ≤ ∑ i ∈ range pb.m, w i * (z i * z i) := by
    unfold dot
    rw [mul_sum]
    exact sum_le_sum fun i hi => mul_le_mul_of_nonneg_right (hw i (mem_range.mp hi)) (mul_self_nonneg _)
  have hPx := hP x
  have a1 : kap ≤ kap * dot pb.p y y := le_mul_of_one_le_right hk hyy
  have a2 := hA y
  have a3 := hPb x
  have a4 := hG z
  have a5 : 2 * Lam * dot pb.n x x ≤ tt * eps * dot pb.n x x := mul_le_mul_of_nonneg_right h1 hxx
  have a6 : 2 * gam * dot pb.m z z ≤ tt * om * dot pb.m z z := mul_le_mul_of_nonneg_right h2 hzz
  have a7 : tt * (eps * dot pb.n x x + om * dot pb.m z z) ≤ tt * (1 / 10 ^ 14) :=
    mul_le_mul_of_nonneg_left (by linarith) ht
  nlinarith

/-- **C96**, the ordering matters: an equality constraint none of whose variables precede it gets the pivot `-1e-7`
instead of zero, and the factorisation is not exact. -/
theorem early_changed {pb : Problem K} (hpb : pb.WF) (hsym : pb.P.Symm) {dd : Nat → K} {p q : Nat → Nat} {k : Kkt K}
    {t : FSt K} (hk : KktSym pb.N (kktCsc pb.P pb.A pb.G dd) p q k)
    (hf : KktFac pb.N (kktCsc pb.P pb.A pb.G dd) p q t k) {i r : Nat} (hi : i < pb.p) (hr : r < pb.N)
    (hpr : k.P[r]? = some (some ((pb.n + i : Nat) : Int)))
    (hno : ∀ (j r' : Nat), j < pb.n → k.P[r']? = some (some (j : Int)) → r' < r → pb.A.entry i j = 0) :
    Buf.Has k.D pb.N t.D ∧ t.D r = -(1 / 10 ^ 7) ∧ ¬ k.Exact pb.N := by
  have hp := hk.perm
  have eN : pb.N = pb.n + pb.p + pb.m := rfl
  obtain ⟨raw, hF, u1, u0, hM, g2⟩ := kkt_raw hpb hk hf
  have e1 : p r = pb.n + i := by
    have := hk.P r hr
    rw [this] at hpr
    have := Option.some.inj (Option.some.inj hpr)
    simp only at this
    omega
  have hn1 : ¬ pb.n + i < pb.P.n := by show ¬ pb.n + i < pb.n; omega
  have hn2 : pb.n + i < pb.P.n + pb.A.m := by show pb.n + i < pb.n + pb.p; omega
  have hraw : raw r = 0 := by
    rw [early_pivot hp u1 u0 hM (fun r c => kktEntry_symm hsym dd r c) hr ?_, e1]
    · simp only [kktEntry, if_neg hn1, if_pos hn2]
    · intro c hc hq
      rw [e1]
      simp only [kktEntry, if_neg hn1, if_pos hn2]
      by_cases hcn : c < pb.P.n
      · rw [if_pos hcn, show pb.n + i - pb.P.n = i by show pb.n + i - pb.n = i; omega]
        refine hno c (q c) hcn ?_ hq
        have := hk.P (q c) (hp.q_lt c hc)
        simpa only [hp.pq c hc] using this
      · rw [if_neg hcn]
  have hD : t.D r = -(1 / 10 ^ 7) := by
    rw [g2 r hr, hraw, abs_zero, if_pos (by positivity), if_pos le_rfl]
  refine ⟨hF.fac.D, hD, ?_⟩
  rintro ⟨M', p', L', d', hf'⟩
  have := hF.unique hf' hp (hp.p_lt r hr)
  unfold regDiag at this
  rw [hp.qp r hr, hD, hraw] at this
  norm_num at this

/-- **C96**, the ordering matters, in setup. -/
theorem C96_early_setup {amd : Amd} {a : SetupArgs K} {pb : Problem K} {q0 : QP K}
    (h : Started amd a pb q0) (hsym : pb.P.Symm) {i r : Nat} (hi : i < pb.p) (hr : r < pb.N)
    (hpr : q0.kkt.P[r]? = some (some ((pb.n + i : Nat) : Int)))
    (hno : ∀ (j r' : Nat), j < pb.n → q0.kkt.P[r']? = some (some (j : Int)) → r' < r → pb.A.entry i j = 0) :
    q0.kkt.D[r]? = some (some (-(1 / 10 ^ 7))) ∧ ¬ q0.kkt.Exact pb.N := by
  obtain ⟨p, q, hd⟩ := h.done
  obtain ⟨t, hfac, _⟩ := hd.iter
  obtain ⟨h1, h2, h3⟩ := early_changed h.wf hsym hd.kkt hfac hi hr hpr hno
  exact ⟨by rw [h1 r hr, h2], h3⟩

/-- **C96**, the ordering matters, in every iteration. -/
theorem C96_early_step {amd : Amd} {a : SetupArgs K} {pb : Problem K} {q0 qp qp' : QP K}
    (h : Started amd a pb q0) (hsym : pb.P.Symm) (hr' : Reach q0 qp)
    (hb : solveBody qp = .ok (qp', false)) {i r : Nat} (hi : i < pb.p) (hr : r < pb.N)
    (hpr : q0.kkt.P[r]? = some (some ((pb.n + i : Nat) : Int)))
    (hno : ∀ (j r' : Nat), j < pb.n → q0.kkt.P[r']? = some (some (j : Int)) → r' < r → pb.A.entry i j = 0) :
    qp'.kkt.D[r]? = some (some (-(1 / 10 ^ 7))) ∧ ¬ qp'.kkt.Exact pb.N := by
  obtain ⟨p, q, hs, _⟩ := h.sinv hr'
  obtain ⟨_, _, hin, _⟩ := h.sinv hr'
  obtain ⟨x, y, z, s, hit⟩ := hin.iter
  obtain ⟨_, _, _, hsd⟩ := h.sinv (.iteration hr' hb)
  obtain ⟨t, hst, _⟩ := (hs.bodyOut h.wf hb hit).step rfl
  simp only at hst
  rw [← hsd.perm] at hpr hno
  obtain ⟨h1, h2, h3⟩ := early_changed h.wf hsym hst.sym hst.fac hi hr hpr hno
  exact ⟨by rw [h1 r hr, h2], h3⟩

/-- **C96**, dependent equality constraints: whatever the ordering and whatever `P` and `G` are, neither the
factorisation of setup nor that of any iteration is exact. -/
theorem C96_dependent {amd : Amd} {a : SetupArgs K} {pb : Problem K} {q0 : QP K}
    (h : Started amd a pb q0) (hsym : pb.P.Symm) {y : Nat → K} {k : Nat} (hk : k < pb.p) (hy : y k ≠ 0)
    (hdep : ∀ i, i < pb.n → pb.A.tmulVec y i = 0) :
    ¬ q0.kkt.Exact pb.N ∧
      ∀ qp qp', Reach q0 qp → solveBody qp = .ok (qp', false) → ¬ qp'.kkt.Exact pb.N := by
  have eN : pb.N = pb.n + pb.p + pb.m := rfl
  have key : ∀ {dd : Nat → K} {p q : Nat → Nat} {kk : Kkt K} {t : FSt K},
      KktSym pb.N (kktCsc pb.P pb.A pb.G dd) p q kk → KktFac pb.N (kktCsc pb.P pb.A pb.G dd) p q t kk →
      ¬ kk.Exact pb.N := by
    intro dd p q kk t h1 h2 hex
    let v : Nat → K := fun c => if c < pb.n then 0 else if c < pb.n + pb.p then y (c - pb.n) else 0
    have v1 : ∀ i, i < pb.n → v i = 0 := fun i hi => by simp only [v, if_pos hi]
    have v2 : ∀ i, i < pb.p → v (pb.n + i) = y i := fun i hi => by
      simp only [v]
      rw [if_neg (by omega), if_pos (by omega), show pb.n + i - pb.n = i by omega]
    have v3 : ∀ i, v (pb.n + pb.p + i) = 0 := fun i => by
      simp only [v]
      rw [if_neg (by omega), if_neg (by omega)]
    obtain ⟨b1, b2, b3⟩ := kkt_blocks h.wf.An h.wf.Gn dd v
    have mP : ∀ i, pb.P.mulVec v i = 0 := fun i => by
      unfold Csc.mulVec
      exact sum_eq_zero fun c hc => by rw [v1 c (mem_range.mp hc), mul_zero]
    have mA : ∀ i, pb.A.mulVec v i = 0 := fun i => by
      unfold Csc.mulVec
      rw [h.wf.An]
      exact sum_eq_zero fun c hc => by rw [v1 c (mem_range.mp hc), mul_zero]
    have mG : ∀ i, pb.G.mulVec v i = 0 := fun i => by
      unfold Csc.mulVec
      rw [h.wf.Gn]
      exact sum_eq_zero fun c hc => by rw [v1 c (mem_range.mp hc), mul_zero]
    have hz := kkt_injective h.wf hsym h1 h2 hex v (by
      intro r hr
      rcases Nat.lt_or_ge r pb.n with c1 | c1
      · rw [b1 r c1, mP]
        have e1 : pb.A.tmulVec (fun j => v (pb.n + j)) r = pb.A.tmulVec y r := by
          unfold Csc.tmulVec
          exact sum_congr rfl fun c hc => by simp only [v2 c (mem_range.mp hc)]
        have e2 : pb.G.tmulVec (fun j => v (pb.n + pb.p + j)) r = 0 := by
          unfold Csc.tmulVec
          exact sum_eq_zero fun c _ => by simp only [v3, mul_zero]
        rw [e1, e2, hdep r c1]
        ring
      rcases Nat.lt_or_ge r (pb.n + pb.p) with c2 | c2
      · have := b2 (r - pb.n) (by omega)
        rw [show pb.n + (r - pb.n) = r by omega] at this
        rw [this, mA]
      · have := b3 (r - pb.n - pb.p) (by omega)
        rw [show pb.n + pb.p + (r - pb.n - pb.p) = r by omega] at this
        rw [this, mG]
        have h3 := v3 (r - pb.n - pb.p)
        rw [show pb.n + pb.p + (r - pb.n - pb.p) = r by omega] at h3
        rw [h3, mul_zero, add_zero])
    have := hz (pb.n + k) (by omega)
    rw [v2 k hk] at this
    exact hy this
  refine ⟨?_, ?_⟩
  · obtain ⟨p, q, hd⟩ := h.done
    obtain ⟨t, hfac, _⟩ := hd.iter
    exact key hd.kkt hfac
  · intro qp qp' hr hb
    obtain ⟨p, q, hs, _⟩ := h.sinv hr
    obtain ⟨_, _, hin, _⟩ := h.sinv hr
    obtain ⟨x, y, z, s, hit⟩ := hin.iter
    obtain ⟨t, hst, _⟩ := (hs.bodyOut h.wf hb hit).step rfl
    simp only at hst
    exact key hst.sym hst.fac

end Exact

/-! ## Examples -/

section Cases

variable {K : Type} [Field K]

/-- Equality constraint first. -/
def eqFirst : Nat → Nat := fun i => [3, 0, 1, 2, 4, 5].getD i 0

theorem eqFirst_pair : PermPair 6 eqFirst (fun i => [1, 2, 3, 0, 4, 5].getD i 0) where
  p_lt := by intro i hi; interval_cases i <;> decide
  q_lt := by intro i hi; interval_cases i <;> decide
  qp := by intro i hi; interval_cases i <;> decide
  pq := by intro i hi; interval_cases i <;> decide

/-- The demo with the rows of the KKT matrix taken in order. -/
def idArgs (K : Type) [Field K] : SetupArgs K := (demoPb K).args (some (Buf.ofFn 6 (fun i => (i : Int))))

/-- The demo with the equality constraint first. -/
def eqArgs (K : Type) [Field K] : SetupArgs K :=
  (demoPb K).args (some (Buf.ofFn 6 (fun i => (eqFirst i : Int))))

theorem idArgs_started (K : Type) [Field K] [Scalar K] : ∃ q0, Started failAmd (idArgs K) (demoPb K) q0 := by
  have hg : (idArgs K).Give (demoPb K) :=
    Problem.args_give _ _ (fun h => absurd h (by simp [Problem.p, demoPb, Csc.lit]))
  have hp : PermSource failAmd (idArgs K).Permut (idArgs K).p (demoPb K) :=
    Or.inl ⟨_, _, _, rfl, idPair 6, Buf.has_ofFn _ _⟩
  obtain ⟨q0, h⟩ := C26_setup demoPb_wf hg hp
  exact ⟨q0, demoPb_wf, hg, hp, h⟩

theorem eqArgs_started (K : Type) [Field K] [Scalar K] : ∃ q0, Started failAmd (eqArgs K) (demoPb K) q0 := by
  have hg : (eqArgs K).Give (demoPb K) :=
    Problem.args_give _ _ (fun h => absurd h (by simp [Problem.p, demoPb, Csc.lit]))
  have hp : PermSource failAmd (eqArgs K).Permut (eqArgs K).p (demoPb K) :=
    Or.inl ⟨_, _, _, rfl, eqFirst_pair, Buf.has_ofFn _ _⟩
  obtain ⟨q0, h⟩ := C26_setup demoPb_wf hg hp
  exact ⟨q0, demoPb_wf, hg, hp, h⟩

theorem idArgs_first : VarsFirst (demoPb K) (Buf.ofFn 6 (fun i => (i : Int))) := by
  intro i j u v hi hj h1 h2 hu hv _
  have hi : i < 6 := hi
  have hj : j < 6 := hj
  rw [Buf.has_ofFn 6 (fun i => (i : Int)) i hi] at h1
  rw [Buf.has_ofFn 6 (fun i => (i : Int)) j hj] at h2
  have e1 := Option.some.inj (Option.some.inj h1)
  have e2 := Option.some.inj (Option.some.inj h2)
  simp only at e1 e2
  omega

variable [LinearOrder K] [IsStrictOrderedRing K] [Scalar K] [LawfulScalar K]

/-- The equality constraint of the demo is independent for all weights of at least `1/10`. -/
theorem demo_indep {w : Nat → K} (hw : ∀ i, i < 2 → 1 / 10 ≤ w i) : (demoPb K).EqIndep w := by
  refine C96_indep (eps := 1) (om := 1 / 10) (kap := 6) (Lam := 100) (gam := 100) (tt := 2000) demoPb_strong hw
    (by norm_num) ?_ ?_ ?_ (by norm_num) (by norm_num) (by norm_num) (by norm_num)
  · intro y
    simp [dot, Csc.tmulVec, Problem.n, Problem.p, demoPb, Csc.lit, Csc.entry, sum_Ico_eq_sum_range, sum_range_succ]
    linarith [mul_self_nonneg (y 0)]
  · intro v
    simp [dot, Csc.mulVec, Problem.n, demoPb, Csc.lit, Csc.entry, sum_Ico_eq_sum_range, sum_range_succ]
    nlinarith [mul_self_nonneg (v 0), mul_self_nonneg (v 1), mul_self_nonneg (v 2), mul_self_nonneg (v 0 - v 1),
      mul_self_nonneg (v 0 - v 2), mul_self_nonneg (v 1 - v 2)]
  · intro z
    simp [dot, Csc.tmulVec, Problem.n, Problem.m, demoPb, Csc.lit, Csc.entry, sum_Ico_eq_sum_range, sum_range_succ]
    nlinarith [mul_self_nonneg (z 0), mul_self_nonneg (z 1)]

end Cases

/-- C96, setup of the demo with its rows in order: exact, although there is an equality constraint. -/
example : ∃ q0 : QP ℝ, Started failAmd (idArgs ℝ) (demoPb ℝ) q0 ∧ (demoPb ℝ).p = 1 ∧ q0.kkt.Exact 6 := by
  obtain ⟨q0, h⟩ := idArgs_started ℝ
  exact ⟨q0, h, rfl, C96_exact_setup h demoPb_symm one_gt_small demoPb_strong (C96_permut h rfl idArgs_first)
    (demo_indep fun _ _ => by norm_num)⟩

/-- C96, the demo with the equality constraint first: not exact. -/
example : ∃ q0 : QP ℝ, Started failAmd (eqArgs ℝ) (demoPb ℝ) q0 ∧ q0.kkt.D[0]? = some (some (-(1 / 10 ^ 7) : ℝ)) ∧
    ¬ q0.kkt.Exact 6 := by
  obtain ⟨q0, h⟩ := eqArgs_started ℝ
  have hP := ((C54_ordering_used h).1 _ rfl).1
  obtain ⟨h1, h2⟩ := C96_early_setup h demoPb_symm (i := 0) (r := 0) (by decide) (by decide) (by rw [hP]; rfl)
    (fun _ _ _ _ h => absurd h (Nat.not_lt_zero _))
  exact ⟨q0, h, h1, h2⟩

/-- The demo with its equality constraint given twice. -/
def twicePb (K : Type) [Field K] : Problem K :=
  { demoPb K with
    A := .lit 2 3 [0, 2, 4, 6] [0, 1, 0, 1, 0, 1] [1, 1, -2, -2, 1, 1]
    b := fun _ => 3 }

theorem twicePb_wf {K : Type} [Field K] : (twicePb K).WF :=
  { demoPb_wf (K := K) with
    A := by
      refine ⟨rfl, ?_, ?_⟩
      · intro c hc; simp only [twicePb, Csc.lit] at hc ⊢; interval_cases c <;> decide
      · intro k hk
        simp only [twicePb, Csc.lit, List.getD] at hk ⊢
        norm_num at hk
        interval_cases k <;> decide
    An := rfl }

/-- C96, dependent constraints: the demo with its equality constraint given twice. -/
example : ∃ (q0 : QP ℝ) (a : SetupArgs ℝ), Started failAmd a (twicePb ℝ) q0 ∧ ¬ q0.kkt.Exact 7 := by
  have hg : ((twicePb ℝ).args (some (Buf.ofFn 7 (fun i => (i : Int))))).Give (twicePb ℝ) :=
    Problem.args_give _ _ (fun h => absurd h (by simp [Problem.p, twicePb, Csc.lit]))
  have hp : PermSource failAmd ((twicePb ℝ).args (some (Buf.ofFn 7 (fun i => (i : Int))))).Permut 2 (twicePb ℝ) :=
    Or.inl ⟨_, _, _, rfl, idPair 7, Buf.has_ofFn _ _⟩
  obtain ⟨q0, h⟩ := C26_setup twicePb_wf hg hp
  have hs : Started failAmd _ (twicePb ℝ) q0 := ⟨twicePb_wf, hg, hp, h⟩
  refine ⟨q0, _, hs, (C96_dependent hs (y := fun i => if i = 0 then 1 else -1) ?_ (k := 0) (by decide) (by simp) ?_).1⟩
  · exact demoPb_symm
  · intro i hi
    have hi : i < 3 := hi
    interval_cases i <;>
      simp [Csc.tmulVec, twicePb, Csc.lit, Csc.entry, sum_Ico_eq_sum_range, sum_range_succ]

/-- The slacks of the starting point of the demo, rows in order, are at least as large as the multipliers. -/
theorem id_ratios {q0 : QP ℝ} (h : Started failAmd (idArgs ℝ) (demoPb ℝ) q0) (hex : q0.kkt.Exact 6) {x y z s : Nat → ℝ}
    (hi : q0.Iter (demoPb ℝ) x y z s) : ∀ i, i < 2 → 1 ≤ s i / z i := by
  obtain ⟨e, w, _, he, r1, r2, r3, lo, hi', hlo, hhi, hs, hz⟩ := C53_starting_point h demoPb_symm hi
  have he := he hex
  have a0 := r1 0 (by decide)
  have a1 := r1 1 (by decide)
  have a2 := r1 2 (by decide)
  have b0 := r2 0 (by decide)
  have c0 := r3 0 (by decide)
  have c1 := r3 1 (by decide)
  rw [he _ (by decide)] at a0 a1 a2 b0 c0 c1
  simp [Csc.mulVec, Csc.tmulVec, demoPb, Csc.lit, Csc.entry, sum_Ico_eq_sum_range, sum_range_succ] at a0 a1 a2 b0 c0 c1
  have g0 : (demoPb ℝ).h 0 - (demoPb ℝ).G.mulVec x 0 = -(59 / 66) := by
    simp [Csc.mulVec, demoPb, Csc.lit, Csc.entry, sum_Ico_eq_sum_range, sum_range_succ]
    linarith
  have g1 : (demoPb ℝ).h 1 - (demoPb ℝ).G.mulVec x 1 = -(329 / 528) := by
    simp [Csc.mulVec, demoPb, Csc.lit, Csc.entry, sum_Ico_eq_sum_range, sum_range_succ]
    linarith
  have gb : ∀ i, i < 2 → -1 ≤ (demoPb ℝ).h i - (demoPb ℝ).G.mulVec x i ∧
      (demoPb ℝ).h i - (demoPb ℝ).G.mulVec x i < 0 := by
    intro i h2
    interval_cases i
    · rw [g0]; norm_num
    · rw [g1]; norm_num
  have lneg : ¬ 0 < lo := by
    obtain ⟨i, h2, e⟩ := hlo.1
    have := (gb i h2).2
    rw [e]; linarith
  have hneg : hi' < 0 := by
    obtain ⟨i, h2, e⟩ := hhi.1
    rw [e]; exact (gb i h2).2
  intro i h2
  have hl := hlo.2 ⟨i, h2, rfl⟩
  obtain ⟨u1, u2⟩ := gb i h2
  rw [hs i h2, hz i h2, if_neg lneg, if_pos hneg, le_div_iff₀ (by linarith)]
  linarith

/-- C96, an iteration of the demo with its rows in order. -/
example : ∃ q0 qp qp' : QP ℝ, Started failAmd (idArgs ℝ) (demoPb ℝ) q0 ∧ Reach q0 qp ∧
    solveBody qp = .ok (qp', false) ∧ qp'.kkt.Exact 6 := by
  obtain ⟨q0, h⟩ := idArgs_started ℝ
  have hv := C96_permut h rfl idArgs_first
  obtain ⟨o, qp', x, y, z, s, hi, hb⟩ := step_exists h .start
  have hrat := id_ratios h (C96_exact_setup h demoPb_symm one_gt_small demoPb_strong hv
    (demo_indep fun _ _ => by norm_num)) ⟨hi.x, hi.y, hi.z, hi.s⟩
  refine ⟨q0, _, qp', h, .options o .start, hb, C96_exact_step h demoPb_symm one_gt_small demoPb_strong hv
    (.options o .start) hb hi (fun i hm => lt_of_lt_of_le one_gt_small (hrat i hm))
    (demo_indep fun i hm => le_trans (by norm_num) (hrat i hm))⟩

/-- C96, an iteration of the demo with the equality constraint first. -/
example : ∃ q0 qp qp' : QP ℝ, Started failAmd (eqArgs ℝ) (demoPb ℝ) q0 ∧ Reach q0 qp ∧
    solveBody qp = .ok (qp', false) ∧ ¬ qp'.kkt.Exact 6 := by
  obtain ⟨q0, h⟩ := eqArgs_started ℝ
  obtain ⟨o, qp', x, y, z, s, hi, hb⟩ := step_exists h .start
  have hP := ((C54_ordering_used h).1 _ rfl).1
  exact ⟨q0, _, qp', h, .options o .start, hb, (C96_early_step h demoPb_symm (.options o .start) hb (i := 0) (r := 0)
    (by decide) (by decide) (by rw [hP]; rfl) (fun _ _ _ _ h => absurd h (Nat.not_lt_zero _))).2⟩

end Verif
