import Verif.Props.RoundLdl
import Verif.Props.Directions

/-!
# Search directions in rounded arithmetic (C63)
-/

set_option linter.unusedSectionVars false

namespace Verif

open Finset Ieee

section

variable {K : Type} [Zero K] [One K] [Add K] [Sub K] [Mul K] [Div K] [Neg K] [Scalar K] [Ieee K]

/-! ## The KKT matrix read as real numbers -/

theorem rowsOf_map {L : Type} (f : K → L) (A : Csc K) (r c k : Nat) :
    rowsOf (A.map f) r c k = (rowsOf A r c k).map (fun e => (e.1, f e.2)) := by
  unfold rowsOf
  rw [Csc.map_col, ← List.map_take, List.filterMap_map, List.map_filterMap]
  refine congrArg (fun g => List.filterMap g _) ?_
  funext e
  show (if e.1 = r then some (c, f e.2) else none) = _
  by_cases h : e.1 = r <;> simp [h]

theorem tcol_map {L : Type} (f : K → L) (A : Csc K) (r : Nat) :
    tcol (A.map f) r = (tcol A r).map (fun e => (e.1, f e.2)) := by
  unfold tcol
  rw [List.map_flatMap]
  show (List.range A.n).flatMap _ = _
  refine congrArg (fun g => List.flatMap g _) ?_
  funext c
  rw [Csc.map_col, List.length_map, rowsOf_map]

theorem kktCol_map {L : Type} (f : K → L) (P A G : Csc K) (d : Nat → K) (c : Nat) :
    kktCol (P.map f) (A.map f) (G.map f) (fun i => f (d i)) c
      = (kktCol P A G d c).map (fun e => (e.1, f e.2)) := by
  unfold kktCol
  show (if c < P.n then _ else if c < P.n + A.m then _ else _) = _
  by_cases h1 : c < P.n
  · rw [if_pos h1, if_pos h1, List.map_append, List.map_append, Csc.map_col, Csc.map_col, Csc.map_col]
    unfold shiftCol
    simp only [List.map_map]
    rfl
  · rw [if_neg h1, if_neg h1]
    by_cases h2 : c < P.n + A.m
    · rw [if_pos h2, if_pos h2]
      exact tcol_map f A _
    · rw [if_neg h2, if_neg h2]
      unfold slackCol
      show tcol (G.map f) (c - P.n - A.m) ++ (if (tcol (G.map f) (c - P.n - A.m)).length = 0 then _ else _) = _
      rw [tcol_map, List.length_map, List.map_append]
      refine congrArg _ ?_
      split <;> rfl

theorem kktCsc_real {pb : Problem K} (hpb : pb.WF) (d : Nat → K) (r : Nat) {c : Nat} (hc : c < pb.N) :
    ((kktCsc pb.P pb.A pb.G d).map toR).entry r c
      = kktEntry pb.real.P pb.real.A pb.real.G (fun i => toR (d i)) r c := by
  rw [← kktCsc_entry (P := pb.real.P) (A := pb.real.A) (G := pb.real.G) (hpb.real_wf).1 hpb.real_wf.2.1
    hpb.real_wf.2.2 hpb.Pm hpb.An hpb.Gn hpb.rows _ hc]
  rw [Csc.map_entry]
  unfold kktCsc
  rw [Csc.ofCols_col _ _ _ (show c < pb.P.n + pb.A.m + pb.G.m from hc),
    Csc.ofCols_entry _ _ _ (show c < pb.real.P.n + pb.real.A.m + pb.real.G.m from hc)]
  rw [show kktCol pb.real.P pb.real.A pb.real.G (fun i => toR (d i)) c
    = (kktCol pb.P pb.A pb.G d c).map (fun e => (e.1, toR e.2)) from kktCol_map toR _ _ _ d c]
  rfl

/-! ## Slack directions -/

theorem comp_round {t z s dz : K} (hf : fin ((t - s * dz) / z)) (hz : fin z) (hz0 : toR z ≠ 0) :
    |toR z * toR ((t - s * dz) / z) + toR s * toR dz - toR t| ≤ compErr t z s dz := by
  obtain ⟨f1, h1⟩ := Ieee.div _ _ hf hz hz0
  obtain ⟨f2, f3, h2⟩ := Ieee.sub _ _ f1
  obtain ⟨f4, f5, h3⟩ := Ieee.mul _ _ f3
  have hu0 := u_nonneg (K := K)
  have he0 := eta_nonneg (K := K)
  set U := u K
  set E := eta K
  set T := toR t
  set Z := toR z
  set W := toR s * toR dz with hW
  set w := toR (s * dz)
  set v := toR (t - s * dz)
  have hz' : 0 < |Z| := abs_pos.mpr hz0
  have h1' : |Z * toR ((t - s * dz) / z) - v| ≤ U * |v| + E * |Z| := by
    have h4 := mul_le_mul_of_nonneg_left h1 hz'.le
    rw [← abs_mul, mul_sub, mul_div_cancel₀ _ hz0] at h4
    refine h4.trans (le_of_eq ?_)
    rw [abs_div]
    field_simp
  have h5 : |v - (T - W)| ≤ Ieee.err K 1 (|T| + |W|) := by
    have e1 : v - (T - W) = (v - (T - w)) - (w - W) := by ring
    have e2 : |T - w| ≤ |T| + |W| + |w - W| := by
      have : T - w = T - W - (w - W) := by ring
      rw [this]
      exact (abs_sub _ _).trans (add_le_add (abs_sub _ _) le_rfl)
    have e3 : |v - (T - W)| ≤ U * |T - w| + |w - W| := by
      rw [e1]
      exact (abs_sub _ _).trans (add_le_add h2 le_rfl)
    have e4 : U * |T - w| ≤ U * (|T| + |W| + |w - W|) := mul_le_mul_of_nonneg_left e2 hu0
    unfold Ieee.err errBound
    have hT := abs_nonneg T
    have hWn := abs_nonneg W
    have e5 : (1 + U) * |w - W| ≤ (1 + U) * (U * |W| + E) :=
      mul_le_mul_of_nonneg_left h3 (by linarith)
    push_cast
    show _ ≤ ((1 + U) ^ (2 * 1) - 1) * (|T| + |W|) + 1 * (1 + U) ^ (2 * 1) * E
    have e6 : ((1 + U) ^ (2 * 1) - 1) * (|T| + |W|) + 1 * (1 + U) ^ (2 * 1) * E
        = U * (|T| + |W|) + (1 + U) * (U * |W| + E) + (U * |T| + U * U * |T| + U * E + U * U * E) := by
      ring
    rw [e6]
    have := mul_nonneg hu0 hT
    have := mul_nonneg (mul_nonneg hu0 hu0) hT
    have := mul_nonneg hu0 he0
    have := mul_nonneg (mul_nonneg hu0 hu0) he0
    linarith
  have h6 : |v| ≤ |T| + |W| + |v - (T - W)| := by
    have : v = (T - W) + (v - (T - W)) := by ring
    calc |v| = |(T - W) + (v - (T - W))| := by rw [← this]
      _ ≤ |T - W| + |v - (T - W)| := abs_add_le _ _
      _ ≤ _ := add_le_add (abs_sub _ _) le_rfl
  have h7 : |Z * toR ((t - s * dz) / z) + W - T|
      ≤ |Z * toR ((t - s * dz) / z) - v| + |v - (T - W)| := by
    have : Z * toR ((t - s * dz) / z) + W - T = (Z * toR ((t - s * dz) / z) - v) + (v - (T - W)) := by
      ring
    rw [this]
    exact abs_add_le _ _
  unfold compErr
  show _ ≤ (1 + U) * Ieee.err K 1 (|T| + |W|) + U * (|T| + |W|) + E * |Z|
  have h8 : U * |v| ≤ U * (|T| + |W| + |v - (T - W)|) := mul_le_mul_of_nonneg_left h6 hu0
  have h9 : U * |v - (T - W)| ≤ U * Ieee.err K 1 (|T| + |W|) := mul_le_mul_of_nonneg_left h5 hu0
  linarith

theorem slack_round {t z s r dz : K} {g e B : ℝ} (hf : fin ((t - s * dz) / z)) (hz : fin z)
    (hz0 : toR z ≠ 0) (hs : fin (-s / z)) (hr : fin (r - t / z))
    (h : |g + toR (-s / z) * toR dz + e * toR dz - toR (r - t / z)| ≤ B) :
    |g + toR ((t - s * dz) / z) + e * toR dz - toR r| ≤ B + slackErr t z s r dz := by
  have hc := comp_round hf hz hz0
  have hz' : 0 < |toR z| := abs_pos.mpr hz0
  obtain ⟨f1, h1⟩ := Ieee.div _ _ hs hz hz0
  obtain ⟨f2, h2⟩ := Ieee.neg _ f1
  rw [h2] at h1
  obtain ⟨f3, f4, h3⟩ := Ieee.sub _ _ hr
  obtain ⟨f5, h4⟩ := Ieee.div _ _ f4 hz hz0
  have hu0 := u_nonneg (K := K)
  have he0 := eta_nonneg (K := K)
  set U := u K
  set E := eta K
  set T := toR t
  set Z := toR z
  set S := toR s
  set R := toR r
  set D := toR dz
  set ds := toR ((t - s * dz) / z)
  set sl := toR (-s / z)
  set rh := toR (r - t / z)
  set tz := toR (t / z)
  have a1 : |ds - (T - S * D) / Z| ≤ compErr t z s dz / |Z| := by
    rw [le_div_iff₀ hz', ← abs_mul]
    refine le_trans (le_of_eq ?_) hc
    congr 1
    field_simp
    ring
  have a2 : |(-S / Z - sl) * D| ≤ (U * |S / Z| + E) * |D| := by
    rw [abs_mul]
    refine mul_le_mul_of_nonneg_right ?_ (abs_nonneg _)
    rw [abs_sub_comm]
    refine h1.trans (le_of_eq ?_)
    rw [neg_div, abs_neg]
  have a3 : |rh - (R - T / Z)| ≤ (1 + U) * (U * |T / Z| + E) + U * |R - T / Z| := by
    have e1 : rh - (R - T / Z) = (rh - (R - tz)) - (tz - T / Z) := by ring
    have e2 : |R - tz| ≤ |R - T / Z| + |tz - T / Z| := by
      have : R - tz = R - T / Z - (tz - T / Z) := by ring
      rw [this]
      exact abs_sub _ _
    have e3 : U * |R - tz| ≤ U * (|R - T / Z| + |tz - T / Z|) := mul_le_mul_of_nonneg_left e2 hu0
    have e4 : |rh - (R - T / Z)| ≤ U * |R - tz| + |tz - T / Z| := by
      rw [e1]
      exact (abs_sub _ _).trans (add_le_add h3 le_rfl)
    have e5 : (1 + U) * |tz - T / Z| ≤ (1 + U) * (U * |T / Z| + E) :=
      mul_le_mul_of_nonneg_left h4 (by linarith)
    linarith
  have ee : g + ds + e * D - R = (g + sl * D + e * D - rh) + (((-S / Z - sl) * D)
      + (rh - (R - T / Z)) + (ds - (T - S * D) / Z)) := by
    field_simp
    ring
  unfold slackErr
  rw [ee]
  exact (abs_add_le _ _).trans (add_le_add h ((abs_add_le _ _).trans (add_le_add
    ((abs_add_le _ _).trans (add_le_add a2 a3)) a1)))

/-! ## C63 -/

/-- **C63**: in every iteration that takes a step, if the stored numbers are finite, the direction
solves the Newton equations of the iterate with the residuals and targets held by the structure, up to
explicit rounding errors and the diagonal change of small pivots. -/
theorem C63_direction {amd : Amd} {a : SetupArgs K} {pb : Problem K} {q0 qp qp' : QP K}
    (h : Started amd a pb q0) (hsym : pb.real.P.Symm) (hu : u K ≤ 1 / 4) (he : eta K ≤ 1 / 10 ^ 15)
    (hn : (1 + u K) ^ (2 * pb.N) < 2) (hr : Reach q0 qp) (hb : solveBody qp = .ok (qp', false))
    {x y z s : Nat → K} (hi : qp.Iter pb x y z s) (hz : ∀ i, i < pb.m → fin (z i) ∧ toR (z i) ≠ 0)
    (hsz : ∀ i, i < pb.m → fin (-(s i) / z i)) :
    ∃ rx ry rz tgt dx dy dz ds : Nat → K, ∃ (M L : Csc K) (p q : Nat → Nat) (d : Nat → K),
      Buf.Has qp'.rx pb.n rx ∧ Buf.Has qp'.ry pb.p ry ∧ Buf.Has qp'.rz pb.m rz ∧
      Buf.Has qp'.ds pb.m tgt ∧ Buf.Has qp'.delta_x pb.n dx ∧ Buf.Has qp'.delta_y pb.p dy ∧
      Buf.Has qp'.delta_z pb.m dz ∧ Buf.Has qp'.delta_s pb.m ds ∧ qp'.kkt.kktmatrix.Is M ∧
      PermPair pb.N p q ∧ Buf.Has qp'.kkt.P pb.N (fun i => (p i : Int)) ∧
      HoldsFactor pb.N qp'.kkt.Lp qp'.kkt.Li qp'.kkt.Lx qp'.kkt.D L d ∧
      qp'.Iter pb (fun i => x i + dx i * qp'.stats.alpha_p) (fun i => y i + dy i * qp'.stats.alpha_d)
        (fun i => z i + dz i * qp'.stats.alpha_d) (fun i => s i + ds i * qp'.stats.alpha_p) ∧
      ((∀ k, k < L.nnz → fin (L.pr k)) → (∀ r, r < pb.N → fin (d r)) →
        (∀ i, i < pb.n → fin (dx i)) → (∀ i, i < pb.p → fin (dy i)) →
        (∀ i, i < pb.m → fin (dz i) ∧ fin (ds i)) →
        pb.RoundedResiduals x y z s rx ry rz ∧
        ∃ raw : Nat → ℝ,
          (∀ r, r < pb.N → toR (d r) ≠ 0 ∧ StoredPivot (u K) (eta K) (raw r) (toR (d r))) ∧
          pb.RoundedNewton (kktErr pb.N M p q L d (joinV pb.n pb.p dx dy dz))
            (fun i => toR (d (q i)) - raw (q i)) rx ry rz tgt z s dx dy dz ds) := by
  obtain ⟨p, q, hs, _⟩ := h.sinv hr
  obtain ⟨t, hst, hopt, re, hstat⟩ := (hs.bodyOut h.wf hb hi).step rfl
  simp only at hst hopt hstat
  have hp := hst.sym.perm
  have hpb := h.wf
  set tgt := tgtF pb p q t x y z s qp.options.sigma with htgt
  set rhs := rhsF pb.n pb.p (rxF pb x y z) (ryF pb x) (rzF pb x s) tgt z with hrhs
  set v := solveF pb.N t p q rhs with hv
  have hf := hst.fac.2.factor hst.sym.lp
  refine ⟨_, _, _, _, _, _, _, _, _, facCsc pb.N t, p, q, t.D, hst.res.rx, hst.res.ry, hst.res.rz,
    hst.tgt, hst.dx, hst.dy, hst.dz, hst.ds, hst.sym.mat, hp, hst.sym.P, hf, by rw [hstat]; exact hst.iter, ?_⟩
  intro f1 f2 f3 f4 f5
  change ∀ i, i < pb.n → fin (v i) at f3
  change ∀ i, i < pb.p → fin (v (pb.n + i)) at f4
  change ∀ i, i < pb.m → fin (v (pb.n + pb.p + i)) ∧
    fin ((tgt i - s i * v (pb.n + pb.p + i)) / z i) at f5
  have eN : pb.N = pb.n + pb.p + pb.m := rfl
  have fv : ∀ r, r < pb.N → fin (v r) := by
    intro r hr'
    by_cases h1 : r < pb.n
    · exact f3 r h1
    · by_cases h2 : r < pb.n + pb.p
      · have := f4 (r - pb.n) (by omega)
        rwa [show pb.n + (r - pb.n) = r by omega] at this
      · have := (f5 (r - pb.n - pb.p) (by omega)).1
        rwa [show pb.n + pb.p + (r - pb.n - pb.p) = r by omega] at this
  have hsymK : ((kktCsc pb.P pb.A pb.G (slackD z s)).map toR).Symm := by
    intro r c h1 h2
    rw [kktCsc_real hpb _ r h2, kktCsc_real hpb _ c h1]
    exact kktEntry_symm hsym _ _ _
  obtain ⟨raw, g1, g2⟩ := kkt_round hst.sym.wf hst.sym.an hst.sym.am hsymK hp hu he hn hst.fac.1 hf f1 f2
  have g3 := g2 rhs fv
  have e1 : ∀ i, i < pb.n → rhs i = rxF pb x y z i := by
    intro i hi'
    rw [hrhs]; unfold rhsF
    rw [if_pos hi']
  have e2 : ∀ i, i < pb.p → rhs (pb.n + i) = ryF pb x i := by
    intro i hi'
    rw [hrhs]; unfold rhsF
    rw [if_neg (by omega), if_pos (by omega), Nat.add_sub_cancel_left]
  have e3 : ∀ i, i < pb.m → rhs (pb.n + pb.p + i) = rzF pb x s i - tgt i / z i := by
    intro i hi'
    rw [hrhs]; unfold rhsF
    rw [if_neg (by omega), if_neg (by omega), show pb.n + pb.p + i - pb.n - pb.p = i by omega]
  have hmv : ∀ r, ((kktCsc pb.P pb.A pb.G (slackD z s)).map toR).mulVec (fun c => toR (v c)) r
      = ∑ c ∈ range pb.real.N, kktEntry pb.real.P pb.real.A pb.real.G (fun i => toR (slackD z s i)) r c
          * toR (v c) := by
    intro r
    unfold Csc.mulVec
    refine sum_congr rfl fun c hc => ?_
    rw [kktCsc_real hpb _ r (mem_range.mp hc)]
  obtain ⟨k1, k2, k3⟩ := kkt_blocks (pb := pb.real) hpb.An hpb.Gn (fun i => toR (slackD z s i))
    (fun c => toR (v c))
  have hj : ∀ r, kktErr pb.N (kktCsc pb.P pb.A pb.G (slackD z s)) p q (facCsc pb.N t) t.D
      (joinV pb.n pb.p v (fun i => v (pb.n + i)) (fun i => v (pb.n + pb.p + i))) r
      = kktErr pb.N (kktCsc pb.P pb.A pb.G (slackD z s)) p q (facCsc pb.N t) t.D v r := by
    intro r
    congr 1
    funext i
    unfold joinV
    split
    · rfl
    · split
      · exact congrArg v (by omega)
      · exact congrArg v (by omega)
  refine ⟨⟨fun i hi' => ?_, fun i hi' => ?_, fun i hi' => ?_⟩, raw, g1, ?_⟩
  · exact (rxF_acc hpb x y z hi' (e1 i hi' ▸ (g3 i (by omega)).1)).2
  · exact (ryF_acc hpb x i (e2 i hi' ▸ (g3 _ (by omega)).1)).2
  · have := (g3 (pb.n + pb.p + i) (by omega)).1
    rw [e3 i hi'] at this
    exact (rzF_acc hpb x s i (Ieee.sub _ _ this).1).2
  · refine ⟨fun i hi' => ?_, fun i hi' => ?_, fun i hi' => ?_, fun i hi' => ?_⟩
    · have := (g3 i (by omega)).2
      rw [hmv, k1 i hi', e1 i hi', ← hj] at this
      exact this
    · have := (g3 (pb.n + i) (by omega)).2
      rw [hmv, show pb.n + i = pb.real.n + i from rfl, k2 i hi'] at this
      rw [show pb.real.n + i = pb.n + i from rfl, e2 i hi', ← hj] at this
      exact this
    · obtain ⟨b0, b1⟩ := g3 (pb.n + pb.p + i) (by omega)
      rw [hmv, show pb.n + pb.p + i = pb.real.n + pb.real.p + i from rfl, k3 i hi'] at b1
      rw [show pb.real.n + pb.real.p + i = pb.n + pb.p + i from rfl, e3 i hi', ← hj] at b1
      rw [e3 i hi'] at b0
      exact slack_round (f5 i hi').2 (hz i hi').1 (hz i hi').2 (hsz i hi') b0 b1
    · exact comp_round (f5 i hi').2 (hz i hi').1 (hz i hi').2

/-! ## Residuals after the step -/

theorem Csc.abs_entry_le (A : Csc K) (r c : Nat) :
    |(A.map toR).entry r c| ≤ (A.map (fun a => |toR a|)).entry r c := by
  unfold Csc.entry
  refine (abs_sum_le_sum_abs _ _).trans (sum_le_sum fun k _ => ?_)
  show |if A.ir k = r then toR (A.pr k) else 0| ≤ if A.ir k = r then |toR (A.pr k)| else 0
  by_cases h : A.ir k = r
  · rw [if_pos h, if_pos h]
  · rw [if_neg h, if_neg h, abs_zero]

theorem Csc.mulVec_near (A : Csc K) {a b d : Nat → ℝ} {t : ℝ} {e : Nat → ℝ} (i : Nat)
    (h : ∀ j, j < A.n → |a j - (b j + d j * t)| ≤ e j) :
    |(A.map toR).mulVec a i - ((A.map toR).mulVec b i + t * (A.map toR).mulVec d i)|
      ≤ (A.map (fun a => |toR a|)).mulVec e i := by
  unfold Csc.mulVec
  rw [mul_sum, ← sum_add_distrib, ← sum_sub_distrib]
  refine (abs_sum_le_sum_abs _ _).trans (sum_le_sum fun c hc => ?_)
  have e1 : (A.map toR).entry i c * a c - ((A.map toR).entry i c * b c
      + t * ((A.map toR).entry i c * d c)) = (A.map toR).entry i c * (a c - (b c + d c * t)) := by ring
  rw [e1, abs_mul]
  exact mul_le_mul (Csc.abs_entry_le A i c) (h c (mem_range.mp hc)) (abs_nonneg _)
    ((abs_nonneg _).trans (Csc.abs_entry_le A i c))

theorem Csc.tmulVec_near (A : Csc K) {a b d : Nat → ℝ} {t : ℝ} {e : Nat → ℝ} (i : Nat)
    (h : ∀ j, j < A.m → |a j - (b j + d j * t)| ≤ e j) :
    |(A.map toR).tmulVec a i - ((A.map toR).tmulVec b i + t * (A.map toR).tmulVec d i)|
      ≤ (A.map (fun a => |toR a|)).tmulVec e i := by
  unfold Csc.tmulVec
  rw [mul_sum, ← sum_add_distrib, ← sum_sub_distrib]
  refine (abs_sum_le_sum_abs _ _).trans (sum_le_sum fun c hc => ?_)
  have e1 : (A.map toR).entry c i * a c - ((A.map toR).entry c i * b c
      + t * ((A.map toR).entry c i * d c)) = (A.map toR).entry c i * (a c - (b c + d c * t)) := by ring
  rw [e1, abs_mul]
  exact mul_le_mul (Csc.abs_entry_le A c i) (h c (mem_range.mp hc)) (abs_nonneg _)
    ((abs_nonneg _).trans (Csc.abs_entry_le A c i))

theorem step_round {x d a : K} (h : fin (x + d * a)) :
    |toR (x + d * a) - (toR x + toR d * toR a)| ≤ stepErr x d a :=
  ((Acc.self x).add (mul_term d a) h).2

theorem combine_round {r r' t g f eps B1 B2 B3 : ℝ} (h1 : |r' - (r - t * g)| ≤ B3)
    (h2 : |g + eps - f| ≤ B1) (h3 : |f - r| ≤ B2) :
    |r' - (1 - t) * r| ≤ |t| * (B1 + |eps| + B2) + B3 := by
  have e : r' - (1 - t) * r = (r' - (r - t * g)) + t * ((eps - (g + eps - f)) + (-(f - r))) := by ring
  rw [e]
  refine (abs_add_le _ _).trans ?_
  rw [abs_mul]
  have h4 : |eps - (g + eps - f) + -(f - r)| ≤ |eps| + B1 + B2 := by
    refine (abs_add_le _ _).trans ?_
    rw [abs_neg]
    exact add_le_add ((abs_sub _ _).trans (add_le_add le_rfl h2)) h3
  have := mul_le_mul_of_nonneg_left h4 (abs_nonneg t)
  linarith

theorem contract_round {pb : Problem K} (hpb : pb.WF) {F e : Nat → ℝ} {ap ad : K}
    {rx ry rz tgt x y z s dx dy dz ds : Nat → K} (hres : pb.RoundedResiduals x y z s rx ry rz)
    (hnew : pb.RoundedNewton F e rx ry rz tgt z s dx dy dz ds)
    (fx : ∀ i, i < pb.n → fin (x i + dx i * ap)) (fy : ∀ i, i < pb.p → fin (y i + dy i * ad))
    (fz : ∀ i, i < pb.m → fin (z i + dz i * ad)) (fs : ∀ i, i < pb.m → fin (s i + ds i * ap)) :
    pb.RoundedContraction F e ap ad rz tgt x y z s dx dy dz ds (fun i => x i + dx i * ap)
      (fun i => y i + dy i * ad) (fun i => z i + dz i * ad) (fun i => s i + ds i * ap) where
  rx := by
    intro i hi
    have h1 := Csc.mulVec_near pb.P i (fun j hj => step_round (fx j hj))
    have h2 := Csc.tmulVec_near pb.G i (fun j hj => step_round (fz j hj))
    have h3 := Csc.tmulVec_near pb.A i (fun j hj => step_round (fy j hj))
    have h4 := hnew.rx i hi
    have h5 := hres.rx i hi
    unfold Problem.rx
    unfold Problem.rx at h5
    change |pb.real.P.mulVec _ i - (pb.real.P.mulVec _ i + _ * pb.real.P.mulVec _ i)| ≤ _ at h1
    change |pb.real.G.tmulVec _ i - (pb.real.G.tmulVec _ i + _ * pb.real.G.tmulVec _ i)| ≤ _ at h2
    change |pb.real.A.tmulVec _ i - (pb.real.A.tmulVec _ i + _ * pb.real.A.tmulVec _ i)| ≤ _ at h3
    generalize pb.real.P.mulVec (fun j => toR (x j + dx j * ap)) i = px' at h1 ⊢
    generalize pb.real.P.mulVec (fun j => toR (x j)) i = px at h1 h5 ⊢
    generalize pb.real.P.mulVec (fun j => toR (dx j)) i = pd at h1 h4 ⊢
    generalize pb.real.G.tmulVec (fun j => toR (z j + dz j * ad)) i = gx' at h2 ⊢
    generalize pb.real.G.tmulVec (fun j => toR (z j)) i = gx at h2 h5 ⊢
    generalize pb.real.G.tmulVec (fun j => toR (dz j)) i = gd at h2 h4 ⊢
    generalize pb.real.A.tmulVec (fun j => toR (y j + dy j * ad)) i = ax' at h3 ⊢
    generalize pb.real.A.tmulVec (fun j => toR (y j)) i = ax at h3 h5 ⊢
    generalize pb.real.A.tmulVec (fun j => toR (dy j)) i = ad' at h3 h4 ⊢
    have := combine_round (r := -(px + gx + ax + pb.real.c i))
      (r' := -(px' + gx' + ax' + pb.real.c i) - (toR ad - toR ap) * pd) (t := toR ad)
      (g := pd + ad' + gd) (B3 := pb.abs.P.mulVec (fun j => stepErr (x j) (dx j) ap) i
        + pb.abs.G.tmulVec (fun j => stepErr (z j) (dz j) ad) i
        + pb.abs.A.tmulVec (fun j => stepErr (y j) (dy j) ad) i) ?_ h4 h5
    · refine (le_of_eq ?_).trans (this.trans (le_of_eq ?_))
      · congr 1; ring
      · ring
    · have e1 : -(px' + gx' + ax' + pb.real.c i) - (toR ad - toR ap) * pd
          - (-(px + gx + ax + pb.real.c i) - toR ad * (pd + ad' + gd))
          = -((px' - (px + toR ap * pd)) + (gx' - (gx + toR ad * gd)) + (ax' - (ax + toR ad * ad'))) := by
        ring
      rw [e1, abs_neg]
      exact (abs_add_le _ _).trans (add_le_add ((abs_add_le _ _).trans (add_le_add h1 h2)) h3)
  ry := by
    intro i hi
    have h1 := Csc.mulVec_near pb.A i (fun j hj => step_round (fx j (hj.trans_eq hpb.An)))
    refine combine_round (g := pb.real.A.mulVec (fun j => toR (dx j)) i) ?_ (hnew.ry i hi)
      (hres.ry i hi)
    refine (le_of_eq ?_).trans h1
    rw [← abs_neg]
    congr 1
    unfold Problem.ry
    show _ = pb.real.A.mulVec _ i - (pb.real.A.mulVec _ i + _ * pb.real.A.mulVec _ i)
    ring
  rz := by
    intro i hi
    have h1 := Csc.mulVec_near pb.G i (fun j hj => step_round (fx j (hj.trans_eq hpb.Gn)))
    have h2 := step_round (fs i hi)
    have := combine_round (r' := pb.real.rz (fun j => toR (x j + dx j * ap))
        (fun j => toR (s j + ds j * ap)) i) (t := toR ap)
      (g := pb.real.G.mulVec (fun j => toR (dx j)) i + toR (ds i))
      (B3 := pb.abs.G.mulVec (fun j => stepErr (x j) (dx j) ap) i + stepErr (s i) (ds i) ap)
      ?_ (hnew.rz i hi) (hres.rz i hi)
    · rw [add_assoc]
      exact this
    · have e1 := (abs_add_le _ _).trans (add_le_add h1 h2)
      refine (le_of_eq ?_).trans e1
      rw [← abs_neg]
      congr 1
      unfold Problem.rz
      show _ = pb.real.G.mulVec _ i - (pb.real.G.mulVec _ i + _ * pb.real.G.mulVec _ i) + _
      ring

/-- **C64**: the step multiplies the exact primal residuals by `1 - alpha_p`, and the exact dual
residual by `1 - alpha_d` up to the difference of the step lengths, with explicit rounding errors,
whenever the numbers stored after the iteration are finite. -/
theorem C64_contraction {amd : Amd} {a : SetupArgs K} {pb : Problem K} {q0 qp qp' : QP K}
    (h : Started amd a pb q0) (hsym : pb.real.P.Symm) (hu : u K ≤ 1 / 4) (he : eta K ≤ 1 / 10 ^ 15)
    (hn : (1 + u K) ^ (2 * pb.N) < 2) (hr : Reach q0 qp) (hb : solveBody qp = .ok (qp', false))
    {x y z s : Nat → K} (hi : qp.Iter pb x y z s) (hz : ∀ i, i < pb.m → fin (z i) ∧ toR (z i) ≠ 0)
    (hsz : ∀ i, i < pb.m → fin (-(s i) / z i)) :
    ∃ rz tgt dx dy dz ds x' y' z' s' : Nat → K, ∃ (M L : Csc K) (p q : Nat → Nat) (d : Nat → K),
      Buf.Has qp'.rz pb.m rz ∧
      Buf.Has qp'.ds pb.m tgt ∧ Buf.Has qp'.delta_x pb.n dx ∧ Buf.Has qp'.delta_y pb.p dy ∧
      Buf.Has qp'.delta_z pb.m dz ∧ Buf.Has qp'.delta_s pb.m ds ∧ qp'.kkt.kktmatrix.Is M ∧
      PermPair pb.N p q ∧ Buf.Has qp'.kkt.P pb.N (fun i => (p i : Int)) ∧
      HoldsFactor pb.N qp'.kkt.Lp qp'.kkt.Li qp'.kkt.Lx qp'.kkt.D L d ∧ qp'.Iter pb x' y' z' s' ∧
      ((∀ k, k < L.nnz → fin (L.pr k)) → (∀ r, r < pb.N → fin (d r)) →
        (∀ i, i < pb.n → fin (x' i)) → (∀ i, i < pb.p → fin (y' i)) →
        (∀ i, i < pb.m → fin (z' i) ∧ fin (s' i)) →
        ∃ raw : Nat → ℝ,
          (∀ r, r < pb.N → toR (d r) ≠ 0 ∧ StoredPivot (u K) (eta K) (raw r) (toR (d r))) ∧
          pb.RoundedContraction (kktErr pb.N M p q L d (joinV pb.n pb.p dx dy dz))
            (fun i => toR (d (q i)) - raw (q i)) qp'.stats.alpha_p qp'.stats.alpha_d
            rz tgt x y z s dx dy dz ds x' y' z' s') := by
  obtain ⟨rx, ry, rz, tgt, dx, dy, dz, ds, M, L, p, q, d, h1, h2, h3, h4, h5, h6, h7, h8, h9, h10, h11,
    h12, h13, h14⟩ := C63_direction h hsym hu he hn hr hb hi hz hsz
  refine ⟨rz, tgt, dx, dy, dz, ds, _, _, _, _, M, L, p, q, d, h3, h4, h5, h6, h7, h8, h9, h10, h11, h12,
    h13, ?_⟩
  intro f1 f2 f3 f4 f5
  obtain ⟨g1, raw, g2, g3⟩ := h14 f1 f2
    (fun i hi' => (Ieee.mul _ _ (Ieee.add _ _ (f3 i hi')).2.1).1)
    (fun i hi' => (Ieee.mul _ _ (Ieee.add _ _ (f4 i hi')).2.1).1)
    (fun i hi' => ⟨(Ieee.mul _ _ (Ieee.add _ _ (f5 i hi').1).2.1).1,
      (Ieee.mul _ _ (Ieee.add _ _ (f5 i hi').2).2.1).1⟩)
  exact ⟨raw, g2, contract_round h.wf g1 g3 f3 f4 (fun i hi' => (f5 i hi').1)
    (fun i hi' => (f5 i hi').2)⟩

end

end Verif
