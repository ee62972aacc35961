import Verif.Props.RoundValue

/-!
# What exit code 0 says about the objective value in double precision (C75)
-/

set_option exponentiation.threshold 2200

set_option linter.unusedSectionVars false

namespace Verif

open Finset Ieee

/-! ## Specification -/

/-- Bound on the sum of the rounding errors of the residuals in double precision. -/
noncomputable def Problem.doubleErr (pb : Problem F64) (x y z s : Nat → F64) : ℝ :=
  (∑ i ∈ range pb.n, (((pb.P.rowNnz i + pb.G.colNnz i + pb.A.colNnz i + 1 : ℕ) : ℝ) / 2 ^ 51
      * pb.rxSize x y z i + 1 / 2 ^ 1000))
    + (∑ i ∈ range pb.p, (((pb.A.rowNnz i + 1 : ℕ) : ℝ) / 2 ^ 51 * pb.rySize x i + 1 / 2 ^ 1000))
    + ∑ i ∈ range pb.m, (((pb.G.rowNnz i + 1 : ℕ) : ℝ) / 2 ^ 51 * pb.rzSize x s i + 1 / 2 ^ 1000)

/-! ## Lemmas -/

theorem Problem.WF.real {K : Type} [Zero K] [Add K] [Sub K] [Mul K] [Div K] [Neg K] [Scalar K] [Ieee K]
    {pb : Problem K} (h : pb.WF) : pb.real.WF where
  P := Csc.map_wf h.P
  A := Csc.map_wf h.A
  G := Csc.map_wf h.G
  Pm := h.Pm
  An := h.An
  Gn := h.Gn
  rows := h.rows
  m_pos := h.m_pos

theorem half_F64 : toR (Scalar.dec 5 1 : F64) = 1 / 2 := by
  have hr : Rep (2 ^ 1073) := by
    have := rep_mul (m := 1) (s := 1073) (by norm_num)
    rwa [Nat.one_mul] at this
  have hh : 2 ^ 1073 < huge := by
    rw [huge_eq]
    exact Nat.pow_lt_pow_right (by norm_num) (by norm_num)
  have e1 : rndNat (5 * unit) (10 ^ 1) = 2 ^ 1073 := by
    have e : 5 * unit = 10 * 2 ^ 1073 := by
      rw [unit_eq, show (1074 : ℕ) = 1073 + 1 from rfl, pow_succ]; ring
    rw [e, show (10 : ℕ) ^ 1 = 10 * 1 from rfl, rndNat_mul (by norm_num)]
    exact hr.rnd
  have e2 : (Scalar.dec 5 1 : F64) = .num false (2 ^ 1073) ⟨hr, hh⟩ :=
    F64.pack_eq (rndNat_rep _ _) e1 _
  rw [e2]
  show F64.sgn false * (((2 ^ 1073 : ℕ) : ℝ) / unit) = 1 / 2
  rw [unit_eq, Nat.cast_pow, Nat.cast_pow, Nat.cast_ofNat, show (1074 : ℕ) = 1073 + 1 from rfl, pow_succ]
  simp only [F64.sgn, Bool.false_eq_true, if_false, one_mul]
  field_simp

/-- zero or positive, possibly infinite -/
def F64.NonNeg : F64 → Prop
  | .num a _ _ => a = false
  | .inf a => a = false
  | .nan => False

theorem F64.mk_nonNeg (n d : Nat) : (F64.mk false n d).NonNeg := by
  unfold F64.mk F64.pack
  split <;> rfl

theorem F64.add_nonNeg {a b : F64} (ha : a.NonNeg) (hb : b.NonNeg) : (a + b).NonNeg := by
  cases a with
  | nan => exact absurd ha id
  | inf a =>
    have ha : a = false := ha
    subst ha
    cases b with
    | nan => exact absurd hb id
    | inf b => have hb : b = false := hb; subst hb; rfl
    | num b l hl => rfl
  | num a k hk =>
    have ha : a = false := ha
    subst ha
    cases b with
    | nan => exact absurd hb id
    | inf b => exact hb
    | num b l hl =>
      have hb : b = false := hb
      subst hb
      exact F64.mk_nonNeg _ _

theorem F64.mul_nonNeg {a b : F64} (ha : a.NonNeg) (hb : b.NonNeg) (fa : Ieee.fin a) (fb : Ieee.fin b) :
    (a * b).NonNeg := by
  cases a with
  | nan => exact absurd ha id
  | inf a => exact absurd fa id
  | num a k hk =>
    have ha : a = false := ha
    subst ha
    cases b with
    | nan => exact absurd hb id
    | inf b => exact absurd fb id
    | num b l hl =>
      have hb : b = false := hb
      subst hb
      exact F64.mk_nonNeg _ _

theorem F64.div_nonNeg {a b : F64} (ha : a.NonNeg) (hb : b.NonNeg) (fb : Ieee.fin b) (hb0 : Ieee.toR b ≠ 0) :
    (a / b).NonNeg := by
  cases b with
  | nan => exact absurd hb id
  | inf b => exact absurd fb id
  | num b l hl =>
    have hb : b = false := hb
    subst hb
    cases a with
    | nan => exact absurd ha id
    | inf a => have ha : a = false := ha; subst ha; rfl
    | num a k hk =>
      have ha : a = false := ha
      subst ha
      have hl0 : l ≠ 0 := by
        intro h0
        subst h0
        exact hb0 (by simp [Ieee.toR, F64.toR])
      show (if l = 0 then (if k = 0 then F64.nan else F64.inf (false != false))
        else F64.mk (false != false) (k * unit) l).NonNeg
      rw [if_neg hl0]
      exact F64.mk_nonNeg _ _

theorem F64.nonNeg_of_pos {a : F64} (h : 0 < Ieee.toR a) : a.NonNeg ∧ Ieee.fin a := by
  cases a with
  | nan => exact absurd h (lt_irrefl _)
  | inf a => exact absurd h (lt_irrefl _)
  | num a k hk =>
    refine ⟨?_, trivial⟩
    cases a with
    | false => rfl
    | true =>
      exfalso
      have h : 0 < F64.sgn true * ((k : ℝ) / unit) := h
      have hU := F64.unit_pos'
      have : 0 ≤ (k : ℝ) / unit := by positivity
      simp only [F64.sgn, if_true] at h
      linarith

theorem F64.ltb_fin {a b : F64} (ha : a.NonNeg) (hb : Ieee.fin b) (h : Scalar.ltb a b = true) : Ieee.fin a := by
  cases a with
  | nan => exact absurd ha id
  | num a k hk => trivial
  | inf a =>
    have ha : a = false := ha
    subst ha
    cases b with
    | nan => exact absurd hb id
    | inf b => exact absurd hb id
    | num b l hl => exact absurd h (by simp [Scalar.ltb, F64.ltb])

theorem dotF_nonNeg {n : Nat} {f g : Nat → F64} (hf : ∀ i, i < n → 0 < toR (f i))
    (hg : ∀ i, i < n → 0 < toR (g i)) : (dotF n f g).NonNeg := by
  unfold dotF
  induction n with
  | zero => rfl
  | succ n ih =>
    rw [foldI_succ (Nat.zero_le n)]
    obtain ⟨a1, a2⟩ := F64.nonNeg_of_pos (hf n (by omega))
    obtain ⟨b1, b2⟩ := F64.nonNeg_of_pos (hg n (by omega))
    exact F64.add_nonNeg (ih (fun i hi => hf i (by omega)) (fun i hi => hg i (by omega)))
      (F64.mul_nonNeg a1 b1 a2 b2)

theorem ofInt_F64 (m : Nat) (h : m ≤ 2 ^ 53) : fin (Scalar.ofInt m : F64) ∧
    toR (Scalar.ofInt m : F64) = m := by
  have := F64.toR_int (m : Int) (by simpa using h)
  have e : (Scalar.ofInt m : F64) = Scalar.dec m 0 := rfl
  rw [e]
  exact ⟨this.1, this.2.trans (by simp)⟩

theorem eta_F64 : eta F64 ≤ 1 / 2 ^ 1074 := by
  have e2 : eta F64 = 1 / 2 / unit := rfl
  have h1 : (unit : ℝ) = 2 ^ 1074 := by rw [unit_eq, Nat.cast_pow, Nat.cast_ofNat]
  rw [e2, h1]
  have : (0 : ℝ) < 1 / 2 ^ 1074 := by positivity
  rw [div_div, mul_comm, ← div_div]
  linarith

/-- The average complementarity if its computed value is below `abstol`. -/
theorem gap_F64 {pb : Problem F64} (hpb : pb.WF) (hm : pb.m < 2 ^ 40) {z s : Nat → F64} {t : F64}
    (ht : fin t) (hlt : Scalar.ltb (gapF pb z s) t = true)
    (hp : ∀ i, i < pb.m → 0 < toR (s i) ∧ 0 < toR (z i)) :
    dot pb.m (fun i => toR (s i)) (fun i => toR (z i)) / (pb.m : ℝ)
      < 1.001 * |toR t| + 1 / 2 ^ 1000 := by
  obtain ⟨o1, o2⟩ := ofInt_F64 pb.m (by omega)
  have hmp : (0 : ℝ) < pb.m := by exact_mod_cast hpb.m_pos
  have hmn := F64.nonNeg_of_pos (a := (Scalar.ofInt pb.m : F64)) (by rw [o2]; exact hmp)
  have hnn : (gapF pb z s).NonNeg := F64.div_nonNeg
    (dotF_nonNeg (fun i hi => (hp i hi).1) (fun i hi => (hp i hi).2)) hmn.1 o1 (by rw [o2]; exact hmp.ne')
  have hf := F64.ltb_fin hnn ht hlt
  have hlt' := (Ieee.ltb _ _ hf ht).mp hlt
  unfold gapF at hf hlt'
  obtain ⟨f1, f2⟩ := Ieee.div _ _ hf o1 (by rw [o2]; exact hmp.ne')
  rw [o2] at f2
  have h1 := (Acc.dotF pb.m s z f1).2
  set W := dot pb.m (fun i => toR (s i)) (fun i => toR (z i)) with hW
  have e1 : dot pb.m (fun i => |toR (s i)|) (fun i => |toR (z i)|) = W :=
    sum_congr rfl fun i hi => by
      obtain ⟨a1, a2⟩ := hp i (mem_range.mp hi)
      show |toR (s i)| * |toR (z i)| = toR (s i) * toR (z i)
      rw [abs_of_pos a1, abs_of_pos a2]
  have hW0 : 0 ≤ W := sum_nonneg fun i hi => by
    obtain ⟨a1, a2⟩ := hp i (mem_range.mp hi)
    exact (mul_pos a1 a2).le
  rw [e1] at h1
  have hu : u F64 = 2⁻¹ ^ 53 := rfl
  have hm' : (pb.m : ℝ) < 2 ^ 40 := by exact_mod_cast hm
  have hb := errBound_small (u := u F64) (eta := eta F64) (k := pb.m) u_nonneg eta_nonneg hW0 (by
    rw [hu]; norm_num; linarith)
  have he := eta_F64
  have he0 := eta_nonneg (K := F64)
  unfold Ieee.err at h1
  have h2 := (abs_le.mp (h1.trans hb)).1
  set D := toR (dotF pb.m s z)
  set M := toR (dotF pb.m s z / Scalar.ofInt pb.m : F64)
  have hmu : (pb.m : ℝ) * u F64 ≤ 1 / 2 ^ 13 := by
    rw [hu]
    norm_num
    linarith
  have h3 : W * (1 - 1 / 2 ^ 11) ≤ D + 2 * pb.m * eta F64 := by
    have : 4 * pb.m * u F64 * W ≤ 1 / 2 ^ 11 * W := by
      refine mul_le_mul_of_nonneg_right ?_ hW0
      norm_num at hmu ⊢
      linarith
    linarith
  have hT := le_abs_self (toR t)
  have hT0 := abs_nonneg (toR t)
  have h4 : D / pb.m ≤ (1 + 1 / 2 ^ 20) * (|toR t| + eta F64) := by
    by_cases hD : D / pb.m ≤ 0
    · refine hD.trans ?_
      positivity
    · have hD := not_le.mp hD
      rw [abs_of_pos hD] at f2
      have f3 := (abs_le.mp f2).1
      have : u F64 ≤ 1 / 2 ^ 30 := by rw [hu]; norm_num
      nlinarith
  have h5 : W / pb.m * (1 - 1 / 2 ^ 11) ≤ D / pb.m + 2 * eta F64 := by
    rw [div_mul_eq_mul_div, div_le_iff₀ hmp, add_mul, div_mul_cancel₀ _ hmp.ne']
    linarith
  have h6 : (1 : ℝ) / 2 ^ 1074 ≤ 1 / 2 ^ 1000 / 10 := by
    rw [div_div]
    refine one_div_le_one_div_of_le (by positivity) ?_
    have : (2 : ℝ) ^ 1074 = 2 ^ 1000 * 2 ^ 74 := by rw [← pow_add]
    rw [this]
    exact mul_le_mul_of_nonneg_left (by norm_num) (by positivity)
  have h7 : (0 : ℝ) < 1 / 2 ^ 1000 := by positivity
  have h8 : 0 ≤ W / pb.m := by positivity
  generalize (1 : ℝ) / 2 ^ 1000 = c at *
  generalize (1 : ℝ) / 2 ^ 1074 = c' at *
  norm_num at h4 h5 ⊢
  nlinarith

/-- A vector close to one with a small norm has a small norm. -/
theorem norm_close {n : Nat} {r e : Nat → ℝ} {V E : ℝ}
    (h : √(dot n (fun i => r i + e i) (fun i => r i + e i)) ≤ V) (hE : ∑ i ∈ range n, |e i| ≤ E) :
    IsNorm n r √(dot n r r) ∧ √(dot n r r) ≤ V + E := by
  have hd : ∀ f : Nat → ℝ, 0 ≤ dot n f f := fun f => sum_nonneg fun i _ => mul_self_nonneg _
  have hn : ∀ f : Nat → ℝ, IsNorm n f √(dot n f f) := fun f =>
    ⟨Real.sqrt_nonneg _, Real.mul_self_sqrt (hd f)⟩
  refine ⟨hn r, ?_⟩
  set N := √(dot n r r) with hN
  have h1 := (hn r).dot_le (hn (fun i => r i + e i))
  have h2 : dot n r r = dot n r (fun i => r i + e i) - dot n r e := by
    unfold dot
    rw [← sum_sub_distrib]
    exact sum_congr rfl fun i _ => by ring
  have h3 : -dot n r e ≤ N * E := by
    have : -dot n r e ≤ ∑ i ∈ range n, N * |e i| := by
      unfold dot
      rw [← sum_neg_distrib]
      refine sum_le_sum fun i hi => ?_
      have a1 := (hn r).abs_le (mem_range.mp hi)
      calc -(r i * e i) ≤ |r i * e i| := neg_le_abs _
        _ = |r i| * |e i| := abs_mul _ _
        _ ≤ _ := mul_le_mul_of_nonneg_right a1 (abs_nonneg _)
    rw [← mul_sum] at this
    exact this.trans (mul_le_mul_of_nonneg_left hE (hn r).1)
  have h4 : N * N ≤ N * (V + E) := by
    have e1 : N * N = dot n r r := (hn r).2
    have : N * √(dot n (fun i => r i + e i) (fun i => r i + e i)) ≤ N * V :=
      mul_le_mul_of_nonneg_left h (hn r).1
    rw [e1, h2]
    linarith
  by_contra hc
  have hc := not_le.mp hc
  have hE0 : 0 ≤ E := (sum_nonneg fun i _ => abs_nonneg _).trans hE
  have hV0 : 0 ≤ V := (Real.sqrt_nonneg _).trans h
  have : 0 < N := by linarith
  nlinarith

/-! ## Lower bound on the objective value -/

section

variable {K : Type} [Field K] [LinearOrder K] [IsStrictOrderedRing K] [Scalar K] [LawfulScalar K]
  [LawfulSqrt K]

/-- A point that satisfies the optimality conditions approximately is not much better than a solution. -/
theorem Problem.Approx.lower {pb : Problem K} (hpb : pb.WF) (hsym : pb.P.Symm) (hpsd : pb.Psd)
    {tol gap : K} {x y z s : Nat → K} (h : pb.Approx tol gap x y z s) {x' y' z' s' : Nat → K}
    (ho : pb.Optimal x' y' z' s') {ny nz : K} (hy : IsNorm pb.p y' ny) (hz : IsNorm pb.m z' nz) :
    pb.obj x' - pb.obj x ≤ tol * (ny + nz) := by
  obtain ⟨vy, ivy, lvy⟩ := h.ry
  obtain ⟨vz, ivz, lvz⟩ := h.rz
  set d : Nat → K := fun i => x' i - x i with hdd
  have c1 : pb.obj x' - pb.obj x ≤ dot pb.n d (fun i => pb.P.mulVec x' i + pb.c i) := by
    have e0 := hpsd d
    have e1 : dot pb.n d (pb.P.mulVec d) = dot pb.n x' (pb.P.mulVec x') - 2 * dot pb.n x (pb.P.mulVec x')
        + dot pb.n x (pb.P.mulVec x) := by
      have s1 : dot pb.n x' (pb.P.mulVec x) = dot pb.n x (pb.P.mulVec x') :=
        dot_mulVec_symm hsym x' x
      have s2 : pb.P.mulVec d = fun i => pb.P.mulVec x' i - pb.P.mulVec x i :=
        funext (mulVec_sub pb.P x' x)
      rw [s2, dot_sub, dot_comm _ d, dot_comm _ d, dot_sub, dot_sub, dot_comm _ _ x', dot_comm _ _ x,
        dot_comm _ (pb.P.mulVec x) x', dot_comm _ (pb.P.mulVec x) x, s1]
      ring
    have e2 : dot pb.n d (fun i => pb.P.mulVec x' i + pb.c i) = dot pb.n x' (pb.P.mulVec x')
        - dot pb.n x (pb.P.mulVec x') + dot pb.n pb.c x' - dot pb.n pb.c x := by
      rw [dot_add, dot_comm _ d, dot_comm _ d, dot_sub, dot_sub, dot_comm _ _ x', dot_comm _ _ x]
      ring
    unfold Problem.obj
    rw [e2]
    rw [e1] at e0
    linarith
  have c2 : dot pb.n d (fun i => pb.P.mulVec x' i + pb.c i)
      = - dot pb.m z' (pb.G.mulVec d) - dot pb.p y' (pb.A.mulVec d) := by
    rw [← pb.dotG hpb, ← pb.dotA hpb, ← dot_neg, ← dot_sub]
    refine dot_congr (fun _ _ => rfl) fun i hi => ?_
    have := ho.rx i hi
    linear_combination this
  have c3 : - dot pb.p y' (pb.A.mulVec d) = - dot pb.p y' (pb.ry x) := by
    rw [← dot_neg, ← dot_neg]
    refine dot_congr (fun _ _ => rfl) fun i hi => ?_
    rw [hdd, mulVec_sub, ho.ry i hi]
    unfold Problem.ry
    ring
  have c4 : - dot pb.m z' (pb.G.mulVec d) ≤ - dot pb.m z' (pb.rz x s) := by
    rw [← dot_neg, ← dot_neg]
    refine sum_le_sum fun i hi => ?_
    have hi := mem_range.mp hi
    have h1 := mul_nonneg (h.s_pos i hi).le (ho.z_nonneg i hi)
    have h3 := ho.comp i hi
    have h4 := ho.rz i hi
    have e : z' i * (-pb.G.mulVec d i) = z' i * (-pb.rz x s i) + s' i * z' i - s i * z' i := by
      rw [hdd, mulVec_sub]
      unfold Problem.rz
      linear_combination (-z' i) * h4
    simp only [e]
    linarith
  have b2 : - dot pb.m z' (pb.rz x s) ≤ nz * vz := by
    rw [← dot_neg]
    refine hz.dot_le ⟨ivz.1, ?_⟩
    rw [ivz.2]
    exact sum_congr rfl fun i _ => by ring
  have b3 : - dot pb.p y' (pb.ry x) ≤ ny * vy := by
    rw [← dot_neg]
    refine hy.dot_le ⟨ivy.1, ?_⟩
    rw [ivy.2]
    exact sum_congr rfl fun i _ => by ring
  have m2 : nz * vz ≤ nz * tol := mul_le_mul_of_nonneg_left lvz.le hz.1
  have m3 : ny * vy ≤ ny * tol := mul_le_mul_of_nonneg_left lvy.le hy.1
  linarith

end

/-! ## Exit code 0 -/

section

variable {K : Type} [Zero K] [One K] [Add K] [Sub K] [Mul K] [Div K] [Neg K] [Scalar K]

theorem objF_congr {P : Csc K} {c x x' : Nat → K} (h : ∀ i, i < P.n → x i = x' i) :
    objF P c x = objF P c x' := by
  have e : smmF P x (fun _ => 0) = smmF P x' (fun _ => 0) := by
    unfold smmF
    exact foldI_congr fun j st _ hj => by rw [h j hj]
  unfold objF
  rw [e]
  unfold dotF
  congr 1
  · congr 1
    exact foldI_congr fun j st _ hj => by rw [h j hj]
  · exact foldI_congr fun j st _ hj => by rw [h j hj]

/-- The objective value reported together with code 0 is the computed one of the returned point. -/
theorem fval_zero {amd : Amd} {a : SetupArgs K} {pb : Problem K} {q0 qp qp' : QP K}
    (h : Started amd a pb q0) (hr : Reach q0 qp) (hf : qp.stats.Flag ≠ 0)
    (hs : QP_SOLVE qp = .ok (0, qp')) {x y z s : Nat → K} (hi : qp'.Iter pb x y z s) :
    qp'.stats.fval = some (objF pb.P pb.c x) := by
  obtain ⟨p, q, hinv, _⟩ := h.sinv hr
  obtain ⟨k, qk, hk⟩ := QP_SOLVE_inv h.wf hinv hs
  obtain ⟨g1, g2, g3, _⟩ := hk.its.facts h.wf hinv
  obtain ⟨r, h5, h6⟩ := hk.stop
  have hret := hk.ret
  have hnm : r.stats.IterationCount ≠ r.options.maxit := by
    intro hc
    rw [if_pos hc] at h6
    rw [h6] at hret
    exact absurd hret (by decide : (0 : Int) ≠ QP_MAXIT)
  rw [if_neg hnm] at h6
  subst h6
  rcases h5 with ⟨_, hb⟩ | ⟨_, rfl⟩
  · obtain ⟨x1, y1, z1, s1, hit⟩ := g1.iter
    have hbo := (g1.bodyOut h.wf hb hit).stop rfl
    obtain ⟨hi1, _, _, e, _⟩ := hbo
    have : ∀ i, i < pb.n → x1 i = x i := fun i hn => hi1.x.unique hi.x hn
    simp only at e
    rw [e, ← objF_congr (P := pb.P) this]
    rfl
  · rw [g3] at hret
    exact absurd hret.symm hf

end

/-- Bound on the rounding error of the objective value in double precision. -/
noncomputable def Problem.doubleObjErr (pb : Problem F64) (x : Nat → F64) : ℝ :=
  ((pb.n + pb.P.nnz + 1 : ℕ) : ℝ) / 2 ^ 51 * pb.objSize x
    + (1 + ∑ i ∈ range pb.n, |toR (x i)|) / 2 ^ 990

theorem Problem.objSize_nonneg (pb : Problem F64) (x : Nat → F64) : 0 ≤ pb.objSize x := by
  unfold Problem.objSize dot
  have h1 : 0 ≤ ∑ i ∈ range pb.n, |toR (x i)| * pb.abs.P.mulVec (fun j => |toR (x j)|) i :=
    sum_nonneg fun i _ => mul_nonneg (abs_nonneg _)
      (sum_nonneg fun _ _ => mul_nonneg (Csc.entry_abs_nonneg ..) (abs_nonneg _))
  have h2 : 0 ≤ ∑ i ∈ range pb.n, |toR (pb.c i)| * |toR (x i)| :=
    sum_nonneg fun i _ => mul_nonneg (abs_nonneg _) (abs_nonneg _)
  linarith

theorem double_objErr {pb : Problem F64} (hn : pb.n + pb.P.nnz + 1 < 2 ^ 42) (x : Nat → F64) :
    pb.objErr pb.P.nnz x ≤ pb.doubleObjErr x := by
  unfold Problem.objErr Problem.doubleObjErr
  set X := ∑ i ∈ range pb.n, |toR (x i)|
  have hX : 0 ≤ X := sum_nonneg fun i _ => abs_nonneg _
  have hS := pb.objSize_nonneg x
  set k := pb.n + pb.P.nnz + 1 with hk
  have hk' : (k : ℝ) < 2 ^ 42 := by exact_mod_cast hn
  have hu : u F64 = 2⁻¹ ^ 53 := rfl
  have h1 := one_add_pow_lt (u := u F64) (k := 2 * k) u_nonneg (by
    rw [hu]; push_cast; norm_num; linarith)
  push_cast at h1
  have hu0 := u_nonneg (K := F64)
  set Y := (1 + u F64) ^ (2 * k) with hY
  have hku : 0 ≤ (k : ℝ) * u F64 := by positivity
  have hku' : (k : ℝ) * u F64 ≤ 1 / 2 ^ 11 := by rw [hu]; norm_num; linarith
  have hY0 : 0 ≤ Y := by positivity
  have h2 : Y ≤ 1 + 4 * (k * u F64) := by nlinarith
  have h3 : Y ≤ 2 := by
    norm_num at hku'
    linarith
  refine add_le_add ?_ ?_
  · refine mul_le_mul_of_nonneg_right ?_ hS
    have : 4 * (k * u F64) = k / 2 ^ 51 := by rw [hu]; norm_num; ring
    linarith
  · have he := eta_F64
    have he0 := eta_nonneg (K := F64)
    have hP : ((pb.P.nnz : ℕ) : ℝ) ≤ 2 ^ 42 := by
      have : pb.P.nnz ≤ 2 ^ 42 := by omega
      exact_mod_cast this
    have hN : ((pb.n : ℕ) : ℝ) ≤ 2 ^ 42 := by
      have : pb.n ≤ 2 ^ 42 := by omega
      exact_mod_cast this
    have hN0 : (0 : ℝ) ≤ pb.n := Nat.cast_nonneg _
    have b1 : (pb.P.nnz : ℝ) * X + 2 * pb.n + 1 ≤ 2 ^ 44 * (1 + X) := by
      have : (pb.P.nnz : ℝ) * X ≤ 2 ^ 42 * X := mul_le_mul_of_nonneg_right hP hX
      linarith
    have b0 : 0 ≤ (pb.P.nnz : ℝ) * X + 2 * pb.n + 1 := by positivity
    calc Y * (pb.P.nnz * X + 2 * pb.n + 1) * eta F64
        ≤ 2 * (2 ^ 44 * (1 + X)) * (1 / 2 ^ 1074) := by
          refine mul_le_mul ?_ he he0 (by positivity)
          exact mul_le_mul h3 b1 b0 (by norm_num)
      _ = (1 + X) * (2 ^ 45 / 2 ^ 1074) := by
          rw [show (2 : ℝ) ^ 45 = 2 * 2 ^ 44 by norm_num]
          ring
      _ ≤ (1 + X) * (1 / 2 ^ 990) := by
          refine mul_le_mul_of_nonneg_left ?_ (by linarith)
          rw [div_le_div_iff₀ (by positivity) (by positivity), ← pow_add, one_mul]
          exact pow_le_pow_right₀ (by norm_num) (by norm_num)
      _ = _ := by ring

theorem gapF_congr {pb : Problem F64} {z s z' s' : Nat → F64} (hz : ∀ i, i < pb.m → z i = z' i)
    (hs : ∀ i, i < pb.m → s i = s' i) : gapF pb z s = gapF pb z' s' := by
  unfold gapF dotF
  congr 1
  exact foldI_congr fun j st _ hj => by rw [hz j hj, hs j hj]

/-- **C75**, exit code 0 in double precision: if slacks and multipliers of the returned point are positive,
the point, read as real numbers, satisfies the optimality conditions of the problem, read as real numbers,
with the tolerances enlarged by a thousandth and by the rounding errors of the residuals; and the reported
objective value, if finite, is the objective value of the point up to rounding. -/
theorem C75_exit_zero {amd : Amd} {a : SetupArgs F64} {pb : Problem F64} {q0 qp qp' : QP F64}
    (h : Started amd a pb q0) (hr : Reach q0 qp) (hf : qp.stats.Flag ≠ 0)
    (hs : QP_SOLVE qp = .ok (0, qp')) (hN : pb.N < 2 ^ 40)
    (hnz : pb.P.nnz + pb.A.nnz + pb.G.nnz < 2 ^ 40)
    (htol : fin (qp.options.reltol / Scalar.sqrt (Scalar.dec 3 0))) (habs : fin qp.options.abstol) :
    ∃ x y z s, qp'.Iter pb x y z s ∧
      ((∀ i, i < pb.m → 0 < toR (s i) ∧ 0 < toR (z i)) →
        pb.real.Approx (1.001 * (|toR qp.options.reltol| / √3) + 1 / 2 ^ 498 + pb.doubleErr x y z s)
          (1.001 * |toR qp.options.abstol| + 1 / 2 ^ 1000)
          (fun i => toR (x i)) (fun i => toR (y i)) (fun i => toR (z i)) (fun i => toR (s i))) ∧
      ∃ v, qp'.stats.fval = some v ∧
        (fin v → |toR v - pb.real.obj (fun i => toR (x i))| ≤ pb.doubleObjErr x) := by
  obtain ⟨x, y, z, s, hi, _, ex, ey, ez, r1, r2, r3, e1, e2, e3⟩ := C65_exit_zero h hr hf hs hN hnz htol
  have hNN : pb.N = pb.n + pb.p + pb.m := rfl
  refine ⟨x, y, z, s, hi, fun hpos => ?_, objF pb.P pb.c x, fval_zero h hr hf hs hi, fun hfin =>
    (objF_rounded h.wf half_F64 (fun i _ => Csc.rowNnz_le h.wf.P i) hfin).trans
      (double_objErr (by omega) x)⟩
  have hsum : ∀ (n : Nat) (e b : Nat → ℝ), (∀ i, i < n → |e i| ≤ b i) →
      ∑ i ∈ range n, |e i| ≤ ∑ i ∈ range n, b i :=
    fun n e b hb => sum_le_sum fun i hi => hb i (mem_range.mp hi)
  have E1 := hsum _ _ _ e1
  have E2 := hsum _ _ _ e2
  have E3 := hsum _ _ _ e3
  have n1 := (sum_nonneg fun i _ => abs_nonneg (ex i)).trans E1
  have n2 := (sum_nonneg fun i _ => abs_nonneg (ey i)).trans E2
  have n3 := (sum_nonneg fun i _ => abs_nonneg (ez i)).trans E3
  have p3 : (1 : ℝ) / 2 ^ 499 < 1 / 2 ^ 498 :=
    one_div_lt_one_div_of_lt (by positivity) (pow_lt_pow_right₀ (by norm_num) (by norm_num))
  have p4 : 0 ≤ |toR qp.options.reltol| / √3 := by positivity
  have p5 : (0 : ℝ) < 1 / 2 ^ 498 := by positivity
  obtain ⟨a1, b1⟩ := norm_close r1 E1
  obtain ⟨a3, b3⟩ := norm_close r3 E3
  refine ⟨⟨_, a1, ?_⟩, ?_, ⟨_, a3, ?_⟩, ?_, fun i hm => (hpos i hm).1, fun i hm => (hpos i hm).2⟩
  · refine lt_of_le_of_lt b1 ?_
    unfold Problem.doubleErr
    linarith
  · by_cases hp : pb.p = 0
    · refine ⟨0, ?_, ?_⟩
      · show IsNorm pb.p _ _
        rw [hp]
        exact IsNorm.empty _
      · unfold Problem.doubleErr
        linarith
    · obtain ⟨a2, b2⟩ := norm_close (r2 hp) E2
      refine ⟨_, a2, lt_of_le_of_lt b2 ?_⟩
      unfold Problem.doubleErr
      linarith
  · refine lt_of_le_of_lt b3 ?_
    unfold Problem.doubleErr
    linarith
  · refine gap_F64 h.wf (by omega) habs ?_ hpos
    obtain ⟨p, q, hinv, _⟩ := h.sinv hr
    obtain ⟨x', y', z', s', hi', he⟩ := (settled_of_zero h.wf hinv hf hs).opt
    obtain ⟨o1, o2⟩ := solve_tolerances h hr hs
    unfold exitF at he
    simp only [o1, o2] at he
    rw [gapF_congr (fun i hm => hi.z.unique hi'.z hm) (fun i hm => hi.s.unique hi'.s hm)]
    by_cases hp : pb.p = 0
    · rw [if_pos hp] at he
      simp only [Bool.and_eq_true] at he
      exact he.2
    · rw [if_neg hp] at he
      simp only [Bool.and_eq_true] at he
      exact he.2

/-- **C75**: on a convex problem (read as real numbers) with a solution, the objective value that a solve in
double precision reports together with code 0 differs from the optimal value by at most the given bound.
`nd`, `ny`, `nz` are the norms of the distance of the point to the solution and of its multipliers,
`my`, `mz` those of the multipliers of the solution. -/
theorem C75_value {amd : Amd} {a : SetupArgs F64} {pb : Problem F64} {q0 qp qp' : QP F64}
    (h : Started amd a pb q0) (hr : Reach q0 qp) (hf : qp.stats.Flag ≠ 0)
    (hs : QP_SOLVE qp = .ok (0, qp')) (hN : pb.N < 2 ^ 40)
    (hnz : pb.P.nnz + pb.A.nnz + pb.G.nnz < 2 ^ 40)
    (htol : fin (qp.options.reltol / Scalar.sqrt (Scalar.dec 3 0))) (habs : fin qp.options.abstol)
    (hsym : pb.real.P.Symm) (hpsd : pb.real.Psd) {x' y' z' s' : Nat → ℝ}
    (ho : pb.real.Optimal x' y' z' s') :
    ∃ x y z s v, qp'.Iter pb x y z s ∧ qp'.stats.fval = some v ∧
      ((∀ i, i < pb.m → 0 < toR (s i) ∧ 0 < toR (z i)) → fin v →
        let tol := 1.001 * (|toR qp.options.reltol| / √3) + 1 / 2 ^ 498 + pb.doubleErr x y z s
        ∀ nd ny nz my mz, IsNorm pb.n (fun i => toR (x i) - x' i) nd →
          IsNorm pb.p (fun i => toR (y i)) ny → IsNorm pb.m (fun i => toR (z i)) nz →
          IsNorm pb.p y' my → IsNorm pb.m z' mz →
          toR v - pb.real.obj x' ≤ pb.m * (1.001 * |toR qp.options.abstol| + 1 / 2 ^ 1000)
            + tol * (nd + ny + nz) + pb.doubleObjErr x ∧
          pb.real.obj x' - toR v ≤ tol * (my + mz) + pb.doubleObjErr x) := by
  obtain ⟨x, y, z, s, hi, hap, v, hv, hval⟩ := C75_exit_zero h hr hf hs hN hnz htol habs
  refine ⟨x, y, z, s, v, hi, hv, fun hpos hfin => ?_⟩
  intro tol nd ny nz my mz i1 i2 i3 i4 i5
  have hA := hap hpos
  have hw : pb.real.Feasible x' := ⟨ho.ry, fun i hm => by
    have := ho.rz i hm
    have := ho.s_nonneg i hm
    linarith⟩
  have b1 : pb.real.obj (fun i => toR (x i)) - pb.real.obj x'
      ≤ pb.m * (1.001 * |toR qp.options.abstol| + 1 / 2 ^ 1000) + tol * (nd + ny + nz) :=
    hA.suboptimal h.wf.real hsym hpsd hw (nd := nd) (ny := ny) (nz := nz) i1 i2 i3
  have b2 : pb.real.obj x' - pb.real.obj (fun i => toR (x i)) ≤ tol * (my + mz) :=
    hA.lower h.wf.real hsym hpsd ho (ny := my) (nz := mz) i4 i5
  have b3 := abs_le.mp (hval hfin)
  clear_value tol
  constructor
  · linarith [b3.2]
  · linarith [b3.1]

/-! ## Example -/

/-- a complete solve, with what the theorems ask about the result -/
def dblValue : Bool :=
  match QP_SETUP failAmd (dblPb.args none) with
  | .ok q0 => match QP_SOLVE q0 with
    | .ok (0, q1) => q0.stats.Flag != 0 && (q0.options.reltol / Scalar.sqrt (Scalar.dec 3 0)).ok true &&
        q0.options.abstol.ok true && Buf.allOk true q1.z && Buf.allOk true q1.s &&
        (q1.z.all fun o => match o with | some v => Scalar.ltb 0 v | none => false) &&
        (q1.s.all fun o => match o with | some v => Scalar.ltb 0 v | none => false) &&
        (match q1.stats.fval with | some v => v.ok true | none => false)
    | _ => false
  | .error _ => false

theorem dblValue_true : dblValue = true := by decide +kernel

theorem allPos_has {b : Buf F64} (h : (b.all fun o => match o with | some v => Scalar.ltb 0 v | none => false) = true)
    {n : Nat} {f : Nat → F64} (hf : Buf.Has b n f) {i : Nat} (hi : i < n) (hfin : fin (f i)) : 0 < toR (f i) := by
  have h3 := List.all_eq_true.mp h _ (List.mem_of_getElem? (hf i hi))
  have := (Ieee.ltb (0 : F64) (f i) (Ieee.zero (K := F64)).1 hfin).mp h3
  rwa [(Ieee.zero (K := F64)).2] at this

/-- The problem has a solution in real numbers. -/
theorem dblPb_optimal : ∃ x y z s, dblPb.real.Optimal x y z s := by
  have pos : ∀ v : F64, v.ok true = true → Scalar.ltb 0 v = true → 0 < toR v := by
    intro v h1 h2
    have := (Ieee.ltb (0 : F64) v (Ieee.zero (K := F64)).1 (F64.ok_fin h1).1).mp h2
    rwa [(Ieee.zero (K := F64)).2] at this
  set g := toR (Scalar.dec 1 0 / Scalar.dec 3 0 : F64) with hg
  set c := toR (Scalar.dec 1 1 : F64) with hc
  set b := toR (Scalar.dec 1 0 / Scalar.dec 7 0 : F64) with hb
  have g0 : 0 < g := pos _ (by decide +kernel) (by decide +kernel)
  have c0 : 0 < c := pos _ (by decide +kernel) (by decide +kernel)
  have b0 : 0 < b := pos _ (by decide +kernel) (by decide +kernel)
  have eP : ∀ w : Nat → ℝ, dblPb.real.P.mulVec w 0 = 3 * w 0 := by
    intro w
    have h3 := (Ieee.dec_int (K := F64) 3 (by norm_num)).2
    show ∑ c ∈ range 1, dblPb.real.P.entry 0 c * w c = _
    rw [sum_range_one]
    show (∑ k ∈ Ico 0 1, if (0 : ℕ) = 0 then toR (Scalar.dec 3 0 : F64) else 0) * w 0 = _
    rw [h3]
    simp
  have eG : ∀ w : Nat → ℝ, dblPb.real.G.mulVec w 0 = g * w 0 := by
    intro w
    show ∑ c ∈ range 1, dblPb.real.G.entry 0 c * w c = _
    rw [sum_range_one]
    show (∑ k ∈ Ico 0 1, if (0 : ℕ) = 0 then toR (Scalar.dec 1 0 / Scalar.dec 3 0 : F64) else 0) * w 0 = _
    simp [hg]
  refine ⟨fun _ => -c / 3, fun _ => 0, fun _ => 0, fun _ => b + g * (c / 3), ?_, ?_, ?_, ?_, ?_, ?_⟩
  · intro i hi
    have hi : i < 1 := hi
    have : i = 0 := by omega
    subst this
    rw [eP]
    have e1 : dblPb.real.c 0 = c := rfl
    simp only [Csc.tmulVec, mul_zero, sum_const_zero, e1]
    ring
  · intro i hi
    exact absurd hi (Nat.not_lt_zero i)
  · intro i hi
    have hi : i < 1 := hi
    have : i = 0 := by omega
    subst this
    rw [eG]
    show g * (-c / 3) + (b + g * (c / 3)) = b
    ring
  · intro i _
    positivity
  · intro i _
    exact le_rfl
  · intro i _
    simp

/-- C75: a run in double precision that meets the hypotheses. -/
example : ∃ q0 q1 x y z s v, Started failAmd (dblPb.args none) dblPb q0 ∧ q0.stats.Flag ≠ 0 ∧
    QP_SOLVE q0 = .ok (0, q1) ∧ fin (q0.options.reltol / Scalar.sqrt (Scalar.dec 3 0)) ∧
    fin q0.options.abstol ∧ dblPb.real.P.Symm ∧ dblPb.real.Psd ∧
    (∃ x y z s, dblPb.real.Optimal x y z s) ∧ q1.Iter dblPb x y z s ∧
    (∀ i, i < dblPb.m → 0 < toR (s i) ∧ 0 < toR (z i)) ∧ q1.stats.fval = some v ∧ fin v := by
  obtain ⟨q0, h⟩ := dblPb_started
  have hrun := dblValue_true
  unfold dblValue at hrun
  rw [h.ok] at hrun
  dsimp only at hrun
  split at hrun
  case h_2 => exact absurd hrun Bool.false_ne_true
  case h_1 q1 hq1 =>
  simp only [Bool.and_eq_true, bne_iff_ne, ne_eq] at hrun
  obtain ⟨⟨⟨⟨⟨⟨⟨c1, c2⟩, c3⟩, c4⟩, c5⟩, c6⟩, c7⟩, c8⟩ := hrun
  have t1 := (F64.ok_fin c2).1
  have t2 := (F64.ok_fin c3).1
  obtain ⟨x, y, z, s, hi, _, v, hv, _⟩ := C75_exit_zero h .start c1 hq1 (by
    have : dblPb.N = 2 := rfl
    omega) (by
    have : dblPb.P.nnz + dblPb.A.nnz + dblPb.G.nnz = 2 := rfl
    omega) t1 t2
  refine ⟨q0, q1, x, y, z, s, v, h, c1, hq1, t1, t2, dblPb_symm, ?_, dblPb_optimal, hi, fun i hm => ⟨?_, ?_⟩, hv, ?_⟩
  · intro w
    show 0 ≤ ∑ i ∈ range 1, w i * dblPb.real.P.mulVec w i
    have e : dblPb.real.P.mulVec w 0 = 3 * w 0 := by
      have h3 := (Ieee.dec_int (K := F64) 3 (by norm_num)).2
      show ∑ c ∈ range 1, dblPb.real.P.entry 0 c * w c = _
      rw [sum_range_one]
      show (∑ k ∈ Ico 0 1, if (0 : ℕ) = 0 then toR (Scalar.dec 3 0 : F64) else 0) * w 0 = _
      rw [h3]
      simp
    rw [sum_range_one, e]
    nlinarith [mul_self_nonneg (w 0)]
  · exact allPos_has c7 hi.s hm (Buf.allOk_has c5 hi.s hm).1
  · exact allPos_has c6 hi.z hm (Buf.allOk_has c4 hi.z hm).1
  · rw [hv] at c8
    exact (F64.ok_fin c8).1

/-- the first iteration stores a finite objective value -/
def dblFirst : Bool :=
  match QP_SETUP failAmd (dblPb.args none) with
  | .ok q0 => match solveBody q0 with
    | .ok (q1, _) => (match q1.stats.fval with | some v => v.ok true | none => false)
    | _ => false
  | .error _ => false

theorem dblFirst_true : dblFirst = true := by decide +kernel

/-- C75, every iteration: the first iteration of the same problem. -/
example : ∃ q0 q1 brk x y z s v, Started failAmd (dblPb.args none) dblPb q0 ∧
    solveBody q0 = .ok (q1, brk) ∧ q0.Iter dblPb x y z s ∧ q1.stats.fval = some v ∧ fin v ∧
    |toR v - dblPb.real.obj (fun i => toR (x i))| ≤ dblPb.objErr 1 x := by
  obtain ⟨q0, h⟩ := dblPb_started
  have hrun := dblFirst_true
  unfold dblFirst at hrun
  rw [h.ok] at hrun
  dsimp only at hrun
  split at hrun
  case h_2 => exact absurd hrun Bool.false_ne_true
  case h_1 q1 brk hq1 =>
  obtain ⟨p, q, hi, _⟩ := h.sinv .start
  obtain ⟨x, y, z, s, hit⟩ := hi.iter
  obtain ⟨v, hv, hb⟩ := C75_objective h .start hq1 half_F64 (k := 1)
    (fun i _ => Csc.rowNnz_le dblPb_wf.P i) hit
  rw [hv] at hrun
  have hfin := (F64.ok_fin hrun).1
  exact ⟨q0, q1, brk, x, y, z, s, v, h, hq1, hit, hv, hfin, hb hfin⟩

end Verif
