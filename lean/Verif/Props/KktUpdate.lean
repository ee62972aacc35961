import Verif.Model.KktUpdate
import Verif.Props.Kkt

/-!
# C90: the low-rank updates of the KKT matrix
-/

set_option linter.unusedSectionVars false

namespace Verif

section Generic

variable {K : Type} [Zero K] [One K] [Add K] [Sub K] [Mul K] [Div K] [Neg K] [Scalar K]

/-- A loop that writes `v 0, v 1, …` to the inequality diagonal. -/
theorem diagLoop_spec {S : Smat K} {P A G : Csc K} (hG : G.WF) (hr : G.RowsNonempty)
    {d : Nat → K} (hS : S.Is (kktCsc P A G d)) {val : Int → M K} {v : Nat → K} (hv : ∀ r : Nat, r < G.m → val r = .ok (v r)) :
    Spec (forI ((P.n : Int) + (A.m : Int)) ((P.n : Int) + (G.m : Int) + (A.m : Int)) S.pr fun i pr => do
      let e ← rd S.jc (i + 1)
      let x ← val (i - P.n - A.m)
      wr pr (e - 1) x) (fun pr => pr.length = S.pr.length ∧
      Buf.Has pr (kktCsc P A G d).nnz (kktCsc P A G v).pr) := by
  have e1 : ((P.n : Int) + (A.m : Int)) = ((P.n + A.m : Nat) : Int) := by omega
  have e2 : ((P.n : Int) + (G.m : Int) + (A.m : Int)) = ((P.n + A.m + G.m : Nat) : Int) := by omega
  rw [e1, e2]
  let dd : Nat → Nat → K := fun j i => if i < j then v i else d i
  have hdd : ∀ j, dd (j + 1) = Function.update (dd j) j (v j) := by
    intro j
    funext i
    by_cases h : i = j
    · subst h; simp [dd]
    · rw [Function.update_of_ne h]
      simp only [dd]
      by_cases h' : i < j
      · rw [if_pos h', if_pos (by omega)]
      · rw [if_neg h', if_neg (by omega)]
  have hlen := hS.pr.le_length
  refine (forI_spec (lo := P.n + A.m) (hi := P.n + A.m + G.m) (by omega)
    (fun j (pr : Buf K) => pr.length = S.pr.length ∧
      Buf.Has pr (kktCsc P A G d).nnz (kktCsc P A G (dd (j - (P.n + A.m)))).pr)
    ⟨rfl, hS.pr.congr ?_⟩ ?_).mono ?_
  · intro k _
    have : dd (P.n + A.m - (P.n + A.m)) = d := by
      funext i
      simp [dd]
    rw [this]
  · rintro j pr hj1 hj2 ⟨h1, h2⟩
    obtain ⟨r, rfl⟩ : ∃ r, j = P.n + A.m + r := ⟨j - (P.n + A.m), by omega⟩
    have hrm : r < G.m := by omega
    have e3 : (((P.n + A.m + r : Nat) : Int) + 1) = ((P.n + A.m + r + 1 : Nat) : Int) := by omega
    have e4 : (((P.n + A.m + r : Nat) : Int) - (P.n : Int) - (A.m : Int)) = ((r : Nat) : Int) := by
      push_cast; ring
    have hn : (kktCsc P A G d).n = P.n + A.m + G.m := rfl
    have hj : (kktCsc P A G d).jc = offs (kktCol P A G d) := rfl
    rw [e3, hS.jc.rd (by omega), ok_bind, e4, hv r hrm, ok_bind, hj]
    have hne := tcol_ne_nil hG hr hrm
    have hpos : 0 < offs (kktCol P A G d) (P.n + A.m + r + 1) := by
      rw [offs_succ, kktCol_slack, slackCol]
      simp only [hne, if_false, List.length_append, List.length_singleton]
      omega
    have hle := offs_mono (kktCol P A G d) (c := P.n + A.m + r + 1) (d := P.n + A.m + G.m)
      (by omega)
    have hle' : offs (kktCol P A G d) (P.n + A.m + r + 1) ≤ (kktCsc P A G d).nnz := hle
    have e5 : ((offs (kktCol P A G d) (P.n + A.m + r + 1) : Nat) : Int) - 1
        = ((offs (kktCol P A G d) (P.n + A.m + r + 1) - 1 : Nat) : Int) := by omega
    simp only [e5]
    rw [wr_ok (by omega)]
    refine Spec.ok ⟨by simp [h1], (h2.set (by omega) _).congr ?_⟩
    intro k hk
    have e6 : P.n + A.m + r + 1 - (P.n + A.m) = r + 1 := by omega
    have e7 : P.n + A.m + r - (P.n + A.m) = r := by omega
    rw [e6, e7, hdd, kktCsc_pr_update hG hr _ hrm _ (by rw [kktCsc_nnz P A G _ d]; exact hk),
      offs_kktCol P A G (dd r) d]
    by_cases hkk : k = offs (kktCol P A G d) (P.n + A.m + r + 1) - 1
    · subst hkk
      rw [Function.update_self, if_pos (by omega)]
    · rw [Function.update_of_ne hkk, if_neg (by omega)]
  · rintro pr ⟨h1, h2⟩
    refine ⟨h1, fun k hk => ?_⟩
    rw [h2 k hk]
    have e6 : P.n + A.m + G.m - (P.n + A.m) = G.m := by omega
    rw [e6]
    -- the two diagonals agree on the rows that exist
    have hcol : ∀ c, c < P.n + A.m + G.m → kktCol P A G (dd G.m) c
        = kktCol P A G v c := by
      intro c hc
      unfold kktCol
      split
      · rfl
      · split
        · rfl
        · unfold slackCol
          simp only [dd]
          rw [if_pos (show c - P.n - A.m < G.m by omega)]
    unfold kktCsc Csc.ofCols
    simp only
    rw [flatTo_congr hcol]

/-- For `indicator = 0` it is the function the solver calls. -/
theorem updatekktmatrixI_zero (S : Smat K) (s z ds dz : Buf K) (ap ad : K) (m n p : Int) :
    updatekktmatrixI S s z ds dz ap ad m n p 0 = updatekktmatrix S s z m n p := by
  unfold updatekktmatrixI updatekktmatrix
  simp only [if_true, show ¬ (0 : Int) = 1 by decide, show ¬ (0 : Int) = 2 by decide, if_false, bind_pure]

/-- Any other value does nothing. -/
theorem updatekktmatrixI_other (S : Smat K) (s z ds dz : Buf K) (ap ad : K) (m n p : Int) {ind : Int}
    (h0 : ind ≠ 0) (h1 : ind ≠ 1) (h2 : ind ≠ 2) :
    updatekktmatrixI S s z ds dz ap ad m n p ind = .ok S.pr := by
  unfold updatekktmatrixI
  simp only [if_neg h0, if_neg h1, if_neg h2, pure_eq_ok, ok_bind]

theorem updatekktmatrixI_spec {S : Smat K} {P A G : Csc K} (hG : G.WF) (hr : G.RowsNonempty)
    {d : Nat → K} (hS : S.Is (kktCsc P A G d)) {s z ds dz : Buf K} {fs fz fds fdz : Nat → K}
    (hs : Buf.Has s G.m fs) (hz : Buf.Has z G.m fz) (hds : Buf.Has ds G.m fds) (hdz : Buf.Has dz G.m fdz)
    (ap ad : K) {ind : Int} {v : Nat → K}
    (hv : (ind = 0 ∧ v = fun i => -(fs i) / fz i) ∨
      (ind = 1 ∧ v = fun i => -(fs i / fz i - Scalar.dec 1 0)) ∨
      (ind = 2 ∧ v = fun i => -(fs i / fz i - (fs i - ap * fds i) / (fz i - ad * fdz i)))) :
    Spec (updatekktmatrixI S s z ds dz ap ad G.m P.n A.m ind) (fun pr => pr.length = S.pr.length ∧
      Buf.Has pr (kktCsc P A G d).nnz (kktCsc P A G v).pr) := by
  rcases hv with ⟨rfl, rfl⟩ | ⟨rfl, rfl⟩ | ⟨rfl, rfl⟩
  · rw [updatekktmatrixI_zero]
    exact updatekktmatrix_spec hG hr hS hs hz
  · unfold updatekktmatrixI
    simp only [show ¬ (1 : Int) = 0 by decide, show ¬ (1 : Int) = 2 by decide, if_false, if_true, bind_pure,
      pure_bind]
    have := diagLoop_spec hG hr hS (val := fun i => do
        let si ← rd s i
        let zi ← rd z i
        pure (-(si / zi - Scalar.dec 1 0))) (v := fun i => -(fs i / fz i - Scalar.dec 1 0))
      (fun r hr => by rw [hs.rd hr, hz.rd hr]; rfl)
    simp only [bind_assoc, pure_bind] at this
    exact this
  · unfold updatekktmatrixI
    simp only [show ¬ (2 : Int) = 0 by decide, show ¬ (2 : Int) = 1 by decide, if_false, if_true,
      pure_eq_ok, ok_bind]
    have := diagLoop_spec hG hr hS (val := fun i => do
        let si ← rd s i
        let zi ← rd z i
        let dsi ← rd ds i
        let dzi ← rd dz i
        pure (-(si / zi - (si - ap * dsi) / (zi - ad * dzi))))
      (v := fun i => -(fs i / fz i - (fs i - ap * fds i) / (fz i - ad * fdz i)))
      (fun r hr => by rw [hs.rd hr, hz.rd hr, hds.rd hr, hdz.rd hr]; rfl)
    simp only [bind_assoc, pure_bind] at this
    exact this

end Generic

section Field

variable {K : Type} [Field K] [LinearOrder K] [IsStrictOrderedRing K] [Scalar K] [LawfulScalar K]

/-- The matrix with the entries of the KKT matrix of `pb` and the inequality diagonal `d`. -/
def HasDiag (pb : Problem K) (S : Smat K) (d : Nat → K) : Prop :=
  ∃ M : Csc K, S.Is M ∧ M.WF ∧ M.m = pb.n + pb.p + pb.m ∧ M.n = pb.n + pb.p + pb.m ∧
    ∀ r c, r < pb.n + pb.p + pb.m → c < pb.n + pb.p + pb.m → M.entry r c = kktEntry pb.P pb.A pb.G d r c

/-- **C90**, the values written: in every reachable state, `updatekktmatrix` succeeds for every `indicator`. For 0 the
inequality diagonal becomes `-s/z`; for 1 the difference between `-s/z` and the initial diagonal `-1`; for 2 the difference
between `-s/z` and the same expression one step of length `alpha_p`, `alpha_d` earlier; any other value changes
nothing. -/
theorem C90_indicator {amd : Amd} {a : SetupArgs K} {pb : Problem K} (hpb : pb.WF) (ha : a.Give pb)
    (hperm : PermSource amd a.Permut a.p pb) {q0 qp : QP K} (h0 : QP_SETUP amd a = .ok q0) (hr : Reach q0 qp)
    {s z ds dz : Buf K} {fs fz fds fdz : Nat → K} (hs : Buf.Has s pb.m fs) (hz : Buf.Has z pb.m fz)
    (hds : Buf.Has ds pb.m fds) (hdz : Buf.Has dz pb.m fdz) (ap ad : K) (ind : Int) :
    ∃ pr, updatekktmatrixI qp.kkt.kktmatrix s z ds dz ap ad pb.m pb.n pb.p ind = .ok pr ∧
      (ind = 0 → HasDiag pb { qp.kkt.kktmatrix with pr := pr } fun i => -fs i / fz i) ∧
      (ind = 1 → HasDiag pb { qp.kkt.kktmatrix with pr := pr } fun i => -fs i / fz i - (-1)) ∧
      (ind = 2 → HasDiag pb { qp.kkt.kktmatrix with pr := pr } fun i =>
        -fs i / fz i - -(fs i - ap * fds i) / (fz i - ad * fdz i)) ∧
      (ind ≠ 0 → ind ≠ 1 → ind ≠ 2 → pr = qp.kkt.kktmatrix.pr) := by
  obtain ⟨p, q, hd⟩ := (QP_SETUP_spec hpb ha hperm).elim h0
  obtain ⟨h1, _⟩ := hr.sinv hpb hd.sinv
  obtain ⟨d, hk⟩ := h1.inv.kkt
  have key : ∀ v : Nat → K, ((ind = 0 ∧ v = fun i => -(fs i) / fz i) ∨
      (ind = 1 ∧ v = fun i => -(fs i / fz i - Scalar.dec 1 0)) ∨
      (ind = 2 ∧ v = fun i => -(fs i / fz i - (fs i - ap * fds i) / (fz i - ad * fdz i)))) →
      ∃ pr, updatekktmatrixI qp.kkt.kktmatrix s z ds dz ap ad pb.m pb.n pb.p ind = .ok pr ∧
        HasDiag pb { qp.kkt.kktmatrix with pr := pr } v := by
    intro v hv
    obtain ⟨pr, e1, e2, e3⟩ := updatekktmatrixI_spec hpb.G hpb.rows hk.mat hs hz hds hdz ap ad hv
    obtain ⟨s1, s2, s3, s4⟩ := kktCsc_shape pb.P pb.A pb.G d v
    refine ⟨pr, e1, kktCsc pb.P pb.A pb.G v, ⟨?_, ?_, ?_, ?_, ?_, ?_⟩, ?_, rfl, rfl, fun r c _ hc =>
      kktCsc_entry hpb.P hpb.A hpb.G hpb.Pm hpb.An hpb.Gn hpb.rows v hc⟩
    · rw [s1]; exact hk.mat.m
    · rw [s2]; exact hk.mat.n
    · rw [kktCsc_nnz pb.P pb.A pb.G v d]; exact hk.mat.nnz
    · rw [s2, s3]; exact hk.mat.jc
    · rw [kktCsc_nnz pb.P pb.A pb.G v d, s4]; exact hk.mat.ir
    · rw [kktCsc_nnz pb.P pb.A pb.G v d]; exact e3
    · exact kktCsc_wf hpb.P hpb.A hpb.G hpb.Pm hpb.An hpb.Gn v
  by_cases i0 : ind = 0
  · obtain ⟨pr, e1, e2⟩ := key _ (Or.inl ⟨i0, rfl⟩)
    exact ⟨pr, e1, fun _ => e2, by omega, by omega, fun h => absurd i0 h⟩
  by_cases i1 : ind = 1
  · obtain ⟨pr, e1, e2⟩ := key _ (Or.inr (Or.inl ⟨i1, rfl⟩))
    refine ⟨pr, e1, fun h => absurd h i0, fun _ => ?_, by omega, fun _ h => absurd i1 h⟩
    convert e2 using 2 with i
    rw [dec_zero]
    push_cast
    ring
  by_cases i2 : ind = 2
  · obtain ⟨pr, e1, e2⟩ := key _ (Or.inr (Or.inr ⟨i2, rfl⟩))
    refine ⟨pr, e1, fun h => absurd h i0, fun h => absurd h i1, fun _ => ?_, fun _ _ h => absurd i2 h⟩
    convert e2 using 2 with i
    ring
  · exact ⟨_, updatekktmatrixI_other _ _ _ _ _ _ _ _ _ _ i0 i1 i2, fun h => absurd h i0, fun h => absurd h i1,
      fun h => absurd h i2, fun _ _ _ => rfl⟩

/-- **C90**, the updates: adding what `indicator = 1` writes to the initial KKT matrix gives the matrix the solver factorises;
adding what `indicator = 2` writes after `updatevariables` moved the slacks and multipliers to the matrix of the iterate before
gives that of the new iterate. -/
theorem C90_low_rank {amd : Amd} {a : SetupArgs K} {pb : Problem K} (hpb : pb.WF) (ha : a.Give pb)
    (hperm : PermSource amd a.Permut a.p pb) {q0 qp : QP K} (h0 : QP_SETUP amd a = .ok q0) (hr : Reach q0 qp)
    {s z ds dz : Buf K} {fs fz fds fdz : Nat → K} (hs : Buf.Has s pb.m fs) (hz : Buf.Has z pb.m fz)
    (hds : Buf.Has ds pb.m fds) (hdz : Buf.Has dz pb.m fdz) (ap ad : K) :
    ∃ s' z' pr0 pr1 pr0' pr2, ∃ I M D1 M' D2 : Csc K,
      q0.kkt.kktmatrix.Is I ∧
      updatekktmatrix qp.kkt.kktmatrix s z pb.m pb.n pb.p = .ok pr0 ∧
      { qp.kkt.kktmatrix with pr := pr0 }.Is M ∧
      updatekktmatrixI qp.kkt.kktmatrix s z ds dz ap ad pb.m pb.n pb.p 1 = .ok pr1 ∧
      { qp.kkt.kktmatrix with pr := pr1 }.Is D1 ∧
      updatevariables s ds ap pb.m = .ok s' ∧ updatevariables z dz ad pb.m = .ok z' ∧
      updatekktmatrix qp.kkt.kktmatrix s' z' pb.m pb.n pb.p = .ok pr0' ∧
      { qp.kkt.kktmatrix with pr := pr0' }.Is M' ∧
      updatekktmatrixI qp.kkt.kktmatrix s' z' ds dz ap ad pb.m pb.n pb.p 2 = .ok pr2 ∧
      { qp.kkt.kktmatrix with pr := pr2 }.Is D2 ∧
      ∀ r c, r < pb.n + pb.p + pb.m → c < pb.n + pb.p + pb.m →
        (M.entry r c = I.entry r c + if pb.n + pb.p ≤ r ∧ r = c then D1.entry r c else 0) ∧
        (M'.entry r c = M.entry r c + if pb.n + pb.p ≤ r ∧ r = c then D2.entry r c else 0) := by
  obtain ⟨s', es, -, hs', -⟩ := updatevariables_spec (alpha := ap) hs hds
  obtain ⟨z', ez, -, hz', -⟩ := updatevariables_spec (alpha := ad) hz hdz
  obtain ⟨pr0, e0, d0, -⟩ := C90_indicator hpb ha hperm h0 hr hs hz hds hdz ap ad 0
  obtain ⟨pr1, e1, -, d1, -⟩ := C90_indicator hpb ha hperm h0 hr hs hz hds hdz ap ad 1
  obtain ⟨pr0', e0', d0', -⟩ := C90_indicator hpb ha hperm h0 hr hs' hz' hds hdz ap ad 0
  obtain ⟨pr2, e2, -, -, d2, -⟩ := C90_indicator hpb ha hperm h0 hr hs' hz' hds hdz ap ad 2
  obtain ⟨M, m1, -, -, -, m2⟩ := d0 rfl
  obtain ⟨D1, m3, -, -, -, m4⟩ := d1 rfl
  obtain ⟨M', m5, -, -, -, m6⟩ := d0' rfl
  obtain ⟨D2, m7, -, -, -, m8⟩ := d2 rfl
  obtain ⟨q, hq, I, i1, -, -, -, i2, -⟩ := C06_kkt hpb ha hperm
  rw [h0] at hq
  cases hq
  rw [updatekktmatrixI_zero] at e0 e0'
  refine ⟨s', z', pr0, pr1, pr0', pr2, I, M, D1, M', D2, i1, e0, m1, e1, m3, es, ez, e0', m5, e2, m7, ?_⟩
  intro r c hrc hcc
  rw [m2 r c hrc hcc, m4 r c hrc hcc, m6 r c hrc hcc, m8 r c hrc hcc, i2 r c hrc hcc]
  have hn : pb.P.n = pb.n := rfl
  have hp : pb.A.m = pb.p := rfl
  unfold kktEntry
  simp only [hn, hp]
  by_cases g1 : pb.n + pb.p ≤ r ∧ r = c
  · obtain ⟨g1, rfl⟩ := g1
    simp only [show ¬ r < pb.n by omega, show ¬ r < pb.n + pb.p by omega, if_false, if_true, g1, true_and]
    constructor
    · ring
    · have e3 : fs (r - pb.n - pb.p) + fds (r - pb.n - pb.p) * ap - ap * fds (r - pb.n - pb.p) = fs (r - pb.n - pb.p) := by
        ring
      have e4 : fz (r - pb.n - pb.p) + fdz (r - pb.n - pb.p) * ad - ad * fdz (r - pb.n - pb.p) = fz (r - pb.n - pb.p) := by
        ring
      rw [e3, e4]
      ring
  · simp only [if_neg g1, add_zero]
    constructor
    all_goals
      split_ifs <;> first | rfl | (exfalso; apply g1; omega)

end Field

/-- The demo after setup, with slacks 3 and multipliers 2: `indicator = 1` writes the diagonal `-3/2 + 1`. -/
example : ∃ q0, QP_SETUP failAmd (demoArgs ℚ) = .ok q0 ∧ ∃ pr,
    updatekktmatrixI q0.kkt.kktmatrix (Buf.ofFn (demoPb ℚ).m fun _ => 3) (Buf.ofFn (demoPb ℚ).m fun _ => 2)
      (Buf.ofFn (demoPb ℚ).m fun _ => 1) (Buf.ofFn (demoPb ℚ).m fun _ => 1) 1 1
      (demoPb ℚ).m (demoPb ℚ).n (demoPb ℚ).p 1 = .ok pr ∧
    HasDiag (demoPb ℚ) { q0.kkt.kktmatrix with pr := pr } fun _ => -1 / 2 := by
  obtain ⟨q0, h0, -⟩ := C06_kkt (demoPb_wf (K := ℚ)) demoArgs_give (demoArgs_perm failAmd)
  obtain ⟨pr, h1, -, h2, -⟩ := C90_indicator demoPb_wf demoArgs_give (demoArgs_perm failAmd) h0 .start
    (Buf.has_ofFn _ fun _ => 3) (Buf.has_ofFn _ fun _ => 2) (Buf.has_ofFn _ fun _ => 1) (Buf.has_ofFn _ fun _ => 1) 1 1 1
  refine ⟨q0, h0, pr, h1, ?_⟩
  convert h2 rfl using 2 with i
  norm_num

end Verif
