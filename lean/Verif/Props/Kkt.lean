import Verif.Lemmas.Solve
import Verif.DemoQp

/-!
# C06 – C08: the KKT matrix
-/

set_option linter.unusedSectionVars false

namespace Verif

open Finset

section Generic

variable {K : Type} [Zero K] [One K] [Add K] [Sub K] [Mul K] [Div K] [Neg K] [Scalar K]

/-- The last stored entry of an inequality column. -/
theorem kktCsc_last {P A G : Csc K} (hG : G.WF) (hr : G.RowsNonempty) (hPm : P.m = P.n)
    (d : Nat → K) {i : Nat} (hi : i < G.m) :
    (kktCsc P A G d).jc (P.n + A.m + i) < (kktCsc P A G d).jc (P.n + A.m + i + 1) ∧
      (kktCsc P A G d).ir ((kktCsc P A G d).jc (P.n + A.m + i + 1) - 1) = P.n + A.m + i ∧
      (kktCsc P A G d).pr ((kktCsc P A G d).jc (P.n + A.m + i + 1) - 1) = d i := by
  have hj : (kktCsc P A G d).jc = offs (kktCol P A G d) := rfl
  have hne := tcol_ne_nil hG hr hi
  have hcol : kktCol P A G d (P.n + A.m + i) = tcol G i ++ [(P.m + A.m + i, d i)] := by
    rw [kktCol_slack, slackCol, if_neg hne]
  have hlen : offs (kktCol P A G d) (P.n + A.m + i + 1)
      = offs (kktCol P A G d) (P.n + A.m + i) + (tcol G i).length + 1 := by
    rw [offs_succ, hcol]; simp; omega
  rw [hj]
  refine ⟨by omega, ?_⟩
  have e : offs (kktCol P A G d) (P.n + A.m + i + 1) - 1
      = offs (kktCol P A G d) (P.n + A.m + i) + (tcol G i).length := by omega
  have hget : (kktCol P A G d (P.n + A.m + i))[(tcol G i).length]?
      = some (P.m + A.m + i, d i) := by rw [hcol]; simp
  rw [e]
  unfold kktCsc
  rw [Csc.ofCols_ir _ _ _ (by omega) hget, Csc.ofCols_pr _ _ _ (by omega) hget]
  exact ⟨by simp only [hPm], rfl⟩

/-- **C08**: whatever the arithmetic, in every state reachable after a setup that returned `q0`, an
iteration that takes a step changes the KKT matrix only in the last entry of each of the `m`
inequality columns, which is its diagonal entry: it becomes `-s i / z i` for the slacks and
multipliers before the step. -/
theorem C08_update {amd : Amd} {a : SetupArgs K} {pb : Problem K} (hpb : pb.WF) (ha : a.Give pb)
    (hperm : PermSource amd a.Permut a.p pb) {q0 qp qp' : QP K} (h0 : QP_SETUP amd a = .ok q0)
    (hr : Reach q0 qp) (hs : solveBody qp = .ok (qp', false)) {x y z s : Nat → K}
    (hi : qp.Iter pb x y z s) :
    ∃ M M' : Csc K, qp.kkt.kktmatrix.Is M ∧ qp'.kkt.kktmatrix.Is M' ∧
      M'.m = M.m ∧ M'.n = M.n ∧ M'.jc = M.jc ∧ M'.ir = M.ir ∧
      (∀ i, i < pb.m → M.jc (pb.n + pb.p + i) < M.jc (pb.n + pb.p + i + 1) ∧
        M.ir (M.jc (pb.n + pb.p + i + 1) - 1) = pb.n + pb.p + i ∧
        M'.pr (M.jc (pb.n + pb.p + i + 1) - 1) = -(s i) / z i) ∧
      ∀ k, k < M.nnz → (∀ i, i < pb.m → k + 1 ≠ M.jc (pb.n + pb.p + i + 1)) →
        M'.pr k = M.pr k := by
  obtain ⟨p, q, hd⟩ := (QP_SETUP_spec hpb ha hperm).elim h0
  obtain ⟨h1, _⟩ := hr.sinv hpb hd.sinv
  have hb := h1.bodyOut hpb hs hi
  obtain ⟨t, ht, _⟩ := hb.step rfl
  obtain ⟨d, hk⟩ := h1.inv.kkt
  obtain ⟨s1, s2, s3, s4⟩ := kktCsc_shape pb.P pb.A pb.G d (slackD z s)
  refine ⟨_, _, hk.mat, ht.sym.mat, s1, s2, s3, s4, ?_, ?_⟩
  · intro i hi'
    have g1 := kktCsc_last (A := pb.A) hpb.G hpb.rows hpb.Pm d hi'
    have g2 := kktCsc_last (A := pb.A) hpb.G hpb.rows hpb.Pm (slackD z s) hi'
    refine ⟨g1.1, g1.2.1, ?_⟩
    rw [s3] at g2
    exact g2.2.2
  · intro k hk' hne
    -- change the diagonal entries one at a time
    have key : ∀ j, j ≤ pb.m → (kktCsc pb.P pb.A pb.G
        (fun i => if i < j then slackD z s i else d i)).pr k = (kktCsc pb.P pb.A pb.G d).pr k := by
      intro j
      induction j with
      | zero => intro _; simp
      | succ j ih =>
        intro hj
        rw [← ih (by omega)]
        have e : (fun i => if i < j + 1 then slackD z s i else d i)
            = Function.update (fun i => if i < j then slackD z s i else d i) j (slackD z s j) := by
          funext i
          by_cases h : i = j
          · subst h; simp
          · rw [Function.update_of_ne h]
            by_cases h' : i < j
            · rw [if_pos h', if_pos (by omega)]
            · rw [if_neg h', if_neg (by omega)]
        rw [e, kktCsc_pr_update hpb.G hpb.rows _ (show j < pb.G.m from hj) _
          (by rw [kktCsc_nnz _ _ _ _ d]; exact hk'), if_neg]
        rw [offs_kktCol pb.P pb.A pb.G _ d]
        exact hne j hj
    have := key pb.m le_rfl
    rw [← this]
    have hcol : ∀ c, c < pb.P.n + pb.A.m + pb.G.m → kktCol pb.P pb.A pb.G (slackD z s) c
        = kktCol pb.P pb.A pb.G (fun i => if i < pb.m then slackD z s i else d i) c := by
      intro c hc
      unfold kktCol
      split
      · rfl
      · split
        · rfl
        · unfold slackCol
          simp only
          rw [if_pos (show c - pb.P.n - pb.A.m < pb.m by unfold Problem.m; omega)]
    unfold kktCsc Csc.ofCols
    simp only
    rw [flatTo_congr hcol]

/-- The hypotheses of C08 are met: the demo problem, from the state after setup. -/
example : ∃ q0, QP_SETUP failAmd (demoArgs ℚ) = .ok q0 ∧ Reach q0 q0 ∧
    ∃ x y z s r, q0.Iter (demoPb ℚ) x y z s ∧ solveBody q0 = .ok r := by
  obtain ⟨q0, h0, p, q, hd⟩ := QP_SETUP_spec (demoPb_wf (K := ℚ)) demoArgs_give
    (demoArgs_perm failAmd)
  obtain ⟨x, y, z, s, r, h1, h2, _⟩ := hd.sinv.body demoPb_wf (Or.inl (by rw [hd.options]; decide))
  exact ⟨q0, h0, .start, x, y, z, s, r, h1, h2⟩

/-! ## Empty rows of `G` -/

/-- `updatekktmatrix` for arbitrary column pointers `jc`: every cell written holds the value of the
last inequality whose column ends there. -/
theorem updatekktmatrix_gen {S : Smat K} {s z : Buf K} {n p m : Nat} {jc : Nat → Nat}
    {fs fz : Nat → K} (hj : Buf.Has S.jc (n + p + m + 1) (fun i => (jc i : Int)))
    (hs : Buf.Has s m fs) (hz : Buf.Has z m fz)
    (hpos : ∀ i, i < m → 1 ≤ jc (n + p + i + 1))
    (hle : ∀ i, i < m → jc (n + p + i + 1) ≤ S.pr.length) :
    Spec (updatekktmatrix S s z m n p) (fun pr => pr.length = S.pr.length ∧
      (∀ k, (∀ i, i < m → jc (n + p + i + 1) ≠ k + 1) → pr[k]? = S.pr[k]?) ∧
      ∀ i, i < m → (∀ i', i < i' → i' < m → jc (n + p + i' + 1) ≠ jc (n + p + i + 1)) →
        pr[jc (n + p + i + 1) - 1]? = some (some (-(fs i) / fz i))) := by
  unfold updatekktmatrix
  have e1 : ((n : Int) + (p : Int)) = ((n + p : Nat) : Int) := by omega
  have e2 : ((n : Int) + (m : Int) + (p : Int)) = ((n + p + m : Nat) : Int) := by omega
  rw [e1, e2]
  refine (forI_spec (lo := n + p) (hi := n + p + m) (by omega)
    (fun j (pr : Buf K) => pr.length = S.pr.length ∧
      (∀ k, (∀ i, n + p + i < j → jc (n + p + i + 1) ≠ k + 1) → pr[k]? = S.pr[k]?) ∧
      ∀ i, n + p + i < j → (∀ i', i < i' → n + p + i' < j →
          jc (n + p + i' + 1) ≠ jc (n + p + i + 1)) →
        pr[jc (n + p + i + 1) - 1]? = some (some (-(fs i) / fz i)))
    ⟨rfl, fun _ _ => rfl, fun i hi => by omega⟩ ?_).mono ?_
  · rintro j pr hj1 hj2 ⟨h1, h2, h3⟩
    obtain ⟨r, rfl⟩ : ∃ r, j = n + p + r := ⟨j - (n + p), by omega⟩
    have hrm : r < m := by omega
    have e3 : (((n + p + r : Nat) : Int) + 1) = ((n + p + r + 1 : Nat) : Int) := by omega
    have e4 : (((n + p + r : Nat) : Int) - (n : Int) - (p : Int)) = ((r : Nat) : Int) := by
      push_cast; ring
    have g1 := hpos r hrm
    have g2 := hle r hrm
    have e5 : ((jc (n + p + r + 1) : Nat) : Int) - 1 = ((jc (n + p + r + 1) - 1 : Nat) : Int) := by
      omega
    rw [e3, hj.rd (by omega), ok_bind, e4, hs.rd hrm, ok_bind, hz.rd hrm, ok_bind]
    simp only [e5]
    rw [wr_ok (by omega)]
    refine Spec.ok ⟨by simp [h1], ?_, ?_⟩
    · intro k hk
      have hkr := hk r (by omega)
      rw [List.getElem?_set_ne (by omega)]
      exact h2 k (fun i hi => hk i (by omega))
    · intro i hi hlast
      by_cases hir : i = r
      · subst hir
        rw [List.getElem?_set_self (by omega)]
      · have hne := hlast r (by omega) (by omega)
        have g3 := hpos i (by omega)
        rw [List.getElem?_set_ne (by omega)]
        exact h3 i (by omega) (fun i' h4 h5 => hlast i' h4 (by omega))
  · rintro pr ⟨h1, h2, h3⟩
    exact ⟨h1, fun k hk => h2 k (fun i hi => hk i (by omega)),
      fun i hi hl => h3 i (by omega) (fun i' h4 h5 => hl i' h4 (by omega))⟩

/-- **C07**, update: whatever the KKT matrix, if the column of inequality `r` is empty, the cell
before it, which belongs to an earlier column, receives `-s j / z j` for some `j ≥ r`. If `r ≥ 1`,
that cell is the one C08 names as the diagonal cell of inequality `r - 1`. -/
theorem C07_update_overwrites {S : Smat K} {s z : Buf K} {n p m : Nat} {jc : Nat → Nat}
    {fs fz : Nat → K} (hj : Buf.Has S.jc (n + p + m + 1) (fun i => (jc i : Int)))
    (hs : Buf.Has s m fs) (hz : Buf.Has z m fz)
    (hpos : ∀ i, i < m → 1 ≤ jc (n + p + i + 1))
    (hle : ∀ i, i < m → jc (n + p + i + 1) ≤ S.pr.length) {r : Nat} (hr : r < m)
    (hempty : jc (n + p + r) = jc (n + p + r + 1)) :
    ∃ pr, updatekktmatrix S s z m n p = .ok pr ∧
      ∃ j, r ≤ j ∧ j < m ∧ pr[jc (n + p + r) - 1]? = some (some (-(fs j) / fz j)) := by
  obtain ⟨pr, h1, _, _, h2⟩ := updatekktmatrix_gen hj hs hz hpos hle
  refine ⟨pr, h1, ?_⟩
  -- the last inequality whose column ends at the same place
  have hex : ∃ d, d < m ∧ jc (n + p + (m - 1 - d) + 1) = jc (n + p + r) :=
    ⟨m - 1 - r, by omega, by rw [show m - 1 - (m - 1 - r) = r by omega, hempty]⟩
  obtain ⟨j, g1, g2, g3, g4⟩ : ∃ j, r ≤ j ∧ j < m ∧ jc (n + p + j + 1) = jc (n + p + r) ∧
      ∀ i', j < i' → i' < m → jc (n + p + i' + 1) ≠ jc (n + p + r) := by
    classical
    have hf := Nat.find_spec hex
    have hmin := fun d => @Nat.find_min _ _ hex d
    refine ⟨m - 1 - Nat.find hex, ?_, by omega, hf.2, ?_⟩
    · have := Nat.find_min' hex (m := m - 1 - r)
        ⟨by omega, by rw [show m - 1 - (m - 1 - r) = r by omega, hempty]⟩
      omega
    · intro i' h3 h4 h5
      refine hmin (m - 1 - i') (by omega) ⟨by omega, ?_⟩
      rw [show m - 1 - (m - 1 - i') = i' by omega]
      exact h5
  refine ⟨j, g1, g2, ?_⟩
  have := h2 j g2 (fun i' h5 h6 => by rw [g3]; exact g4 i' h5 h6)
  rw [g3] at this
  exact this

/-- **C07**, update before the start of the array: if nothing is stored up to the column of the
first inequality, the update writes at index `-1`. -/
theorem C07_update_oob {S : Smat K} {s z : Buf K} {n p m : Nat} {jc : Nat → Nat}
    {fs fz : Nat → K} (hm : 0 < m) (hj : Buf.Has S.jc (n + p + m + 1) (fun i => (jc i : Int)))
    (hs : Buf.Has s m fs) (hz : Buf.Has z m fz) (h0 : jc (n + p + 1) = 0) :
    updatekktmatrix S s z m n p = .error .oob := by
  unfold updatekktmatrix forI
  obtain ⟨k, rfl⟩ : ∃ k, m = k + 1 := ⟨m - 1, by omega⟩
  have e : ((n : Int) + ((k + 1 : Nat) : Int) + (p : Int) - ((n : Int) + (p : Int))).toNat = k + 1 := by
    omega
  rw [e]
  simp only [forN]
  have e3 : ((n : Int) + (p : Int) + 1) = ((n + p + 1 : Nat) : Int) := by omega
  have e4 : ((n : Int) + (p : Int) - (n : Int) - (p : Int)) = ((0 : Nat) : Int) := by
    push_cast; ring
  rw [e3, hj.rd (by omega), ok_bind, e4, hs.rd (by omega), ok_bind, hz.rd (by omega), ok_bind, h0]
  rfl

end Generic

section Exact

variable {K : Type} [Field K] [LinearOrder K] [IsStrictOrderedRing K] [Scalar K] [LawfulScalar K]

/-- **C06**: for every well-formed problem setup succeeds, and the KKT matrix it stores is
`[P Aᵀ Gᵀ; A 0 0; G 0 -I]` (`A` has no rows when there are no equality constraints). The arrays
have exactly the size needed, and the last stored entry of every inequality column is its diagonal
entry `-1`. -/
theorem C06_kkt {amd : Amd} {a : SetupArgs K} {pb : Problem K} (hpb : pb.WF) (ha : a.Give pb)
    (hperm : PermSource amd a.Permut a.p pb) :
    ∃ qp, QP_SETUP amd a = .ok qp ∧ ∃ M : Csc K, qp.kkt.kktmatrix.Is M ∧ M.WF ∧
      M.m = pb.n + pb.p + pb.m ∧ M.n = pb.n + pb.p + pb.m ∧
      (∀ r c, r < pb.n + pb.p + pb.m → c < pb.n + pb.p + pb.m →
        M.entry r c = kktEntry pb.P pb.A pb.G (fun _ => -1) r c) ∧
      qp.kkt.kktmatrix.jc.length = pb.n + pb.p + pb.m + 1 ∧
      qp.kkt.kktmatrix.ir.length = M.nnz ∧ qp.kkt.kktmatrix.pr.length = M.nnz ∧
      ∀ i, i < pb.m → M.jc (pb.n + pb.p + i) < M.jc (pb.n + pb.p + i + 1) ∧
        M.ir (M.jc (pb.n + pb.p + i + 1) - 1) = pb.n + pb.p + i ∧
        M.pr (M.jc (pb.n + pb.p + i + 1) - 1) = -1 := by
  obtain ⟨qp, h0, p, q, hd⟩ := QP_SETUP_spec hpb ha hperm
  have hm1 : (fun _ => Scalar.dec (-1) 0 : Nat → K) = fun _ => -1 := by
    funext _; rw [dec_zero]; simp
  have hk := hd.kkt
  rw [hm1] at hk
  have hz : (kktCsc pb.P pb.A pb.G (fun _ => (-1 : K))).nnz = kktCap pb.P pb.A pb.G :=
    kkt_total_eq _ hpb.P hpb.A hpb.G hpb.An hpb.Gn hpb.rows
  refine ⟨qp, h0, _, hk.mat, hk.wf, rfl, rfl, ?_, hd.kjl, by rw [hd.kil, hz], by rw [hd.kpl, hz], ?_⟩
  · intro r c hr hc
    exact kktCsc_entry hpb.P hpb.A hpb.G hpb.Pm hpb.An hpb.Gn hpb.rows _ hc
  · intro i hi
    exact kktCsc_last (A := pb.A) hpb.G hpb.rows hpb.Pm _ hi

/-- The hypotheses of C06 are met by the demo problem, with and without equality constraint. -/
example : (demoPb ℚ).WF ∧ (demoArgs ℚ).Give (demoPb ℚ) ∧
    PermSource failAmd (demoArgs ℚ).Permut (demoArgs ℚ).p (demoPb ℚ) ∧
    (demoPb0 ℚ).WF ∧ (demoArgs0 ℚ).Give (demoPb0 ℚ) ∧
    PermSource failAmd (demoArgs0 ℚ).Permut (demoArgs0 ℚ).p (demoPb0 ℚ) :=
  ⟨demoPb_wf, demoArgs_give, demoArgs_perm _, demoPb0_wf, demoArgs0_give, demoArgs0_perm _⟩

theorem KktDone.empty_row {P A G : Csc K} {kkt S : Smat K} (hd : KktDone P A G kkt S) (hP : P.WF)
    (hA : A.WF) (hG : G.WF) (hPm : P.m = P.n) (hAn : A.n = P.n) (hGn : G.n = P.n) {r : Nat}
    (hr : r < G.m) (hempty : ∀ k, k < G.nnz → G.ir k ≠ r) :
    ∃ M : Csc K, M.WF ∧ M.m = P.n + A.m + G.m ∧ M.n = P.n + A.m + G.m ∧
        Buf.Has S.jc (M.n + 1) (fun i => (M.jc i : Int)) ∧
        Buf.Has S.ir M.nnz (fun i => (M.ir i : Int)) ∧ Buf.Has S.pr M.nnz M.pr ∧
        M.jc (P.n + A.m + r) = M.jc (P.n + A.m + r + 1) ∧
        M.entry (P.n + A.m + r) (P.n + A.m + r) = 0 := by
  set d : Nat → K := fun _ => Scalar.dec (-1) 0 with hdd
  have hwf := kktCsc_wf hP hA hG hPm hAn hGn d
  have hnil : kktCol P A G d (P.n + A.m + r) = [] := by
    rw [kktCol_slack P A G d (r := r), slackCol]
    have ht : tcol G r = [] := by
      rw [List.eq_nil_iff_forall_not_mem]
      intro e he
      rw [tcol_mem] at he
      obtain ⟨c, hc, hm, _⟩ := he
      unfold Csc.col at hm
      simp only [List.mem_map, List.mem_range, Prod.mk.injEq] at hm
      obtain ⟨x, hx, h1, _⟩ := hm
      have h2 := hG.le_nnz (c := c + 1) (by omega)
      exact hempty _ (by unfold Csc.nnz at *; omega) h1
    simp [ht]
  have hsum : offs (kktCol P A G d) (P.n + A.m + r + 1) = offs (kktCol P A G d) (P.n + A.m + r) := by
    rw [offs_succ, hnil]; simp
  have hIs := is_ofCols (S := { S with
    m := ((P.n + A.m + G.m : Nat) : Int), n := ((P.n + A.m + G.m : Nat) : Int)
    nnz := (((kktCsc P A G d).nnz : Nat) : Int) }) rfl rfl rfl hd.jc hd.pre
  refine ⟨kktCsc P A G d, hwf, rfl, rfl, hd.jc, hIs.ir, hIs.pr, hsum.symm, ?_⟩
  unfold kktCsc
  rw [Csc.ofCols_entry _ _ _ (show P.n + A.m + r < P.n + A.m + G.m by omega), hnil]
  rfl

/-- **C07**, assembly: with the arrays allocated by setup, the assembly succeeds for all
well-formed `P`, `A`, `G`, even if rows of `G` are empty; but the column of an empty row `r` stays
empty, so the diagonal entry of that constraint is `0` instead of `-1`. -/
theorem C07_missing_diagonal {P A G : Csc K} (hP : P.WF) (hA : A.WF) (hG : G.WF) (hPm : P.m = P.n)
    (hAn : A.n = P.n) (hGn : G.n = P.n) {r : Nat} (hr : r < G.m)
    (hempty : ∀ k, k < G.nnz → G.ir k ≠ r) :
    ∃ At Gt S, allocTranspose A.toSmat = .ok At ∧ allocTranspose G.toSmat = .ok Gt ∧
      formkktmatrix_full P.toSmat G.toSmat (some A.toSmat) Gt (some At)
        (SparseMatrixSetup (P.n + A.m + G.m) (P.n + A.m + G.m)
          (P.nnz + 2 * G.nnz + G.m + 2 * A.nnz) (malloc (P.n + A.m + G.m + 1))
          (malloc (P.nnz + 2 * G.nnz + G.m + 2 * A.nnz))
          (malloc (P.nnz + 2 * G.nnz + G.m + 2 * A.nnz))) = .ok S ∧
      ∃ M : Csc K, M.WF ∧ M.m = P.n + A.m + G.m ∧ M.n = P.n + A.m + G.m ∧
        Buf.Has S.jc (M.n + 1) (fun i => (M.jc i : Int)) ∧
        Buf.Has S.ir M.nnz (fun i => (M.ir i : Int)) ∧ Buf.Has S.pr M.nnz M.pr ∧
        M.jc (P.n + A.m + r) = M.jc (P.n + A.m + r + 1) ∧
        M.entry (P.n + A.m + r) (P.n + A.m + r) = 0 := by
  obtain ⟨S, hS, hd⟩ := formkktmatrix_full_some (kkt := SparseMatrixSetup (P.n + A.m + G.m)
      (P.n + A.m + G.m) (P.nnz + 2 * G.nnz + G.m + 2 * A.nnz) (malloc (P.n + A.m + G.m + 1))
      (malloc (P.nnz + 2 * G.nnz + G.m + 2 * A.nnz))
      (malloc (P.nnz + 2 * G.nnz + G.m + 2 * A.nnz)))
    P.toSmat_is A.toSmat_is G.toSmat_is A.transpose.toSmat_is G.transpose.toSmat_is hP hA hG
    A.transpose_wf G.transpose_wf hAn hGn
    (by simp only [SparseMatrixSetup, length_malloc]; omega)
    (by simp only [SparseMatrixSetup, length_malloc, kktCap]; omega)
    (by simp only [SparseMatrixSetup, length_malloc, kktCap]; omega)
  exact ⟨_, _, S, allocTranspose_eq A.toSmat_is hA, allocTranspose_eq G.toSmat_is hG, hS,
    hd.empty_row hP hA hG hPm hAn hGn hr hempty⟩

/-- **C07**, assembly, without equality constraints. -/
theorem C07_missing_diagonal_noeq {P G : Csc K} (hP : P.WF) (hG : G.WF) (hPm : P.m = P.n)
    (hGn : G.n = P.n) {r : Nat} (hr : r < G.m) (hempty : ∀ k, k < G.nnz → G.ir k ≠ r) :
    ∃ Gt S, allocTranspose G.toSmat = .ok Gt ∧
      formkktmatrix_full P.toSmat G.toSmat none Gt none
        (SparseMatrixSetup (P.n + G.m) (P.n + G.m) (P.nnz + 2 * G.nnz + G.m) (malloc (P.n + G.m + 1))
          (malloc (P.nnz + 2 * G.nnz + G.m)) (malloc (P.nnz + 2 * G.nnz + G.m))) = .ok S ∧
      ∃ M : Csc K, M.WF ∧ M.m = P.n + G.m ∧ M.n = P.n + G.m ∧
        Buf.Has S.jc (M.n + 1) (fun i => (M.jc i : Int)) ∧
        Buf.Has S.ir M.nnz (fun i => (M.ir i : Int)) ∧ Buf.Has S.pr M.nnz M.pr ∧
        M.jc (P.n + r) = M.jc (P.n + r + 1) ∧ M.entry (P.n + r) (P.n + r) = 0 := by
  have hcap : kktCap P (Csc.empty P.n) G = P.nnz + 2 * G.nnz + G.m := rfl
  obtain ⟨S, hS, hd⟩ := formkktmatrix_full_none (kkt := SparseMatrixSetup (P.n + G.m) (P.n + G.m)
      (P.nnz + 2 * G.nnz + G.m) (malloc (P.n + G.m + 1)) (malloc (P.nnz + 2 * G.nnz + G.m))
      (malloc (P.nnz + 2 * G.nnz + G.m)))
    P.toSmat_is G.toSmat_is G.transpose.toSmat_is hP hG G.transpose_wf hGn none
    (by simp only [SparseMatrixSetup, length_malloc]; omega)
    (by rw [hcap]; simp only [SparseMatrixSetup, length_malloc]; omega)
    (by rw [hcap]; simp only [SparseMatrixSetup, length_malloc]; omega)
  exact ⟨_, S, allocTranspose_eq G.toSmat_is hG, hS,
    hd.empty_row hP (Csc.empty_wf _) hG hPm rfl hGn hr hempty⟩

end Exact

/-! ### Witnesses for C07 -/

/-- One variable, two inequalities, the second with an empty row. -/
def emptyRowPb : Problem ℚ where
  P := .lit 1 1 [0, 1] [0] [1]
  A := Csc.empty 1
  G := .lit 2 1 [0, 1] [0] [1]
  c := fun _ => 1
  b := fun _ => 0
  h := fun _ => 1
  sigma_d := 0

/-- The state after setup for `emptyRowPb`. -/
def emptyRowState : M (QP ℚ) :=
  QP_SETUP failAmd (emptyRowPb.args (some (Buf.ofFn 3 (fun i => (i : Int)))))

/-- For `emptyRowPb` the assembled matrix has no diagonal entry for the second inequality, and the
update in the first iteration replaces the diagonal entry of the first inequality by that of the
second: the cell with index 3 should hold `-s 0 / z 0 = -3`, but holds `-s 1 / z 1 = -5`. -/
example : (do
    let qp ← emptyRowState
    let pr ← updatekktmatrix qp.kkt.kktmatrix (Buf.ofFn 2 (fun i => (2 * i + 3 : ℚ)))
      (Buf.ofFn 2 (fun _ => 1)) qp.m qp.n qp.p
    let w1 ← rd qp.kkt.kktmatrix.jc 2
    let w2 ← rd qp.kkt.kktmatrix.jc 3
    let v ← rd qp.kkt.kktmatrix.pr 3
    let v' ← rd pr 3
    pure (w1, w2, v, v')) = .ok (4, 4, -1, -5) := by decide +kernel

/-- One variable, one inequality, nothing stored at all: solving writes before the array. -/
example : (do
    let qp ← QP_SETUP failAmd (({ emptyRowPb with
      P := .lit 1 1 [0, 0] [] [], G := .lit 1 1 [0, 0] [] [] } : Problem ℚ).args
        (some (Buf.ofFn 2 (fun i => (i : Int)))))
    let r ← QP_SOLVE qp
    pure r.1) = .error .oob := by decide +kernel

end Verif
