import Verif.Model.Inactive
import Verif.Props.Kkt

/-!
# C71: the upper triangle of the KKT matrix
-/

set_option linter.unusedSectionVars false

namespace Verif

/-- Column of the upper triangle as assembled by the code. -/
def upperCol {K : Type} (P G : Csc K) (d : Nat → K) (i : Nat) : List (Nat × K) :=
  if i < P.n then (P.col i).filter (fun e => e.1 ≤ i) else slackCol G P.n d (i - P.n)

section Code

variable {K : Type} [Zero K] [One K] [Add K] [Sub K] [Mul K] [Div K] [Neg K] [Scalar K]

theorem kktAppendUpper_spec {S : Smat K} {A : Csc K} (hS : S.Is A) (hA : A.WF) {i : Nat}
    (hi : i < A.n) {col : Nat → List (Nat × K)} {J L c : Nat} {st : KktBuild K}
    (h : KInv col J L c [] st)
    (hcap : offs col c + ((A.col i).filter (fun e => e.1 ≤ i)).length ≤ L) :
    Spec (kktAppendUpper S (i : Int) st)
      (KInv col J L c ((A.col i).filter (fun e => e.1 ≤ i))) := by
  unfold kktAppendUpper
  have e : ((i : Int) + 1) = ((i + 1 : Nat) : Int) := by omega
  rw [hS.jc.rd (i := i) (by omega), ok_bind, e, hS.jc.rd (i := i + 1) (by omega), ok_bind]
  have hmono := hA.mono i hi
  refine (forI_spec (lo := A.jc i) (hi := A.jc (i + 1)) hmono
    (fun k (st : KktBuild K) =>
      KInv col J L c (((A.col i).take (k - A.jc i)).filter (fun e => e.1 ≤ i)) st) (by
        simpa using h) ?_).mono ?_
  · intro k st hk1 hk2 hst
    have hk : k < A.nnz := lt_of_lt_of_le hk2 (hA.le_nnz (by omega))
    have e1 : k + 1 - A.jc i = (k - A.jc i) + 1 := by omega
    have e2 : A.jc i + (k - A.jc i) = k := by omega
    have hget := Csc.col_get A (c := i) (q := k - A.jc i) (by omega)
    rw [e2] at hget
    have htk : (A.col i).take (k + 1 - A.jc i)
        = (A.col i).take (k - A.jc i) ++ [(A.ir k, A.pr k)] := by
      rw [e1, List.take_add_one, hget]; rfl
    rw [hS.ir.rd hk, ok_bind]
    by_cases hle : A.ir k ≤ i
    · have hle' : ((A.ir k : Nat) : Int) ≤ (i : Int) := by omega
      have hfl : ((A.col i).take (k + 1 - A.jc i)).filter (fun e => e.1 ≤ i)
          = ((A.col i).take (k - A.jc i)).filter (fun e => e.1 ≤ i) ++ [(A.ir k, A.pr k)] := by
        rw [htk, List.filter_append]
        simp [hle]
      have hlen : (flatTo col c ++ ((A.col i).take (k - A.jc i)).filter (fun e => e.1 ≤ i)).length
          < L := by
        have hsub : (((A.col i).take (k + 1 - A.jc i)).filter (fun e => e.1 ≤ i)).length
            ≤ ((A.col i).filter (fun e => e.1 ≤ i)).length :=
          ((List.take_sublist _ _).filter _).length_le
        rw [hfl, List.length_append, List.length_singleton] at hsub
        rw [List.length_append]
        simp only [offs] at hcap
        omega
      rw [if_pos hle', hst.nz, wr_ok (by rw [hst.il]; exact hlen), ok_bind, hS.pr.rd hk,
        ok_bind, wr_ok (by rw [hst.pl]; exact hlen), ok_bind]
      refine Spec.ok ?_
      have hl2 : flatTo col c ++ ((A.col i).take (k + 1 - A.jc i)).filter (fun e => e.1 ≤ i)
          = (flatTo col c ++ ((A.col i).take (k - A.jc i)).filter (fun e => e.1 ≤ i))
            ++ [(A.ir k, A.pr k)] := by
        rw [hfl, List.append_assoc]
      refine ⟨hst.jl, by simp [hst.il], by simp [hst.pl], ?_, ?_, hst.jc⟩
      · rw [hl2, List.length_append (bs := [(A.ir k, A.pr k)]), List.length_singleton]
        push_cast
        rfl
      · rw [hl2]
        exact Pre.push hst.pre (e := (A.ir k, A.pr k)) (by rw [hst.il]; exact hlen)
          (by rw [hst.pl]; exact hlen)
    · have hle' : ¬ ((A.ir k : Nat) : Int) ≤ (i : Int) := by omega
      have hfl : ((A.col i).take (k + 1 - A.jc i)).filter (fun e => e.1 ≤ i)
          = ((A.col i).take (k - A.jc i)).filter (fun e => e.1 ≤ i) := by
        rw [htk, List.filter_append]
        simp [hle]
      rw [if_neg hle', hfl]
      exact Spec.ok hst
  · intro st hst
    rw [← Csc.length_col, List.take_length] at hst
    exact hst

theorem offs_upper_first (P G : Csc K) (d : Nat → K) (hP : P.WF) {c : Nat} (hc : c ≤ P.n) :
    offs (upperCol P G d) c ≤ P.jc c := by
  induction c with
  | zero => simp [offs]
  | succ c ih =>
    rw [offs_succ]
    have h1 := ih (by omega)
    have h2 : (upperCol P G d c).length ≤ P.jc (c + 1) - P.jc c := by
      unfold upperCol
      rw [if_pos (by omega), ← Csc.length_col]
      exact List.length_filter_le _ _
    have := hP.mono c (by omega)
    omega

theorem offs_upper_second (P G : Csc K) (d : Nat → K) (hP : P.WF) {c : Nat} (hc : c ≤ G.m) :
    offs (upperCol P G d) (P.n + c) ≤ P.nnz + G.transpose.jc c + c := by
  induction c with
  | zero => exact le_trans (offs_upper_first P G d hP le_rfl) (by simp [Csc.nnz])
  | succ c ih =>
    rw [← Nat.add_assoc, offs_succ]
    have h1 := ih (by omega)
    have h2 : (upperCol P G d (P.n + c)).length ≤ (tcol G c).length + 1 := by
      unfold upperCol slackCol
      rw [if_neg (by omega), show P.n + c - P.n = c by omega, List.length_append]
      split <;> simp
    have h3 : G.transpose.jc (c + 1) = G.transpose.jc c + (tcol G c).length := by
      show offs (tcol G) (c + 1) = _
      rw [offs_succ]; rfl
    omega

theorem formkktmatrix_U_spec {SP SG SGt kkt : Smat K} {P G : Csc K} (hSP : SP.Is P)
    (hSGt : SGt.Is G.transpose) (hP : P.WF) (hG : G.WF)
    (hJ : P.n + G.m + 1 ≤ kkt.jc.length) (hI : P.nnz + G.nnz + G.m ≤ kkt.ir.length)
    (hX : kkt.pr.length = kkt.ir.length) :
    Spec (formkktmatrix_U SP SG SGt kkt) (fun S =>
      Buf.Has S.jc (P.n + G.m + 1)
        (fun i => (offs (upperCol P G (fun _ => Scalar.dec (-1) 0)) i : Int)) ∧
      Pre S.ir S.pr (flatTo (upperCol P G (fun _ => Scalar.dec (-1) 0)) (P.n + G.m))) := by
  set d : Nat → K := fun _ => Scalar.dec (-1) 0 with hd
  set col := upperCol P G d with hcol
  unfold formkktmatrix_U
  have ew : wr kkt.jc 0 (0 : Int) = .ok (kkt.jc.set 0 (some 0)) := wr_ok (i := 0) (by omega) 0
  simp only [ew, ok_bind]
  rw [hSP.n, hSGt.n]
  have eGt : G.transpose.n = G.m := rfl
  rw [eGt]
  have hGt := G.transpose_wf
  have htot : offs col (P.n + G.m) ≤ kkt.ir.length := by
    have h1 := offs_upper_second P G d hP (c := G.m) le_rfl
    have h2 : G.transpose.jc G.m = G.nnz := offs_tcol_total hG
    rw [← hcol] at h1
    omega
  have hfit : ∀ c, c < P.n + G.m → offs col c + (col c).length ≤ kkt.ir.length := by
    intro c hc
    have := offs_mono col (c := c + 1) (d := P.n + G.m) hc
    rw [offs_succ] at this
    omega
  have hinit : KInv col kkt.jc.length kkt.ir.length 0 []
      { jc := kkt.jc.set 0 (some 0), ir := kkt.ir, pr := kkt.pr, nnz := 0 } :=
    ⟨by simp, rfl, hX, rfl, Pre.nil _ _,
      Buf.Has.push (g := fun i => (offs col i : Int)) (Buf.Has.zero _ (fun _ => (0 : Int)))
        (by omega) 0 rfl (fun i hi => absurd hi (by omega))⟩
  refine Spec.bind (forI_spec (lo := 0) (hi := P.n) (Nat.zero_le _)
    (fun c (st : KktBuild K) => KInv col kkt.jc.length kkt.ir.length c [] st) hinit ?_) ?_
  · intro c st _ hc hst
    have ec : col c = (P.col c).filter (fun e => e.1 ≤ c) := by
      rw [hcol, upperCol, if_pos hc]
    refine Spec.bind (kktAppendUpper_spec hSP hP hc hst (by rw [← ec]; exact hfit c (by omega))) ?_
    intro st1 hst1
    exact hst1.close ec.symm (by omega) (by
      rw [hst1.nz, ← ec, ← flatTo_succ]; rfl) (by omega)
  · intro st hst
    refine Spec.bind (forI_spec (lo := 0) (hi := G.m) (Nat.zero_le _)
      (fun i (st : KktBuild K) =>
        KInv col kkt.jc.length kkt.ir.length (P.n + i) [] st) hst ?_) ?_
    · intro i st _ hi hst
      have ec : col (P.n + i) = slackCol G P.n d i := by
        rw [hcol, upperCol, if_neg (by omega), show P.n + i - P.n = i by omega]
      refine Spec.bind (kktAppendGt_spec hSGt hGt hi P.n hst (by
        rw [← hd, ← ec]; exact hfit _ (by omega))) ?_
      intro st1 hst1
      exact hst1.close (c := P.n + i) ec.symm (by omega) (v := st1.nnz) (by
        rw [hst1.nz, ← ec, ← flatTo_succ]; rfl)
        (idx := (i : Int) + 1 + (P.n : Int)) (by push_cast; ring)
    · intro st hst
      have hpre := hst.pre
      rw [List.append_nil] at hpre
      exact Spec.ok ⟨hst.jc, hpre⟩

end Code

section Exact

variable {K : Type} [Field K] [LinearOrder K] [IsStrictOrderedRing K] [Scalar K] [LawfulScalar K]

theorem colSum_filter_le (l : List (Nat × K)) (i r : Nat) :
    colSum (l.filter (fun e => e.1 ≤ i)) r = if r ≤ i then colSum l r else 0 := by
  induction l with
  | nil => simp [colSum]
  | cons e l ih =>
    by_cases he : e.1 ≤ i
    · rw [List.filter_cons_of_pos (by simpa using he), colSum_cons, ih, colSum_cons]
      by_cases h : r ≤ i
      · rw [if_pos h, if_pos h]
      · rw [if_neg h, if_neg h, if_neg (by omega), add_zero]
    · rw [List.filter_cons_of_neg (by simpa using he), ih, colSum_cons]
      by_cases h : r ≤ i
      · rw [if_pos h, if_pos h, if_neg (by omega), zero_add]
      · rw [if_neg h, if_neg h]

/-- **C71**: for well-formed `P` and `G` without empty rows, with the transpose of `G` in `Gt` and
arrays of the needed size, `formkktmatrix_U` succeeds, and the matrix it stores is the upper
triangle of `[P Gᵀ; G -I]`: the entry in row `i` and column `j` is that of the KKT matrix for
`i ≤ j` and zero otherwise. Every stored entry lies in the upper triangle. -/
theorem C71_upper {SP SG SGt kkt : Smat K} {P G : Csc K} (hSP : SP.Is P)
    (hSGt : SGt.Is G.transpose) (hP : P.WF) (hG : G.WF) (hGn : G.n = P.n)
    (hr : G.RowsNonempty)
    (hJ : P.n + G.m + 1 ≤ kkt.jc.length) (hI : P.nnz + G.nnz + G.m ≤ kkt.ir.length)
    (hX : kkt.pr.length = kkt.ir.length) :
    ∃ S, formkktmatrix_U SP SG SGt kkt = .ok S ∧
      ∃ M : Csc K, M.WF ∧ M.m = P.n + G.m ∧ M.n = P.n + G.m ∧
        Buf.Has S.jc (M.n + 1) (fun i => (M.jc i : Int)) ∧
        Buf.Has S.ir M.nnz (fun i => (M.ir i : Int)) ∧ Buf.Has S.pr M.nnz M.pr ∧
        (∀ i j, M.Stored i j → j < P.n + G.m → i ≤ j) ∧
        (∀ i j, i < P.n + G.m → j < P.n + G.m → M.entry i j =
          if j < i then 0
          else if j < P.n then P.entry i j
          else if i < P.n then G.entry (j - P.n) i
          else if i = j then -1 else 0) := by
  obtain ⟨S, hS, hjc, hpre⟩ := formkktmatrix_U_spec (SG := SG) hSP hSGt hP hG hJ hI hX
  set d : Nat → K := fun _ => Scalar.dec (-1) 0 with hd
  have hd1 : ∀ r, d r = -1 := by
    intro r; simp only [hd]; rw [LawfulScalar.dec_eq]; norm_num
  have hmem : ∀ c, c < P.n + G.m → ∀ e ∈ upperCol P G d c, e.1 ≤ c := by
    intro c hc e he
    unfold upperCol at he
    by_cases h1 : c < P.n
    · rw [if_pos h1, List.mem_filter] at he
      simpa using he.2
    · rw [if_neg h1] at he
      unfold slackCol at he
      rw [List.mem_append] at he
      rcases he with he | he
      · have := tcol_lt e he
        omega
      · split at he
        · cases he
        · rw [List.mem_singleton] at he
          rw [he]; simp only; omega
  have hwf : (Csc.ofCols (P.n + G.m) (P.n + G.m) (upperCol P G d)).WF :=
    Csc.ofCols_wf _ _ _ (fun c hc e he => lt_of_le_of_lt (hmem c hc e he) hc)
  have hIs := is_ofCols (S := { S with
    m := ((P.n + G.m : Nat) : Int), n := ((P.n + G.m : Nat) : Int)
    nnz := (((Csc.ofCols (P.n + G.m) (P.n + G.m) (upperCol P G d)).nnz : Nat) : Int) })
    rfl rfl rfl hjc hpre
  refine ⟨S, hS, _, hwf, rfl, rfl, hjc, hIs.ir, hIs.pr, ?_, ?_⟩
  · intro i j hst hj
    obtain ⟨k, h1, h2, h3⟩ := hst
    have h4 := Csc.col_get (Csc.ofCols (P.n + G.m) (P.n + G.m) (upperCol P G d)) (c := j)
      (q := k - (Csc.ofCols (P.n + G.m) (P.n + G.m) (upperCol P G d)).jc j) (by omega)
    rw [Csc.ofCols_col _ _ _ hj, Nat.add_sub_cancel' h1, h3] at h4
    exact hmem j hj _ (List.mem_of_getElem? h4)
  · intro i j hi hj
    rw [Csc.ofCols_entry _ _ _ hj]
    unfold upperCol
    by_cases h1 : j < P.n
    · simp only [h1, if_true]
      rw [colSum_filter_le, ← Csc.entry_eq_colSum]
      by_cases h2 : i ≤ j
      · rw [if_pos h2, if_neg (by omega)]
      · rw [if_neg h2, if_pos (by omega)]
    · simp only [h1, if_false]
      unfold slackCol
      rw [if_neg (tcol_ne_nil hG hr (r := j - P.n) (by omega)), colSum_append,
        colSum_tcol (r := j - P.n) (by omega), hGn,
        colSum_cons, colSum_nil, add_zero, hd1 (j - P.n)]
      by_cases h2 : i < P.n
      · rw [if_pos h2, if_neg (by simp only; omega), add_zero, if_neg (by omega), if_pos h2]
      · rw [if_neg h2, zero_add, if_neg h2]
        by_cases h3 : i = j
        · rw [if_pos (by simp only; omega), if_neg (by omega), if_pos h3]
        · rw [if_neg (by simp only; omega)]
          by_cases h4 : j < i
          · rw [if_pos h4]
          · rw [if_neg h4, if_neg h3]

end Exact

/-- A case: the demonstration matrix with the constraints `x₀ + x₁ ≤ h₀`, `x₂ ≤ h₁`. -/
def demoGU : Csc ℚ := .lit 2 3 [0, 1, 2, 3] [0, 0, 1] [1, 1, 1]

example := C71_upper (SG := demoGU.toSmat) demoP.toSmat_is demoGU.transpose.toSmat_is demoP_wf
  (P := demoP) (G := demoGU)
  ⟨rfl, by decide, by decide⟩ rfl
  (by intro r hr; have hr : r < 2 := hr; interval_cases r
      · exact ⟨0, by decide, rfl⟩
      · exact ⟨2, by decide, rfl⟩)
  (kkt := SparseMatrixSetup 5 5 12 (malloc 6) (malloc 12) (malloc 12)) (by decide) (by decide) rfl

/-- … and the matrix stored. -/
example : (do
    let S ← formkktmatrix_U demoP.toSmat demoGU.toSmat demoGU.transpose.toSmat
      (SparseMatrixSetup 5 5 12 (malloc 6) (malloc 12) (malloc 12))
    pure (S.jc, S.ir.take 10, S.pr.take 10)) =
    .ok ([some 0, some 1, some 3, some 5, some 8, some 10],
      [some 0, some 0, some 1, some 1, some 2, some 0, some 1, some 3, some 2, some 4],
      [some 5, some 1, some 2, some 1, some 4, some 1, some 1, some (-1), some 1, some (-1)]) := by
  decide +kernel

end Verif
