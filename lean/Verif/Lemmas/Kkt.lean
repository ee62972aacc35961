import Verif.Lemmas.Transpose

/-! # Assembly and update of the KKT matrix -/

set_option linter.unusedSectionVars false

namespace Verif

section Pure

variable {K : Type}

/-- A column with its row indices shifted. -/
def shiftCol (off : Nat) (l : List (Nat × K)) : List (Nat × K) :=
  l.map (fun e => (off + e.1, e.2))

@[simp] theorem length_shiftCol (off : Nat) (l : List (Nat × K)) :
    (shiftCol off l).length = l.length := by simp [shiftCol]

/-- Column `r` of the inequality block: row `r` of `G` and the diagonal entry, which the code
emits only when the row is not empty. -/
def slackCol (G : Csc K) (off : Nat) (d : Nat → K) (r : Nat) : List (Nat × K) :=
  tcol G r ++ if (tcol G r).length = 0 then [] else [(off + r, d r)]

/-- Columns of the KKT matrix as assembled by the code, with `d` on the slack diagonal. -/
def kktCol (P A G : Csc K) (d : Nat → K) (i : Nat) : List (Nat × K) :=
  if i < P.n then
    P.col i ++ shiftCol P.m (A.col i) ++ shiftCol (P.m + A.m) (G.col i)
  else if i < P.n + A.m then tcol A (i - P.n)
  else slackCol G (P.m + A.m) d (i - P.n - A.m)

/-- The assembled KKT matrix. -/
def kktCsc [Zero K] (P A G : Csc K) (d : Nat → K) : Csc K :=
  Csc.ofCols (P.n + A.m + G.m) (P.n + A.m + G.m) (kktCol P A G d)

theorem length_kktCol (P A G : Csc K) (d d' : Nat → K) (i : Nat) :
    (kktCol P A G d i).length = (kktCol P A G d' i).length := by
  unfold kktCol slackCol
  split
  · rfl
  · split
    · rfl
    · simp only [List.length_append]
      split <;> rfl

theorem offs_kktCol (P A G : Csc K) (d d' : Nat → K) (i : Nat) :
    offs (kktCol P A G d) i = offs (kktCol P A G d') i := by
  induction i with
  | zero => rfl
  | succ i ih => rw [offs_succ, offs_succ, ih, length_kktCol P A G d d']

theorem offs_kkt_first {P A G : Csc K} (d : Nat → K) (hP : P.WF) (hA : A.WF) (hG : G.WF)
    (hAn : A.n = P.n) (hGn : G.n = P.n) {i : Nat} (hi : i ≤ P.n) :
    offs (kktCol P A G d) i = P.jc i + G.jc i + A.jc i := by
  induction i with
  | zero => simp [hP.jc0, hA.jc0, hG.jc0]
  | succ i ih =>
    rw [offs_succ, ih (by omega), kktCol, if_pos (by omega)]
    simp only [List.length_append, length_shiftCol, Csc.length_col]
    have h1 := hP.mono i (by omega)
    have h2 := hA.mono i (by omega)
    have h3 := hG.mono i (by omega)
    omega

theorem offs_kkt_second {P A G : Csc K} (d : Nat → K) (hP : P.WF) (hA : A.WF) (hG : G.WF)
    (hAn : A.n = P.n) (hGn : G.n = P.n) {i : Nat} (hi : i ≤ A.m) :
    offs (kktCol P A G d) (P.n + i) = P.nnz + G.nnz + A.nnz + offs (tcol A) i := by
  induction i with
  | zero =>
    rw [Nat.add_zero, offs_kkt_first d hP hA hG hAn hGn le_rfl]
    simp [Csc.nnz, hAn, hGn]
  | succ i ih =>
    rw [← Nat.add_assoc, offs_succ, ih (by omega), kktCol, if_neg (by omega), if_pos (by omega),
      offs_succ, show P.n + i - P.n = i by omega]
    omega

/-- Number of nonempty rows among the first `i` rows of `G`. -/
def nonemptyRows (G : Csc K) : Nat → Nat
  | 0 => 0
  | i + 1 => nonemptyRows G i + if (tcol G i).length = 0 then 0 else 1

theorem nonemptyRows_le (G : Csc K) (i : Nat) : nonemptyRows G i ≤ i := by
  induction i with
  | zero => exact le_rfl
  | succ i ih => unfold nonemptyRows; split <;> omega

theorem offs_kkt_third {P A G : Csc K} (d : Nat → K) (hP : P.WF) (hA : A.WF) (hG : G.WF)
    (hAn : A.n = P.n) (hGn : G.n = P.n) (i : Nat) :
    offs (kktCol P A G d) (P.n + A.m + i) = P.nnz + G.nnz + 2 * A.nnz + offs (tcol G) i
      + nonemptyRows G i := by
  induction i with
  | zero =>
    rw [Nat.add_zero, offs_kkt_second d hP hA hG hAn hGn le_rfl, offs_tcol_total hA]
    simp [nonemptyRows]
    omega
  | succ i ih =>
    rw [← Nat.add_assoc, offs_succ, ih, kktCol, if_neg (by omega), if_neg (by omega),
      offs_succ, show P.n + A.m + i - P.n - A.m = i by omega, nonemptyRows, slackCol]
    split
    · simp; omega
    · simp; omega

theorem tcol_ne_nil {G : Csc K} (hG : G.WF) (hr : G.RowsNonempty) {r : Nat} (h : r < G.m) :
    (tcol G r).length ≠ 0 := by
  obtain ⟨k, hk, e⟩ := hr r h
  obtain ⟨c, hc, h1, h2⟩ := hG.exists_col hk
  have : (c, G.pr k) ∈ tcol G r := by
    rw [tcol_mem]
    refine ⟨c, hc, ?_, rfl⟩
    have h3 := Csc.col_get G (c := c) (q := k - G.jc c) (by omega)
    have e2 : G.jc c + (k - G.jc c) = k := by omega
    rw [e2, e] at h3
    exact List.mem_of_getElem? h3
  intro h0
  rw [List.length_eq_zero_iff] at h0
  rw [h0] at this
  simp at this

theorem nonemptyRows_eq {G : Csc K} (hG : G.WF) (hr : G.RowsNonempty) {i : Nat} (hi : i ≤ G.m) :
    nonemptyRows G i = i := by
  induction i with
  | zero => rfl
  | succ i ih => rw [nonemptyRows, ih (by omega), if_neg (tcol_ne_nil hG hr (by omega))]

/-- Number of cells allocated for the entries of the KKT matrix. -/
def kktCap (P A G : Csc K) : Nat := P.nnz + 2 * G.nnz + G.m + 2 * A.nnz

theorem kkt_total_le {P A G : Csc K} (d : Nat → K) (hP : P.WF) (hA : A.WF) (hG : G.WF)
    (hAn : A.n = P.n) (hGn : G.n = P.n) :
    offs (kktCol P A G d) (P.n + A.m + G.m) ≤ kktCap P A G := by
  rw [offs_kkt_third d hP hA hG hAn hGn, offs_tcol_total hG]
  have := nonemptyRows_le G G.m
  unfold kktCap
  omega

theorem kkt_total_eq {P A G : Csc K} (d : Nat → K) (hP : P.WF) (hA : A.WF) (hG : G.WF)
    (hAn : A.n = P.n) (hGn : G.n = P.n) (hr : G.RowsNonempty) :
    offs (kktCol P A G d) (P.n + A.m + G.m) = kktCap P A G := by
  rw [offs_kkt_third d hP hA hG hAn hGn, offs_tcol_total hG, nonemptyRows_eq hG hr le_rfl]
  unfold kktCap
  omega

/-- State of the assembly: the columns before `c` are complete and `extra` has been pushed. -/
structure KInv (col : Nat → List (Nat × K)) (J L : Nat) (c : Nat) (extra : List (Nat × K))
    (st : KktBuild K) : Prop where
  jl : st.jc.length = J
  il : st.ir.length = L
  pl : st.pr.length = L
  nz : st.nnz = ((flatTo col c ++ extra).length : Int)
  pre : Pre st.ir st.pr (flatTo col c ++ extra)
  jc : Buf.Has st.jc (c + 1) (fun i => (offs col i : Int))

end Pure

section Code

variable {K : Type} [Zero K] [One K] [Add K] [Sub K] [Mul K] [Div K] [Neg K] [Scalar K]

theorem kktAppendCol_spec {S : Smat K} {A : Csc K} (hS : S.Is A) (hA : A.WF) {i : Nat}
    (hi : i < A.n) (off : Nat) {col : Nat → List (Nat × K)} {J L c : Nat}
    {extra : List (Nat × K)} {st : KktBuild K} (h : KInv col J L c extra st)
    (hcap : offs col c + (extra ++ shiftCol off (A.col i)).length ≤ L) :
    Spec (kktAppendCol S (off : Int) (i : Int) st)
      (KInv col J L c (extra ++ shiftCol off (A.col i))) := by
  unfold kktAppendCol
  have e : ((i : Int) + 1) = ((i + 1 : Nat) : Int) := by omega
  rw [hS.jc.rd (i := i) (by omega), ok_bind, e, hS.jc.rd (i := i + 1) (by omega), ok_bind]
  have hmono := hA.mono i hi
  simp only [List.length_append, length_shiftCol, Csc.length_col] at hcap
  refine (forI_spec (lo := A.jc i) (hi := A.jc (i + 1)) hmono
    (fun k (st : KktBuild K) =>
      KInv col J L c (extra ++ shiftCol off ((A.col i).take (k - A.jc i))) st) (by
        simpa [shiftCol] using h) ?_).mono ?_
  · intro k st hk1 hk2 hst
    have hk : k < A.nnz := lt_of_lt_of_le hk2 (hA.le_nnz (by omega))
    have e1 : k + 1 - A.jc i = (k - A.jc i) + 1 := by omega
    have e2 : A.jc i + (k - A.jc i) = k := by omega
    have hget := Csc.col_get A (c := i) (q := k - A.jc i) (by omega)
    rw [e2] at hget
    have htk : (A.col i).take (k + 1 - A.jc i)
        = (A.col i).take (k - A.jc i) ++ [(A.ir k, A.pr k)] := by
      rw [e1, List.take_add_one, hget]; rfl
    have hlen : (flatTo col c ++ (extra ++ shiftCol off ((A.col i).take (k - A.jc i)))).length
        < L := by
      simp only [List.length_append, length_shiftCol, List.length_take, Csc.length_col]
      simp only [offs] at hcap
      omega
    rw [hS.pr.rd hk, ok_bind, hst.nz, wr_ok (by rw [hst.pl]; exact hlen), ok_bind, hS.ir.rd hk,
      ok_bind, wr_ok (by rw [hst.il]; exact hlen), ok_bind]
    refine Spec.ok ?_
    have hl2 : flatTo col c ++ (extra ++ shiftCol off ((A.col i).take (k + 1 - A.jc i)))
        = (flatTo col c ++ (extra ++ shiftCol off ((A.col i).take (k - A.jc i))))
          ++ [(off + A.ir k, A.pr k)] := by
      rw [htk]
      simp [shiftCol]
    refine ⟨hst.jl, by simp [hst.il], by simp [hst.pl], ?_, ?_, hst.jc⟩
    · rw [hl2, List.length_append (bs := [(off + A.ir k, A.pr k)]), List.length_singleton]
      push_cast
      rfl
    · rw [hl2]
      have := Pre.push hst.pre (e := (off + A.ir k, A.pr k)) (by rw [hst.il]; exact hlen)
        (by rw [hst.pl]; exact hlen)
      simpa using this
  · intro st hst
    rw [← Csc.length_col, List.take_length] at hst
    exact hst

theorem shiftCol_zero (l : List (Nat × K)) : shiftCol 0 l = l := by
  simp [shiftCol]

theorem kktAppendGt_spec {S : Smat K} {G : Csc K} (hS : S.Is G.transpose) (hG : G.transpose.WF)
    {i : Nat} (hi : i < G.m) (off : Nat) {col : Nat → List (Nat × K)} {J L c : Nat}
    {st : KktBuild K} (h : KInv col J L c [] st)
    (hcap : offs col c + (slackCol G off (fun _ => Scalar.dec (-1) 0) i).length ≤ L) :
    Spec (kktAppendGt S (off : Int) (i : Int) st)
      (KInv col J L c (slackCol G off (fun _ => Scalar.dec (-1) 0) i)) := by
  unfold kktAppendGt
  have hn : G.transpose.n = G.m := rfl
  have e : ((i : Int) + 1) = ((i + 1 : Nat) : Int) := by omega
  rw [hS.jc.rd (i := i) (by omega), ok_bind, e, hS.jc.rd (i := i + 1) (by omega), ok_bind]
  have hmono := hG.mono i (by omega)
  have hcoleq : G.transpose.col i = tcol G i := Csc.ofCols_col _ _ _ hi
  have hclen : (tcol G i).length = G.transpose.jc (i + 1) - G.transpose.jc i := by
    rw [← hcoleq, Csc.length_col]
  set T := G.transpose with hT
  set lst : Nat → List (Nat × K) := fun q => (tcol G i).take q ++
    if q = (tcol G i).length ∧ q ≠ 0 then [(off + i, Scalar.dec (-1) 0)] else [] with hlst
  have hend : lst (tcol G i).length = slackCol G off (fun _ => Scalar.dec (-1) 0) i := by
    simp only [hlst, slackCol, List.take_length, true_and]
    by_cases h0 : (tcol G i).length = 0
    · simp [h0]
    · simp [h0]
  refine (forI_spec (lo := T.jc i) (hi := T.jc (i + 1)) hmono
    (fun k (st : KktBuild K) => KInv col J L c (lst (k - T.jc i)) st) (by
        simpa [hlst] using h) ?_).mono ?_
  · intro k st hk1 hk2 hst
    have hk : k < T.nnz := lt_of_lt_of_le hk2 (hG.le_nnz (by omega))
    have e1 : k + 1 - T.jc i = (k - T.jc i) + 1 := by omega
    have e2 : T.jc i + (k - T.jc i) = k := by omega
    have hget := Csc.col_get T (c := i) (q := k - T.jc i) (by omega)
    rw [e2, hcoleq] at hget
    have hl1 : lst (k - T.jc i) = (tcol G i).take (k - T.jc i) := by
      simp only [hlst]
      rw [if_neg (by omega), List.append_nil]
    rw [hl1] at hst
    have htk : (tcol G i).take (k - T.jc i + 1)
        = (tcol G i).take (k - T.jc i) ++ [(T.ir k, T.pr k)] := by
      rw [List.take_add_one, hget]; rfl
    have hlen : (flatTo col c ++ (tcol G i).take (k - T.jc i)).length + 1
        + (if k + 1 = T.jc (i + 1) then 1 else 0) ≤ L := by
      have : (slackCol G off (fun _ => Scalar.dec (-1) 0) i).length = (tcol G i).length + 1 := by
        unfold slackCol
        rw [if_neg (by omega)]
        simp
      rw [this] at hcap
      simp only [List.length_append, List.length_take]
      simp only [offs] at hcap
      split <;> omega
    rw [hS.ir.rd hk, ok_bind, hst.nz, wr_ok (by rw [hst.il]; omega), ok_bind, hS.pr.rd hk,
      ok_bind, wr_ok (by rw [hst.pl]; omega), ok_bind]
    have hp1 := Pre.push hst.pre (e := (T.ir k, T.pr k)) (by rw [hst.il]; omega)
      (by rw [hst.pl]; omega)
    by_cases hlast : k + 1 = T.jc (i + 1)
    · have hc : (k : Int) = ((T.jc (i + 1) : Nat) : Int) - 1 := by omega
      rw [if_pos hlast] at hlen
      rw [if_pos hc]
      simp only
      have en : ((flatTo col c ++ List.take (k - T.jc i) (tcol G i)).length : Int) + 1
          = (((flatTo col c ++ List.take (k - T.jc i) (tcol G i)) ++ [(T.ir k, T.pr k)]).length
            : Int) := by
        rw [List.length_append (as := flatTo col c ++ List.take (k - T.jc i) (tcol G i))]
        simp
      have hlen2 : ((flatTo col c ++ List.take (k - T.jc i) (tcol G i))
          ++ [(T.ir k, T.pr k)]).length < L := by
        rw [List.length_append]
        simp only [List.length_singleton]
        omega
      rw [en, wr_ok (by rw [List.length_set, hst.il]; exact hlen2), ok_bind,
        wr_ok (by rw [List.length_set, hst.pl]; exact hlen2), ok_bind]
      have hl2 : flatTo col c ++ lst (k + 1 - T.jc i)
          = ((flatTo col c ++ (tcol G i).take (k - T.jc i)) ++ [(T.ir k, T.pr k)])
            ++ [(off + i, Scalar.dec (-1) 0)] := by
        simp only [hlst]
        rw [if_pos ⟨by omega, by omega⟩, e1, htk]
        simp
      refine Spec.ok ⟨hst.jl, by simp [hst.il], by simp [hst.pl], ?_, ?_, hst.jc⟩
      · rw [hl2, List.length_append (bs := [(off + i, Scalar.dec (-1) 0)]),
          List.length_singleton]
        push_cast
        rfl
      · rw [hl2]
        have := Pre.push hp1 (e := (off + i, (Scalar.dec (-1) 0 : K)))
          (by rw [List.length_set, hst.il]; exact hlen2)
          (by rw [List.length_set, hst.pl]; exact hlen2)
        simpa using this
    · have hc : ¬ (k : Int) = ((T.jc (i + 1) : Nat) : Int) - 1 := by omega
      rw [if_neg hc]
      have hl2 : flatTo col c ++ lst (k + 1 - T.jc i)
          = (flatTo col c ++ (tcol G i).take (k - T.jc i)) ++ [(T.ir k, T.pr k)] := by
        simp only [hlst]
        rw [if_neg (by omega), e1, htk]
        simp
      refine Spec.ok ⟨hst.jl, by simp [hst.il], by simp [hst.pl], ?_, ?_, hst.jc⟩
      · rw [hl2, List.length_append (bs := [(T.ir k, T.pr k)]), List.length_singleton]
        push_cast
        rfl
      · rw [hl2]
        exact hp1
  · intro st hst
    rw [← hclen, hend] at hst
    exact hst

/-- Closing a column: write its end pointer. -/
theorem KInv.close {col : Nat → List (Nat × K)} {J L c : Nat} {extra : List (Nat × K)}
    {st : KktBuild K} (h : KInv col J L c extra st) (he : extra = col c) (hc : c + 1 < J)
    {v : Int} (hv : v = (offs col (c + 1) : Int)) {idx : Int} (hidx : idx = ((c + 1 : Nat) : Int)) :
    Spec (do
      let jc ← wr st.jc idx v
      pure { st with jc := jc }) (KInv col J L (c + 1) []) := by
  subst hidx hv he
  rw [wr_ok (by rw [h.jl]; exact hc), ok_bind]
  refine Spec.ok ⟨by simp [h.jl], h.il, h.pl, ?_, ?_, ?_⟩
  · rw [h.nz, flatTo_succ, List.append_nil]
  · rw [flatTo_succ, List.append_nil]; exact h.pre
  · exact h.jc.push (by rw [h.jl]; exact hc) _ rfl (fun _ _ => rfl)

theorem kkt_fit {P A G : Csc K} (d : Nat → K) (hP : P.WF) (hA : A.WF) (hG : G.WF)
    (hAn : A.n = P.n) (hGn : G.n = P.n) {L c : Nat} (hL : kktCap P A G ≤ L)
    (hc : c < P.n + A.m + G.m) {l : List (Nat × K)} (hl : l.length ≤ (kktCol P A G d c).length) :
    offs (kktCol P A G d) c + l.length ≤ L := by
  have h1 := kkt_total_le d hP hA hG hAn hGn
  have h2 := offs_mono (kktCol P A G d) (c := c + 1) (d := P.n + A.m + G.m) hc
  rw [offs_succ] at h2
  omega

theorem Csc.empty_wf (n : Nat) : (Csc.empty n : Csc K).WF :=
  ⟨rfl, fun _ _ => le_rfl, fun _ hk => absurd hk (by simp [Csc.empty])⟩

theorem Csc.empty_col (n c : Nat) : (Csc.empty n : Csc K).col c = [] := by
  simp [Csc.col, Csc.empty]

/-- Result of the assembly: arrays filled with the columns of `kktCol`. -/
structure KktDone (P A G : Csc K) (kkt kkt' : Smat K) : Prop where
  n : kkt'.n = kkt.n
  m : kkt'.m = kkt.m
  nnz : kkt'.nnz = kkt.nnz
  jl : kkt'.jc.length = kkt.jc.length
  il : kkt'.ir.length = kkt.ir.length
  pl : kkt'.pr.length = kkt.pr.length
  jc : Buf.Has kkt'.jc (P.n + A.m + G.m + 1)
    (fun i => (offs (kktCol P A G (fun _ => Scalar.dec (-1) 0)) i : Int))
  pre : Pre kkt'.ir kkt'.pr
    (flatTo (kktCol P A G (fun _ => Scalar.dec (-1) 0)) (P.n + A.m + G.m))

theorem formkktmatrix_full_some {SP SG SA SGt SAt kkt : Smat K} {P A G : Csc K} (hSP : SP.Is P)
    (hSA : SA.Is A) (hSG : SG.Is G) (hSAt : SAt.Is A.transpose) (hSGt : SGt.Is G.transpose)
    (hP : P.WF) (hA : A.WF) (hG : G.WF) (hAt : A.transpose.WF) (hGt : G.transpose.WF)
    (hAn : A.n = P.n) (hGn : G.n = P.n)
    (hJ : kkt.jc.length = P.n + A.m + G.m + 1) (hI : kkt.ir.length = kktCap P A G)
    (hX : kkt.pr.length = kktCap P A G) :
    Spec (formkktmatrix_full SP SG (some SA) SGt (some SAt) kkt) (KktDone P A G kkt) := by
  set d : Nat → K := fun _ => Scalar.dec (-1) 0 with hd
  set col := kktCol P A G d with hcol
  unfold formkktmatrix_full
  have ew : wr kkt.jc 0 (0 : Int) = .ok (kkt.jc.set 0 (some 0)) := wr_ok (i := 0) (by omega) 0
  simp only [ew, ok_bind]
  rw [hSP.n, hSP.m, hSA.m, hSAt.n, hSGt.n]
  have eAt : A.transpose.n = A.m := rfl
  have eGt : G.transpose.n = G.m := rfl
  rw [eAt, eGt]
  have hinit : KInv col (P.n + A.m + G.m + 1) (kktCap P A G) 0 []
      { jc := kkt.jc.set 0 (some 0), ir := kkt.ir, pr := kkt.pr, nnz := 0 } :=
    ⟨by simp [hJ], hI, hX, rfl, Pre.nil _ _,
      Buf.Has.push (g := fun i => (offs col i : Int)) (Buf.Has.zero _ (fun _ => (0 : Int)))
        (by omega) 0 rfl (fun i hi => absurd hi (by omega))⟩
  have eoff : ((P.m : Int) + (A.m : Int)) = ((P.m + A.m : Nat) : Int) := by omega
  rw [eoff]
  -- first block of columns
  refine Spec.bind (forI_spec (lo := 0) (hi := P.n) (Nat.zero_le _)
    (fun c (st : KktBuild K) => KInv col (P.n + A.m + G.m + 1) (kktCap P A G) c [] st) hinit ?_) ?_
  · intro c st _ hc hst
    have ec : col c = P.col c ++ shiftCol P.m (A.col c) ++ shiftCol (P.m + A.m) (G.col c) := by
      rw [hcol, kktCol, if_pos hc]
    have hfit : ∀ l : List (Nat × K), l.length ≤ (col c).length →
        offs col c + l.length ≤ kktCap P A G :=
      fun l hl => kkt_fit d hP hA hG hAn hGn le_rfl (by omega) hl
    have h1 := kktAppendCol_spec hSP hP hc 0 hst (hfit _ (by rw [ec]; simp))
    rw [shiftCol_zero, List.nil_append] at h1
    refine Spec.bind h1 ?_
    intro st1 hst1
    refine Spec.bind (kktAppendCol_spec hSA hA (by omega) P.m hst1 (hfit _ (by rw [ec]; simp))) ?_
    intro st2 hst2
    refine Spec.bind (kktAppendCol_spec hSG hG (by omega) (P.m + A.m) hst2
      (hfit _ (by rw [ec]))) ?_
    intro st3 hst3
    have e : ((c : Int) + 1) = ((c + 1 : Nat) : Int) := by omega
    rw [e, hSP.jc.rd (by omega), ok_bind, hSG.jc.rd (by omega), ok_bind, hSA.jc.rd (by omega),
      ok_bind]
    refine hst3.close ec.symm (by omega) ?_ rfl
    rw [hcol, offs_kkt_first d hP hA hG hAn hGn hc]
    push_cast
    rfl
  · intro st hst
    -- second block
    refine Spec.bind (forI_spec (lo := 0) (hi := A.m) (Nat.zero_le _)
      (fun i (st : KktBuild K) =>
        KInv col (P.n + A.m + G.m + 1) (kktCap P A G) (P.n + i) [] st) hst ?_) ?_
    · intro i st _ hi hst
      have ec : col (P.n + i) = tcol A i := by
        rw [hcol, kktCol, if_neg (by omega), if_pos (by omega), show P.n + i - P.n = i by omega]
      have ecol : A.transpose.col i = tcol A i := Csc.ofCols_col _ _ _ hi
      have h1 := kktAppendCol_spec hSAt hAt (i := i) hi 0 hst
        (kkt_fit d hP hA hG hAn hGn le_rfl (by omega) (by
          rw [← hcol, ec, shiftCol_zero, ecol]; simp))
      rw [shiftCol_zero, List.nil_append, ecol] at h1
      refine Spec.bind h1 ?_
      intro st1 hst1
      have := hst1.close (c := P.n + i) ec.symm (by omega) (v := st1.nnz) (by
        rw [hst1.nz, ← ec, ← flatTo_succ]; rfl) (idx := (i : Int) + 1 + (P.n : Int)) (by
        push_cast; ring)
      exact this
    · intro st hst
      -- third block
      refine Spec.bind (forI_spec (lo := 0) (hi := G.m) (Nat.zero_le _)
        (fun i (st : KktBuild K) =>
          KInv col (P.n + A.m + G.m + 1) (kktCap P A G) (P.n + A.m + i) [] st) hst ?_) ?_
      · intro i st _ hi hst
        have ec : col (P.n + A.m + i) = slackCol G (P.m + A.m) d i := by
          rw [hcol, kktCol, if_neg (by omega), if_neg (by omega),
            show P.n + A.m + i - P.n - A.m = i by omega]
        refine Spec.bind (kktAppendGt_spec hSGt hGt hi (P.m + A.m) hst
          (kkt_fit d hP hA hG hAn hGn le_rfl (by omega) (by
            rw [← hcol, ec]))) ?_
        intro st1 hst1
        have := hst1.close (c := P.n + A.m + i) ec.symm (by omega) (v := st1.nnz) (by
          rw [hst1.nz, ← ec, ← flatTo_succ]; rfl)
          (idx := (i : Int) + 1 + (P.n : Int) + (A.m : Int)) (by push_cast; ring)
        exact this
      · intro st hst
        have hpre := hst.pre
        rw [List.append_nil] at hpre
        exact Spec.ok ⟨rfl, rfl, rfl, by simp only [hst.jl, hJ], by simp only [hst.il, hI],
          by simp only [hst.pl, hX], hst.jc, hpre⟩

theorem formkktmatrix_full_none {SP SG SGt kkt : Smat K} {P G : Csc K} (hSP : SP.Is P)
    (hSG : SG.Is G) (hSGt : SGt.Is G.transpose) (hP : P.WF) (hG : G.WF) (hGt : G.transpose.WF)
    (hGn : G.n = P.n) (At : Option (Smat K))
    (hJ : kkt.jc.length = P.n + G.m + 1) (hI : kkt.ir.length = kktCap P (Csc.empty P.n) G)
    (hX : kkt.pr.length = kktCap P (Csc.empty P.n) G) :
    Spec (formkktmatrix_full SP SG none SGt At kkt) (KktDone P (Csc.empty P.n) G kkt) := by
  set d : Nat → K := fun _ => Scalar.dec (-1) 0 with hd
  set A : Csc K := Csc.empty P.n with hAdef
  have hA : A.WF := Csc.empty_wf _
  have hAn : A.n = P.n := rfl
  have hAm : A.m = 0 := rfl
  set col := kktCol P A G d with hcol
  unfold formkktmatrix_full
  have ew : wr kkt.jc 0 (0 : Int) = .ok (kkt.jc.set 0 (some 0)) := wr_ok (i := 0) (by omega) 0
  simp only [ew, ok_bind]
  rw [hSP.n, hSP.m, hSGt.n]
  have eGt : G.transpose.n = G.m := rfl
  rw [eGt]
  have hinit : KInv col (P.n + G.m + 1) (kktCap P A G) 0 []
      { jc := kkt.jc.set 0 (some 0), ir := kkt.ir, pr := kkt.pr, nnz := 0 } :=
    ⟨by simp [hJ], hI, hX, rfl, Pre.nil _ _,
      Buf.Has.push (g := fun i => (offs col i : Int)) (Buf.Has.zero _ (fun _ => (0 : Int)))
        (by omega) 0 rfl (fun i hi => absurd hi (by omega))⟩
  refine Spec.bind (forI_spec (lo := 0) (hi := P.n) (Nat.zero_le _)
    (fun c (st : KktBuild K) => KInv col (P.n + G.m + 1) (kktCap P A G) c [] st) hinit ?_) ?_
  · intro c st _ hc hst
    have ec : col c = P.col c ++ shiftCol P.m (G.col c) := by
      rw [hcol, kktCol, if_pos hc, hAdef, Csc.empty_col]
      simp [shiftCol, Csc.empty]
    have hfit : ∀ l : List (Nat × K), l.length ≤ (col c).length →
        offs col c + l.length ≤ kktCap P A G :=
      fun l hl => kkt_fit d hP hA hG hAn hGn le_rfl (by omega) hl
    have h1 := kktAppendCol_spec hSP hP hc 0 hst (hfit _ (by rw [ec]; simp))
    rw [shiftCol_zero, List.nil_append] at h1
    refine Spec.bind h1 ?_
    intro st1 hst1
    refine Spec.bind (kktAppendCol_spec hSG hG (by omega) P.m hst1 (hfit _ (by rw [ec]))) ?_
    intro st3 hst3
    have e : ((c : Int) + 1) = ((c + 1 : Nat) : Int) := by omega
    rw [e, hSP.jc.rd (by omega), ok_bind, hSG.jc.rd (by omega), ok_bind]
    refine hst3.close ec.symm (by omega) ?_ rfl
    rw [hcol, offs_kkt_first d hP hA hG hAn hGn hc]
    simp [hAdef, Csc.empty]
  · intro st hst
    refine Spec.bind (forI_spec (lo := 0) (hi := G.m) (Nat.zero_le _)
      (fun i (st : KktBuild K) =>
        KInv col (P.n + G.m + 1) (kktCap P A G) (P.n + i) [] st) hst ?_) ?_
    · intro i st _ hi hst
      have ec : col (P.n + i) = slackCol G P.m d i := by
        rw [hcol, kktCol, if_neg (by omega), if_neg (by omega), hAm,
          show P.n + i - P.n - 0 = i by omega, Nat.add_zero]
      refine Spec.bind (kktAppendGt_spec hSGt hGt hi P.m hst
        (kkt_fit d hP hA hG hAn hGn le_rfl (by omega) (by
          rw [← hcol, ec]))) ?_
      intro st1 hst1
      have := hst1.close (c := P.n + i) ec.symm (by omega) (v := st1.nnz) (by
        rw [hst1.nz, ← ec, ← flatTo_succ]; rfl)
        (idx := (i : Int) + 1 + (P.n : Int)) (by push_cast; ring)
      exact this
    · intro st hst
      have hpre := hst.pre
      rw [List.append_nil] at hpre
      refine Spec.ok ⟨rfl, rfl, rfl, by simp only [hst.jl, hJ], by simp only [hst.il, hI],
        by simp only [hst.pl, hX], ?_, ?_⟩
      · rw [hAm, Nat.add_zero]; exact hst.jc
      · rw [hAm, Nat.add_zero]; exact hpre

/-! ## Update of the slack diagonal -/

theorem kktCol_slack (P A G : Csc K) (d : Nat → K) {r : Nat} :
    kktCol P A G d (P.n + A.m + r) = slackCol G (P.m + A.m) d r := by
  rw [kktCol, if_neg (by omega), if_neg (by omega), show P.n + A.m + r - P.n - A.m = r by omega]

/-- Effect of changing one slack diagonal entry on the value array. -/
theorem kktCsc_pr_update {P A G : Csc K} (hG : G.WF) (hr : G.RowsNonempty) (d : Nat → K) {r : Nat}
    (hrm : r < G.m) (v : K) {k : Nat} (hk : k < (kktCsc P A G d).nnz) :
    (kktCsc P A G (Function.update d r v)).pr k =
      if k + 1 = offs (kktCol P A G d) (P.n + A.m + r + 1) then v else (kktCsc P A G d).pr k := by
  have hk' : k < offs (kktCol P A G d) (P.n + A.m + G.m) := hk
  -- locate k
  obtain ⟨c, hc, h1, h2⟩ : ∃ c, c < P.n + A.m + G.m ∧ offs (kktCol P A G d) c ≤ k ∧
      k < offs (kktCol P A G d) (c + 1) := by
    have key : ∀ n, k < offs (kktCol P A G d) n → ∃ c, c < n ∧ offs (kktCol P A G d) c ≤ k ∧
        k < offs (kktCol P A G d) (c + 1) := by
      intro n
      induction n with
      | zero => intro h; rw [offs_zero] at h; omega
      | succ n ih =>
        intro h
        by_cases h' : k < offs (kktCol P A G d) n
        · obtain ⟨c, h1, h2⟩ := ih h'
          exact ⟨c, by omega, h2⟩
        · exact ⟨n, by omega, by omega, h⟩
    exact key _ hk'
  obtain ⟨q, rfl⟩ : ∃ q, k = offs (kktCol P A G d) c + q := ⟨k - offs (kktCol P A G d) c, by omega⟩
  rw [offs_succ] at h2
  have hq : q < (kktCol P A G d c).length := by omega
  have hq' : q < (kktCol P A G (Function.update d r v) c).length := by
    rw [length_kktCol P A G _ d]; exact hq
  have e1 := Csc.ofCols_pr (P.n + A.m + G.m) (P.n + A.m + G.m) (kktCol P A G d) hc
    (List.getElem?_eq_getElem hq)
  have e2 := Csc.ofCols_pr (P.n + A.m + G.m) (P.n + A.m + G.m)
    (kktCol P A G (Function.update d r v)) hc (List.getElem?_eq_getElem hq')
  rw [offs_kktCol P A G _ d] at e2
  unfold kktCsc
  rw [e1, e2]
  by_cases hcr : c = P.n + A.m + r
  · subst hcr
    have hne := tcol_ne_nil hG hr hrm
    have ec : ∀ d' : Nat → K, kktCol P A G d' (P.n + A.m + r)
        = tcol G r ++ [(P.m + A.m + r, d' r)] := by
      intro d'
      rw [kktCol_slack, slackCol, if_neg hne]
    have hol : offs (kktCol P A G d) (P.n + A.m + r + 1)
        = offs (kktCol P A G d) (P.n + A.m + r) + ((tcol G r).length + 1) := by
      rw [offs_succ, ec]; simp
    rw [hol]
    simp only [ec, Function.update_self, List.length_append, List.length_singleton] at hq ⊢
    by_cases hlast : q = (tcol G r).length
    · subst hlast
      rw [if_pos (by omega)]
      simp
    · rw [if_neg (by omega)]
      rw [List.getElem_append_left (by omega), List.getElem_append_left (by omega)]
  · have hcol : kktCol P A G (Function.update d r v) c = kktCol P A G d c := by
      unfold kktCol
      split
      · rfl
      · split
        · rfl
        · unfold slackCol
          rw [Function.update_of_ne (by omega)]
    have hne : ¬ offs (kktCol P A G d) c + q + 1 = offs (kktCol P A G d) (P.n + A.m + r + 1) := by
      rcases Nat.lt_or_ge c (P.n + A.m + r) with h | h
      · have h3 := offs_mono (kktCol P A G d) (c := c + 1) (d := P.n + A.m + r) h
        have h4 : (kktCol P A G d (P.n + A.m + r)).length ≠ 0 := by
          rw [kktCol_slack, slackCol]
          have := tcol_ne_nil hG hr hrm
          simp [this]
        rw [offs_succ] at h3
        rw [offs_succ]
        omega
      · have h3 := offs_mono (kktCol P A G d) (c := P.n + A.m + r + 1) (d := c) (by omega)
        omega
    rw [if_neg hne]
    simp only [hcol]

theorem kktCsc_nnz (P A G : Csc K) (d d' : Nat → K) : (kktCsc P A G d).nnz = (kktCsc P A G d').nnz :=
  offs_kktCol P A G d d' _

theorem updatekktmatrix_spec {S : Smat K} {P A G : Csc K} (hG : G.WF) (hr : G.RowsNonempty)
    {d : Nat → K} (hS : S.Is (kktCsc P A G d)) {s z : Buf K} {fs fz : Nat → K}
    (hs : Buf.Has s G.m fs) (hz : Buf.Has z G.m fz) :
    Spec (updatekktmatrix S s z G.m P.n A.m) (fun pr => pr.length = S.pr.length ∧
      Buf.Has pr (kktCsc P A G d).nnz (kktCsc P A G (fun i => -(fs i) / fz i)).pr) := by
  unfold updatekktmatrix
  have e1 : ((P.n : Int) + (A.m : Int)) = ((P.n + A.m : Nat) : Int) := by omega
  have e2 : ((P.n : Int) + (G.m : Int) + (A.m : Int)) = ((P.n + A.m + G.m : Nat) : Int) := by omega
  rw [e1, e2]
  let dd : Nat → Nat → K := fun j i => if i < j then -(fs i) / fz i else d i
  have hdd : ∀ j, dd (j + 1) = Function.update (dd j) j (-(fs j) / fz j) := by
    intro j
    funext i
    by_cases h : i = j
    · subst h; simp [dd]
    · rw [Function.update_of_ne h]
      simp only [dd]
      by_cases h' : i < j
      · rw [if_pos h', if_pos (by omega)]
      · rw [if_neg h', if_neg (by omega)]
  have hlen := hS.pr.le_length
  refine (forI_spec (lo := P.n + A.m) (hi := P.n + A.m + G.m) (by omega)
    (fun j (pr : Buf K) => pr.length = S.pr.length ∧
      Buf.Has pr (kktCsc P A G d).nnz (kktCsc P A G (dd (j - (P.n + A.m)))).pr)
    ⟨rfl, hS.pr.congr ?_⟩ ?_).mono ?_
  · intro k _
    have : dd (P.n + A.m - (P.n + A.m)) = d := by
      funext i
      simp [dd]
    rw [this]
  · rintro j pr hj1 hj2 ⟨h1, h2⟩
    obtain ⟨r, rfl⟩ : ∃ r, j = P.n + A.m + r := ⟨j - (P.n + A.m), by omega⟩
    have hrm : r < G.m := by omega
    have e3 : (((P.n + A.m + r : Nat) : Int) + 1) = ((P.n + A.m + r + 1 : Nat) : Int) := by omega
    have e4 : (((P.n + A.m + r : Nat) : Int) - (P.n : Int) - (A.m : Int)) = ((r : Nat) : Int) := by
      push_cast; ring
    have hn : (kktCsc P A G d).n = P.n + A.m + G.m := rfl
    have hj : (kktCsc P A G d).jc = offs (kktCol P A G d) := rfl
    rw [e3, hS.jc.rd (by omega), ok_bind, e4, hs.rd hrm, ok_bind, hz.rd hrm, ok_bind, hj]
    have hne := tcol_ne_nil hG hr hrm
    have hpos : 0 < offs (kktCol P A G d) (P.n + A.m + r + 1) := by
      rw [offs_succ, kktCol_slack, slackCol]
      simp only [hne, if_false, List.length_append, List.length_singleton]
      omega
    have hle := offs_mono (kktCol P A G d) (c := P.n + A.m + r + 1) (d := P.n + A.m + G.m)
      (by omega)
    have hle' : offs (kktCol P A G d) (P.n + A.m + r + 1) ≤ (kktCsc P A G d).nnz := hle
    have e5 : ((offs (kktCol P A G d) (P.n + A.m + r + 1) : Nat) : Int) - 1
        = ((offs (kktCol P A G d) (P.n + A.m + r + 1) - 1 : Nat) : Int) := by omega
    simp only [e5]
    rw [wr_ok (by omega)]
    refine Spec.ok ⟨by simp [h1], (h2.set (by omega) _).congr ?_⟩
    intro k hk
    have e6 : P.n + A.m + r + 1 - (P.n + A.m) = r + 1 := by omega
    have e7 : P.n + A.m + r - (P.n + A.m) = r := by omega
    rw [e6, e7, hdd, kktCsc_pr_update hG hr _ hrm _ (by rw [kktCsc_nnz P A G _ d]; exact hk),
      offs_kktCol P A G (dd r) d]
    by_cases hkk : k = offs (kktCol P A G d) (P.n + A.m + r + 1) - 1
    · subst hkk
      rw [Function.update_self, if_pos (by omega)]
    · rw [Function.update_of_ne hkk, if_neg (by omega)]
  · rintro pr ⟨h1, h2⟩
    refine ⟨h1, fun k hk => ?_⟩
    rw [h2 k hk]
    have e6 : P.n + A.m + G.m - (P.n + A.m) = G.m := by omega
    rw [e6]
    -- the two diagonals agree on the rows that exist
    have hcol : ∀ c, c < P.n + A.m + G.m → kktCol P A G (dd G.m) c
        = kktCol P A G (fun i => -(fs i) / fz i) c := by
      intro c hc
      unfold kktCol
      split
      · rfl
      · split
        · rfl
        · unfold slackCol
          simp only [dd]
          rw [if_pos (show c - P.n - A.m < G.m by omega)]
    unfold kktCsc Csc.ofCols
    simp only
    rw [flatTo_congr hcol]

theorem KktDone.is {P A G : Csc K} {kkt kkt' : Smat K} (h : KktDone P A G kkt kkt')
    (hP : P.WF) (hA : A.WF) (hG : G.WF) (hAn : A.n = P.n) (hGn : G.n = P.n) (hr : G.RowsNonempty)
    (hn : kkt.n = (P.n + A.m + G.m : Nat)) (hm : kkt.m = (P.n + A.m + G.m : Nat))
    (hz : kkt.nnz = (kktCap P A G : Nat)) :
    kkt'.Is (kktCsc P A G (fun _ => Scalar.dec (-1) 0)) := by
  refine is_ofCols (by rw [h.m, hm]) (by rw [h.n, hn]) ?_ h.jc h.pre
  rw [h.nnz, hz]
  rw [← kkt_total_eq (fun _ => Scalar.dec (-1) 0) hP hA hG hAn hGn hr]
  rfl

end Code

section Exact

variable {K : Type} [AddCommMonoid K]

theorem colSum_shiftCol (off : Nat) (l : List (Nat × K)) (r : Nat) :
    colSum (shiftCol off l) r = if off ≤ r then colSum l (r - off) else 0 := by
  induction l with
  | nil => simp [shiftCol, colSum]
  | cons e l ih =>
    have : shiftCol off (e :: l) = (off + e.1, e.2) :: shiftCol off l := rfl
    rw [this, colSum_cons, ih, colSum_cons]
    by_cases h : off ≤ r
    · rw [if_pos h, if_pos h]
      by_cases h' : e.1 = r - off
      · rw [if_pos h', if_pos (by simp only; omega)]
      · rw [if_neg h', if_neg (by simp only; omega)]
    · rw [if_neg h, if_neg h, if_neg (by simp only; omega), add_zero]

theorem colSum_col_ge {A : Csc K} (hA : A.WF) {c : Nat} (hc : c < A.n) {r : Nat}
    (hr : A.m ≤ r) : colSum (A.col c) r = 0 := by
  refine colSum_eq_zero ?_
  intro e he
  have := hA.col_lt hc he
  omega

theorem colSum_tcol {A : Csc K} {r : Nat} (hr : r < A.m) {c : Nat} :
    colSum (tcol A r) c = if c < A.n then A.entry r c else 0 := by
  by_cases hc : c < A.n
  · rw [if_pos hc, ← Csc.transpose_entry hr hc]
    unfold Csc.transpose
    rw [Csc.ofCols_entry _ _ _ hr]
  · rw [if_neg hc]
    refine colSum_eq_zero ?_
    intro e he
    have := tcol_lt e he
    omega

/-- The assembled matrix is the KKT matrix. -/
theorem kktCsc_entry {P A G : Csc K} (hP : P.WF) (hA : A.WF) (hG : G.WF) (hPm : P.m = P.n)
    (hAn : A.n = P.n) (hGn : G.n = P.n) (hr : G.RowsNonempty) (d : Nat → K) {r c : Nat}
    (hcd : c < P.n + A.m + G.m) :
    (kktCsc P A G d).entry r c = kktEntry P A G d r c := by
  unfold kktCsc
  rw [Csc.ofCols_entry _ _ _ hcd]
  unfold kktCol kktEntry
  simp only
  by_cases hc : c < P.n
  · rw [if_pos hc]
    simp only [colSum_append, colSum_shiftCol]
    rw [← Csc.entry_eq_colSum, ← Csc.entry_eq_colSum, ← Csc.entry_eq_colSum]
    simp only [hc, if_true]
    by_cases h1 : r < P.n
    · rw [if_pos h1, if_neg (by omega), if_neg (by omega), add_zero, add_zero]
    · have hz : P.entry r c = 0 := by
        rw [Csc.entry_eq_colSum]; exact colSum_col_ge hP hc (by omega)
      rw [if_neg h1, hz, zero_add, if_pos (by omega), hPm]
      by_cases h2 : r < P.n + A.m
      · rw [if_pos h2, if_neg (by omega), add_zero]
      · have hz2 : A.entry (r - P.n) c = 0 := by
          rw [Csc.entry_eq_colSum]; exact colSum_col_ge hA (by omega) (by omega)
        rw [if_neg h2, hz2, zero_add, if_pos (by omega), Nat.sub_sub]
  · simp only [hc, if_false]
    by_cases hc2 : c < P.n + A.m
    · simp only [hc2, if_true]
      rw [colSum_tcol (by omega), hAn]
      by_cases h1 : r < P.n
      · rw [if_pos h1, if_pos h1]
      · rw [if_neg h1, if_neg h1]
        by_cases h2 : r < P.n + A.m
        · rw [if_pos h2]
        · rw [if_neg h2, if_neg (by omega)]
    · simp only [hc2, if_false]
      unfold slackCol
      rw [if_neg (tcol_ne_nil hG hr (by omega)), colSum_append, colSum_tcol (by omega), hGn,
        colSum_cons, colSum_nil, add_zero, hPm]
      by_cases h1 : r < P.n
      · rw [if_pos h1, if_pos h1, if_neg (by simp only; omega), add_zero]
      · rw [if_neg h1, if_neg h1, zero_add]
        by_cases h2 : r < P.n + A.m
        · rw [if_pos h2, if_neg (by simp only; omega)]
        · rw [if_neg h2]
          by_cases h3 : r = c
          · subst h3
            rw [if_pos (by simp only; omega), if_pos rfl]
          · rw [if_neg (by simp only; omega), if_neg h3]

end Exact

end Verif
