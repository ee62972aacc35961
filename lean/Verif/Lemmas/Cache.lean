import Verif.Lemmas.Factor
import Verif.Lemmas.LdlUnique
import Verif.Model.Inactive

/-! # Recomputing marked rows of a factor -/

set_option linter.unusedSectionVars false

namespace Verif

open Finset

theorem fillRows_prefix {C : Nat → List Nat} {k k' j : Nat} (h : k ≤ k') :
    fillRows C k j <+: fillRows C k' j := by
  induction k', h using Nat.le_induction with
  | base => exact List.prefix_rfl
  | succ k' _ ih =>
    by_cases hf : Fill C k' j
    · rw [fillRows_succ_of hf]; exact ih.trans (List.prefix_append _ _)
    · rw [fillRows_succ_not hf]; exact ih

theorem fillRows_get_lt {C : Nat → List Nat} {k n j q : Nat} (h : k ≤ n)
    (hq : q < (fillRows C k j).length) : (fillRows C n j)[q]? = some (fillRows C k j)[q] := by
  obtain ⟨t, ht⟩ := fillRows_prefix (C := C) (j := j) h
  rw [← ht, List.getElem?_append_left hq, List.getElem?_eq_getElem hq]

theorem fillRows_get_eq {C : Nat → List Nat} {k n j : Nat} (h : k < n) (hf : Fill C k j) :
    (fillRows C n j)[(fillRows C k j).length]? = some k := by
  obtain ⟨t, ht⟩ := fillRows_prefix (C := C) (j := j) (k := k + 1) (k' := n) h
  rw [← ht, fillRows_succ_of hf, List.append_assoc,
    List.getElem?_append_right le_rfl, Nat.sub_self]
  rfl

theorem fillRows_get_inj {C : Nat → List Nat} {n j q q' r : Nat}
    (h : (fillRows C n j)[q]? = some r) (h' : (fillRows C n j)[q']? = some r) : q = q' := by
  obtain ⟨a, b⟩ := List.getElem?_eq_some_iff.mp h
  obtain ⟨a', b'⟩ := List.getElem?_eq_some_iff.mp h'
  exact (List.Nodup.getElem_inj_iff ((fillRows_sorted (C := C) n j).imp (fun h => h.ne))).mp
    (b.trans b'.symm)

section

variable {K : Type} [Zero K] [One K] [Add K] [Sub K] [Mul K] [Div K] [Neg K] [Scalar K]

/-- Column `j` of the factor with values `L`, restricted to the rows below `k`. -/
noncomputable def colK (C : Nat → List Nat) (L : Nat → Nat → K) (k j : Nat) : List (Nat × K) :=
  (fillRows C k j).map (fun r => (r, L r j))

theorem colK_fst (C : Nat → List Nat) (L : Nat → Nat → K) (k j : Nat) :
    (colK C L k j).map Prod.fst = fillRows C k j := by
  simp [colK, Function.comp_def]

theorem colK_succ_of {C : Nat → List Nat} (L : Nat → Nat → K) {k j : Nat} (h : Fill C k j) :
    colK C L (k + 1) j = colK C L k j ++ [(k, L k j)] := by
  simp [colK, fillRows_succ_of h]

theorem colK_succ_not {C : Nat → List Nat} (L : Nat → Nat → K) {k j : Nat} (h : ¬ Fill C k j) :
    colK C L (k + 1) j = colK C L k j := by
  simp [colK, fillRows_succ_not h]

theorem colK_congr {C : Nat → List Nat} {L L' : Nat → Nat → K} {k j : Nat}
    (h : ∀ r, r < k → L r j = L' r j) : colK C L k j = colK C L' k j := by
  unfold colK
  refine List.map_congr_left ?_
  intro r hr
  rw [h r (mem_fillRows.mp hr).1]

/-- The arrays hold the factor values `L`, the diagonal `D` and the work vector `Y`. -/
structure CRep (C : Nat → List Nat) (n : Nat) (L : Nat → Nat → K) (D Y : Nat → K)
    (st : CacheSt K) : Prop where
  D : Buf.Has st.D n D
  Y : Buf.Has st.Y n Y
  Lx : ∀ j, j < n → ∀ (q r : Nat), (fillRows C n j)[q]? = some r →
    st.Lx[lpOf C n j + q]? = some (some (L r j))

/-- Replace one value of the factor. -/
def setL (L : Nat → Nat → K) (k i : Nat) (v : K) : Nat → Nat → K :=
  Function.update L k (Function.update (L k) i v)

theorem setL_self (L : Nat → Nat → K) (k i : Nat) (v : K) : setL L k i v k i = v := by
  simp [setL]

theorem setL_row (L : Nat → Nat → K) {k i r : Nat} (v : K) (j : Nat) (h : r ≠ k) :
    setL L k i v r j = L r j := by
  simp [setL, Function.update_of_ne h]

theorem setL_col (L : Nat → Nat → K) {k i j : Nat} (v : K) (r : Nat) (h : j ≠ i) :
    setL L k i v r j = L r j := by
  by_cases hr : r = k
  · subst hr; simp [setL, Function.update_of_ne h]
  · exact setL_row L v j hr

theorem cacheNode_spec {C : Nat → List Nat} {n k : Nat} (hk : k < n) {L : Nat → Nat → K}
    {D Y : Nat → K} {st : CacheSt K} (h : CRep C n L D Y st) {Lp Li Lti : Buf Int}
    (hLp : Buf.Has Lp (n + 1) (fun j => (lpOf C n j : Int)))
    (hLi : ∀ j, j < n → ∀ (q r : Nat), (fillRows C n j)[q]? = some r →
      Li[lpOf C n j + q]? = some (some (r : Int)))
    {jj i : Nat} (hjj : Lti[jj]? = some (some (i : Int))) (hi : Fill C k i) :
    Spec (cacheNode n Lp Li Lti k jj st) (fun st' =>
      CRep C n (setL L k i (Y i / D i)) (Function.update D k (D k - Y i / D i * Y i))
        (subCol (colK C L k i) (Y i) (Function.update Y i 0)) st' ∧
      st'.Lx.length = st.Lx.length) := by
  unfold cacheNode
  have hik := hi.lt
  have hin : i < n := by omega
  have hYl := h.Y.le_length
  have hDl := h.D.le_length
  have hlen : (colK C L k i).length = (fillRows C k i).length := by simp [colK]
  have hlek : (fillRows C k i).length ≤ k := by
    have := List.length_filter_le (fun r => @decide (Fill C r i) (Classical.propDecidable _))
      (List.range k)
    simpa [fillRows] using this
  rw [rd_ok hjj, ok_bind, h.Y.rd hin, ok_bind, wr_ok (by omega), ok_bind, hLp.rd (by omega),
    ok_bind]
  refine Spec.bind (whileM_spec
    (fun s : Int × Buf K => ∃ x : Nat, x ≤ (fillRows C k i).length ∧
      s.1 = ((lpOf C n i + x : Nat) : Int) ∧ s.2.length = st.Y.length ∧
      Buf.Has s.2 n (subCol ((colK C L k i).take x) (Y i) (Function.update Y i 0)))
    (fun s => lpOf C n i + (fillRows C k i).length - s.1.toNat)
    (fun s => s.1 = ((lpOf C n i + (fillRows C k i).length : Nat) : Int) ∧
      s.2.length = st.Y.length ∧
      Buf.Has s.2 n (subCol (colK C L k i) (Y i) (Function.update Y i 0))) ?_ ?_ ?_) ?_
  · refine ⟨0, Nat.zero_le _, rfl, by simp, ?_⟩
    simp only [List.take_zero, subCol, List.foldl_nil]
    exact h.Y.set (by omega) 0
  · simp only
    omega
  · rintro ⟨a, Y'⟩ ⟨x, hx, ha, hl, hY⟩
    simp only at ha hl hY ⊢
    subst ha
    rcases Nat.lt_or_ge x (fillRows C k i).length with hlt | hge
    · have hg := fillRows_get_lt (C := C) (j := i) hk.le hlt
      set r := (fillRows C k i)[x] with hr
      have hrk : r < k := (mem_fillRows.mp (List.getElem_mem hlt)).1
      rw [rd_ok (hLi i hin x r hg), ok_bind]
      refine Spec.ok ?_
      rw [if_pos (by simpa using hrk)]
      rw [ok_bind, hY.rd (by omega), ok_bind, rd_ok (h.Lx i hin x r hg), ok_bind,
        wr_ok (by omega), ok_bind]
      refine Spec.ok ⟨⟨x + 1, hlt, by push_cast; ring, by simp [hl], ?_⟩, ?_⟩
      · have hget : (colK C L k i)[x]? = some (r, L r i) := by
          simp [colK, List.getElem?_eq_getElem hlt, hr]
        rw [List.take_add_one, hget, Option.toList_some, subCol_append]
        exact hY.set (by omega) _
      · simp only
        omega
    · have hxe : x = (fillRows C k i).length := by omega
      subst hxe
      rw [rd_ok (hLi i hin _ k (fillRows_get_eq hk hi)), ok_bind]
      refine Spec.ok ?_
      rw [if_neg (by simp)]
      refine ⟨rfl, hl, ?_⟩
      rw [← hlen, List.take_length] at hY
      exact hY
  · rintro ⟨a, Y'⟩ ⟨ha, hl, hY⟩
    simp only at ha hl hY ⊢
    subst ha
    have hpos := h.Lx i hin _ k (fillRows_get_eq hk hi)
    have hpl := (List.getElem?_eq_some_iff.mp hpos).1
    rw [h.D.rd hin, ok_bind, h.D.rd hk, ok_bind, wr_ok (by omega), ok_bind, wr_ok hpl, ok_bind]
    refine Spec.ok ⟨⟨h.D.set (by omega) _, hY, ?_⟩, by simp⟩
    intro j hj q r hq
    simp only [List.getElem?_set]
    by_cases hji : j = i
    · subst hji
      by_cases hrk : r = k
      · subst hrk
        have := fillRows_get_inj hq (fillRows_get_eq hk hi)
        subst this
        rw [if_pos rfl, if_pos hpl, setL_self]
      · have hne : q ≠ (fillRows C k j).length := by
          intro e
          subst e
          rw [fillRows_get_eq hk hi] at hq
          exact hrk (Option.some.inj hq).symm
        rw [if_neg (by omega), setL_row _ _ _ hrk]
        exact h.Lx j hj q r hq
    · have hqj := (List.getElem?_eq_some_iff.mp hq).1
      have h1 := (List.getElem?_eq_some_iff.mp (fillRows_get_eq hk hi)).1
      have hne : ¬ lpOf C n i + (fillRows C k i).length = lpOf C n j + q := by
        have hj1 := lpOf_succ C n j
        have hi1 := lpOf_succ C n i
        rcases Nat.lt_or_ge i j with hij | hij
        · have := lpOf_mono C n (i := i + 1) (j := j) hij
          omega
        · have := lpOf_mono C n (i := j + 1) (j := i) (by omega)
          omega
      rw [if_neg hne, setL_col _ _ _ hji]
      exact h.Lx j hj q r hq

/-- Row `k` recomputed: the values in row `k`, the pivot and the work vector are those of the pure
row step on the rows above. -/
theorem cacheRow_spec {n : Nat} {A : Csc K} {p q : Nat → Nat} {Ap Ai : Buf Int}
    {P Pinv : Option (Buf Int)} (h : LdlArgs n A p q Ap Ai P) {Ax : Buf K}
    (hAx : Buf.Has Ax A.nnz A.pr) (hQ : PermArg n Pinv q) {Lp Li Lti Ltp : Buf Int}
    (hLp : Buf.Has Lp (n + 1) (fun j => (lpOf (permPat A p q) n j : Int)))
    (hLi : ∀ j, j < n → ∀ (t r : Nat), (fillRows (permPat A p q) n j)[t]? = some r →
      Li[lpOf (permPat A p q) n j + t]? = some (some (r : Int)))
    {k : Nat} (hk : k < n) {T : List Nat} (hT : Topo (permPat A p q) k T) {j0 : Nat}
    (h1 : rd Ltp k = .ok (j0 : Int)) (h2 : rd Ltp ((k : Int) + 1) = .ok ((j0 + T.length : Nat) : Int))
    (h3 : ∀ (x i : Nat), T[x]? = some i → Lti[j0 + x]? = some (some (i : Int)))
    {L : Nat → Nat → K} {D Y : Nat → K} {st : CacheSt K} (hst : CRep (permPat A p q) n L D Y st) :
    Spec (cacheRow n Ap Ai Ax Ltp Lti Li Lp P Pinv k st) (fun st' => ∃ L' D' Y',
      CRep (permPat A p q) n L' D' Y' st' ∧ st'.Lx.length = st.Lx.length ∧
      (∀ r, r ≠ k → ∀ j, L' r j = L r j) ∧
      (∀ j, colK (permPat A p q) L' (k + 1) j
        = (rowF k (permCol A p q k) T ⟨colK (permPat A p q) L k, D, Y⟩).col j) ∧
      D' = (rowF k (permCol A p q k) T ⟨colK (permPat A p q) L k, D, Y⟩).D ∧
      Y' = (rowF k (permCol A p q k) T ⟨colK (permPat A p q) L k, D, Y⟩).Y) := by
  set C := permPat A p q with hC
  unfold cacheRow
  have hYl := hst.Y.le_length
  have hDl := hst.D.le_length
  have hpk := h.perm.p_lt k hk
  have e : ((p k : Nat) : Int) + 1 = ((p k + 1 : Nat) : Int) := by omega
  rw [wr_ok (by omega), ok_bind, h.p.at hk, ok_bind, e, h.ap.rd (by omega), ok_bind,
    h.ap.rd (by omega), ok_bind]
  have hmono := h.wf.mono (p k) (by rw [h.an]; exact hpk)
  have hclen : (permCol A p q k).length = A.jc (p k + 1) - A.jc (p k) := length_permCol A p q k
  set Y0 : Nat → K := Function.update Y k 0 with hY0
  refine Spec.bind (forI_spec (lo := A.jc (p k)) (hi := A.jc (p k + 1)) hmono
    (fun t (r : Buf K) => r.length = st.Y.length ∧
      Buf.Has r n (addCol k ((permCol A p q k).take (t - A.jc (p k))) Y0)) ?_ ?_) ?_
  · refine ⟨by simp, ?_⟩
    simp only [Nat.sub_self, List.take_zero, addCol, List.foldl_nil]
    exact hst.Y.set (by omega) 0
  · rintro t Yb ht1 ht2 ⟨h4, h5⟩
    have htn : t < A.nnz := lt_of_lt_of_le ht2 (h.wf.le_nnz (by rw [h.an]; omega))
    have hirt := h.wf.ir_lt t htn
    rw [h.am] at hirt
    have hget := permCol_get A p q (k := k) (t := t - A.jc (p k)) (by omega)
    rw [show A.jc (p k) + (t - A.jc (p k)) = t by omega] at hget
    have et : t + 1 - A.jc (p k) = t - A.jc (p k) + 1 := by omega
    have htake2 : (permCol A p q k).take (t + 1 - A.jc (p k))
        = (permCol A p q k).take (t - A.jc (p k)) ++ [(q (A.ir t), A.pr t)] := by
      rw [et, List.take_add_one, hget]; rfl
    have hqn := h.perm.q_lt _ hirt
    rw [h.ai.rd htn, ok_bind, hQ.at hirt, ok_bind, htake2, addCol_append]
    refine Spec.ite ?_ ?_
    · intro hle
      have hle' : q (A.ir t) ≤ k := by omega
      rw [h5.rd hqn, ok_bind, hAx.rd htn, ok_bind, wr_ok (by omega), if_pos hle']
      exact Spec.ok ⟨by simp [h4], h5.set (by omega) _⟩
    · intro hgt
      rw [if_neg (by omega : ¬ q (A.ir t) ≤ k)]
      exact Spec.ok ⟨h4, h5⟩
  · rintro Yb ⟨h4, h5⟩
    rw [← hclen, List.take_length] at h5
    rw [h5.rd hk, ok_bind, wr_ok (by omega), ok_bind, wr_ok (by omega), ok_bind, h2, ok_bind, h1,
      ok_bind]
    set s0 : FSt K := rowInit k (permCol A p q k) ⟨colK C L k, D, Y⟩ with hs0
    have hinit : CRep C n L s0.D s0.Y
        { Lx := st.Lx, D := List.set st.D k (some (addCol k (permCol A p q k) Y0 k)),
          Y := List.set Yb k (some 0) } :=
      ⟨hst.D.set (by omega) _, h5.set (by omega) 0, hst.Lx⟩
    refine Spec.bind (forI_spec (lo := j0) (hi := j0 + T.length) (by omega)
      (fun j (st2 : CacheSt K) => ∃ L', st2.Lx.length = st.Lx.length ∧
        CRep C n L' ((T.take (j - j0)).foldl (nodeF k) s0).D
          ((T.take (j - j0)).foldl (nodeF k) s0).Y st2 ∧
        (∀ r, r ≠ k → ∀ i, L' r i = L r i) ∧
        (∀ i, i ∈ T.take (j - j0) →
          ((T.take (j - j0)).foldl (nodeF k) s0).col i = colK C L k i ++ [(k, L' k i)]) ∧
        (∀ i, i ∉ T.take (j - j0) →
          ((T.take (j - j0)).foldl (nodeF k) s0).col i = colK C L k i)) ?_ ?_) ?_
    · refine ⟨L, rfl, ?_, fun _ _ _ => rfl, by simp, fun i _ => ?_⟩
      · simpa using hinit
      · simp [hs0, rowInit]
    · rintro j st2 hj1 hj2 ⟨L', r0, r1, r2, r3, r4⟩
      obtain ⟨x, rfl⟩ : ∃ x, j = j0 + x := ⟨j - j0, by omega⟩
      have hx : x < T.length := by omega
      have ex : j0 + x - j0 = x := by omega
      have ex1 : j0 + x + 1 - j0 = x + 1 := by omega
      rw [ex] at r1 r3 r4
      have hgT : T[x]? = some T[x] := List.getElem?_eq_getElem hx
      have hfill : Fill C k T[x] := (hT.mem _).mp (List.getElem_mem hx)
      have hnotin : T[x] ∉ T.take x := by
        intro hmem
        obtain ⟨y, hy1, hy2⟩ := List.mem_take_iff_getElem.mp hmem
        have := (List.Nodup.getElem_inj_iff hT.nodup).mp hy2
        omega
      have hcol : colK C L' k T[x] = colK C L k T[x] :=
        colK_congr (fun r hr => r2 r (by omega) _)
      refine (cacheNode_spec hk r1 hLp hLi (h3 x _ hgT) hfill).mono ?_
      rintro st3 ⟨z1, z2⟩
      rw [ex1, List.take_add_one, hgT, Option.toList_some, List.foldl_append]
      set sx := (T.take x).foldl (nodeF k) s0 with hsx
      refine ⟨setL L' k T[x] (sx.Y T[x] / sx.D T[x]), z2.trans r0, ?_, ?_, ?_, ?_⟩
      · rw [hcol, ← r4 _ hnotin] at z1
        exact z1
      · intro r hr i
        rw [setL_row _ _ _ hr]
        exact r2 r hr i
      · intro i hi
        show (nodeF k sx T[x]).col i = _
        by_cases hit : i = T[x]
        · subst hit
          simp only [nodeF, Function.update_self]
          rw [setL_self, r4 _ hnotin]
        · rw [setL_col _ _ _ hit]
          simp only [nodeF, Function.update_of_ne hit]
          refine r3 i ?_
          rcases List.mem_append.mp hi with hi | hi
          · exact hi
          · exact absurd (List.mem_singleton.mp hi) hit
      · intro i hi
        show (nodeF k sx T[x]).col i = _
        have hit : i ≠ T[x] := fun e => hi (e ▸ List.mem_append_right _ (List.mem_singleton_self _))
        simp only [nodeF, Function.update_of_ne hit]
        exact r4 i (fun hm => hi (List.mem_append_left _ hm))
    · rintro st2 ⟨L', r0, r1, r2, r3, r4⟩
      have ex : j0 + T.length - j0 = T.length := by omega
      rw [ex, List.take_length] at r1 r3 r4
      have hDl2 := r1.D.le_length
      rw [r1.D.rd hk, ok_bind, wr_ok (by omega), ok_bind]
      refine Spec.ok ⟨L', _, _, ⟨r1.D.set (by omega) _, r1.Y, r1.Lx⟩, r0, r2, ?_, rfl, rfl⟩
      intro j
      have hcongr : colK C L' k j = colK C L k j := colK_congr (fun r hr => r2 r (by omega) _)
      show _ = (T.foldl (nodeF k) s0).col j
      by_cases hf : Fill C k j
      · rw [colK_succ_of _ hf, hcongr, r3 j ((hT.mem j).mpr hf)]
      · rw [colK_succ_not _ hf, hcongr, r4 j (fun hm => hf ((hT.mem j).mp hm))]

theorem foldl_nodeF_D {k : Nat} (T : List Nat) (s : FSt K) {r : Nat} (hr : r ≠ k) :
    (T.foldl (nodeF k) s).D r = s.D r := by
  induction T generalizing s with
  | nil => rfl
  | cons i T ih =>
    rw [List.foldl_cons, ih]
    simp only [nodeF]
    rw [Function.update_of_ne hr]

theorem rowF_D {k : Nat} {l : List (Nat × K)} (T : List Nat) (s : FSt K) {r : Nat} (hr : r ≠ k) :
    (rowF k l T s).D r = s.D r := by
  simp only [rowF]
  rw [Function.update_of_ne hr, foldl_nodeF_D T _ hr]
  simp only [rowInit]
  rw [Function.update_of_ne hr]

theorem foldl_nodeF_Y {k r : Nat} (T : List Nat) (s : FSt K) (hT : ∀ j ∈ T, j ≠ r) (hkr : k ≠ r)
    (hc : ∀ j, ∀ e ∈ s.col j, e.1 ≠ r) : (T.foldl (nodeF k) s).Y r = s.Y r := by
  induction T generalizing s with
  | nil => rfl
  | cons i T ih =>
    rw [List.foldl_cons, ih _ (fun j hj => hT j (by simp [hj]))]
    · simp only [nodeF]
      have : ∀ (l : List (Nat × K)) (yi : K) (Y : Nat → K), (∀ e ∈ l, e.1 ≠ r) →
          subCol l yi Y r = Y r := by
        intro l
        induction l with
        | nil => intros; rfl
        | cons e l ihl =>
          intro yi Y he
          have h1 := ihl yi (Function.update Y e.1 (Y e.1 - e.2 * yi))
            (fun e' he' => he e' (by simp [he']))
          have h2 : subCol (e :: l) yi Y = subCol l yi (Function.update Y e.1 (Y e.1 - e.2 * yi)) :=
            rfl
          rw [h2, h1, Function.update_of_ne (he e (by simp)).symm]
      rw [this _ _ _ (hc i), Function.update_of_ne (hT i (by simp)).symm]
    · intro j e he
      simp only [nodeF] at he
      by_cases hji : j = i
      · subst hji
        rw [Function.update_self] at he
        rcases List.mem_append.mp he with he | he
        · exact hc j e he
        · rw [List.mem_singleton] at he
          subst he
          exact hkr
      · rw [Function.update_of_ne hji] at he
        exact hc j e he

end

section

variable {K : Type} [Field K] [LinearOrder K] [IsStrictOrderedRing K] [Scalar K] [LawfulScalar K]

theorem rowF_Y {k r : Nat} {l : List (Nat × K)} (T : List Nat) (s : FSt K) (hr : k < r)
    (hT : ∀ j ∈ T, j < k) (hc : ∀ j, ∀ e ∈ s.col j, e.1 < k) :
    (rowF k l T s).Y r = s.Y r := by
  simp only [rowF]
  rw [foldl_nodeF_Y T _ (fun j hj => by have := hT j hj; omega) (by omega) (fun j e he => by
    have := hc j e he; omega)]
  simp only [rowInit]
  rw [Function.update_of_ne (by omega), addCol_gt _ _ _ hr, Function.update_of_ne (by omega)]

open Classical in
theorem colSum_colK {C : Nat → List Nat} (L : Nat → Nat → K) (k j r : Nat) :
    colSum (colK C L k j) r = if r < k ∧ Fill C r j then L r j else 0 := by
  induction k with
  | zero => simp [colK, fillRows_zero, colSum_nil]
  | succ k ih =>
    by_cases hf : Fill C k j
    · rw [colK_succ_of _ hf, colSum_append, ih, colSum_cons, colSum_nil]
      by_cases hr : k = r
      · subst hr; simp [hf]
      · have : (r < k + 1 ∧ Fill C r j) ↔ (r < k ∧ Fill C r j) := by
          constructor
          · rintro ⟨h1, h2⟩; exact ⟨by omega, h2⟩
          · rintro ⟨h1, h2⟩; exact ⟨by omega, h2⟩
        simp only [this, hr, if_false, add_zero]
    · rw [colK_succ_not _ hf, ih]
      have : (r < k + 1 ∧ Fill C r j) ↔ (r < k ∧ Fill C r j) := by
        constructor
        · rintro ⟨h1, h2⟩
          refine ⟨?_, h2⟩
          rcases Nat.lt_or_ge r k with h | h
          · exact h
          · have : r = k := by omega
            subst this; exact absurd h2 hf
        · rintro ⟨h1, h2⟩; exact ⟨by omega, h2⟩
      simp only [this]

open Classical in
theorem lent_colK {C : Nat → List Nat} (L : Nat → Nat → K) (k : Nat) (D Y : Nat → K) (i j : Nat) :
    lent ⟨colK C L k, D, Y⟩ i j
      = if i = j then 1 else if i < k ∧ Fill C i j then L i j else 0 := by
  unfold lent
  rw [colSum_colK]

/-- Two factorisations of the same matrix agree: pivots, unregularised pivots and entries. -/
theorem RowsInv.agree {c : Nat → List (Nat × K)} {n : Nat} {s s' : FSt K} {raw raw' : Nat → K}
    (h : RowsInv c n s raw) (h' : RowsInv c n s' raw') :
    ∀ r, r < n → s.D r = s'.D r ∧ raw r = raw' r ∧ ∀ i, i < r → lent s r i = lent s' r i := by
  intro r
  induction r using Nat.strong_induction_on with
  | _ r ih =>
    intro hr
    have hrow : ∀ i, i < r → lent s r i = lent s' r i := by
      intro i
      induction i using Nat.strong_induction_on with
      | _ i ihi =>
        intro hi
        have e1 := h.ldl r hr i hi.le
        have e1' := h'.ldl r hr i hi.le
        rw [if_neg (by omega), add_zero] at e1 e1'
        rw [← e1', sum_range_succ, sum_range_succ] at e1
        have e2 : ∑ t ∈ range i, lent s i t * s.D t * lent s r t
            = ∑ t ∈ range i, lent s' i t * s'.D t * lent s' r t := by
          refine sum_congr rfl ?_
          intro t ht
          rw [mem_range] at ht
          rw [(ih i hi (by omega)).2.2 t ht, (ih t (by omega) (by omega)).1,
            ihi t ht (by omega)]
        rw [e2] at e1
        have e3 := add_left_cancel e1
        have e4 : ∀ s : FSt K, lent s i i = 1 := fun s => by simp [lent]
        rw [e4, e4, (ih i hi (by omega)).1, one_mul] at e3
        have hne : s'.D i ≠ 0 := by
          rw [h'.D i (by omega)]
          exact regPivot_ne_zero _
        exact mul_left_cancel₀ hne e3
    have hraw : raw r = raw' r := by
      have e1 := h.ldl r hr r le_rfl
      have e1' := h'.ldl r hr r le_rfl
      rw [if_pos rfl, sum_range_succ] at e1 e1'
      have e2 : ∑ t ∈ range r, lent s r t * s.D t * lent s r t
          = ∑ t ∈ range r, lent s' r t * s'.D t * lent s' r t := by
        refine sum_congr rfl ?_
        intro t ht
        rw [mem_range] at ht
        rw [hrow t ht, (ih t ht (by omega)).1]
      have e4 : ∀ s : FSt K, lent s r r = 1 := fun s => by simp [lent]
      rw [e4, h.D r hr] at e1
      rw [e4, h'.D r hr] at e1'
      rw [e2] at e1
      linarith
    refine ⟨?_, hraw, hrow⟩
    rw [h.D r hr, h'.D r hr, hraw]

/-- A row that is not recomputed. `M` are the marked rows, closed upwards in the elimination
tree; rows that are not marked, and the matrix columns belonging to them, are as before. -/
theorem RowsInv.keep {c c' : Nat → List (Nat × K)} (hpat : patOf c' = patOf c) {n k : Nat}
    (hk : k < n) {L0 L : Nat → Nat → K} {D0 D Y0 Y raw0 raw : Nat → K}
    (ho : RowsInv c n ⟨colK (patOf c) L0 n, D0, Y0⟩ raw0)
    (h : RowsInv c' k ⟨colK (patOf c) L k, D, Y⟩ raw) {M : Nat → Prop}
    (hM : ∀ j l, M j → l < n → Fill (patOf c) l j → M l) (hkM : ¬ M k)
    (hag : ∀ r, (k ≤ r ∨ ¬ M r) → D r = D0 r ∧ ∀ j, L r j = L0 r j)
    (hc : ∀ i, i ≤ k → colSum (c' k) i = colSum (c k) i) (hY : Y k = 0) :
    RowsInv c' (k + 1) ⟨colK (patOf c) L (k + 1), D, Y⟩ (Function.update raw k (raw0 k)) := by
  classical
  set C := patOf c with hC
  refine ⟨?_, ?_, ?_, ?_⟩
  · intro j
    rw [hpat]
    exact colK_fst C L (k + 1) j
  · intro r hr
    rcases Nat.lt_or_ge r k with h1 | h1
    · exact h.Y r h1
    · have : r = k := by omega
      subst this; exact hY
  · intro r hr
    rcases Nat.lt_or_ge r k with h1 | h1
    · rw [Function.update_of_ne (by omega)]
      exact h.D r h1
    · have : r = k := by omega
      subst this
      rw [Function.update_self]
      show D r = _
      rw [(hag r (Or.inl le_rfl)).1]
      exact ho.D r hk
  · intro r hr i hi
    rcases Nat.lt_or_ge r k with h1 | h1
    · rw [Function.update_of_ne (by omega), ← h.ldl r h1 i hi]
      refine sum_congr rfl ?_
      intro t _
      have e : ∀ a, a < k → (a < k + 1 ∧ Fill C a t ↔ a < k ∧ Fill C a t) := fun a ha =>
        ⟨fun h => ⟨ha, h.2⟩, fun h => ⟨by omega, h.2⟩⟩
      simp only [lent_colK]
      simp only [e i (by omega), e r h1]
    · have : r = k := by omega
      subst this
      rw [Function.update_self, hc i hi]
      rw [← ho.ldl r hk i hi]
      refine sum_congr rfl ?_
      intro t ht
      rw [mem_range] at ht
      simp only [lent_colK]
      -- the entry of row `r` in column `t`
      have hLk := (hag r (Or.inl le_rfl)).2 t
      by_cases hrt : r = t
      · -- then `i = r = t`
        have hir : i = r := by omega
        subst hir
        subst hrt
        simp only [if_true]
        rw [(hag i (Or.inl le_rfl)).1]
      · by_cases hf : Fill C r t
        · have htM : ¬ M t := fun hm => hkM (hM t r hm hk hf)
          have hDt : D t = D0 t := (hag t (Or.inr htM)).1
          have hit : (if i = t then (1 : K) else if i < r + 1 ∧ Fill C i t then L i t else 0)
              = if i = t then 1 else if i < n ∧ Fill C i t then L0 i t else 0 := by
            by_cases hitt : i = t
            · rw [if_pos hitt, if_pos hitt]
            · rw [if_neg hitt, if_neg hitt]
              by_cases hfi : Fill C i t
              · rw [if_pos ⟨by omega, hfi⟩, if_pos ⟨by omega, hfi⟩]
                have hiM : r ≤ i ∨ ¬ M i := by
                  rcases Nat.lt_or_ge i r with h2 | h2
                  · right
                    intro hm
                    exact hkM (hM i r hm hk (Fill.step hfi.lt h2 hf hfi))
                  · exact Or.inl h2
                exact (hag i hiM).2 t
              · rw [if_neg (fun h => hfi h.2), if_neg (fun h => hfi h.2)]
          have hrr : (if r = t then (1 : K) else if r < r + 1 ∧ Fill C r t then L r t else 0)
              = if r = t then 1 else if r < n ∧ Fill C r t then L0 r t else 0 := by
            rw [if_neg hrt, if_neg hrt, if_pos ⟨by omega, hf⟩, if_pos ⟨hk, hf⟩, hLk]
          rw [hit, hDt, hrr]
        · have h0 : ∀ (N : Nat) (L : Nat → Nat → K),
              (if r = t then (1 : K) else if r < N ∧ Fill C r t then L r t else 0) = 0 := by
            intro N L
            rw [if_neg hrt, if_neg (fun h => hf h.2)]
          rw [h0, h0, mul_zero, mul_zero]

/-- The whole partial refactorisation. -/
theorem LDL_row_cache_numeric_spec {n : Nat} {A A' : Csc K} (hpc : A'.jc = A.jc ∧ A'.ir = A.ir)
    {p q : Nat → Nat} {Ap Ai : Buf Int} {P Pinv : Option (Buf Int)}
    (h : LdlArgs n A' p q Ap Ai P) {Ax : Buf K} (hAx : Buf.Has Ax A'.nnz A'.pr)
    (hQ : PermArg n Pinv q) {Lp Li Lti Ltp : Buf Int}
    (hLp : Buf.Has Lp (n + 1) (fun j => (lpOf (permPat A' p q) n j : Int)))
    (hLi : ∀ j, j < n → ∀ (t r : Nat), (fillRows (permPat A' p q) n j)[t]? = some r →
      Li[lpOf (permPat A' p q) n j + t]? = some (some (r : Int)))
    {T : Nat → List Nat} {o : Nat → Nat} (hT : ∀ k, k < n → Topo (permPat A' p q) k (T k))
    (ho : ∀ k, k < n → o (k + 1) = o k + (T k).length)
    (hLtp : Buf.Has Ltp (n + 1) (fun k => (o k : Int)))
    (hLti : ∀ k, k < n → ∀ (x i : Nat), (T k)[x]? = some i →
      Lti[o k + x]? = some (some (i : Int)))
    {u : Nat → Int} {U : Buf Int} (hU : Buf.Has U n u)
    (hM : ∀ j l, u j = n → l < n → Fill (permPat A' p q) l j → u l = n)
    (hc : ∀ k, k < n → u k ≠ n → ∀ i, i ≤ k →
      colSum (permCol A' p q k) i = colSum (permCol A p q k) i)
    {L0 : Nat → Nat → K} {D0 Y0 raw0 : Nat → K} {st : CacheSt K}
    (hst : CRep (permPat A' p q) n L0 D0 Y0 st)
    (hold : RowsInv (permCol A p q) n ⟨colK (permPat A' p q) L0 n, D0, Y0⟩ raw0) :
    Spec (LDL_row_cache_numeric n Ap Ai Ax Ltp Lti Li Lp st P Pinv U) (fun r => r.1 = (n : Int) ∧
      ∃ L D Y raw, CRep (permPat A' p q) n L D Y r.2 ∧ r.2.Lx.length = st.Lx.length ∧
        RowsInv (permCol A' p q) n ⟨colK (permPat A' p q) L n, D, Y⟩ raw) := by
  unfold LDL_row_cache_numeric
  have hpat : permPat A' p q = permPat A p q := permPat_congr hpc.1 hpc.2 p q
  refine Spec.bind (forI_spec (lo := 0) (hi := n) (Nat.zero_le n)
    (fun k (st' : CacheSt K) => ∃ L D Y raw, CRep (permPat A' p q) n L D Y st' ∧
      st'.Lx.length = st.Lx.length ∧
      RowsInv (permCol A' p q) k ⟨colK (permPat A' p q) L k, D, Y⟩ raw ∧
      (∀ r, r < n → Y r = 0) ∧
      ∀ r, (k ≤ r ∨ ¬ u r = n) → D r = D0 r ∧ ∀ j, L r j = L0 r j) ?_ ?_) ?_
  · refine ⟨L0, D0, Y0, fun _ => 0, hst, rfl, ⟨?_, ?_, ?_, ?_⟩, hold.Y, fun _ _ => ⟨rfl, fun _ => rfl⟩⟩
    · intro j; simp [colK, fillRows_zero]
    · intro r hr; exact absurd hr (by omega)
    · intro r hr; exact absurd hr (by omega)
    · intro r hr; exact absurd hr (by omega)
  · rintro k st' _ hk ⟨L, D, Y, raw, h1, h2, h3, h4, h5⟩
    rw [hU.rd hk, ok_bind]
    refine Spec.ite ?_ ?_
    · intro hu
      have e1 : ((k : Nat) : Int) + 1 = ((k + 1 : Nat) : Int) := by omega
      refine (cacheRow_spec h hAx hQ hLp hLi hk (hT k hk) (j0 := o k) (hLtp.rd (by omega))
        (by rw [e1, hLtp.rd (by omega), ho k hk]) (hLti k hk) h1).mono ?_
      rintro st2 ⟨L', D', Y', g1, g2, g3, g4, g5, g6⟩
      obtain ⟨v, hv⟩ := h3.step (hT k hk)
      have hs : (⟨colK (permPat A' p q) L' (k + 1), D', Y'⟩ : FSt K)
          = rowF k (permCol A' p q k) (T k) ⟨colK (permPat A' p q) L k, D, Y⟩ := by
        rw [g5, g6, show colK (permPat A' p q) L' (k + 1) = _ from funext g4]
      refine ⟨L', D', Y', Function.update raw k v, g1, g2.trans h2, by rw [hs]; exact hv, ?_, ?_⟩
      · intro r hr
        rcases Nat.lt_or_ge k r with hkr | hkr
        · rw [g6, rowF_Y (T k) _ hkr (fun j hj => (((hT k hk).mem j).mp hj).lt) ?_]
          · exact h4 r hr
          · intro j e he
            have : e.1 ∈ (colK (permPat A' p q) L k j).map Prod.fst := List.mem_map_of_mem he
            rw [colK_fst] at this
            exact (mem_fillRows.mp this).1
        · have := hv.Y r (by omega)
          rw [← hs] at this
          exact this
      · intro r hr
        have hrk : r ≠ k := by
          rcases hr with hr | hr
          · omega
          · intro e; subst e; exact hr hu
        have hr' : k ≤ r ∨ ¬ u r = n := hr.imp (fun h => by omega) id
        refine ⟨?_, fun j => ?_⟩
        · rw [g5, rowF_D _ _ hrk]; exact (h5 r hr').1
        · rw [g3 r hrk j]; exact (h5 r hr').2 j
    · intro hu
      refine Spec.ok ⟨L, D, Y, Function.update raw k (raw0 k), h1, h2, ?_, h4, ?_⟩
      · have hpat' : patOf (permCol A' p q) = patOf (permCol A p q) := hpat
        have e : permPat A' p q = patOf (permCol A p q) := hpat
        rw [e] at hold h3 hM ⊢
        exact RowsInv.keep hpat' hk hold h3 (M := fun r => u r = n) hM hu h5 (hc k hk hu)
          (h4 k hk)
      · intro r hr
        refine h5 r (hr.imp (fun h => by omega) id)
  · rintro st' ⟨L, D, Y, raw, h1, h2, h3, _, _⟩
    exact Spec.ok ⟨rfl, L, D, Y, raw, h1, h2, h3⟩

end

end Verif
