import Verif.Lemmas.Cache

/-!
# The left-looking refactorisation of the marked columns
-/

set_option linter.unusedSectionVars false

namespace Verif

open Finset

section

variable {K : Type} [Field K] [LinearOrder K] [IsStrictOrderedRing K] [Scalar K] [LawfulScalar K]

/-- Columns that are not marked agree in two factorisations, if the matrices agree there. -/
theorem RowsInv.keepCol {c c' : Nat → List (Nat × K)} (hpat : patOf c' = patOf c) {n : Nat}
    {s s' : FSt K} {raw raw' : Nat → K} (h : RowsInv c n s raw) (h' : RowsInv c' n s' raw')
    {M : Nat → Prop} (hM : ∀ j l, M j → l < n → Fill (patOf c) l j → M l)
    (hc : ∀ k i, k ≤ i → i < n → ¬ M k → colSum (c' i) k = colSum (c i) k) :
    ∀ k, k < n → ¬ M k → s.D k = s'.D k ∧ ∀ i, k < i → i < n → lent s i k = lent s' i k := by
  intro k
  induction k using Nat.strong_induction_on with
  | _ k ih =>
    intro hk hkM
    have hterm : ∀ i, k ≤ i → i < n → ∑ t ∈ range k, lent s k t * s.D t * lent s i t
        = ∑ t ∈ range k, lent s' k t * s'.D t * lent s' i t := by
      intro i hi hin
      refine sum_congr rfl ?_
      intro t ht
      rw [mem_range] at ht
      by_cases hf : Fill (patOf c) k t
      · have htM : ¬ M t := fun hm => hkM (hM t k hm hk hf)
        obtain ⟨e1, e2⟩ := ih t ht (by omega) htM
        rw [e1, e2 k ht hk, e2 i (by omega) hin]
      · have z : lent s k t = 0 := by
          unfold lent
          rw [if_neg (by omega)]
          exact colSum_of_rows (h.rows t) (fun hm => hf (mem_fillRows.mp hm).2)
        have z' : lent s' k t = 0 := by
          unfold lent
          rw [if_neg (by omega)]
          refine colSum_of_rows (h'.rows t) (fun hm => hf ?_)
          have := (mem_fillRows.mp hm).2
          rwa [hpat] at this
        rw [z, z']; ring
    have e4 : ∀ s : FSt K, lent s k k = 1 := fun s => by simp [lent]
    have hD : s.D k = s'.D k := by
      have e1 := h.ldl k hk k le_rfl
      have e1' := h'.ldl k hk k le_rfl
      rw [if_pos rfl, sum_range_succ, e4, h.D k hk] at e1
      rw [if_pos rfl, sum_range_succ, e4, h'.D k hk, hc k k le_rfl hk hkM,
        ← hterm k le_rfl hk] at e1'
      rw [h.D k hk, h'.D k hk]
      congr 1
      linarith
    refine ⟨hD, ?_⟩
    intro i hi hin
    have e1 := h.ldl i hin k hi.le
    have e1' := h'.ldl i hin k hi.le
    rw [if_neg (by omega), sum_range_succ, e4, add_zero, one_mul] at e1
    rw [if_neg (by omega), sum_range_succ, e4, hc k i hi.le hin hkM, ← hterm i hi.le hin, ← e1,
      add_zero, one_mul, ← hD] at e1'
    have e3 := add_left_cancel e1'
    have hne : s.D k ≠ 0 := by
      rw [h.D k hk]
      exact regPivot_ne_zero _
    exact (mul_left_cancel₀ hne e3).symm

/-- The arrays hold the factor values `L`, the diagonal `D`, the work vector `Y` and the
positions `w`. -/
structure LRep (C : Nat → List Nat) (n : Nat) (L : Nat → Nat → K) (D Y : Nat → K)
    (w : Nat → Nat) (st : LeftSt K) : Prop where
  D : Buf.Has st.D n D
  Y : Buf.Has st.Y n Y
  w : Buf.Has st.work n (fun j => (w j : Int))
  Lx : ∀ j, j < n → ∀ (q r : Nat), (fillRows C n j)[q]? = some r →
    st.Lx[lpOf C n j + q]? = some (some (L r j))

open Classical in
/-- What one column subtracts. -/
noncomputable def leftTerm (C : Nat → List Nat) (k : Nat) (L : Nat → Nat → K) (D : Nat → K)
    (i j : Nat) : K :=
  if k ≤ i ∧ Fill C i j then L i j * (L k j * D j) else 0

theorem leftNode_spec {C : Nat → List Nat} {n k : Nat} (hk : k < n) {L : Nat → Nat → K}
    {D Y : Nat → K} {w : Nat → Nat} {st : LeftSt K} (h : LRep C n L D Y w st)
    {Lp Li Lti : Buf Int} (hLp : Buf.Has Lp (n + 1) (fun j => (lpOf C n j : Int)))
    (hLi : ∀ j, j < n → ∀ (q r : Nat), (fillRows C n j)[q]? = some r →
      Li[lpOf C n j + q]? = some (some (r : Int)))
    {jj j : Nat} (hjj : Lti[jj]? = some (some (j : Int))) (hj : Fill C k j)
    (hw : w j = lpOf C n j + (fillRows C k j).length) :
    Spec (leftNode Lp Li Lti jj st) (fun st' =>
      LRep C n L D (fun i => Y i - leftTerm C k L D i j) (Function.update w j (w j + 1)) st' ∧
      st'.Lx.length = st.Lx.length) := by
  unfold leftNode
  have hjk := hj.lt
  have hjn : j < n := by omega
  have hYl := h.Y.le_length
  have hwl := h.w.le_length
  have hpos := fillRows_get_eq (n := n) hk hj
  have hpl := (List.getElem?_eq_some_iff.mp hpos).1
  have e : ((j : Nat) : Int) + 1 = ((j + 1 : Nat) : Int) := by omega
  rw [rd_ok hjj, ok_bind, h.w.rd hjn, ok_bind, wr_ok (by omega), ok_bind, hw,
    rd_ok (h.Lx j hjn _ k hpos), ok_bind, h.D.rd hjn, ok_bind, e, hLp.rd (by omega), ok_bind,
    lpOf_succ]
  refine Spec.bind (forI_spec (lo := lpOf C n j + (fillRows C k j).length)
    (hi := lpOf C n j + (fillRows C n j).length) (by omega)
    (fun t (Yb : Buf K) => Yb.length = st.Y.length ∧ Buf.Has Yb n (fun i =>
      Y i - if k ≤ i ∧ i ∈ (fillRows C n j).take (t - lpOf C n j)
        then L i j * (L k j * D j) else 0)) ?_ ?_) ?_
  · refine ⟨rfl, h.Y.congr ?_⟩
    intro i hi
    have hpre : (fillRows C n j).take (fillRows C k j).length = fillRows C k j := by
      obtain ⟨t, ht⟩ := fillRows_prefix (C := C) (j := j) hk.le
      rw [← ht, List.take_left]
    rw [Nat.add_sub_cancel_left, hpre, if_neg, sub_zero]
    rintro ⟨h1, h2⟩
    have := (mem_fillRows.mp h2).1
    omega
  · rintro t Yb ht1 ht2 ⟨h1, h2⟩
    obtain ⟨x, rfl⟩ : ∃ x, t = lpOf C n j + x := ⟨t - lpOf C n j, by omega⟩
    have hx : x < (fillRows C n j).length := by omega
    have hg : (fillRows C n j)[x]? = some (fillRows C n j)[x] := List.getElem?_eq_getElem hx
    set r := (fillRows C n j)[x] with hr
    have hrn : r < n := (mem_fillRows.mp (List.getElem_mem hx)).1
    have hnd : (fillRows C n j).Nodup := (fillRows_sorted (C := C) n j).imp (fun h => h.ne)
    have hrk : k ≤ r := by
      by_contra hlt
      have h3 := (List.pairwise_iff_getElem.mp (fillRows_sorted (C := C) n j))
      have hk' := (List.getElem?_eq_some_iff.mp hpos).2
      rcases Nat.lt_or_ge (fillRows C k j).length x with h4 | h4
      · have := h3 _ _ hpl hx h4
        omega
      · have : x = (fillRows C k j).length := by omega
        subst this
        omega
    have hnotin : r ∉ (fillRows C n j).take x := by
      intro hmem
      obtain ⟨y, hy1, hy2⟩ := List.mem_take_iff_getElem.mp hmem
      have := (List.Nodup.getElem_inj_iff hnd).mp hy2
      omega
    rw [rd_ok (hLi j hjn x r hg), ok_bind, rd_ok (h.Lx j hjn x r hg), ok_bind, h2.rd hrn, ok_bind,
      wr_ok (by omega)]
    refine Spec.ok ⟨by simp [h1], (h2.set (by omega) _).congr ?_⟩
    intro i hi
    have ex : lpOf C n j + x - lpOf C n j = x := by omega
    have ex1 : lpOf C n j + x + 1 - lpOf C n j = x + 1 := by omega
    rw [ex1, ex, List.take_add_one, hg, Option.toList_some]
    by_cases hir : i = r
    · subst hir
      rw [Function.update_self, if_neg (fun hh => hnotin hh.2), if_pos ⟨hrk, by simp⟩, sub_zero]
    · rw [Function.update_of_ne hir]
      have : (k ≤ i ∧ i ∈ (fillRows C n j).take x ++ [r])
          ↔ (k ≤ i ∧ i ∈ (fillRows C n j).take x) := by
        simp [hir]
      simp only [this]
  · rintro Yb ⟨h1, h2⟩
    refine Spec.ok ⟨⟨h.D, h2.congr ?_, ?_, h.Lx⟩, rfl⟩
    · intro i hi
      rw [Nat.add_sub_cancel_left, List.take_length]
      unfold leftTerm
      have : (k ≤ i ∧ i ∈ fillRows C n j) ↔ (k ≤ i ∧ Fill C i j) := by
        rw [mem_fillRows]
        exact ⟨fun hh => ⟨hh.1, hh.2.2⟩, fun hh => ⟨hh.1, hi, hh.2⟩⟩
      by_cases hc : k ≤ i ∧ Fill C i j
      · rw [if_pos hc, if_pos (this.mpr hc)]
      · rw [if_neg hc, if_neg (fun hh => hc (this.mp hh))]
    · refine (h.w.set (i := j) (by omega) _).congr ?_
      intro i hi
      by_cases hij : i = j
      · subst hij
        rw [Function.update_self, Function.update_self]; push_cast; rfl
      · rw [Function.update_of_ne hij, Function.update_of_ne hij]

/-- Replace one column of the factor. -/
def setCol (L : Nat → Nat → K) (k : Nat) (v : Nat → K) : Nat → Nat → K :=
  fun r j => if j = k then v r else L r j

open Classical in
/-- Column `k` recomputed. `raw` is the pivot before regularisation, `v` the column. -/
theorem leftCol_spec {n : Nat} {A : Csc K} {p q : Nat → Nat} {Ap Ai : Buf Int}
    {P Pinv : Option (Buf Int)} (h : LdlArgs n A p q Ap Ai P) {Ax : Buf K}
    (hAx : Buf.Has Ax A.nnz A.pr) (hQ : PermArg n Pinv q) {Lp Li Lti Ltp : Buf Int}
    (hLp : Buf.Has Lp (n + 1) (fun j => (lpOf (permPat A p q) n j : Int)))
    (hLi : ∀ j, j < n → ∀ (t r : Nat), (fillRows (permPat A p q) n j)[t]? = some r →
      Li[lpOf (permPat A p q) n j + t]? = some (some (r : Int)))
    {k : Nat} (hk : k < n) (hnd : ((permCol A p q k).map Prod.fst).Nodup) {T : List Nat}
    (hT : Topo (permPat A p q) k T) {j0 : Nat}
    (h1 : rd Ltp k = .ok (j0 : Int)) (h2 : rd Ltp ((k : Int) + 1) = .ok ((j0 + T.length : Nat) : Int))
    (h3 : ∀ (x i : Nat), T[x]? = some i → Lti[j0 + x]? = some (some (i : Int)))
    {L : Nat → Nat → K} {D : Nat → K} {w : Nat → Nat} {st : LeftSt K}
    (hst : LRep (permPat A p q) n L D (fun _ => 0) w st)
    (hw : ∀ j, Fill (permPat A p q) k j →
      w j = lpOf (permPat A p q) n j + (fillRows (permPat A p q) k j).length)
    {raw : K} {v : Nat → K}
    (hraw : colSum (permCol A p q k) k - (T.map (leftTerm (permPat A p q) k L D k)).sum = raw)
    (hv : ∀ i, k < i → i < n →
      colSum (permCol A p q k) i - (T.map (leftTerm (permPat A p q) k L D i)).sum
        = if Fill (permPat A p q) i k then v i * regPivot raw else 0) :
    Spec (leftCol Ap Ai Ax Ltp Lti Li Lp P Pinv k st) (fun st' =>
      LRep (permPat A p q) n (setCol L k v) (Function.update D k (regPivot raw)) (fun _ => 0)
        (fun j => w j + if Fill (permPat A p q) k j then 1 else 0) st' ∧
      st'.Lx.length = st.Lx.length) := by
  set C := permPat A p q with hC
  unfold leftCol
  have hYl := hst.Y.le_length
  have hDl := hst.D.le_length
  have hpk := h.perm.p_lt k hk
  have e : ((p k : Nat) : Int) + 1 = ((p k + 1 : Nat) : Int) := by omega
  rw [h.p.at hk, ok_bind, e, h.ap.rd (by omega), ok_bind, h.ap.rd (by omega), ok_bind]
  have hmono := h.wf.mono (p k) (by rw [h.an]; exact hpk)
  have hclen : (permCol A p q k).length = A.jc (p k + 1) - A.jc (p k) := length_permCol A p q k
  -- scatter
  refine Spec.bind (forI_spec (lo := A.jc (p k)) (hi := A.jc (p k + 1)) hmono
    (fun t (r : Buf K) => r.length = st.Y.length ∧
      Buf.Has r n (fun i => if k ≤ i then colSum ((permCol A p q k).take (t - A.jc (p k))) i
        else 0)) ?_ ?_) ?_
  · refine ⟨rfl, hst.Y.congr ?_⟩
    intro i _
    simp [colSum_nil]
  · rintro t Yb ht1 ht2 ⟨h4, h5⟩
    have htn : t < A.nnz := lt_of_lt_of_le ht2 (h.wf.le_nnz (by rw [h.an]; omega))
    have hirt := h.wf.ir_lt t htn
    rw [h.am] at hirt
    have hget := permCol_get A p q (k := k) (t := t - A.jc (p k)) (by omega)
    rw [show A.jc (p k) + (t - A.jc (p k)) = t by omega] at hget
    have et : t + 1 - A.jc (p k) = t - A.jc (p k) + 1 := by omega
    have htake2 : (permCol A p q k).take (t + 1 - A.jc (p k))
        = (permCol A p q k).take (t - A.jc (p k)) ++ [(q (A.ir t), A.pr t)] := by
      rw [et, List.take_add_one, hget]; rfl
    have hqn := h.perm.q_lt _ hirt
    have hz : colSum ((permCol A p q k).take (t - A.jc (p k))) (q (A.ir t)) = 0 := by
      refine colSum_of_rows rfl ?_
      have h6 : (((permCol A p q k).take (t + 1 - A.jc (p k))).map Prod.fst).Nodup := by
        rw [List.map_take]; exact hnd.sublist (List.take_sublist _ _)
      rw [htake2, List.map_append, List.nodup_append] at h6
      intro hm
      exact h6.2.2 _ hm _ (by simp) rfl
    rw [h.ai.rd htn, ok_bind, hQ.at hirt, ok_bind, htake2]
    refine Spec.ite ?_ ?_
    · intro hle
      have hle' : k ≤ q (A.ir t) := by omega
      rw [hAx.rd htn, ok_bind, wr_ok (by omega)]
      refine Spec.ok ⟨by simp [h4], (h5.set (by omega) _).congr ?_⟩
      intro i hi
      rw [colSum_append, colSum_cons, colSum_nil, add_zero]
      by_cases hiq : i = q (A.ir t)
      · subst hiq
        rw [Function.update_self, if_pos hle', hz, zero_add, if_pos rfl]
      · have hne' : ¬ (q (A.ir t), A.pr t).1 = i := fun hh => hiq hh.symm
        rw [Function.update_of_ne hiq]
        simp only [hne', if_false, add_zero]
    · intro hgt
      refine Spec.ok ⟨h4, h5.congr ?_⟩
      intro i hi
      rw [colSum_append, colSum_cons, colSum_nil, add_zero]
      by_cases hki : k ≤ i
      · rw [if_neg (by simp only; omega : ¬ (q (A.ir t), A.pr t).1 = i), add_zero]
      · rw [if_neg hki, if_neg hki]
  · rintro Yb ⟨h4, h5⟩
    rw [← hclen, List.take_length] at h5
    rw [h2, ok_bind, h1, ok_bind]
    simp only
    set y0 : Nat → K := fun i => if k ≤ i then colSum (permCol A p q k) i else 0 with hy0
    -- the columns of row `k`
    refine Spec.bind (forI_spec (lo := j0) (hi := j0 + T.length) (by omega)
      (fun j (st2 : LeftSt K) => st2.Lx.length = st.Lx.length ∧
        LRep C n L D (fun i => y0 i - ((T.take (j - j0)).map (leftTerm C k L D i)).sum)
          (fun i => w i + if i ∈ T.take (j - j0) then 1 else 0) st2) ?_ ?_) ?_
    · refine ⟨rfl, hst.D, ?_, ?_, hst.Lx⟩
      · simpa using h5
      · simpa using hst.w
    · rintro j st2 hj1 hj2 ⟨r0, r1⟩
      obtain ⟨x, rfl⟩ : ∃ x, j = j0 + x := ⟨j - j0, by omega⟩
      have hx : x < T.length := by omega
      have ex : j0 + x - j0 = x := by omega
      have ex1 : j0 + x + 1 - j0 = x + 1 := by omega
      rw [ex] at r1
      have hgT : T[x]? = some T[x] := List.getElem?_eq_getElem hx
      have hfill : Fill C k T[x] := (hT.mem _).mp (List.getElem_mem hx)
      have hnotin : T[x] ∉ T.take x := by
        intro hmem
        obtain ⟨y, hy1, hy2⟩ := List.mem_take_iff_getElem.mp hmem
        have := (List.Nodup.getElem_inj_iff hT.nodup).mp hy2
        omega
      refine (leftNode_spec hk r1 hLp hLi (h3 x _ hgT) hfill (by
        rw [if_neg hnotin, add_zero]; exact hw _ hfill)).mono ?_
      rintro st3 ⟨z1, z2⟩
      refine ⟨z2.trans r0, z1.D, z1.Y.congr ?_, z1.w.congr ?_, z1.Lx⟩
      · intro i hi
        rw [ex1, List.take_add_one, hgT, Option.toList_some, List.map_append, List.sum_append]
        simp only [List.map_cons, List.map_nil, List.sum_cons, List.sum_nil, add_zero]
        ring
      · intro i hi
        rw [ex1, List.take_add_one, hgT, Option.toList_some]
        by_cases hit : i = T[x]
        · subst hit
          rw [Function.update_self, if_neg hnotin,
            if_pos (List.mem_append_right _ (List.mem_singleton_self _))]
        · rw [Function.update_of_ne hit]
          have : (i ∈ T.take x ++ [T[x]]) ↔ i ∈ T.take x := by
            rw [List.mem_append, List.mem_singleton]
            exact ⟨fun hh => hh.elim id (fun e => absurd e hit), .inl⟩
          simp only [this]
    · rintro st2 ⟨r0, r1⟩
      rw [Nat.add_sub_cancel_left, List.take_length] at r1
      have hDl2 := r1.D.le_length
      have hYl2 := r1.Y.le_length
      have hyk : y0 k - (T.map (leftTerm C k L D k)).sum = raw := by
        rw [hy0]; simp only [le_refl, if_true]; exact hraw
      have hyi : ∀ i, k < i → i < n → y0 i - (T.map (leftTerm C k L D i)).sum
          = if Fill C i k then v i * regPivot raw else 0 := by
        intro i hki hin
        rw [hy0]; simp only [hki.le, if_true]; exact hv i hki hin
      have hylt : ∀ i, i < k → y0 i - (T.map (leftTerm C k L D i)).sum = 0 := by
        intro i hik
        have z1 : y0 i = 0 := by rw [hy0]; simp only; rw [if_neg (by omega)]
        have z2 : (T.map (leftTerm C k L D i)).sum = 0 := by
          refine List.sum_eq_zero ?_
          intro y hy
          obtain ⟨j, _, rfl⟩ := List.mem_map.mp hy
          unfold leftTerm
          rw [if_neg (fun hh => by omega)]
        rw [z1, z2, sub_zero]
      set yf : Nat → K := fun i => y0 i - (T.map (leftTerm C k L D i)).sum with hyf
      have ek : ((k : Nat) : Int) + 1 = ((k + 1 : Nat) : Int) := by omega
      rw [r1.Y.rd hk, ok_bind, show yf k = raw from hyk, wr_ok (by omega), ok_bind,
        wr_ok (by omega), ok_bind,
        (r1.D.set (by omega) (regPivot raw)).rd hk, Function.update_self, ok_bind,
        hLp.rd (by omega), ok_bind, ek, hLp.rd (by omega), ok_bind, lpOf_succ]
      have hne : regPivot raw ≠ (0 : K) := regPivot_ne_zero _
      refine Spec.bind (forI_spec (lo := lpOf C n k) (hi := lpOf C n k + (fillRows C n k).length)
        (by omega) (fun t (s : Buf K × Buf K) => s.1.length = st.Lx.length ∧
          s.2.length = st2.Y.length ∧
          Buf.Has s.2 n (fun i => if i = k ∨ i ∈ (fillRows C n k).take (t - lpOf C n k) then 0
            else yf i) ∧
          (∀ j, j < n → ∀ (a r : Nat), (fillRows C n j)[a]? = some r →
            s.1[lpOf C n j + a]? = some (some (if j = k ∧ a < t - lpOf C n k then v r else L r j))))
        ?_ ?_) ?_
      · refine ⟨r0, by simp, (r1.Y.set (i := k) (by omega) 0).congr ?_, ?_⟩
        · intro i hi
          by_cases hik : i = k
          · subst hik; simp
          · simp [hik, hyf]
        · intro j hj a r ha
          rw [if_neg (by omega)]
          exact r1.Lx j hj a r ha
      · rintro t ⟨Lxb, Yb2⟩ ht1 ht2 ⟨g1, g2, g3, g4⟩
        simp only at g1 g2 g3 g4 ⊢
        obtain ⟨x, rfl⟩ : ∃ x, t = lpOf C n k + x := ⟨t - lpOf C n k, by omega⟩
        have ex : lpOf C n k + x - lpOf C n k = x := by omega
        have ex1 : lpOf C n k + x + 1 - lpOf C n k = x + 1 := by omega
        rw [ex] at g3 g4
        rw [ex1]
        have hx : x < (fillRows C n k).length := by omega
        have hg : (fillRows C n k)[x]? = some (fillRows C n k)[x] := List.getElem?_eq_getElem hx
        have hm := mem_fillRows.mp (List.getElem_mem hx)
        set r := (fillRows C n k)[x] with hr
        have hkr := hm.2.lt
        have hndr : (fillRows C n k).Nodup := (fillRows_sorted (C := C) n k).imp (fun h => h.ne)
        have hnotin : r ∉ (fillRows C n k).take x := by
          intro hmem
          obtain ⟨y, hy1, hy2⟩ := List.mem_take_iff_getElem.mp hmem
          have := (List.Nodup.getElem_inj_iff hndr).mp hy2
          omega
        have hcell := g4 k hk x r hg
        have hll := (List.getElem?_eq_some_iff.mp hcell).1
        rw [rd_ok (hLi k hk x r hg), ok_bind, g3.rd hm.1, ok_bind, wr_ok hll, ok_bind,
          wr_ok (by omega), ok_bind]
        have hval : (if r = k ∨ r ∈ (fillRows C n k).take x then 0 else yf r) / regPivot raw
            = v r := by
          rw [if_neg (not_or.mpr ⟨by omega, hnotin⟩)]
          have : yf r = v r * regPivot raw := by
            have := hyi r hkr hm.1
            rw [if_pos hm.2] at this
            exact this
          rw [this, mul_div_assoc, div_self hne, mul_one]
        rw [hval]
        refine Spec.ok ⟨by simp [g1], by simp [g2], (g3.set (by omega) 0).congr ?_, ?_⟩
        · intro i hi
          rw [List.take_add_one, hg, Option.toList_some]
          by_cases hir : i = r
          · subst hir
            rw [Function.update_self, if_pos (.inr (by simp))]
          · rw [Function.update_of_ne hir]
            have : (i = k ∨ i ∈ (fillRows C n k).take x ++ [r])
                ↔ (i = k ∨ i ∈ (fillRows C n k).take x) := by simp [hir]
            simp only [this]
        · intro j hj a r' ha
          simp only [List.getElem?_set]
          by_cases hjk : j = k
          · subst hjk
            by_cases hax : a = x
            · subst hax
              have : r' = r := by rw [hg] at ha; exact (Option.some.inj ha).symm
              subst this
              rw [if_pos rfl, if_pos hll, if_pos ⟨rfl, by omega⟩]
            · rw [if_neg (by omega)]
              have hiff : (j = j ∧ a < x + 1) ↔ (j = j ∧ a < x) := by
                constructor <;> (rintro ⟨_, hh⟩; exact ⟨rfl, by omega⟩)
              have := g4 j hj a r' ha
              by_cases hc : a < x
              · rw [if_pos ⟨rfl, hc⟩] at this
                rw [if_pos ⟨rfl, by omega⟩]; exact this
              · rw [if_neg (fun hh => hc hh.2)] at this
                rw [if_neg (fun hh => hc (hiff.mp hh).2)]; exact this
          · have haj := (List.getElem?_eq_some_iff.mp ha).1
            have hneq : ¬ lpOf C n k + x = lpOf C n j + a := by
              have hj1 := lpOf_succ C n j
              have hi1 := lpOf_succ C n k
              rcases Nat.lt_or_ge k j with hij | hij
              · have := lpOf_mono C n (i := k + 1) (j := j) hij
                omega
              · have := lpOf_mono C n (i := j + 1) (j := k) (by omega)
                omega
            have := g4 j hj a r' ha
            rw [if_neg (fun hh => hjk hh.1)] at this
            rw [if_neg hneq, if_neg (fun hh => hjk hh.1)]
            exact this
      · rintro ⟨Lxb, Yb2⟩ ⟨g1, g2, g3, g4⟩
        simp only at g1 g2 g3 g4 ⊢
        rw [Nat.add_sub_cancel_left] at g3 g4
        rw [List.take_length] at g3
        refine Spec.ok ⟨⟨r1.D.set (by omega) _, g3.congr ?_, r1.w.congr ?_, ?_⟩, g1⟩
        · intro i hi
          by_cases hc : i = k ∨ i ∈ fillRows C n k
          · rw [if_pos hc]
          · rw [if_neg hc]
            rw [not_or] at hc
            rcases Nat.lt_or_ge i k with hlt | hge
            · exact hylt i hlt
            · have := hyi i (by omega) hi
              rw [if_neg (fun hf => hc.2 (mem_fillRows.mpr ⟨hi, hf⟩))] at this
              exact this
        · intro i hi
          have : i ∈ T ↔ Fill C k i := hT.mem i
          by_cases hc : Fill C k i
          · rw [if_pos hc, if_pos (this.mpr hc)]
          · rw [if_neg hc, if_neg (fun hh => hc (this.mp hh))]
        · intro j hj a r ha
          have := g4 j hj a r ha
          unfold setCol
          by_cases hjk : j = k
          · subst hjk
            have hal := (List.getElem?_eq_some_iff.mp ha).1
            rw [if_pos ⟨rfl, hal⟩] at this
            rw [if_pos rfl]; exact this
          · rw [if_neg (fun hh => hjk hh.1)] at this
            rw [if_neg hjk]; exact this

theorem lpOf_locate {C : Nat → List Nat} {n m x : Nat} (h : x < lpOf C n m) :
    ∃ j t, j < m ∧ t < (fillRows C n j).length ∧ x = lpOf C n j + t := by
  induction m with
  | zero => simp [lpOf] at h
  | succ m ih =>
    rw [lpOf_succ] at h
    rcases Nat.lt_or_ge x (lpOf C n m) with hl | hl
    · obtain ⟨j, t, h1, h2, h3⟩ := ih hl
      exact ⟨j, t, by omega, h2, h3⟩
    · exact ⟨m, x - lpOf C n m, by omega, by omega, by omega⟩

theorem get_iff_lt_countP {p : Nat → Bool} : ∀ (l : List Nat),
    l.Pairwise (fun a b => p b = true → p a = true) → ∀ (x : Nat) (hx : x < l.length),
    (p l[x] = true ↔ x < l.countP p) := by
  intro l
  induction l with
  | nil => intro _ x hx; exact absurd hx (by simp)
  | cons a l ih =>
    intro h x hx
    rw [List.pairwise_cons] at h
    by_cases ha : p a = true
    · rw [List.countP_cons_of_pos ha]
      cases x with
      | zero => simp [ha]
      | succ x =>
        have := ih h.2 x (by simpa using hx)
        rw [List.getElem_cons_succ, this]
        omega
    · have hall : ∀ b ∈ l, ¬ p b = true := fun b hb hpb => ha (h.1 b hb hpb)
      rw [List.countP_cons_of_neg ha, List.countP_eq_zero.mpr hall]
      cases x with
      | zero => simp [ha]
      | succ x =>
        rw [List.getElem_cons_succ]
        simp only [Nat.not_lt_zero, iff_false]
        exact hall _ (List.getElem_mem _)

theorem countP_or_eq {p p' : Nat → Bool} {k : Nat} : ∀ (l : List Nat), l.Nodup →
    (∀ x ∈ l, p' x = true ↔ p x = true ∨ x = k) → ¬ p k = true →
    l.countP p' = l.countP p + if k ∈ l then 1 else 0 := by
  intro l
  induction l with
  | nil => intro _ _ _; rfl
  | cons a l ih =>
    intro hnd hp hk
    rw [List.nodup_cons] at hnd
    have h1 := ih hnd.2 (fun x hx => hp x (List.mem_cons_of_mem _ hx)) hk
    have h2 := hp a List.mem_cons_self
    by_cases hak : a = k
    · subst hak
      rw [List.countP_cons_of_pos (h2.mpr (.inr rfl)), List.countP_cons_of_neg hk, h1,
        if_neg hnd.1, if_pos List.mem_cons_self]
    · have hm : k ∈ a :: l ↔ k ∈ l := by
        rw [List.mem_cons]
        exact ⟨fun hh => hh.elim (fun e => absurd e.symm hak) id, .inr⟩
      have e : (if k ∈ a :: l then 1 else 0) = (if k ∈ l then 1 else 0 : Nat) := by
        by_cases hc : k ∈ l
        · rw [if_pos hc, if_pos (hm.mpr hc)]
        · rw [if_neg hc, if_neg (fun hh => hc (hm.mp hh))]
      rw [e]
      by_cases ha : p a = true
      · rw [List.countP_cons_of_pos (h2.mpr (.inl ha)), List.countP_cons_of_pos ha, h1]; omega
      · rw [List.countP_cons_of_neg (fun hh => (h2.mp hh).elim ha hak),
          List.countP_cons_of_neg ha, h1]

theorem countP_lt_fillRows {C : Nat → List Nat} {k n j : Nat} (h : k ≤ n) :
    (fillRows C n j).countP (fun r => decide (r < k)) = (fillRows C k j).length := by
  induction n, h using Nat.le_induction with
  | base =>
    rw [List.countP_eq_length]
    intro r hr
    exact decide_eq_true (mem_fillRows.mp hr).1
  | succ n hn ih =>
    by_cases hf : Fill C n j
    · rw [fillRows_succ_of hf, List.countP_append, ih]
      have : ¬ n < k := by omega
      simp [this]
    · rw [fillRows_succ_not hf, ih]

/-- Number of entries of column `j` that are not to be recomputed from step `k` on. -/
noncomputable def leftCnt (C : Nat → List Nat) (n : Nat) (u : Nat → Int) (k j : Nat) : Nat :=
  (fillRows C n j).countP (fun r => decide (r < k ∨ u r ≠ n))

theorem leftCnt_fill {C : Nat → List Nat} {n : Nat} {u : Nat → Int}
    (hM : ∀ j l, u j = n → l < n → Fill C l j → u l = n) {k j : Nat} (hk : k < n)
    (hf : Fill C k j) (hu : u k = n) : leftCnt C n u k j = (fillRows C k j).length := by
  rw [← countP_lt_fillRows (C := C) (j := j) hk.le]
  unfold leftCnt
  refine List.countP_congr ?_
  intro r hr
  obtain ⟨hrn, hrf⟩ := mem_fillRows.mp hr
  simp only [decide_eq_true_eq]
  constructor
  · rintro (h | h)
    · exact h
    · by_contra hge
      rcases Nat.lt_or_ge k r with h1 | h1
      · exact h (hM k r hu hrn (.step hf.lt h1 hrf hf))
      · have : r = k := by omega
        subst this
        exact h hu
  · exact .inl

open Classical in
theorem leftCnt_succ_marked {C : Nat → List Nat} {n : Nat} {u : Nat → Int} {k j : Nat}
    (hk : k < n) (hu : u k = n) :
    leftCnt C n u (k + 1) j = leftCnt C n u k j + if Fill C k j then 1 else 0 := by
  unfold leftCnt
  rw [countP_or_eq (p := fun r => decide (r < k ∨ u r ≠ n)) (k := k) _
    ((fillRows_sorted (C := C) n j).imp (fun h => h.ne))]
  · congr 1
    have : k ∈ fillRows C n j ↔ Fill C k j := by
      rw [mem_fillRows]; exact ⟨fun h => h.2, fun h => ⟨hk, h⟩⟩
    by_cases hc : Fill C k j
    · rw [if_pos hc, if_pos (this.mpr hc)]
    · rw [if_neg hc, if_neg (fun hh => hc (this.mp hh))]
  · intro x _
    simp only [decide_eq_true_eq]
    constructor
    · rintro (h | h)
      · rcases Nat.lt_or_ge x k with h1 | h1
        · exact .inl (.inl h1)
        · exact .inr (by omega)
      · exact .inl (.inr h)
    · rintro ((h | h) | h)
      · exact .inl (by omega)
      · exact .inr h
      · exact .inl (by omega)
  · simp only [decide_eq_true_eq]
    rintro (h | h)
    · omega
    · exact h hu

theorem leftCnt_succ_unmarked {C : Nat → List Nat} {n : Nat} {u : Nat → Int} {k : Nat}
    (hu : u k ≠ n) (j : Nat) : leftCnt C n u (k + 1) j = leftCnt C n u k j := by
  unfold leftCnt
  refine List.countP_congr ?_
  intro r _
  simp only [decide_eq_true_eq]
  constructor
  · rintro (h | h)
    · by_cases e : r = k
      · subst e; exact .inr hu
      · exact .inl (by omega)
    · exact .inr h
  · rintro (h | h)
    · exact .inl (by omega)
    · exact .inr h

theorem leftCnt_self {C : Nat → List Nat} {n : Nat} {u : Nat → Int} (k : Nat) :
    leftCnt C n u (k + 1) k = (fillRows C n k).countP (fun r => decide (u r ≠ n)) := by
  unfold leftCnt
  refine List.countP_congr ?_
  intro r hr
  have := (mem_fillRows.mp hr).2.lt
  simp only [decide_eq_true_eq]
  exact ⟨fun h => h.elim (fun h => by omega) id, .inr⟩

theorem leftCnt_self_marked {C : Nat → List Nat} {n : Nat} {u : Nat → Int}
    (hM : ∀ j l, u j = n → l < n → Fill C l j → u l = n) {k : Nat} (hu : u k = n) :
    leftCnt C n u (k + 1) k = 0 := by
  rw [leftCnt_self, List.countP_eq_zero]
  intro r hr
  obtain ⟨hrn, hrf⟩ := mem_fillRows.mp hr
  simp [hM k r hu hrn hrf]

theorem leftSkip_spec {C : Nat → List Nat} {n k : Nat} (hk : k < n) {Lp Li U : Buf Int}
    (hLp : Buf.Has Lp (n + 1) (fun j => (lpOf C n j : Int)))
    (hLi : ∀ j, j < n → ∀ (q r : Nat), (fillRows C n j)[q]? = some r →
      Li[lpOf C n j + q]? = some (some (r : Int)))
    {u : Nat → Int} (hU : Buf.Has U n u) (hM : ∀ j l, u j = n → l < n → Fill C l j → u l = n)
    (hsafe : (∃ r, r < n ∧ Fill C r k ∧ u r = n) ∨ lpOf C n (k + 1) < lpOf C n n)
    {work : Buf Int} {w : Nat → Nat} (hw : Buf.Has work n (fun j => (w j : Int)))
    (hwk : w k = lpOf C n k) :
    Spec (leftSkip n Li Lp U k work) (fun work' => Buf.Has work' n
      (fun j => ((Function.update w k (lpOf C n k + leftCnt C n u (k + 1) k) j : Nat) : Int))) := by
  unfold leftSkip
  have ek : ((k : Nat) : Int) + 1 = ((k + 1 : Nat) : Int) := by omega
  rw [hLp.rd (by omega), ok_bind, ek, hLp.rd (by omega), ok_bind]
  set pr : Nat → Bool := fun r => decide (u r ≠ n) with hpr
  set cnt := (fillRows C n k).countP pr with hcnt
  have hpw : (fillRows C n k).Pairwise (fun a b => pr b = true → pr a = true) := by
    have h1 := List.pairwise_iff_getElem.mp (fillRows_sorted (C := C) n k)
    rw [List.pairwise_iff_getElem]
    intro a b ha hb hab hp
    obtain ⟨a1, a2⟩ := mem_fillRows.mp (List.getElem_mem ha)
    obtain ⟨b1, b2⟩ := mem_fillRows.mp (List.getElem_mem hb)
    simp only [hpr, decide_eq_true_eq] at hp ⊢
    exact fun hh => hp (hM _ _ hh b1 (.step a2.lt (h1 a b ha hb hab) b2 a2))
  have hget := get_iff_lt_countP _ hpw
  have hcl : cnt ≤ (fillRows C n k).length := List.countP_le_length
  have hln : (fillRows C n k).length ≤ n := by
    have := List.length_filter_le (fun r => @decide (Fill C r k) (Classical.propDecidable _))
      (List.range n)
    simpa [fillRows] using this
  refine Spec.bind (whileM_spec
    (fun s : Int × Buf Int => ∃ x : Nat, x ≤ cnt ∧ s.1 = ((lpOf C n k + x : Nat) : Int) ∧
      Buf.Has s.2 n (fun j => ((Function.update w k (lpOf C n k + x) j : Nat) : Int)))
    (fun s => lpOf C n k + cnt - s.1.toNat)
    (fun s => Buf.Has s.2 n (fun j => ((Function.update w k (lpOf C n k + cnt) j : Nat) : Int)))
    ?_ ?_ ?_) ?_
  · refine ⟨0, Nat.zero_le _, rfl, hw.congr ?_⟩
    intro j _
    by_cases hj : j = k
    · subst hj; rw [Function.update_self, hwk]; rfl
    · rw [Function.update_of_ne hj]
  · simp only; omega
  · rintro ⟨a, W⟩ ⟨x, hx, ha, hW⟩
    simp only at ha hW ⊢
    subst ha
    have hWl := hW.le_length
    rcases Nat.lt_or_ge x cnt with hlt | hge
    · have hxl : x < (fillRows C n k).length := by omega
      have hg : (fillRows C n k)[x]? = some (fillRows C n k)[x] := List.getElem?_eq_getElem hxl
      have hm := (mem_fillRows.mp (List.getElem_mem hxl)).1
      have hun : u (fillRows C n k)[x] ≠ n := by
        have := (hget x hxl).mpr hlt
        simpa [hpr] using this
      rw [rd_ok (hLi k hk x _ hg), ok_bind, hU.rd hm, ok_bind]
      refine Spec.ok ?_
      have hc : (decide (u (fillRows C n k)[x] ≠ (n : Int)) &&
          decide (((lpOf C n k + x : Nat) : Int) < ((lpOf C n (k + 1) : Nat) : Int))) = true := by
        have := lpOf_succ C n k
        simp only [Bool.and_eq_true, decide_eq_true_eq]
        exact ⟨hun, by omega⟩
      rw [if_pos hc, hW.rd hk, ok_bind, wr_ok (by omega), ok_bind]
      refine Spec.ok ⟨⟨x + 1, hlt, by push_cast; ring, (hW.set (by omega) _).congr ?_⟩, ?_⟩
      · intro j _
        by_cases hj : j = k
        · subst hj
          simp only [Function.update_self]; push_cast; ring
        · rw [Function.update_of_ne hj, Function.update_of_ne hj, Function.update_of_ne hj]
      · simp only; omega
    · have hxe : x = cnt := by omega
      subst hxe
      obtain ⟨r, hr1, hr2, hr3⟩ : ∃ r : Nat, Li[lpOf C n k + cnt]? = some (some (r : Int)) ∧ r < n ∧
          (u r = n ∨ lpOf C n (k + 1) ≤ lpOf C n k + cnt) := by
        rcases Nat.lt_or_ge cnt (fillRows C n k).length with h1 | h1
        · have hg : (fillRows C n k)[cnt]? = some (fillRows C n k)[cnt] :=
            List.getElem?_eq_getElem h1
          refine ⟨_, hLi k hk cnt _ hg, (mem_fillRows.mp (List.getElem_mem h1)).1, .inl ?_⟩
          by_contra hne
          have := (hget cnt h1).mp (by simpa [hpr] using hne)
          omega
        · have hsucc := lpOf_succ C n k
          have hce : cnt = (fillRows C n k).length := by omega
          rcases hsafe with ⟨r, h2, h3, h4⟩ | h2
          · have hmem : r ∈ fillRows C n k := mem_fillRows.mpr ⟨h2, h3⟩
            rw [hcnt, List.countP_eq_length] at hce
            have := hce r hmem
            simp [hpr, h4] at this
          · obtain ⟨j, t, g1, g2, g3⟩ := lpOf_locate h2
            have hg : (fillRows C n j)[t]? = some (fillRows C n j)[t] :=
              List.getElem?_eq_getElem g2
            refine ⟨_, ?_, (mem_fillRows.mp (List.getElem_mem g2)).1, .inr (by omega)⟩
            rw [show lpOf C n k + cnt = lpOf C n j + t by omega]
            exact hLi j g1 t _ hg
      rw [rd_ok hr1, ok_bind, hU.rd hr2, ok_bind]
      refine Spec.ok ?_
      have hc : ¬ (decide (u r ≠ (n : Int)) &&
          decide (((lpOf C n k + cnt : Nat) : Int) < ((lpOf C n (k + 1) : Nat) : Int))) = true := by
        simp only [Bool.and_eq_true, decide_eq_true_eq, not_and]
        intro h1
        rcases hr3 with h2 | h2
        · exact absurd h2 h1
        · omega
      rw [if_neg hc]
      exact hW
  · intro s hs
    refine Spec.ok ?_
    rw [leftCnt_self]
    exact hs

/-- Where the entries of column `j` that are still to be used begin, at step `k`. -/
noncomputable def leftPos (C : Nat → List Nat) (n : Nat) (u : Nat → Int) (k j : Nat) : Nat :=
  if j < k then lpOf C n j + leftCnt C n u k j else lpOf C n j

theorem leftPos_lt {C : Nat → List Nat} {n : Nat} {u : Nat → Int} {k j : Nat} (h : j < k) :
    leftPos C n u k j = lpOf C n j + leftCnt C n u k j := if_pos h

theorem leftPos_ge {C : Nat → List Nat} {n : Nat} {u : Nat → Int} {k j : Nat} (h : k ≤ j) :
    leftPos C n u k j = lpOf C n j := if_neg (by omega)

theorem leftSum_eq {c : Nat → List (Nat × K)} {n : Nat} {s : FSt K} {raw : Nat → K}
    (h : RowsInv c n s raw) {k : Nat} (hk : k < n) {T : List Nat} (hT : Topo (patOf c) k T)
    {L : Nat → Nat → K} {D : Nat → K}
    (hL : ∀ j, j < k → D j = s.D j ∧ ∀ r, r < n → Fill (patOf c) r j → L r j = colSum (s.col j) r)
    {i : Nat} (hi : k ≤ i) (hin : i < n) :
    (T.map (leftTerm (patOf c) k L D i)).sum
      = ∑ t ∈ range k, lent s k t * s.D t * lent s i t := by
  classical
  rw [← List.sum_toFinset _ hT.nodup]
  have hz : ∀ r t, t < r → r < n → ¬ Fill (patOf c) r t → lent s r t = 0 := by
    intro r t ht _ hf
    unfold lent
    rw [if_neg (by omega)]
    exact colSum_of_rows (h.rows t) (fun hm => hf (mem_fillRows.mp hm).2)
  have hone : ∀ t, Fill (patOf c) k t →
      leftTerm (patOf c) k L D i t = lent s k t * s.D t * lent s i t := by
    intro t hf
    have htk := hf.lt
    obtain ⟨d1, d2⟩ := hL t htk
    have ek : L k t = lent s k t := by
      unfold lent; rw [if_neg (by omega)]; exact d2 k hk hf
    unfold leftTerm
    by_cases hfi : Fill (patOf c) i t
    · have ei : L i t = lent s i t := by
        unfold lent; rw [if_neg (by omega)]; exact d2 i hin hfi
      rw [if_pos ⟨hi, hfi⟩, ek, ei, d1]; ring
    · rw [if_neg (fun hh => hfi hh.2), hz i t (by omega) hin hfi]; ring
  refine Finset.sum_subset_zero_on_sdiff ?_ ?_ ?_
  · intro t ht
    rw [List.mem_toFinset, hT.mem] at ht
    exact mem_range.mpr ht.lt
  · intro t ht
    rw [Finset.mem_sdiff, mem_range, List.mem_toFinset, hT.mem] at ht
    rw [hz k t ht.1 hk ht.2]; ring
  · intro t ht
    rw [List.mem_toFinset, hT.mem] at ht
    exact hone t ht

/-- State before step `k`: columns that are done or not marked hold the factor `s`. -/
def LeftInv (C : Nat → List Nat) (n : Nat) (u : Nat → Int) (s : FSt K) (N k : Nat)
    (st : LeftSt K) : Prop :=
  st.Lx.length = N ∧ ∃ L D, LRep C n L D (fun _ => 0) (leftPos C n u k) st ∧
    ∀ j, j < n → (j < k ∨ u j ≠ n) → D j = s.D j ∧
      ∀ r, r < n → Fill C r j → L r j = colSum (s.col j) r

theorem leftWork_spec {C : Nat → List Nat} {n : Nat} {Lp : Buf Int}
    (hLp : Buf.Has Lp (n + 1) (fun j => (lpOf C n j : Int))) :
    Spec (forI 0 (n : Int) (malloc (n : Int).toNat) fun k work => do
      let v ← rd Lp k
      wr work k v) (fun work => Buf.Has work n (fun j => (lpOf C n j : Int))) := by
  refine (forI_spec (lo := 0) (hi := n) (Nat.zero_le n)
    (fun k (b : Buf Int) => b.length = n ∧ Buf.Has b k (fun j => (lpOf C n j : Int))) ?_ ?_).mono ?_
  · exact ⟨by simp [malloc], Buf.Has.zero _ _⟩
  · rintro k b _ hk ⟨h1, h2⟩
    rw [hLp.rd (by omega), ok_bind, wr_ok (by omega)]
    exact Spec.ok ⟨by simpa using h1, h2.push (by omega) _ rfl (fun _ _ => rfl)⟩
  · exact fun b hb => hb.2

theorem leftStep_spec {n : Nat} {A : Csc K} {p q : Nat → Nat} {Ap Ai : Buf Int}
    {P Pinv : Option (Buf Int)} (h : LdlArgs n A p q Ap Ai P) {Ax : Buf K}
    (hAx : Buf.Has Ax A.nnz A.pr) (hQ : PermArg n Pinv q) {Lp Li Lti Ltp : Buf Int}
    (hLp : Buf.Has Lp (n + 1) (fun j => (lpOf (permPat A p q) n j : Int)))
    (hLi : ∀ j, j < n → ∀ (t r : Nat), (fillRows (permPat A p q) n j)[t]? = some r →
      Li[lpOf (permPat A p q) n j + t]? = some (some (r : Int)))
    (hnd : ∀ k, k < n → ((permCol A p q k).map Prod.fst).Nodup)
    (hsym : ∀ i k, i < n → k < n → colSum (permCol A p q k) i = colSum (permCol A p q i) k)
    {T : Nat → List Nat} {o : Nat → Nat} (hT : ∀ k, k < n → Topo (permPat A p q) k (T k))
    (ho : ∀ k, k < n → o (k + 1) = o k + (T k).length)
    (hLtp : Buf.Has Ltp (n + 1) (fun k => (o k : Int)))
    (hLti : ∀ k, k < n → ∀ (x i : Nat), (T k)[x]? = some i →
      Lti[o k + x]? = some (some (i : Int)))
    {u : Nat → Int} {U : Buf Int} (hU : Buf.Has U n u)
    (hM : ∀ j l, u j = n → l < n → Fill (permPat A p q) l j → u l = n)
    {s : FSt K} {raw : Nat → K} (hnew : RowsInv (permCol A p q) n s raw)
    {k : Nat} (hk : k < n)
    (hsafe : u k ≠ n → (∃ r, r < n ∧ Fill (permPat A p q) r k ∧ u r = n) ∨
      lpOf (permPat A p q) n (k + 1) < lpOf (permPat A p q) n n)
    {N : Nat} {st : LeftSt K} (hinv : LeftInv (permPat A p q) n u s N k st) :
    Spec (do
      let u ← rd U (k : Int)
      if u = (n : Int) then leftCol Ap Ai Ax Ltp Lti Li Lp P Pinv (k : Int) st
      else do
        let work ← leftSkip n Li Lp U (k : Int) st.work
        pure { st with work := work }) (LeftInv (permPat A p q) n u s N (k + 1)) := by
  set C := permPat A p q with hC
  obtain ⟨h1, L, D, h2, h3⟩ := hinv
  rw [hU.rd hk, ok_bind]
  refine Spec.ite ?_ ?_
  · intro hu
    have e1 : ((k : Nat) : Int) + 1 = ((k + 1 : Nat) : Int) := by omega
    have hL : ∀ j, j < k → D j = s.D j ∧
        ∀ r, r < n → Fill (patOf (permCol A p q)) r j → L r j = colSum (s.col j) r :=
      fun j hj => h3 j (by omega) (.inl hj)
    have e4 : lent s k k = 1 := by simp [lent]
    have hDk := hnew.D k hk
    refine (leftCol_spec h hAx hQ hLp hLi hk (hnd k hk) (hT k hk) (j0 := o k)
      (hLtp.rd (by omega)) (by rw [e1, hLtp.rd (by omega), ho k hk]) (hLti k hk) h2
      ?_ (raw := raw k) (v := fun i => colSum (s.col k) i) ?_ ?_).mono ?_
    · intro j hj
      unfold leftPos
      rw [if_pos hj.lt, leftCnt_fill hM hk hj hu]
    · rw [show leftTerm (permPat A p q) = leftTerm (patOf (permCol A p q)) from rfl,
        leftSum_eq hnew hk (hT k hk) hL le_rfl hk]
      have e2 := hnew.ldl k hk k le_rfl
      rw [if_pos rfl, sum_range_succ, e4, hDk] at e2
      linarith
    · intro i hi hin
      rw [show leftTerm (permPat A p q) = leftTerm (patOf (permCol A p q)) from rfl,
        leftSum_eq hnew hk (hT k hk) hL hi.le hin, hsym i k hin hk]
      have e2 := hnew.ldl i hin k hi.le
      rw [if_neg (by omega), sum_range_succ, e4, hDk] at e2
      have e5 : lent s i k = colSum (s.col k) i := by unfold lent; rw [if_neg (by omega)]
      rw [e5] at e2
      by_cases hf : Fill (permPat A p q) i k
      · rw [if_pos hf]; linarith
      · have : colSum (s.col k) i = 0 :=
          colSum_of_rows (hnew.rows k) (fun hm => hf (mem_fillRows.mp hm).2)
        rw [this] at e2
        rw [if_neg hf]; linarith
    · rintro st' ⟨g1, g2⟩
      refine ⟨g2.trans h1, _, _, ⟨g1.D, g1.Y, g1.w.congr ?_, g1.Lx⟩, ?_⟩
      · intro j _
        congr 1
        rcases Nat.lt_trichotomy j k with hj | hj | hj
        · rw [leftPos_lt hj, leftPos_lt (show j < k + 1 by omega)]
          by_cases hf : Fill C k j
          · rw [if_pos hf, leftCnt_succ_marked (C := C) (j := j) hk hu, if_pos hf]; omega
          · rw [if_neg hf, leftCnt_succ_marked (C := C) (j := j) hk hu, if_neg hf]; omega
        · subst hj
          rw [leftPos_ge (le_refl j), leftPos_lt (Nat.lt_succ_self j),
            leftCnt_self_marked hM hu, if_neg (fun hf : Fill C j j => absurd hf.lt (by omega))]
        · rw [leftPos_ge hj.le, leftPos_ge (show k + 1 ≤ j by omega),
            if_neg (fun hf : Fill C k j => absurd hf.lt (by omega))]
          rfl
      · intro j hj hor
        by_cases hjk : j = k
        · subst hjk
          refine ⟨by rw [Function.update_self, hDk], ?_⟩
          intro r hr hf
          simp [setCol]
        · obtain ⟨d1, d2⟩ := h3 j hj (hor.elim (fun hh => .inl (by omega)) .inr)
          refine ⟨by rw [Function.update_of_ne hjk, d1], ?_⟩
          intro r hr hf
          rw [← d2 r hr hf]
          simp [setCol, hjk]
  · intro hu
    have hu' : u k ≠ n := hu
    refine Spec.bind (leftSkip_spec hk hLp hLi hU hM (hsafe hu') h2.w
      (by simp [leftPos])) ?_
    intro W hW
    refine Spec.ok ⟨h1, L, D, ⟨h2.D, h2.Y, hW.congr ?_, h2.Lx⟩, ?_⟩
    · intro j _
      congr 1
      by_cases hjk : j = k
      · subst hjk
        rw [Function.update_self]
        unfold leftPos
        rw [if_pos (by omega)]
      · rw [Function.update_of_ne hjk]
        unfold leftPos
        by_cases hj : j < k
        · rw [if_pos hj, if_pos (by omega), leftCnt_succ_unmarked hu']
        · rw [if_neg hj, if_neg (by omega)]
    · intro j hj hor
      by_cases hjk : j = k
      · subst hjk; exact h3 j hj (.inr hu')
      · exact h3 j hj (hor.elim (fun hh => .inl (by omega)) .inr)

theorem LDL_cache_numeric_spec {n : Nat} {A : Csc K} {p q : Nat → Nat} {Ap Ai : Buf Int}
    {P Pinv : Option (Buf Int)} (h : LdlArgs n A p q Ap Ai P) {Ax : Buf K}
    (hAx : Buf.Has Ax A.nnz A.pr) (hQ : PermArg n Pinv q) {Lp Li Lti Ltp : Buf Int}
    (hLp : Buf.Has Lp (n + 1) (fun j => (lpOf (permPat A p q) n j : Int)))
    (hLi : ∀ j, j < n → ∀ (t r : Nat), (fillRows (permPat A p q) n j)[t]? = some r →
      Li[lpOf (permPat A p q) n j + t]? = some (some (r : Int)))
    (hnd : ∀ k, k < n → ((permCol A p q k).map Prod.fst).Nodup)
    (hsym : ∀ i k, i < n → k < n → colSum (permCol A p q k) i = colSum (permCol A p q i) k)
    {T : Nat → List Nat} {o : Nat → Nat} (hT : ∀ k, k < n → Topo (permPat A p q) k (T k))
    (ho : ∀ k, k < n → o (k + 1) = o k + (T k).length)
    (hLtp : Buf.Has Ltp (n + 1) (fun k => (o k : Int)))
    (hLti : ∀ k, k < n → ∀ (x i : Nat), (T k)[x]? = some i →
      Lti[o k + x]? = some (some (i : Int)))
    {u : Nat → Int} {U : Buf Int} (hU : Buf.Has U n u)
    (hM : ∀ j l, u j = n → l < n → Fill (permPat A p q) l j → u l = n)
    (hsafe : ∀ k, k < n → u k ≠ n → (∃ r, r < n ∧ Fill (permPat A p q) r k ∧ u r = n) ∨
      lpOf (permPat A p q) n (k + 1) < lpOf (permPat A p q) n n)
    {s : FSt K} {raw : Nat → K} (hnew : RowsInv (permCol A p q) n s raw)
    {L0 : Nat → Nat → K} {D0 Y0 : Nat → K} {Lx D Y : Buf K}
    (hD : Buf.Has D n D0) (hY : Buf.Has Y n Y0) (hY0 : ∀ j, j < n → Y0 j = 0)
    (hLx : ∀ j, j < n → ∀ (t r : Nat), (fillRows (permPat A p q) n j)[t]? = some r →
      Lx[lpOf (permPat A p q) n j + t]? = some (some (L0 r j)))
    (hkeep : ∀ j, j < n → u j ≠ n → D0 j = s.D j ∧
      ∀ r, r < n → Fill (permPat A p q) r j → L0 r j = colSum (s.col j) r) :
    Spec (LDL_cache_numeric n Ap Ai Ax Ltp Lti Li Lp Lx D Y P Pinv U) (fun r => r.1 = (n : Int) ∧
      r.2.Lx.length = Lx.length ∧
      ∃ w, LRep (permPat A p q) n (fun r j => colSum (s.col j) r) s.D (fun _ => 0) w r.2) := by
  set C := permPat A p q with hC
  have hCp : patOf (permCol A p q) = C := rfl
  unfold LDL_cache_numeric
  refine Spec.bind (leftWork_spec hLp) ?_
  intro work hwork
  refine Spec.bind (forI_spec (lo := 0) (hi := n) (Nat.zero_le n)
    (LeftInv C n u s Lx.length) ?_ ?_) ?_
  · refine ⟨rfl, L0, D0, ⟨hD, hY.congr hY0, hwork.congr ?_, hLx⟩, ?_⟩
    · intro j _; simp [leftPos]
    · intro j hj hor
      exact hkeep j hj (hor.elim (fun hh => absurd hh (by omega)) id)
  · rintro k st _ hk hinv
    exact leftStep_spec h hAx hQ hLp hLi hnd hsym hT ho hLtp hLti hU hM hnew hk (hsafe k hk) hinv
  · rintro st ⟨h1, L, D, h2, h3⟩
    refine Spec.ok ⟨rfl, h1, leftPos C n u n, h2.D.congr (fun j hj => (h3 j hj (.inl hj)).1), h2.Y,
      h2.w, ?_⟩
    intro j hj t r ht
    obtain ⟨m1, m2⟩ := mem_fillRows.mp (List.mem_of_getElem? ht)
    rw [h2.Lx j hj t r ht, (h3 j hj (.inl hj)).2 r m1 m2]

theorem whileM_cond_err {σ : Type} {fuel : Nat} {c : σ → M Bool} {f : σ → M σ} {s : σ} {e : Err}
    (h : c s = .error e) : whileM fuel c f s = .error e := by
  unfold whileM
  rw [h]; rfl

theorem forN_err {σ : Type} {f : Int → σ → M σ} {e : Err} (Inv : Nat → σ → Prop) :
    ∀ (c lo k : Nat) (s : σ), lo ≤ k → k < lo + c → Inv lo s →
    (∀ (j : Nat) s, lo ≤ j → j < k → Inv j s → Spec (f (j : Int) s) (Inv (j + 1))) →
    (∀ s, Inv k s → f (k : Int) s = .error e) → forN c (lo : Int) s f = .error e := by
  intro c
  induction c with
  | zero => intro lo k s h1 h2; omega
  | succ c ih =>
    intro lo k s h1 h2 h0 hs he
    unfold forN
    rcases Nat.lt_or_ge lo k with hlt | hge
    · obtain ⟨s', e', h'⟩ := hs lo s le_rfl hlt h0
      rw [e', ok_bind]
      exact ih (lo + 1) k s' hlt (by omega) h' (fun j s hj => hs j s (by omega)) he
    · have : lo = k := by omega
      subst this
      rw [he s h0]; rfl

/-- A column without marked rows after which no entry is stored: `Li[Lp[n]]` is read. -/
theorem leftSkip_err {C : Nat → List Nat} {n k : Nat} (hk : k < n) {Lp Li U : Buf Int}
    (hLp : Buf.Has Lp (n + 1) (fun j => (lpOf C n j : Int)))
    (hLi : ∀ j, j < n → ∀ (q r : Nat), (fillRows C n j)[q]? = some r →
      Li[lpOf C n j + q]? = some (some (r : Int)))
    {u : Nat → Int} (hU : Buf.Has U n u)
    (hall : ∀ r, r < n → Fill C r k → u r ≠ n) (hlast : lpOf C n (k + 1) = lpOf C n n)
    {e : Err} (he : rd Li ((lpOf C n n : Nat) : Int) = .error e)
    {work : Buf Int} {w : Nat → Nat} (hw : Buf.Has work n (fun j => (w j : Int))) :
    leftSkip n Li Lp U k work = .error e := by
  unfold leftSkip
  have ek : ((k : Nat) : Int) + 1 = ((k + 1 : Nat) : Int) := by omega
  rw [hLp.rd (by omega), ok_bind, ek, hLp.rd (by omega), ok_bind]
  have hln : (fillRows C n k).length ≤ n := by
    have := List.length_filter_le (fun r => @decide (Fill C r k) (Classical.propDecidable _))
      (List.range n)
    simpa [fillRows] using this
  have key : ∀ (d fuel x : Nat) (W : Buf Int) (w : Nat → Nat), x + d = (fillRows C n k).length →
      d ≤ fuel → Buf.Has W n (fun j => (w j : Int)) →
      whileM fuel
        (fun s : Int × Buf Int => do
          let r ← rd Li s.1
          let u ← rd U r
          pure (decide (u ≠ (n : Int)) && decide (s.1 < ((lpOf C n (k + 1) : Nat) : Int))))
        (fun s => do
          let w ← rd s.2 (k : Int)
          let work ← wr s.2 (k : Int) (w + 1)
          pure (s.1 + 1, work))
        (((lpOf C n k + x : Nat) : Int), W) = .error e := by
    intro d
    induction d with
    | zero =>
      intro fuel x W w hx _ hW
      refine whileM_cond_err ?_
      have e1 : lpOf C n k + x = lpOf C n n := by
        rw [← hlast, lpOf_succ]; omega
      simp only [e1, he, error_bind]
    | succ d ih =>
      intro fuel x W w hx hf hW
      obtain ⟨f, rfl⟩ : ∃ f, fuel = f + 1 := ⟨fuel - 1, by omega⟩
      have hxl : x < (fillRows C n k).length := by omega
      have hg : (fillRows C n k)[x]? = some (fillRows C n k)[x] := List.getElem?_eq_getElem hxl
      obtain ⟨m1, m2⟩ := mem_fillRows.mp (List.getElem_mem hxl)
      have hWl := hW.le_length
      unfold whileM
      simp only [rd_ok (hLi k hk x _ hg), ok_bind, hU.rd m1]
      have hc : (decide (u (fillRows C n k)[x] ≠ (n : Int)) &&
          decide (((lpOf C n k + x : Nat) : Int) < ((lpOf C n (k + 1) : Nat) : Int))) = true := by
        have := lpOf_succ C n k
        simp only [Bool.and_eq_true, decide_eq_true_eq]
        exact ⟨hall _ m1 m2, by omega⟩
      simp only [hc, pure_eq_ok, ok_bind, if_true]
      rw [hW.rd hk, ok_bind, wr_ok (by omega), ok_bind]
      have e1 : ((lpOf C n k + x : Nat) : Int) + 1 = ((lpOf C n k + (x + 1) : Nat) : Int) := by
        push_cast; ring
      rw [e1]
      refine ih f (x + 1) _ (Function.update w k (w k + 1)) (by omega) (by omega)
        ((hW.set (by omega) _).congr ?_)
      intro j _
      by_cases hj : j = k
      · subst hj; simp only [Function.update_self]; push_cast; ring
      · rw [Function.update_of_ne hj, Function.update_of_ne hj]
  have := key (fillRows C n k).length n 0 work w (by omega) hln hw
  simp only [Int.toNat_natCast]
  simp only [Nat.add_zero] at this
  rw [this]; rfl

theorem LDL_cache_numeric_err {n : Nat} {A : Csc K} {p q : Nat → Nat} {Ap Ai : Buf Int}
    {P Pinv : Option (Buf Int)} (h : LdlArgs n A p q Ap Ai P) {Ax : Buf K}
    (hAx : Buf.Has Ax A.nnz A.pr) (hQ : PermArg n Pinv q) {Lp Li Lti Ltp : Buf Int}
    (hLp : Buf.Has Lp (n + 1) (fun j => (lpOf (permPat A p q) n j : Int)))
    (hLi : ∀ j, j < n → ∀ (t r : Nat), (fillRows (permPat A p q) n j)[t]? = some r →
      Li[lpOf (permPat A p q) n j + t]? = some (some (r : Int)))
    (hnd : ∀ k, k < n → ((permCol A p q k).map Prod.fst).Nodup)
    (hsym : ∀ i k, i < n → k < n → colSum (permCol A p q k) i = colSum (permCol A p q i) k)
    {T : Nat → List Nat} {o : Nat → Nat} (hT : ∀ k, k < n → Topo (permPat A p q) k (T k))
    (ho : ∀ k, k < n → o (k + 1) = o k + (T k).length)
    (hLtp : Buf.Has Ltp (n + 1) (fun k => (o k : Int)))
    (hLti : ∀ k, k < n → ∀ (x i : Nat), (T k)[x]? = some i →
      Lti[o k + x]? = some (some (i : Int)))
    {u : Nat → Int} {U : Buf Int} (hU : Buf.Has U n u)
    (hM : ∀ j l, u j = n → l < n → Fill (permPat A p q) l j → u l = n)
    {k : Nat} (hk : k < n) (huk : u k ≠ n) (hall : ∀ r, r < n → Fill (permPat A p q) r k → u r ≠ n)
    (hlast : lpOf (permPat A p q) n (k + 1) = lpOf (permPat A p q) n n)
    {e : Err} (he : rd Li ((lpOf (permPat A p q) n n : Nat) : Int) = .error e)
    {s : FSt K} {raw : Nat → K} (hnew : RowsInv (permCol A p q) n s raw)
    {L0 : Nat → Nat → K} {D0 Y0 : Nat → K} {Lx D Y : Buf K}
    (hD : Buf.Has D n D0) (hY : Buf.Has Y n Y0) (hY0 : ∀ j, j < n → Y0 j = 0)
    (hLx : ∀ j, j < n → ∀ (t r : Nat), (fillRows (permPat A p q) n j)[t]? = some r →
      Lx[lpOf (permPat A p q) n j + t]? = some (some (L0 r j)))
    (hkeep : ∀ j, j < n → u j ≠ n → D0 j = s.D j ∧
      ∀ r, r < n → Fill (permPat A p q) r j → L0 r j = colSum (s.col j) r) :
    LDL_cache_numeric n Ap Ai Ax Ltp Lti Li Lp Lx D Y P Pinv U = .error e := by
  classical
  set C := permPat A p q with hC
  -- the first such column
  have hex : ∃ k, k < n ∧ u k ≠ n ∧ (∀ r, r < n → Fill C r k → u r ≠ n) ∧
      lpOf C n (k + 1) = lpOf C n n := ⟨k, hk, huk, hall, hlast⟩
  obtain ⟨k1, k2, k3, k4⟩ := Nat.find_spec hex
  have hmin := fun j (hj : j < Nat.find hex) => Nat.find_min hex hj
  set k' := Nat.find hex with hk'
  unfold LDL_cache_numeric
  obtain ⟨work, ew, hwork⟩ := leftWork_spec hLp
  rw [ew, ok_bind]
  simp only [forI, Int.sub_zero, Int.toNat_natCast]
  rw [show (0 : Int) = ((0 : Nat) : Int) from rfl, forN_err (e := e) (LeftInv C n u s Lx.length) n 0 k' _
    (Nat.zero_le _) (by omega)]
  · rfl
  · refine ⟨rfl, L0, D0, ⟨hD, hY.congr hY0, hwork.congr ?_, hLx⟩, ?_⟩
    · intro j _; simp [leftPos]
    · intro j hj hor
      exact hkeep j hj (hor.elim (fun hh => absurd hh (by omega)) id)
  · intro j st _ hj hinv
    refine leftStep_spec h hAx hQ hLp hLi hnd hsym hT ho hLtp hLti hU hM hnew (by omega) ?_ hinv
    intro hu
    by_contra hc
    rw [not_or] at hc
    refine hmin j hj ⟨by omega, hu, fun r hr hf hur => hc.1 ⟨r, hr, hf, hur⟩, ?_⟩
    exact le_antisymm (lpOf_mono _ _ (by omega)) (not_lt.mp hc.2)
  · rintro st ⟨_, L, D, h2, _⟩
    rw [hU.rd k1, ok_bind, if_neg k2, leftSkip_err k1 hLp hLi hU k3 k4 he h2.w]
    rfl

end

end Verif
