import Verif.Lemmas.LdlExact

/-! # Triangular solves -/

set_option linter.unusedSectionVars false

namespace Verif

open Finset

section

variable {K : Type} [Zero K] [One K] [Add K] [Sub K] [Mul K] [Div K] [Neg K] [Scalar K]

/-- The arrays hold the strictly lower triangular columns `col`. -/
structure LFac (n : Nat) (col : Nat → List (Nat × K)) (pos : Nat → Nat) (Lp Li : Buf Int)
    (Lx : Buf K) : Prop where
  lp : Buf.Has Lp (n + 1) (fun j => (pos j : Int))
  posS : ∀ j, j < n → pos (j + 1) = pos j + (col j).length
  cells : ∀ j, j < n → ∀ (q : Nat) (e : Nat × K), (col j)[q]? = some e →
    Li[pos j + q]? = some (some (e.1 : Int)) ∧ Lx[pos j + q]? = some (some e.2)
  rows : ∀ j, j < n → ∀ e ∈ col j, j < e.1 ∧ e.1 < n

/-- Pure version of `LDL_lsolve`. -/
def lsolF (col : Nat → List (Nat × K)) (n : Nat) (x : Nat → K) : Nat → K :=
  foldI 0 n x (fun j X => subCol (col j) (X j) X)

/-- Pure version of `LDL_dsolve`. -/
def dsolF (D : Nat → K) (x : Nat → K) : Nat → K := fun i => x i / D i

/-- Inner loop of the backward solve. -/
def backAcc (l : List (Nat × K)) (X : Nat → K) (a : K) : K :=
  l.foldl (fun a e => a - e.2 * X e.1) a

theorem backAcc_append (l : List (Nat × K)) (e : Nat × K) (X : Nat → K) (a : K) :
    backAcc (l ++ [e]) X a = backAcc l X a - e.2 * X e.1 := by
  simp [backAcc, List.foldl_append]

/-- Pure version of `LDL_ltsolve`. -/
def ltsolF (col : Nat → List (Nat × K)) : Nat → (Nat → K) → Nat → K
  | 0, X => X
  | j + 1, X => ltsolF col j (Function.update X j (backAcc (col j) X (X j)))

theorem subCol_of_not_mem (l : List (Nat × K)) (yi : K) (Y : Nat → K) (r : Nat)
    (h : ∀ e ∈ l, e.1 ≠ r) : subCol l yi Y r = Y r := by
  induction l generalizing Y with
  | nil => rfl
  | cons e l ih =>
    have : subCol (e :: l) yi Y = subCol l yi (Function.update Y e.1 (Y e.1 - e.2 * yi)) := rfl
    rw [this, ih _ (fun e' he' => h e' (by simp [he']))]
    exact Function.update_of_ne (fun e' => h e (by simp) e'.symm) _ _

theorem LDL_lsolve_spec {n : Nat} {col : Nat → List (Nat × K)} {pos : Nat → Nat} {Lp Li : Buf Int}
    {Lx : Buf K} (h : LFac n col pos Lp Li Lx) {X : Buf K} {x : Nat → K} (hX : Buf.Has X n x) :
    Spec (LDL_lsolve n X Lp Li Lx) (fun X' => X'.length = X.length ∧
      Buf.Has X' n (lsolF col n x)) := by
  unfold LDL_lsolve lsolF
  refine forI_refine (lo := 0) (hi := n) (Nat.zero_le n)
    (fun _ (X' : Buf K) x' => X'.length = X.length ∧ Buf.Has X' n x') ⟨rfl, hX⟩ ?_
  rintro j X1 x1 _ hj ⟨hl, hx⟩
  have e1 : ((j : Int) + 1) = ((j + 1 : Nat) : Int) := by omega
  rw [e1, h.lp.rd (by omega), ok_bind, h.lp.rd (by omega), ok_bind, h.posS j hj]
  refine (forI_spec (lo := pos j) (hi := pos j + (col j).length) (by omega)
    (fun p (Y : Buf K) => Y.length = X.length ∧
      Buf.Has Y n (subCol ((col j).take (p - pos j)) (x1 j) x1))
    ⟨hl, by simpa [subCol] using hx⟩ ?_).mono ?_
  · rintro p Y hp1 hp2 ⟨hY1, hY2⟩
    obtain ⟨q, rfl⟩ : ∃ q, p = pos j + q := ⟨p - pos j, by omega⟩
    have hq : q < (col j).length := by omega
    have hget : (col j)[q]? = some (col j)[q] := List.getElem?_eq_getElem hq
    obtain ⟨hc1, hc2⟩ := h.cells j hj q _ hget
    obtain ⟨hr1, hr2⟩ := h.rows j hj _ (List.getElem_mem hq)
    have hnX := hx.le_length
    rw [rd_ok hc1, ok_bind, hY2.rd hr2, ok_bind, rd_ok hc2, ok_bind, hY2.rd hj, ok_bind,
      wr_ok (by omega)]
    have e2 : pos j + q - pos j = q := by omega
    have e3 : pos j + q + 1 - pos j = q + 1 := by omega
    refine Spec.ok ⟨by simp [hY1], ?_⟩
    rw [e2] at hY2 ⊢
    have hstay : subCol ((col j).take q) (x1 j) x1 j = x1 j := by
      refine subCol_of_not_mem _ _ _ _ ?_
      intro e he
      have := (h.rows j hj e (List.mem_of_mem_take he)).1
      omega
    rw [e3, List.take_add_one, hget, Option.toList_some, subCol_append, hstay]
    exact hY2.set (by omega) _
  · rintro Y ⟨h1, h2⟩
    have e2 : pos j + (col j).length - pos j = (col j).length := by omega
    rw [e2, List.take_length] at h2
    exact ⟨h1, h2⟩

theorem LDL_dsolve_spec {n : Nat} {X D : Buf K} {x d : Nat → K} (hX : Buf.Has X n x)
    (hD : Buf.Has D n d) : Spec (LDL_dsolve n X D) (fun X' => X'.length = X.length ∧
      Buf.Has X' n (dsolF d x)) := by
  unfold LDL_dsolve
  refine (forI_fill hX.le_length (dsolF d x) ?_).mono (fun _ h => ⟨h.1, h.2.1⟩)
  intro j b' hj _ _ hrest
  have : rd b' (j : Int) = .ok (x j) := rd_ok (by rw [hrest j le_rfl]; exact hX j hj)
  rw [this, ok_bind, hD.rd hj, ok_bind]
  rfl

theorem LDL_ltsolve_spec {n : Nat} {col : Nat → List (Nat × K)} {pos : Nat → Nat}
    {Lp Li : Buf Int} {Lx : Buf K} (h : LFac n col pos Lp Li Lx) {X : Buf K} {x : Nat → K}
    (hX : Buf.Has X n x) :
    Spec (LDL_ltsolve n X Lp Li Lx) (fun X' => X'.length = X.length ∧
      Buf.Has X' n (ltsolF col n x)) := by
  unfold LDL_ltsolve
  refine (forDown_spec (hi := n) (fun j (X' : Buf K) => X'.length = X.length ∧
    ∃ x', Buf.Has X' n x' ∧ ltsolF col j x' = ltsolF col n x) ⟨rfl, x, hX, rfl⟩ ?_).mono ?_
  · rintro j X1 hj ⟨hl, x1, hx, hxe⟩
    have e1 : ((j : Int) + 1) = ((j + 1 : Nat) : Int) := by omega
    rw [e1, h.lp.rd (by omega), ok_bind, h.lp.rd (by omega), ok_bind, h.posS j hj]
    refine (forI_spec (lo := pos j) (hi := pos j + (col j).length) (by omega)
      (fun p (Y : Buf K) => Y.length = X.length ∧
        Buf.Has Y n (Function.update x1 j (backAcc ((col j).take (p - pos j)) x1 (x1 j))))
      ⟨hl, by simpa [backAcc] using hx⟩ ?_).mono ?_
    · rintro p Y hp1 hp2 ⟨hY1, hY2⟩
      obtain ⟨q, rfl⟩ : ∃ q, p = pos j + q := ⟨p - pos j, by omega⟩
      have hq : q < (col j).length := by omega
      have hget : (col j)[q]? = some (col j)[q] := List.getElem?_eq_getElem hq
      obtain ⟨hc1, hc2⟩ := h.cells j hj q _ hget
      obtain ⟨hr1, hr2⟩ := h.rows j hj _ (List.getElem_mem hq)
      have hnX := hx.le_length
      rw [hY2.rd hj, ok_bind, rd_ok hc2, ok_bind, rd_ok hc1, ok_bind, hY2.rd hr2, ok_bind,
        wr_ok (by omega), Function.update_self, Function.update_of_ne (by omega)]
      have e2 : pos j + q - pos j = q := by omega
      have e3 : pos j + q + 1 - pos j = q + 1 := by omega
      refine Spec.ok ⟨by simp [hY1], ?_⟩
      rw [e2] at hY2 ⊢
      rw [e3, List.take_add_one, hget, Option.toList_some, backAcc_append]
      refine (hY2.set (by omega) _).congr ?_
      intro i _
      rw [Function.update_idem]
    · rintro Y ⟨h1, h2⟩
      have e2 : pos j + (col j).length - pos j = (col j).length := by omega
      rw [e2, List.take_length] at h2
      exact ⟨h1, _, h2, hxe⟩
  · rintro X' ⟨h1, x', h2, h3⟩
    refine ⟨h1, ?_⟩
    rw [← h3]
    exact h2

/-- Solution of the permuted system by the factorisation. -/
def solveF (n : Nat) (s : FSt K) (p q : Nat → Nat) (b : Nat → K) : Nat → K :=
  fun i => ltsolF s.col n (dsolF s.D (lsolF s.col n (fun i => b (p i)))) (q i)

theorem NumRep.lfac {C : Nat → List Nat} {n : Nat} {s : FSt K} {st : NumSt K}
    (h : NumRep C n n n [] s st) {Lp : Buf Int}
    (hLp : Buf.Has Lp (n + 1) (fun j => (lpOf C n j : Int))) :
    LFac n s.col (lpOf C n) Lp st.Li st.Lx where
  lp := hLp
  posS := by
    intro j _
    rw [lpOf_succ]
    have := congrArg List.length (h.rows j)
    simp only [List.not_mem_nil, if_false, List.append_nil, List.length_map] at this
    rw [this]
  cells := h.cells
  rows := by
    intro j _ e he
    have : e.1 ∈ (s.col j).map Prod.fst := List.mem_map_of_mem he
    rw [h.rows j] at this
    simp only [List.not_mem_nil, if_false, List.append_nil] at this
    have := mem_fillRows.mp this
    exact ⟨this.2.lt, this.1⟩

/-- Permute, solve, un-permute. -/
theorem solve_all_spec {n : Nat} {p q : Nat → Nat} (hp : PermPair n p q) {s : FSt K}
    {pos : Nat → Nat} {Lp Li : Buf Int} {Lx : Buf K} (h : LFac n s.col pos Lp Li Lx)
    {X B D : Buf K} {P : Buf Int} {b : Nat → K} (hX : n ≤ X.length) (hB : Buf.Has B n b)
    (hP : Buf.Has P n (fun i => (p i : Int))) (hD : Buf.Has D n s.D) :
    Spec (do
      let X ← LDL_perm n X B P
      let X ← LDL_lsolve n X Lp Li Lx
      let X ← LDL_dsolve n X D
      let X ← LDL_ltsolve n X Lp Li Lx
      let B ← LDL_permt n B X P
      pure (X, B)) (fun r => r.1.length = X.length ∧ r.2.length = B.length ∧
        Buf.Has r.1 n (fun i => solveF n s p q b (p i)) ∧
        Buf.Has r.2 n (solveF n s p q b) ∧ ∀ i, n ≤ i → r.2[i]? = B[i]?) := by
  refine Spec.bind (LDL_perm_spec hp.p_lt hX hP hB) ?_
  rintro X1 ⟨l1, h1, _⟩
  refine Spec.bind (LDL_lsolve_spec h h1) ?_
  rintro X2 ⟨l2, h2⟩
  refine Spec.bind (LDL_dsolve_spec h2 hD) ?_
  rintro X3 ⟨l3, h3⟩
  refine Spec.bind (LDL_ltsolve_spec h h3) ?_
  rintro X4 ⟨l4, h4⟩
  refine Spec.bind (LDL_permt_spec hp hB.le_length hP h4) ?_
  rintro B1 ⟨l5, h5, h6⟩
  refine Spec.ok ⟨by simp only; omega, l5, ?_, h5, h6⟩
  refine h4.congr ?_
  intro i hi
  simp only [solveF]
  rw [hp.qp i hi]

end

section

variable {K : Type} [Field K] [LinearOrder K] [IsStrictOrderedRing K] [Scalar K] [LawfulScalar K]

theorem backAcc_eq (l : List (Nat × K)) (X : Nat → K) (a : K) {n : Nat}
    (h : ∀ e ∈ l, e.1 < n) :
    backAcc l X a = a - ∑ i ∈ range n, colSum l i * X i := by
  induction l generalizing a with
  | nil => simp [backAcc, colSum]
  | cons e l ih =>
    have : backAcc (e :: l) X a = backAcc l X (a - e.2 * X e.1) := rfl
    rw [this, ih _ (fun e' he' => h e' (by simp [he']))]
    have h1 : ∑ i ∈ range n, colSum (e :: l) i * X i
        = e.2 * X e.1 + ∑ i ∈ range n, colSum l i * X i := by
      have h2 : ∀ i ∈ range n, colSum (e :: l) i * X i
          = (if i = e.1 then e.2 * X e.1 else 0) + colSum l i * X i := by
        intro i _
        rw [colSum_cons]
        by_cases hi : e.1 = i
        · subst hi; simp; ring
        · rw [if_neg hi, if_neg (fun e' => hi e'.symm)]
          ring
      rw [sum_congr rfl h2, sum_add_distrib, sum_ite_eq' (range n) e.1,
        if_pos (mem_range.mpr (h e (by simp)))]
    rw [h1]
    ring

theorem lsolF_eq {n : Nat} {col : Nat → List (Nat × K)}
    (h : ∀ j, j < n → ∀ e ∈ col j, j < e.1) (x : Nat → K) (r : Nat) :
    lsolF col n x r + ∑ t ∈ range n, colSum (col t) r * lsolF col n x t = x r := by
  have key : ∀ k, k ≤ n → ∀ r, foldI 0 k x (fun j X => subCol (col j) (X j) X) r
      + ∑ t ∈ range k, colSum (col t) r
        * foldI 0 k x (fun j X => subCol (col j) (X j) X) t = x r := by
    intro k
    induction k with
    | zero => intro _ r; simp
    | succ k ih =>
      intro hk r
      set X := foldI 0 k x (fun j X => subCol (col j) (X j) X) with hX
      have e1 : foldI 0 (k + 1) x (fun j X => subCol (col j) (X j) X) = subCol (col k) (X k) X := by
        rw [foldI_succ (Nat.zero_le k)]
      have e2 : ∀ t, t ≤ k → subCol (col k) (X k) X t = X t := by
        intro t ht
        refine subCol_of_not_mem _ _ _ _ ?_
        intro e he
        have := h k (by omega) e he
        omega
      rw [e1, sum_range_succ, e2 k le_rfl, subCol_eq, ← ih (by omega) r]
      have e3 : ∑ t ∈ range k, colSum (col t) r * subCol (col k) (X k) X t
          = ∑ t ∈ range k, colSum (col t) r * X t := by
        refine sum_congr rfl ?_
        intro t ht
        rw [mem_range] at ht
        rw [e2 t (by omega)]
      rw [e3]
      ring
  exact key n le_rfl r

theorem ltsolF_eq {n : Nat} {col : Nat → List (Nat × K)}
    (h : ∀ j, j < n → ∀ e ∈ col j, j < e.1 ∧ e.1 < n) (x : Nat → K) {j : Nat} (hj : j < n) :
    ltsolF col n x j + ∑ i ∈ range n, colSum (col j) i * ltsolF col n x i = x j := by
  have ge : ∀ k X j, k ≤ j → ltsolF col k X j = X j := by
    intro k
    induction k with
    | zero => intro X j _; rfl
    | succ k ih =>
      intro X j hj
      show ltsolF col k _ j = X j
      rw [ih _ j (by omega), Function.update_of_ne (by omega)]
  have key : ∀ k, k ≤ n → ∀ X j, j < k →
      ltsolF col k X j + ∑ i ∈ range n, colSum (col j) i * ltsolF col k X i = X j := by
    intro k
    induction k with
    | zero => intro _ X j hj; omega
    | succ k ih =>
      intro hk X j hj
      show ltsolF col k (Function.update X k (backAcc (col k) X (X k))) j + _ = X j
      set X1 := Function.update X k (backAcc (col k) X (X k)) with hX1
      have e0 : ∀ i, ltsolF col (k + 1) X i = ltsolF col k X1 i := fun i => rfl
      simp only [e0]
      rcases Nat.lt_or_ge j k with hjk | hjk
      · rw [ih (by omega) X1 j hjk, hX1, Function.update_of_ne (by omega)]
      · have hjk' : j = k := by omega
        subst hjk'
        rw [ge j X1 j le_rfl]
        have e1 : ∑ i ∈ range n, colSum (col j) i * ltsolF col j X1 i
            = ∑ i ∈ range n, colSum (col j) i * X i := by
          refine sum_congr rfl ?_
          intro i _
          rcases Nat.lt_or_ge j i with hji | hji
          · rw [ge j X1 i (by omega), hX1, Function.update_of_ne (by omega)]
          · rw [colSum_eq_zero (l := col j) (r := i) (by
              intro e he
              have := (h j (by omega) e he).1
              omega), zero_mul, zero_mul]
        rw [e1, hX1, Function.update_self,
          backAcc_eq _ _ _ (fun e he => (h j (by omega) e he).2)]
        ring
  exact key n le_rfl x j hj

theorem lent_sum_left {n : Nat} (s : FSt K) (h : ∀ j, j < n → ∀ e ∈ s.col j, j < e.1)
    (v : Nat → K) {r : Nat} (hr : r < n) :
    ∑ t ∈ range n, lent s r t * v t = v r + ∑ t ∈ range n, colSum (s.col t) r * v t := by
  have h1 : ∀ t ∈ range n, lent s r t * v t
      = (if t = r then v r else 0) + colSum (s.col t) r * v t := by
    intro t ht
    rw [mem_range] at ht
    unfold lent
    by_cases hrt : r = t
    · subst hrt
      rw [if_pos rfl, if_pos rfl, colSum_eq_zero (by
        intro e he
        have := h r ht e he
        omega)]
      ring
    · rw [if_neg hrt, if_neg (fun e => hrt e.symm)]
      ring
  rw [sum_congr rfl h1, sum_add_distrib, sum_ite_eq' (range n) r, if_pos (mem_range.mpr hr)]

theorem lent_sum_right {n : Nat} (s : FSt K) (h : ∀ j, j < n → ∀ e ∈ s.col j, j < e.1)
    (v : Nat → K) {j : Nat} (hj : j < n) :
    ∑ i ∈ range n, lent s i j * v i = v j + ∑ i ∈ range n, colSum (s.col j) i * v i := by
  have h1 : ∀ i ∈ range n, lent s i j * v i
      = (if i = j then v j else 0) + colSum (s.col j) i * v i := by
    intro i hi
    rw [mem_range] at hi
    unfold lent
    by_cases hrt : i = j
    · subst hrt
      rw [if_pos rfl, if_pos rfl, colSum_eq_zero (by
        intro e he
        have := h i hi e he
        omega)]
      ring
    · rw [if_neg hrt, if_neg hrt]
      ring
  rw [sum_congr rfl h1, sum_add_distrib, sum_ite_eq' (range n) j, if_pos (mem_range.mpr hj)]

/-- Entry of `L D Lᵀ`. -/
def ldlEntry (n : Nat) (s : FSt K) (i r : Nat) : K :=
  ∑ t ∈ range n, lent s i t * s.D t * lent s r t

theorem ldlEntry_comm (n : Nat) (s : FSt K) (i r : Nat) : ldlEntry n s i r = ldlEntry n s r i := by
  unfold ldlEntry
  refine sum_congr rfl ?_
  intro t _
  ring

/-- The solves invert `L D Lᵀ`. -/
theorem solve_ldl {n : Nat} {s : FSt K} (h : ∀ j, j < n → ∀ e ∈ s.col j, j < e.1 ∧ e.1 < n)
    (hD : ∀ j, j < n → s.D j ≠ 0) (b : Nat → K) {i : Nat} (hi : i < n) :
    ∑ r ∈ range n, ldlEntry n s i r * ltsolF s.col n (dsolF s.D (lsolF s.col n b)) r = b i := by
  set u := lsolF s.col n b with hu
  set w := dsolF s.D u with hw
  set v := ltsolF s.col n w with hv
  have h' : ∀ j, j < n → ∀ e ∈ s.col j, j < e.1 := fun j hj e he => (h j hj e he).1
  have e1 : ∑ r ∈ range n, ldlEntry n s i r * v r
      = ∑ t ∈ range n, lent s i t * (s.D t * ∑ r ∈ range n, lent s r t * v r) := by
    unfold ldlEntry
    simp only [sum_mul, mul_sum]
    rw [sum_comm]
    refine sum_congr rfl ?_
    intro t _
    refine sum_congr rfl ?_
    intro r _
    ring
  rw [e1]
  have e2 : ∀ t ∈ range n, lent s i t * (s.D t * ∑ r ∈ range n, lent s r t * v r)
      = lent s i t * u t := by
    intro t ht
    rw [mem_range] at ht
    rw [lent_sum_right s h' v ht, hv, ltsolF_eq h w ht, hw]
    unfold dsolF
    rw [mul_div_cancel₀ _ (hD t ht)]
  rw [sum_congr rfl e2, lent_sum_left s h' u hi, hu, lsolF_eq h' b i]

/-- `L D Lᵀ` is injective. -/
theorem ldl_injective {n : Nat} {s : FSt K} (h : ∀ j, j < n → ∀ e ∈ s.col j, j < e.1)
    (hD : ∀ j, j < n → s.D j ≠ 0) {v : Nat → K}
    (hv : ∀ i, i < n → ∑ r ∈ range n, ldlEntry n s i r * v r = 0) :
    ∀ r, r < n → v r = 0 := by
  -- `g t = (Lᵀ v) t`
  set g : Nat → K := fun t => ∑ r ∈ range n, lent s r t * v r with hg
  have e1 : ∀ i, i < n → ∑ t ∈ range n, lent s i t * (s.D t * g t) = 0 := by
    intro i hi
    rw [← hv i hi]
    unfold ldlEntry
    simp only [hg, sum_mul, mul_sum]
    rw [sum_comm]
    refine sum_congr rfl ?_
    intro t _
    refine sum_congr rfl ?_
    intro r _
    ring
  have z1 : ∀ t, t < n → s.D t * g t = 0 := by
    intro t
    induction t using Nat.strong_induction_on with
    | _ t ih =>
      intro ht
      have h1 := e1 t ht
      rw [lent_sum_left s h _ ht] at h1
      rw [sum_eq_zero, add_zero] at h1
      · exact h1
      · intro t' ht'
        rw [mem_range] at ht'
        rcases Nat.lt_or_ge t' t with hlt | hge
        · rw [ih t' hlt ht', mul_zero]
        · rw [colSum_eq_zero (by
            intro e he
            have := h t' ht' e he
            omega), zero_mul]
  have z2 : ∀ t, t < n → g t = 0 := fun t ht =>
    (mul_eq_zero.mp (z1 t ht)).resolve_left (hD t ht)
  have z3 : ∀ d r, r + d + 1 = n → v r = 0 := by
    intro d
    induction d using Nat.strong_induction_on with
    | _ d ih =>
      intro r hr
      have h1 := z2 r (by omega)
      simp only [hg] at h1
      rw [lent_sum_right s h v (by omega), sum_eq_zero, add_zero] at h1
      · exact h1
      · intro i hi
        rw [mem_range] at hi
        rcases Nat.lt_or_ge r i with hlt | hge
        · rw [ih (n - 1 - i) (by omega) i (by omega), mul_zero]
        · rw [colSum_eq_zero (by
            intro e he
            have := h r (by omega) e he
            omega), zero_mul]
  intro r hr
  exact z3 (n - 1 - r) r (by omega)

theorem RowsInv.lower {c : Nat → List (Nat × K)} {n : Nat} {s : FSt K} {raw : Nat → K}
    (h : RowsInv c n s raw) : ∀ j, ∀ e ∈ s.col j, j < e.1 ∧ e.1 < n := by
  intro j e he
  have : e.1 ∈ (s.col j).map Prod.fst := List.mem_map_of_mem he
  rw [h.rows j] at this
  have := mem_fillRows.mp this
  exact ⟨this.2.lt, this.1⟩

theorem RowsInv.D_ne {c : Nat → List (Nat × K)} {n : Nat} {s : FSt K} {raw : Nat → K}
    (h : RowsInv c n s raw) : ∀ j, j < n → s.D j ≠ 0 := by
  intro j hj
  rw [h.D j hj]
  exact regPivot_ne_zero _

theorem RowsInv.entry {c : Nat → List (Nat × K)} {n : Nat} {s : FSt K} {raw : Nat → K}
    (h : RowsInv c n s raw) {i r : Nat} (hir : i ≤ r) (hr : r < n) :
    ldlEntry n s i r = colSum (c r) i + if i = r then s.D r - raw r else 0 := by
  rw [h.D r hr, ← h.ldl r hr i hir]
  unfold ldlEntry
  symm
  refine sum_subset ?_ ?_
  · intro t ht
    rw [mem_range] at ht ⊢
    omega
  · intro t _ ht
    rw [mem_range, not_lt] at ht
    rw [lent_zero h.rows (by omega)]
    ring

theorem colSum_permCol {n : Nat} {A : Csc K} (hA : A.WF) (hAn : A.n = n) (hAm : A.m = n)
    {p q : Nat → Nat} (hp : PermPair n p q) {i k : Nat} (hi : i < n) (hk : k < n) :
    colSum (permCol A p q k) i = A.entry (p i) (p k) := by
  rw [Csc.entry_eq_colSum]
  have hlt : ∀ e ∈ A.col (p k), e.1 < n := by
    intro e he
    have := hA.col_lt (c := p k) (by have := hp.p_lt k hk; omega) he
    omega
  unfold permCol
  revert hlt
  generalize A.col (p k) = l
  intro hlt
  induction l with
  | nil => rfl
  | cons e l ih =>
    rw [List.map_cons, colSum_cons, colSum_cons, ih (fun e' he' => hlt e' (by simp [he']))]
    congr 1
    have he := hlt e (by simp)
    by_cases h : q e.1 = i
    · subst h
      simp [hp.pq e.1 he]
    · have : ¬ e.1 = p i := by
        intro h2
        exact h (by rw [h2, hp.qp i hi])
      simp [h, this]

/-- Reindexing by a permutation. -/
theorem sum_perm {n : Nat} {p q : Nat → Nat} (hp : PermPair n p q) (f : Nat → K) :
    ∑ r ∈ range n, f (p r) = ∑ c ∈ range n, f c := by
  refine sum_bij' (fun r _ => p r) (fun c _ => q c) ?_ ?_ ?_ ?_ ?_
  · intro r hr; rw [mem_range] at hr ⊢; exact hp.p_lt r hr
  · intro c hc; rw [mem_range] at hc ⊢; exact hp.q_lt c hc
  · intro r hr; rw [mem_range] at hr; exact hp.qp r hr
  · intro c hc; rw [mem_range] at hc; exact hp.pq c hc
  · intro r _; rfl

/-- Diagonal change in original numbering. -/
def regDiag (s : FSt K) (raw : Nat → K) (q : Nat → Nat) (r : Nat) : K := s.D (q r) - raw (q r)

/-- The whole solve: `(A + E) x = b`. -/
theorem RowsInv.solve {n : Nat} {A : Csc K} (hA : A.WF) (hAn : A.n = n) (hAm : A.m = n)
    {p q : Nat → Nat} (hp : PermPair n p q)
    (hsym : ∀ r c, r < n → c < n → A.entry r c = A.entry c r) {s : FSt K} {raw : Nat → K}
    (h : RowsInv (permCol A p q) n s raw) (b : Nat → K) {r : Nat} (hr : r < n) :
    ∑ c ∈ range n, A.entry r c * solveF n s p q b c + regDiag s raw q r * solveF n s p q b r
      = b r := by
  have hqr := hp.q_lt r hr
  have h1 := solve_ldl (s := s) (fun j _ => h.lower j) h.D_ne (fun i => b (p i)) hqr
  rw [hp.pq r hr] at h1
  rw [← h1]
  set v := ltsolF s.col n (dsolF s.D (lsolF s.col n (fun i => b (p i)))) with hv
  have e : ∀ i k, i < n → k < n → ldlEntry n s i k = A.entry (p i) (p k)
      + if i = k then s.D k - raw k else 0 := by
    intro i k hi hk
    rcases Nat.le_total i k with hik | hik
    · rw [h.entry hik hk, colSum_permCol hA hAn hAm hp hi hk]
    · rw [ldlEntry_comm, h.entry hik hi, colSum_permCol hA hAn hAm hp hk hi,
        hsym _ _ (hp.p_lt k hk) (hp.p_lt i hi)]
      by_cases hik' : i = k
      · subst hik'; simp
      · rw [if_neg hik', if_neg (fun e => hik' e.symm)]
  have h2 : ∀ k ∈ range n, ldlEntry n s (q r) k * v k
      = A.entry r (p k) * solveF n s p q b (p k)
        + if k = q r then regDiag s raw q r * solveF n s p q b r else 0 := by
    intro k hk
    rw [mem_range] at hk
    rw [e _ _ hqr hk, hp.pq r hr]
    have e3 : solveF n s p q b (p k) = v k := by
      unfold solveF
      rw [hp.qp k hk]
    rw [e3]
    by_cases hkq : k = q r
    · subst hkq
      rw [if_pos rfl, if_pos rfl]
      have e4 : solveF n s p q b r = v (q r) := rfl
      rw [e4]
      unfold regDiag
      ring
    · rw [if_neg (fun e => hkq e.symm), if_neg hkq]
      ring
  rw [sum_congr rfl h2, sum_add_distrib, sum_ite_eq' (range n) (q r), if_pos (mem_range.mpr hqr)]
  congr 1
  exact (sum_perm hp (fun c => A.entry r c * solveF n s p q b c)).symm

/-- Without regularisation the matrix is injective. -/
theorem RowsInv.injective {n : Nat} {A : Csc K} (hA : A.WF) (hAn : A.n = n) (hAm : A.m = n)
    {p q : Nat → Nat} (hp : PermPair n p q)
    (hsym : ∀ r c, r < n → c < n → A.entry r c = A.entry c r) {s : FSt K} {raw : Nat → K}
    (h : RowsInv (permCol A p q) n s raw) (hreg : ∀ r, r < n → regDiag s raw q r = 0)
    {v : Nat → K} (hv : ∀ r, r < n → ∑ c ∈ range n, A.entry r c * v c = 0) :
    ∀ r, r < n → v r = 0 := by
  have key := ldl_injective (s := s) (fun j _ e he => (h.lower j e he).1) h.D_ne
    (v := fun k => v (p k)) (by
      intro i hi
      rw [← hv (p i) (hp.p_lt i hi), ← sum_perm hp (fun c => A.entry (p i) c * v c)]
      refine sum_congr rfl ?_
      intro k hk
      rw [mem_range] at hk
      congr 1
      rcases Nat.le_total i k with hik | hik
      · rw [h.entry hik hk, colSum_permCol hA hAn hAm hp hi hk]
        have := hreg (p k) (hp.p_lt k hk)
        unfold regDiag at this
        rw [hp.qp k hk] at this
        rw [this]
        simp
      · rw [ldlEntry_comm, h.entry hik hi, colSum_permCol hA hAn hAm hp hk hi,
          hsym _ _ (hp.p_lt k hk) (hp.p_lt i hi)]
        have := hreg (p i) (hp.p_lt i hi)
        unfold regDiag at this
        rw [hp.qp i hi] at this
        rw [this]
        simp)
  intro r hr
  have := key (q r) (hp.q_lt r hr)
  simpa [hp.pq r hr] using this

end

end Verif
