import Verif.Lemmas.LdlNum
import Verif.Lemmas.Steps
import Mathlib.Algebra.BigOperators.Ring.Finset
import Mathlib.Tactic.FieldSimp
import Mathlib.Tactic.Ring

/-! # The factorisation in exact arithmetic -/

set_option linter.unusedSectionVars false

namespace Verif

open Finset

section

variable {K : Type} [Field K] [LinearOrder K] [IsStrictOrderedRing K] [Scalar K] [LawfulScalar K]

/-! ## Pivots -/

theorem dec_pow (m : Int) (e : Nat) : (Scalar.dec m e : K) = (m : K) / 10 ^ e :=
  LawfulScalar.dec_eq m e

theorem regPivot_eq (d : K) : regPivot d =
    if |d| ≤ 1 / 10 ^ 14 then (if d ≤ 0 then -(1 / 10 ^ 7) else 1 / 10 ^ 7) else d := by
  unfold regPivot
  simp only [leb_eq, dec_pow, decide_eq_true_eq]
  by_cases h : d ≤ 0
  · simp only [h, if_true]
    rw [abs_of_nonpos h]
    norm_num
  · simp only [h, if_false]
    rw [abs_of_pos (not_le.mp h)]
    norm_num

theorem regPivot_abs (d : K) : (1 : K) / 10 ^ 14 < |regPivot d| := by
  rw [regPivot_eq]
  have h7 : (0 : K) < 1 / 10 ^ 7 := by positivity
  have h : (1 : K) / 10 ^ 14 < 1 / 10 ^ 7 := by
    norm_num
  split
  · split
    · rw [abs_neg, abs_of_pos h7]; exact h
    · rw [abs_of_pos h7]; exact h
  · rename_i hd
    exact not_le.mp hd

theorem regPivot_ne_zero (d : K) : regPivot d ≠ 0 := by
  have h := regPivot_abs d
  intro h0
  rw [h0, abs_zero] at h
  have : (0 : K) < 1 / 10 ^ 14 := by positivity
  linarith

theorem regPivot_of_abs {d : K} (h : (1 : K) / 10 ^ 14 < |d|) : regPivot d = d := by
  rw [regPivot_eq, if_neg (not_le.mpr h)]

/-! ## Columns -/

theorem subCol_eq (l : List (Nat × K)) (yi : K) (Y : Nat → K) (r : Nat) :
    subCol l yi Y r = Y r - colSum l r * yi := by
  induction l generalizing Y with
  | nil => simp [subCol, colSum]
  | cons e l ih =>
    have : subCol (e :: l) yi Y = subCol l yi (Function.update Y e.1 (Y e.1 - e.2 * yi)) := rfl
    rw [this, ih, colSum_cons]
    by_cases h : e.1 = r
    · subst h
      rw [Function.update_self, if_pos rfl]
      ring
    · rw [Function.update_of_ne (fun e' => h e'.symm), if_neg h]
      ring

theorem addCol_eq (k : Nat) (l : List (Nat × K)) (Y : Nat → K) {r : Nat} (hr : r ≤ k) :
    addCol k l Y r = Y r + colSum l r := by
  induction l generalizing Y with
  | nil => simp [addCol, colSum]
  | cons e l ih =>
    have : addCol k (e :: l) Y =
        addCol k l (if e.1 ≤ k then Function.update Y e.1 (Y e.1 + e.2) else Y) := rfl
    rw [this, ih, colSum_cons]
    by_cases h : e.1 = r
    · subst h
      rw [if_pos hr, Function.update_self, if_pos rfl]
      ring
    · rw [if_neg h]
      by_cases h2 : e.1 ≤ k
      · rw [if_pos h2, Function.update_of_ne (fun e' => h e'.symm)]
        ring
      · rw [if_neg h2]
        ring

theorem addCol_gt (k : Nat) (l : List (Nat × K)) (Y : Nat → K) {r : Nat} (hr : k < r) :
    addCol k l Y r = Y r := by
  induction l generalizing Y with
  | nil => rfl
  | cons e l ih =>
    have : addCol k (e :: l) Y =
        addCol k l (if e.1 ≤ k then Function.update Y e.1 (Y e.1 + e.2) else Y) := rfl
    rw [this, ih]
    by_cases h2 : e.1 ≤ k
    · rw [if_pos h2, Function.update_of_ne (by omega)]
    · rw [if_neg h2]

theorem colSum_of_rows {l : List (Nat × K)} {R : List Nat} (h : l.map Prod.fst = R) {r : Nat}
    (hr : r ∉ R) : colSum l r = 0 := by
  refine colSum_eq_zero ?_
  intro e he heq
  apply hr
  rw [← h, ← heq]
  exact List.mem_map_of_mem he

/-- Entry of the unit lower triangular factor. -/
def lent (s : FSt K) (i j : Nat) : K := if i = j then 1 else colSum (s.col j) i

/-! ## One row -/

variable {c : Nat → List (Nat × K)}

/-- Row indices of the columns given by `c`. -/
abbrev patOf (c : Nat → List (Nat × K)) : Nat → List Nat := fun i => (c i).map Prod.fst

open Classical in
/-- State while row `k` is processed; `y` are the values of the row (times the pivots). -/
structure NodeInv (c : Nat → List (Nat × K)) (k : Nat) (s0 : FSt K) (done : List Nat) (s : FSt K)
    (y : Nat → K) : Prop where
  col : ∀ j, s.col j = s0.col j ++ if j ∈ done then [(k, y j / s0.D j)] else []
  D : ∀ j, j ≠ k → s.D j = s0.D j
  Dk : s.D k = s0.D k - ∑ t ∈ range k, y t / s0.D t * y t
  supp : ∀ j, j ∉ done → y j = 0
  Y : ∀ r, r < k → (if r ∈ done then y r else s.Y r)
    + ∑ t ∈ range k, colSum (s0.col t) r * y t = s0.Y r
  Yz : ∀ r, r < k → (r ∈ done ∨ ¬ Fill (patOf c) k r) → s.Y r = 0

theorem sum_update {k i : Nat} (hi : i < k) (f y : Nat → K) (v : K) (hy : y i = 0) :
    ∑ t ∈ range k, f t * Function.update y i v t = ∑ t ∈ range k, f t * y t + f i * v := by
  have h1 : ∀ t ∈ range k, f t * Function.update y i v t
      = f t * y t + (if t = i then f i * v else 0) := by
    intro t _
    by_cases h : t = i
    · subst h; simp [hy]
    · simp [h]
  rw [sum_congr rfl h1, sum_add_distrib, sum_ite_eq' (range k) i, if_pos (mem_range.mpr hi)]

theorem sum_update_sq {k i : Nat} (hi : i < k) (d y : Nat → K) (v : K) (hy : y i = 0) :
    ∑ t ∈ range k, Function.update y i v t / d t * Function.update y i v t
      = ∑ t ∈ range k, y t / d t * y t + v / d i * v := by
  have h1 : ∀ t ∈ range k, Function.update y i v t / d t * Function.update y i v t
      = y t / d t * y t + (if t = i then v / d i * v else 0) := by
    intro t _
    by_cases h : t = i
    · subst h; simp [hy]
    · simp [h]
  rw [sum_congr rfl h1, sum_add_distrib, sum_ite_eq' (range k) i, if_pos (mem_range.mpr hi)]

theorem NodeInv.step {k : Nat} {s0 s : FSt K} {done : List Nat} {y : Nat → K}
    (h : NodeInv c k s0 done s y) (hrows : ∀ j, (s0.col j).map Prod.fst = fillRows (patOf c) k j)
    {i : Nat} (hi : Fill (patOf c) k i) (hid : i ∉ done)
    (hord : ∀ a ∈ done, ¬ Fill (patOf c) a i) :
    NodeInv c k s0 (done ++ [i]) (nodeF k s i) (Function.update y i (s.Y i)) := by
  have hik := hi.lt
  have hy0 : y i = 0 := h.supp i hid
  have hcoli : s.col i = s0.col i := by rw [h.col i, if_neg hid, List.append_nil]
  have hDi : s.D i = s0.D i := h.D i (by omega)
  have hz : ∀ r, ¬ Fill (patOf c) r i → colSum (s0.col i) r = 0 := fun r hr =>
    colSum_of_rows (hrows i) (fun hm => hr (mem_fillRows.mp hm).2)
  refine ⟨?_, ?_, ?_, ?_, ?_, ?_⟩
  · intro j
    by_cases hj : j = i
    · subst hj
      simp only [nodeF, Function.update_self]
      rw [hcoli, if_pos (by simp), hDi]
    · simp only [nodeF, Function.update_of_ne hj]
      rw [h.col j]
      congr 1
      simp [hj]
  · intro j hj
    simp only [nodeF, Function.update_of_ne hj]
    exact h.D j hj
  · simp only [nodeF, Function.update_self]
    rw [h.Dk, sum_update_sq hik s0.D y _ hy0, hDi]
    ring
  · intro j hj
    simp only [List.mem_append, List.mem_singleton, not_or] at hj
    rw [Function.update_of_ne hj.2]
    exact h.supp j hj.1
  · intro r hr
    rw [sum_update hik (fun t => colSum (s0.col t) r) y _ hy0]
    have hY := h.Y r hr
    by_cases hri : r = i
    · subst hri
      rw [if_pos (by simp), Function.update_self, hz r (fun hf => absurd hf.lt (lt_irrefl _))]
      rw [if_neg hid] at hY
      rw [← hY]
      ring
    · rw [Function.update_of_ne hri]
      by_cases hrd : r ∈ done
      · rw [if_pos (by simp [hrd]), hz r (hord r hrd)]
        rw [if_pos hrd] at hY
        rw [← hY]
        ring
      · rw [if_neg (by simp [hrd, hri])]
        rw [if_neg hrd] at hY
        simp only [nodeF]
        rw [subCol_eq, hcoli, Function.update_of_ne hri, ← hY]
        ring
  · intro r hr hor
    simp only [nodeF]
    rw [subCol_eq, hcoli]
    by_cases hri : r = i
    · subst hri
      rw [Function.update_self, hz r (fun hf => absurd hf.lt (lt_irrefl _))]
      ring
    · rw [Function.update_of_ne hri]
      have hor' : r ∈ done ∨ ¬ Fill (patOf c) k r := by
        rcases hor with hor | hor
        · simp only [List.mem_append, List.mem_singleton, hri, or_false] at hor
          exact Or.inl hor
        · exact Or.inr hor
      rw [h.Yz r hr hor']
      have hnf : ¬ Fill (patOf c) r i := by
        intro hf
        rcases hor' with hor' | hor'
        · exact hord r hor' hf
        · exact hor' (Fill.step hf.lt hr hi hf)
      rw [hz r hnf]
      ring

theorem NodeInv.fold {k : Nat} {s0 : FSt K} {T : List Nat} (hT : Topo (patOf c) k T)
    (hrows : ∀ j, (s0.col j).map Prod.fst = fillRows (patOf c) k j)
    (hz : ∀ r, r < k → ¬ Fill (patOf c) k r → s0.Y r = 0) :
    ∃ y, NodeInv c k s0 T (T.foldl (nodeF k) s0) y := by
  have key : ∀ x, x ≤ T.length →
      ∃ y, NodeInv c k s0 (T.take x) ((T.take x).foldl (nodeF k) s0) y := by
    intro x
    induction x with
    | zero =>
      intro _
      refine ⟨fun _ => 0, ?_, fun _ _ => rfl, by simp, fun _ _ => rfl, by simp, ?_⟩
      · intro j; simp
      · rintro r hr (hor | hor)
        · simp at hor
        · exact hz r hr hor
    | succ x ih =>
      intro hx
      obtain ⟨y, hy⟩ := ih (by omega)
      have hg : T[x]? = some T[x] := List.getElem?_eq_getElem (by omega)
      rw [List.take_add_one, hg, Option.toList_some, List.foldl_append]
      refine ⟨_, hy.step hrows ((hT.mem _).mp (List.getElem_mem (by omega))) ?_ ?_⟩
      · intro hmem
        obtain ⟨z, hz1, hz2⟩ := List.mem_take_iff_getElem.mp hmem
        have := (List.Nodup.getElem_inj_iff hT.nodup).mp hz2
        omega
      · intro a ha
        obtain ⟨z, hz1, rfl⟩ := List.mem_take_iff_getElem.mp ha
        exact List.pairwise_iff_getElem.mp hT.order z x (by omega) (by omega) (by omega)
  have := key T.length le_rfl
  rwa [List.take_length] at this

/-! ## All rows -/

/-- What is known after `k` rows. `raw` are the pivots before regularisation. -/
structure RowsInv (c : Nat → List (Nat × K)) (k : Nat) (s : FSt K) (raw : Nat → K) : Prop where
  rows : ∀ j, (s.col j).map Prod.fst = fillRows (patOf c) k j
  Y : ∀ r, r < k → s.Y r = 0
  D : ∀ r, r < k → s.D r = regPivot (raw r)
  ldl : ∀ r, r < k → ∀ i, i ≤ r →
    ∑ t ∈ range (i + 1), lent s i t * s.D t * lent s r t
      = colSum (c r) i + if i = r then regPivot (raw r) - raw r else 0

theorem lent_zero {s : FSt K} {k : Nat} (h : ∀ j, (s.col j).map Prod.fst = fillRows (patOf c) k j)
    {i j : Nat} (hij : i < j) : lent s i j = 0 := by
  unfold lent
  rw [if_neg (by omega)]
  refine colSum_of_rows (h j) ?_
  intro hm
  have := (mem_fillRows.mp hm).2.lt
  omega

/-- One more row, its entries processed in any admissible order. -/
theorem RowsInv.step {k : Nat} {s : FSt K} {raw : Nat → K} (ih : RowsInv c k s raw) {T : List Nat}
    (hT : Topo (patOf c) k T) :
    ∃ v, RowsInv c (k + 1) (rowF k (c k) T s) (Function.update raw k v) := by
  have hrows : ∀ j, ((rowInit k (c k) s).col j).map Prod.fst = fillRows (patOf c) k j := ih.rows
  have hY0 : ∀ r, r < k → (rowInit k (c k) s).Y r = colSum (c k) r := by
    intro r hr
    simp only [rowInit]
    rw [Function.update_of_ne (by omega), addCol_eq k _ _ (by omega),
      Function.update_of_ne (by omega), ih.Y r hr, zero_add]
  obtain ⟨y, hy⟩ := NodeInv.fold (s0 := rowInit k (c k) s) hT hrows (by
    intro r hr hf
    rw [hY0 r hr]
    exact colSum_of_rows (R := (c k).map Prod.fst) rfl (fun hm => hf (Fill.base hm hr)))
  set s2 := T.foldl (nodeF k) (rowInit k (c k) s) with hs2
  have hcol0 : (rowInit k (c k) s).col = s.col := rfl
  have hD0 : ∀ j, j ≠ k → (rowInit k (c k) s).D j = s.D j := by
    intro j hj
    simp only [rowInit]
    rw [Function.update_of_ne hj]
  have hDk0 : (rowInit k (c k) s).D k = colSum (c k) k := by
    simp only [rowInit]
    rw [Function.update_self, addCol_eq k _ _ le_rfl, Function.update_self, zero_add]
  -- the new state
  set s3 := rowF k (c k) T s with hs3
  have hc3 : s3.col = s2.col := rfl
  have hD3 : ∀ j, j ≠ k → s3.D j = s.D j := by
    intro j hj
    simp only [hs3, rowF]
    rw [Function.update_of_ne hj, ← hs2, hy.D j hj, hD0 j hj]
  have hD3k : s3.D k = regPivot (s2.D k) := by
    simp only [hs3, rowF]
    rw [Function.update_self]
  have hrows3 : ∀ j, (s3.col j).map Prod.fst = fillRows (patOf c) (k + 1) j := by
    intro j
    rw [hc3, hy.col j, List.map_append, hrows j]
    by_cases hf : Fill (patOf c) k j
    · rw [if_pos ((hT.mem j).mpr hf), fillRows_succ_of hf]
      simp
    · rw [if_neg (fun hm => hf ((hT.mem j).mp hm)), fillRows_succ_not hf]
      simp
  have hold : ∀ i j, i < k → lent s3 i j = lent s i j := by
    intro i j hi
    unfold lent
    split
    · rfl
    · rw [hc3, hy.col j, hcol0, colSum_append]
      split
      · rw [colSum_cons, if_neg (by simp only; omega), colSum_nil]
        simp
      · rw [colSum_nil, add_zero]
  have hDne : ∀ t, t < k → s.D t ≠ 0 := by
    intro t ht
    rw [ih.D t ht]
    exact regPivot_ne_zero _
  have hnew : ∀ t, t < k → lent s3 k t = y t / s.D t := by
    intro t ht
    unfold lent
    rw [if_neg (by omega), hc3, hy.col t, hcol0, colSum_append]
    rw [colSum_of_rows (ih.rows t) (fun hm => absurd (mem_fillRows.mp hm).1 (lt_irrefl _)),
      zero_add]
    by_cases hm : t ∈ T
    · rw [if_pos hm, colSum_cons, if_pos rfl, colSum_nil, add_zero, hD0 t (by omega)]
    · rw [if_neg hm, colSum_nil, hy.supp t hm]
      simp
  -- row equations
  have hrow : ∀ r, r < k → y r + ∑ t ∈ range r, lent s r t * y t = colSum (c k) r := by
    intro r hr
    have h1 := hy.Y r hr
    rw [hY0 r hr, hcol0] at h1
    have h2 : (if r ∈ T then y r else s2.Y r) = y r := by
      by_cases hm : r ∈ T
      · rw [if_pos hm]
      · rw [if_neg hm, hy.supp r hm, hy.Yz r hr (Or.inr (fun hf => hm ((hT.mem r).mpr hf)))]
    rw [h2] at h1
    rw [← h1]
    congr 1
    have h3 : ∀ t, r ≤ t → colSum (s.col t) r = 0 := by
      intro t ht
      refine colSum_of_rows (ih.rows t) ?_
      intro hm
      have := (mem_fillRows.mp hm).2.lt
      omega
    rw [← sum_subset (s₁ := range r) (s₂ := range k)
      (f := fun t => colSum (s.col t) r * y t) (by
        intro t ht
        simp only [mem_range] at ht ⊢
        omega) (by
        intro t _ ht2
        simp only [mem_range, not_lt] at ht2
        rw [h3 t ht2, zero_mul])]
    refine sum_congr rfl ?_
    intro t ht
    rw [mem_range] at ht
    unfold lent
    rw [if_neg (by omega)]
  refine ⟨s2.D k, hrows3, ?_, ?_, ?_⟩
  · intro r hr
    show s2.Y r = 0
    rcases Nat.lt_or_ge r k with hrk | hrk
    · by_cases hm : r ∈ T
      · exact hy.Yz r hrk (Or.inl hm)
      · exact hy.Yz r hrk (Or.inr (fun hf => hm ((hT.mem r).mpr hf)))
    · -- the work vector at `k` was cleared and no column has an entry in row `k` yet
      have hrk' : r = k := by omega
      subst hrk'
      have key : ∀ (T' : List Nat) (s' : FSt K), s'.Y r = 0 →
          (∀ j ∈ T', ∀ e ∈ s'.col j, e.1 ≠ r) → T'.Nodup → (∀ j ∈ T', j ≠ r) →
          (T'.foldl (nodeF r) s').Y r = 0 := by
        intro T'
        induction T' with
        | nil => intro s' h1 _ _ _; exact h1
        | cons i T' ihT =>
          intro s' h1 h2 h3 h4
          rw [List.foldl_cons]
          rw [List.nodup_cons] at h3
          refine ihT _ ?_ ?_ h3.2 (fun j hj => h4 j (by simp [hj]))
          · simp only [nodeF]
            rw [subCol_eq, colSum_eq_zero (h2 i (by simp)), zero_mul, sub_zero,
              Function.update_of_ne (fun e => h4 i (by simp) e.symm), h1]
          · intro j hj
            have hji : j ≠ i := fun e => h3.1 (e ▸ hj)
            simp only [nodeF, Function.update_of_ne hji]
            exact h2 j (by simp [hj])
      refine key T _ (by simp [rowInit]) ?_ hT.nodup (fun j hj => by
        have := ((hT.mem j).mp hj).lt
        omega)
      intro j _ e he heq
      rw [hcol0] at he
      have : e.1 ∈ (s.col j).map Prod.fst := List.mem_map_of_mem he
      rw [ih.rows j, heq] at this
      exact absurd (mem_fillRows.mp this).1 (lt_irrefl _)
  · intro r hr
    by_cases hrk : r = k
    · subst hrk
      rw [hD3k, Function.update_self]
    · rw [hD3 r hrk, Function.update_of_ne hrk]
      exact ih.D r (by omega)
  · intro r hr i hi
    by_cases hrk : r = k
    · subst hrk
      rw [Function.update_self]
      rcases Nat.lt_or_ge i r with hik | hik
      · rw [if_neg (by omega), add_zero, ← hrow i hik, sum_range_succ, add_comm]
        congr 1
        · have h1 : lent s3 i i = 1 := by simp [lent]
          rw [h1, hnew i hik, hD3 i (by omega), one_mul, mul_div_cancel₀ _ (hDne i hik)]
        · refine sum_congr rfl ?_
          intro t ht
          rw [mem_range] at ht
          rw [hold i t hik, hnew t (by omega), hD3 t (by omega), mul_assoc,
            mul_div_cancel₀ _ (hDne t (by omega))]
      · have : i = r := by omega
        subst this
        rw [if_pos rfl, sum_range_succ]
        have h1 : lent s3 i i = 1 := by simp [lent]
        rw [h1, hD3k, hy.Dk, hDk0]
        have h2 : ∑ t ∈ range i, lent s3 i t * s3.D t * lent s3 i t
            = ∑ t ∈ range i, y t / (rowInit i (c i) s).D t * y t := by
          refine sum_congr rfl ?_
          intro t ht
          rw [mem_range] at ht
          have hne := hDne t ht
          rw [hnew t ht, hD3 t (by omega), hD0 t (by omega)]
          field_simp
        rw [h2]
        ring
    · have hrk' : r < k := by omega
      rw [Function.update_of_ne hrk]
      rw [← ih.ldl r hrk' i hi]
      refine sum_congr rfl ?_
      intro t ht
      rw [mem_range] at ht
      rw [hold i t (by omega), hold r t hrk', hD3 t (by omega)]

theorem Rows.inv {k : Nat} {s : FSt K} (h : Rows c k s) : ∃ raw, RowsInv c k s raw := by
  induction h with
  | zero s hs =>
    refine ⟨fun _ => 0, fun j => ?_, fun r hr => absurd hr (by omega),
      fun r hr => absurd hr (by omega), fun r hr => absurd hr (by omega)⟩
    rw [hs j, fillRows_zero]; rfl
  | succ k s T _ hT ih =>
    obtain ⟨raw, ih⟩ := ih
    obtain ⟨v, hv⟩ := ih.step hT
    exact ⟨_, hv⟩

end

end Verif
