import Verif.Lemmas.RoundLdl
import Verif.Lemmas.LdlSolve

/-!
# Rounding errors of the triangular solves
-/

set_option linter.unusedSectionVars false

namespace Verif

open Finset

section

variable {K : Type} [Zero K] [One K] [Add K] [Sub K] [Mul K] [Div K] [Neg K] [Scalar K] [Ieee K]

open Ieee

theorem Acc.self (v : K) : Acc v 0 (toR v) |toR v| := fun _ =>
  ⟨le_rfl, by rw [Ieee.err, errBound_zero]; simp⟩

theorem Acc.congr {v : K} {k k' : Nat} {e e' w w' : ℝ} (h : Acc v k e w) (hk : k = k')
    (he : e = e') (hw : w = w') : Acc v k' e' w' := by subst hk he hw; exact h

/-! ## Forward solve -/

theorem lsolF_stay {col : Nat → List (Nat × K)} {n : Nat}
    (hrows : ∀ j, j < n → ∀ e ∈ col j, j < e.1) (x : Nat → K) {k m : Nat} (hkm : k ≤ m)
    (hm : m ≤ n) {r : Nat} (hr : r ≤ k) : lsolF col m x r = lsolF col k x r := by
  induction m, hkm using Nat.le_induction with
  | base => rfl
  | succ m hkm ih =>
    rw [← ih (by omega)]
    unfold lsolF
    rw [foldI_succ (Nat.zero_le m)]
    refine subCol_of_not_mem _ _ _ _ ?_
    intro e he
    have := hrows m (by omega) e he
    omega

theorem subCol_fin (l : List (Nat × K)) (yi : K) (Y : Nat → K) (r : Nat)
    (h : fin (subCol l yi Y r)) : fin (Y r) := by
  induction l generalizing Y with
  | nil => exact h
  | cons a l ih =>
    have h1 := ih (Function.update Y a.1 (Y a.1 - a.2 * yi)) h
    by_cases ha : r = a.1
    · subst ha
      rw [Function.update_self] at h1
      exact (Ieee.sub _ _ h1).1
    · rwa [Function.update_of_ne ha] at h1

theorem lsolF_fin {col : Nat → List (Nat × K)} (n : Nat) (x : Nat → K) (r : Nat)
    (h : fin (lsolF col n x r)) : fin (x r) := by
  induction n with
  | zero => simpa [lsolF, foldI_self] using h
  | succ n ih =>
    unfold lsolF at h
    rw [foldI_succ (Nat.zero_le n)] at h
    exact ih (subCol_fin _ _ _ _ h)

theorem lsolF_acc {col : Nat → List (Nat × K)} {n : Nat}
    (hrows : ∀ j, j < n → ∀ e ∈ col j, j < e.1) (x : Nat → K) (r : Nat) :
    Acc (lsolF col n x r) (∑ t ∈ range n, cntR (col t) r)
      (toR (x r) - ∑ t ∈ range n, sumR toR (col t) r * toR (lsolF col n x t))
      (|toR (x r)| + ∑ t ∈ range n, sumR (fun a => |toR a|) (col t) r * |toR (lsolF col n x t)|) := by
  have key : ∀ m, m ≤ n → Acc (lsolF col m x r) (∑ t ∈ range m, cntR (col t) r)
      (toR (x r) - ∑ t ∈ range m, sumR toR (col t) r * toR (lsolF col n x t))
      (|toR (x r)| + ∑ t ∈ range m, sumR (fun a => |toR a|) (col t) r
        * |toR (lsolF col n x t)|) := by
    intro m
    induction m with
    | zero =>
      intro _
      simpa [lsolF, foldI_self] using Acc.self (x r)
    | succ m ih =>
      intro hm
      have h1 := subCol_acc (col m) (lsolF col m x m) (lsolF col m x) r (ih (by omega))
      have e1 : lsolF col (m + 1) x r = subCol (col m) (lsolF col m x m) (lsolF col m x) r := by
        unfold lsolF
        rw [foldI_succ (Nat.zero_le m)]
      rw [e1, sum_range_succ, sum_range_succ, sum_range_succ,
        lsolF_stay hrows x (Nat.le_of_lt hm) le_rfl le_rfl]
      refine h1.congr rfl ?_ ?_
      · ring
      · ring
  exact key n le_rfl

/-! ## Backward solve -/

theorem sum_cols {l : List (Nat × K)} {n : Nat} (h : ∀ e ∈ l, e.1 < n) (f : K → ℝ) (g : Nat → ℝ) :
    (l.map (fun e => f e.2 * g e.1)).sum = ∑ r ∈ range n, sumR f l r * g r := by
  induction l with
  | nil => simp [sumR_nil]
  | cons e l ih =>
    rw [List.map_cons, List.sum_cons, ih (fun e' he' => h e' (List.mem_cons_of_mem _ he'))]
    simp only [sumR_cons, add_mul, sum_add_distrib]
    congr 1
    have : ∀ r ∈ range n, (if e.1 = r then f e.2 else 0) * g r
        = if e.1 = r then f e.2 * g r else 0 := by
      intro r _
      split <;> ring
    rw [sum_congr rfl this, sum_ite_eq (range n) e.1, if_pos (mem_range.mpr (h e (by simp)))]

theorem backAcc_acc (l : List (Nat × K)) (X : Nat → K) (a : K) {k : Nat} {e w : ℝ}
    (h : Acc a k e w) : Acc (backAcc l X a) (k + l.length)
      (e - (l.map (fun e => toR e.2 * toR (X e.1))).sum)
      (w + (l.map (fun e => |toR e.2| * |toR (X e.1)|)).sum) := by
  induction l generalizing a k e w with
  | nil => simpa [backAcc] using h
  | cons b l ih =>
    have e1 : backAcc (b :: l) X a = backAcc l X (a - b.2 * X b.1) := rfl
    rw [e1]
    refine (ih _ (h.sub (mul_term b.2 (X b.1)))).congr ?_ ?_ ?_
    · simp only [List.length_cons]; omega
    · simp only [List.map_cons, List.sum_cons]; ring
    · simp only [List.map_cons, List.sum_cons, abs_mul]; ring

theorem backAcc_fin (l : List (Nat × K)) (X : Nat → K) (a : K) (h : fin (backAcc l X a)) :
    fin a := by
  induction l generalizing a with
  | nil => exact h
  | cons b l ih => exact (Ieee.sub _ _ (ih _ h)).1

theorem backAcc_congr {l : List (Nat × K)} {X Y : Nat → K} (h : ∀ e ∈ l, X e.1 = Y e.1) (a : K) :
    backAcc l X a = backAcc l Y a := by
  induction l generalizing a with
  | nil => rfl
  | cons b l ih =>
    have e1 : ∀ Z : Nat → K, backAcc (b :: l) Z a = backAcc l Z (a - b.2 * Z b.1) := fun _ => rfl
    rw [e1, e1, h b (by simp), ih (fun e he => h e (List.mem_cons_of_mem _ he))]

theorem ltsolF_back {col : Nat → List (Nat × K)} {n : Nat}
    (hrows : ∀ j, j < n → ∀ e ∈ col j, j < e.1) (k : Nat) (hk : k ≤ n) (X : Nat → K) :
    (∀ r, k ≤ r → ltsolF col k X r = X r) ∧
    ∀ j, j < k → ltsolF col k X j = backAcc (col j) (ltsolF col k X) (X j) := by
  induction k generalizing X with
  | zero => exact ⟨fun _ _ => rfl, fun j hj => by omega⟩
  | succ k ih =>
    set X' := Function.update X k (backAcc (col k) X (X k)) with hX'
    have e1 : ltsolF col (k + 1) X = ltsolF col k X' := rfl
    obtain ⟨h1, h2⟩ := ih (by omega) X'
    rw [e1]
    have hX : ∀ r, r ≠ k → X' r = X r := fun r hr => Function.update_of_ne hr _ _
    refine ⟨?_, ?_⟩
    · intro r hr
      rw [h1 r (by omega), hX r (by omega)]
    · intro j hj
      by_cases hjk : j = k
      · subst hjk
        rw [h1 j le_rfl, hX', Function.update_self]
        refine backAcc_congr ?_ _
        intro e he
        have := hrows j (by omega) e he
        rw [← hX', h1 _ (by omega), hX _ (by omega)]
      · rw [h2 j (by omega), hX j hjk]

theorem ltsolF_acc {col : Nat → List (Nat × K)} {n : Nat}
    (hrows : ∀ j, j < n → ∀ e ∈ col j, j < e.1 ∧ e.1 < n) (x : Nat → K) {j : Nat} (hj : j < n) :
    Acc (ltsolF col n x j) (col j).length
      (toR (x j) - ∑ r ∈ range n, sumR toR (col j) r * toR (ltsolF col n x r))
      (|toR (x j)| + ∑ r ∈ range n, sumR (fun a => |toR a|) (col j) r
        * |toR (ltsolF col n x r)|) := by
  have h := (ltsolF_back (fun j hj e he => (hrows j hj e he).1) n le_rfl x).2 j hj
  have h2 := backAcc_acc (col j) (ltsolF col n x) (x j) (Acc.self (x j))
  rw [← h] at h2
  refine h2.congr (Nat.zero_add _) ?_ ?_
  · rw [sum_cols (fun e he => (hrows j hj e he).2) toR (fun r => toR (ltsolF col n x r))]
  · rw [sum_cols (fun e he => (hrows j hj e he).2) (fun a => |toR a|)
      (fun r => |toR (ltsolF col n x r)|)]

theorem ltsolF_fin {col : Nat → List (Nat × K)} {n : Nat}
    (hrows : ∀ j, j < n → ∀ e ∈ col j, j < e.1 ∧ e.1 < n) (x : Nat → K) {j : Nat} (hj : j < n)
    (h : fin (ltsolF col n x j)) : fin (x j) := by
  rw [(ltsolF_back (fun j hj e he => (hrows j hj e he).1) n le_rfl x).2 j hj] at h
  exact backAcc_fin _ _ _ h

end

/-! ## Bounds -/

/-- An error that depends on the size of a quantity which itself is known up to that error. -/
theorem self_bound {e a S S' x E : ℝ} (he : 0 ≤ e) (he1 : e < 1) (h : E ≤ e * (x + S') + a)
    (hx : x ≤ S + E) (hS : S' ≤ S) : E ≤ (2 * e * S + a) / (1 - e) := by
  rw [le_div_iff₀ (by linarith)]
  nlinarith

theorem errBound_le {u eta : ℝ} (hu : 0 ≤ u) (he : 0 ≤ eta) {k n : Nat} (hk : k ≤ n) {w : ℝ}
    (hw : 0 ≤ w) : errBound u eta k w ≤ ((1 + u) ^ (2 * n) - 1) * w + n * (1 + u) ^ (2 * n) * eta :=
  errBound_mono hu he hw le_rfl hk

/-- The residual of the three solves, from the errors of each. `l`, `la` are the entries of the
strict triangle and their sizes. -/
theorem solve_real {u eta : ℝ} (hu : 0 ≤ u) (hu1 : u < 1) (he : 0 ≤ eta) {n : Nat}
    (hn : (1 + u) ^ (2 * n) < 2) {L La : Csc ℝ} (hLa : ∀ r c, c < n → |L.unitEntry r c| ≤ La.unitEntry r c)
    (hL0 : ∀ i, i < n → L.entry i i = 0) (hLa0 : ∀ i, i < n → La.entry i i = 0)
    {d b y z w : Nat → ℝ} {ck rk : Nat → Nat} (hck : ∀ t, t < n → ck t ≤ n)
    (hrk : ∀ t, t < n → rk t ≤ n)
    (hy : ∀ i, i < n → |y i - (b i - ∑ t ∈ range n, L.entry i t * y t)|
      ≤ errBound u eta (rk i) (|b i| + ∑ t ∈ range n, La.entry i t * |y t|))
    (hz : ∀ i, i < n → |d i * z i - y i| ≤ u * |y i| + eta * |d i|)
    (hw : ∀ j, j < n → |w j - (z j - ∑ r ∈ range n, L.entry r j * w r)|
      ≤ errBound u eta (ck j) (|z j| + ∑ r ∈ range n, La.entry r j * |w r|))
    {i : Nat} (hi : i < n) :
    |∑ c ∈ range n, ldltEntry n L d i c * w c - b i|
      ≤ solveBound u eta n La (fun t => |d t|) (fun t => |w t|) i := by
  set e := (1 + u) ^ (2 * n) - 1 with hedef
  set a := (n : ℝ) * (1 + u) ^ (2 * n) * eta with hadef
  have he0 : 0 ≤ e := by
    have : (1 : ℝ) ≤ (1 + u) ^ (2 * n) := one_le_pow₀ (by linarith)
    rw [hedef]; linarith
  have he1 : e < 1 := by rw [hedef]; linarith
  have ha0 : 0 ≤ a := by rw [hadef]; positivity
  have h1e : 0 < 1 - e := by linarith
  have h1u : 0 < 1 - u := by linarith
  have hLa1 : ∀ r c, c < n → 0 ≤ La.unitEntry r c := fun r c hc => (abs_nonneg _).trans (hLa r c hc)
  have hLaE : ∀ r c, c < n → 0 ≤ La.entry r c := by
    intro r c hc
    by_cases h : r = c
    · subst h; rw [hLa0 r hc]
    · have := hLa1 r c hc
      unfold Csc.unitEntry at this
      rwa [if_neg h] at this
  -- products with the unit triangle
  have hrow : ∀ (M : Csc ℝ) (_ : ∀ i, i < n → M.entry i i = 0) (g : Nat → ℝ) (r : Nat), r < n →
      ∑ t ∈ range n, M.unitEntry r t * g t = g r + ∑ t ∈ range n, M.entry r t * g t := by
    intro M hM g r hr
    have : ∀ t ∈ range n, M.unitEntry r t * g t = (if r = t then g t else 0) + M.entry r t * g t := by
      intro t _
      unfold Csc.unitEntry
      by_cases h : r = t
      · subst h; rw [if_pos rfl, if_pos rfl, hM _ hr]; ring
      · rw [if_neg h, if_neg h, zero_add]
    rw [sum_congr rfl this, sum_add_distrib, sum_ite_eq (range n) r, if_pos (mem_range.mpr hr)]
  have hcol : ∀ (M : Csc ℝ) (_ : ∀ i, i < n → M.entry i i = 0) (g : Nat → ℝ) (c : Nat), c < n →
      ∑ t ∈ range n, M.unitEntry t c * g t = g c + ∑ t ∈ range n, M.entry t c * g t := by
    intro M hM g r hr
    have : ∀ t ∈ range n, M.unitEntry t r * g t = (if t = r then g t else 0) + M.entry t r * g t := by
      intro t _
      unfold Csc.unitEntry
      by_cases h : t = r
      · subst h; rw [if_pos rfl, if_pos rfl, hM _ hr]; ring
      · rw [if_neg h, if_neg h, zero_add]
    rw [sum_congr rfl this, sum_add_distrib, sum_ite_eq' (range n) r, if_pos (mem_range.mpr hr)]
  set T := fun t => ∑ r ∈ range n, La.unitEntry r t * |w r| with hT
  set Y := fun t => |d t| * (((1 + e) * T t + a) / (1 - e) + eta) / (1 - u) with hY
  -- backward solve
  set E3 := fun t => ∑ r ∈ range n, L.unitEntry r t * w r - z t with hE3
  have b3 : ∀ t, t < n → |E3 t| ≤ (2 * e * T t + a) / (1 - e) ∧
      |z t| ≤ ((1 + e) * T t + a) / (1 - e) := by
    intro t ht
    have h0 : 0 ≤ ∑ r ∈ range n, La.entry r t * |w r| :=
      sum_nonneg fun r _ => mul_nonneg (hLaE r t ht) (abs_nonneg _)
    have h1 : |E3 t| ≤ e * (|z t| + ∑ r ∈ range n, La.entry r t * |w r|) + a := by
      refine le_trans (le_of_eq ?_) ((hw t ht).trans (errBound_le hu he (hck t ht) (by positivity)))
      rw [hE3]
      simp only
      rw [hcol L hL0 w t ht]
      congr 1
      ring
    have h2 : |z t| ≤ T t + |E3 t| := by
      have h3 : |∑ r ∈ range n, L.unitEntry r t * w r| ≤ T t := by
        refine (abs_sum_le_sum_abs _ _).trans (sum_le_sum fun r _ => ?_)
        rw [abs_mul]
        exact mul_le_mul_of_nonneg_right (hLa r t ht) (abs_nonneg _)
      have h4 : z t = ∑ r ∈ range n, L.unitEntry r t * w r - E3 t := by rw [hE3]; ring
      rw [h4]
      exact (abs_sub _ _).trans (by linarith)
    have h3 : ∑ r ∈ range n, La.entry r t * |w r| ≤ T t := by
      rw [hT]
      simp only
      rw [hcol La hLa0 (fun r => |w r|) t ht]
      linarith [abs_nonneg (w t)]
    have h4 := self_bound he0 he1 h1 h2 h3
    refine ⟨h4, ?_⟩
    refine (h2.trans (add_le_add_right h4 _)).trans (le_of_eq ?_)
    field_simp
    ring
  -- diagonal solve
  set E2 := fun t => d t * z t - y t with hE2
  have b2 : ∀ t, t < n → |y t| ≤ Y t := by
    intro t ht
    have h1 := hz t ht
    have h2 : |y t| ≤ |d t| * |z t| + |d t * z t - y t| := by
      rw [← abs_mul]
      have := abs_sub_abs_le_abs_sub (y t) (d t * z t)
      rw [abs_sub_comm] at this
      linarith
    have h3 : |y t| * (1 - u) ≤ |d t| * (|z t| + eta) := by nlinarith
    rw [hY]
    simp only
    rw [le_div_iff₀ h1u]
    refine h3.trans (mul_le_mul_of_nonneg_left ?_ (abs_nonneg _))
    linarith [(b3 t ht).2]
  -- forward solve
  set E1 := ∑ t ∈ range n, L.unitEntry i t * y t - b i with hE1
  set S := ∑ t ∈ range n, La.unitEntry i t * |y t| with hS
  have b1 : |E1| ≤ (2 * e * S + a) / (1 - e) := by
    have h0 : 0 ≤ ∑ r ∈ range n, La.entry i r * |y r| :=
      sum_nonneg fun r hr => mul_nonneg (hLaE i r (mem_range.mp hr)) (abs_nonneg _)
    have h1 : |E1| ≤ e * (|b i| + ∑ r ∈ range n, La.entry i r * |y r|) + a := by
      refine le_trans (le_of_eq ?_) ((hy i hi).trans (errBound_le hu he (hrk i hi) (by positivity)))
      rw [hE1, hrow L hL0 y i hi]
      congr 1
      ring
    have h2 : |b i| ≤ S + |E1| := by
      have h3 : |∑ r ∈ range n, L.unitEntry i r * y r| ≤ S := by
        refine (abs_sum_le_sum_abs _ _).trans (sum_le_sum fun r hr => ?_)
        rw [abs_mul]
        exact mul_le_mul_of_nonneg_right (hLa i r (mem_range.mp hr)) (abs_nonneg _)
      have h4 : b i = ∑ r ∈ range n, L.unitEntry i r * y r - E1 := by rw [hE1]; ring
      rw [h4]
      exact (abs_sub _ _).trans (by linarith)
    refine self_bound he0 he1 h1 h2 ?_
    rw [hS, hrow La hLa0 (fun r => |y r|) i hi]
    linarith [abs_nonneg (y i)]
  have hSY : S ≤ ∑ t ∈ range n, La.unitEntry i t * Y t :=
    sum_le_sum fun t ht => mul_le_mul_of_nonneg_left (b2 t (mem_range.mp ht))
      (hLa1 i t (mem_range.mp ht))
  -- together
  have hmain : ∑ c ∈ range n, ldltEntry n L d i c * w c - b i
      = E1 + ∑ t ∈ range n, L.unitEntry i t * (E2 t + d t * E3 t) := by
    have h1 : ∑ c ∈ range n, ldltEntry n L d i c * w c
        = ∑ t ∈ range n, L.unitEntry i t * (d t * ∑ c ∈ range n, L.unitEntry c t * w c) := by
      unfold ldltEntry
      simp only [sum_mul]
      rw [sum_comm]
      refine sum_congr rfl fun t _ => ?_
      rw [mul_sum, mul_sum]
      refine sum_congr rfl fun c _ => ?_
      ring
    rw [h1, hE1, sub_add_eq_add_sub, ← sum_add_distrib]
    congr 1
    refine sum_congr rfl fun t _ => ?_
    rw [hE2, hE3]
    ring
  rw [hmain]
  unfold solveBound
  simp only
  refine (abs_add_le _ _).trans (add_le_add ?_ ?_)
  · refine b1.trans ((div_le_div_iff_of_pos_right h1e).mpr ?_)
    have := mul_le_mul_of_nonneg_left hSY (by linarith : (0 : ℝ) ≤ 2 * e)
    linarith
  · refine (abs_sum_le_sum_abs _ _).trans (sum_le_sum fun t ht => ?_)
    rw [mem_range] at ht
    rw [abs_mul]
    refine mul_le_mul (hLa i t ht) ?_ (abs_nonneg _) (hLa1 i t ht)
    refine (abs_add_le _ _).trans (add_le_add ?_ ?_)
    · refine (hz t ht).trans (add_le_add_left (mul_le_mul_of_nonneg_left (b2 t ht) hu) _)
    · rw [abs_mul]
      exact mul_le_mul_of_nonneg_left (b3 t ht).1 (abs_nonneg _)

end Verif
