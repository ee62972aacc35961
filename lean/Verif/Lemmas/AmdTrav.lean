import Verif.Lemmas.AmdArr
import Verif.Model.Amd
import Mathlib.Tactic.Push
import Mathlib.Tactic.Tauto
import Mathlib.Tactic.Ring
import Mathlib.Algebra.Order.BigOperators.Group.Finset
import Mathlib.Data.Int.Interval

/-!
# The traversal of `A + A'` shared by `AMD_aat` and `AMD_1`

Both functions visit the unordered pairs of the off-diagonal pattern of `A + A'`, each once, in the same
order; they differ in what they do with a pair (`emit`).
-/

namespace Verif

/-- Pattern with sorted columns without repetition; `jc` are the column pointers, `ir` the rows. -/
structure Pat (n : Int) (jc ir : Int → Int) : Prop where
  mono : ∀ j, 0 ≤ j → j < n → jc j ≤ jc (j + 1)
  rng : ∀ j, 0 ≤ j → j < n → ∀ q, jc j ≤ q → q < jc (j + 1) → 0 ≤ ir q ∧ ir q < n
  sorted : ∀ j, 0 ≤ j → j < n → ∀ q q', jc j ≤ q → q < q' → q' < jc (j + 1) → ir q < ir q'

/-- Row `x` occurs in column `y`. -/
def Ent (jc ir : Int → Int) (x y : Int) : Prop := ∃ q, jc y ≤ q ∧ q < jc (y + 1) ∧ ir q = x

/-- Pair `x < y` visited so far: `u y` is the end of the part of column `y` scanned for its upper
triangular part, `t x` that of column `x` for its lower triangular part. -/
def Vis (jc ir u t : Int → Int) (x y : Int) : Prop :=
  x < y ∧ ((∃ q, jc y ≤ q ∧ q < u y ∧ ir q = x) ∨ (∃ q, jc x ≤ q ∧ q < t x ∧ ir q = y))

/-- State of the traversal while column `k` is processed; `D` are the neighbours found so far. `ex` is
the column whose lower part is being scanned (`-1`: none). -/
structure Tr (n k ex : Int) (jc ir u t : Int → Int) (D : Int → List Int) : Prop where
  ub : ∀ x, 0 ≤ x → x < n → jc x ≤ u x ∧ u x ≤ jc (x + 1)
  tb : ∀ x, 0 ≤ x → x < n → jc x ≤ t x ∧ t x ≤ jc (x + 1)
  u1 : ∀ y, 0 ≤ y → y < k → u y = jc (y + 1)
  u2 : ∀ y, k < y → y < n → u y = jc y
  t2 : ∀ x, k ≤ x → x < n → t x = jc x
  diag : ∀ x, 0 ≤ x → x < k → ∀ q, jc x ≤ q → q < jc (x + 1) → ir q ≤ x → q < t x
  past : ∀ x y, 0 ≤ x → x < k → x < y → y < n → ¬ (x = ex ∧ y = k) →
    (∃ q, jc y ≤ q ∧ q < u y ∧ ir q = x) → ∀ q', t x ≤ q' → q' < jc (x + 1) → y < ir q'
  seen : ∀ x, 0 ≤ x → x < k → ∀ q, jc x ≤ q → q < t x →
    ir q < k ∨ (ir q = k ∧ ∃ q', jc k ≤ q' ∧ q' < u k ∧ ir q' = x)
  mem : ∀ x, 0 ≤ x → x < n → ∀ y, y ∈ D x ↔ (0 ≤ y ∧ y < n) ∧ (Vis jc ir u t x y ∨ Vis jc ir u t y x)
  nodup : ∀ x, 0 ≤ x → x < n → (D x).Nodup

/-- Neighbours after the pair `a`, `b`. -/
def updD (D : Int → List Int) (a b : Int) : Int → List Int :=
  fun x => if x = a then D a ++ [b] else if x = b then D b ++ [a] else D x

variable {n k ex : Int} {jc ir u t u' t' : Int → Int} {D : Int → List Int}

theorem updD_mem {a b : Int} (hab : a ≠ b) (x y : Int) :
    y ∈ updD D a b x ↔ y ∈ D x ∨ (x = a ∧ y = b) ∨ (x = b ∧ y = a) := by
  unfold updD
  split
  · next e => subst e; simp [hab]
  · next e =>
    split
    · next e' => subst e'; simp [e]
    · next e' => simp [e, e']

theorem updD_nodup {a b : Int} (hab : a ≠ b) (ha : b ∉ D a) (hb : a ∉ D b) {x : Int} (hx : (D x).Nodup) :
    (updD D a b x).Nodup := by
  unfold updD
  split
  · next e => subst e; exact List.nodup_append.mpr ⟨hx, by simp, by
    intro p hp q hq e
    rw [List.mem_singleton] at hq
    exact ha (hq ▸ e ▸ hp)⟩
  · split
    · next e => subst e; exact List.nodup_append.mpr ⟨hx, by simp, by
      intro p hp q hq e
      rw [List.mem_singleton] at hq
      exact hb (hq ▸ e ▸ hp)⟩
    · exact hx

theorem mem_emit {a b c d : Int} (hcd : (c = a ∧ d = b) ∨ (c = b ∧ d = a)) (hab : a ≠ b) (ha : 0 ≤ a ∧ a < n) (hb : 0 ≤ b ∧ b < n)
    (hm : ∀ x, 0 ≤ x → x < n → ∀ y, y ∈ D x ↔ (0 ≤ y ∧ y < n) ∧ (Vis jc ir u t x y ∨ Vis jc ir u t y x))
    (hv : ∀ x y, Vis jc ir u' t' x y ↔ Vis jc ir u t x y ∨ (x = c ∧ y = d)) :
    ∀ x, 0 ≤ x → x < n → ∀ y, y ∈ updD D a b x ↔
      (0 ≤ y ∧ y < n) ∧ (Vis jc ir u' t' x y ∨ Vis jc ir u' t' y x) := by
  intro x x0 x1 y
  rw [updD_mem hab, hm x x0 x1, hv, hv]
  have hs : ∀ x y : Int, (x = c ∧ y = d ∨ y = c ∧ x = d) ↔ (x = a ∧ y = b ∨ x = b ∧ y = a) := by
    intro x y
    rcases hcd with ⟨rfl, rfl⟩ | ⟨rfl, rfl⟩ <;> constructor <;> (intro hh; omega)
  have hs := hs x y
  have hr : (x = a ∧ y = b ∨ x = b ∧ y = a) → 0 ≤ y ∧ y < n := by
    rintro (⟨_, rfl⟩ | ⟨_, rfl⟩) <;> assumption
  constructor
  · rintro (⟨h1, h2 | h2⟩ | h2)
    · exact ⟨h1, Or.inl (Or.inl h2)⟩
    · exact ⟨h1, Or.inr (Or.inl h2)⟩
    · rcases hs.mpr h2 with h3 | h3
      · exact ⟨hr h2, Or.inl (Or.inr h3)⟩
      · exact ⟨hr h2, Or.inr (Or.inr h3)⟩
  · rintro ⟨h1, (h2 | h2) | (h2 | h2)⟩
    · exact Or.inl ⟨h1, Or.inl h2⟩
    · exact Or.inr (hs.mp (Or.inl h2))
    · exact Or.inl ⟨h1, Or.inr h2⟩
    · exact Or.inr (hs.mp (Or.inr h2))

/-- The neighbours found are neighbours. -/
def GoodD (n : Int) (jc ir : Int → Int) (D : Int → List Int) : Prop :=
  ∀ x, 0 ≤ x → x < n → (D x).Nodup ∧ ∀ y ∈ D x, (0 ≤ y ∧ y < n) ∧ x ≠ y ∧ (Ent jc ir x y ∨ Ent jc ir y x)

theorem Vis.ent (hub : ∀ x, 0 ≤ x → x < n → jc x ≤ u x ∧ u x ≤ jc (x + 1))
    (htb : ∀ x, 0 ≤ x → x < n → jc x ≤ t x ∧ t x ≤ jc (x + 1)) {x y : Int} (hx : 0 ≤ x ∧ x < n)
    (hy : 0 ≤ y ∧ y < n) (h : Vis jc ir u t x y) : x ≠ y ∧ (Ent jc ir x y ∨ Ent jc ir y x) := by
  obtain ⟨hlt, h⟩ := h
  refine ⟨by omega, ?_⟩
  rcases h with ⟨q, q0, q1, q2⟩ | ⟨q, q0, q1, q2⟩
  · exact Or.inl ⟨q, q0, by have := hub y hy.1 hy.2; omega, q2⟩
  · exact Or.inr ⟨q, q0, by have := htb x hx.1 hx.2; omega, q2⟩

theorem Tr.good (h : Tr n k ex jc ir u t D) : GoodD n jc ir D := by
  intro x x0 x1
  refine ⟨h.nodup x x0 x1, fun y hy => ?_⟩
  obtain ⟨hr, hv⟩ := (h.mem x x0 x1 y).mp hy
  refine ⟨hr, ?_⟩
  rcases hv with hv | hv
  · exact hv.ent h.ub h.tb ⟨x0, x1⟩ hr
  · have := hv.ent h.ub h.tb hr ⟨x0, x1⟩
    exact ⟨this.1.symm, this.2.symm⟩

/-! ## Generic traversal -/

section

variable {σ : Type} (emit : σ → Int → Int → M σ) (diag both : σ → M σ)

/-- amd_aat.c 96–123, amd_1.c 116–145; `both` is what is done with an entry of the lower triangular part
whose mirror image has been visited. -/
def trLower (Ap Ai : Buf Int) (k j : Int) (g : σ) (pj : Int) : M (σ × Int) := do
  let pj2 ← rd Ap (j + 1)
  let r ← whileM Ai.length (fun s : (σ × Int) × Bool => pure (!s.2 && decide (s.1.2 < pj2)))
    (fun s => do
      let i ← rd Ai s.1.2
      if i < k then do
        let g ← emit s.1.1 i j
        pure ((g, s.1.2 + 1), false)
      else if i = k then do
        let g ← both s.1.1
        pure ((g, s.1.2 + 1), true)
      else pure (s.1, true)) ((g, pj), false)
  pure r.1

/-- amd_aat.c 62–128, amd_1.c 82–148; `diag` is what is done with an entry of the diagonal. -/
def trCol (Ap Ai : Buf Int) (k : Int) (st : σ × Buf Int) : M (σ × Buf Int) := do
  let p1 ← rd Ap k
  let p2 ← rd Ap (k + 1)
  let r ← whileM Ai.length
    (fun s : ((σ × Buf Int) × Int) × Bool => pure (!s.2 && decide (s.1.2 < p2)))
    (fun s => do
      let j ← rd Ai s.1.2
      if j < k then do
        let g ← emit s.1.1.1 j k
        let pj ← rd s.1.1.2 j
        let q ← trLower emit both Ap Ai k j g pj
        let Tp ← wr s.1.1.2 j q.2
        pure (((q.1, Tp), s.1.2 + 1), false)
      else if j = k then do
        let g ← diag s.1.1.1
        pure (((g, s.1.1.2), s.1.2 + 1), true)
      else pure (s.1, true)) ((st, p1), false)
  let Tp ← wr r.1.1.2 k r.1.2
  pure (r.1.1.1, Tp)

/-- amd_aat.c 131–143, amd_1.c 151–162 -/
def trRest (Ap Ai Tp : Buf Int) (j : Int) (g : σ) : M σ := do
  let pj ← rd Tp j
  let pj2 ← rd Ap (j + 1)
  forI pj pj2 g (fun pj g => do
    let i ← rd Ai pj
    emit g i j)

end

section

variable {σ : Type} {emit : σ → Int → Int → M σ} {diag both : σ → M σ}
  {Inv : (Int → List Int) → Int → Int → σ → Prop} {c d : Int}

/-- What is required of the actions: `emit` keeps the invariant for a new pair of neighbours, `diag` and
`both` for an entry on the diagonal and one whose mirror image has been visited. The invariant can refer to the number
`c` of the entries visited and the number `d` of those on the diagonal. -/
structure EmitOk (n : Int) (jc ir : Int → Int) (emit : σ → Int → Int → M σ) (diag both : σ → M σ)
    (Inv : (Int → List Int) → Int → Int → σ → Prop) : Prop where
  emit : ∀ D c d s a b, Inv D c d s → GoodD n jc ir D → 0 ≤ a → a < n → 0 ≤ b → b < n → a ≠ b →
    (Ent jc ir a b ∨ Ent jc ir b a) → b ∉ D a → a ∉ D b →
    Spec (emit s a b) (Inv (updD D a b) (c + 1) d)
  diag : ∀ D c d s, Inv D c d s → 0 ≤ d → d < n → Spec (diag s) (Inv D (c + 1) (d + 1))
  both : ∀ D c d s, Inv D c d s → c < jc n - jc 0 → Spec (both s) (Inv D (c + 1) d)

/-- Number of entries of the first `k` columns before the pointers `t`. -/
def visited (jc t : Int → Int) (k : Int) : Int := ∑ x ∈ Finset.Ico 0 k, (t x - jc x)

open Classical in
/-- Number of entries on the diagonal in the first `k` columns. -/
noncomputable def diagCount (jc ir : Int → Int) (k : Int) : Int :=
  (((Finset.Ico 0 k).filter (fun x => Ent jc ir x x)).card : Int)

theorem visited_update {j v : Int} (j0 : 0 ≤ j) (jk : j < k) :
    visited jc (Function.update t j v) k = visited jc t k + (v - t j) := by
  unfold visited
  have hm : j ∈ Finset.Ico 0 k := Finset.mem_Ico.mpr ⟨j0, jk⟩
  rw [← Finset.add_sum_erase _ _ hm, ← Finset.add_sum_erase (Finset.Ico 0 k) (fun x => t x - jc x) hm]
  have : ∑ x ∈ (Finset.Ico 0 k).erase j, (Function.update t j v x - jc x)
      = ∑ x ∈ (Finset.Ico 0 k).erase j, (t x - jc x) := by
    refine Finset.sum_congr rfl fun x hx => ?_
    rw [Function.update_of_ne (Finset.ne_of_mem_erase hx)]
  rw [this, Function.update_self]
  ring

theorem visited_congr (h : ∀ x, 0 ≤ x → x < k → t x = t' x) : visited jc t k = visited jc t' k := by
  unfold visited
  refine Finset.sum_congr rfl fun x hx => ?_
  rw [Finset.mem_Ico] at hx
  rw [h x hx.1 hx.2]

theorem visited_succ (k0 : 0 ≤ k) : visited jc t (k + 1) = visited jc t k + (t k - jc k) := by
  unfold visited
  have : Finset.Ico 0 (k + 1) = insert k (Finset.Ico 0 k) := by
    ext x
    simp only [Finset.mem_insert, Finset.mem_Ico]
    omega
  rw [this, Finset.sum_insert (by simp)]
  ring

theorem visited_all (hk : 0 ≤ k) : visited jc (fun x => jc (x + 1)) k = jc k - jc 0 := by
  obtain ⟨m, rfl⟩ := Int.eq_ofNat_of_zero_le hk
  induction m with
  | zero => simp [visited]
  | succ m ih =>
    have := visited_succ (jc := jc) (t := fun x => jc (x + 1)) (k := m) (by omega)
    push_cast
    rw [this, ih (by omega)]
    ring

theorem visited_mono (h : ∀ x, 0 ≤ x → x < k → t x ≤ t' x) : visited jc t k ≤ visited jc t' k := by
  unfold visited
  refine Finset.sum_le_sum fun x hx => ?_
  rw [Finset.mem_Ico] at hx
  have := h x hx.1 hx.2
  omega

theorem visited_le (hk : 0 ≤ k) (h : ∀ x, 0 ≤ x → x < k → t x ≤ jc (x + 1)) : visited jc t k ≤ jc k - jc 0 :=
  (visited_mono h).trans (visited_all hk).le

open Classical in
theorem diagCount_succ (k0 : 0 ≤ k) :
    diagCount jc ir (k + 1) = diagCount jc ir k + (if Ent jc ir k k then 1 else 0) := by
  unfold diagCount
  have : Finset.Ico 0 (k + 1) = insert k (Finset.Ico 0 k) := by
    ext x
    simp only [Finset.mem_insert, Finset.mem_Ico]
    omega
  rw [this, Finset.filter_insert]
  split
  · rw [Finset.card_insert_of_notMem (by simp)]
    push_cast
    rfl
  · simp

open Classical in
theorem diagCount_le (k0 : 0 ≤ k) : 0 ≤ diagCount jc ir k ∧ diagCount jc ir k ≤ k := by
  unfold diagCount
  have := Finset.card_filter_le (Finset.Ico 0 k) (fun x => Ent jc ir x x)
  rw [Int.card_Ico] at this
  omega

theorem Pat.le (hp : Pat n jc ir) {x y : Int} (x0 : 0 ≤ x) (xy : x ≤ y) (yn : y ≤ n) : jc x ≤ jc y := by
  obtain ⟨m, rfl⟩ : ∃ m : Nat, y = x + m := ⟨(y - x).toNat, by omega⟩
  induction m with
  | zero => simp
  | succ m ih =>
    have h1 := ih (by omega) (by push_cast at yn; omega)
    have h2 := hp.mono (x + m) (by omega) (by push_cast at yn; omega)
    push_cast
    rw [← add_assoc]
    omega

/-- One step of a scan of the lower triangular part that visits a new pair. -/
theorem Tr.lower (hp : Pat n jc ir) (h : Tr n k ex jc ir u t D) {j : Int} (j0 : 0 ≤ j) (jk : j < k) (kn : k ≤ n)
    (hpj : t j < jc (j + 1)) (hi : ir (t j) < k) :
    (0 ≤ ir (t j) ∧ ir (t j) < n ∧ ir (t j) ≠ j ∧ Ent jc ir (ir (t j)) j ∧ j ∉ D (ir (t j)) ∧ ir (t j) ∉ D j) ∧
    Tr n k ex jc ir u (Function.update t j (t j + 1)) (updD D (ir (t j)) j) := by
  have htb := h.tb j j0 (by omega)
  have hir := hp.rng j j0 (by omega) (t j) htb.1 hpj
  have hgt : j < ir (t j) := by
    by_contra hc
    have := h.diag j j0 jk (t j) htb.1 hpj (by omega)
    omega
  have hij : ir (t j) ≠ j := by omega
  have hnv : ¬ Vis jc ir u t j (ir (t j)) := by
    rintro ⟨_, hv | ⟨q, q0, q1, q2⟩⟩
    · have := h.past j (ir (t j)) j0 jk hgt hir.2 (by omega) hv (t j) le_rfl hpj
      omega
    · have := hp.sorted j j0 (by omega) q (t j) q0 q1 hpj
      omega
  have hnv' : ¬ Vis jc ir u t (ir (t j)) j := fun hv => by have := hv.1; omega
  have hn1 : j ∉ D (ir (t j)) := by
    rw [h.mem _ hir.1 hir.2]; tauto
  have hn2 : ir (t j) ∉ D j := by
    rw [h.mem _ j0 (by omega)]; tauto
  refine ⟨⟨hir.1, hir.2, hij, ⟨t j, htb.1, hpj, rfl⟩, hn1, hn2⟩, ?_⟩
  have hup : ∀ x, Function.update t j (t j + 1) x = if x = j then t j + 1 else t x := by
    intro x
    by_cases e : x = j
    · subst e; simp
    · simp [e]
  have hvis : ∀ x y, Vis jc ir u (Function.update t j (t j + 1)) x y ↔
      Vis jc ir u t x y ∨ (x = j ∧ y = ir (t j)) := by
    intro x y
    unfold Vis
    rw [hup]
    by_cases e : x = j
    · subst e
      rw [if_pos rfl]
      constructor
      · rintro ⟨h1, h2 | ⟨q, q0, q1, q2⟩⟩
        · exact Or.inl ⟨h1, Or.inl h2⟩
        · by_cases e : q = t x
          · subst e; exact Or.inr ⟨rfl, q2.symm⟩
          · exact Or.inl ⟨h1, Or.inr ⟨q, q0, by omega, q2⟩⟩
      · rintro (⟨h1, h2 | ⟨q, q0, q1, q2⟩⟩ | ⟨_, rfl⟩)
        · exact ⟨h1, Or.inl h2⟩
        · exact ⟨h1, Or.inr ⟨q, q0, by omega, q2⟩⟩
        · exact ⟨hgt, Or.inr ⟨t x, htb.1, by omega, rfl⟩⟩
    · simp [e]
  refine ⟨h.ub, ?_, h.u1, h.u2, ?_, ?_, ?_, ?_, ?_, ?_⟩
  · intro x x0 x1
    rw [hup]
    have := h.tb x x0 x1
    split
    · next e => subst e; omega
    · exact this
  · intro x xk x1
    rw [hup, if_neg (by omega)]
    exact h.t2 x xk x1
  · intro x x0 xk q q0 q1 q2
    rw [hup]
    have := h.diag x x0 xk q q0 q1 q2
    split
    · next e => subst e; omega
    · exact this
  · intro x y x0 xk xy yn hne hv q' q0 q1
    rw [hup] at q0
    refine h.past x y x0 xk xy yn hne hv q' ?_ q1
    split at q0
    · next e => subst e; omega
    · exact q0
  · intro x x0 xk q q0 q1
    rw [hup] at q1
    split at q1
    · next e =>
      subst e
      by_cases e : q = t x
      · subst e; exact Or.inl hi
      · exact h.seen x x0 xk q q0 (by omega)
    · exact h.seen x x0 xk q q0 q1
  · exact mem_emit (Or.inr ⟨rfl, rfl⟩) hij hir ⟨j0, by omega⟩ h.mem hvis
  · intro x x0 x1
    exact updD_nodup hij hn1 hn2 (h.nodup x x0 x1)

theorem upd_at (f : Int → Int) (a v x : Int) : Function.update f a v x = if x = a then v else f x := by
  by_cases e : x = a
  · subst e; simp
  · simp [e]

theorem mem_same (hm : ∀ x, 0 ≤ x → x < n → ∀ y, y ∈ D x ↔
      (0 ≤ y ∧ y < n) ∧ (Vis jc ir u t x y ∨ Vis jc ir u t y x))
    (hv : ∀ x y, 0 ≤ x → x < n → 0 ≤ y → y < n → (Vis jc ir u' t' x y ↔ Vis jc ir u t x y)) :
    ∀ x, 0 ≤ x → x < n → ∀ y, y ∈ D x ↔ (0 ≤ y ∧ y < n) ∧ (Vis jc ir u' t' x y ∨ Vis jc ir u' t' y x) := by
  intro x x0 x1 y
  rw [hm x x0 x1]
  constructor
  · rintro ⟨h1, h2⟩
    exact ⟨h1, by rwa [hv x y x0 x1 h1.1 h1.2, hv y x h1.1 h1.2 x0 x1]⟩
  · rintro ⟨h1, h2⟩
    exact ⟨h1, by rwa [hv x y x0 x1 h1.1 h1.2, hv y x h1.1 h1.2 x0 x1] at h2⟩

/-- The scan of column `j` meets the entry mirrored by the entry being processed. -/
theorem Tr.skip (h : Tr n k ex jc ir u t D) {j : Int} (j0 : 0 ≤ j) (jk : j < k) (kn : k < n)
    (hpj : t j < jc (j + 1)) (hi : ir (t j) = k) (hu : ∃ q', jc k ≤ q' ∧ q' < u k ∧ ir q' = j) :
    Tr n k ex jc ir u (Function.update t j (t j + 1)) D := by
  have htb := h.tb j j0 (by omega)
  refine ⟨h.ub, ?_, h.u1, h.u2, ?_, ?_, ?_, ?_, ?_, h.nodup⟩
  · intro x x0 x1
    rw [upd_at]
    have := h.tb x x0 x1
    split
    · next e => subst e; omega
    · exact this
  · intro x xk x1
    rw [upd_at, if_neg (by omega)]
    exact h.t2 x xk x1
  · intro x x0 xk q q0 q1 q2
    rw [upd_at]
    have := h.diag x x0 xk q q0 q1 q2
    split
    · next e => subst e; omega
    · exact this
  · intro x y x0 xk xy yn hne hv q' q0 q1
    rw [upd_at] at q0
    refine h.past x y x0 xk xy yn hne hv q' ?_ q1
    split at q0
    · next e => subst e; omega
    · exact q0
  · intro x x0 xk q q0 q1
    rw [upd_at] at q1
    split at q1
    · next e =>
      subst e
      by_cases e : q = t x
      · subst e; exact Or.inr ⟨hi, hu⟩
      · exact h.seen x x0 xk q q0 (by omega)
    · exact h.seen x x0 xk q q0 q1
  · refine mem_same h.mem ?_
    intro x y x0 x1 y0 y1
    unfold Vis
    rw [upd_at]
    by_cases e : x = j
    · subst e
      rw [if_pos rfl]
      constructor
      · rintro ⟨h1, h2 | ⟨q, q0, q1, q2⟩⟩
        · exact ⟨h1, Or.inl h2⟩
        · by_cases e : q = t x
          · subst e
            refine ⟨h1, Or.inl ?_⟩
            rw [← q2, hi]; exact hu
          · exact ⟨h1, Or.inr ⟨q, q0, by omega, q2⟩⟩
      · rintro ⟨h1, h2 | ⟨q, q0, q1, q2⟩⟩
        · exact ⟨h1, Or.inl h2⟩
        · exact ⟨h1, Or.inr ⟨q, q0, by omega, q2⟩⟩
    · simp [e]

/-- The scan of column `j` has gone past row `k`. -/
theorem Tr.close (h : Tr n k ex jc ir u t D) (hc : ∀ q', t ex ≤ q' → q' < jc (ex + 1) → k < ir q') :
    Tr n k (-1) jc ir u t D := by
  refine ⟨h.ub, h.tb, h.u1, h.u2, h.t2, h.diag, ?_, h.seen, h.mem, h.nodup⟩
  intro x y x0 xk xy yn _ hv q' q0 q1
  by_cases e : x = ex ∧ y = k
  · obtain ⟨rfl, rfl⟩ := e
    exact hc q' q0 q1
  · exact h.past x y x0 xk xy yn e hv q' q0 q1

/-- One entry of the upper triangular part of column `k`. -/
theorem Tr.upper (hp : Pat n jc ir) (h : Tr n k (-1) jc ir u t D) (k0 : 0 ≤ k) (kn : k < n)
    (hpk : u k < jc (k + 1)) (hi : ir (u k) < k) :
    (0 ≤ ir (u k) ∧ ir (u k) ≠ k ∧ Ent jc ir (ir (u k)) k ∧ k ∉ D (ir (u k)) ∧ ir (u k) ∉ D k) ∧
    Tr n k (ir (u k)) jc ir (Function.update u k (u k + 1)) t (updD D (ir (u k)) k) := by
  have hub := h.ub k k0 kn
  have hir := hp.rng k k0 kn (u k) hub.1 hpk
  have hij : ir (u k) ≠ k := by omega
  have hold : ¬ ∃ q', jc k ≤ q' ∧ q' < u k ∧ ir q' = ir (u k) := by
    rintro ⟨q, q0, q1, q2⟩
    have := hp.sorted k k0 kn q (u k) q0 q1 hpk
    omega
  have hnv : ¬ Vis jc ir u t (ir (u k)) k := by
    rintro ⟨_, hv | ⟨q, q0, q1, q2⟩⟩
    · exact hold hv
    · rcases h.seen _ hir.1 hi q q0 q1 with h1 | ⟨_, h2⟩
      · omega
      · exact hold h2
  have hnv' : ¬ Vis jc ir u t k (ir (u k)) := fun hv => by have := hv.1; omega
  have hn1 : k ∉ D (ir (u k)) := by
    rw [h.mem _ hir.1 hir.2]; rintro ⟨_, h1 | h1⟩
    · exact hnv h1
    · exact hnv' h1
  have hn2 : ir (u k) ∉ D k := by
    rw [h.mem _ k0 kn]; rintro ⟨_, h1 | h1⟩
    · exact hnv' h1
    · exact hnv h1
  refine ⟨⟨hir.1, hij, ⟨u k, hub.1, hpk, rfl⟩, hn1, hn2⟩, ?_⟩
  have hvis : ∀ x y, Vis jc ir (Function.update u k (u k + 1)) t x y ↔
      Vis jc ir u t x y ∨ (x = ir (u k) ∧ y = k) := by
    intro x y
    unfold Vis
    rw [upd_at]
    by_cases e : y = k
    · subst e
      rw [if_pos rfl]
      constructor
      · rintro ⟨h1, ⟨q, q0, q1, q2⟩ | h2⟩
        · by_cases e : q = u y
          · subst e; exact Or.inr ⟨q2.symm, rfl⟩
          · exact Or.inl ⟨h1, Or.inl ⟨q, q0, by omega, q2⟩⟩
        · exact Or.inl ⟨h1, Or.inr h2⟩
      · rintro (⟨h1, ⟨q, q0, q1, q2⟩ | h2⟩ | ⟨rfl, _⟩)
        · exact ⟨h1, Or.inl ⟨q, q0, by omega, q2⟩⟩
        · exact ⟨h1, Or.inr h2⟩
        · exact ⟨hi, Or.inl ⟨u y, hub.1, by omega, rfl⟩⟩
    · simp [e]
  refine ⟨?_, h.tb, ?_, ?_, h.t2, h.diag, ?_, ?_, ?_, ?_⟩
  · intro x x0 x1
    rw [upd_at]
    have := h.ub x x0 x1
    split
    · next e => subst e; omega
    · exact this
  · intro y y0 y1
    rw [upd_at, if_neg (by omega)]
    exact h.u1 y y0 y1
  · intro y y0 y1
    rw [upd_at, if_neg (by omega)]
    exact h.u2 y y0 y1
  · rintro x y x0 xk xy yn hne ⟨q, q0, q1, q2⟩ q' q0' q1'
    rw [upd_at] at q1
    refine h.past x y x0 xk xy yn (by omega) ⟨q, q0, ?_, q2⟩ q' q0' q1'
    split at q1
    · next e =>
      subst e
      by_contra hc
      have : q = u y := by omega
      subst this
      exact hne ⟨q2.symm, rfl⟩
    · exact q1
  · intro x x0 xk q q0 q1
    rcases h.seen x x0 xk q q0 q1 with h1 | ⟨h1, q', h2, h3, h4⟩
    · exact Or.inl h1
    · exact Or.inr ⟨h1, q', h2, by rw [upd_at, if_pos rfl]; omega, h4⟩
  · exact mem_emit (Or.inl ⟨rfl, rfl⟩) hij hir ⟨k0, kn⟩ h.mem hvis
  · intro x x0 x1
    exact updD_nodup hij hn1 hn2 (h.nodup x x0 x1)

/-- End of column `k`. -/
theorem Tr.next (h : Tr n k (-1) jc ir u t D) (k0 : 0 ≤ k) (kn : k < n) {p : Int}
    (p0 : u k ≤ p) (p1 : p ≤ jc (k + 1)) (hlo : ∀ q, jc k ≤ q → q < p → ir q ≤ k)
    (hhi : ∀ q, p ≤ q → q < jc (k + 1) → k < ir q) (hu : ∀ q, u k ≤ q → q < jc (k + 1) → k ≤ ir q) :
    Tr n (k + 1) (-1) jc ir (Function.update u k (jc (k + 1))) (Function.update t k p) D := by
  have hub := h.ub k k0 kn
  refine ⟨?_, ?_, ?_, ?_, ?_, ?_, ?_, ?_, ?_, h.nodup⟩
  · intro x x0 x1
    rw [upd_at]
    have := h.ub x x0 x1
    split
    · next e => subst e; omega
    · exact this
  · intro x x0 x1
    rw [upd_at]
    have := h.tb x x0 x1
    split
    · next e => subst e; omega
    · exact this
  · intro y y0 y1
    rw [upd_at]
    split
    · next e => subst e; rfl
    · exact h.u1 y y0 (by omega)
  · intro y y0 y1
    rw [upd_at, if_neg (by omega)]
    exact h.u2 y (by omega) y1
  · intro x x0 x1
    rw [upd_at, if_neg (by omega)]
    exact h.t2 x (by omega) x1
  · intro x x0 xk q q0 q1 q2
    rw [upd_at]
    split
    · next e =>
      subst e
      by_contra hc
      have := hhi q (by omega) q1
      omega
    · exact h.diag x x0 (by omega) q q0 q1 q2
  · rintro x y x0 xk xy yn - ⟨q, q0, q1, q2⟩ q' q0' q1'
    rw [upd_at] at q1 q0'
    by_cases e : x = k
    · subst e
      rw [if_neg (by omega)] at q1
      have := h.u2 y xy yn
      omega
    · rw [if_neg e] at q0'
      refine h.past x y x0 (by omega) xy yn (by omega) ⟨q, q0, ?_, q2⟩ q' q0' q1'
      split at q1
      · next e =>
        subst e
        by_contra hc
        have := hu q (by omega) q1
        omega
      · exact q1
  · intro x x0 xk q q0 q1
    rw [upd_at] at q1
    left
    split at q1
    · next e =>
      subst e
      have := hlo q q0 q1
      omega
    · rcases h.seen x x0 (by omega) q q0 q1 with h1 | ⟨h1, _⟩ <;> omega
  · refine mem_same h.mem ?_
    intro x y x0 x1 y0 y1
    unfold Vis
    rw [upd_at, upd_at]
    refine and_congr_right fun hxy => or_congr ?_ ?_
    · split
      · next e =>
        subst e
        constructor
        · rintro ⟨q, q0, q1, q2⟩
          refine ⟨q, q0, ?_, q2⟩
          by_contra hc
          have := hu q (by omega) q1
          omega
        · rintro ⟨q, q0, q1, q2⟩
          exact ⟨q, q0, by omega, q2⟩
      · rfl
    · split
      · next e =>
        subst e
        have := h.t2 x le_rfl kn
        constructor
        · rintro ⟨q, q0, q1, q2⟩
          have := hlo q q0 q1
          omega
        · rintro ⟨q, q0, q1, q2⟩
          omega
      · rfl

theorem Tr.init (hp : Pat n jc ir) : Tr n 0 (-1) jc ir jc jc (fun _ => []) := by
  refine ⟨fun x x0 x1 => ⟨le_rfl, hp.mono x x0 x1⟩, fun x x0 x1 => ⟨le_rfl, hp.mono x x0 x1⟩,
    by intros; omega, by intros; rfl, by intros; rfl, by intros; omega, by intros; omega,
    by intros; omega, ?_, by intros; simp⟩
  intro x x0 x1 y
  constructor
  · intro h; simp at h
  · rintro ⟨_, ⟨_, ⟨q, h⟩ | ⟨q, h⟩⟩ | ⟨_, ⟨q, h⟩ | ⟨q, h⟩⟩⟩ <;> omega

/-- End of the traversal: the neighbours are those of the pattern of `A + A'`. -/
theorem Tr.final (h : Tr n n (-1) jc ir u t D) (ht : ∀ x, 0 ≤ x → x < n → t x = jc (x + 1)) {x y : Int}
    (x0 : 0 ≤ x) (x1 : x < n) :
    y ∈ D x ↔ (0 ≤ y ∧ y < n) ∧ x ≠ y ∧ (Ent jc ir x y ∨ Ent jc ir y x) := by
  constructor
  · intro hy
    exact (h.good x x0 x1).2 y hy
  · rintro ⟨hr, hne, he⟩
    rw [h.mem x x0 x1]
    refine ⟨hr, ?_⟩
    rcases lt_or_gt_of_ne hne with hlt | hlt
    · refine Or.inl ⟨hlt, ?_⟩
      rw [h.u1 y hr.1 hr.2, ht x x0 x1]
      exact he
    · refine Or.inr ⟨hlt, ?_⟩
      rw [h.u1 x x0 x1, ht y hr.1 hr.2]
      exact he.symm

/-! ## The loops -/

/-- The arrays holding a pattern. -/
structure PatBuf (n : Int) (Ap Ai : Buf Int) (jc ir : Int → Int) : Prop where
  pat : Pat n jc ir
  rdp : ∀ j, 0 ≤ j → j ≤ n → rd Ap j = .ok (jc j)
  rdi : ∀ j, 0 ≤ j → j < n → ∀ q, jc j ≤ q → q < jc (j + 1) → rd Ai q = .ok (ir q)
  fuel : ∀ j, 0 ≤ j → j < n → jc (j + 1) - jc j ≤ Ai.length

variable {Ap Ai : Buf Int}

set_option maxHeartbeats 1000000 in
theorem trLower_spec (hb : PatBuf n Ap Ai jc ir) (he : EmitOk n jc ir emit diag both Inv) {j : Int} {g : σ}
    (h : Tr n k j jc ir u t D) (j0 : 0 ≤ j) (jk : j < k) (kn : k < n)
    (hu : ∃ q', jc k ≤ q' ∧ q' < u k ∧ ir q' = j) (hg : Inv D c d g) (hc : c + (jc (j + 1) - t j) ≤ jc n - jc 0) :
    Spec (trLower emit both Ap Ai k j g (t j)) (fun r => ∃ D', Inv D' (c + (r.2 - t j)) d r.1 ∧
      Tr n k (-1) jc ir u (Function.update t j r.2) D') := by
  unfold trLower
  rw [hb.rdp _ (by omega) (by omega)]
  simp only [ok_bind]
  have htb := h.tb j j0 (by omega)
  have hf := hb.fuel j j0 (by omega)
  refine Spec.bind (whileM_spec
    (Inv := fun s : (σ × Int) × Bool => ∃ D', Inv D' (c + (s.1.2 - t j)) d s.1.1 ∧
      Tr n k j jc ir u (Function.update t j s.1.2) D' ∧
      (s.2 = true → ∀ q', s.1.2 ≤ q' → q' < jc (j + 1) → k < ir q'))
    (μ := fun s => if s.2 then 0 else (jc (j + 1) - s.1.2).toNat)
    (Q := fun s => ∃ D', Inv D' (c + (s.1.2 - t j)) d s.1.1 ∧ Tr n k (-1) jc ir u (Function.update t j s.1.2) D') ?_ ?_ ?_) ?_
  · refine ⟨D, by simpa using hg, ?_, by simp⟩
    simpa using h
  · simp only [Bool.false_eq_true, if_false]
    omega
  · rintro ⟨⟨g, pj⟩, fl⟩ ⟨D', hg', hT, hfl⟩
    simp only at hg' hT hfl ⊢
    refine Spec.pure ?_
    have hT2 := hT.tb j j0 (by omega)
    rw [upd_at, if_pos rfl] at hT2
    have hat : Function.update t j pj j = pj := by simp
    have huu : ∀ v, Function.update (Function.update t j pj) j v = Function.update t j v := by simp
    cases fl with
    | true =>
      simp only [Bool.not_true, Bool.false_and, Bool.false_eq_true, if_false]
      exact ⟨D', hg', hT.close (by rw [hat]; exact hfl rfl)⟩
    | false =>
      by_cases hlt : pj < jc (j + 1)
      · simp only [Bool.not_false, Bool.true_and, hlt, decide_true, if_true, Bool.false_eq_true, if_false]
        rw [hb.rdi j j0 (by omega) pj hT2.1 hlt]
        simp only [ok_bind]
        by_cases h1 : ir pj < k
        · rw [if_pos h1]
          obtain ⟨⟨a0, a1, a2, a3, a4, a5⟩, hT'⟩ := hT.lower hb.pat j0 jk (by omega)
            (by rw [hat]; exact hlt) (by rw [hat]; exact h1)
          rw [hat] at a0 a1 a2 a3 a4 a5 hT'
          rw [huu] at hT'
          refine Spec.bind (he.emit D' _ d g (ir pj) j hg' hT.good a0 a1 j0 (by omega) a2 (Or.inl a3) a4 a5) ?_
          intro g' hg'
          rw [show c + (pj - t j) + 1 = c + (pj + 1 - t j) by ring] at hg'
          refine Spec.pure ⟨⟨_, hg', hT', by simp⟩, ?_⟩
          simp only [Bool.false_eq_true, if_false]
          omega
        · rw [if_neg h1]
          by_cases h2 : ir pj = k
          · rw [if_pos h2]
            have hT' := hT.skip j0 jk kn (by rw [hat]; exact hlt) (by rw [hat]; exact h2) hu
            rw [hat, huu] at hT'
            refine Spec.bind (he.both D' _ d g hg' (by omega)) ?_
            intro g' hg'
            rw [show c + (pj - t j) + 1 = c + (pj + 1 - t j) by ring] at hg'
            refine Spec.pure ⟨⟨_, hg', hT', ?_⟩, ?_⟩
            · intro _ q' q0 q1
              have := hb.pat.sorted j j0 (by omega) pj q' hT2.1 (by simp only at q0; omega) q1
              omega
            · simp only [if_true]
              omega
          · rw [if_neg h2]
            refine Spec.pure ⟨⟨_, hg', hT, ?_⟩, ?_⟩
            · intro _ q' q0 q1
              simp only at q0
              by_cases e : q' = pj
              · subst e; omega
              · have := hb.pat.sorted j j0 (by omega) pj q' hT2.1 (by omega) q1
                omega
            · simp only [if_true]
              omega
      · simp only [Bool.not_false, Bool.true_and, hlt, decide_false, Bool.false_eq_true, if_false]
        exact ⟨D', hg', hT.close (by rw [hat]; intros; omega)⟩
  · rintro ⟨s, fl⟩ hs
    exact Spec.pure hs

set_option maxHeartbeats 1000000 in
theorem trCol_spec (hb : PatBuf n Ap Ai jc ir) (he : EmitOk n jc ir emit diag both Inv) {g : σ} {Tp : Buf Int}
    (h : Tr n k (-1) jc ir u t D) (k0 : 0 ≤ k) (kn : k < n) (hu : u k = jc k) (hg : Inv D (visited jc t k) (diagCount jc ir k) g)
    (hT : Arr Tp n k) (hv : ∀ x, 0 ≤ x → x < k → Tp.at x = t x) :
    Spec (trCol emit diag both Ap Ai k (g, Tp)) (fun r => ∃ D' u' t', Inv D' (visited jc t' (k + 1)) (diagCount jc ir (k + 1)) r.1 ∧
      Tr n (k + 1) (-1) jc ir u' t' D' ∧ Arr r.2 n (k + 1) ∧ (∀ x, 0 ≤ x → x < k + 1 → r.2.at x = t' x) ∧
      (k + 1 < n → u' (k + 1) = jc (k + 1))) := by
  unfold trCol
  rw [hb.rdp _ (by omega) (by omega), hb.rdp _ (by omega) (by omega)]
  simp only [ok_bind]
  have hf := hb.fuel k k0 (by omega)
  refine Spec.bind (whileM_spec
    (Inv := fun s : ((σ × Buf Int) × Int) × Bool => ∃ D' u' t', Inv D' (visited jc t' k + (s.1.2 - jc k)) (diagCount jc ir k + (s.1.2 - u' k)) s.1.1.1 ∧
      Tr n k (-1) jc ir u' t' D' ∧ Arr s.1.1.2 n k ∧ (∀ x, 0 ≤ x → x < k → s.1.1.2.at x = t' x) ∧
      (∀ q, jc k ≤ q → q < u' k → ir q < k) ∧
      (if s.2 then u' k ≤ s.1.2 ∧ s.1.2 ≤ jc (k + 1) ∧ (∀ q, jc k ≤ q → q < s.1.2 → ir q ≤ k) ∧
          (∀ q, s.1.2 ≤ q → q < jc (k + 1) → k < ir q) ∧ (∀ q, u' k ≤ q → q < jc (k + 1) → k ≤ ir q) ∧ s.1.2 ≤ u' k + 1 ∧ ∀ q, jc k ≤ q → q < u' k → ir q < k
        else s.1.2 = u' k))
    (μ := fun s => if s.2 then 0 else (jc (k + 1) - s.1.2).toNat)
    (Q := fun s => ∃ D' u' t', Inv D' (visited jc t' k + (s.1.2 - jc k)) (diagCount jc ir k + (s.1.2 - u' k)) s.1.1.1 ∧
      Tr n k (-1) jc ir u' t' D' ∧ Arr s.1.1.2 n k ∧ (∀ x, 0 ≤ x → x < k → s.1.1.2.at x = t' x) ∧
      u' k ≤ s.1.2 ∧ s.1.2 ≤ jc (k + 1) ∧ (∀ q, jc k ≤ q → q < s.1.2 → ir q ≤ k) ∧
          (∀ q, s.1.2 ≤ q → q < jc (k + 1) → k < ir q) ∧ (∀ q, u' k ≤ q → q < jc (k + 1) → k ≤ ir q) ∧ s.1.2 ≤ u' k + 1 ∧ ∀ q, jc k ≤ q → q < u' k → ir q < k)
    ?_ ?_ ?_) ?_
  · refine ⟨D, u, t, by simpa [hu] using hg, h, hT, hv, by intros; omega, ?_⟩
    simp [hu]
  · simp only [Bool.false_eq_true, if_false]
    omega
  · rintro ⟨⟨⟨g, Tp⟩, p⟩, fl⟩ ⟨D', u', t', hg', hTr, hTa, hTv, hlt, hfl⟩
    simp only at hg' hTr hTa hTv hlt hfl ⊢
    refine Spec.pure ?_
    have hub := hTr.ub k k0 kn
    cases fl with
    | true =>
      simp only [Bool.not_true, Bool.false_and, Bool.false_eq_true, if_false]
      simp only [if_true] at hfl
      exact ⟨D', u', t', hg', hTr, hTa, hTv, hfl⟩
    | false =>
      simp only [Bool.false_eq_true, if_false] at hfl
      subst hfl
      by_cases hp2 : u' k < jc (k + 1)
      · simp only [Bool.not_false, Bool.true_and, hp2, decide_true, if_true, Bool.false_eq_true, if_false]
        rw [hb.rdi k k0 (by omega) _ hub.1 hp2]
        simp only [ok_bind]
        have hsrt := hb.pat.sorted k k0 kn
        by_cases h1 : ir (u' k) < k
        · rw [if_pos h1]
          obtain ⟨⟨a0, a2, a3, a4, a5⟩, hTr'⟩ := hTr.upper hb.pat k0 kn hp2 h1
          rw [sub_self, add_zero] at hg'
          refine Spec.bind (he.emit D' _ _ g (ir (u' k)) k hg' hTr.good a0 (by omega) k0 kn a2 (Or.inl a3) a4 a5) ?_
          intro g1 hg1
          rw [hTa.rd a0 h1, hTv _ a0 h1]
          simp only [ok_bind]
          refine Spec.bind (trLower_spec hb he hTr' a0 h1 kn
            ⟨u' k, hub.1, by rw [upd_at, if_pos rfl]; omega, rfl⟩ hg1 (by
              have h5 := visited_le (jc := jc) (t := Function.update t' (ir (u' k)) (jc (ir (u' k) + 1))) k0
                (fun x x0 x1 => by
                  rw [upd_at]
                  split
                  · next e => rw [e]
                  · exact (hTr.tb x x0 (by omega)).2)
              rw [visited_update a0 h1] at h5
              have h6 := hb.pat.le (x := k + 1) (y := n) (by omega) (by omega) le_rfl
              omega)) ?_
          rintro ⟨g2, q2⟩ ⟨D2, hg2, hTr2⟩
          simp only at hg2 hTr2 ⊢
          rw [hTa.wr a0 (by omega)]
          simp only [ok_bind]
          have e5 : visited jc t' k + (u' k - jc k) + 1 + (q2 - t' (ir (u' k)))
              = visited jc (Function.update t' (ir (u' k)) q2) k + (u' k + 1 - jc k) := by
            rw [visited_update a0 h1]; ring
          rw [e5] at hg2
          refine Spec.pure ⟨⟨D2, _, _, by simpa using hg2, hTr2, hTa.put a0 (by omega) _, ?_, ?_, ?_⟩, ?_⟩
          · intro x x0 xk
            simp only
            rw [upd_at, hTa.at_put a0 (by omega)]
            split
            · rfl
            · exact hTv x x0 xk
          · intro q q0 q1
            rw [upd_at, if_pos rfl] at q1
            by_cases e : q = u' k
            · subst e; exact h1
            · exact hlt q q0 (by omega)
          · simp
          · simp only [Bool.false_eq_true, if_false]
            omega
        · rw [if_neg h1]
          have hge : ∀ q, u' k < q → q < jc (k + 1) → ir (u' k) < ir q :=
            fun q q0 q1 => hsrt _ q hub.1 q0 q1
          by_cases h2 : ir (u' k) = k
          · rw [if_pos h2]
            have hdc := diagCount_le (jc := jc) (ir := ir) k0
            rw [sub_self, add_zero] at hg'
            refine Spec.bind (he.diag D' _ _ g hg' hdc.1 (by omega)) ?_
            intro g1 hg1
            refine Spec.pure ⟨⟨D', u', t', ?_, hTr, hTa, hTv, hlt, ?_⟩, ?_⟩
            · simp only
              rw [show visited jc t' k + (u' k + 1 - jc k) = visited jc t' k + (u' k - jc k) + 1 by ring,
                show diagCount jc ir k + (u' k + 1 - u' k) = diagCount jc ir k + 1 by ring]
              exact hg1
            · simp only [if_true]
              refine ⟨by omega, by omega, ?_, ?_, ?_, by omega, hlt⟩
              · intro q q0 q1
                by_cases e : q = u' k
                · subst e; omega
                · have := hlt q q0 (by omega); omega
              · intro q q0 q1
                have := hge q (by omega) q1
                omega
              · intro q q0 q1
                by_cases e : q = u' k
                · subst e; omega
                · have := hge q (by omega) q1
                  omega
            · simp only [if_true]
              omega
          · rw [if_neg h2]
            refine Spec.pure ⟨⟨D', u', t', hg', hTr, hTa, hTv, hlt, ?_⟩, ?_⟩
            · simp only [if_true]
              refine ⟨by omega, by omega, ?_, ?_, ?_, by omega, hlt⟩
              · intro q q0 q1
                have := hlt q q0 (by omega); omega
              · intro q q0 q1
                by_cases e : q = u' k
                · subst e; omega
                · have := hge q (by omega) q1
                  omega
              · intro q q0 q1
                by_cases e : q = u' k
                · subst e; omega
                · have := hge q (by omega) q1
                  omega
            · simp only [if_true]
              omega
      · simp only [Bool.not_false, Bool.true_and, hp2, decide_false, Bool.false_eq_true, if_false]
        exact ⟨D', u', t', hg', hTr, hTa, hTv, le_rfl, hub.2,
          fun q q0 q1 => by have := hlt q q0 q1; omega, by intros; omega, by intros; omega, by omega, hlt⟩
  · rintro ⟨⟨⟨g, Tp⟩, p⟩, fl⟩ ⟨D', u', t', hg', hTr, hTa, hTv, hq1, hq2, hq3, hq4, hq5, hq6, hq7⟩
    simp only at hg' hTr hTa hTv hq1 hq2 hq3 hq4 hq5 hq6 hq7 ⊢
    rw [hTa.wr k0 kn]
    simp only [ok_bind]
    have hv' : visited jc t' k + (p - jc k) = visited jc (Function.update t' k p) (k + 1) := by
      rw [visited_succ k0, Function.update_self, visited_congr (t := Function.update t' k p) (t' := t') (fun x _ x1 => by
        rw [upd_at, if_neg (by omega)])]
    have hd' : diagCount jc ir k + (p - u' k) = diagCount jc ir (k + 1) := by
      classical
      rw [diagCount_succ k0]
      congr 1
      have hub := hTr.ub k k0 kn
      split
      · next hE =>
        obtain ⟨q, q0, q1, q2⟩ := hE
        by_contra hne
        have e : p = u' k := by omega
        subst e
        by_cases hlt : q < u' k
        · have := hq7 q q0 hlt
          omega
        · have := hq4 q (by omega) q1
          omega
      · next hE =>
        by_contra hne
        have e : p = u' k + 1 := by omega
        refine hE ⟨u' k, hub.1, by omega, ?_⟩
        have h1 := hq3 (u' k) hub.1 (by omega)
        have h2 := hq5 (u' k) le_rfl (by omega)
        omega
    rw [hv', hd'] at hg'
    refine Spec.pure ⟨D', _, _, hg', hTr.next k0 kn hq1 hq2 hq3 hq4 hq5, hTa.push k0 kn _, ?_, ?_⟩
    · intro x x0 xk
      simp only
      rw [upd_at, hTa.at_put k0 kn]
      split
      · rfl
      · exact hTv x x0 (by omega)
    · intro hk
      rw [upd_at, if_neg (by omega)]
      exact hTr.u2 _ (by omega) hk

theorem trRest_spec (hb : PatBuf n Ap Ai jc ir) (he : EmitOk n jc ir emit diag both Inv) {g : σ} {Tp : Buf Int} {j : Int}
    (h : Tr n n (-1) jc ir u t D) (j0 : 0 ≤ j) (jn : j < n) (hg : Inv D (visited jc t n) d g) (hT : Arr Tp n n)
    (hv : Tp.at j = t j) :
    Spec (trRest emit Ap Ai Tp j g) (fun r => ∃ D', Inv D' (visited jc (Function.update t j (jc (j + 1))) n) d r ∧
      Tr n n (-1) jc ir u (Function.update t j (jc (j + 1))) D') := by
  unfold trRest
  rw [hT.rd j0 jn, hb.rdp _ (by omega) (by omega), hv]
  simp only [ok_bind]
  have htb := h.tb j j0 jn
  refine forI_int htb.2 (fun p g => ∃ D', Inv D' (visited jc (Function.update t j p) n) d g ∧ Tr n n (-1) jc ir u (Function.update t j p) D') ?_ ?_
  · exact ⟨D, by simpa using hg, by simpa using h⟩
  · rintro p g p0 p1 ⟨D', hg', hTr⟩
    have hat : Function.update t j p j = p := by simp
    have huu : ∀ v, Function.update (Function.update t j p) j v = Function.update t j v := by simp
    rw [hb.rdi j j0 jn p (by omega) p1]
    simp only [ok_bind]
    have hir := hb.pat.rng j j0 jn p (by omega) p1
    obtain ⟨⟨a0, a1, a2, a3, a4, a5⟩, hT'⟩ := hTr.lower hb.pat j0 jn le_rfl
      (by rw [hat]; exact p1) (by rw [hat]; exact hir.2)
    rw [hat] at a0 a1 a2 a3 a4 a5 hT'
    rw [huu] at hT'
    refine (he.emit D' _ d g (ir p) j hg' hTr.good a0 a1 j0 jn a2 (Or.inl a3) a4 a5).mono ?_
    intro g' hg'
    rw [show visited jc (Function.update t j p) n + 1 = visited jc (Function.update t j (p + 1)) n by
      rw [visited_update j0 jn, visited_update j0 jn]; ring] at hg'
    exact ⟨_, hg', hT'⟩

/-- The whole traversal visits every pair of the off-diagonal pattern of `A + A'` once. -/
theorem trAll_spec (hn : 0 ≤ n) (hb : PatBuf n Ap Ai jc ir) (he : EmitOk n jc ir emit diag both Inv) {g : σ}
    {Tp : Buf Int} (hg : Inv (fun _ => []) 0 0 g) (hT : (Tp.length : Int) = n) :
    Spec (do
      let st ← forI 0 n (g, Tp) (trCol emit diag both Ap Ai)
      let g ← forI 0 n st.1 (trRest emit Ap Ai st.2)
      pure (g, st.2)) (fun r => ∃ D, Inv D (jc n - jc 0) (diagCount jc ir n) r.1 ∧ (r.2.length : Int) = n ∧
        ∀ x, 0 ≤ x → x < n → (D x).Nodup ∧
          ∀ y, y ∈ D x ↔ (0 ≤ y ∧ y < n) ∧ x ≠ y ∧ (Ent jc ir x y ∨ Ent jc ir y x)) := by
  refine Spec.bind (forI_int hn (fun k (st : σ × Buf Int) => ∃ D u t, Inv D (visited jc t k) (diagCount jc ir k) st.1 ∧
    Tr n k (-1) jc ir u t D ∧ Arr st.2 n k ∧ (∀ x, 0 ≤ x → x < k → st.2.at x = t x) ∧
    (k < n → u k = jc k)) ?_ ?_) ?_
  · exact ⟨_, jc, jc, by simpa [visited, diagCount] using hg, Tr.init hb.pat, ⟨hT, fun i h0 h1 => absurd h1 (by omega)⟩,
      fun x a b => absurd b (by omega), fun _ => rfl⟩
  · rintro k ⟨g, Tp⟩ k0 kn ⟨D, u, t, hg, hTr, hTa, hTv, hu⟩
    exact trCol_spec hb he hTr k0 kn (hu kn) hg hTa hTv
  · rintro ⟨g, Tp⟩ ⟨D, u, t, hg, hTr, hTa, hTv, -⟩
    simp only at hg hTr hTa hTv ⊢
    refine Spec.bind (forI_int hn (fun j (g : σ) => ∃ D t', Inv D (visited jc t' n) (diagCount jc ir n) g ∧ Tr n n (-1) jc ir u t' D ∧
      (∀ x, 0 ≤ x → x < j → t' x = jc (x + 1)) ∧ (∀ x, j ≤ x → x < n → t' x = t x)) ?_ ?_) ?_
    · exact ⟨D, t, hg, hTr, fun x a b => absurd b (by omega), fun _ _ _ => rfl⟩
    · rintro j g j0 jn ⟨D, t', hg, hTr, h1, h2⟩
      refine (trRest_spec hb he hTr j0 jn hg hTa (by rw [hTv j j0 jn, h2 j le_rfl jn])).mono ?_
      rintro r ⟨D', h3, h4⟩
      refine ⟨D', _, h3, h4, ?_, ?_⟩
      · intro x x0 x1
        rw [upd_at]
        split
        · next e => rw [e]
        · exact h1 x x0 (by omega)
      · intro x x0 x1
        rw [upd_at, if_neg (by omega)]
        exact h2 x (by omega) x1
    · rintro g ⟨D, t', hg, hTr, h1, -⟩
      have hv : visited jc t' n = jc n - jc 0 := by
        rw [visited_congr (t := t') (t' := fun x => jc (x + 1)) h1, visited_all hn]
      rw [hv] at hg
      exact Spec.pure ⟨D, hg, hTa.len, fun x x0 x1 => ⟨hTr.nodup x x0 x1, fun y => hTr.final h1 x0 x1⟩⟩

end

end Verif
