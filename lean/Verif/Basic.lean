import Mathlib.Logic.Function.Basic
import Mathlib.Tactic.Linarith
import Mathlib.Algebra.Order.Ring.Int

/-!
# Checked C memory and loops

`M` is the outcome of running a piece of C code: either a value, or one of the errors of
`Err`, which are the kinds of undefined behaviour (or non-termination) the model distinguishes.
-/

namespace Verif

/-- What can go wrong while executing C code. -/
inductive Err where
  /-- access outside an allocated block -/
  | oob
  /-- read of an uninitialised cell -/
  | uninit
  /-- a `while` loop exceeded its step budget -/
  | diverge
  /-- dereference of a NULL pointer -/
  | null
  /-- signed integer overflow, or an allocation size that wraps (`Model/Amd.lean` and
  `Model/Checked.lean`; the other models have unbounded integers) -/
  | overflow
  deriving DecidableEq, Repr

/-- Outcome of running C code. -/
abbrev M (α : Type) := Except Err α

/-- An allocated array. Its length is the number of cells; `none` is a cell that has never
been written. -/
abbrev Buf (α : Type) := List (Option α)

variable {α β σ τ : Type}

/-- `malloc(n * sizeof(α))`: `n` uninitialised cells. -/
def malloc (n : Int) : Buf α := List.replicate n.toNat none

/-- `b[i]` as an rvalue. -/
def rd (b : Buf α) (i : Int) : M α :=
  if i < 0 then .error .oob
  else match b[i.toNat]? with
    | none => .error .oob
    | some none => .error .uninit
    | some (some v) => .ok v

/-- `b[i] = v`. -/
def wr (b : Buf α) (i : Int) (v : α) : M (Buf α) :=
  if i < 0 then .error .oob
  else if i.toNat < b.length then .ok (b.set i.toNat (some v))
  else .error .oob

/-- Read of a scalar structure member that may not have been written yet. -/
def rdCell (c : Option α) : M α :=
  match c with
  | none => .error .uninit
  | some v => .ok v

/-- Dereference of a pointer that may be NULL. -/
def deref (c : Option α) : M α :=
  match c with
  | none => .error .null
  | some v => .ok v

/-- The value of an integer operation, for integers from `-B - 1` to `B`. -/
def chk (B v : Int) : M Int := if -B - 1 ≤ v ∧ v ≤ B then .ok v else .error .overflow

/-- `k` iterations of a counting loop starting with counter value `i`. -/
def forN : Nat → Int → σ → (Int → σ → M σ) → M σ
  | 0, _, s, _ => .ok s
  | k + 1, i, s, f => do
    let s ← f i s
    forN k (i + 1) s f

/-- `for (i = lo; i < hi; i++) s = f(i, s);` -/
def forI (lo hi : Int) (s : σ) (f : Int → σ → M σ) : M σ := forN (hi - lo).toNat lo s f

/-- `k` iterations of a downward counting loop starting with counter value `i`. -/
def forDownN : Nat → Int → σ → (Int → σ → M σ) → M σ
  | 0, _, s, _ => .ok s
  | k + 1, i, s, f => do
    let s ← f i s
    forDownN k (i - 1) s f

/-- `for (i = hi - 1; i >= 0; i--) s = f(i, s);` -/
def forDown (hi : Int) (s : σ) (f : Int → σ → M σ) : M σ := forDownN hi.toNat (hi - 1) s f

/-- `k` iterations of a counting loop whose body may `break` or `return`
(second component `true`). -/
def forBrkN : Nat → Int → σ → (Int → σ → M (σ × Bool)) → M (σ × Bool)
  | 0, _, s, _ => .ok (s, false)
  | k + 1, i, s, f => do
    let r ← f i s
    if r.2 then .ok (r.1, true) else forBrkN k (i + 1) r.1 f

/-- `for (i = lo; i < hi; i++) { s = f(i, s); if (brk) break; }`; the Boolean of the result says
whether the loop was left by `break`. -/
def forBrk (lo hi : Int) (s : σ) (f : Int → σ → M (σ × Bool)) : M (σ × Bool) :=
  forBrkN (hi - lo).toNat lo s f

/-- `while (c(s)) s = f(s);` with a budget of at most `fuel` iterations. A loop that needs more
iterations is reported as `Err.diverge`. -/
def whileM (fuel : Nat) (c : σ → M Bool) (f : σ → M σ) (s : σ) : M σ := do
  if ← c s then
    match fuel with
    | 0 => .error .diverge
    | fuel + 1 => do
      let s ← f s
      whileM fuel c f s
  else .ok s

@[simp] theorem ok_bind (a : α) (f : α → M β) : ((Except.ok a : M α) >>= f) = f a := rfl
@[simp] theorem error_bind (e : Err) (f : α → M β) :
    ((Except.error e : M α) >>= f) = Except.error e := rfl
@[simp] theorem pure_eq_ok (a : α) : (pure a : M α) = Except.ok a := rfl

/-! ## Total correctness -/

/-- `m` succeeds and its result satisfies `Q`. -/
def Spec (m : M α) (Q : α → Prop) : Prop := ∃ a, m = .ok a ∧ Q a

theorem Spec.ok {a : α} {Q : α → Prop} (h : Q a) : Spec (.ok a : M α) Q := ⟨a, rfl, h⟩

theorem Spec.pure {a : α} {Q : α → Prop} (h : Q a) : Spec (Pure.pure a : M α) Q := ⟨a, rfl, h⟩

theorem Spec.bind {m : M α} {f : α → M β} {Q : α → Prop} {R : β → Prop}
    (h : Spec m Q) (hf : ∀ a, Q a → Spec (f a) R) : Spec (m >>= f) R := by
  obtain ⟨a, rfl, hq⟩ := h
  exact hf a hq

theorem Spec.mono {m : M α} {Q R : α → Prop} (h : Spec m Q) (hqr : ∀ a, Q a → R a) :
    Spec m R := by
  obtain ⟨a, rfl, hq⟩ := h
  exact ⟨a, rfl, hqr a hq⟩

theorem Spec.ite {c : Prop} [Decidable c] {m₁ m₂ : M α} {Q : α → Prop}
    (h₁ : c → Spec m₁ Q) (h₂ : ¬c → Spec m₂ Q) : Spec (if c then m₁ else m₂) Q := by
  split
  · exact h₁ ‹_›
  · exact h₂ ‹_›

theorem Spec.and {m : M α} {Q R : α → Prop} (h : Spec m Q) (h' : Spec m R) :
    Spec m (fun a => Q a ∧ R a) := by
  obtain ⟨a, rfl, hq⟩ := h
  obtain ⟨b, hb, hr⟩ := h'
  cases hb
  exact ⟨a, rfl, hq, hr⟩

theorem Spec.of_eq {m : M α} {a : α} {Q : α → Prop} (h : m = .ok a) (hq : Q a) : Spec m Q :=
  ⟨a, h, hq⟩

theorem Spec.elim {m : M α} {a : α} {Q : α → Prop} (h : Spec m Q) (e : m = .ok a) : Q a := by
  obtain ⟨b, hb, hq⟩ := h
  rw [e] at hb
  cases hb
  exact hq

theorem bind_eq_ok {m : M α} {f : α → M β} {b : β} :
    (m >>= f) = .ok b ↔ ∃ a, m = .ok a ∧ f a = .ok b := by
  cases m with
  | error e => simp
  | ok a => simp

/-! ## Loop rules -/

theorem forN_spec {k : Nat} {i : Int} {s : σ} {f : Int → σ → M σ} (Inv : Int → σ → Prop)
    (h0 : Inv i s)
    (hstep : ∀ j s, i ≤ j → j < i + k → Inv j s → Spec (f j s) (Inv (j + 1))) :
    Spec (forN k i s f) (Inv (i + k)) := by
  induction k generalizing i s with
  | zero => simpa [forN, Spec] using h0
  | succ k ih =>
    refine Spec.bind (hstep i s le_rfl (by omega) h0) ?_
    intro s' hs'
    have := @ih (i + 1) s' hs' (fun j s h1 h2 hi => hstep j s (by omega) (by omega) hi)
    have e : i + ((k + 1 : Nat) : Int) = i + 1 + k := by omega
    rw [e]
    exact this

/-- Invariant rule for counting loops with natural bounds. -/
theorem forI_spec {lo hi : Nat} (hle : lo ≤ hi) {s : σ} {f : Int → σ → M σ}
    (Inv : Nat → σ → Prop) (h0 : Inv lo s)
    (hstep : ∀ (j : Nat) s, lo ≤ j → j < hi → Inv j s → Spec (f (j : Int) s) (Inv (j + 1))) :
    Spec (forI (lo : Int) (hi : Int) s f) (Inv hi) := by
  unfold forI
  have hk : ((hi : Int) - (lo : Int)).toNat = hi - lo := by omega
  rw [hk]
  have := forN_spec (k := hi - lo) (i := (lo : Int)) (s := s) (f := f)
    (fun j s => Inv j.toNat s) (by simpa using h0) (by
      intro j s h1 h2 hinv
      obtain ⟨j, rfl⟩ : ∃ j' : Nat, j = (j' : Int) := ⟨j.toNat, by omega⟩
      have := hstep j s (by omega) (by omega) (by simpa using hinv)
      have e : ((j : Int) + 1).toNat = j + 1 := by omega
      simpa [e] using this)
  have e : ((lo : Int) + ((hi - lo : Nat) : Int)).toNat = hi := by omega
  rw [e] at this
  exact this

/-- A counting loop over an empty range. -/
theorem forI_empty {lo hi : Int} (h : hi ≤ lo) {s : σ} {f : Int → σ → M σ} :
    forI lo hi s f = .ok s := by
  unfold forI
  have : (hi - lo).toNat = 0 := by omega
  rw [this]
  rfl

/-- Pure counting loop `for (i = lo; i < hi; i++) s = g(i, s);` over natural numbers. -/
def foldN (lo : Nat) : Nat → σ → (Nat → σ → σ) → σ
  | 0, s, _ => s
  | k + 1, s, g => g (lo + k) (foldN lo k s g)

/-- Pure counting loop from `lo` (inclusive) to `hi` (exclusive). -/
def foldI (lo hi : Nat) (s : σ) (g : Nat → σ → σ) : σ := foldN lo (hi - lo) s g

@[simp] theorem foldI_self (lo : Nat) (s : σ) (g : Nat → σ → σ) : foldI lo lo s g = s := by
  simp [foldI, foldN]

theorem foldI_succ {lo hi : Nat} (h : lo ≤ hi) (s : σ) (g : Nat → σ → σ) :
    foldI lo (hi + 1) s g = g hi (foldI lo hi s g) := by
  have e : hi + 1 - lo = (hi - lo) + 1 := by omega
  have e2 : lo + (hi - lo) = hi := by omega
  simp [foldI, e, foldN, e2]

theorem foldI_ge {lo hi : Nat} (h : hi ≤ lo) (s : σ) (g : Nat → σ → σ) : foldI lo hi s g = s := by
  have : hi - lo = 0 := by omega
  simp [foldI, this, foldN]

/-- Induction principle for pure counting loops. -/
theorem foldI_induct {lo hi : Nat} (hle : lo ≤ hi) {s : σ} {g : Nat → σ → σ}
    (Inv : Nat → σ → Prop) (h0 : Inv lo s)
    (hstep : ∀ j s, lo ≤ j → j < hi → Inv j s → Inv (j + 1) (g j s)) :
    Inv hi (foldI lo hi s g) := by
  induction hi, hle using Nat.le_induction with
  | base => simpa using h0
  | succ n hn ih =>
    rw [foldI_succ hn]
    exact hstep n _ hn (by omega) (ih (fun j s h1 h2 => hstep j s h1 (by omega)))

theorem foldI_congr {lo hi : Nat} {s : σ} {g g' : Nat → σ → σ}
    (h : ∀ j s, lo ≤ j → j < hi → g j s = g' j s) : foldI lo hi s g = foldI lo hi s g' := by
  rcases Nat.lt_or_ge hi lo with hlt | hle
  · rw [foldI_ge hlt.le, foldI_ge hlt.le]
  · induction hi, hle using Nat.le_induction with
    | base => simp
    | succ n hn ih =>
      rw [foldI_succ hn, foldI_succ hn, ih (fun j s h1 h2 => h j s h1 (by omega)),
        h n _ hn (by omega)]

theorem foldI_split {lo mid hi : Nat} (h1 : lo ≤ mid) (h2 : mid ≤ hi) (s : σ)
    (g : Nat → σ → σ) : foldI lo hi s g = foldI mid hi (foldI lo mid s g) g := by
  induction hi, h2 using Nat.le_induction with
  | base => simp
  | succ n hn ih => rw [foldI_succ (by omega), foldI_succ hn, ih]

/-- A checked loop refines a pure loop if its body does. -/
theorem forI_refine {lo hi : Nat} (hle : lo ≤ hi) {t : τ} {s : σ} {f : Int → τ → M τ}
    {g : Nat → σ → σ} (R : Nat → τ → σ → Prop) (h0 : R lo t s)
    (hstep : ∀ (j : Nat) t s, lo ≤ j → j < hi → R j t s →
      Spec (f (j : Int) t) (fun t' => R (j + 1) t' (g j s))) :
    Spec (forI (lo : Int) (hi : Int) t f) (fun t' => R hi t' (foldI lo hi s g)) := by
  have := forI_spec hle (s := t) (f := f) (fun j t => R j t (foldI lo j s g)) (by simpa using h0)
    (by
      intro j t h1 h2 hR
      have := hstep j t _ h1 h2 hR
      rw [foldI_succ h1]
      exact this)
  exact this

theorem forDownN_spec {k : Nat} {i : Int} {s : σ} {f : Int → σ → M σ} (Inv : Int → σ → Prop)
    (h0 : Inv i s)
    (hstep : ∀ j s, j ≤ i → i - k < j → Inv j s → Spec (f j s) (Inv (j - 1))) :
    Spec (forDownN k i s f) (Inv (i - k)) := by
  induction k generalizing i s with
  | zero => simpa [forDownN, Spec] using h0
  | succ k ih =>
    refine Spec.bind (hstep i s le_rfl (by omega) h0) ?_
    intro s' hs'
    have := @ih (i - 1) s' hs' (fun j s h1 h2 hi => hstep j s (by omega) (by omega) hi)
    have e : i - ((k + 1 : Nat) : Int) = i - 1 - k := by omega
    rw [e]
    exact this

/-- Invariant rule for downward loops: `Inv j` holds before the iteration with counter `j-1`. -/
theorem forDown_spec {hi : Nat} {s : σ} {f : Int → σ → M σ}
    (Inv : Nat → σ → Prop) (h0 : Inv hi s)
    (hstep : ∀ (j : Nat) s, j < hi → Inv (j + 1) s → Spec (f (j : Int) s) (Inv j)) :
    Spec (forDown (hi : Int) s f) (Inv 0) := by
  unfold forDown
  have hk : (hi : Int).toNat = hi := by omega
  rw [hk]
  have := forDownN_spec (k := hi) (i := (hi : Int) - 1) (s := s) (f := f)
    (fun j s => Inv (j + 1).toNat s) (by
      have e : ((hi : Int) - 1 + 1).toNat = hi := by omega
      simpa [e] using h0) (by
      intro j s h1 h2 hinv
      obtain ⟨j, rfl⟩ : ∃ j' : Nat, j = (j' : Int) := ⟨j.toNat, by omega⟩
      have e : ((j : Int) + 1).toNat = j + 1 := by omega
      have := hstep j s (by omega) (by simpa [e] using hinv)
      have e : ((j : Int) - 1 + 1).toNat = j := by omega
      simpa [e] using this)
  have e : ((hi : Int) - 1 - (hi : Int) + 1).toNat = 0 := by omega
  rw [e] at this
  exact this

theorem forBrkN_spec {k : Nat} {i : Int} {s : σ} {f : Int → σ → M (σ × Bool)}
    (Inv : Int → σ → Prop) (Brk : Int → σ → Prop) (h0 : Inv i s)
    (hstep : ∀ j s, i ≤ j → j < i + k → Inv j s →
      Spec (f j s) (fun r => if r.2 then Brk j r.1 else Inv (j + 1) r.1)) :
    Spec (forBrkN k i s f) (fun r => if r.2 then (∃ j, i ≤ j ∧ j < i + k ∧ Brk j r.1)
      else Inv (i + k) r.1) := by
  induction k generalizing i s with
  | zero => simpa [forBrkN, Spec] using h0
  | succ k ih =>
    refine Spec.bind (hstep i s le_rfl (by omega) h0) ?_
    rintro ⟨s', b⟩ hs'
    cases b with
    | true =>
      simp only [if_true] at hs' ⊢
      exact Spec.ok (by simpa using ⟨i, le_rfl, by omega, hs'⟩)
    | false =>
      simp only [Bool.false_eq_true, if_false] at hs' ⊢
      have := @ih (i + 1) s' hs'
        (fun j s h1 h2 hi => hstep j s (by omega) (by omega) hi)
      refine this.mono ?_
      rintro ⟨r, b⟩ hr
      cases b with
      | true =>
        simp only [if_true] at hr ⊢
        obtain ⟨j, h1, h2, h3⟩ := hr
        exact ⟨j, by omega, by omega, h3⟩
      | false =>
        simp only [Bool.false_eq_true, if_false] at hr ⊢
        have e : i + ((k + 1 : Nat) : Int) = i + 1 + k := by omega
        rw [e]
        exact hr

/-- Invariant rule for loops with `break`. -/
theorem forBrk_spec {lo hi : Nat} (hle : lo ≤ hi) {s : σ} {f : Int → σ → M (σ × Bool)}
    (Inv : Nat → σ → Prop) (Brk : Nat → σ → Prop) (h0 : Inv lo s)
    (hstep : ∀ (j : Nat) s, lo ≤ j → j < hi → Inv j s →
      Spec (f (j : Int) s) (fun r => if r.2 then Brk j r.1 else Inv (j + 1) r.1)) :
    Spec (forBrk (lo : Int) (hi : Int) s f)
      (fun r => if r.2 then (∃ j, lo ≤ j ∧ j < hi ∧ Brk j r.1) else Inv hi r.1) := by
  unfold forBrk
  have hk : ((hi : Int) - (lo : Int)).toNat = hi - lo := by omega
  rw [hk]
  have := forBrkN_spec (k := hi - lo) (i := (lo : Int)) (s := s) (f := f)
    (fun j s => Inv j.toNat s) (fun j s => Brk j.toNat s) (by simpa using h0) (by
      intro j s h1 h2 hinv
      obtain ⟨j, rfl⟩ : ∃ j' : Nat, j = (j' : Int) := ⟨j.toNat, by omega⟩
      have := hstep j s (by omega) (by omega) (by simpa using hinv)
      have e : ((j : Int) + 1).toNat = j + 1 := by omega
      simpa [e] using this)
  refine this.mono ?_
  rintro ⟨r, b⟩ hr
  cases b with
  | true =>
    simp only [if_true] at hr ⊢
    obtain ⟨j, h1, h2, h3⟩ := hr
    exact ⟨j.toNat, by omega, by omega, h3⟩
  | false =>
    simp only [Bool.false_eq_true, if_false] at hr ⊢
    have e : ((lo : Int) + ((hi - lo : Nat) : Int)).toNat = hi := by omega
    rw [e] at hr
    exact hr

/-- Total-correctness rule for `while` loops: `μ` bounds the number of remaining iterations. -/
theorem whileM_spec {fuel : Nat} {c : σ → M Bool} {f : σ → M σ} {s : σ}
    (Inv : σ → Prop) (μ : σ → Nat) (Q : σ → Prop) (h0 : Inv s) (hμ : μ s ≤ fuel)
    (hc : ∀ s, Inv s → Spec (c s) (fun b =>
      if b then Spec (f s) (fun s' => Inv s' ∧ μ s' < μ s) else Q s)) :
    Spec (whileM fuel c f s) Q := by
  induction fuel generalizing s with
  | zero =>
    unfold whileM
    refine Spec.bind (hc s h0) ?_
    intro b hb
    cases b with
    | true =>
      simp only [if_true] at hb
      obtain ⟨s', _, _, h2⟩ := hb
      omega
    | false => simpa [Spec] using hb
  | succ fuel ih =>
    unfold whileM
    refine Spec.bind (hc s h0) ?_
    intro b hb
    cases b with
    | true =>
      simp only [if_true] at hb ⊢
      refine Spec.bind hb ?_
      rintro s' ⟨h1, h2⟩
      exact ih h1 (by omega)
    | false => simpa [Spec] using hb

/-! ## Contents of buffers -/

/-- The first `n` cells of `b` are initialised and hold `f 0, …, f (n-1)`. -/
def Buf.Has (b : Buf α) (n : Nat) (f : Nat → α) : Prop :=
  ∀ i, i < n → b[i]? = some (some (f i))

namespace Buf.Has

variable {b : Buf α} {n : Nat} {f g : Nat → α}

theorem le_length (h : Buf.Has b n f) : n ≤ b.length := by
  rcases Nat.eq_zero_or_pos n with rfl | hn
  · exact Nat.zero_le _
  · have := h (n - 1) (by omega)
    obtain ⟨h1, _⟩ := List.getElem?_eq_some_iff.mp this
    omega

theorem rd (h : Buf.Has b n f) {i : Nat} (hi : i < n) : Verif.rd b (i : Int) = .ok (f i) := by
  unfold Verif.rd
  have e : ¬ ((i : Int) < 0) := by omega
  simp [e, h i hi]

theorem rd' (h : Buf.Has b n f) {i : Int} (h0 : 0 ≤ i) (hi : i < n) :
    Verif.rd b i = .ok (f i.toNat) := by
  have := h.rd (i := i.toNat) (by omega)
  rwa [Int.toNat_of_nonneg h0] at this

theorem mono (h : Buf.Has b n f) {k : Nat} (hk : k ≤ n) : Buf.Has b k f :=
  fun i hi => h i (by omega)

theorem congr (h : Buf.Has b n f) (hfg : ∀ i, i < n → f i = g i) : Buf.Has b n g :=
  fun i hi => by rw [h i hi, hfg i hi]

theorem unique (h : Buf.Has b n f) (h' : Buf.Has b n g) {i : Nat} (hi : i < n) : f i = g i := by
  have h1 := h i hi
  rw [h' i hi] at h1
  simpa using h1.symm

theorem zero (b : Buf α) (f : Nat → α) : Buf.Has b 0 f := fun i hi => absurd hi (by omega)

/-- Overwriting an initialised cell. -/
theorem set (h : Buf.Has b n f) {i : Nat} (hi : i < b.length) (v : α) :
    Buf.Has (b.set i (some v)) n (Function.update f i v) := by
  intro j hj
  rw [List.getElem?_set]
  by_cases e : i = j
  · subst e
    simp [hi]
  · rw [if_neg e, h j hj, Function.update_of_ne (Ne.symm e)]

/-- Initialising the next cell. -/
theorem push (h : Buf.Has b n f) (hn : n < b.length) (v : α) (hv : v = g n)
    (hfg : ∀ i, i < n → f i = g i) : Buf.Has (b.set n (some v)) (n + 1) g := by
  intro j hj
  rw [List.getElem?_set]
  by_cases e : n = j
  · subst e
    simp [hn, hv]
  · rw [if_neg e, h j (by omega), hfg j (by omega)]

end Buf.Has

theorem wr_ok {b : Buf α} {i : Nat} (hi : i < b.length) (v : α) :
    wr b (i : Int) v = .ok (b.set i (some v)) := by
  unfold wr
  have e : ¬ ((i : Int) < 0) := by omega
  simp [e, hi]

theorem wr_ok' {b : Buf α} {i : Int} (h0 : 0 ≤ i) (hi : i < b.length) (v : α) :
    wr b i v = .ok (b.set i.toNat (some v)) := by
  have := wr_ok (b := b) (i := i.toNat) (by omega) v
  rwa [Int.toNat_of_nonneg h0] at this

theorem rd_ok {b : Buf α} {i : Nat} {v : α} (h : b[i]? = some (some v)) :
    rd b (i : Int) = .ok v := by
  unfold rd
  have e : ¬ ((i : Int) < 0) := by omega
  simp [e, h]

@[simp] theorem length_malloc (n : Int) : (malloc n : Buf α).length = n.toNat := by
  simp [malloc]

end Verif
