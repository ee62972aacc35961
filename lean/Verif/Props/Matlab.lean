import Verif.Lemmas.Front
import Verif.Props.Safety
import Verif.Props.LdlBasic
import Verif.Props.Python

/-!
# C45, C50-C52: the MATLAB entry point
-/

set_option linter.unusedSectionVars false

namespace Verif

section Generic

variable {K : Type} [Zero K] [One K] [Add K] [Sub K] [Mul K] [Div K] [Neg K] [Scalar K] [ToInt K]

/-! ## Specification -/

/-- `w` lists each of the numbers `1, …, N` exactly once. -/
def IsPerm1 (N : Nat) (w : Nat → Int) : Prop :=
  (∀ i, i < N → 1 ≤ w i ∧ w i ≤ N) ∧ ∀ i j, i < N → j < N → w i = w j → i = j

/-- What follows once the permutation is known: setup with it, options, solve, results. -/
def mexRun (amd : Amd) (a : MexArgs K) (Permut : Option (Buf Int)) :
    M (Except String (MexOut K)) := do
  let myQP ← QP_SETUP amd (mexSetupArgs a Permut)
  match ← mexOptions a myQP.options with
  | .error e => pure (.error e)
  | .ok o => do
    let r ← QP_SOLVE { myQP with options := o }
    let out ← mexResult a.nlhs a.n a.m a.p r.1 r.2
    pure (.ok out)

/-- The option `q` is the one taken for the two spellings. -/
def MexArgs.Option (a : MexArgs K) (upper lower : String) (q : MxArr K) : Prop :=
  ∃ l, a.sttgs = some l ∧ ((∃ l1 l2, l = l1 ++ (upper, q) :: l2 ∧ ∀ e ∈ l1, e.1 ≠ upper) ∨
    ((∀ e ∈ l, e.1 ≠ upper) ∧ ∃ l1 l2, l = l1 ++ (lower, q) :: l2 ∧ ∀ e ∈ l1, e.1 ≠ lower))

theorem find_first {l : List (String × MxArr K)} {k : String} {q : MxArr K} :
    l.find? (fun e => e.1 = k) = some (k, q) ↔
      ∃ l1 l2, l = l1 ++ (k, q) :: l2 ∧ ∀ e ∈ l1, e.1 ≠ k := by
  rw [List.find?_eq_some_iff_append]
  simp only [decide_true, true_and, Bool.not_eq_true', decide_eq_false_iff_not]

theorem mxOption_iff {a : MexArgs K} {upper lower : String} {q : MxArr K} :
    mxOption a upper lower = some q ↔ a.Option upper lower q := by
  unfold mxOption MexArgs.Option
  cases hs : a.sttgs with
  | none => simp
  | some l =>
    simp only [Option.some.injEq, exists_eq_left']
    have hsnd : ∀ k (e : String × MxArr K), l.find? (fun e => e.1 = k) = some e → e.1 = k := by
      intro k e he
      simpa using List.find?_some he
    cases hu : l.find? (fun e => e.1 = upper) with
    | some e =>
      obtain ⟨k, r⟩ := e
      have hk := hsnd upper _ hu
      simp only at hk
      subst hk
      simp only [Option.some.injEq]
      constructor
      · rintro rfl
        exact Or.inl (find_first.mp hu)
      · rintro (h | ⟨h, _⟩)
        · have := find_first.mpr h
          rw [hu] at this
          cases this
          rfl
        · exact absurd rfl (h _ (List.mem_of_find?_eq_some hu))
    | none =>
      have hno : ∀ e ∈ l, e.1 ≠ upper := by
        intro e he
        simpa using List.find?_eq_none.mp hu e he
      simp only [Option.map_eq_some_iff]
      constructor
      · rintro ⟨⟨k, r⟩, he, hr⟩
        have hk := hsnd lower _ he
        simp only at hk hr
        subst hk hr
        exact Or.inr ⟨hno, find_first.mp he⟩
      · rintro (h | ⟨_, h⟩)
        · have := find_first.mpr h
          rw [hu] at this
          cases this
        · exact ⟨_, find_first.mpr h, rfl⟩

theorem mxOption_of {a : MexArgs K} {upper lower : String} {q : MxArr K}
    (h : a.Option upper lower q) : mxOption a upper lower = some q := mxOption_iff.mpr h

/-! ## C45 -/

theorem mexPermut_eq {a : MexArgs K} {q : MxArr K} (hq : mxOption a "PERMUT" "permut" = some q)
    {N : Nat} (hN : a.n + a.m + a.p = N) {v : Nat → K} (hv : Buf.Has q.pr N v) :
    mexPermut a =
      (do
        let ok ← LDL_valid_perm (N : Int)
          (some (Buf.ofFn N (fun i => ToInt.trunc (v i - Scalar.dec 1 0)))) (some (malloc N))
        if ok = 0 then pure (.error "Not a Valid Permutation Vector")
        else pure (.ok (some (Buf.ofFn N (fun i => ToInt.trunc (v i - Scalar.dec 1 0)))))) := by
  have hfill : forI 0 (N : Int) (malloc N : Buf Int) (fun i Permutpr => do
      let x ← rd q.pr i
      wr Permutpr i (ToInt.trunc (x - Scalar.dec 1 0)))
      = .ok (Buf.ofFn N (fun i => ToInt.trunc (v i - Scalar.dec 1 0))) := by
    obtain ⟨d, e, h1, h2⟩ := forI_fill (b := (malloc N : Buf Int)) (n := N) (by simp [malloc])
      (fun i => ToInt.trunc (v i - Scalar.dec 1 0))
      (f := fun i Permutpr => do
        let x ← rd q.pr i
        wr Permutpr i (ToInt.trunc (x - Scalar.dec 1 0))) (by
        intro j b' hj _ _ _
        rw [hv.rd hj, ok_bind])
    rw [e]
    congr 1
    refine List.ext_getElem? fun i => ?_
    by_cases hi : i < N
    · rw [h2.1 i hi, Buf.has_ofFn N _ i hi]
    · rw [List.getElem?_eq_none (by rw [h1]; simp [malloc]; omega),
        List.getElem?_eq_none (by rw [Buf.length_ofFn]; omega)]
  unfold mexPermut
  rw [hq]
  simp only [hN, hfill, ok_bind]

theorem isPerm_iff_isPerm1 {N : Nat} {w : Nat → Int} : IsPerm N (fun i => w i - 1) ↔ IsPerm1 N w := by
  unfold IsPerm IsPerm1
  simp only
  constructor
  · rintro ⟨h1, h2⟩
    exact ⟨fun i hi => by have := h1 i hi; omega,
      fun i j hi hj e => h2 i j hi hj (by omega)⟩
  · rintro ⟨h1, h2⟩
    exact ⟨fun i hi => by have := h1 i hi; omega,
      fun i j hi hj e => h2 i j hi hj (by omega)⟩

theorem mexFunction_checked {a : MexArgs K} (hc : mexCheck a = none) (amd : Amd) :
    mexFunction amd a = (do
      match ← mexPermut a with
      | .error e => pure (.error e)
      | .ok Permut => mexRun amd a Permut) := by
  unfold mexFunction
  rw [hc]
  rfl

/-- **C45**: let the checks of the shapes have passed and let the option `PERMUT` (or `permut`) hold
the numbers `v`, where `v i - 1`, converted to an integer, is `w i - 1`. If `w` is a permutation of
`1, …, n + m + p` the call continues with setup, and setup is given the 0-based version of `w`.
Otherwise the call stops with an error before setup. -/
theorem C45_permutation {a : MexArgs K} (hc : mexCheck a = none) {q : MxArr K}
    (hq : a.Option "PERMUT" "permut" q) {N : Nat} (hN : a.n + a.m + a.p = N) {v : Nat → K}
    (hv : Buf.Has q.pr N v) {w : Nat → Int}
    (hw : ∀ i, i < N → ToInt.trunc (v i - Scalar.dec 1 0) = w i - 1) (amd : Amd) :
    (IsPerm1 N w →
      mexFunction amd a = mexRun amd a (some (Buf.ofFn N (fun i => w i - 1)))) ∧
    (¬ IsPerm1 N w → mexFunction amd a = .ok (.error "Not a Valid Permutation Vector")) := by
  have he := mexPermut_eq (mxOption_of hq) hN hv
  have hb : (Buf.ofFn N (fun i => (ToInt.trunc (v i - Scalar.dec 1 0) : Int)))
      = Buf.ofFn N (fun i => w i - 1) := by
    refine List.ext_getElem? fun i => ?_
    by_cases hi : i < N
    · rw [Buf.has_ofFn N _ i hi, Buf.has_ofFn N _ i hi, hw i hi]
    · rw [List.getElem?_eq_none (by rw [Buf.length_ofFn]; omega),
        List.getElem?_eq_none (by rw [Buf.length_ofFn]; omega)]
  rw [hb] at he
  obtain ⟨r, hr, hr01, hriff⟩ := C34_valid_perm (n := N) (Flag := malloc N)
    (Buf.has_ofFn N (fun i => w i - 1)) (by simp [malloc])
  rw [hr, ok_bind] at he
  rw [mexFunction_checked hc, he, ← isPerm_iff_isPerm1]
  constructor
  · intro hp
    rw [hriff.mpr hp]
    rfl
  · intro hp
    have : r = 0 := by
      rcases hr01 with h | h
      · exact h
      · exact absurd (hriff.mp h) hp
    rw [this]
    rfl

/-- Without such an option setup is given no permutation. -/
theorem C45_no_permutation {a : MexArgs K} (hc : mexCheck a = none)
    (hn : ∀ l, a.sttgs = some l → ∀ e ∈ l, e.1 ≠ "PERMUT" ∧ e.1 ≠ "permut") (amd : Amd) :
    mexFunction amd a = mexRun amd a none := by
  have : mxOption a "PERMUT" "permut" = none := by
    unfold mxOption
    cases hs : a.sttgs with
    | none => rfl
    | some l =>
      simp only
      rw [List.find?_eq_none.mpr (by
        intro e he
        simpa using (hn l hs e he).1), List.find?_eq_none.mpr (by
        intro e he
        simpa using (hn l hs e he).2)]
      rfl
  have hm : mexPermut a = .ok (.ok none) := by
    unfold mexPermut
    rw [this]
    rfl
  rw [mexFunction_checked hc, hm]
  rfl

/-- The names of the options. -/
def mexNames : List String :=
  ["MAXITER", "maxiter", "ABSTOL", "abstol", "RELTOL", "reltol", "VERBOSE", "verbose", "SIGMA",
    "sigma", "PERMUT", "permut"]

/-- **C50**: fields with other names have no effect at all. In particular the spelling `Permut` of
the help text is silently ignored. -/
theorem C50_other_fields_ignored (amd : Amd) (a : MexArgs K) (l : List (String × MxArr K)) :
    mexFunction amd { a with sttgs := some l }
      = mexFunction amd { a with sttgs := some (l.filter (fun e => e.1 ∈ mexNames)) } := by
  have key : ∀ u w, u ∈ mexNames → w ∈ mexNames → mxOption { a with sttgs := some l } u w
      = mxOption { a with sttgs := some (l.filter (fun e => e.1 ∈ mexNames)) } u w := by
    intro u w hu hw
    have hf : ∀ k, k ∈ mexNames → (l.filter (fun e => e.1 ∈ mexNames)).find? (fun e => e.1 = k)
        = l.find? (fun e => e.1 = k) := by
      intro k hk
      rw [List.find?_filter]
      congr 1
      funext e
      by_cases h : e.1 = k
      · simp [h, hk]
      · simp [h]
    unfold mxOption
    simp only [hf u hu, hf w hw]
  have k1 := key "PERMUT" "permut" (by decide) (by decide)
  have k2 := key "MAXITER" "maxiter" (by decide) (by decide)
  have k3 := key "ABSTOL" "abstol" (by decide) (by decide)
  have k4 := key "RELTOL" "reltol" (by decide) (by decide)
  have k5 := key "SIGMA" "sigma" (by decide) (by decide)
  have k6 := key "VERBOSE" "verbose" (by decide) (by decide)
  have c1 : mexCheck { a with sttgs := some l }
      = mexCheck { a with sttgs := some (l.filter (fun e => e.1 ∈ mexNames)) } := by
    unfold mexCheck mexChecks
    rw [k1]
    rfl
  have c2 : mexPermut { a with sttgs := some l }
      = mexPermut { a with sttgs := some (l.filter (fun e => e.1 ∈ mexNames)) } := by
    unfold mexPermut
    rw [k1]
    rfl
  have c3 : ∀ s, mexOptions { a with sttgs := some l } s
      = mexOptions { a with sttgs := some (l.filter (fun e => e.1 ∈ mexNames)) } s := by
    intro s
    unfold mexOptions mexOption
    rw [k2, k3, k4, k5, k6]
  unfold mexFunction
  simp only [c1, c2, c3]
  rfl

/-! ## C52 -/

/-- The option is given and its first number is `x`. -/
def MexArgs.Value (a : MexArgs K) (upper lower : String) (x : K) : Prop :=
  ∃ q, a.Option upper lower q ∧ q.pr[0]? = some (some x)

/-- The option is not given. -/
def MexArgs.Absent (a : MexArgs K) (upper lower : String) : Prop :=
  ∀ q, ¬ a.Option upper lower q

/-- Options that are given are not empty. -/
def MexArgs.Readable (a : MexArgs K) (upper lower : String) : Prop :=
  ∀ q, a.Option upper lower q → ∃ x, q.pr[0]? = some (some x)

/-- No option that is given compares as out of range: `MAXITER` in `0 … 200`, tolerances in
`0 … 1`, `SIGMA` and `VERBOSE` not negative. -/
structure MexArgs.Valid (a : MexArgs K) : Prop where
  maxit : ∀ x, a.Value "MAXITER" "maxiter" x →
    Scalar.ltb x (Scalar.dec 0 0) = false ∧ Scalar.ltb (Scalar.dec 200 0) x = false
  abstol : ∀ x, a.Value "ABSTOL" "abstol" x →
    Scalar.ltb x (Scalar.dec 0 0) = false ∧ Scalar.ltb (Scalar.dec 1 0) x = false
  reltol : ∀ x, a.Value "RELTOL" "reltol" x →
    Scalar.ltb x (Scalar.dec 0 0) = false ∧ Scalar.ltb (Scalar.dec 1 0) x = false
  sigma : ∀ x, a.Value "SIGMA" "sigma" x → Scalar.ltb x (Scalar.dec 0 0) = false
  verbose : ∀ x, a.Value "VERBOSE" "verbose" x → Scalar.ltb x (Scalar.dec 0 0) = false

/-- The settings `s` are the options given (integers truncated), those of `s0` where none is
given. -/
structure MexArgs.Uses (a : MexArgs K) (s0 s : Settings K) : Prop where
  maxit : (∃ x, a.Value "MAXITER" "maxiter" x ∧ s.maxit = ToInt.trunc x) ∨
    a.Absent "MAXITER" "maxiter" ∧ s.maxit = s0.maxit
  abstol : (∃ x, a.Value "ABSTOL" "abstol" x ∧ s.abstol = x) ∨
    a.Absent "ABSTOL" "abstol" ∧ s.abstol = s0.abstol
  reltol : (∃ x, a.Value "RELTOL" "reltol" x ∧ s.reltol = x) ∨
    a.Absent "RELTOL" "reltol" ∧ s.reltol = s0.reltol
  sigma : (∃ x, a.Value "SIGMA" "sigma" x ∧ s.sigma = x) ∨
    a.Absent "SIGMA" "sigma" ∧ s.sigma = s0.sigma
  verbose : (∃ x, a.Value "VERBOSE" "verbose" x ∧ s.verbose = ToInt.trunc x) ∨
    a.Absent "VERBOSE" "verbose" ∧ s.verbose = s0.verbose

theorem MexArgs.Value.unique {a : MexArgs K} {u w : String} {x y : K} (hx : a.Value u w x)
    (hy : a.Value u w y) : x = y := by
  obtain ⟨q, h1, h2⟩ := hx
  obtain ⟨r, h3, h4⟩ := hy
  have e := mxOption_iff.mpr h1
  rw [mxOption_iff.mpr h3] at e
  cases e
  rw [h2] at h4
  cases h4
  rfl

theorem mexOption_step {a : MexArgs K} {u w : String} (hr : a.Readable u w) (bad : K → Bool)
    (msg : String) (set : Settings K → K → Settings K) (s : Settings K) :
    (∃ s', ((∃ x, a.Value u w x ∧ s' = set s x) ∨ a.Absent u w ∧ s' = s) ∧
      (∀ x, a.Value u w x → bad x = false) ∧
      mexOption a u w bad msg set (.ok s) = .ok (.ok s')) ∨
    (∃ x, a.Value u w x ∧ bad x = true ∧
      mexOption a u w bad msg set (.ok s) = .ok (.error msg)) := by
  unfold mexOption
  simp only
  cases ho : mxOption a u w with
  | none =>
    have hno : a.Absent u w := by
      intro q hq
      rw [mxOption_iff.mpr hq] at ho
      cases ho
    exact Or.inl ⟨s, Or.inr ⟨hno, rfl⟩, fun y ⟨q, hq, _⟩ => absurd hq (hno q), rfl⟩
  | some q =>
    have hq := mxOption_iff.mp ho
    obtain ⟨x, hx⟩ := hr q hq
    have hrd : mxScalar q = .ok x := by
      unfold mxScalar rd
      simp [hx]
    have hv : a.Value u w x := ⟨q, hq, hx⟩
    simp only [hrd, ok_bind]
    cases hb : bad x with
    | true => exact Or.inr ⟨x, hv, hb, rfl⟩
    | false =>
      exact Or.inl ⟨_, Or.inl ⟨x, hv, rfl⟩, fun y hy => by rw [hy.unique hv]; exact hb, rfl⟩

theorem mexOption_error {a : MexArgs K} {u w : String} {bad : K → Bool} {msg e : String}
    {set : Settings K → K → Settings K} :
    mexOption a u w bad msg set (.error e) = .ok (.error e) := rfl

/-- The five options that hold numbers are not empty. -/
def MexArgs.AllReadable (a : MexArgs K) : Prop :=
  a.Readable "MAXITER" "maxiter" ∧ a.Readable "ABSTOL" "abstol" ∧ a.Readable "RELTOL" "reltol" ∧
    a.Readable "SIGMA" "sigma" ∧ a.Readable "VERBOSE" "verbose"

theorem mexOptions_spec {a : MexArgs K} (hr : a.AllReadable) (s : Settings K) :
    (a.Valid → ∃ s', a.Uses s s' ∧ mexOptions a s = .ok (.ok s')) ∧
    (¬ a.Valid → ∃ e, mexOptions a s = .ok (.error e)) := by
  obtain ⟨r1, r2, r3, r4, r5⟩ := hr
  have key : (a.Valid ∧ ∃ s', a.Uses s s' ∧ mexOptions a s = .ok (.ok s')) ∨
      (¬ a.Valid ∧ ∃ e, mexOptions a s = .ok (.error e)) := by
    unfold mexOptions
    rcases mexOption_step r1
        (fun v => Scalar.ltb v (Scalar.dec 0 0) || Scalar.ltb (Scalar.dec 200 0) v)
        "Iteration Number must be within 0 and 200" (fun s v => { s with maxit := ToInt.trunc v }) s
      with ⟨s1, d1, v1, e1⟩ | ⟨x, hx, hb, e1⟩
    swap
    · refine Or.inr ⟨fun hv => ?_, "Iteration Number must be within 0 and 200", by
        rw [e1]; simp only [ok_bind, mexOption_error]⟩
      have := hv.maxit x hx
      simp [this.1, this.2] at hb
    rw [e1, ok_bind]
    rcases mexOption_step r2
        (fun v => Scalar.ltb v (Scalar.dec 0 0) || Scalar.ltb (Scalar.dec 1 0) v)
        "Absolute Tolerance must be within 0 and 1" (fun s v => { s with abstol := v }) s1
      with ⟨s2, d2, v2, e2⟩ | ⟨x, hx, hb, e2⟩
    swap
    · refine Or.inr ⟨fun hv => ?_, "Absolute Tolerance must be within 0 and 1", by
        rw [e2]; simp only [ok_bind, mexOption_error]⟩
      have := hv.abstol x hx
      simp [this.1, this.2] at hb
    rw [e2, ok_bind]
    rcases mexOption_step r3
        (fun v => Scalar.ltb v (Scalar.dec 0 0) || Scalar.ltb (Scalar.dec 1 0) v)
        "Relative Tolerance must be within 0 and 1" (fun s v => { s with reltol := v }) s2
      with ⟨s3, d3, v3, e3⟩ | ⟨x, hx, hb, e3⟩
    swap
    · refine Or.inr ⟨fun hv => ?_, "Relative Tolerance must be within 0 and 1", by
        rw [e3]; simp only [ok_bind, mexOption_error]⟩
      have := hv.reltol x hx
      simp [this.1, this.2] at hb
    rw [e3, ok_bind]
    rcases mexOption_step r4 (fun v => Scalar.ltb v (Scalar.dec 0 0))
        "Sigma must be positive" (fun s v => { s with sigma := v }) s3
      with ⟨s4, d4, v4, e4⟩ | ⟨x, hx, hb, e4⟩
    swap
    · refine Or.inr ⟨fun hv => ?_, "Sigma must be positive", by
        rw [e4]; simp only [ok_bind, mexOption_error]⟩
      have := hv.sigma x hx
      rw [this] at hb
      cases hb
    rw [e4, ok_bind]
    rcases mexOption_step r5 (fun v => Scalar.ltb v (Scalar.dec 0 0))
        "Verbose must be positive" (fun s v => { s with verbose := ToInt.trunc v }) s4
      with ⟨s5, d5, v5, e5⟩ | ⟨x, hx, hb, e5⟩
    swap
    · refine Or.inr ⟨fun hv => ?_, _, e5⟩
      have := hv.verbose x hx
      rw [this] at hb
      cases hb
    refine Or.inl ⟨⟨fun x hx => by simpa using v1 x hx, fun x hx => by simpa using v2 x hx,
      fun x hx => by simpa using v3 x hx, v4, v5⟩, s5, ?_, e5⟩
    clear e1 e2 e3 e4 e5 v1 v2 v3 v4 v5 r1 r2 r3 r4 r5
    constructor
    · refine d1.imp (fun ⟨x, hx, e⟩ => ⟨x, hx, ?_⟩) (fun ⟨hx, e⟩ => ⟨hx, ?_⟩) <;> clear d1 <;>
      rcases d5 with ⟨_, _, rfl⟩ | ⟨_, rfl⟩ <;> rcases d4 with ⟨_, _, rfl⟩ | ⟨_, rfl⟩ <;>
      rcases d3 with ⟨_, _, rfl⟩ | ⟨_, rfl⟩ <;> rcases d2 with ⟨_, _, rfl⟩ | ⟨_, rfl⟩ <;>
      rw [e]
    · refine d2.imp (fun ⟨x, hx, e⟩ => ⟨x, hx, ?_⟩) (fun ⟨hx, e⟩ => ⟨hx, ?_⟩) <;> clear d2 <;>
      rcases d5 with ⟨_, _, rfl⟩ | ⟨_, rfl⟩ <;> rcases d4 with ⟨_, _, rfl⟩ | ⟨_, rfl⟩ <;>
      rcases d3 with ⟨_, _, rfl⟩ | ⟨_, rfl⟩ <;> rcases d1 with ⟨_, _, rfl⟩ | ⟨_, rfl⟩ <;>
      rw [e]
    · refine d3.imp (fun ⟨x, hx, e⟩ => ⟨x, hx, ?_⟩) (fun ⟨hx, e⟩ => ⟨hx, ?_⟩) <;> clear d3 <;>
      rcases d5 with ⟨_, _, rfl⟩ | ⟨_, rfl⟩ <;> rcases d4 with ⟨_, _, rfl⟩ | ⟨_, rfl⟩ <;>
      rcases d1 with ⟨_, _, rfl⟩ | ⟨_, rfl⟩ <;> rcases d2 with ⟨_, _, rfl⟩ | ⟨_, rfl⟩ <;>
      rw [e]
    · refine d4.imp (fun ⟨x, hx, e⟩ => ⟨x, hx, ?_⟩) (fun ⟨hx, e⟩ => ⟨hx, ?_⟩) <;> clear d4 <;>
      rcases d5 with ⟨_, _, rfl⟩ | ⟨_, rfl⟩ <;> rcases d1 with ⟨_, _, rfl⟩ | ⟨_, rfl⟩ <;>
      rcases d3 with ⟨_, _, rfl⟩ | ⟨_, rfl⟩ <;> rcases d2 with ⟨_, _, rfl⟩ | ⟨_, rfl⟩ <;>
      rw [e]
    · refine d5.imp (fun ⟨x, hx, e⟩ => ⟨x, hx, ?_⟩) (fun ⟨hx, e⟩ => ⟨hx, ?_⟩) <;> clear d5 <;>
      rcases d1 with ⟨_, _, rfl⟩ | ⟨_, rfl⟩ <;> rcases d4 with ⟨_, _, rfl⟩ | ⟨_, rfl⟩ <;>
      rcases d3 with ⟨_, _, rfl⟩ | ⟨_, rfl⟩ <;> rcases d2 with ⟨_, _, rfl⟩ | ⟨_, rfl⟩ <;>
      rw [e]
  rcases key with ⟨h1, h2⟩ | ⟨h1, h2⟩
  · exact ⟨fun _ => h2, fun h => absurd h1 h⟩
  · exact ⟨fun h => absurd h h1, fun _ => h2⟩

/-- **C52**, rejection: once setup has been done, the call ends with an error exactly if some option
that is given is out of range. -/
theorem C52_rejected_iff {a : MexArgs K} (hr : a.AllReadable) {amd : Amd} {P : Option (Buf Int)}
    {q0 : QP K} (h0 : QP_SETUP amd (mexSetupArgs a P) = .ok q0) :
    (∃ e, mexRun amd a P = .ok (.error e)) ↔ ¬ a.Valid := by
  obtain ⟨h1, h2⟩ := mexOptions_spec hr q0.options
  unfold mexRun
  rw [h0, ok_bind]
  constructor
  · rintro ⟨e, he⟩ hv
    obtain ⟨s, _, hs⟩ := h1 hv
    rw [hs, ok_bind] at he
    simp only at he
    cases hq : QP_SOLVE { q0 with options := s } with
    | error e' => rw [hq] at he; cases he
    | ok r =>
      rw [hq, ok_bind] at he
      cases hm : mexResult a.nlhs a.n a.m a.p r.1 r.2 with
      | error e' => rw [hm] at he; cases he
      | ok d => rw [hm] at he; cases he
  · intro hv
    obtain ⟨e, he⟩ := h2 hv
    exact ⟨e, by rw [he]; rfl⟩

/-- What is returned, for the exit code `f` and the final state `q`. -/
structure MexOut.Reports (d : MexOut K) (nlhs : Int) (n m p : Nat) (f : Int) (q : QP K) : Prop where
  sol : CopyOf d.sol q.x n
  basic : if nlhs = 1 then d.basic = none else d.basic = some (f, q.stats.IterationCount)
  adv : if nlhs = 1 ∨ nlhs = 2 then d.adv = none else
    ∃ v y z s, d.adv = some (v, y, z, s) ∧ q.stats.fval = some v ∧ CopyOf z q.z m ∧ CopyOf s q.s m ∧
      if p = 0 then y = none else ∃ y', y = some y' ∧ CopyOf y' q.y p

/-- **C52**, success: with admissible options and a setup of a well-formed problem, the call returns
the outcome of a solve that used exactly the options given, and the settings after setup for those not
given. If the objective value is asked for (three results) at least one iteration must be allowed. -/
theorem C52_accepted {a : MexArgs K} {pb : Problem K} (hr : a.AllReadable) (hv : a.Valid) {amd : Amd}
    {P : Option (Buf Int)} {q0 : QP K} (h : Started amd (mexSetupArgs a P) pb q0)
    (hp : a.p = pb.p)
    (hprint : (∀ x, a.Value "VERBOSE" "verbose" x → ToInt.trunc x ≤ 0) ∨ pb.p ≠ 0)
    (hmax : a.nlhs = 1 ∨ a.nlhs = 2 ∨ ∀ x, a.Value "MAXITER" "maxiter" x → 1 ≤ ToInt.trunc x) :
    ∃ d s f q1, mexRun amd a P = .ok (.ok d) ∧ a.Uses defaultSettings s ∧
      QP_SOLVE { q0 with options := s } = .ok (f, q1) ∧ d.Reports a.nlhs pb.n pb.m pb.p f q1 := by
  obtain ⟨s, hs, ho⟩ := (mexOptions_spec hr q0.options).1 hv
  obtain ⟨_, _, hd⟩ := h.done
  rw [hd.options] at hs ho
  have hvb : s.verbose ≤ 0 ∨ pb.p ≠ 0 := by
    rcases hprint with hp | hp
    · left
      rcases hs.verbose with ⟨k, h1, h2⟩ | ⟨_, h2⟩
      · rw [h2]; exact hp k h1
      · rw [h2]; exact Int.le_refl 0
    · exact Or.inr hp
  obtain ⟨f, q1, e1⟩ := C22_terminates h s hvb
  obtain ⟨_, _, hi, _⟩ := h.sinv (.solve (.options s .start) e1)
  obtain ⟨x, y, z, w, hit⟩ := hi.iter
  have an : a.n = pb.n := h.give.n
  have am : a.m = pb.m := h.give.m
  have hx := pyCopy_iff.mpr ⟨x, hit.x, rfl⟩
  have hy := pyCopy_iff.mpr ⟨y, hit.y, rfl⟩
  have hz := pyCopy_iff.mpr ⟨z, hit.z, rfl⟩
  have hw := pyCopy_iff.mpr ⟨w, hit.s, rfl⟩
  obtain ⟨d, hdd, hrep⟩ : ∃ d, mexResult a.nlhs a.n a.m a.p f q1 = .ok d ∧
      d.Reports a.nlhs pb.n pb.m pb.p f q1 := by
    unfold mexResult
    rw [an, am, hp, hx, ok_bind]
    by_cases h1 : a.nlhs = 1
    · rw [if_pos h1]
      exact ⟨_, rfl, ⟨x, hit.x, rfl⟩, by rw [if_pos h1], by rw [if_pos (Or.inl h1)]⟩
    · rw [if_neg h1]
      by_cases h2 : a.nlhs = 2
      · rw [if_pos h2]
        exact ⟨_, rfl, ⟨x, hit.x, rfl⟩, by rw [if_neg h1], by rw [if_pos (Or.inr h2)]⟩
      · rw [if_neg h2]
        have hmax1 : 1 ≤ s.maxit := by
          rcases hs.maxit with ⟨k, h3, h4⟩ | ⟨_, h4⟩
          · rw [h4]
            rcases hmax with h5 | h5 | h5
            · exact absurd h5 h1
            · exact absurd h5 h2
            · exact h5 k h3
          · rw [h4]; exact (by decide : (1:Int) ≤ 100)
        obtain ⟨v, hfv⟩ := first_solve_fval h s e1 hmax1
        rw [hfv, hz, hw]
        simp only [rdCell, ok_bind]
        by_cases hp0 : pb.p = 0
        · rw [if_neg (by rw [hp0]; simp), pure_eq_ok, ok_bind]
          refine ⟨_, rfl, ⟨x, hit.x, rfl⟩, by rw [if_neg h1], ?_⟩
          rw [if_neg (by tauto)]
          refine ⟨_, _, _, _, rfl, hfv, ⟨z, hit.z, rfl⟩, ⟨w, hit.s, rfl⟩, ?_⟩
          rw [if_pos hp0]
        · rw [if_pos (by exact_mod_cast hp0), hy]
          simp only [ok_bind, pure_eq_ok]
          refine ⟨_, rfl, ⟨x, hit.x, rfl⟩, by rw [if_neg h1], ?_⟩
          rw [if_neg (by tauto)]
          refine ⟨_, _, _, _, rfl, hfv, ⟨z, hit.z, rfl⟩, ⟨w, hit.s, rfl⟩, ?_⟩
          rw [if_neg hp0]
          exact ⟨_, rfl, y, hit.y, rfl⟩
  refine ⟨d, s, f, q1, ?_, hs, e1, hrep⟩
  unfold mexRun
  rw [h.ok, ok_bind, hd.options, ho, ok_bind]
  simp only
  rw [e1, ok_bind, hdd]
  rfl

/-- **C51**: `MAXITER` equal to zero is accepted. If moreover the objective value is asked for, the
call reads a number that was never written. -/
theorem C51_maxiter_zero {a : MexArgs K} {pb : Problem K} (hr : a.AllReadable) (hv : a.Valid)
    {amd : Amd} {P : Option (Buf Int)} {q0 : QP K} (h : Started amd (mexSetupArgs a P) pb q0)
    {x : K} (hx : a.Value "MAXITER" "maxiter" x) (hx0 : ToInt.trunc x = 0) (h1 : a.nlhs ≠ 1)
    (h2 : a.nlhs ≠ 2)
    (hprint : (∀ x, a.Value "VERBOSE" "verbose" x → ToInt.trunc x ≤ 0) ∨ pb.p ≠ 0) :
    mexRun amd a P = .error .uninit := by
  obtain ⟨s, hs, ho⟩ := (mexOptions_spec hr q0.options).1 hv
  obtain ⟨_, _, hd⟩ := h.done
  rw [hd.options] at hs ho
  have hvb : s.verbose ≤ 0 ∨ pb.p ≠ 0 := by
    rcases hprint with hp | hp
    · left
      rcases hs.verbose with ⟨k, h1, h2⟩ | ⟨_, h2⟩
      · rw [h2]; exact hp k h1
      · rw [h2]; exact Int.le_refl 0
    · exact Or.inr hp
  have hmax : s.maxit = 0 := by
    rcases hs.maxit with ⟨k, h3, h4⟩ | ⟨h3, _⟩
    · rw [h4, h3.unique hx, hx0]
    · obtain ⟨q, hq, _⟩ := hx
      exact absurd hq (h3 q)
  obtain ⟨f, q1, e1⟩ := C22_terminates h s hvb
  have hfv : q1.stats.fval = none := by
    obtain ⟨k, qk, h3, h4, _, h5⟩ := (C22_first_solve h s e1).2 (by omega)
    have hk : k = 0 := by omega
    subst hk
    rcases h5 with ⟨_, _, h6⟩ | ⟨_, h6, _⟩
    · cases h3
      rw [h6]
      obtain ⟨r, hst⟩ := hd.stats
      simp only
      rw [hst]
      rfl
    · omega
  obtain ⟨_, _, hi, _⟩ := h.sinv (.solve (.options s .start) e1)
  obtain ⟨xx, y, z, w, hit⟩ := hi.iter
  have an : a.n = pb.n := h.give.n
  unfold mexRun
  rw [h.ok, ok_bind, hd.options, ho, ok_bind]
  simp only
  rw [e1, ok_bind]
  unfold mexResult
  rw [an, pyCopy_iff.mpr ⟨xx, hit.x, rfl⟩, ok_bind, if_neg h1, if_neg h2, hfv]
  rfl

end Generic

/-! ## C45 for a whole problem, in exact arithmetic -/

/-- Conversion to integers truncates towards zero. -/
class LawfulToInt (K : Type) [Field K] [LinearOrder K] [ToInt K] : Prop where
  trunc_int : ∀ k : Int, ToInt.trunc (k : K) = k
  trunc_small : ∀ x : K, -1 < x → x < 1 → ToInt.trunc x = 0

instance : ToInt ℚ := ⟨fun x => if 0 ≤ x then ⌊x⌋ else ⌈x⌉⟩

instance : LawfulToInt ℚ where
  trunc_int k := by
    unfold ToInt.trunc instToIntRat
    simp only
    split
    · exact Int.floor_intCast k
    · exact Int.ceil_intCast k
  trunc_small x h1 h2 := by
    unfold ToInt.trunc instToIntRat
    simp only
    split
    · next h => exact Int.floor_eq_zero_iff.mpr ⟨h, h2⟩
    · next h =>
      rw [Int.ceil_eq_zero_iff]
      exact ⟨h1, (not_le.mp h).le⟩

/-- A list of `0, …, n - 1` in some order has an inverse. -/
theorem IsPerm.pair {n : Nat} {w : Nat → Int} (h : IsPerm n w) :
    ∃ p q : Nat → Nat, PermPair n p q ∧ ∀ i, i < n → w i = p i := by
  have hlt : ∀ i, i < n → (w i).toNat < n := fun i hi => by have := h.1 i hi; omega
  let f : Fin n → Fin n := fun i => ⟨(w i).toNat, hlt i i.2⟩
  have hf : Function.Injective f := by
    intro i j e
    have e' : (w i).toNat = (w j).toNat := congrArg Fin.val e
    have h1 := h.1 i i.2
    have h2 := h.1 j j.2
    exact Fin.ext (h.2 i j i.2 j.2 (by omega))
  have hs : Function.Surjective f := Finite.injective_iff_surjective.mp hf
  choose g hg using hs
  refine ⟨fun i => (w i).toNat, fun i => if hi : i < n then (g ⟨i, hi⟩).val else 0,
    ⟨hlt, ?_, ?_, ?_⟩, fun i hi => ?_⟩
  · intro i hi
    simp only [dif_pos hi]
    exact (g ⟨i, hi⟩).2
  · intro i hi
    have : g (f ⟨i, hi⟩) = ⟨i, hi⟩ := hf (hg _)
    simp only [dif_pos (hlt i hi)]
    exact congrArg Fin.val this
  · intro i hi
    simp only [dif_pos hi]
    exact congrArg Fin.val (hg ⟨i, hi⟩)
  · have := h.1 i hi
    simp only
    omega

section Exact

variable {K : Type} [Field K] [LinearOrder K] [IsStrictOrderedRing K] [Scalar K] [LawfulScalar K]
  [ToInt K] [LawfulToInt K]

/-- **C45**, whole call: for matrices that describe a well-formed problem and a vector `PERMUT` that
is a permutation of `1, …, n + m + p`, setup succeeds, whatever the ordering routine, and its KKT
system is permuted by the 0-based version of this vector; the call then continues with the options. -/
theorem C45_used {a : MexArgs K} {pb : Problem K} (hc : mexCheck a = none) {q : MxArr K}
    (hq : a.Option "PERMUT" "permut" q) {w : Nat → Int}
    (hv : Buf.Has q.pr pb.N (fun i => (w i : K))) (hw : IsPerm1 pb.N w) (hpb : pb.WF)
    (hg : (mexSetupArgs a none).Give pb) (hp : a.p = pb.p) (amd : Amd) :
    ∃ q0, Started amd (mexSetupArgs a (some (Buf.ofFn pb.N (fun i => w i - 1)))) pb q0 ∧
      q0.kkt.P = Buf.ofFn pb.N (fun i => w i - 1) ∧
      mexFunction amd a = mexRun amd a (some (Buf.ofFn pb.N (fun i => w i - 1))) := by
  have hN : a.n + a.m + a.p = pb.N := by
    have h1 : a.n = pb.n := hg.n
    have h2 : a.m = pb.m := hg.m
    rw [h1, h2, hp]
    unfold Problem.N
    push_cast
    omega
  have h1 := (C45_permutation hc hq hN hv (w := w) (fun i hi => by
    rw [LawfulScalar.dec_eq, ← LawfulToInt.trunc_int (K := K) (w i - 1)]
    congr 1
    push_cast
    ring) amd).1 hw
  obtain ⟨p', q', hpq, he⟩ := (isPerm_iff_isPerm1.mpr hw).pair
  have hg' : (mexSetupArgs a (some (Buf.ofFn pb.N (fun i => w i - 1)))).Give pb :=
    ⟨hg.n, hg.m, hg.Pjc, hg.Pir, hg.Ppr, hg.Gjc, hg.Gir, hg.Gpr, hg.c, hg.h, hg.sigma_d, hg.eq⟩
  have hperm : PermSource amd (mexSetupArgs a (some (Buf.ofFn pb.N (fun i => w i - 1)))).Permut
      (mexSetupArgs a (some (Buf.ofFn pb.N (fun i => w i - 1)))).p pb :=
    Or.inl ⟨_, p', q', rfl, hpq, (Buf.has_ofFn pb.N (fun i => w i - 1)).congr he⟩
  obtain ⟨q0, h0⟩ := C26_setup hpb hg' hperm
  have hst : Started amd _ pb q0 := ⟨hpb, hg', hperm, h0⟩
  obtain ⟨_, _, hd⟩ := hst.done
  exact ⟨q0, hst, (hd.given _ rfl).1, h1⟩

end Exact

/-! ## Example -/

/-- A real dense `rows × cols` matrix. -/
def mxDense (rows cols : Int) (l : List ℚ) : MxArr ℚ :=
  ⟨true, false, false, rows, cols, l.map some, [], []⟩

/-- A real sparse matrix. -/
def mxSparse (A : Csc ℚ) : MxArr ℚ :=
  ⟨true, true, false, A.m, A.n, Buf.ofFn A.nnz A.pr, Buf.ofFn A.nnz (fun i => (A.ir i : Int)),
    Buf.ofFn (A.n + 1) (fun i => (A.jc i : Int))⟩

/-- A call for the demo problem with three results and the given options. -/
def mexDemo (l : List (String × MxArr ℚ)) : MexArgs ℚ :=
  { nlhs := 3, P := mxSparse (demoPb ℚ).P, c := mxDense 3 1 ((List.range 3).map (demoPb ℚ).c)
    Ab := some (mxSparse (demoPb ℚ).A, mxDense 1 1 ((List.range 1).map (demoPb ℚ).b))
    G := mxSparse (demoPb ℚ).G, h := mxDense 2 1 ((List.range 2).map (demoPb ℚ).h)
    sttgs := some l }

theorem mexDemo_give (l : List (String × MxArr ℚ)) (P : Option (Buf Int)) :
    (mexSetupArgs (mexDemo l) P).Give (demoPb ℚ) where
  n := rfl
  m := rfl
  Pjc := Buf.has_ofFn _ _
  Pir := Buf.has_ofFn _ _
  Ppr := Buf.has_ofFn _ _
  Gjc := Buf.has_ofFn _ _
  Gir := Buf.has_ofFn _ _
  Gpr := Buf.has_ofFn _ _
  c := by
    intro i hi
    simp only [demoPb, Problem.n, Csc.lit] at hi
    interval_cases i <;> rfl
  h := by
    intro i hi
    simp only [demoPb, Problem.m, Csc.lit] at hi
    interval_cases i <;> rfl
  sigma_d := by
    show (Scalar.dec 0 0 : ℚ) = 0
    decide +kernel
  eq := by
    refine Or.inl ⟨_, _, _, _, rfl, rfl, rfl, rfl, rfl, by decide, Buf.has_ofFn _ _,
      Buf.has_ofFn _ _, Buf.has_ofFn _ _, ?_⟩
    intro i hi
    simp only [demoPb, Problem.p, Csc.lit] at hi
    interval_cases i
    rfl

/-- Options of the example: a permutation, at most 20 iterations. -/
def mexDemoOpts : List (String × MxArr ℚ) :=
  [("PERMUT", mxDense 6 1 [6, 5, 4, 1, 2, 3]), ("maxiter", mxDense 1 1 [20])]

theorem demoPerm1 : IsPerm1 6 (fun i => [6, 5, 4, 1, 2, 3].getD i 0) := by
  have h : ∀ i < 6, ∀ j < 6, [6, 5, 4, 1, 2, 3].getD i (0 : Int) = [6, 5, 4, 1, 2, 3].getD j 0 →
      i = j := by decide
  exact ⟨by decide, fun i j hi hj => h i hi j hj⟩

/-- C45 applies to it. -/
example (amd : Amd) : ∃ q0, Started amd
      (mexSetupArgs (mexDemo mexDemoOpts) (some [some 5, some 4, some 3, some 0, some 1, some 2]))
      (demoPb ℚ) q0 ∧ q0.kkt.P = [some 5, some 4, some 3, some 0, some 1, some 2] :=  by
  have h := C45_used (a := mexDemo mexDemoOpts) (pb := demoPb ℚ) (by decide +kernel)
    (q := mxDense 6 1 [6, 5, 4, 1, 2, 3]) ⟨_, rfl, Or.inl ⟨[], _, rfl, by simp⟩⟩
    (w := fun i => [6, 5, 4, 1, 2, 3].getD i 0)
    (by
      intro i hi
      simp only [demoPb, Problem.N, Problem.n, Problem.m, Problem.p, Csc.lit] at hi
      interval_cases i <;> rfl)
    demoPerm1
    demoPb_wf (mexDemo_give _ none) rfl amd
  obtain ⟨q0, h1, h2, _⟩ := h
  exact ⟨q0, h1, h2⟩

/-- A vector that is not a permutation is rejected. -/
example (amd : Amd) :
    mexFunction amd (mexDemo [("permut", mxDense 6 1 [6, 5, 4, 1, 2, 2])])
      = .ok (.error "Not a Valid Permutation Vector") := by
  refine (C45_permutation (N := 6) (by decide +kernel) (q := mxDense 6 1 [6, 5, 4, 1, 2, 2])
    ⟨_, rfl, Or.inr ⟨by simp, [], _, rfl, by simp⟩⟩ rfl
    (v := fun i => [6, 5, 4, 1, 2, 2].getD i 0) ?_ (w := fun i => [6, 5, 4, 1, 2, 2].getD i 0) ?_
    amd).2 ?_
  · intro i hi; interval_cases i <;> rfl
  · decide +kernel
  · intro h
    exact absurd (h.2 4 5 (by decide) (by decide) rfl) (by decide)

/-- The vector `(6, 5, 4, 1/2, 2, 3)` is accepted, with `1` in place of `1/2`. -/
example (amd : Amd) :
    mexFunction amd (mexDemo [("PERMUT", mxDense 6 1 [6, 5, 4, 1 / 2, 2, 3])])
      = mexRun amd (mexDemo [("PERMUT", mxDense 6 1 [6, 5, 4, 1 / 2, 2, 3])])
        (some (Buf.ofFn 6 (fun i => [6, 5, 4, 1, 2, 3].getD i 0 - 1))) := by
  refine (C45_permutation (N := 6) (by decide +kernel) (q := mxDense 6 1 [6, 5, 4, 1 / 2, 2, 3])
    ⟨_, rfl, Or.inl ⟨[], _, rfl, by simp⟩⟩ rfl
    (v := fun i => [6, 5, 4, 1 / 2, 2, 3].getD i 0) ?_ (w := fun i => [6, 5, 4, 1, 2, 3].getD i 0) ?_
    amd).1 ?_
  · intro i hi; interval_cases i <;> rfl
  · decide +kernel
  · exact demoPerm1

/-- `Permut`, as in the help text, is ignored, whatever its value. -/
example (amd : Amd) (q : MxArr ℚ) :
    mexFunction amd (mexDemo [("Permut", q)]) = mexFunction amd (mexDemo []) :=
  C50_other_fields_ignored amd (mexDemo []) [("Permut", q)]

theorem mexDemo_started (l : List (String × MxArr ℚ)) :
    ∃ q0, Started failAmd (mexSetupArgs (mexDemo l) (some demoPermut)) (demoPb ℚ) q0 := by
  have hp : PermSource failAmd (mexSetupArgs (mexDemo l) (some demoPermut)).Permut
      (mexSetupArgs (mexDemo l) (some demoPermut)).p (demoPb ℚ) :=
    Or.inl ⟨_, _, _, rfl, demoPerm_pair, Buf.has_ofFn _ _⟩
  obtain ⟨q0, h⟩ := C26_setup demoPb_wf (mexDemo_give l _) hp
  exact ⟨q0, demoPb_wf, mexDemo_give l _, hp, h⟩

/-- The option is looked up. -/
theorem mexDemo_value {l : List (String × MxArr ℚ)} {u w : String} {q : MxArr ℚ}
    (h : mxOption (mexDemo l) u w = some q) {x : ℚ} :
    (mexDemo l).Value u w x ↔ q.pr[0]? = some (some x) := by
  constructor
  · rintro ⟨r, hr, hx⟩
    have := mxOption_iff.mpr hr
    rw [h] at this
    cases this
    exact hx
  · exact fun hx => ⟨q, mxOption_iff.mp h, hx⟩

theorem mexDemo_absent {l : List (String × MxArr ℚ)} {u w : String}
    (h : mxOption (mexDemo l) u w = none) : (mexDemo l).Absent u w := by
  intro q hq
  rw [mxOption_iff.mpr hq] at h
  cases h

theorem MexArgs.Absent.value {a : MexArgs ℚ} {u w : String} (h : a.Absent u w) {x : ℚ} :
    ¬ a.Value u w x := fun ⟨q, hq, _⟩ => h q hq

theorem mexDemo_readable (x : ℚ) : (mexDemo [("MAXITER", mxDense 1 1 [x])]).AllReadable := by
  refine ⟨fun q hq => ?_, fun q hq => absurd hq (mexDemo_absent rfl q),
    fun q hq => absurd hq (mexDemo_absent rfl q), fun q hq => absurd hq (mexDemo_absent rfl q),
    fun q hq => absurd hq (mexDemo_absent rfl q)⟩
  have := mxOption_iff.mpr hq
  cases this
  exact ⟨x, rfl⟩

theorem mexDemo_valid {x : ℚ} (h0 : 0 ≤ x) (h1 : x ≤ 200) :
    (mexDemo [("MAXITER", mxDense 1 1 [x])]).Valid := by
  refine ⟨fun y hy => ?_, fun y hy => absurd hy (mexDemo_absent rfl).value,
    fun y hy => absurd hy (mexDemo_absent rfl).value,
    fun y hy => absurd hy (mexDemo_absent rfl).value,
    fun y hy => absurd hy (mexDemo_absent rfl).value⟩
  have := (mexDemo_value rfl).mp hy
  cases this
  constructor
  · rw [Bool.eq_false_iff, Ne, LawfulScalar.ltb_iff, LawfulScalar.dec_eq]
    norm_num
    exact h0
  · rw [Bool.eq_false_iff, Ne, LawfulScalar.ltb_iff, LawfulScalar.dec_eq]
    norm_num
    exact h1

/-- C52: 200 iterations are admissible (they are not from Python, see C43). -/
example : ∃ (d : MexOut ℚ) (s : Settings ℚ) (q0 : QP ℚ) (f : Int) (q1 : QP ℚ),
    mexRun failAmd (mexDemo [("MAXITER", mxDense 1 1 [200])]) (some demoPermut)
      = .ok (.ok d) ∧ s.maxit = 200 ∧ QP_SOLVE { q0 with options := s } = .ok (f, q1) ∧
      d.Reports 3 3 2 1 f q1 := by
  obtain ⟨q0, h⟩ := mexDemo_started [("MAXITER", mxDense 1 1 [200])]
  obtain ⟨d, s, f, q1, h1, h2, h3, h4⟩ := C52_accepted (mexDemo_readable 200)
    (mexDemo_valid (by norm_num) (by norm_num)) h rfl (Or.inr (by decide)) (Or.inr (Or.inr (by
      intro x hx
      have := (mexDemo_value rfl).mp hx
      cases this
      decide +kernel)))
  refine ⟨d, s, q0, f, q1, h1, ?_, h3, h4⟩
  rcases h2.maxit with ⟨x, hx, hm⟩ | ⟨h5, _⟩
  · have := (mexDemo_value rfl).mp hx
    cases this
    rw [hm]
    decide +kernel
  · exact absurd (mxOption_iff.mp rfl) (h5 (mxDense 1 1 [200]))

/-- C52: 201 iterations are not. -/
example : ∃ e, mexRun failAmd (mexDemo [("MAXITER", mxDense 1 1 [201])]) (some demoPermut)
    = .ok (.error e) := by
  obtain ⟨q0, h⟩ := mexDemo_started [("MAXITER", mxDense 1 1 [201])]
  refine (C52_rejected_iff (mexDemo_readable 201) h.ok).mpr fun hv => ?_
  have := (hv.maxit 201 ((mexDemo_value rfl).mpr rfl)).2
  revert this
  decide +kernel

/-- C51: no iteration and three results. -/
example : mexRun failAmd (mexDemo [("MAXITER", mxDense 1 1 [0])]) (some demoPermut)
    = .error .uninit := by
  obtain ⟨q0, h⟩ := mexDemo_started [("MAXITER", mxDense 1 1 [0])]
  exact C51_maxiter_zero (mexDemo_readable 0) (mexDemo_valid (by norm_num) (by norm_num)) h
    ((mexDemo_value rfl).mpr rfl) (by decide +kernel) (by decide) (by decide) (Or.inr (by decide))

end Verif
