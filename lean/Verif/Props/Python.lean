import Verif.Lemmas.Front
import Verif.Lemmas.DenseRun
import Verif.Props.Safety

/-!
# C43, C44, C48, C49: the Python entry point
-/

set_option linter.unusedSectionVars false

namespace Verif

section Generic

variable {K : Type} [Zero K] [One K] [Add K] [Sub K] [Mul K] [Div K] [Neg K] [Scalar K]

/-! ## Specification -/

/-- The arrays are floating point arrays of the documented shapes: `c` of size `n`, `h` of size
`m`, `P` of shape `n × n`, `G` of shape `m × n`, and, if both are given, `A` of shape `p × n` and
`b` of size `p`; `p = 0` if they are not both given. -/
structure PyArgs.Shaped (a : PyArgs K) (n m p : Nat) : Prop where
  c : a.c.isFloat = true ∧ a.c.dims = [(n : Int)]
  h : a.h.isFloat = true ∧ a.h.dims = [(m : Int)]
  P : a.P.isFloat = true ∧ a.P.dims = [(n : Int), (n : Int)]
  G : a.G.isFloat = true ∧ a.G.dims = [(m : Int), (n : Int)]
  eq : (∃ A b, a.A = some A ∧ a.b = some b ∧ A.isFloat = true ∧
      A.dims = [(p : Int), (n : Int)] ∧ b.isFloat = true ∧ b.dims = [(p : Int)]) ∨
    ((a.A = none ∨ a.b = none) ∧ p = 0)

/-- The options given, none if there is no dictionary. -/
def PyArgs.dict (a : PyArgs K) : List (String × PyVal K) := a.opts.getD []

/-- Keys of a dictionary are distinct. -/
def PyArgs.DictOk (a : PyArgs K) : Prop := (a.dict.map Prod.fst).Nodup

/-- Every option that is given has an admissible value. -/
structure PyValid (o : List (String × PyVal K)) : Prop where
  maxit : ∀ v, ("MAXITER", v) ∈ o → ∃ k : Int, v = .int k ∧ 1 ≤ k ∧ k ≤ 199
  abstol : ∀ v, ("ABSTOL", v) ∈ o →
    ∃ t, v = .float t ∧ Scalar.ltb (Scalar.dec 0 0) t = true ∧ Scalar.ltb t (Scalar.dec 1 0) = true
  reltol : ∀ v, ("RELTOL", v) ∈ o →
    ∃ t, v = .float t ∧ Scalar.ltb (Scalar.dec 0 0) t = true ∧ Scalar.ltb t (Scalar.dec 1 0) = true
  sigma : ∀ v, ("SIGMA", v) ∈ o → ∃ t, v = .float t ∧ Scalar.ltb (Scalar.dec 0 0) t = true
  verbose : ∀ v, ("VERBOSE", v) ∈ o → ∃ k : Int, v = .int k ∧ 0 ≤ k ∧ k < 2 ^ 63

/-- The settings are the options given, and the documented defaults for those not given. -/
structure PyUses (o : List (String × PyVal K)) (s : Settings K) : Prop where
  maxit : (∃ k : Int, ("MAXITER", .int k) ∈ o ∧ s.maxit = k) ∨
    (∀ v, ("MAXITER", v) ∉ o) ∧ s.maxit = 100
  abstol : (∃ t, ("ABSTOL", .float t) ∈ o ∧ s.abstol = t) ∨
    (∀ v, ("ABSTOL", v) ∉ o) ∧ s.abstol = Scalar.dec 1 6
  reltol : (∃ t, ("RELTOL", .float t) ∈ o ∧ s.reltol = t) ∨
    (∀ v, ("RELTOL", v) ∉ o) ∧ s.reltol = Scalar.dec 1 6
  sigma : (∃ t, ("SIGMA", .float t) ∈ o ∧ s.sigma = t) ∨
    (∀ v, ("SIGMA", v) ∉ o) ∧ s.sigma = Scalar.dec 100 0
  verbose : (∃ k : Int, ("VERBOSE", .int k) ∈ o ∧ s.verbose = k) ∨
    (∀ v, ("VERBOSE", v) ∉ o) ∧ s.verbose = 0

/-- The call of the dense setup routine for the given arrays. -/
def PyArgs.setupArgs (a : PyArgs K) (n m p : Nat) : DenseArgs K :=
  { n := n, m := m, p := p, Ppr := a.P.data
    Apr := if a.b.isSome && a.A.isSome then a.A.map (·.data) else none
    Gpr := a.G.data, c := a.c.data, h := a.h.data
    b := if a.b.isSome && a.A.isSome then a.b.map (·.data) else none
    Permut := none, ordering := ROW_MAJOR_ORDERING }

/-! ## Shapes -/

theorem pyMatrix_eq (a : PyArr K) (rows cols : Int) (m1 m2 : String) :
    pyMatrix a rows cols m1 m2 =
      .ok (if a.isFloat = true ∧ a.dims.length = 2 then
        (if a.dims = [rows, cols] then none else some m2) else some m1) := by
  unfold pyMatrix
  by_cases hf : a.isFloat = true
  · by_cases hd : a.dims.length = 2
    · obtain ⟨d0, d1, hdd⟩ := List.length_eq_two.mp hd
      simp only [hf, hdd, PyArr.dim]
      by_cases h0 : d0 = rows
      · by_cases h1 : d1 = cols
        · simp [h0, h1]
        · simp [h0, h1]
      · simp [h0]
    · simp [hf, hd]
  · simp [hf]

theorem pyMatrix_none {a : PyArr K} {rows cols : Int} {m1 m2 : String}
    (h : a.isFloat = true ∧ a.dims = [rows, cols]) : pyMatrix a rows cols m1 m2 = .ok none := by
  rw [pyMatrix_eq]
  simp [h.1, h.2]

theorem pyMatrix_some {a : PyArr K} {rows cols : Int} {m1 m2 : String}
    (h : ¬(a.isFloat = true ∧ a.dims = [rows, cols])) :
    ∃ e, pyMatrix a rows cols m1 m2 = .ok (some e) := by
  rw [pyMatrix_eq]
  split
  · next hc =>
    rw [if_neg (fun h' => h ⟨hc.1, h'⟩)]
    exact ⟨_, rfl⟩
  · exact ⟨_, rfl⟩

theorem PyArgs.Shaped.dims {a : PyArgs K} {n m p : Nat} (h : a.Shaped n m p) :
    pyDims a = .ok ((n : Int), (m : Int), (p : Int)) := by
  unfold pyDims PyArr.dim0
  rw [h.c.2, h.h.2]
  simp only [ok_bind]
  rcases h.eq with ⟨A, b, e1, e2, _, _, _, e6⟩ | ⟨e, rfl⟩
  · rw [e1, e2]
    simp only [e6]
    rfl
  · cases hb : a.b with
    | none => simp
    | some b =>
      cases hA : a.A with
      | none => simp
      | some A => rw [hA, hb] at e; simp at e

theorem PyArgs.Shaped.check {a : PyArgs K} {n m p : Nat} (h : a.Shaped n m p) :
    pyCheck a n m p = .ok none := by
  unfold pyCheck
  rw [h.c.1, h.c.2, h.h.1, h.h.2, pyMatrix_none h.G, pyMatrix_none h.P]
  rcases h.eq with ⟨A, b, e1, e2, e3, e4, e5, e6⟩ | ⟨e, rfl⟩
  · rw [e1, e2]
    simp only [e5, e6, pyMatrix_none ⟨e3, e4⟩]
    simp [andThen]
  · cases hb : a.b with
    | none => simp [andThen]
    | some b =>
      cases hA : a.A with
      | none => simp [andThen]
      | some A => rw [hA, hb] at e; simp at e

/-- With arrays of the documented shapes the call is: check the options, setup, solve, result. -/
theorem PyArgs.Shaped.run {a : PyArgs K} {n m p : Nat} (h : a.Shaped n m p) (amd : Amd) :
    method_qpSWIFT amd a =
      (match pyOptions a.opts with
      | .error e => .ok (.typeError e)
      | .ok o => do
        let myQP ← QP_SETUP_dense amd (a.setupArgs n m p)
        let r ← QP_SOLVE { myQP with options := o.1 }
        let out ← pyResult o.2 a.hasEq r.1 r.2
        pure (.dict out)) := by
  unfold method_qpSWIFT
  rw [h.dims, ok_bind]
  simp only [h.check, ok_bind]
  rfl

/-! ## Options -/

theorem pyLong_of {k : Int} (h0 : 0 ≤ k) (h1 : k < 2 ^ 63) : pyLong k = k := by
  unfold pyLong
  rw [if_pos ⟨by omega, h1⟩]

theorem pyLong_nonneg {k : Int} (h : 0 ≤ pyLong k) : 0 ≤ k ∧ k < 2 ^ 63 ∧ pyLong k = k := by
  unfold pyLong at h ⊢
  split at h
  · next hc => rw [if_pos hc]; exact ⟨h, hc.2, rfl⟩
  · omega

variable {o : List (String × PyVal K)}

theorem pyMaxit_cases (hd : (o.map Prod.fst).Nodup) (s : Settings K) :
    (∃ k : Int, ("MAXITER", .int k) ∈ o ∧ 1 ≤ k ∧ k ≤ 199 ∧ pyMaxit o s = .ok { s with maxit := k }) ∨
    ((∀ v, ("MAXITER", v) ∉ o) ∧ pyMaxit o s = .ok s) ∨
    ((∃ v, ("MAXITER", v) ∈ o ∧ ¬ ∃ k : Int, v = .int k ∧ 1 ≤ k ∧ k ≤ 199) ∧
      ∃ e, pyMaxit o s = .error e) := by
  unfold pyMaxit
  cases hg : pyGet o "MAXITER" with
  | none => exact Or.inr (Or.inl ⟨(pyGet_none hd).mp hg, rfl⟩)
  | some v =>
    have hm := (pyGet_iff hd).mp hg
    cases v with
    | int k =>
      simp only
      by_cases hk : pyLong k < 200 ∧ pyLong k > 0
      · obtain ⟨h1, h2, h3⟩ := pyLong_nonneg (k := k) (by omega)
        rw [if_pos hk, h3]
        exact Or.inl ⟨k, hm, by omega, by omega, rfl⟩
      · rw [if_neg hk]
        refine Or.inr (Or.inr ⟨⟨_, hm, ?_⟩, _, rfl⟩)
        rintro ⟨k', hk', h1, h2⟩
        cases hk'
        rw [pyLong_of (by omega) (by omega)] at hk
        omega
    | float t =>
      exact Or.inr (Or.inr ⟨⟨_, hm, by rintro ⟨k', hk', _⟩; cases hk'⟩, _, rfl⟩)
    | other =>
      exact Or.inr (Or.inr ⟨⟨_, hm, by rintro ⟨k', hk', _⟩; cases hk'⟩, _, rfl⟩)

theorem pyVerbose_cases (hd : (o.map Prod.fst).Nodup) (s : Settings K) :
    (∃ k : Int, ("VERBOSE", .int k) ∈ o ∧ 0 ≤ k ∧ k < 2 ^ 63 ∧
      pyVerbose o s = .ok { s with verbose := k }) ∨
    ((∀ v, ("VERBOSE", v) ∉ o) ∧ pyVerbose o s = .ok s) ∨
    ((∃ v, ("VERBOSE", v) ∈ o ∧ ¬ ∃ k : Int, v = .int k ∧ 0 ≤ k ∧ k < 2 ^ 63) ∧
      ∃ e, pyVerbose o s = .error e) := by
  unfold pyVerbose
  cases hg : pyGet o "VERBOSE" with
  | none => exact Or.inr (Or.inl ⟨(pyGet_none hd).mp hg, rfl⟩)
  | some v =>
    have hm := (pyGet_iff hd).mp hg
    cases v with
    | int k =>
      simp only
      by_cases hk : pyLong k ≥ 0
      · obtain ⟨h1, h2, h3⟩ := pyLong_nonneg hk
        rw [if_pos hk, h3]
        exact Or.inl ⟨k, hm, h1, h2, rfl⟩
      · rw [if_neg hk]
        refine Or.inr (Or.inr ⟨⟨_, hm, ?_⟩, _, rfl⟩)
        rintro ⟨k', hk', h1, h2⟩
        cases hk'
        rw [pyLong_of h1 h2] at hk
        omega
    | float t =>
      exact Or.inr (Or.inr ⟨⟨_, hm, by rintro ⟨k', hk', _⟩; cases hk'⟩, _, rfl⟩)
    | other =>
      exact Or.inr (Or.inr ⟨⟨_, hm, by rintro ⟨k', hk', _⟩; cases hk'⟩, _, rfl⟩)

theorem pyAbstol_cases (hd : (o.map Prod.fst).Nodup) (s : Settings K) :
    (∃ t, ("ABSTOL", .float t) ∈ o ∧ Scalar.ltb (Scalar.dec 0 0) t = true ∧
      Scalar.ltb t (Scalar.dec 1 0) = true ∧ pyAbstol o s = .ok { s with abstol := t }) ∨
    ((∀ v, ("ABSTOL", v) ∉ o) ∧ pyAbstol o s = .ok s) ∨
    ((∃ v, ("ABSTOL", v) ∈ o ∧ ¬ ∃ t, v = .float t ∧ Scalar.ltb (Scalar.dec 0 0) t = true ∧
      Scalar.ltb t (Scalar.dec 1 0) = true) ∧ ∃ e, pyAbstol o s = .error e) := by
  unfold pyAbstol
  cases hg : pyGet o "ABSTOL" with
  | none => exact Or.inr (Or.inl ⟨(pyGet_none hd).mp hg, rfl⟩)
  | some v =>
    have hm := (pyGet_iff hd).mp hg
    cases v with
    | float t =>
      simp only [Bool.and_eq_true]
      by_cases hk : Scalar.ltb t (Scalar.dec 1 0) = true ∧ Scalar.ltb (Scalar.dec 0 0) t = true
      · rw [if_pos hk]
        exact Or.inl ⟨t, hm, hk.2, hk.1, rfl⟩
      · rw [if_neg hk]
        refine Or.inr (Or.inr ⟨⟨_, hm, ?_⟩, _, rfl⟩)
        rintro ⟨k', hk', h1, h2⟩
        cases hk'
        exact hk ⟨h2, h1⟩
    | int t =>
      exact Or.inr (Or.inr ⟨⟨_, hm, by rintro ⟨k', hk', _⟩; cases hk'⟩, _, rfl⟩)
    | other =>
      exact Or.inr (Or.inr ⟨⟨_, hm, by rintro ⟨k', hk', _⟩; cases hk'⟩, _, rfl⟩)

theorem pyReltol_cases (hd : (o.map Prod.fst).Nodup) (s : Settings K) :
    (∃ t, ("RELTOL", .float t) ∈ o ∧ Scalar.ltb (Scalar.dec 0 0) t = true ∧
      Scalar.ltb t (Scalar.dec 1 0) = true ∧ pyReltol o s = .ok { s with reltol := t }) ∨
    ((∀ v, ("RELTOL", v) ∉ o) ∧ pyReltol o s = .ok s) ∨
    ((∃ v, ("RELTOL", v) ∈ o ∧ ¬ ∃ t, v = .float t ∧ Scalar.ltb (Scalar.dec 0 0) t = true ∧
      Scalar.ltb t (Scalar.dec 1 0) = true) ∧ ∃ e, pyReltol o s = .error e) := by
  unfold pyReltol
  cases hg : pyGet o "RELTOL" with
  | none => exact Or.inr (Or.inl ⟨(pyGet_none hd).mp hg, rfl⟩)
  | some v =>
    have hm := (pyGet_iff hd).mp hg
    cases v with
    | float t =>
      simp only [Bool.and_eq_true]
      by_cases hk : Scalar.ltb t (Scalar.dec 1 0) = true ∧ Scalar.ltb (Scalar.dec 0 0) t = true
      · rw [if_pos hk]
        exact Or.inl ⟨t, hm, hk.2, hk.1, rfl⟩
      · rw [if_neg hk]
        refine Or.inr (Or.inr ⟨⟨_, hm, ?_⟩, _, rfl⟩)
        rintro ⟨k', hk', h1, h2⟩
        cases hk'
        exact hk ⟨h2, h1⟩
    | int t =>
      exact Or.inr (Or.inr ⟨⟨_, hm, by rintro ⟨k', hk', _⟩; cases hk'⟩, _, rfl⟩)
    | other =>
      exact Or.inr (Or.inr ⟨⟨_, hm, by rintro ⟨k', hk', _⟩; cases hk'⟩, _, rfl⟩)

theorem pySigma_cases (hd : (o.map Prod.fst).Nodup) (s : Settings K) :
    (∃ t, ("SIGMA", .float t) ∈ o ∧ Scalar.ltb (Scalar.dec 0 0) t = true ∧
      pySigma o s = .ok { s with sigma := t }) ∨
    ((∀ v, ("SIGMA", v) ∉ o) ∧ pySigma o s = .ok s) ∨
    ((∃ v, ("SIGMA", v) ∈ o ∧ ¬ ∃ t, v = .float t ∧ Scalar.ltb (Scalar.dec 0 0) t = true) ∧
      ∃ e, pySigma o s = .error e) := by
  unfold pySigma
  cases hg : pyGet o "SIGMA" with
  | none => exact Or.inr (Or.inl ⟨(pyGet_none hd).mp hg, rfl⟩)
  | some v =>
    have hm := (pyGet_iff hd).mp hg
    cases v with
    | float t =>
      simp only
      by_cases hk : Scalar.ltb (Scalar.dec 0 0) t = true
      · rw [if_pos hk]
        exact Or.inl ⟨t, hm, hk, rfl⟩
      · rw [if_neg hk]
        refine Or.inr (Or.inr ⟨⟨_, hm, ?_⟩, _, rfl⟩)
        rintro ⟨k', hk', h1⟩
        cases hk'
        exact hk h1
    | int t =>
      exact Or.inr (Or.inr ⟨⟨_, hm, by rintro ⟨k', hk', _⟩; cases hk'⟩, _, rfl⟩)
    | other =>
      exact Or.inr (Or.inr ⟨⟨_, hm, by rintro ⟨k', hk', _⟩; cases hk'⟩, _, rfl⟩)

/-- Key values that are determined by a dictionary are unique. -/
theorem dict_unique (hd : (o.map Prod.fst).Nodup) {k : String} {v w : PyVal K} (h1 : (k, v) ∈ o)
    (h2 : (k, w) ∈ o) : v = w := by
  have e1 := (pyGet_iff hd).mpr h1
  rw [(pyGet_iff hd).mpr h2] at e1
  exact (Option.some.inj e1).symm

theorem pyOptions_list (hd : (o.map Prod.fst).Nodup) :
    (PyValid o → ∃ s, PyUses o s ∧ pyOptions (some o) = .ok (s, pyOutput o)) ∧
    (¬ PyValid o → ∃ e, pyOptions (some o) = .error e) := by
  have key : (PyValid o ∧ ∃ s, PyUses o s ∧ pyOptions (some o) = .ok (s, pyOutput o)) ∨
      (¬ PyValid o ∧ ∃ e, pyOptions (some o) = .error e) := by
    unfold pyOptions
    simp only
    obtain ⟨s1, m1, m2, e1⟩ | ⟨⟨v, hv, hv'⟩, e, e1⟩ :
        (∃ s1 : Settings K, ((∃ k : Int, ("MAXITER", .int k) ∈ o ∧ s1.maxit = k) ∨
            (∀ v, ("MAXITER", v) ∉ o) ∧ s1.maxit = 100) ∧
          ((∀ v, ("MAXITER", v) ∈ o → ∃ k : Int, v = .int k ∧ 1 ≤ k ∧ k ≤ 199) ∧
            s1 = { (defaultSettings : Settings K) with maxit := s1.maxit }) ∧
          pyMaxit o defaultSettings = .ok s1) ∨
        ((∃ v, ("MAXITER", v) ∈ o ∧ ¬ ∃ k : Int, v = .int k ∧ 1 ≤ k ∧ k ≤ 199) ∧
          ∃ e, pyMaxit o (defaultSettings : Settings K) = .error e) := by
      rcases pyMaxit_cases hd (defaultSettings : Settings K) with ⟨k, h1, h2, h3, h4⟩ | ⟨h1, h2⟩ | h
      · exact Or.inl ⟨_, Or.inl ⟨k, h1, rfl⟩,
          ⟨fun v hv => ⟨k, dict_unique hd hv h1, h2, h3⟩, rfl⟩, h4⟩
      · exact Or.inl ⟨_, Or.inr ⟨h1, rfl⟩, ⟨fun v hv => absurd hv (h1 v), rfl⟩, h2⟩
      · exact Or.inr h
    swap
    · exact Or.inr ⟨fun hv1 => hv' (hv1.maxit v hv), e, by rw [e1]; rfl⟩
    rw [e1]
    obtain ⟨s2, n1, n2, e2⟩ | ⟨⟨v, hv, hv'⟩, e, e2⟩ :
        (∃ s2 : Settings K, ((∃ t, ("ABSTOL", .float t) ∈ o ∧ s2.abstol = t) ∨
            (∀ v, ("ABSTOL", v) ∉ o) ∧ s2.abstol = Scalar.dec 1 6) ∧
          ((∀ v, ("ABSTOL", v) ∈ o → ∃ t, v = .float t ∧ Scalar.ltb (Scalar.dec 0 0) t = true ∧
            Scalar.ltb t (Scalar.dec 1 0) = true) ∧ s2 = { s1 with abstol := s2.abstol }) ∧
          pyAbstol o s1 = .ok s2) ∨
        ((∃ v, ("ABSTOL", v) ∈ o ∧ ¬ ∃ t, v = .float t ∧ Scalar.ltb (Scalar.dec 0 0) t = true ∧
            Scalar.ltb t (Scalar.dec 1 0) = true) ∧ ∃ e, pyAbstol o s1 = .error e) := by
      rcases pyAbstol_cases hd s1 with ⟨k, h1, h2, h3, h4⟩ | ⟨h1, h2⟩ | h
      · exact Or.inl ⟨_, Or.inl ⟨k, h1, rfl⟩,
          ⟨fun v hv => ⟨k, dict_unique hd hv h1, h2, h3⟩, rfl⟩, h4⟩
      · exact Or.inl ⟨_, Or.inr ⟨h1, by rw [m2.2]; rfl⟩, ⟨fun v hv => absurd hv (h1 v), rfl⟩, h2⟩
      · exact Or.inr h
    swap
    · exact Or.inr ⟨fun hv1 => hv' (hv1.abstol v hv), e, by
        show (pyAbstol o s1 >>= _) = _; rw [e2]; rfl⟩
    show _ ∨ (_ ∧ ∃ e, (pyAbstol o s1 >>= _) = _)
    obtain ⟨s3, l1, l2, e3⟩ | ⟨⟨v, hv, hv'⟩, e, e3⟩ :
        (∃ s3 : Settings K, ((∃ t, ("RELTOL", .float t) ∈ o ∧ s3.reltol = t) ∨
            (∀ v, ("RELTOL", v) ∉ o) ∧ s3.reltol = Scalar.dec 1 6) ∧
          ((∀ v, ("RELTOL", v) ∈ o → ∃ t, v = .float t ∧ Scalar.ltb (Scalar.dec 0 0) t = true ∧
            Scalar.ltb t (Scalar.dec 1 0) = true) ∧ s3 = { s2 with reltol := s3.reltol }) ∧
          pyReltol o s2 = .ok s3) ∨
        ((∃ v, ("RELTOL", v) ∈ o ∧ ¬ ∃ t, v = .float t ∧ Scalar.ltb (Scalar.dec 0 0) t = true ∧
            Scalar.ltb t (Scalar.dec 1 0) = true) ∧ ∃ e, pyReltol o s2 = .error e) := by
      rcases pyReltol_cases hd s2 with ⟨k, h1, h2, h3, h4⟩ | ⟨h1, h2⟩ | h
      · exact Or.inl ⟨_, Or.inl ⟨k, h1, rfl⟩,
          ⟨fun v hv => ⟨k, dict_unique hd hv h1, h2, h3⟩, rfl⟩, h4⟩
      · exact Or.inl ⟨_, Or.inr ⟨h1, by rw [n2.2, m2.2]; rfl⟩,
          ⟨fun v hv => absurd hv (h1 v), rfl⟩, h2⟩
      · exact Or.inr h
    swap
    · exact Or.inr ⟨fun hv1 => hv' (hv1.reltol v hv), e, by
        rw [e2]; show (pyReltol o s2 >>= _) = _; rw [e3]; rfl⟩
    obtain ⟨s4, k1, k2, e4⟩ | ⟨⟨v, hv, hv'⟩, e, e4⟩ :
        (∃ s4 : Settings K, ((∃ t, ("SIGMA", .float t) ∈ o ∧ s4.sigma = t) ∨
            (∀ v, ("SIGMA", v) ∉ o) ∧ s4.sigma = Scalar.dec 100 0) ∧
          ((∀ v, ("SIGMA", v) ∈ o → ∃ t, v = .float t ∧ Scalar.ltb (Scalar.dec 0 0) t = true) ∧
            s4 = { s3 with sigma := s4.sigma }) ∧
          pySigma o s3 = .ok s4) ∨
        ((∃ v, ("SIGMA", v) ∈ o ∧ ¬ ∃ t, v = .float t ∧ Scalar.ltb (Scalar.dec 0 0) t = true) ∧
          ∃ e, pySigma o s3 = .error e) := by
      rcases pySigma_cases hd s3 with ⟨k, h1, h2, h4⟩ | ⟨h1, h2⟩ | h
      · exact Or.inl ⟨_, Or.inl ⟨k, h1, rfl⟩,
          ⟨fun v hv => ⟨k, dict_unique hd hv h1, h2⟩, rfl⟩, h4⟩
      · exact Or.inl ⟨_, Or.inr ⟨h1, by rw [l2.2, n2.2, m2.2]; rfl⟩,
          ⟨fun v hv => absurd hv (h1 v), rfl⟩, h2⟩
      · exact Or.inr h
    swap
    · exact Or.inr ⟨fun hv1 => hv' (hv1.sigma v hv), e, by
        rw [e2]; show (pyReltol o s2 >>= _) = _; rw [e3]
        show (pySigma o s3 >>= _) = _; rw [e4]; rfl⟩
    obtain ⟨s5, j1, j2, e5⟩ | ⟨⟨v, hv, hv'⟩, e, e5⟩ :
        (∃ s5 : Settings K, ((∃ k : Int, ("VERBOSE", .int k) ∈ o ∧ s5.verbose = k) ∨
            (∀ v, ("VERBOSE", v) ∉ o) ∧ s5.verbose = 0) ∧
          ((∀ v, ("VERBOSE", v) ∈ o → ∃ k : Int, v = .int k ∧ 0 ≤ k ∧ k < 2 ^ 63) ∧
            s5 = { s4 with verbose := s5.verbose }) ∧
          pyVerbose o s4 = .ok s5) ∨
        ((∃ v, ("VERBOSE", v) ∈ o ∧ ¬ ∃ k : Int, v = .int k ∧ 0 ≤ k ∧ k < 2 ^ 63) ∧
          ∃ e, pyVerbose o s4 = .error e) := by
      rcases pyVerbose_cases hd s4 with ⟨k, h1, h2, h3, h4⟩ | ⟨h1, h2⟩ | h
      · exact Or.inl ⟨_, Or.inl ⟨k, h1, rfl⟩,
          ⟨fun v hv => ⟨k, dict_unique hd hv h1, h2, h3⟩, rfl⟩, h4⟩
      · exact Or.inl ⟨_, Or.inr ⟨h1, by rw [k2.2, l2.2, n2.2, m2.2]; rfl⟩,
          ⟨fun v hv => absurd hv (h1 v), rfl⟩, h2⟩
      · exact Or.inr h
    swap
    · exact Or.inr ⟨fun hv1 => hv' (hv1.verbose v hv), e, by
        rw [e2]; show (pyReltol o s2 >>= _) = _; rw [e3]
        show (pySigma o s3 >>= _) = _; rw [e4]
        show (pyVerbose o s4 >>= _) = _; rw [e5]; rfl⟩
    refine Or.inl ⟨⟨m2.1, n2.1, l2.1, k2.1, j2.1⟩, s5, ?_, ?_⟩
    · have a1 : s5.maxit = s1.maxit := by rw [j2.2, k2.2, l2.2, n2.2]
      have a2 : s5.abstol = s2.abstol := by rw [j2.2, k2.2, l2.2]
      have a3 : s5.reltol = s3.reltol := by rw [j2.2, k2.2]
      have a4 : s5.sigma = s4.sigma := by rw [j2.2]
      exact ⟨by rw [a1]; exact m1, by rw [a2]; exact n1, by rw [a3]; exact l1,
        by rw [a4]; exact k1, j1⟩
    · show (pyAbstol o s1 >>= _) = _
      rw [e2]; show (pyReltol o s2 >>= _) = _; rw [e3]
      show (pySigma o s3 >>= _) = _; rw [e4]
      show (pyVerbose o s4 >>= _) = _; rw [e5]; rfl
  rcases key with ⟨h1, h2⟩ | ⟨h1, h2⟩
  · exact ⟨fun _ => h2, fun h => absurd h1 h⟩
  · exact ⟨fun h => absurd h h1, fun _ => h2⟩

theorem pyOptions_spec {a : PyArgs K} (hd : a.DictOk) :
    (PyValid a.dict → ∃ s, PyUses a.dict s ∧ pyOptions a.opts = .ok (s, pyOutput a.dict)) ∧
    (¬ PyValid a.dict → ∃ e, pyOptions a.opts = .error e) := by
  cases ho : a.opts with
  | none =>
    have : a.dict = [] := by unfold PyArgs.dict; rw [ho]; rfl
    rw [this]
    refine ⟨fun _ => ⟨defaultSettings, ?_, rfl⟩, fun h => absurd ?_ h⟩
    · exact ⟨Or.inr ⟨by simp, rfl⟩, Or.inr ⟨by simp, rfl⟩, Or.inr ⟨by simp, rfl⟩,
        Or.inr ⟨by simp, rfl⟩, Or.inr ⟨by simp, rfl⟩⟩
    · exact ⟨by simp, by simp, by simp, by simp, by simp⟩
  | some o =>
    have : a.dict = o := by unfold PyArgs.dict; rw [ho]; rfl
    unfold PyArgs.DictOk at hd
    rw [this] at hd ⊢
    exact pyOptions_list hd

/-! ## C43 -/

/-- **C43**, rejection: for arrays of the documented shapes the call raises a `TypeError` exactly
when some option that is given has an inadmissible value; this happens before setup, so no solve
takes place. -/
theorem C43_rejected_iff {a : PyArgs K} {n m p : Nat} (h : a.Shaped n m p) (hd : a.DictOk)
    (amd : Amd) :
    (∃ e, method_qpSWIFT amd a = .ok (.typeError e)) ↔ ¬ PyValid a.dict := by
  obtain ⟨h1, h2⟩ := pyOptions_spec hd
  rw [h.run]
  constructor
  · rintro ⟨e, he⟩ hv
    obtain ⟨s, _, hs⟩ := h1 hv
    rw [hs] at he
    simp only at he
    cases hq : QP_SETUP_dense amd (a.setupArgs n m p) with
    | error e' => rw [hq] at he; cases he
    | ok q =>
      rw [hq, ok_bind] at he
      cases hr : QP_SOLVE { q with options := s } with
      | error e' => rw [hr] at he; cases he
      | ok r =>
        rw [hr, ok_bind] at he
        cases ho : pyResult (pyOutput a.dict) a.hasEq r.1 r.2 with
        | error e' => rw [ho] at he; cases he
        | ok out => rw [ho, ok_bind] at he; cases he
  · intro hv
    obtain ⟨e, he⟩ := h2 hv
    exact ⟨e, by rw [he]⟩

/-- The array `out` holds the first `n` numbers of `src` and nothing else. -/
def CopyOf (out src : Buf K) (n : Nat) : Prop := ∃ f, Buf.Has src n f ∧ out = Buf.ofFn n f

theorem pyCopy_iff_copy {src dst : Buf K} {n : Nat} : pyCopy src n = .ok dst ↔ CopyOf dst src n :=
  pyCopy_iff

/-- What the result contains, for the exit code `f` and the final state `q`. -/
structure PyOut.Reports (d : PyOut K) (o : List (String × PyVal K)) (hasEq : Prop) (n m p : Nat)
    (f : Int) (q : QP K) : Prop where
  sol : CopyOf d.sol q.x n
  basic : (∃ b, d.basicInfo = some b) ↔ ("OUTPUT", .int 1) ∈ o ∨ ("OUTPUT", .int 2) ∈ o
  basic_val : ∀ b, d.basicInfo = some b → b.exitFlag = f ∧ b.iterations = q.stats.IterationCount
  adv : (∃ v, d.advInfo = some v) ↔ ("OUTPUT", .int 2) ∈ o
  adv_val : ∀ v, d.advInfo = some v → some v.fval = q.stats.fval ∧ CopyOf v.z q.z m ∧
    CopyOf v.s q.s m ∧ ((∃ y, v.y = some y) ↔ hasEq) ∧ ∀ y, v.y = some y → CopyOf y q.y p

theorem pyOutput_eq {o : List (String × PyVal K)} (hd : (o.map Prod.fst).Nodup) {k : Int}
    (h0 : 0 ≤ k) (h1 : k < 10) : pyOutput o = k ↔ ("OUTPUT", .int k) ∈ o := by
  unfold pyOutput
  cases hg : pyGet o "OUTPUT" with
  | none =>
    refine ⟨fun h => ?_, fun h => absurd h ((pyGet_none hd).mp hg _)⟩
    simp only at h
    omega
  | some v =>
    have hm := (pyGet_iff hd).mp hg
    cases v with
    | int k' =>
      simp only
      constructor
      · intro h
        split at h
        · next hc =>
          obtain ⟨_, _, h3⟩ := pyLong_nonneg hc
          rw [h3] at h
          rw [← h]
          exact hm
        · omega
      · intro h
        have e := dict_unique hd hm h
        cases e
        rw [pyLong_of h0 (by omega), if_pos h0]
    | float t =>
      refine ⟨fun h => ?_, fun h => ?_⟩
      · simp only at h; omega
      · have e := dict_unique hd hm h; cases e
    | other =>
      refine ⟨fun h => ?_, fun h => ?_⟩
      · simp only at h; omega
      · have e := dict_unique hd hm h; cases e

theorem pyResult_iff {o : List (String × PyVal K)} (hd : (o.map Prod.fst).Nodup) {hasEq : Bool}
    {n m p : Nat} {f : Int} {q : QP K} (hn : q.n = n) (hm : q.m = m) (hp : q.p = p) {d : PyOut K}
    (h : pyResult (pyOutput o) hasEq f q = .ok d) : d.Reports o (hasEq = true) n m p f q := by
  unfold pyResult at h
  rw [hn, hm, hp] at h
  cases hx : pyCopy q.x n with
  | error e => rw [hx] at h; cases h
  | ok sol =>
    rw [hx, ok_bind] at h
    have hs := pyCopy_iff_copy.mp hx
    have b1 := pyOutput_eq hd (k := 1) (by omega) (by omega)
    have b2 := pyOutput_eq hd (k := 2) (by omega) (by omega)
    simp only at h
    split at h
    · next h1 =>
      cases h
      refine ⟨hs, ?_, ?_, ?_, ?_⟩
      · exact ⟨fun _ => Or.inl (b1.mp h1), fun _ => ⟨_, rfl⟩⟩
      · intro b hb; cases hb; exact ⟨rfl, rfl⟩
      · refine ⟨fun ⟨v, hv⟩ => by simp at hv, fun hv => ?_⟩
        have := b2.mpr hv
        omega
      · intro v hv; simp at hv
    · next h1 =>
      split at h
      · next h2 =>
        cases hfv : q.stats.fval with
        | none => rw [hfv] at h; cases h
        | some fv =>
        rw [hfv] at h
        simp only [rdCell, ok_bind] at h
        cases hasEq with
        | true =>
          simp only [if_true] at h
          cases hy : pyCopy q.y p with
          | error e => rw [hy] at h; cases h
          | ok y =>
            rw [hy] at h
            cases hz : pyCopy q.z m with
            | error e => rw [hz] at h; cases h
            | ok z =>
              rw [hz] at h
              cases hss : pyCopy q.s m with
              | error e => rw [hss] at h; cases h
              | ok s =>
                rw [hss] at h
                cases h
                refine ⟨hs, ?_, ?_, ?_, ?_⟩
                · exact ⟨fun _ => Or.inr (b2.mp h2), fun _ => ⟨_, rfl⟩⟩
                · intro b hb; cases hb; exact ⟨rfl, rfl⟩
                · exact ⟨fun _ => b2.mp h2, fun _ => ⟨_, rfl⟩⟩
                · intro v hv
                  cases hv
                  refine ⟨hfv.symm, pyCopy_iff_copy.mp hz, pyCopy_iff_copy.mp hss, ?_, ?_⟩
                  · exact ⟨fun _ => rfl, fun _ => ⟨y, rfl⟩⟩
                  · intro y' hy'; cases hy'; exact pyCopy_iff_copy.mp hy
        | false =>
          simp only [Bool.false_eq_true, if_false] at h
          cases hz : pyCopy q.z m with
          | error e => rw [hz] at h; cases h
          | ok z =>
            rw [hz] at h
            cases hss : pyCopy q.s m with
            | error e => rw [hss] at h; cases h
            | ok s =>
              rw [hss] at h
              cases h
              refine ⟨hs, ?_, ?_, ?_, ?_⟩
              · exact ⟨fun _ => Or.inr (b2.mp h2), fun _ => ⟨_, rfl⟩⟩
              · intro b hb; cases hb; exact ⟨rfl, rfl⟩
              · exact ⟨fun _ => b2.mp h2, fun _ => ⟨_, rfl⟩⟩
              · intro v hv
                cases hv
                refine ⟨hfv.symm, pyCopy_iff_copy.mp hz, pyCopy_iff_copy.mp hss, ?_, ?_⟩
                · exact ⟨fun ⟨y, hy⟩ => (by cases hy), fun hf => by cases hf⟩
                · intro y' hy'; cases hy'
      · next h2 =>
        cases h
        refine ⟨hs, ?_, ?_, ?_, ?_⟩
        · refine ⟨fun ⟨b, hb⟩ => (by cases hb), fun hv => ?_⟩
          rcases hv with hv | hv
          · exact absurd (b1.mpr hv) h1
          · exact absurd (b2.mpr hv) h2
        · intro b hb; cases hb
        · exact ⟨fun ⟨b, hb⟩ => (by cases hb), fun hv => absurd (b2.mpr hv) h2⟩
        · intro v hv; cases hv

/-- After a first solve with at least one iteration the objective value is there. -/
theorem first_solve_fval {amd : Amd} {sa : SetupArgs K} {pb : Problem K} {q0 : QP K}
    (h : Started amd sa pb q0) (s : Settings K) {f : Int} {q1 : QP K}
    (hs : QP_SOLVE { q0 with options := s } = .ok (f, q1)) (hm : 1 ≤ s.maxit) :
    ∃ v, q1.stats.fval = some v := by
  obtain ⟨k, qk, h1, h2, _, h3⟩ := (C22_first_solve h s hs).2 (by omega)
  rcases h3 with ⟨_, h4, h5⟩ | ⟨_, _, h5⟩
  · rw [h5]
    cases h1 with
    | zero => simp at h4; omega
    | succ _ hb => exact solveBody_fval _ hb
  · exact solveBody_fval _ h5

/-- The arrays hold numbers and describe the problem `pb`, and no row of `G` is zero. -/
def PyArgs.Describes (a : PyArgs K) (pb : Problem K) : Prop :=
  (a.setupArgs pb.n pb.m pb.p).Give pb ∧ pb.WF

theorem PyArgs.Describes.setup {a : PyArgs K} {pb : Problem K} (hg : a.Describes pb) {amd : Amd}
    (hamd : AmdSafe amd) :
    ∃ sa q0, QP_SETUP_dense amd (a.setupArgs pb.n pb.m pb.p) = .ok q0 ∧ Started amd sa pb q0 := by
  have hperm : PermSource amd (a.setupArgs pb.n pb.m pb.p).Permut
      (a.setupArgs pb.n pb.m pb.p).p pb := Or.inr ⟨rfl, hamd, Or.inl rfl⟩
  obtain ⟨q0, e0⟩ := hg.1.setup_ok hg.2 hperm
  obtain ⟨sa, hs⟩ := hg.1.started hg.2 hperm e0
  exact ⟨sa, q0, e0, hs⟩

/-- **C43, C44**, success: with admissible options and arrays describing a well-formed problem, the
call returns a dictionary. It reports the outcome of the setup for these arrays followed by a solve
that used exactly the options given (defaults for the others). The exit code is 0 or 2. -/
theorem C43_accepted {a : PyArgs K} {pb : Problem K} (h : a.Shaped pb.n pb.m pb.p)
    (hd : a.DictOk) (hv : PyValid a.dict) (hg : a.Describes pb) {amd : Amd} (hamd : AmdSafe amd)
    (hprint : (∀ k, ("VERBOSE", .int k) ∈ a.dict → k = 0) ∨ pb.p ≠ 0) :
    ∃ d s sa q0 f q1, method_qpSWIFT amd a = .ok (.dict d) ∧ PyUses a.dict s ∧
      Started amd sa pb q0 ∧ QP_SOLVE { q0 with options := s } = .ok (f, q1) ∧
      (f = 0 ∨ f = 2) ∧
      d.Reports a.dict (a.A.isSome = true ∧ a.b.isSome = true) pb.n pb.m pb.p f q1 := by
  obtain ⟨s, hs, ho⟩ := (pyOptions_spec hd).1 hv
  obtain ⟨sa, q0, e0, hst⟩ := hg.setup hamd
  have hvb : s.verbose ≤ 0 ∨ pb.p ≠ 0 := by
    rcases hprint with hp | hp
    · left
      rcases hs.verbose with ⟨k, h1, h2⟩ | ⟨_, h2⟩
      · rw [h2, hp k h1]
      · rw [h2]
    · exact Or.inr hp
  obtain ⟨f, q1, e1⟩ := C22_terminates hst s hvb
  have hmax1 : 1 ≤ s.maxit := by
    rcases hs.maxit with ⟨k, h1, h2⟩ | ⟨_, h2⟩
    · obtain ⟨k', hk', h3, _⟩ := hv.maxit _ h1
      cases hk'
      omega
    · omega
  have hf : f = 0 ∨ f = 2 := by
    rcases C22_codes hst s e1 with ⟨h1, _⟩ | ⟨_, h1⟩
    · omega
    · exact h1
  obtain ⟨_, _, hi, _⟩ := hst.sinv (.solve (.options s .start) e1)
  obtain ⟨x, y, z, w, hit⟩ := hi.iter
  have hn : q1.n = pb.n := hi.inv.n
  have hm : q1.m = pb.m := hi.inv.m
  have hp : q1.p = pb.p := hi.inv.pp
  obtain ⟨fv, hfv⟩ := first_solve_fval hst s e1 hmax1
  obtain ⟨d, hdd⟩ : ∃ d, pyResult (pyOutput a.dict) a.hasEq f q1 = .ok d := by
    unfold pyResult
    rw [hfv, hn, hm, hp, pyCopy_iff.mpr ⟨x, hit.x, rfl⟩, pyCopy_iff.mpr ⟨y, hit.y, rfl⟩,
      pyCopy_iff.mpr ⟨z, hit.z, rfl⟩, pyCopy_iff.mpr ⟨w, hit.s, rfl⟩]
    simp only [ok_bind, rdCell]
    split
    · exact ⟨_, rfl⟩
    · split
      · split
        · exact ⟨_, rfl⟩
        · exact ⟨_, rfl⟩
      · exact ⟨_, rfl⟩
  have hrep := pyResult_iff hd hn hm hp hdd
  refine ⟨d, s, sa, q0, f, q1, ?_, hs, hst, e1, hf, ?_⟩
  · rw [h.run, ho]
    simp only
    rw [e0, ok_bind, e1, ok_bind, hdd]
    rfl
  · have he : (a.hasEq = true) = (a.A.isSome = true ∧ a.b.isSome = true) := by
      unfold PyArgs.hasEq
      rw [Bool.and_eq_true, and_comm]
    rw [← he]
    exact hrep

/-- **C43, C44**, whatever the data: if the call returns a dictionary, then the options were
admissible and the dictionary reports a solve that used exactly these options. -/
theorem C44_result {a : PyArgs K} {n m p : Nat} (h : a.Shaped n m p) (hd : a.DictOk) {amd : Amd}
    {d : PyOut K} (hr : method_qpSWIFT amd a = .ok (.dict d)) :
    PyValid a.dict ∧ ∃ s q0 f q1, PyUses a.dict s ∧
      QP_SETUP_dense amd (a.setupArgs n m p) = .ok q0 ∧
      QP_SOLVE { q0 with options := s } = .ok (f, q1) ∧
      (∀ n' m' p' : Nat, q1.n = n' → q1.m = m' → q1.p = p' →
        d.Reports a.dict (a.A.isSome = true ∧ a.b.isSome = true) n' m' p' f q1) := by
  obtain ⟨h1, h2⟩ := pyOptions_spec hd
  by_cases hv : PyValid a.dict
  swap
  · obtain ⟨e, he⟩ := (C43_rejected_iff h hd amd).mpr hv
    rw [he] at hr
    cases hr
  obtain ⟨s, hs, ho⟩ := h1 hv
  rw [h.run, ho] at hr
  simp only at hr
  cases hq : QP_SETUP_dense amd (a.setupArgs n m p) with
  | error e' => rw [hq] at hr; cases hr
  | ok q0 =>
    rw [hq, ok_bind] at hr
    cases hsol : QP_SOLVE { q0 with options := s } with
    | error e' => rw [hsol] at hr; cases hr
    | ok r =>
      rw [hsol, ok_bind] at hr
      cases hres : pyResult (pyOutput a.dict) a.hasEq r.1 r.2 with
      | error e' => rw [hres] at hr; cases hr
      | ok out =>
        rw [hres, ok_bind] at hr
        cases hr
        refine ⟨hv, s, q0, r.1, r.2, hs, rfl, hsol, fun n' m' p' hn hm hp => ?_⟩
        have he : (a.hasEq = true) = (a.A.isSome = true ∧ a.b.isSome = true) := by
          unfold PyArgs.hasEq
          rw [Bool.and_eq_true, and_comm]
        rw [← he]
        exact pyResult_iff hd hn hm hp hres

/-! ## C48, C49 -/

/-- Every array whose dimension is read before the checks has at least one dimension. -/
def PyArgs.HasDims (a : PyArgs K) : Prop :=
  a.c.dims ≠ [] ∧ a.h.dims ≠ [] ∧ ∀ b, a.b = some b → a.A.isSome = true → b.dims ≠ []

/-- Arrays of other shapes do not pass the checks. -/
theorem pyCheck_wrong_shape {a : PyArgs K} (hdims : a.HasDims)
    (hnn : ∀ x ∈ a.c.dims ++ a.h.dims ++ (a.b.map (·.dims)).getD [], 0 ≤ x)
    (h : ¬ ∃ n m p, a.Shaped n m p) :
    ∃ d e, pyDims a = .ok d ∧ pyCheck a d.1 d.2.1 d.2.2 = .ok (some e) := by
  obtain ⟨h1, h2, h3⟩ := hdims
  obtain ⟨n, cs, hc⟩ : ∃ n cs, a.c.dims = n :: cs := List.exists_cons_of_ne_nil h1
  obtain ⟨m, hs, hh⟩ : ∃ m hs, a.h.dims = m :: hs := List.exists_cons_of_ne_nil h2
  obtain ⟨n', rfl⟩ : ∃ n' : Nat, n = n' :=
    ⟨n.toNat, by have := hnn n (by simp [hc]); omega⟩
  obtain ⟨m', rfl⟩ : ∃ m' : Nat, m = m' :=
    ⟨m.toNat, by have := hnn m (by simp [hh]); omega⟩
  obtain ⟨p, hp, hpe⟩ : ∃ p : Nat, pyDims a = .ok ((n' : Int), (m' : Int), (p : Int)) ∧
      ((∃ A b bs, a.A = some A ∧ a.b = some b ∧ b.dims = (p : Int) :: bs) ∨
        ((a.A = none ∨ a.b = none) ∧ p = 0)) := by
    unfold pyDims PyArr.dim0
    rw [hc, hh]
    simp only [ok_bind]
    cases hb : a.b with
    | none => exact ⟨0, rfl, Or.inr ⟨Or.inr rfl, rfl⟩⟩
    | some b =>
      cases hA : a.A with
      | none => exact ⟨0, rfl, Or.inr ⟨Or.inl rfl, rfl⟩⟩
      | some A =>
        obtain ⟨p, bs, hbd⟩ : ∃ p bs, b.dims = p :: bs :=
          List.exists_cons_of_ne_nil (h3 b hb (by rw [hA]; rfl))
        have hp0 : 0 ≤ p := hnn p (by simp [hb, hbd])
        refine ⟨p.toNat, ?_, Or.inl ⟨A, b, bs, rfl, rfl, ?_⟩⟩
        · simp only [hbd, ok_bind]
          rw [Int.toNat_of_nonneg hp0]
          rfl
        · rw [hbd, Int.toNat_of_nonneg hp0]
  have key : ∃ e, pyCheck a n' m' p = .ok (some e) := by
    by_cases e1 : a.c.isFloat = true ∧ a.c.dims.length = 1
    swap
    · unfold pyCheck
      rw [if_pos]
      · exact ⟨_, rfl⟩
      · by_cases hf : a.c.isFloat = true
        · simp only [hf, true_and] at e1
          simp [e1]
        · simp [hf]
    by_cases e2 : a.h.isFloat = true ∧ a.h.dims.length = 1
    swap
    · unfold pyCheck
      rw [if_neg (by simp [e1.1, e1.2]), if_pos]
      · exact ⟨_, rfl⟩
      · by_cases hf : a.h.isFloat = true
        · simp only [hf, true_and] at e2
          simp [e2]
        · simp [hf]
    have hcs : cs = [] := by
      have := e1.2; rw [hc] at this; simpa using this
    have hhs : hs = [] := by
      have := e2.2; rw [hh] at this; simpa using this
    subst hcs hhs
    unfold pyCheck
    rw [if_neg (by simp [e1.1, e1.2]), if_neg (by simp [e2.1, e2.2])]
    have rest : (∃ e, pyMatrix a.G m' n' "G must be a floating matrix with two dimensions"
          "h and G do not have compatible dimensions" = .ok (some e)) ∨
        (pyMatrix a.G m' n' "G must be a floating matrix with two dimensions"
          "h and G do not have compatible dimensions" = .ok none ∧
          ∃ e, pyMatrix a.P n' n' "P must be a floating matrix with two dimensions"
            "c and P do not have compatible dimensions" = .ok (some e)) ∨
        ((a.G.isFloat = true ∧ a.G.dims = [(m' : Int), (n' : Int)]) ∧
          (a.P.isFloat = true ∧ a.P.dims = [(n' : Int), (n' : Int)])) := by
      by_cases g : a.G.isFloat = true ∧ a.G.dims = [(m' : Int), (n' : Int)]
      · by_cases g2 : a.P.isFloat = true ∧ a.P.dims = [(n' : Int), (n' : Int)]
        · exact Or.inr (Or.inr ⟨g, g2⟩)
        · exact Or.inr (Or.inl ⟨pyMatrix_none g, pyMatrix_some g2⟩)
      · exact Or.inl (pyMatrix_some g)
    have fin : ((a.G.isFloat = true ∧ a.G.dims = [(m' : Int), (n' : Int)]) ∧
          (a.P.isFloat = true ∧ a.P.dims = [(n' : Int), (n' : Int)])) →
        ¬ ((∃ A b, a.A = some A ∧ a.b = some b ∧ A.isFloat = true ∧
            A.dims = [(p : Int), (n' : Int)] ∧ b.isFloat = true ∧ b.dims = [(p : Int)]) ∨
          ((a.A = none ∨ a.b = none) ∧ p = 0)) :=
      fun g he => h ⟨n', m', p, ⟨e1.1, hc⟩, ⟨e2.1, hh⟩, g.2, g.1, he⟩
    have fin2 : (∃ e, (do
          let r ← andThen none (pyMatrix a.G m' n'
            "G must be a floating matrix with two dimensions"
            "h and G do not have compatible dimensions")
          andThen r (pyMatrix a.P n' n' "P must be a floating matrix with two dimensions"
            "c and P do not have compatible dimensions")) = .ok (some e)) ∨
        ((a.G.isFloat = true ∧ a.G.dims = [(m' : Int), (n' : Int)]) ∧
          (a.P.isFloat = true ∧ a.P.dims = [(n' : Int), (n' : Int)])) := by
      rcases rest with ⟨e, he⟩ | ⟨he, e, he2⟩ | hg
      · left; exact ⟨e, by simp only [andThen, he, ok_bind, pure_eq_ok]⟩
      · left; exact ⟨e, by simp only [andThen, he, ok_bind, he2]⟩
      · exact Or.inr hg
    rcases hpe with ⟨A, b, bs, hA, hb, hbd⟩ | ⟨hAb, hp0⟩
    · simp only [hA, hb]
      by_cases e3 : b.isFloat = true ∧ b.dims.length = 1
      swap
      · rw [if_pos]
        · exact ⟨_, rfl⟩
        · by_cases hf : b.isFloat = true
          · simp only [hf, true_and] at e3
            simp [e3]
          · simp [hf]
      have hbs : bs = [] := by
        have := e3.2; rw [hbd] at this; simpa using this
      subst hbs
      rw [if_neg (by simp [e3.1, e3.2])]
      by_cases e4 : A.isFloat = true ∧ A.dims = [(p : Int), (n' : Int)]
      · rw [pyMatrix_none e4, ok_bind]
        rcases fin2 with hx | hg
        · exact hx
        · exact absurd (Or.inl ⟨A, b, hA, hb, e4.1, e4.2, e3.1, hbd⟩) (fin hg)
      · obtain ⟨e, he⟩ := pyMatrix_some (m1 := "A must be a floating matrix with two dimensions")
          (m2 := "b and A do not have compatible dimensions") e4
        rw [he]
        exact ⟨e, rfl⟩
    · rcases fin2 with hx | hg
      · cases hb : a.b with
        | none => simpa using hx
        | some b =>
          cases hA : a.A with
          | none => simpa using hx
          | some A => rw [hA, hb] at hAb; simp at hAb
      · exact absurd (Or.inr ⟨hAb, hp0⟩) (fin hg)
  obtain ⟨e, he⟩ := key
  exact ⟨_, e, hp, he⟩

/-- **C48**: arrays that are not floating point arrays of the documented shapes (for any `n`, `m`,
`p`) are rejected with a `TypeError`, before any element is read; sizes are not negative. -/
theorem C48_wrong_shape {a : PyArgs K} (hdims : a.HasDims)
    (hnn : ∀ x ∈ a.c.dims ++ a.h.dims ++ (a.b.map (·.dims)).getD [], 0 ≤ x)
    (h : ¬ ∃ n m p, a.Shaped n m p) (amd : Amd) :
    ∃ e, method_qpSWIFT amd a = .ok (.typeError e) := by
  obtain ⟨d, e, hp, he⟩ := pyCheck_wrong_shape hdims hnn h
  refine ⟨e, ?_⟩
  unfold method_qpSWIFT
  rw [hp, ok_bind]
  simp only [he, ok_bind]
  rfl

/-- **C49**: an array without dimensions for `c`, `h` or (with `A` given) `b` makes the call read
outside the array of dimensions, whatever the other arguments are: the dimensions are read before
they are checked. -/
theorem C49_zero_dim (a : PyArgs K) (h : ¬ a.HasDims) (amd : Amd) :
    method_qpSWIFT amd a = .error .oob := by
  have : pyDims a = .error .oob := by
    unfold pyDims PyArr.dim0
    cases hc : a.c.dims with
    | nil => rfl
    | cons n cs =>
      simp only [ok_bind]
      cases hh : a.h.dims with
      | nil => rfl
      | cons m hs =>
        simp only [ok_bind]
        cases hb : a.b with
        | none =>
          refine absurd ⟨by simp [hc], by simp [hh], ?_⟩ h
          intro b hb'; rw [hb] at hb'; cases hb'
        | some b =>
          cases hA : a.A with
          | none =>
            refine absurd ⟨by simp [hc], by simp [hh], ?_⟩ h
            intro b _ hA'; rw [hA] at hA'; cases hA'
          | some A =>
            cases hbd : b.dims with
            | nil => simp only [hbd]; rfl
            | cons p bs =>
              refine absurd ⟨by simp [hc], by simp [hh], ?_⟩ h
              intro b' hb' _
              rw [hb] at hb'
              cases hb'
              simp [hbd]
  unfold method_qpSWIFT
  rw [this]
  rfl

end Generic

/-! ## Example -/

/-- `min ½ (x² + y²)` subject to `x + y = 1`, `-x ≤ 0`, at most 50 iterations, full output. -/
def pyDemo : PyArgs ℚ :=
  { c := ⟨true, [2], [some 0, some 0]⟩
    h := ⟨true, [1], [some 0]⟩
    P := ⟨true, [2, 2], [some 1, some 0, some 0, some 1]⟩
    G := ⟨true, [1, 2], [some (-1), some 0]⟩
    A := some ⟨true, [1, 2], [some 1, some 1]⟩
    b := some ⟨true, [1], [some 1]⟩
    opts := some [("MAXITER", .int 50), ("OUTPUT", .int 2), ("ABSTOL", .float (1 / 10))] }

/-- The problem it describes. -/
def pyDemoPb : Problem ℚ :=
  denseProblem ROW_MAJOR_ORDERING 2 1 1 (fun i => [1, 0, 0, 1].getD i 0) (fun _ => 1)
    (fun i => [-1, 0].getD i 0) (fun _ => 0) (fun _ => 1) (fun _ => 0)

theorem pyDemo_shaped : pyDemo.Shaped pyDemoPb.n pyDemoPb.m pyDemoPb.p :=
  ⟨⟨rfl, rfl⟩, ⟨rfl, rfl⟩, ⟨rfl, rfl⟩, ⟨rfl, rfl⟩,
    Or.inl ⟨_, _, rfl, rfl, rfl, rfl, rfl, rfl⟩⟩

theorem pyDemo_valid : PyValid pyDemo.dict := by
  refine ⟨?_, ?_, ?_, ?_, ?_⟩ <;> intro v hv <;>
    simp [pyDemo, PyArgs.dict] at hv <;> subst hv
  · exact ⟨50, rfl, by decide, by decide⟩
  · exact ⟨10⁻¹, rfl, by decide +kernel, by decide +kernel⟩

theorem pyDemo_describes : pyDemo.Describes pyDemoPb := by
  constructor
  · refine denseProblem_give (K := ℚ) (pyDemo.setupArgs 2 1 1) rfl rfl ?_ ?_ ?_ ?_ (by decide) ?_
    · intro i hi; norm_num at hi; interval_cases i <;> rfl
    · intro i hi; norm_num at hi; interval_cases i <;> rfl
    · intro i hi; interval_cases i <;> rfl
    · intro i hi; interval_cases i; rfl
    · refine Or.inl ⟨_, _, rfl, rfl, rfl, Nat.zero_lt_one, ?_, ?_⟩
      · intro i hi; norm_num at hi; interval_cases i <;> rfl
      · intro i hi; interval_cases i; rfl
  · refine denseProblem_wf Nat.zero_lt_one (fun r hr => ⟨0, by decide, ?_⟩)
    interval_cases r
    decide +kernel

/-- C43 and C44 apply to it: a full dictionary with multipliers of the equality constraints. -/
example : ∃ d v y, method_qpSWIFT failAmd pyDemo = .ok (.dict d) ∧ d.advInfo = some v ∧
    v.y = some y := by
  have hd : pyDemo.DictOk := by unfold PyArgs.DictOk; decide
  obtain ⟨d, s, sa, q0, f, q1, h1, _, _, _, _, h2⟩ := C43_accepted pyDemo_shaped hd pyDemo_valid
    pyDemo_describes failAmd_safe (Or.inr (by decide))
  obtain ⟨v, hv⟩ := h2.adv.mpr (by simp [pyDemo, PyArgs.dict])
  obtain ⟨y, hy⟩ := (h2.adv_val v hv).2.2.2.1.mpr ⟨rfl, rfl⟩
  exact ⟨d, v, y, h1, hv, hy⟩

/-- 200 iterations are rejected. -/
example : ∃ e, method_qpSWIFT failAmd { pyDemo with opts := some [("MAXITER", .int 200)] }
    = .ok (.typeError e) := by
  refine (C43_rejected_iff (n := 2) (m := 1) (p := 1) ?_ ?_ failAmd).mpr ?_
  · exact ⟨⟨rfl, rfl⟩, ⟨rfl, rfl⟩, ⟨rfl, rfl⟩, ⟨rfl, rfl⟩,
      Or.inl ⟨_, _, rfl, rfl, rfl, rfl, rfl, rfl⟩⟩
  · unfold PyArgs.DictOk; decide
  · intro hv
    obtain ⟨k, hk, _, h2⟩ := hv.maxit (.int 200) (by simp [PyArgs.dict])
    cases hk
    omega

/-- `P` with the wrong shape is rejected. -/
example : ∃ e, method_qpSWIFT failAmd { pyDemo with P := ⟨true, [2, 3], []⟩ }
    = .ok (.typeError e) := by
  refine C48_wrong_shape ⟨by simp [pyDemo], by simp [pyDemo], ?_⟩ ?_ ?_ failAmd
  · intro b hb _
    cases hb
    simp
  · simp [pyDemo]
  · rintro ⟨n, m, p, hs⟩
    have h1 := hs.P.2
    have h2 := hs.c.2
    simp [pyDemo] at h1 h2
    omega

/-- A number instead of the vector `c`. -/
example : method_qpSWIFT failAmd { pyDemo with c := ⟨true, [], [some 0]⟩ } = .error .oob :=
  C49_zero_dim _ (fun h => h.1 rfl) failAmd

end Verif
