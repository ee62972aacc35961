import Verif.Model.PyRefs
import Verif.Props.Python

/-!
# C89: reference counts of the Python entry point
-/

set_option linter.unusedSectionVars false

namespace Verif

section

variable {e : PyEnv} {st : PySt}

theorem pyIncref_old {i : Nat} (h : 0 < st.old i) :
    pyIncref (.old i) st = .ok { st with old := Function.update st.old i (st.old i + 1) } := by
  unfold pyIncref
  exact if_pos h

theorem pyDrop_old {i : Nat} (h : 0 < st.old i) :
    pyDrop (.old i) st = .ok { st with old := Function.update st.old i (st.old i - 1) } := by
  unfold pyDrop pyDecref
  exact if_pos h

/-- A reference taken and given back. -/
theorem pyDrop_incref {f : Nat → Int} {i : Nat} (h : 0 < f i) {l : List PyObj} {x : Bool} :
    pyDrop (.old i) { old := Function.update f i (f i + 1), new := l, exc := x } = .ok { old := f, new := l, exc := x } := by
  rw [pyDrop_old (by simp only [Function.update_self]; omega)]
  simp

/-- What `getptr` leaves behind: a new array, after a copy that was released if the argument is not contiguous. -/
def ptrObjs (contig : Bool) : List PyObj := if contig then [⟨1, []⟩] else [⟨0, []⟩, ⟨1, []⟩]

theorem pyGetptr_eq {x : PyName} (h : 0 < st.old (e.id x)) :
    pyGetptr e x st = .ok (.new (st.new.length + if e.contig x then 0 else 1),
      { st with new := st.new ++ ptrObjs (e.contig x) }) := by
  obtain ⟨f, l, exc⟩ := st
  simp only at h ⊢
  unfold pyGetptr ptrObjs
  cases hc : e.contig x
  · simp only [Bool.false_eq_true, if_false]
    have h1 : pyAlive (.old (e.id x)) ⟨f, l, exc⟩ = .ok () := by
      unfold pyAlive
      exact if_pos h
    rw [h1]
    simp only [ok_bind, pure_eq_ok, pyCreate, pyAlive]
    simp only [List.getElem?_append_right le_rfl, Nat.sub_self, List.getElem?_cons_zero]
    rw [if_pos (by decide), ok_bind]
    unfold pyDrop pyDecref
    simp only
    rw [List.getElem?_append_left (by simp), List.getElem?_append_right le_rfl]
    simp [pure_eq_ok]
  · simp only [if_true]
    rw [pyIncref_old h]
    simp only [ok_bind, pure_eq_ok, pyAlive]
    rw [if_pos (by simp only [Function.update_self]; omega), ok_bind]
    simp only [pyCreate]
    rw [pyDrop_incref h]
    rfl

/-- The number of references to the object numbered `i` of the caller, one more. -/
def PySt.leak (st : PySt) (i : Nat) : PySt := { st with old := Function.update st.old i (st.old i + 1), exc := true }

variable {K : Type} [Zero K] [One K] [Add K] [Sub K] [Mul K] [Div K] [Neg K] [Scalar K]
  {o : List (String × PyVal K)}

theorem pyOptRef_ok {key : String} {s : Settings K} {i : Nat} (h : (pyGet o key).isSome → 0 < st.old i) :
    pyOptRef o key (.ok s) i st = .ok (.ok s, st) := by
  unfold pyOptRef
  cases hg : pyGet o key with
  | none => rfl
  | some v =>
    have h := h (by rw [hg]; rfl)
    simp only
    rw [pyIncref_old h, ok_bind, pyDrop_incref h]
    rfl

theorem pyOptRef_error {key m : String} {i : Nat} {v : PyVal K} (hv : pyGet o key = some v) (h : 0 < st.old i) :
    pyOptRef o key (.error m) i st = .ok (.error m, st.leak i) := by
  unfold pyOptRef
  rw [hv]
  simp only
  rw [pyIncref_old h, ok_bind]
  rfl

/-! ## Specification -/

/-- The value is accepted for this key. -/
structure PyAccepts (key : String) (v : PyVal K) : Prop where
  maxit : key = "MAXITER" → ∃ k : Int, v = .int k ∧ 1 ≤ k ∧ k ≤ 199
  abstol : key = "ABSTOL" →
    ∃ t, v = .float t ∧ Scalar.ltb (Scalar.dec 0 0) t = true ∧ Scalar.ltb t (Scalar.dec 1 0) = true
  reltol : key = "RELTOL" →
    ∃ t, v = .float t ∧ Scalar.ltb (Scalar.dec 0 0) t = true ∧ Scalar.ltb t (Scalar.dec 1 0) = true
  sigma : key = "SIGMA" → ∃ t, v = .float t ∧ Scalar.ltb (Scalar.dec 0 0) t = true
  verbose : key = "VERBOSE" → ∃ k : Int, v = .int k ∧ 0 ≤ k ∧ k < 2 ^ 63

/-- The value of `OUTPUT` is an integer that does not fit into a `long`, or it is not a non-negative integer
and warnings are errors. -/
def PyRaises (e : PyEnv) (o : List (String × PyVal K)) : Prop :=
  (∃ k : Int, ("OUTPUT", .int k) ∈ o ∧ (k < -2 ^ 63 ∨ 2 ^ 63 ≤ k)) ∨
  (e.warnRaises = true ∧ ∃ v, ("OUTPUT", v) ∈ o ∧ ¬ ∃ k : Int, v = .int k ∧ 0 ≤ k)

/-- The objects given by the caller are alive during the call. -/
structure PyHeld (e : PyEnv) (a : PyArgs K) (old : Nat → Int) : Prop where
  c : 0 < old (e.id .c)
  h : 0 < old (e.id .h)
  P : 0 < old (e.id .P)
  G : 0 < old (e.id .G)
  A : a.A.isSome = true → 0 < old (e.id .A)
  b : a.b.isSome = true → 0 < old (e.id .b)
  opts : ∀ key v, (key, v) ∈ a.dict → 0 < old (e.id (.opt key))

/-! ## Options -/

theorem pyMaxit_error (hd : (o.map Prod.fst).Nodup) {s : Settings K} {m : String} (h : pyMaxit o s = .error m) :
    ∃ v, ("MAXITER", v) ∈ o ∧ ¬ PyAccepts "MAXITER" v := by
  rcases pyMaxit_cases hd s with ⟨k, -, -, -, h'⟩ | ⟨-, h'⟩ | ⟨⟨v, h1, h2⟩, -⟩
  · rw [h'] at h; cases h
  · rw [h'] at h; cases h
  · exact ⟨v, h1, fun h => h2 (h.maxit rfl)⟩

theorem pyAbstol_error (hd : (o.map Prod.fst).Nodup) {s : Settings K} {m : String} (h : pyAbstol o s = .error m) :
    ∃ v, ("ABSTOL", v) ∈ o ∧ ¬ PyAccepts "ABSTOL" v := by
  rcases pyAbstol_cases hd s with ⟨k, -, -, -, h'⟩ | ⟨-, h'⟩ | ⟨⟨v, h1, h2⟩, -⟩
  · rw [h'] at h; cases h
  · rw [h'] at h; cases h
  · exact ⟨v, h1, fun h => h2 (h.abstol rfl)⟩

theorem pyReltol_error (hd : (o.map Prod.fst).Nodup) {s : Settings K} {m : String} (h : pyReltol o s = .error m) :
    ∃ v, ("RELTOL", v) ∈ o ∧ ¬ PyAccepts "RELTOL" v := by
  rcases pyReltol_cases hd s with ⟨k, -, -, -, h'⟩ | ⟨-, h'⟩ | ⟨⟨v, h1, h2⟩, -⟩
  · rw [h'] at h; cases h
  · rw [h'] at h; cases h
  · exact ⟨v, h1, fun h => h2 (h.reltol rfl)⟩

theorem pySigma_error (hd : (o.map Prod.fst).Nodup) {s : Settings K} {m : String} (h : pySigma o s = .error m) :
    ∃ v, ("SIGMA", v) ∈ o ∧ ¬ PyAccepts "SIGMA" v := by
  rcases pySigma_cases hd s with ⟨k, -, -, h'⟩ | ⟨-, h'⟩ | ⟨⟨v, h1, h2⟩, -⟩
  · rw [h'] at h; cases h
  · rw [h'] at h; cases h
  · exact ⟨v, h1, fun h => h2 (h.sigma rfl)⟩

theorem pyVerbose_error (hd : (o.map Prod.fst).Nodup) {s : Settings K} {m : String} (h : pyVerbose o s = .error m) :
    ∃ v, ("VERBOSE", v) ∈ o ∧ ¬ PyAccepts "VERBOSE" v := by
  rcases pyVerbose_cases hd s with ⟨k, -, -, -, h'⟩ | ⟨-, h'⟩ | ⟨⟨v, h1, h2⟩, -⟩
  · rw [h'] at h; cases h
  · rw [h'] at h; cases h
  · exact ⟨v, h1, fun h => h2 (h.verbose rfl)⟩

/-- One block of the options: accepted without effect, or rejected with a reference left behind. -/
theorem pyOptRef_spec (hd : (o.map Prod.fst).Nodup) (ha : ∀ key v, (key, v) ∈ o → 0 < st.old (e.id (.opt key)))
    {key : String} {r : Except String (Settings K)}
    (hr : ∀ m, r = .error m → ∃ v, (key, v) ∈ o ∧ ¬ PyAccepts key v) :
    (∃ s, r = .ok s ∧ pyOptRef o key r (e.id (.opt key)) st = .ok (.ok s, st)) ∨
    (∃ m v, r = .error m ∧ (key, v) ∈ o ∧ ¬ PyAccepts key v ∧
      pyOptRef o key r (e.id (.opt key)) st = .ok (.error m, st.leak (e.id (.opt key)))) := by
  cases r with
  | ok s =>
    refine Or.inl ⟨s, rfl, pyOptRef_ok fun h => ?_⟩
    obtain ⟨v, hv⟩ := Option.isSome_iff_exists.mp h
    exact ha key v ((pyGet_iff hd).mp hv)
  | error m =>
    obtain ⟨v, h1, h2⟩ := hr m rfl
    exact Or.inr ⟨m, v, rfl, h1, h2, pyOptRef_error ((pyGet_iff hd).mpr h1) (ha key v h1)⟩

theorem pyOutRef_spec (hd : (o.map Prod.fst).Nodup) (ha : ∀ key v, (key, v) ∈ o → 0 < st.old (e.id (.opt key))) :
    ∃ x, pyOutRef e o st = .ok { st with exc := x } ∧ (x = true ↔ st.exc = true ∨ PyRaises e o) := by
  unfold pyOutRef
  cases hg : pyGet o "OUTPUT" with
  | none =>
    have hno : ∀ v, ("OUTPUT", v) ∉ o := fun v hv => by
      rw [(pyGet_iff hd).mpr hv] at hg
      cases hg
    refine ⟨st.exc, rfl, ⟨Or.inl, ?_⟩⟩
    rintro (h | ⟨k, h, -⟩ | ⟨-, v, h, -⟩)
    · exact h
    · exact absurd h (hno _)
    · exact absurd h (hno _)
  | some v =>
    have hv := (pyGet_iff hd).mp hg
    have h := ha _ _ hv
    have hu : ∀ w, ("OUTPUT", w) ∈ o → w = v := fun w hw => dict_unique hd hw hv
    simp only
    rw [pyIncref_old h, ok_bind]
    cases v with
    | int k =>
      simp only
      by_cases hk : -2 ^ 63 ≤ k ∧ k < 2 ^ 63
      · rw [if_pos hk]
        by_cases h0 : k ≥ 0
        · rw [if_pos h0, pyDrop_incref h]
          refine ⟨st.exc, rfl, ⟨Or.inl, ?_⟩⟩
          rintro (h | ⟨k', h, h'⟩ | ⟨-, v, h, h'⟩)
          · exact h
          · have := hu _ h
            cases this
            omega
          · have := hu _ h
            subst this
            exact absurd ⟨k, rfl, h0⟩ h'
        · rw [if_neg h0, pyDrop_incref h]
          refine ⟨_, rfl, ?_⟩
          rw [Bool.or_eq_true]
          constructor
          · rintro (h | h)
            · exact Or.inl h
            · refine Or.inr (Or.inr ⟨h, _, hv, ?_⟩)
              rintro ⟨k', h1, h2⟩
              cases h1
              omega
          · rintro (h | ⟨k', h, h'⟩ | ⟨h, -⟩)
            · exact Or.inl h
            · have := hu _ h
              cases this
              omega
            · exact Or.inr h
      · rw [if_neg hk, pyDrop_incref h]
        refine ⟨true, rfl, ⟨fun _ => Or.inr (Or.inl ⟨k, hv, by omega⟩), fun _ => rfl⟩⟩
    | float t =>
      simp only
      rw [pyDrop_incref h]
      refine ⟨_, rfl, ?_⟩
      rw [Bool.or_eq_true]
      constructor
      · rintro (h | h)
        · exact Or.inl h
        · exact Or.inr (Or.inr ⟨h, _, hv, by rintro ⟨k', h1, -⟩; cases h1⟩)
      · rintro (h | ⟨k', h, h'⟩ | ⟨h, -⟩)
        · exact Or.inl h
        · cases hu _ h
        · exact Or.inr h
    | other =>
      simp only
      rw [pyDrop_incref h]
      refine ⟨_, rfl, ?_⟩
      rw [Bool.or_eq_true]
      constructor
      · rintro (h | h)
        · exact Or.inl h
        · exact Or.inr (Or.inr ⟨h, _, hv, by rintro ⟨k', h1, -⟩; cases h1⟩)
      · rintro (h | ⟨k', h, h'⟩ | ⟨h, -⟩)
        · exact Or.inl h
        · cases hu _ h
        · exact Or.inr h

theorem pyThen_ok {s : Settings K} {f : Settings K → PySt → M (Except String (Settings K) × PySt)} :
    pyThen (.ok s, st) f = f s st := rfl

theorem pyThen_error {m : String} {f : Settings K → PySt → M (Except String (Settings K) × PySt)} :
    pyThen (.error m, st) f = .ok (.error m, st) := rfl

theorem pyOptionsR_spec {opts : Option (List (String × PyVal K))} (hd : ((opts.getD []).map Prod.fst).Nodup)
    (ha : ∀ key v, (key, v) ∈ opts.getD [] → 0 < st.old (e.id (.opt key))) :
    (∃ s x, pyOptions opts = .ok s ∧ pyOptionsR e opts st = .ok (.ok s, { st with exc := x }) ∧
      (x = true ↔ st.exc = true ∨ PyRaises e (opts.getD []))) ∨
    (∃ m key v, pyOptions opts = .error m ∧ (key, v) ∈ opts.getD [] ∧ ¬ PyAccepts key v ∧
      pyOptionsR e opts st = .ok (.error m, st.leak (e.id (.opt key)))) := by
  cases opts with
  | none =>
    refine Or.inl ⟨_, st.exc, rfl, rfl, ⟨Or.inl, ?_⟩⟩
    rintro (h | ⟨k, h, -⟩ | ⟨-, v, h, -⟩)
    · exact h
    · cases h
    · cases h
  | some o =>
    simp only [Option.getD_some] at hd ha ⊢
    unfold pyOptions pyOptionsR
    simp only
    rcases pyOptRef_spec (e := e) hd ha (fun m h => pyMaxit_error hd (s := defaultSettings) (m := m) h) with
      ⟨s1, e1, f1⟩ | ⟨m, v, e1, h1, h2, f1⟩
    swap
    · rw [f1, e1]
      exact Or.inr ⟨m, _, v, rfl, h1, h2, rfl⟩
    rw [f1, e1]
    simp only [ok_bind, pyThen_ok]
    rcases pyOptRef_spec (e := e) hd ha (fun m h => pyAbstol_error hd (s := s1) (m := m) h) with
      ⟨s2, e2, f2⟩ | ⟨m, v, e2, h1, h2, f2⟩
    swap
    · rw [f2]
      refine Or.inr ⟨m, _, v, ?_, h1, h2, rfl⟩
      show (pyAbstol o s1 >>= _) = _
      rw [e2]; rfl
    rw [f2]
    simp only [ok_bind, pyThen_ok]
    rcases pyOptRef_spec (e := e) hd ha (fun m h => pyReltol_error hd (s := s2) (m := m) h) with
      ⟨s3, e3, f3⟩ | ⟨m, v, e3, h1, h2, f3⟩
    swap
    · rw [f3]
      refine Or.inr ⟨m, _, v, ?_, h1, h2, rfl⟩
      show (pyAbstol o s1 >>= _) = _
      rw [e2]; show (pyReltol o s2 >>= _) = _; rw [e3]; rfl
    rw [f3]
    simp only [ok_bind, pyThen_ok]
    rcases pyOptRef_spec (e := e) hd ha (fun m h => pySigma_error hd (s := s3) (m := m) h) with
      ⟨s4, e4, f4⟩ | ⟨m, v, e4, h1, h2, f4⟩
    swap
    · rw [f4]
      refine Or.inr ⟨m, _, v, ?_, h1, h2, rfl⟩
      show (pyAbstol o s1 >>= _) = _
      rw [e2]; show (pyReltol o s2 >>= _) = _; rw [e3]
      show (pySigma o s3 >>= _) = _; rw [e4]; rfl
    rw [f4]
    simp only [ok_bind, pyThen_ok]
    rcases pyOptRef_spec (e := e) hd ha (fun m h => pyVerbose_error hd (s := s4) (m := m) h) with
      ⟨s5, e5, f5⟩ | ⟨m, v, e5, h1, h2, f5⟩
    swap
    · rw [f5]
      refine Or.inr ⟨m, _, v, ?_, h1, h2, rfl⟩
      show (pyAbstol o s1 >>= _) = _
      rw [e2]; show (pyReltol o s2 >>= _) = _; rw [e3]
      show (pySigma o s3 >>= _) = _; rw [e4]
      show (pyVerbose o s4 >>= _) = _; rw [e5]; rfl
    rw [f5]
    simp only [ok_bind]
    obtain ⟨x, g1, g2⟩ := pyOutRef_spec (e := e) hd ha
    rw [g1]
    refine Or.inl ⟨_, x, ?_, rfl, g2⟩
    show (pyAbstol o s1 >>= _) = _
    rw [e2]; show (pyReltol o s2 >>= _) = _; rw [e3]
    show (pySigma o s3 >>= _) = _; rw [e4]
    show (pyVerbose o s4 >>= _) = _; rw [e5]; rfl

/-! ## The arrays and the result -/

/-- The end of the call: the result is built and the arrays are released. -/
def pyEnd (level : Int) (hasEq : Bool) (c h P G : PyRef) (A b : List PyRef) (st : PySt) : M (PyRef × PySt) := do
  let res ← pyResultR level hasEq st
  let st ← pyDrop res.2.1 res.2.2
  let st ← pyDrop P st
  let st ← pyDrop c st
  let st ← pyDrop G st
  let st ← pyDrop h st
  let st ← A.foldlM (fun st r => pyDrop r st) st
  let st ← b.foldlM (fun st r => pyDrop r st) st
  pure (res.1, st)

/-- If it runs while no object of the caller has a reference, it does not touch them, and runs the same
whatever their counts are, and with or without an exception. -/
def Free {α : Type} (op : PySt → M (α × PySt)) : Prop :=
  ∀ st a st', st.old = (fun _ => 0) → op st = .ok (a, st') →
    st'.old = (fun _ => 0) ∧ ∀ f x, op ⟨f, st.new, x⟩ = .ok (a, ⟨f, st'.new, x⟩)

/-- As `Free`, for steps without a result. -/
def Free1 (op : PySt → M PySt) : Prop :=
  ∀ st st', st.old = (fun _ => 0) → op st = .ok st' →
    st'.old = (fun _ => 0) ∧ ∀ f x, op ⟨f, st.new, x⟩ = .ok ⟨f, st'.new, x⟩

theorem Free.bind {α β : Type} {op : PySt → M (α × PySt)} {k : α → PySt → M (β × PySt)} (h : Free op)
    (hk : ∀ a, Free (k a)) : Free fun st => op st >>= fun r => k r.1 r.2 := by
  intro st b st' h0 hr
  dsimp only at hr ⊢
  cases h1 : op st with
  | error x => rw [h1] at hr; cases hr
  | ok r =>
    obtain ⟨a, s1⟩ := r
    rw [h1, ok_bind] at hr
    obtain ⟨g1, g2⟩ := h st a s1 h0 h1
    obtain ⟨g3, g4⟩ := hk a s1 b st' g1 hr
    exact ⟨g3, fun f x => by rw [g2, ok_bind]; exact g4 f x⟩

theorem Free1.bind {β : Type} {op : PySt → M PySt} {k : PySt → M (β × PySt)} (h : Free1 op)
    (hk : Free k) : Free fun st => op st >>= k := by
  intro st b st' h0 hr
  dsimp only at hr ⊢
  cases h1 : op st with
  | error x => rw [h1] at hr; cases hr
  | ok s1 =>
    rw [h1, ok_bind] at hr
    obtain ⟨g1, g2⟩ := h st s1 h0 h1
    obtain ⟨g3, g4⟩ := hk s1 b st' g1 hr
    exact ⟨g3, fun f x => by rw [g2, ok_bind]; exact g4 f x⟩

theorem Free.pure {α : Type} (a : α) : Free fun st => (pure (a, st) : M (α × PySt)) := by
  intro st b st' h0 hr
  cases hr
  exact ⟨h0, fun f x => rfl⟩

theorem Free1.pure : Free1 fun st => (pure st : M PySt) := by
  intro st st' h0 hr
  cases hr
  exact ⟨h0, fun f x => rfl⟩

theorem Free1.fold {op : PySt → PyRef → M PySt} (h : ∀ r, Free1 fun st => op st r) (l : List PyRef) :
    Free1 fun st => l.foldlM op st := by
  induction l with
  | nil => exact Free1.pure
  | cons a l ih =>
    intro st st' h0 hr
    simp only [List.foldlM_cons] at hr ⊢
    cases h1 : op st a with
    | error x => rw [h1] at hr; cases hr
    | ok s1 =>
      rw [h1, ok_bind] at hr
      obtain ⟨g1, g2⟩ := h a st s1 h0 h1
      obtain ⟨g3, g4⟩ := ih s1 st' g1 hr
      exact ⟨g3, fun f x => by
        have g2' : op ⟨f, st.new, x⟩ a = _ := g2 f x
        rw [g2', ok_bind]
        exact g4 f x⟩

theorem pyIncref_free (r : PyRef) : Free1 (pyIncref r) := by
  intro st st' h0 hr
  unfold pyIncref at hr ⊢
  cases r with
  | old i =>
    rw [h0] at hr
    simp at hr
  | new k =>
    simp only at hr ⊢
    cases hk : st.new[k]? with
    | none => rw [hk] at hr; cases hr
    | some o =>
      rw [hk] at hr
      simp only at hr ⊢
      split_ifs at hr ⊢
      cases hr
      exact ⟨h0, fun f x => rfl⟩

theorem pyDecref_free (d : Nat) (r : PyRef) : Free1 (pyDecref d r) := by
  induction d generalizing r with
  | zero => intro st st' h0 hr; cases hr
  | succ d ih =>
    intro st st' h0 hr
    unfold pyDecref at hr ⊢
    cases r with
    | old i =>
      rw [h0] at hr
      simp at hr
    | new k =>
      simp only at hr ⊢
      cases hk : st.new[k]? with
      | none => rw [hk] at hr; cases hr
      | some o =>
        rw [hk] at hr
        simp only at hr ⊢
        split_ifs at hr ⊢
        · cases hr
          exact ⟨h0, fun f x => rfl⟩
        · exact Free1.fold ih o.owns { st with new := st.new.set k ⟨0, []⟩ } st' h0 hr

theorem pyDrop_free (r : PyRef) : Free1 (pyDrop r) := fun st st' h0 hr =>
  pyDecref_free (st.new.length + 1) r st st' h0 hr

theorem pyCreate_free {β : Type} (owns : List PyRef) {k : PyRef → PySt → M (β × PySt)} (hk : ∀ r, Free (k r)) :
    Free fun st => k (pyCreate owns st).1 (pyCreate owns st).2 :=
  fun st b st' h0 hr => hk _ (pyCreate owns st).2 b st' h0 hr

theorem pyFresh_free {β : Type} (j : Nat) {k : List PyRef → PySt → M (β × PySt)} (hk : ∀ r, Free (k r)) :
    Free fun st => k (pyFresh j st).1 (pyFresh j st).2 := by
  induction j generalizing k with
  | zero => exact hk []
  | succ j ih =>
    exact pyCreate_free [] (k := fun a st => k (a :: (pyFresh j st).1) (pyFresh j st).2)
      fun a => ih fun r => hk (a :: r)

theorem pyBuild_free (j : Nat) (objs : List PyRef) : Free (pyBuild j objs) := by
  unfold pyBuild
  exact pyFresh_free j (k := fun fs st => objs.foldlM (fun st r => pyIncref r st) st >>= fun st =>
    pure (pyCreate (fs ++ objs) st)) fun fs => (Free1.fold pyIncref_free objs).bind
      (pyCreate_free (fs ++ objs) (k := fun r st => pure (r, st)) fun r => Free.pure r)

/-- The end of the full dictionary. -/
def pyFull (x b : PyRef) (y : Option PyRef) (j : Nat) (st : PySt) : M ((PyRef × PyRef) × PySt) :=
  pyBuild j (y.toList ++ [(pyCreate [] st).1, (pyCreate [] (pyCreate [] st).2).1]) (pyCreate [] (pyCreate [] st).2).2 >>=
  fun adv => pyBuild 3 [x, b, adv.1] adv.2 >>= fun result => pyDrop b result.2 >>= fun s => pyDrop adv.1 s >>= fun s =>
  (match y with
    | some y => pyDrop y s
    | none => pure s) >>= fun s => pyDrop (pyCreate [] st).1 s >>= fun s =>
  pyDrop (pyCreate [] (pyCreate [] st).2).1 s >>= fun s => pure ((result.1, x), s)

theorem pyFull_free (x b : PyRef) (y : Option PyRef) (j : Nat) : Free (pyFull x b y j) := by
  have hy : Free1 fun s => (match y with
    | some y => pyDrop y s
    | none => pure s : M PySt) := by
    cases y with
    | none => exact Free1.pure
    | some y => exact pyDrop_free y
  exact pyCreate_free [] (k := fun z st =>
    pyBuild j (y.toList ++ [z, (pyCreate [] st).1]) (pyCreate [] st).2 >>=
    fun adv => pyBuild 3 [x, b, adv.1] adv.2 >>= fun result => pyDrop b result.2 >>= fun s => pyDrop adv.1 s >>= fun s =>
    (match y with
      | some y => pyDrop y s
      | none => pure s) >>= fun s => pyDrop z s >>= fun s =>
    pyDrop (pyCreate [] st).1 s >>= fun s => pure ((result.1, x), s)) fun z =>
    pyCreate_free [] (k := fun v st =>
    pyBuild j (y.toList ++ [z, v]) st >>=
    fun adv => pyBuild 3 [x, b, adv.1] adv.2 >>= fun result => pyDrop b result.2 >>= fun s => pyDrop adv.1 s >>= fun s =>
    (match y with
      | some y => pyDrop y s
      | none => pure s) >>= fun s => pyDrop z s >>= fun s =>
    pyDrop v s >>= fun s => pure ((result.1, x), s)) fun v =>
    (pyBuild_free _ _).bind (k := fun adv st => pyBuild 3 [x, b, adv] st >>= fun result => pyDrop b result.2 >>=
    fun s => pyDrop adv s >>= fun s =>
    (match y with
      | some y => pyDrop y s
      | none => pure s) >>= fun s => pyDrop z s >>= fun s =>
    pyDrop v s >>= fun s => pure ((result.1, x), s)) fun adv =>
    (pyBuild_free 3 [x, b, adv]).bind (k := fun result st => pyDrop b st >>=
    fun s => pyDrop adv s >>= fun s =>
    (match y with
      | some y => pyDrop y s
      | none => pure s) >>= fun s => pyDrop z s >>= fun s =>
    pyDrop v s >>= fun s => pure ((result, x), s)) fun r =>
    (pyDrop_free b).bind <| (pyDrop_free adv).bind <| hy.bind <| (pyDrop_free z).bind <|
    (pyDrop_free v).bind (Free.pure (r, x))

theorem pyResultR_free (level : Int) (hasEq : Bool) :
    Free fun st => pyResultR level hasEq st >>= fun r => pure ((r.1, r.2.1), r.2.2) := by
  unfold pyResultR
  dsimp only
  by_cases h1 : level = 1
  · simp only [if_pos h1, bind_assoc, pure_bind]
    exact pyCreate_free [] (k := fun x st => pyBuild 8 [] st >>= fun basic =>
      pyBuild 2 [x, basic.1] basic.2 >>= fun result => pyDrop basic.1 result.2 >>= fun st =>
        pure ((result.1, x), st)) fun x =>
      (pyBuild_free 8 []).bind (k := fun b st => pyBuild 2 [x, b] st >>= fun result =>
        pyDrop b result.2 >>= fun st => pure ((result.1, x), st)) fun b =>
      (pyBuild_free 2 [x, b]).bind (k := fun r st => pyDrop b st >>= fun st => pure ((r, x), st)) fun r =>
      (pyDrop_free b).bind (Free.pure (r, x))
  by_cases h2 : level = 2
  · simp only [if_neg h1, if_pos h2, bind_assoc, pure_bind]
    cases hasEq
    · exact pyCreate_free [] (k := fun x st => pyBuild 8 [] st >>= fun b => pyFull x b.1 none 8 b.2) fun x =>
        (pyBuild_free 8 []).bind (k := fun b st => pyFull x b none 8 st) fun b => pyFull_free x b none 8
    · exact pyCreate_free [] (k := fun x st => pyBuild 8 [] st >>= fun b =>
        pyFull x b.1 (some (pyCreate [] b.2).1) 9 (pyCreate [] b.2).2) fun x =>
        (pyBuild_free 8 []).bind (k := fun b st => pyFull x b (some (pyCreate [] st).1) 9 (pyCreate [] st).2) fun b =>
        pyCreate_free [] (k := fun y st => pyFull x b (some y) 9 st) fun y => pyFull_free x b (some y) 9
  · simp only [if_neg h1, if_neg h2, bind_assoc, pure_bind]
    exact pyCreate_free [] (k := fun x st => pyBuild 1 [x] st >>= fun result =>
        pure ((result.1, x), result.2)) fun x => (pyBuild_free 1 [x]).bind
        (k := fun r st => pure ((r, x), st)) fun r => Free.pure (r, x)

theorem pyEnd_free (level : Int) (hasEq : Bool) (c h P G : PyRef) (A b : List PyRef) :
    Free (pyEnd level hasEq c h P G A b) := by
  have : pyEnd level hasEq c h P G A b = fun st =>
      (pyResultR level hasEq st >>= fun r => pure ((r.1, r.2.1), r.2.2)) >>= fun res =>
      pyDrop res.1.2 res.2 >>= fun st => pyDrop P st >>= fun st => pyDrop c st >>= fun st =>
      pyDrop G st >>= fun st => pyDrop h st >>= fun st =>
      A.foldlM (fun st r => pyDrop r st) st >>= fun st =>
      b.foldlM (fun st r => pyDrop r st) st >>= fun st => pure (res.1.1, st) := by
    funext st
    unfold pyEnd
    simp only [bind_assoc, pure_bind]
  rw [this]
  exact (pyResultR_free level hasEq).bind fun r => (pyDrop_free _).bind <| (pyDrop_free _).bind <|
    (pyDrop_free _).bind <| (pyDrop_free _).bind <| (pyDrop_free _).bind <|
    (Free1.fold pyDrop_free A).bind <| (Free1.fold pyDrop_free b).bind (Free.pure _)

/-- Computed: no object of the caller is touched and dropping the result leaves no reference. -/
def endsCheck (m : M (PyRef × PySt)) : Bool :=
  match m with
  | .error _ => false
  | .ok r => match pyDrop r.1 r.2 with
    | .error _ => false
    | .ok st => st.new.all fun y => y.refs = 0

/-- The computed check carries over to any counts of the caller's objects. -/
theorem pyEnd_of_check {level : Int} {hasEq : Bool} {c h P G : PyRef} {A b : List PyRef} {l : List PyObj}
    (hc : endsCheck (pyEnd level hasEq c h P G A b ⟨fun _ => 0, l, false⟩) = true) (f : Nat → Int) (x : Bool) :
    ∃ r st, pyEnd level hasEq c h P G A b ⟨f, l, x⟩ = .ok (r, st) ∧ st.old = f ∧ st.exc = x ∧
      ∃ st', pyDrop r st = .ok st' ∧ st'.old = f ∧ ∀ y ∈ st'.new, y.refs = 0 := by
  unfold endsCheck at hc
  cases h1 : pyEnd level hasEq c h P G A b ⟨fun _ => 0, l, false⟩ with
  | error e => rw [h1] at hc; cases hc
  | ok r =>
    obtain ⟨r, st⟩ := r
    rw [h1] at hc
    simp only at hc
    obtain ⟨g1, g2⟩ := pyEnd_free _ _ _ _ _ _ _ _ _ _ _ rfl h1
    cases h2 : pyDrop r st with
    | error e => rw [h2] at hc; cases hc
    | ok st' =>
      rw [h2] at hc
      obtain ⟨g3, g4⟩ := pyDrop_free _ _ _ g1 h2
      exact ⟨r, _, g2 f x, rfl, rfl, _, g4 f x, rfl, fun y hy => by simpa using List.all_eq_true.mp hc y hy⟩

/-- The output level only matters as far as the dictionaries differ. -/
theorem pyEnd_level {level : Int} (h1 : level ≠ 1) (h2 : level ≠ 2) : pyEnd level = pyEnd 0 := by
  funext q c h P G A b st
  unfold pyEnd pyResultR
  simp only [if_neg h1, if_neg h2]
  rfl

theorem pyEnd_noEq (level : Int) (kc kh kP kG : Bool) :
    endsCheck (pyEnd level false
      (.new (if kc then 0 else 1))
      (.new ((ptrObjs kc).length + if kh then 0 else 1))
      (.new ((ptrObjs kc ++ ptrObjs kh).length + if kP then 0 else 1))
      (.new ((ptrObjs kc ++ ptrObjs kh ++ ptrObjs kP).length + if kG then 0 else 1)) [] []
      ⟨fun _ => 0, ptrObjs kc ++ ptrObjs kh ++ ptrObjs kP ++ ptrObjs kG, false⟩) = true := by
  by_cases h1 : level = 1
  · subst h1
    revert kc kh kP kG
    decide +kernel
  by_cases h2 : level = 2
  · subst h2
    revert kc kh kP kG
    decide +kernel
  · rw [pyEnd_level h1 h2]
    clear h1 h2
    revert kc kh kP kG
    decide +kernel

theorem pyEnd_eq (level : Int) (kc kh kb kA kP kG : Bool) :
    endsCheck (pyEnd level true
      (.new (if kc then 0 else 1))
      (.new ((ptrObjs kc).length + if kh then 0 else 1))
      (.new ((ptrObjs kc ++ ptrObjs kh ++ ptrObjs kb ++ ptrObjs kA).length + if kP then 0 else 1))
      (.new ((ptrObjs kc ++ ptrObjs kh ++ ptrObjs kb ++ ptrObjs kA ++ ptrObjs kP).length + if kG then 0 else 1))
      [.new ((ptrObjs kc ++ ptrObjs kh ++ ptrObjs kb).length + if kA then 0 else 1)]
      [.new ((ptrObjs kc ++ ptrObjs kh).length + if kb then 0 else 1)]
      ⟨fun _ => 0, ptrObjs kc ++ ptrObjs kh ++ ptrObjs kb ++ ptrObjs kA ++ ptrObjs kP ++ ptrObjs kG, false⟩) = true := by
  by_cases h1 : level = 1
  · subst h1
    revert kc kh kb kA kP kG
    decide +kernel
  by_cases h2 : level = 2
  · subst h2
    revert kc kh kb kA kP kG
    decide +kernel
  · rw [pyEnd_level h1 h2]
    clear h1 h2
    revert kc kh kb kA kP kG
    decide +kernel

end

end Verif
