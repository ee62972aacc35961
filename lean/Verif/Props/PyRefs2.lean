import Verif.Props.PyRefs

/-!
# C89: reference counts of the Python entry point, a whole call
-/

set_option linter.unusedSectionVars false

namespace Verif

section

variable {e : PyEnv} {K : Type} [Zero K] [One K] [Add K] [Sub K] [Mul K] [Div K] [Neg K] [Scalar K]
  {a : PyArgs K} {amd : Amd}

/-- From the arrays to the end, as one step: `s` sets up and solves, `t` makes the numbers of the result. -/
def pyRest (e : PyEnv) (hasEq : Bool) (level : Int) (setup : M (QP K)) (solve : QP K → M (PyOut K)) (st : PySt) :
    M ((PyRes K × Option PyRef) × PySt) := do
  let c ← pyGetptr e .c st
  let h ← pyGetptr e .h c.2
  let bA ← (if hasEq then do
      let b ← pyGetptr e .b h.2
      let A ← pyGetptr e .A b.2
      pure ([b.1], [A.1], A.2)
    else pure ([], [], h.2) : M (List PyRef × List PyRef × PySt))
  let P ← pyGetptr e .P bA.2.2
  let G ← pyGetptr e .G P.2
  (bA.2.1 ++ [P.1, G.1]).forM fun r => pyAlive r G.2
  let myQP ← setup
  ([c.1, h.1] ++ bA.1).forM fun r => pyAlive r G.2
  let out ← solve myQP
  let r ← pyEnd level hasEq c.1 h.1 P.1 G.1 bA.2.1 bA.1 G.2
  pure ((.dict out, some r.1), r.2)

theorem pyAlive_new {k : Nat} {st : PySt} (h : (st.new[k]?.map PyObj.refs) = some 1) : pyAlive (.new k) st = .ok () := by
  unfold pyAlive
  cases hk : st.new[k]? with
  | none => rw [hk] at h; cases h
  | some o =>
    rw [hk] at h
    simp only [Option.map_some, Option.some.injEq] at h
    simp only [hk, h]
    rfl

theorem ptrObjs_get (k : Bool) : ((ptrObjs k)[if k then 0 else 1]?.map PyObj.refs) = some 1 := by
  cases k <;> rfl

theorem ptrObjs_at (l r : List PyObj) (k : Bool) :
    ((l ++ ptrObjs k ++ r)[l.length + if k then 0 else 1]?.map PyObj.refs) = some 1 := by
  rw [List.append_assoc, List.getElem?_append_right (by omega), Nat.add_sub_cancel_left]
  cases k <;> rfl

theorem pyRest_spec {hasEq : Bool} {level : Int} {setup : M (QP K)} {solve : QP K → M (PyOut K)} {q : QP K} {out : PyOut K}
    {f : Nat → Int} {x : Bool} (hs : setup = .ok q) (ho : solve q = .ok out)
    (hc : 0 < f (e.id .c)) (hh : 0 < f (e.id .h)) (hP : 0 < f (e.id .P)) (hG : 0 < f (e.id .G))
    (hb : hasEq = true → 0 < f (e.id .b)) (hA : hasEq = true → 0 < f (e.id .A)) :
    ∃ r st, pyRest e hasEq level setup solve ⟨f, [], x⟩ = .ok ((.dict out, some r), st) ∧ st.old = f ∧ st.exc = x ∧
      ∃ st', pyDrop r st = .ok st' ∧ st'.old = f ∧ ∀ y ∈ st'.new, y.refs = 0 := by
  unfold pyRest
  rw [pyGetptr_eq (st := ⟨f, [], x⟩) hc, ok_bind, pyGetptr_eq (by exact hh), ok_bind]
  generalize e.contig .c = kc
  generalize e.contig .h = kh
  cases hasEq
  · simp only [Bool.false_eq_true, if_false, pure_eq_ok, ok_bind]
    rw [pyGetptr_eq (by exact hP), ok_bind, pyGetptr_eq (by exact hG), ok_bind]
    generalize e.contig .P = kP
    generalize e.contig .G = kG
    simp only [List.nil_append, List.length_nil, Nat.zero_add, List.forM_eq_forM, List.forM_cons, List.forM_nil,
      List.append_nil]
    have a1 := ptrObjs_at (ptrObjs kc ++ ptrObjs kh) (ptrObjs kG) kP
    have a2 := ptrObjs_at (ptrObjs kc ++ ptrObjs kh ++ ptrObjs kP) [] kG
    have a3 := ptrObjs_at [] (ptrObjs kh ++ ptrObjs kP ++ ptrObjs kG) kc
    have a4 := ptrObjs_at (ptrObjs kc) (ptrObjs kP ++ ptrObjs kG) kh
    simp only [List.nil_append, List.length_nil, Nat.zero_add, List.append_nil, ← List.append_assoc] at a1 a2 a3 a4
    rw [pyAlive_new a1, pyAlive_new a2, pyAlive_new a3, pyAlive_new a4, hs]
    simp only [ok_bind, pure_eq_ok, ho]
    obtain ⟨r, st, h1, h2⟩ := pyEnd_of_check (pyEnd_noEq level kc kh kP kG) f x
    rw [h1]
    exact ⟨r, st, rfl, h2⟩
  · simp only [if_true, pure_eq_ok]
    rw [pyGetptr_eq (by exact hb rfl), ok_bind, pyGetptr_eq (by exact hA rfl), ok_bind, ok_bind]
    rw [pyGetptr_eq (by exact hP), ok_bind, pyGetptr_eq (by exact hG), ok_bind]
    generalize e.contig .P = kP
    generalize e.contig .G = kG
    generalize e.contig .A = kA
    generalize e.contig .b = kb
    simp only [List.nil_append, List.length_nil, Nat.zero_add, List.forM_eq_forM, List.forM_cons, List.forM_nil,
      List.cons_append]
    have a1 := ptrObjs_at (ptrObjs kc ++ ptrObjs kh ++ ptrObjs kb ++ ptrObjs kA) (ptrObjs kG) kP
    have a2 := ptrObjs_at (ptrObjs kc ++ ptrObjs kh ++ ptrObjs kb ++ ptrObjs kA ++ ptrObjs kP) [] kG
    have a3 := ptrObjs_at [] (ptrObjs kh ++ ptrObjs kb ++ ptrObjs kA ++ ptrObjs kP ++ ptrObjs kG) kc
    have a4 := ptrObjs_at (ptrObjs kc) (ptrObjs kb ++ ptrObjs kA ++ ptrObjs kP ++ ptrObjs kG) kh
    have a5 := ptrObjs_at (ptrObjs kc ++ ptrObjs kh) (ptrObjs kA ++ ptrObjs kP ++ ptrObjs kG) kb
    have a6 := ptrObjs_at (ptrObjs kc ++ ptrObjs kh ++ ptrObjs kb) (ptrObjs kP ++ ptrObjs kG) kA
    simp only [List.nil_append, List.length_nil, Nat.zero_add, List.append_nil, ← List.append_assoc] at a1 a2 a3 a4 a5 a6
    rw [pyAlive_new a6, pyAlive_new a1, pyAlive_new a2, pyAlive_new a3, pyAlive_new a4, pyAlive_new a5, hs]
    simp only [ok_bind, pure_eq_ok, ho]
    obtain ⟨r, st, h1, h2⟩ := pyEnd_of_check (pyEnd_eq level kc kh kb kA kP kG) f x
    rw [h1]
    exact ⟨r, st, rfl, h2⟩

/-- The whole call in these steps. -/
theorem method_qpSWIFTR_eq (st : PySt) :
    method_qpSWIFTR e amd a st = (do
      let d ← pyDims a
      let bad ← pyCheck a d.1 d.2.1 d.2.2
      match bad with
      | some m => pure ((.typeError m, none), { st with exc := true })
      | none => do
        let x ← pyOptionsR e a.opts st
        match x.1 with
        | .error m => pure ((.typeError m, none), x.2)
        | .ok o => pyRest e a.hasEq o.2 (pySetup amd a d.1 d.2.1 d.2.2) (fun myQP => do
            let r ← QP_SOLVE { myQP with options := o.1 }
            pyResult o.2 a.hasEq r.1 r.2) x.2) := by
  unfold method_qpSWIFTR pyRest pyEnd
  simp only [bind_assoc, pure_bind]
  rfl

/-! ## C89 -/

/-- A call that returns a result: the same result as without counting, so nothing is used after it was released.
The caller's objects have as many references as before, whichever of the arguments are the same object and
whichever arrays had to be copied; when the caller drops the result, every object created by the call is
released. An exception is pending behind the result exactly if the value of `OUTPUT` does not fit into a
`long`, or is no non-negative integer and warnings are errors. -/
theorem C89_result {old : Nat → Int} (hd : a.DictOk) (hold : PyHeld e a old) {out : PyOut K}
    (h : method_qpSWIFT amd a = .ok (.dict out)) :
    ∃ r st, method_qpSWIFTR e amd a ⟨old, [], false⟩ = .ok ((.dict out, some r), st) ∧ st.old = old ∧
      (st.exc = true ↔ PyRaises e a.dict) ∧
      ∃ st', pyDrop r st = .ok st' ∧ st'.old = old ∧ ∀ y ∈ st'.new, y.refs = 0 := by
  rw [method_qpSWIFTR_eq]
  unfold method_qpSWIFT at h
  cases h1 : pyDims a with
  | error x => rw [h1] at h; cases h
  | ok d =>
    rw [h1, ok_bind] at h
    rw [ok_bind]
    cases h2 : pyCheck a d.1 d.2.1 d.2.2 with
    | error x => rw [h2] at h; cases h
    | ok bad =>
      rw [h2, ok_bind] at h
      rw [ok_bind]
      cases bad with
      | some m => cases h
      | none =>
        simp only at h ⊢
        rcases pyOptionsR_spec (e := e) (st := ⟨old, [], false⟩) (opts := a.opts) hd hold.opts with
          ⟨s, x, g1, g2, g3⟩ | ⟨m, key, v, g1, -⟩
        · rw [g2, ok_bind]
          rw [g1] at h
          simp only at h ⊢
          cases h3 : pySetup amd a d.1 d.2.1 d.2.2 with
          | error x => rw [h3] at h; cases h
          | ok q =>
            rw [h3, ok_bind] at h
            have ho : (do
                let r ← QP_SOLVE { q with options := s.1 }
                pyResult s.2 a.hasEq r.1 r.2) = .ok out := by
              cases h4 : QP_SOLVE { q with options := s.1 } with
              | error x => rw [h4] at h; cases h
              | ok r =>
                rw [h4, ok_bind] at h
                rw [ok_bind]
                cases h5 : pyResult s.2 a.hasEq r.1 r.2 with
                | error x => rw [h5] at h; cases h
                | ok o =>
                  rw [h5, ok_bind] at h
                  cases h
                  rfl
            have he : a.hasEq = true → a.b.isSome = true ∧ a.A.isSome = true := fun h => by
              unfold PyArgs.hasEq at h
              exact Bool.and_eq_true_iff.mp h
            obtain ⟨r, st, k1, k2, k3, k4⟩ := pyRest_spec (e := e) (hasEq := a.hasEq) (level := s.2) (x := x)
              (solve := fun myQP => do
                let r ← QP_SOLVE { myQP with options := s.1 }
                pyResult s.2 a.hasEq r.1 r.2) (rfl : (.ok q : M (QP K)) = .ok q) ho hold.c hold.h hold.P hold.G
              (fun h => hold.b (he h).1) (fun h => hold.A (he h).2)
            refine ⟨r, st, k1, k2, ?_, k4⟩
            rw [k3, g3]
            simp only [Bool.false_eq_true, false_or]
            rfl
        · rw [g1] at h
          cases h

/-- A call rejected because of the arrays: NULL with an exception, no count has changed and nothing was
created. -/
theorem C89_wrong_shape {st : PySt} (hdims : a.HasDims)
    (hnn : ∀ x ∈ a.c.dims ++ a.h.dims ++ (a.b.map (·.dims)).getD [], 0 ≤ x)
    (h : ¬ ∃ n m p, a.Shaped n m p) :
    ∃ m, method_qpSWIFTR e amd a st = .ok ((.typeError m, none), { st with exc := true }) := by
  obtain ⟨d, m, h1, h2⟩ := pyCheck_wrong_shape hdims hnn h
  refine ⟨m, ?_⟩
  rw [method_qpSWIFTR_eq, h1, ok_bind]
  simp only [h2, ok_bind]
  rfl

/-- A call rejected because of an option: NULL with an exception, nothing was created, and the count of one
object of the caller is one too large: the value of an option that is not accepted. -/
theorem C89_rejected {n m p : Nat} {old : Nat → Int} (hd : a.DictOk) (hold : PyHeld e a old) (hs : a.Shaped n m p)
    (h : ¬ PyValid a.dict) :
    ∃ msg key v, (key, v) ∈ a.dict ∧ ¬ PyAccepts key v ∧
      method_qpSWIFTR e amd a ⟨old, [], false⟩ = .ok ((.typeError msg, none),
        ⟨fun i => if i = e.id (.opt key) then old i + 1 else old i, [], true⟩) := by
  rw [method_qpSWIFTR_eq, hs.dims, ok_bind]
  simp only [hs.check, ok_bind]
  rcases pyOptionsR_spec (e := e) (st := ⟨old, [], false⟩) (opts := a.opts) hd hold.opts with
    ⟨s, x, g1, -, -⟩ | ⟨msg, key, v, g1, g2, g3, g4⟩
  · obtain ⟨x, hx⟩ := (pyOptions_spec hd).2 h
    rw [hx] at g1
    cases g1
  · rw [g4]
    refine ⟨msg, key, v, g2, g3, ?_⟩
    simp only [ok_bind, pure_eq_ok, PySt.leak]
    congr 3
    funext i
    rw [Function.update_apply]
    split_ifs with hi
    · rw [hi]
    · rfl

end

/-! ## Examples -/

/-- `c` and `h` are contiguous, `P` and the others are not; the option values are one object. -/
def demoEnv : PyEnv where
  id x := match x with
    | .c => 0
    | .h => 1
    | .P => 2
    | .G => 3
    | .A => 4
    | .b => 5
    | .opt _ => 6
  contig x := match x with
    | .c => true
    | .h => true
    | _ => false
  warnRaises := false

theorem demo_held (a : PyArgs ℚ) : PyHeld demoEnv a fun _ => 1 :=
  ⟨by decide, by decide, by decide, by decide, fun _ => by decide, fun _ => by decide, fun _ _ _ => by decide⟩

/-- The call of `pyDemo` returns a dictionary, all counts are as before and no exception is pending. -/
example : ∃ out r st, method_qpSWIFTR demoEnv failAmd pyDemo ⟨fun _ => 1, [], false⟩ = .ok ((.dict out, some r), st) ∧
    st.old = (fun _ => 1) ∧ st.exc = false := by
  have hd : pyDemo.DictOk := by unfold PyArgs.DictOk; decide
  obtain ⟨d, s, sa, q0, f, q1, h1, _, _, _, _, h2⟩ := C43_accepted pyDemo_shaped hd pyDemo_valid
    pyDemo_describes failAmd_safe (Or.inr (by decide))
  obtain ⟨r, st, g1, g2, g3, _⟩ := C89_result hd (demo_held pyDemo) h1
  refine ⟨d, r, st, g1, g2, ?_⟩
  rw [← Bool.not_eq_true, g3]
  rintro (⟨k, hk, hb⟩ | ⟨hw, _⟩)
  · simp [pyDemo, PyArgs.dict] at hk
    omega
  · cases hw

/-- 200 iterations are rejected, the number 200 has one reference too many. -/
example : ∃ msg, method_qpSWIFTR demoEnv failAmd { pyDemo with opts := some [("MAXITER", .int 200)] }
    ⟨fun _ => 1, [], false⟩ = .ok ((.typeError msg, none), ⟨fun i => if i = 6 then 2 else 1, [], true⟩) := by
  obtain ⟨msg, key, v, h1, -, h2⟩ := C89_rejected (a := { pyDemo with opts := some [("MAXITER", .int 200)] })
    (e := demoEnv) (amd := failAmd) (n := 2) (m := 1) (p := 1) (by unfold PyArgs.DictOk; decide) (demo_held _)
    ⟨⟨rfl, rfl⟩, ⟨rfl, rfl⟩, ⟨rfl, rfl⟩, ⟨rfl, rfl⟩, Or.inl ⟨_, _, rfl, rfl, rfl, rfl, rfl, rfl⟩⟩ (by
      intro hv
      obtain ⟨k, hk, _, h2⟩ := hv.maxit (.int 200) (by simp [PyArgs.dict])
      cases hk
      omega)
  exact ⟨msg, h2⟩

/-- `OUTPUT` too large for a `long`: the exception of the conversion is pending behind the result. -/
example : PyRaises demoEnv [("OUTPUT", (.int (2 ^ 63) : PyVal ℚ))] :=
  Or.inl ⟨2 ^ 63, by simp, by decide⟩

/-- `P` with the wrong shape. -/
example : ∃ m, method_qpSWIFTR demoEnv failAmd { pyDemo with P := ⟨true, [2, 3], []⟩ } ⟨fun _ => 1, [], false⟩
    = .ok ((.typeError m, none), ⟨fun _ => 1, [], true⟩) := by
  refine C89_wrong_shape ⟨by simp [pyDemo], by simp [pyDemo], ?_⟩ ?_ ?_
  · intro b hb _
    cases hb
    simp
  · simp [pyDemo]
  · rintro ⟨n, m, p, hs⟩
    have h1 := hs.P.2
    have h2 := hs.c.2
    simp [pyDemo] at h1 h2
    omega

end Verif
