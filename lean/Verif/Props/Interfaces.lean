import Verif.Props.MatlabCall
import Verif.Props.Front

/-!
# C76: Python, MATLAB, Simulink and C agree

All statements hold for any number type, so in particular for floating point numbers, bit for bit.
-/

set_option linter.unusedSectionVars false

namespace Verif

section Generic

variable {K : Type} [Zero K] [One K] [Add K] [Sub K] [Mul K] [Div K] [Neg K] [Scalar K]

/-! ## Specification -/

/-- The call of `QP_SETUP` for the problem `pb` without spare room in any array. -/
def Problem.plainArgs (pb : Problem K) : SetupArgs K where
  n := pb.n
  m := pb.m
  p := pb.p
  Pjc := Buf.ofFn (pb.n + 1) (fun i => (pb.P.jc i : Int))
  Pir := Buf.ofFn pb.P.nnz (fun i => (pb.P.ir i : Int))
  Ppr := Buf.ofFn pb.P.nnz pb.P.pr
  Ajc := if pb.p = 0 then none else some (Buf.ofFn (pb.n + 1) (fun i => (pb.A.jc i : Int)))
  Air := if pb.p = 0 then none else some (Buf.ofFn pb.A.nnz (fun i => (pb.A.ir i : Int)))
  Apr := if pb.p = 0 then none else some (Buf.ofFn pb.A.nnz pb.A.pr)
  Gjc := Buf.ofFn (pb.n + 1) (fun i => (pb.G.jc i : Int))
  Gir := Buf.ofFn pb.G.nnz (fun i => (pb.G.ir i : Int))
  Gpr := Buf.ofFn pb.G.nnz pb.G.pr
  c := Buf.ofFn pb.n pb.c
  h := Buf.ofFn pb.m pb.h
  b := if pb.p = 0 then none else some (Buf.ofFn pb.p pb.b)
  sigma_d := Scalar.dec 0 0
  Permut := none

/-- A call of the dense setup without a permutation whose vectors have exactly the sizes of the
problem and which passes `A` and `b` exactly if there are equality constraints. -/
structure DenseArgs.Plain (da : DenseArgs K) (pb : Problem K) : Prop where
  p : da.p = pb.p
  permut : da.Permut = none
  c : da.c.length = pb.n
  h : da.h.length = pb.m
  b : ∀ b, da.b = some b → b.length = pb.p
  eq : (0 < pb.p ∧ da.Apr.isSome = true ∧ da.b.isSome = true) ∨
    (pb.p = 0 ∧ da.Apr = none ∧ da.b = none)

/-- The Python arrays have as many elements as their dimensions say, and an array `b` without
elements is not passed. -/
structure PyArgs.Plain (a : PyArgs K) (pb : Problem K) : Prop where
  c : a.c.data.length = pb.n
  h : a.h.data.length = pb.m
  b : ∀ b, a.b = some b → b.data.length = pb.p
  eq : (a.A.isSome = true ∧ a.b.isSome = true) ↔ 0 < pb.p

/-- The MATLAB arrays have no spare room. -/
structure MexArgs.Plain (a : MexArgs K) (pb : Problem K) : Prop where
  P : a.P.jc.length = pb.n + 1 ∧ a.P.ir.length = pb.P.nnz ∧ a.P.pr.length = pb.P.nnz
  G : a.G.jc.length = pb.n + 1 ∧ a.G.ir.length = pb.G.nnz ∧ a.G.pr.length = pb.G.nnz
  A : ∀ A b, a.Ab = some (A, b) → A.jc.length = pb.n + 1 ∧ A.ir.length = pb.A.nnz ∧
    A.pr.length = pb.A.nnz ∧ b.pr.length = pb.p
  c : a.c.pr.length = pb.n
  h : a.h.pr.length = pb.m

/-- The Python options and the MATLAB options are the same. -/
structure SameOptions [ToInt K] (o : List (String × PyVal K)) (a : MexArgs K) : Prop where
  maxit : ∀ k : Int, ("MAXITER", .int k) ∈ o ↔ ∃ x, a.Value "MAXITER" "maxiter" x ∧ ToInt.trunc x = k
  abstol : ∀ t, ("ABSTOL", .float t) ∈ o ↔ a.Value "ABSTOL" "abstol" t
  reltol : ∀ t, ("RELTOL", .float t) ∈ o ↔ a.Value "RELTOL" "reltol" t
  sigma : ∀ t, ("SIGMA", .float t) ∈ o ↔ a.Value "SIGMA" "sigma" t
  verbose : ∀ k : Int, ("VERBOSE", .int k) ∈ o ↔
    ∃ x, a.Value "VERBOSE" "verbose" x ∧ ToInt.trunc x = k

/-- The two results contain the same numbers, as far as they were asked for in both calls. -/
structure SameOutput (d : PyOut K) (e : MexOut K) : Prop where
  sol : d.sol = e.sol
  basic : ∀ b f i, d.basicInfo = some b → e.basic = some (f, i) → b.exitFlag = f ∧ b.iterations = i
  adv : ∀ v w y z s, d.advInfo = some v → e.adv = some (w, y, z, s) →
    v.fval = w ∧ v.y = y ∧ v.z = z ∧ v.s = s

/-! ## Proofs -/

theorem setup_plain {da : DenseArgs K} {pb : Problem K} (hg : da.Give pb) (hp : da.Plain pb)
    (amd : Amd) : QP_SETUP_dense amd da = QP_SETUP amd pb.plainArgs := by
  obtain ⟨fP, hP, cP⟩ := hg.P
  obtain ⟨fG, hG, cG⟩ := hg.G
  have ec := Buf.eq_ofFn hg.c hp.c
  have eh := Buf.eq_ofFn hg.h hp.h
  have nP : pb.P.n = pb.n := cP.n
  have nG : pb.G.n = pb.n := cG.n
  rcases hg.eq with ⟨Apr, B, fA, e1, e2, e3, e4, e5, e6, e7⟩ | ⟨e1, e2⟩
  · have h0 : pb.p ≠ 0 := by omega
    have nA : pb.A.n = pb.n := e6.n
    have eb := Buf.eq_ofFn e7 (hp.b B e2)
    rw [C33_dense_eq_sparse amd hg.n hg.m e3 hP hG (fA := fA) (fun B' b' hB' _ => by
      rw [e1] at hB'; cases hB'; exact e5) cP cG e6]
    unfold Problem.plainArgs
    simp only [if_neg h0, e1, e2, Option.map_some, hp.permut, ec, eh, eb, Csc.toSmat, nP, nG, nA]
  · have hnone : pb.p = 0 ∧ da.Apr = none ∧ da.b = none := by
      rcases hp.eq with ⟨h1, _, _⟩ | h
      · exfalso
        have : pb.p = 0 := by unfold Problem.p; rw [e2]; rfl
        omega
      · exact h
    obtain ⟨h0, h1, h2⟩ := hnone
    have h3 : da.p = ((0 : Nat) : Int) := by rw [hp.p, h0]
    rw [C33_dense_eq_sparse amd hg.n hg.m h3 hP hG (fA := fun _ => 0) (fun B' b' hB' _ => by
      rw [h1] at hB'; cases hB') cP cG (denseCsc_compresses _ _ _)]
    unfold Problem.plainArgs
    simp only [h0, if_true, h1, h2, Option.map_none, hp.permut, ec, eh, Csc.toSmat, nP, nG]

theorem PyArgs.Plain.dense {a : PyArgs K} {pb : Problem K} (h : a.Plain pb) :
    (a.setupArgs pb.n pb.m pb.p).Plain pb where
  p := rfl
  permut := rfl
  c := h.c
  h := h.h
  b := by
    intro b hb
    unfold PyArgs.setupArgs at hb
    simp only at hb
    split at hb
    · obtain ⟨b', h1, h2⟩ := Option.map_eq_some_iff.mp hb
      rw [← h2]
      exact h.b b' h1
    · cases hb
  eq := by
    unfold PyArgs.setupArgs
    simp only
    by_cases h0 : 0 < pb.p
    · obtain ⟨h1, h2⟩ := h.eq.mpr h0
      left
      simp [h0, h1, h2]
    · right
      have : ¬ (a.A.isSome = true ∧ a.b.isSome = true) := fun hh => h0 (h.eq.mp hh)
      have hne : (a.b.isSome && a.A.isSome) = false := by
        cases h1 : a.A.isSome <;> cases h2 : a.b.isSome <;> simp_all
      rw [hne]
      exact ⟨by omega, rfl, rfl⟩

theorem CopyOf.unique {out out' src : Buf K} {n : Nat} (h : CopyOf out src n)
    (h' : CopyOf out' src n) : out = out' := by
  obtain ⟨f, h1, rfl⟩ := h
  obtain ⟨g, h2, rfl⟩ := h'
  exact Buf.eq_ofFn ((Buf.has_ofFn n f).congr fun i hi => h1.unique h2 hi) (by simp)

variable [ToInt K]

theorem mexSetup_plain {a : MexArgs K} {pb : Problem K} (hd : a.Describes pb) (hp : a.Plain pb) :
    mexSetupArgs a none = pb.plainArgs := by
  have nP : pb.P.n = pb.n := rfl
  obtain ⟨s1, s2, s3⟩ := hd.shaped.sizes
  have nG : pb.G.n = pb.n := hd.wf.Gn
  have e1 := Buf.eq_ofFn hd.P.jc hp.P.1
  have e2 := Buf.eq_ofFn hd.P.ir hp.P.2.1
  have e3 := Buf.eq_ofFn hd.P.pr hp.P.2.2
  have g1 := Buf.eq_ofFn hd.G.jc (by rw [hp.G.1, nG])
  have g2 := Buf.eq_ofFn hd.G.ir hp.G.2.1
  have g3 := Buf.eq_ofFn hd.G.pr hp.G.2.2
  have ec := Buf.eq_ofFn hd.c hp.c
  have eh := Buf.eq_ofFn hd.h hp.h
  unfold mexSetupArgs Problem.plainArgs
  rw [s1, s2, s3, e1, e2, e3, g1, g2, g3, ec, eh, nG]
  rcases hd.eq with ⟨h1, h2⟩ | ⟨A, b, h1, h2, h3⟩
  · have h0 : pb.p = 0 := by unfold Problem.p; rw [h2]; rfl
    simp only [h1, h0, if_true, Option.map_none, nP]
  · have h0 : pb.p ≠ 0 := by
      rcases hd.shaped.eq with ⟨e', _⟩ | ⟨A', b', e', _, hb'⟩
      · rw [h1] at e'; cases e'
      · have := hb'.pos; omega
    have nA : pb.A.n = pb.n := hd.wf.An
    obtain ⟨l1, l2, l3, l4⟩ := hp.A A b h1
    have a1 := Buf.eq_ofFn h2.jc (by rw [l1, nA])
    have a2 := Buf.eq_ofFn h2.ir l2
    have a3 := Buf.eq_ofFn h2.pr l3
    have eb := Buf.eq_ofFn h3 l4
    simp only [h1, if_neg h0, Option.map_some, nP, a1, a2, a3, eb, nA]

/-- Equal options lead to equal settings. -/
theorem SameOptions.settings {o : List (String × PyVal K)} {a : MexArgs K} (h : SameOptions o a)
    {s s' : Settings K} (hs : PyUses o s) (hs' : a.Uses defaultSettings s') : s = s' := by
  have e1 : s.maxit = s'.maxit := by
    rcases hs.maxit with ⟨k, h1, h2⟩ | ⟨h1, h2⟩
    · obtain ⟨x, hx, hk⟩ := (h.maxit k).mp h1
      rcases hs'.maxit with ⟨x', h3, h4⟩ | ⟨h3, h4⟩
      · rw [h2, h4, ← hk, hx.unique h3]
      · obtain ⟨q, hq, _⟩ := hx
        exact absurd hq (h3 q)
    · rcases hs'.maxit with ⟨x', h3, h4⟩ | ⟨h3, h4⟩
      · exact absurd ((h.maxit _).mpr ⟨x', h3, rfl⟩) (h1 _)
      · rw [h2, h4]; rfl
  have e5 : s.verbose = s'.verbose := by
    rcases hs.verbose with ⟨k, h1, h2⟩ | ⟨h1, h2⟩
    · obtain ⟨x, hx, hk⟩ := (h.verbose k).mp h1
      rcases hs'.verbose with ⟨x', h3, h4⟩ | ⟨h3, h4⟩
      · rw [h2, h4, ← hk, hx.unique h3]
      · obtain ⟨q, hq, _⟩ := hx
        exact absurd hq (h3 q)
    · rcases hs'.verbose with ⟨x', h3, h4⟩ | ⟨h3, h4⟩
      · exact absurd ((h.verbose _).mpr ⟨x', h3, rfl⟩) (h1 _)
      · rw [h2, h4]; rfl
  have e2 : s.abstol = s'.abstol := by
    rcases hs.abstol with ⟨t, h1, h2⟩ | ⟨h1, h2⟩
    · have hx := (h.abstol t).mp h1
      rcases hs'.abstol with ⟨x', h3, h4⟩ | ⟨h3, h4⟩
      · rw [h2, h4, hx.unique h3]
      · obtain ⟨q, hq, _⟩ := hx
        exact absurd hq (h3 q)
    · rcases hs'.abstol with ⟨x', h3, h4⟩ | ⟨h3, h4⟩
      · exact absurd ((h.abstol _).mpr h3) (h1 _)
      · rw [h2, h4]; rfl
  have e3 : s.reltol = s'.reltol := by
    rcases hs.reltol with ⟨t, h1, h2⟩ | ⟨h1, h2⟩
    · have hx := (h.reltol t).mp h1
      rcases hs'.reltol with ⟨x', h3, h4⟩ | ⟨h3, h4⟩
      · rw [h2, h4, hx.unique h3]
      · obtain ⟨q, hq, _⟩ := hx
        exact absurd hq (h3 q)
    · rcases hs'.reltol with ⟨x', h3, h4⟩ | ⟨h3, h4⟩
      · exact absurd ((h.reltol _).mpr h3) (h1 _)
      · rw [h2, h4]; rfl
  have e4 : s.sigma = s'.sigma := by
    rcases hs.sigma with ⟨t, h1, h2⟩ | ⟨h1, h2⟩
    · have hx := (h.sigma t).mp h1
      rcases hs'.sigma with ⟨x', h3, h4⟩ | ⟨h3, h4⟩
      · rw [h2, h4, hx.unique h3]
      · obtain ⟨q, hq, _⟩ := hx
        exact absurd hq (h3 q)
    · rcases hs'.sigma with ⟨x', h3, h4⟩ | ⟨h3, h4⟩
      · exact absurd ((h.sigma _).mpr h3) (h1 _)
      · rw [h2, h4]; rfl
  obtain ⟨a1, a2, a3, a4, a5⟩ := s
  obtain ⟨b1, b2, b3, b4, b5⟩ := s'
  simp only at e1 e2 e3 e4 e5
  subst e1 e2 e3 e4 e5
  rfl

/-! ## C76 -/

/-- **C76**, Python and C: a Python call for the problem `pb` does the same as a C program that calls
`QP_SETUP` for `pb`, changes the options and calls `QP_SOLVE`. -/
theorem C76_python {a : PyArgs K} {pb : Problem K} (h : a.Shaped pb.n pb.m pb.p)
    (hd : a.DictOk) (hv : PyValid a.dict) (hg : a.Describes pb) (hp : a.Plain pb) {amd : Amd}
    (hamd : AmdSafe amd) (hprint : (∀ k, ("VERBOSE", .int k) ∈ a.dict → k = 0) ∨ pb.p ≠ 0) :
    ∃ d s q0 f q1, method_qpSWIFT amd a = .ok (.dict d) ∧ PyUses a.dict s ∧
      QP_SETUP amd pb.plainArgs = .ok q0 ∧ QP_SOLVE { q0 with options := s } = .ok (f, q1) ∧
      d.Reports a.dict (0 < pb.p) pb.n pb.m pb.p f q1 := by
  obtain ⟨d, _, _, _, _, _, hm, _⟩ := C43_accepted h hd hv hg hamd hprint
  obtain ⟨_, s, q0, f, q1, hs, e0, e1, hrep⟩ := C44_result h hd hm
  obtain ⟨sa, q0', e0', hst⟩ := hg.setup hamd
  rw [e0] at e0'
  cases e0'
  obtain ⟨_, _, hi, _⟩ := hst.sinv (.solve (.options s .start) e1)
  have hr := hrep pb.n pb.m pb.p hi.inv.n hi.inv.m hi.inv.pp
  rw [propext hp.eq] at hr
  rw [setup_plain hg.1 hp.dense] at e0
  exact ⟨d, s, q0, f, q1, hm, hs, e0, e1, hr⟩

/-- **C76**, MATLAB and C: a MATLAB call for the problem `pb` without a permutation does the same as
a C program that calls `QP_SETUP` for `pb`, changes the options and calls `QP_SOLVE`. -/
theorem C76_matlab {amd : Amd} (hamd : AmdSafe amd) {a : MexArgs K} {pb : Problem K}
    {prhs : List (MxVal K)} (h1 : 1 ≤ a.nlhs) (h3 : a.nlhs ≤ 3) (hl : a.Listed prhs)
    (hd : a.Describes pb) (hp : a.Plain pb) (hq : a.Absent "PERMUT" "permut") (hr : a.AllReadable)
    (hv : a.Valid)
    (hprint : (∀ x, a.Value "VERBOSE" "verbose" x → ToInt.trunc x ≤ 0) ∨ pb.p ≠ 0)
    (hmax : a.nlhs = 1 ∨ a.nlhs = 2 ∨ ∀ x, a.Value "MAXITER" "maxiter" x → 1 ≤ ToInt.trunc x) :
    ∃ d s q0 f q1, mexEntry amd a.nlhs prhs = .ok (.results d) ∧ a.Uses defaultSettings s ∧
      QP_SETUP amd pb.plainArgs = .ok q0 ∧ QP_SOLVE { q0 with options := s } = .ok (f, q1) ∧
      d.Reports a.nlhs pb.n pb.m pb.p f q1 := by
  have hc : mexCheck a = none := mexCheck_shaped.mpr ⟨_, _, _, hd.shaped⟩
  have hm : mexFunction amd a = mexRun amd a none := by
    have hno : mxOption a "PERMUT" "permut" = none := by
      cases ho : mxOption a "PERMUT" "permut" with
      | none => rfl
      | some q => exact absurd (mxOption_iff.mp ho) (hq q)
    have hm : mexPermut a = .ok (.ok none) := by
      unfold mexPermut
      rw [hno]
      rfl
    rw [mexFunction_checked hc, hm]
    rfl
  have hperm : PermSource amd (mexSetupArgs a none).Permut (mexSetupArgs a none).p pb :=
    Or.inr ⟨rfl, hamd, Or.inl hd.shaped.sizes.2.2⟩
  obtain ⟨q0, e0⟩ := C26_setup hd.wf (hd.give none) hperm
  obtain ⟨d, s, f, q1, e1, e2, e3, e4⟩ :=
    C52_accepted hr hv ⟨hd.wf, hd.give none, hperm, e0⟩ hd.shaped.sizes.2.2 hprint hmax
  rw [mexSetup_plain hd hp] at e0
  exact ⟨d, s, q0, f, q1, (C67_listed amd h1 h3 hl).2.1 d (hm.trans e1), e2, e0, e3, e4⟩

/-- **C76**, Python and MATLAB: calls for the same problem with the same options, the MATLAB call
without a permutation, return the same numbers. -/
theorem C76_python_matlab {amd : Amd} (hamd : AmdSafe amd) {pb : Problem K} {a : PyArgs K}
    (ha : a.Shaped pb.n pb.m pb.p) (hd : a.DictOk) (hv : PyValid a.dict) (hg : a.Describes pb)
    (hp : a.Plain pb) {a' : MexArgs K} {prhs : List (MxVal K)} (h1 : 1 ≤ a'.nlhs) (h3 : a'.nlhs ≤ 3)
    (hl : a'.Listed prhs) (hg' : a'.Describes pb) (hp' : a'.Plain pb)
    (hq : a'.Absent "PERMUT" "permut") (hr : a'.AllReadable) (hv' : a'.Valid)
    (ho : SameOptions a.dict a')
    (hprint : (∀ k, ("VERBOSE", .int k) ∈ a.dict → k = 0) ∨ pb.p ≠ 0) :
    ∃ d e, method_qpSWIFT amd a = .ok (.dict d) ∧ mexEntry amd a'.nlhs prhs = .ok (.results e) ∧
      SameOutput d e := by
  obtain ⟨d, s, q0, f, q1, m1, u1, e1, r1, p1⟩ := C76_python ha hd hv hg hp hamd hprint
  obtain ⟨e, s', q0', f', q1', m2, u2, e2, r2, p2⟩ := C76_matlab hamd h1 h3 hl hg' hp' hq hr hv'
    (hprint.imp_left fun hk x hx => by
      have := hk _ ((ho.verbose _).mpr ⟨x, hx, rfl⟩)
      omega)
    (Or.inr (Or.inr fun x hx => by
      obtain ⟨k, hk, hk1, _⟩ := hv.maxit _ ((ho.maxit _).mpr ⟨x, hx, rfl⟩)
      cases hk
      exact hk1))
  have hs := ho.settings u1 u2
  subst hs
  rw [e1] at e2
  cases e2
  rw [r1] at r2
  cases r2
  refine ⟨d, e, m1, m2, p1.sol.unique p2.sol, ?_, ?_⟩
  · intro b f' i hb hf
    obtain ⟨b1, b2⟩ := p1.basic_val b hb
    have h4 := p2.basic
    split at h4
    · rw [h4] at hf; cases hf
    · rw [h4] at hf
      cases hf
      exact ⟨b1, b2⟩
  · intro v w y z t hb hw
    obtain ⟨b1, b2, b3, b4, b5⟩ := p1.adv_val v hb
    have h4 := p2.adv
    split at h4
    · rw [h4] at hw; cases hw
    · obtain ⟨w', y', z', t', c1, c2, c3, c4, c5⟩ := h4
      rw [c1] at hw
      cases hw
      refine ⟨Option.some.inj (b1.trans c2), ?_, b2.unique c3, b3.unique c4⟩
      split at c5
      · next h0 =>
        rw [c5]
        cases hy : v.y with
        | none => rfl
        | some y => exact absurd (b4.mp ⟨y, hy⟩) (by omega)
      · next h0 =>
        obtain ⟨y', rfl, c6⟩ := c5
        obtain ⟨y, hy⟩ := b4.mpr (by omega)
        rw [hy, (b5 y hy).unique c6]

/-- **C76**, Simulink and Python: for three or more variables the block outputs the first three
components, the exit code and the number of iterations of a Python call for the same problem without
options that change the settings. -/
theorem C76_simulink {amd : Amd} (hamd : AmdSafe amd) {pb : Problem K} {a : PyArgs K}
    (ha : a.Shaped pb.n pb.m pb.p) (hd : a.DictOk) (hg : a.Describes pb)
    (hp : a.Plain pb)
    (hopts : ∀ e ∈ a.dict, e.1 ∉ ["MAXITER", "ABSTOL", "RELTOL", "SIGMA", "VERBOSE"])
    {P G c h : Buf K} {A b : Option (Buf K)} (hg' : SfGive pb P A G c h b)
    (hp' : DenseArgs.Plain
      { n := pb.n, m := pb.m, p := pb.p, Ppr := P, Apr := A, Gpr := G, c := c, h := h, b := b
        Permut := none, ordering := COLUMN_MAJOR_ORDERING } pb) (hn : 3 ≤ pb.n) :
    ∃ d o, method_qpSWIFT amd a = .ok (.dict d) ∧
      mdlOutputs amd pb.n pb.m pb.p P A G c h b = .ok o ∧ o.x = d.sol.take 3 ∧
      ∀ i, d.basicInfo = some i → i.exitFlag = o.exitflag ∧ i.iterations = o.iter := by
  have hno : ∀ k v, (k, v) ∈ a.dict → k ∈ ["MAXITER", "ABSTOL", "RELTOL", "SIGMA", "VERBOSE"] →
      False := fun k v h1 h2 => hopts _ h1 h2
  have hv : PyValid a.dict :=
    ⟨fun v h => (hno _ _ h (by simp)).elim, fun v h => (hno _ _ h (by simp)).elim,
     fun v h => (hno _ _ h (by simp)).elim, fun v h => (hno _ _ h (by simp)).elim,
     fun v h => (hno _ _ h (by simp)).elim⟩
  obtain ⟨d, s, q0, f, q1, m1, u1, e1, r1, p1⟩ := C76_python ha hd hv hg hp hamd
    (Or.inl fun k h => (hno _ _ h (by simp)).elim)
  obtain ⟨sa, q0', e0', hst⟩ := hg.setup hamd
  rw [setup_plain hg.1 hp.dense, e1] at e0'
  cases e0'
  obtain ⟨_, _, hdn⟩ := hst.done
  have hs : s = q0.options := by
    rw [hdn.options]
    obtain ⟨u2, u3, u4, u5, u6⟩ := u1
    have w1 := (u2.resolve_left fun ⟨_, h, _⟩ => hno _ _ h (by simp)).2
    have w2 := (u3.resolve_left fun ⟨_, h, _⟩ => hno _ _ h (by simp)).2
    have w3 := (u4.resolve_left fun ⟨_, h, _⟩ => hno _ _ h (by simp)).2
    have w4 := (u5.resolve_left fun ⟨_, h, _⟩ => hno _ _ h (by simp)).2
    have w5 := (u6.resolve_left fun ⟨_, h, _⟩ => hno _ _ h (by simp)).2
    obtain ⟨a1, a2, a3, a4, a5⟩ := s
    simp only at w1 w2 w3 w4 w5
    subst w1 w2 w3 w4 w5
    rfl
  subst hs
  obtain ⟨f', hx, he⟩ := p1.sol
  refine ⟨d, ⟨[some (f' 0), some (f' 1), some (f' 2)], f, q1.stats.IterationCount⟩, m1, ?_, ?_, ?_⟩
  · unfold mdlOutputs
    rw [setup_plain hg' hp', e1, ok_bind]
    rw [show QP_SOLVE q0 = .ok (f, q1) from r1, ok_bind]
    simp only
    rw [sfCopy_ok hx hn]
    rfl
  · simp only
    rw [he]
    unfold Buf.ofFn
    obtain ⟨k, hk⟩ : ∃ k, pb.n = 3 + k := ⟨pb.n - 3, by omega⟩
    rw [hk, List.range_add]
    simp [List.range_succ]
  · intro i hi
    exact p1.basic_val i hi

end Generic

/-! ## Examples -/

/-- The Python example `pyDemo` as a MATLAB call, with the same options and three results. -/
def mexOfPy : MexArgs ℚ :=
  { nlhs := 3, P := mxSparse pyDemoPb.P, c := mxDense 2 1 [0, 0]
    Ab := some (mxSparse pyDemoPb.A, mxDense 1 1 [1])
    G := mxSparse pyDemoPb.G, h := mxDense 1 1 [0]
    sttgs := some [("abstol", mxDense 1 1 [1 / 10]), ("MAXITER", mxDense 1 1 [50])] }

theorem mexOfPy_describes : mexOfPy.Describes pyDemoPb where
  wf := pyDemo_describes.2
  shaped := {
    P := ⟨rfl, rfl, rfl, rfl, rfl⟩
    c := ⟨rfl, rfl, rfl, by decide, Or.inl ⟨rfl, rfl⟩⟩
    G := ⟨rfl, rfl, rfl, rfl, rfl⟩
    h := ⟨rfl, rfl, rfl, by decide, Or.inl ⟨rfl, rfl⟩⟩
    eq := Or.inr ⟨_, _, rfl, ⟨rfl, rfl, rfl, rfl, rfl⟩, ⟨rfl, rfl, rfl, by decide, Or.inl ⟨rfl, rfl⟩⟩⟩
    permut := by
      intro q hq
      exact absurd (mxOption_of hq) (by simp [mxOption, mexOfPy]) }
  P := ⟨Buf.has_ofFn _ _, Buf.has_ofFn _ _, Buf.has_ofFn _ _⟩
  c := by
    intro i hi
    have : i < 2 := hi
    interval_cases i <;> rfl
  G := ⟨Buf.has_ofFn _ _, Buf.has_ofFn _ _, Buf.has_ofFn _ _⟩
  h := by
    intro i hi
    have : i < 1 := hi
    interval_cases i
    rfl
  eq := Or.inr ⟨_, _, rfl, ⟨Buf.has_ofFn _ _, Buf.has_ofFn _ _, Buf.has_ofFn _ _⟩, by
    intro i hi
    have : i < 1 := hi
    interval_cases i
    rfl⟩
  sigma_d := rfl

theorem mexOfPy_value {u w : String} {x : ℚ} {q : MxArr ℚ} (h : mxOption mexOfPy u w = some q) :
    mexOfPy.Value u w x ↔ q.pr[0]? = some (some x) := by
  constructor
  · rintro ⟨q', h1, h2⟩
    rw [mxOption_of h1] at h
    cases h
    exact h2
  · exact fun h1 => ⟨q, mxOption_iff.mp h, h1⟩

theorem mexOfPy_none {u w : String} {x : ℚ} (h : mxOption mexOfPy u w = none) :
    ¬ mexOfPy.Value u w x := by
  rintro ⟨q', h1, _⟩
  rw [mxOption_of h1] at h
  cases h

theorem mexOfPy_same : SameOptions pyDemo.dict mexOfPy where
  maxit k := by
    constructor
    · intro h
      have : k = 50 := by simpa [pyDemo, PyArgs.dict] using h
      subst this
      exact ⟨50, (mexOfPy_value rfl).mpr rfl, by decide +kernel⟩
    · rintro ⟨x, hx, rfl⟩
      have : x = 50 := by
        have := (mexOfPy_value rfl).mp hx
        simpa [mxDense, eq_comm] using this
      subst this
      have : (ToInt.trunc (50 : ℚ)) = 50 := by decide +kernel
      rw [this]
      simp [pyDemo, PyArgs.dict]
  abstol t := by
    rw [mexOfPy_value rfl]
    simp [pyDemo, PyArgs.dict, mxDense, eq_comm]
  reltol t := by
    refine ⟨fun h => ?_, fun h => absurd h (mexOfPy_none rfl)⟩
    simp [pyDemo, PyArgs.dict] at h
  sigma t := by
    refine ⟨fun h => ?_, fun h => absurd h (mexOfPy_none rfl)⟩
    simp [pyDemo, PyArgs.dict] at h
  verbose k := by
    refine ⟨fun h => ?_, fun ⟨x, h, _⟩ => absurd h (mexOfPy_none rfl)⟩
    simp [pyDemo, PyArgs.dict] at h

theorem mexOfPy_valid : mexOfPy.Valid where
  maxit x hx := by
    have : x = 50 := by simpa [mxDense, eq_comm] using (mexOfPy_value rfl).mp hx
    subst this
    decide +kernel
  abstol x hx := by
    have : x = 1 / 10 := by
      have h := (mexOfPy_value rfl).mp hx
      simp only [mxDense, List.map_cons, List.getElem?_cons_zero, Option.some.injEq] at h
      exact h.symm
    subst this
    decide +kernel
  reltol x hx := absurd hx (mexOfPy_none rfl)
  sigma x hx := absurd hx (mexOfPy_none rfl)
  verbose x hx := absurd hx (mexOfPy_none rfl)

theorem mexOfPy_readable : mexOfPy.AllReadable := by
  refine ⟨?_, ?_, ?_, ?_, ?_⟩ <;> intro q hq <;> have h := mxOption_of hq <;>
    simp [mxOption, mexOfPy] at h <;> subst h <;> exact ⟨_, rfl⟩

/-- C76: the two calls return the same full results. -/
example : ∃ d e, method_qpSWIFT failAmd pyDemo = .ok (.dict d) ∧
    mexEntry failAmd 3 [⟨mxSparse pyDemoPb.P, []⟩, ⟨mxDense 2 1 [0, 0], []⟩,
      ⟨mxSparse pyDemoPb.A, []⟩, ⟨mxDense 1 1 [1], []⟩, ⟨mxSparse pyDemoPb.G, []⟩,
      ⟨mxDense 1 1 [0], []⟩, ⟨⟨false, false, false, 1, 1, [], [], []⟩,
        [("abstol", mxDense 1 1 [1 / 10]), ("MAXITER", mxDense 1 1 [50])]⟩] = .ok (.results e) ∧
    SameOutput d e :=
  C76_python_matlab failAmd_safe pyDemo_shaped (by unfold PyArgs.DictOk; decide) pyDemo_valid
    pyDemo_describes
    ⟨rfl, rfl, by intro b hb; simp [pyDemo] at hb; subst hb; rfl, by decide⟩
    (a' := mexOfPy) (by decide) (by decide)
    ⟨_, _, _, _, [_, _], [_], rfl, rfl, rfl, rfl, rfl, Or.inr ⟨_, _, rfl, rfl⟩, Or.inr ⟨_, rfl, rfl⟩⟩
    mexOfPy_describes
    ⟨⟨by simp [mexOfPy, mxSparse]; rfl, by simp [mexOfPy, mxSparse], by simp [mexOfPy, mxSparse]⟩,
     ⟨by simp [mexOfPy, mxSparse]; rfl, by simp [mexOfPy, mxSparse], by simp [mexOfPy, mxSparse]⟩,
     by
      intro A b hA
      simp only [mexOfPy, Option.some.injEq, Prod.mk.injEq] at hA
      obtain ⟨rfl, rfl⟩ := hA
      exact ⟨by simp [mxSparse]; rfl, by simp [mxSparse], by simp [mxSparse], rfl⟩, rfl, rfl⟩
    (fun q hq => absurd (mxOption_of hq) (by simp [mxOption, mexOfPy]))
    mexOfPy_readable mexOfPy_valid mexOfPy_same (Or.inr (by decide))

/-- `min ½ (x² + y² + z²)` subject to `x ≤ 1`, without options, for Python. -/
def pyThree : PyArgs ℚ :=
  { c := ⟨true, [3], [some 0, some 0, some 0]⟩
    h := ⟨true, [1], [some 1]⟩
    P := ⟨true, [3, 3], [some 1, some 0, some 0, some 0, some 1, some 0, some 0, some 0, some 1]⟩
    G := ⟨true, [1, 3], [some 1, some 0, some 0]⟩
    A := none, b := none, opts := some [("OUTPUT", .int 1)] }

@[inherit_doc pyThree]
def pyThreePb : Problem ℚ :=
  denseProblem ROW_MAJOR_ORDERING 3 1 0 (fun i => [1, 0, 0, 0, 1, 0, 0, 0, 1].getD i 0) (fun _ => 0)
    (fun i => [1, 0, 0].getD i 0) (fun _ => 0) (fun _ => 0) (fun _ => 1)

theorem pyThree_describes : pyThree.Describes pyThreePb := by
  constructor
  · refine denseProblem_give (K := ℚ) (pyThree.setupArgs 3 1 0) rfl rfl ?_ ?_ ?_ ?_ (by decide) ?_
    · intro i hi; norm_num at hi; interval_cases i <;> rfl
    · intro i hi; norm_num at hi; interval_cases i <;> rfl
    · intro i hi; interval_cases i <;> rfl
    · intro i hi; interval_cases i; rfl
    · exact Or.inr ⟨Or.inl rfl, rfl⟩
  · refine denseProblem_wf Nat.zero_lt_one (fun r hr => ⟨0, by decide, ?_⟩)
    interval_cases r
    decide +kernel

/-- The compressed form depends only on the entries inside the matrix. -/
theorem Csc.Compresses.congr {A : Csc ℚ} {rows cols : Nat} {d d' : Nat → Nat → ℚ}
    (h : A.Compresses rows cols d) (e : ∀ r c, r < rows → c < cols → d r c = d' r c) :
    A.Compresses rows cols d' where
  m := h.m
  n := h.n
  wf := h.wf
  sorted := h.sorted
  stored r c hr hc := by rw [h.stored r c hr hc, e r c hr hc]
  value c hc k h1 h2 := by
    have hk : k < A.nnz := lt_of_lt_of_le h2 (h.wf.le_nnz (c := c + 1) (by rw [h.n]; exact hc))
    rw [h.value c hc k h1 h2, e _ _ (by rw [← h.m]; exact h.wf.ir_lt k hk) hc]

/-- C76: the Simulink block gives the first three components of the Python result. -/
example : ∃ d o, method_qpSWIFT failAmd pyThree = .ok (.dict d) ∧
    mdlOutputs failAmd 3 1 0 [some 1, some 0, some 0, some 0, some 1, some 0, some 0, some 0, some 1]
      none [some 1, some 0, some 0] [some 0, some 0, some 0] [some 1] none = .ok o ∧
    o.x = d.sol.take 3 ∧
    ∀ i, d.basicInfo = some i → i.exitFlag = o.exitflag ∧ i.iterations = o.iter := by
  obtain ⟨f, hP, cP⟩ := pyThree_describes.1.P
  obtain ⟨g, hG, cG⟩ := pyThree_describes.1.G
  have vP : ∀ i, i < 9 → f i = [1, 0, 0, 0, 1, 0, 0, 0, 1].getD i 0 := by
    intro i hi
    have h0 : pyThree.P.data[i]? = some (some (f i)) := hP i hi
    interval_cases i <;> exact (Option.some.inj (Option.some.inj h0)).symm
  refine C76_simulink (pb := pyThreePb) failAmd_safe
    ⟨⟨rfl, rfl⟩, ⟨rfl, rfl⟩, ⟨rfl, rfl⟩, ⟨rfl, rfl⟩, Or.inr ⟨Or.inl rfl, rfl⟩⟩
    (by unfold PyArgs.DictOk; decide) pyThree_describes
    ⟨rfl, rfl, (fun b hb => by cases hb), by decide⟩ (by decide)
    ⟨rfl, rfl, ⟨f, hP, cP.congr ?_⟩, ⟨g, hG, cG.congr ?_⟩, pyThree_describes.1.c,
      pyThree_describes.1.h, pyThree_describes.1.sigma_d, by decide, Or.inr ⟨Or.inl rfl, rfl⟩⟩
    ⟨rfl, rfl, rfl, rfl, (fun b hb => by cases hb), Or.inr ⟨rfl, rfl, rfl⟩⟩ (by decide)
  · intro r c hr hc
    have hr : r < 3 := hr
    have hc : c < 3 := hc
    show f (r * 3 + c) = f (c * 3 + r)
    rw [vP _ (by omega), vP _ (by omega)]
    interval_cases r <;> interval_cases c <;> rfl
  · intro r c hr hc
    have hr : r < 1 := hr
    have hr0 : r = 0 := by omega
    subst hr0
    show g (0 * 3 + c) = g (c * 1 + 0)
    congr 1

end Verif
