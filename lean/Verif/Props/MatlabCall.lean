import Verif.Model.MexEntry
import Verif.Props.Matlab

/-!
# C67: which problem a MATLAB call solves, and which calls are rejected
-/

set_option linter.unusedSectionVars false

namespace Verif

section Generic

variable {K : Type} [Zero K] [One K] [Add K] [Sub K] [Mul K] [Div K] [Neg K] [Scalar K] [ToInt K]

/-! ## Specification -/

/-- A real sparse matrix of doubles with the given numbers of rows and columns. -/
structure MxArr.Sparse (a : MxArr K) (rows cols : Int) : Prop where
  double : a.isDouble = true
  sparse : a.isSparse = true
  real : a.isComplex = false
  rows : a.rows = rows
  cols : a.cols = cols

/-- A real dense vector of `n ≥ 1` doubles, as a column or as a row. -/
structure MxArr.Vector (a : MxArr K) (n : Int) : Prop where
  double : a.isDouble = true
  dense : a.isSparse = false
  real : a.isComplex = false
  pos : 1 ≤ n
  shape : (a.rows = n ∧ a.cols = 1) ∨ (a.rows = 1 ∧ a.cols = n)

/-- The arguments have the documented types and sizes: `P` is `n × n`, `c` has `n` numbers, `G` is
`m × n`, `h` has `m` numbers, and if they are given `A` is `p × n`, `b` has `p` numbers (`p = 0` if
not). The permutation, if there is one, has `n + m + p` numbers. -/
structure MexArgs.Shaped (a : MexArgs K) (n m p : Int) : Prop where
  P : a.P.Sparse n n
  c : a.c.Vector n
  G : a.G.Sparse m n
  h : a.h.Vector m
  eq : (a.Ab = none ∧ p = 0) ∨ ∃ A b, a.Ab = some (A, b) ∧ A.Sparse p n ∧ b.Vector p
  permut : ∀ q, a.Option "PERMUT" "permut" q → q.Vector (n + m + p)

/-- The matrix `a` holds the arrays of the sparse matrix `A`. -/
structure MxArr.Stores (a : MxArr K) (A : Csc K) : Prop where
  jc : Buf.Has a.jc (A.n + 1) (fun i => (A.jc i : Int))
  ir : Buf.Has a.ir A.nnz (fun i => (A.ir i : Int))
  pr : Buf.Has a.pr A.nnz A.pr

/-- The arguments have the documented types and sizes and hold the data of the problem `pb`:
minimise `½ x'Px + c'x` subject to `Ax = b` and `Gx ≤ h`. -/
structure MexArgs.Describes (a : MexArgs K) (pb : Problem K) : Prop where
  wf : pb.WF
  shaped : a.Shaped pb.n pb.m pb.p
  P : a.P.Stores pb.P
  c : Buf.Has a.c.pr pb.n pb.c
  G : a.G.Stores pb.G
  h : Buf.Has a.h.pr pb.m pb.h
  eq : (a.Ab = none ∧ pb.A = Csc.empty pb.n) ∨
    ∃ A b, a.Ab = some (A, b) ∧ A.Stores pb.A ∧ Buf.Has b.pr pb.p pb.b
  sigma_d : pb.sigma_d = Scalar.dec 0 0

/-- `prhs` lists the arguments in the documented order: `P, c, G, h` or `P, c, A, b, G, h`, and
possibly the options. -/
def MexArgs.Listed (a : MexArgs K) (prhs : List (MxVal K)) : Prop :=
  ∃ (P c G h : MxVal K) (Ab o : List (MxVal K)), prhs = [P, c] ++ Ab ++ [G, h] ++ o ∧
    a.P = P.arr ∧ a.c = c.arr ∧ a.G = G.arr ∧ a.h = h.arr ∧
    ((a.Ab = none ∧ Ab = []) ∨ ∃ A b, a.Ab = some (A.arr, b.arr) ∧ Ab = [A, b]) ∧
    ((a.sttgs = none ∧ o = []) ∨ ∃ s, a.sttgs = some s.fields ∧ o = [s])

/-! ## Proofs -/

theorem notSparse_iff {a : MxArr K} : a.notSparse = false ↔
    a.isDouble = true ∧ a.isSparse = true ∧ a.isComplex = false := by
  unfold MxArr.notSparse
  cases a.isDouble <;> cases a.isSparse <;> cases a.isComplex <;> simp

theorem notDense_iff {a : MxArr K} : a.notDense = false ↔
    a.isDouble = true ∧ a.isSparse = false ∧ a.isComplex = false := by
  unfold MxArr.notDense
  cases a.isDouble <;> cases a.isSparse <;> cases a.isComplex <;> simp

theorem vector_iff {a : MxArr K} {n : Int} : a.Vector n ↔
    a.notDense = false ∧ imin a.rows a.cols = 1 ∧ imax a.rows a.cols = n := by
  rw [notDense_iff]
  unfold imin imax
  constructor
  · rintro ⟨h1, h2, h3, h4, h5⟩
    refine ⟨⟨h1, h2, h3⟩, ?_⟩
    rcases h5 with ⟨e1, e2⟩ | ⟨e1, e2⟩ <;> rw [e1, e2] <;> split <;> constructor <;>
      (try split) <;> omega
  · rintro ⟨⟨h1, h2, h3⟩, h4, h5⟩
    split at h4 <;> split at h5 <;>
      first
      | exact ⟨h1, h2, h3, by omega, Or.inl ⟨by omega, by omega⟩⟩
      | exact ⟨h1, h2, h3, by omega, Or.inr ⟨by omega, by omega⟩⟩

theorem imin_comm (a b : Int) : imin a b = imin b a := by
  unfold imin
  split <;> split <;> omega

theorem imax_comm (a b : Int) : imax a b = imax b a := by
  unfold imax
  split <;> split <;> omega

theorem mexCheck_none_iff {a : MexArgs K} : mexCheck a = none ↔ ∀ e ∈ mexChecks a, e.1 = false := by
  unfold mexCheck
  rw [Option.map_eq_none_iff, List.find?_eq_none]
  simp

/-- The checks pass exactly for the documented types and sizes. -/
theorem mexCheck_shaped {a : MexArgs K} : mexCheck a = none ↔ ∃ n m p, a.Shaped n m p := by
  rw [mexCheck_none_iff]
  unfold mexChecks
  simp only [List.forall_mem_append, List.forall_mem_cons, List.not_mem_nil, false_imp_iff,
    implies_true, and_true, decide_eq_false_iff_not, not_not]
  constructor
  · rintro ⟨⟨⟨⟨⟨p1, p2, p3, g1, g2, g3⟩, hA⟩, c1, c2, h1, h2⟩, hb⟩, hq⟩
    have hp := notSparse_iff.mp p1
    have hg := notSparse_iff.mp g1
    refine ⟨a.n, a.m, a.p, ⟨hp.1, hp.2.1, hp.2.2, p3, by omega⟩, vector_iff.mpr ⟨c1, c2, rfl⟩,
      ⟨hg.1, hg.2.1, hg.2.2, g2, g3⟩, vector_iff.mpr ⟨h1, h2, rfl⟩, ?_, ?_⟩
    · cases hab : a.Ab with
      | none =>
        refine Or.inl ⟨rfl, ?_⟩
        unfold MexArgs.p
        rw [hab]
      | some ab =>
        obtain ⟨A, b⟩ := ab
        rw [hab] at hA hb
        simp only [List.forall_mem_cons, List.not_mem_nil, false_imp_iff, implies_true, and_true,
          decide_eq_false_iff_not, not_not] at hA hb
        have ha := notSparse_iff.mp hA.1
        refine Or.inr ⟨A, b, rfl, ⟨ha.1, ha.2.1, ha.2.2, hA.2.1, hA.2.2⟩,
          vector_iff.mpr ⟨hb.1, by rw [imin_comm]; exact hb.2, ?_⟩⟩
        unfold MexArgs.p
        rw [hab]
    · intro q ho
      rw [mxOption_of ho] at hq
      simp only [List.forall_mem_cons, List.not_mem_nil, false_imp_iff, implies_true, and_true,
        decide_eq_false_iff_not, not_not] at hq
      exact vector_iff.mpr ⟨hq.1, by rw [imin_comm]; exact hq.2.1, by rw [imax_comm]; exact hq.2.2⟩
  · rintro ⟨n, m, p, hs⟩
    have hc := vector_iff.mp hs.c
    have hh := vector_iff.mp hs.h
    have hn : a.n = n := hc.2.2
    have hm : a.m = m := hh.2.2
    have hp : a.p = p := by
      unfold MexArgs.p
      rcases hs.eq with ⟨e, h0⟩ | ⟨A, b, e, _, hb⟩
      · rw [e]; exact h0.symm
      · rw [e]; exact (vector_iff.mp hb).2.2
    rw [hn, hm, hp]
    refine ⟨⟨⟨⟨⟨notSparse_iff.mpr ⟨hs.P.double, hs.P.sparse, hs.P.real⟩,
      by rw [hs.P.rows, hs.P.cols], hs.P.rows,
      notSparse_iff.mpr ⟨hs.G.double, hs.G.sparse, hs.G.real⟩, hs.G.rows, hs.G.cols⟩, ?_⟩,
      hc.1, hc.2.1, hh.1, hh.2.1⟩, ?_⟩, ?_⟩
    · rcases hs.eq with ⟨e, h0⟩ | ⟨A, b, e, hA, hb⟩
      · rw [e]; simp
      · rw [e]
        simp only [List.forall_mem_cons, List.not_mem_nil, false_imp_iff, implies_true, and_true,
          decide_eq_false_iff_not, not_not]
        exact ⟨notSparse_iff.mpr ⟨hA.double, hA.sparse, hA.real⟩, hA.rows, hA.cols⟩
    · rcases hs.eq with ⟨e, h0⟩ | ⟨A, b, e, hA, hb⟩
      · rw [e]; simp
      · rw [e]
        simp only [List.forall_mem_cons, List.not_mem_nil, false_imp_iff, implies_true, and_true,
          decide_eq_false_iff_not, not_not]
        have := vector_iff.mp hb
        exact ⟨this.1, by rw [imin_comm]; exact this.2.1⟩
    · cases ho : mxOption a "PERMUT" "permut" with
      | none => simp
      | some q =>
        simp only [List.forall_mem_cons, List.not_mem_nil, false_imp_iff, implies_true, and_true,
          decide_eq_false_iff_not, not_not]
        have := vector_iff.mp (hs.permut q (mxOption_iff.mp ho))
        exact ⟨this.1, by rw [imin_comm]; exact this.2.1, by rw [imax_comm]; exact this.2.2⟩

theorem MexArgs.Shaped.sizes {a : MexArgs K} {n m p : Int} (hs : a.Shaped n m p) :
    a.n = n ∧ a.m = m ∧ a.p = p := by
  refine ⟨(vector_iff.mp hs.c).2.2, (vector_iff.mp hs.h).2.2, ?_⟩
  unfold MexArgs.p
  rcases hs.eq with ⟨e, h0⟩ | ⟨A, b, e, _, hb⟩
  · rw [e]; exact h0.symm
  · rw [e]; exact (vector_iff.mp hb).2.2

theorem MexArgs.Describes.give {a : MexArgs K} {pb : Problem K} (h : a.Describes pb)
    (P : _root_.Option (Buf Int)) : (mexSetupArgs a P).Give pb where
  n := h.shaped.sizes.1
  m := h.shaped.sizes.2.1
  Pjc := h.P.jc
  Pir := h.P.ir
  Ppr := h.P.pr
  Gjc := h.G.jc
  Gir := h.G.ir
  Gpr := h.G.pr
  c := h.c
  h := h.h
  sigma_d := h.sigma_d.symm
  eq := by
    rcases h.eq with ⟨e, h0⟩ | ⟨A, b, e, hA, hb⟩
    · refine Or.inr ⟨Or.inl ?_, h0⟩
      show a.Ab.map (·.1.jc) = none
      rw [e]; rfl
    · have hp : (1 : Int) ≤ pb.p := by
        rcases h.shaped.eq with ⟨e', _⟩ | ⟨A', b', e', _, hb'⟩
        · rw [e] at e'; cases e'
        · exact hb'.pos
      refine Or.inl ⟨A.jc, A.ir, A.pr, b.pr, ?_, ?_, ?_, ?_, h.shaped.sizes.2.2, by omega, hA.jc,
        hA.ir, hA.pr, hb⟩
      · show a.Ab.map (·.1.jc) = some A.jc
        rw [e]; rfl
      · show a.Ab.map (·.1.ir) = some A.ir
        rw [e]; rfl
      · show a.Ab.map (·.1.pr) = some A.pr
        rw [e]; rfl
      · show a.Ab.map (·.2.pr) = some b.pr
        rw [e]; rfl

/-! ## C67 -/

/-- **C67**, wrong number of arguments: the call ends with an error. -/
theorem C67_wrong_number (amd : Amd) {nlhs : Int} {prhs : List (MxVal K)} (h0 : nlhs ≠ 0)
    (h : prhs.length < 4 ∨ 7 < prhs.length ∨ nlhs < 0 ∨ 3 < nlhs) :
    ∃ e, mexEntry amd nlhs prhs = .ok (.error e) := by
  unfold mexEntry
  rw [if_neg h0]
  cases ha : mexAssign nlhs prhs with
  | none => exact ⟨_, rfl⟩
  | some a =>
    have hl : 4 ≤ prhs.length ∧ prhs.length ≤ 7 := by
      unfold mexAssign at ha
      split at ha <;> first | (cases ha; done) | (simp only [List.length_cons, List.length_nil]; omega)
    simp only
    rw [if_pos (by omega)]
    exact ⟨_, rfl⟩

/-- **C67**, order of the arguments: a call with one to three results whose arguments are listed in
the documented order ends as the computation for these arguments. -/
theorem C67_listed (amd : Amd) {a : MexArgs K} {prhs : List (MxVal K)} (h1 : 1 ≤ a.nlhs)
    (h3 : a.nlhs ≤ 3) (hl : a.Listed prhs) :
    (∀ e, mexFunction amd a = .ok (.error e) → mexEntry amd a.nlhs prhs = .ok (.error e)) ∧
    (∀ d, mexFunction amd a = .ok (.ok d) → mexEntry amd a.nlhs prhs = .ok (.results d)) ∧
    ∀ e, mexFunction amd a = .error e → mexEntry amd a.nlhs prhs = .error e := by
  obtain ⟨P, c, G, h, Ab, o, rfl, hP, hc, hG, hh, hAb, ho⟩ := hl
  have key : mexAssign a.nlhs ([P, c] ++ Ab ++ [G, h] ++ o) = some a := by
    obtain ⟨nl, aP, ac, aAb, aG, ah, as⟩ := a
    simp only at hP hc hG hh hAb ho
    subst hP hc hG hh
    rcases hAb with ⟨rfl, rfl⟩ | ⟨A, b, rfl, rfl⟩ <;> rcases ho with ⟨rfl, rfl⟩ | ⟨s, rfl, rfl⟩ <;> rfl
  unfold mexEntry
  rw [if_neg (by omega), key]
  simp only
  rw [if_neg (by omega)]
  refine ⟨fun e he => ?_, fun d hd => ?_, fun e he => ?_⟩
  · rw [he]; rfl
  · rw [hd]; rfl
  · rw [he]; rfl

/-- **C67**, wrong types or sizes: without the documented types and sizes the call ends with an
error. Nothing is read from the arrays, so this holds whatever they contain. -/
theorem C67_wrong_shape (amd : Amd) {a : MexArgs K} {prhs : List (MxVal K)} (h1 : 1 ≤ a.nlhs)
    (h3 : a.nlhs ≤ 3) (hl : a.Listed prhs) (h : ¬ ∃ n m p, a.Shaped n m p) :
    ∃ e, mexEntry amd a.nlhs prhs = .ok (.error e) := by
  cases hc : mexCheck a with
  | none => exact absurd (mexCheck_shaped.mp hc) h
  | some e =>
    have hf : mexFunction amd a = .ok (.error e) := by
      unfold mexFunction
      rw [hc]
      rfl
    exact ⟨e, (C67_listed amd h1 h3 hl).1 e hf⟩

/-- The permutation is not given, or it consists of `1, …, N` in some order (`v` are the numbers,
`w` the integers). -/
def MexArgs.PermutOk (a : MexArgs K) (N : Nat) : Prop :=
  a.Absent "PERMUT" "permut" ∨
    ∃ q v w, a.Option "PERMUT" "permut" q ∧ Buf.Has q.pr N v ∧
      (∀ i, i < N → ToInt.trunc (v i - Scalar.dec 1 0) = w i - 1) ∧ IsPerm1 N w

/-- For arguments that describe a problem, setup is called for that problem, with the permutation
given. -/
theorem MexArgs.Describes.start {a : MexArgs K} {pb : Problem K} (h : a.Describes pb) {amd : Amd}
    (hamd : AmdSafe amd) (hq : a.PermutOk pb.N) :
    ∃ P q0, Started amd (mexSetupArgs a P) pb q0 ∧ mexFunction amd a = mexRun amd a P := by
  have hc : mexCheck a = none := mexCheck_shaped.mpr ⟨_, _, _, h.shaped⟩
  rcases hq with hq | ⟨q, v, w, ho, hv, hw, hp⟩
  · have hno : mxOption a "PERMUT" "permut" = none := by
      cases ho : mxOption a "PERMUT" "permut" with
      | none => rfl
      | some q => exact absurd (mxOption_iff.mp ho) (hq q)
    have hm : mexPermut a = .ok (.ok none) := by
      unfold mexPermut
      rw [hno]
      rfl
    have hperm : PermSource amd (mexSetupArgs a none).Permut (mexSetupArgs a none).p pb :=
      Or.inr ⟨rfl, hamd, Or.inl h.shaped.sizes.2.2⟩
    obtain ⟨q0, e0⟩ := C26_setup h.wf (h.give none) hperm
    refine ⟨none, q0, ⟨h.wf, h.give none, hperm, e0⟩, ?_⟩
    rw [mexFunction_checked hc, hm]
    rfl
  · have hN : a.n + a.m + a.p = pb.N := by
      rw [h.shaped.sizes.1, h.shaped.sizes.2.1, h.shaped.sizes.2.2]
      unfold Problem.N
      push_cast
      omega
    have h1 := (C45_permutation hc ho hN hv hw amd).1 hp
    obtain ⟨p', q', hpq, he⟩ := (isPerm_iff_isPerm1.mpr hp).pair
    have hperm : PermSource amd (mexSetupArgs a (some (Buf.ofFn pb.N (fun i => w i - 1)))).Permut
        (mexSetupArgs a (some (Buf.ofFn pb.N (fun i => w i - 1)))).p pb :=
      Or.inl ⟨_, p', q', rfl, hpq, (Buf.has_ofFn pb.N (fun i => w i - 1)).congr he⟩
    obtain ⟨q0, e0⟩ := C26_setup h.wf (h.give _) hperm
    exact ⟨_, q0, ⟨h.wf, h.give _, hperm, e0⟩, h1⟩

/-- **C67**, invalid options: for arguments describing a problem, an option out of range leads to an
error. -/
theorem C67_invalid_options {amd : Amd} (hamd : AmdSafe amd) {a : MexArgs K} {pb : Problem K}
    {prhs : List (MxVal K)} (h1 : 1 ≤ a.nlhs) (h3 : a.nlhs ≤ 3) (hl : a.Listed prhs)
    (hd : a.Describes pb) (hq : a.PermutOk pb.N) (hr : a.AllReadable) (hv : ¬ a.Valid) :
    ∃ e, mexEntry amd a.nlhs prhs = .ok (.error e) := by
  obtain ⟨P, q0, hst, he⟩ := hd.start hamd hq
  obtain ⟨e, h⟩ := (C52_rejected_iff hr hst.ok).mpr hv
  exact ⟨e, (C67_listed amd h1 h3 hl).1 e (he.trans h)⟩

/-- **C67**, success: for arguments that describe the problem `pb`, with admissible options, the call
returns the outcome of a solve of this very problem: setup was given the data of `pb`
(`Started … pb q0`), the solve used the options given and the defaults for the others, and the
results are the vectors, the exit code, the number of iterations and the objective value after it. -/
theorem C67_solved {amd : Amd} (hamd : AmdSafe amd) {a : MexArgs K} {pb : Problem K}
    {prhs : List (MxVal K)} (h1 : 1 ≤ a.nlhs) (h3 : a.nlhs ≤ 3) (hl : a.Listed prhs)
    (hd : a.Describes pb) (hq : a.PermutOk pb.N) (hr : a.AllReadable) (hv : a.Valid)
    (hprint : (∀ x, a.Value "VERBOSE" "verbose" x → ToInt.trunc x ≤ 0) ∨ pb.p ≠ 0)
    (hmax : a.nlhs = 1 ∨ a.nlhs = 2 ∨ ∀ x, a.Value "MAXITER" "maxiter" x → 1 ≤ ToInt.trunc x) :
    ∃ d sa q0 s f q1, mexEntry amd a.nlhs prhs = .ok (.results d) ∧ Started amd sa pb q0 ∧
      a.Uses defaultSettings s ∧ QP_SOLVE { q0 with options := s } = .ok (f, q1) ∧
      d.Reports a.nlhs pb.n pb.m pb.p f q1 := by
  obtain ⟨P, q0, hst, he⟩ := hd.start hamd hq
  obtain ⟨d, s, f, q1, e1, e2, e3, e4⟩ :=
    C52_accepted hr hv hst hd.shaped.sizes.2.2 hprint hmax
  exact ⟨d, _, q0, s, f, q1, (C67_listed amd h1 h3 hl).2.1 d (he.trans e1), hst, e2, e3, e4⟩

end Generic

/-! ## Example -/

/-- The demo problem as a list of seven MATLAB values, the last one the options. -/
def mexDemoList (l : List (String × MxArr ℚ)) : List (MxVal ℚ) :=
  [⟨mxSparse (demoPb ℚ).P, []⟩, ⟨mxDense 3 1 ((List.range 3).map (demoPb ℚ).c), []⟩,
   ⟨mxSparse (demoPb ℚ).A, []⟩, ⟨mxDense 1 1 ((List.range 1).map (demoPb ℚ).b), []⟩,
   ⟨mxSparse (demoPb ℚ).G, []⟩, ⟨mxDense 2 1 ((List.range 2).map (demoPb ℚ).h), []⟩,
   ⟨⟨false, false, false, 1, 1, [], [], []⟩, l⟩]

theorem mexDemo_listed (l : List (String × MxArr ℚ)) : (mexDemo l).Listed (mexDemoList l) :=
  ⟨_, _, _, _, [_, _], [_], rfl, rfl, rfl, rfl, rfl, Or.inr ⟨_, _, rfl, rfl⟩, Or.inr ⟨_, rfl, rfl⟩⟩

theorem mexDemo_describes {l : List (String × MxArr ℚ)}
    (h : (mexDemo l).Absent "PERMUT" "permut") : (mexDemo l).Describes (demoPb ℚ) where
  wf := demoPb_wf
  shaped := {
    P := ⟨rfl, rfl, rfl, rfl, rfl⟩
    c := ⟨rfl, rfl, rfl, by decide, Or.inl ⟨rfl, rfl⟩⟩
    G := ⟨rfl, rfl, rfl, rfl, rfl⟩
    h := ⟨rfl, rfl, rfl, by decide, Or.inl ⟨rfl, rfl⟩⟩
    eq := Or.inr ⟨_, _, rfl, ⟨rfl, rfl, rfl, rfl, rfl⟩, ⟨rfl, rfl, rfl, by decide, Or.inl ⟨rfl, rfl⟩⟩⟩
    permut := fun q hq => absurd hq (h q) }
  P := ⟨Buf.has_ofFn _ _, Buf.has_ofFn _ _, Buf.has_ofFn _ _⟩
  c := (mexDemo_give l none).c
  G := ⟨Buf.has_ofFn _ _, Buf.has_ofFn _ _, Buf.has_ofFn _ _⟩
  h := (mexDemo_give l none).h
  eq := Or.inr ⟨_, _, rfl, ⟨Buf.has_ofFn _ _, Buf.has_ofFn _ _, Buf.has_ofFn _ _⟩, by
    intro i hi
    simp only [demoPb, Problem.p, Csc.lit] at hi
    interval_cases i
    rfl⟩
  sigma_d := (mexDemo_give l none).sigma_d.symm

/-- C67: the call with 150 iterations returns results of a solve of the demo problem. -/
example : ∃ d sa q0 s f q1,
    mexEntry failAmd 3 (mexDemoList [("MAXITER", mxDense 1 1 [150])]) = .ok (.results d) ∧
      Started failAmd sa (demoPb ℚ) q0 ∧ QP_SOLVE { q0 with options := s } = .ok (f, q1) ∧
      d.Reports 3 3 2 1 f q1 := by
  obtain ⟨d, sa, q0, s, f, q1, h1, h2, _, h3, h4⟩ := C67_solved failAmd_safe (by decide) (by decide)
    (mexDemo_listed _) (mexDemo_describes (mexDemo_absent rfl)) (Or.inl (mexDemo_absent rfl))
    (mexDemo_readable 150) (mexDemo_valid (by norm_num) (by norm_num)) (Or.inr (by decide))
    (Or.inr (Or.inr (by
      intro x hx
      have := (mexDemo_value rfl).mp hx
      cases this
      decide +kernel)))
  exact ⟨d, sa, q0, s, f, q1, h1, h2, h3, h4⟩

/-- C67: three results, but the matrix in the place of `G` has three rows and `h` one number. -/
example : ∃ e, mexEntry failAmd 3
    [⟨mxSparse (demoPb ℚ).P, []⟩, ⟨mxDense 3 1 ((List.range 3).map (demoPb ℚ).c), []⟩,
     ⟨mxSparse (demoPb ℚ).G, []⟩, ⟨mxDense 2 1 ((List.range 2).map (demoPb ℚ).h), []⟩,
     ⟨mxSparse (demoPb ℚ).P, []⟩, ⟨mxDense 1 1 ((List.range 1).map (demoPb ℚ).b), []⟩]
      = .ok (.error e) := by
  refine C67_wrong_shape failAmd (a := { nlhs := 3, P := mxSparse (demoPb ℚ).P
                                         c := mxDense 3 1 ((List.range 3).map (demoPb ℚ).c)
                                         Ab := some (mxSparse (demoPb ℚ).G,
                                           mxDense 2 1 ((List.range 2).map (demoPb ℚ).h))
                                         G := mxSparse (demoPb ℚ).P
                                         h := mxDense 1 1 ((List.range 1).map (demoPb ℚ).b)
                                         sttgs := none })
    (by decide) (by decide)
    ⟨_, _, _, _, [_, _], [], rfl, rfl, rfl, rfl, rfl, Or.inr ⟨_, _, rfl, rfl⟩, Or.inl ⟨rfl, rfl⟩⟩ ?_
  rintro ⟨n, m, p, hs⟩
  have h1 : (3 : Int) = m := hs.G.rows
  have h2 := hs.h.shape
  have h3 : ((1 : Int) = m ∧ (1 : Int) = 1) ∨ ((1 : Int) = 1 ∧ (1 : Int) = m) := h2
  omega

end Verif
