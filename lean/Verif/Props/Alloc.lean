import Verif.Lemmas.NullSetup
import Verif.Lemmas.NullLen
import Verif.Lemmas.NullSpare
import Verif.Lemmas.DenseRun
import Verif.Props.Safety

/-!
# Failing allocations (C86)

Outside the ordering routine no result of `malloc` is checked. Here: which failures during setup end
in undefined behaviour, and what the solver does after the others.
-/

set_option linter.unusedSectionVars false

namespace Verif

variable {K : Type} [Zero K] [One K] [Add K] [Sub K] [Mul K] [Div K] [Neg K] [Scalar K]

/-- The results of `malloc` that `QP_SETUP` accesses through: all but eleven work arrays of the solver;
those of the equality constraints only if there are any, and the array of the permutation only if
none is given. -/
def Needed (pb : Problem K) (Permut : Option (Buf Int)) : Site → Prop
  | .rx | .ry | .rz | .delta_x | .delta_y | .delta_z | .delta_s | .ds | .lambda | .temp => False
  | .UPattern => False
  | .mat .A | .At | .Atjc | .Acount | .y => pb.p ≠ 0
  | .Atir | .Atpr => pb.A.nnz ≠ 0
  | .kktP => Permut = none
  | .Ap _ | .Ai _ | .Ax _ => False
  | _ => True

/-- `QP_SETUP_dense` in addition accesses the column pointers of the matrices it converts, and the
arrays of their entries if there are any. -/
def NeededDense (pb : Problem K) (Permut : Option (Buf Int)) : Site → Prop
  | .Ap .A => pb.p ≠ 0
  | .Ap _ => True
  | .Ai .P | .Ax .P => pb.P.nnz ≠ 0
  | .Ai .A | .Ax .A => pb.A.nnz ≠ 0
  | .Ai .G | .Ax .G => pb.G.nnz ≠ 0
  | t => Needed pb Permut t

/-- The state in which the work arrays whose allocation failed are null. -/
def QP.lose (al : Site → Bool) (q : QP K) : QP K :=
  { q with
    rx := if al .rx then q.rx else []
    ry := if al .ry then q.ry else []
    rz := if al .rz then q.rz else []
    delta_x := if al .delta_x then q.delta_x else []
    delta_y := if al .delta_y then q.delta_y else []
    delta_z := if al .delta_z then q.delta_z else []
    delta_s := if al .delta_s then q.delta_s else []
    ds := if al .ds then q.ds else []
    lambda := if al .lambda then q.lambda else []
    temp := if al .temp then q.temp else []
    kkt := { q.kkt with UPattern := if al .UPattern then q.kkt.UPattern else [] } }

theorem setupTailF_all (amd : Amd) (si : SetupIn K) :
    setupTailF (fun _ => true) amd si = setupTail amd si := by
  have e1 : ∀ A : Smat K, transposeAF (fun _ => true) A = allocTranspose A := by
    intro A
    unfold transposeAF allocTranspose
    rw [structF_true rfl, ok_bind, transposeF_ok rfl]
    rfl
  have e2 : ∀ A : Smat K, transposeGF (fun _ => true) A = allocTranspose A := by
    intro A
    unfold transposeGF allocTranspose
    rw [structF_true rfl, ok_bind, transposeF_ok rfl]
    rfl
  have e3 : ∀ q : QP K, kkt_initializeF (fun _ => true) q = kkt_initialize q :=
    initialize_ok (by constructor <;> rfl)
  have e4 : ∀ (k : Smat K) d, choosePermF (fun _ => true) amd si k d = choosePerm amd si k d := by
    intro k d
    unfold choosePermF choosePerm
    cases si.Permut <;> rfl
  unfold setupTailF setupTail
  dsimp only
  simp only [e1, e2, e3, e4, structF_true rfl, ok_bind, mallocF_true rfl]
  rfl

/-- The model with failing allocations agrees with the model used elsewhere if none fails. -/
theorem QP_SETUPF_all (amd : Amd) (a : SetupArgs K) :
    QP_SETUPF (fun _ => true) amd a = QP_SETUP amd a := by
  unfold QP_SETUPF QP_SETUP
  simp only [structF_true rfl, ok_bind, setupTailF_all]
  rfl

theorem QP_SETUP_denseF_all (amd : Amd) (a : DenseArgs K) :
    QP_SETUP_denseF (fun _ => true) amd a = QP_SETUP_dense amd a := by
  have e : ∀ w o m n (pr : Buf K), convertDenseF (fun _ => true) w o m n pr
      = convertDense o m n pr := by
    intro w o m n pr
    unfold convertDenseF convertDense
    split
    · unfold densetosparseF densetosparse
      simp only [mallocF_true rfl]
    · unfold densetosparse_ROWMAJORF densetosparse_ROWMAJOR
      simp only [mallocF_true rfl]
  unfold QP_SETUP_denseF QP_SETUP_dense
  simp only [structF_true rfl, ok_bind, setupTailF_all, e]
  rfl

theorem tail_all {amd : Amd} {si : SetupIn K} {q0 : QP K} (h0 : setupTail amd si = .ok q0) :
    q0 = q0.spare (spareF (fun _ => true) si.argn si.argm si.p si.A.isSome) := by
  have h := setupTailF_all amd si
  have ht : TailOk (fun _ => true) si :=
    ⟨⟨rfl, rfl, rfl, rfl, rfl, rfl, rfl, rfl, rfl, rfl, rfl, rfl, rfl⟩, rfl, rfl, rfl, rfl, rfl,
      fun _ _ => ⟨rfl, rfl, rfl, rfl, Or.inl rfl, Or.inl rfl⟩, rfl, rfl, rfl, rfl, rfl, rfl, rfl,
      fun _ => rfl, rfl, rfl, rfl, rfl⟩
  rw [setupTail_ok ht, h0] at h
  exact (Except.ok.inj h).symm

/-- The state after setup with failing allocations. -/
theorem tail_lose {al : Site → Bool} {amd : Amd} {si : SetupIn K} {q0 : QP K}
    (h0 : setupTail amd si = .ok q0) :
    q0.spare (spareF al si.argn si.argm si.p si.A.isSome) = q0.lose al := by
  have h := tail_all h0
  rw [h]
  unfold QP.lose QP.spare spareF mallocF
  cases si.A.isSome <;> simp

theorem needed_iff {al : Site → Bool} {pb : Problem K} {si : SetupIn K} (hg : si.Give pb)
    (hA : (∀ A, si.A = some A → 0 < pb.p) ∧ (si.A = none → pb.p = 0)) :
    (HeadOk al pb.p ∧ TailOk al si) ↔ ∀ t, Needed pb si.Permut t → al t = true := by
  have hz : ∀ A, si.A = some A → A.nnz = (pb.A.nnz : Int) := by
    intro A e
    rcases hg.eq with ⟨SA, B, h1, -, h2, -⟩ | ⟨h1, -⟩
    · rw [e] at h1; cases h1; exact h2.nnz
    · rw [e] at h1; cases h1
  have hnn : si.A = none → pb.A.nnz = 0 := by
    intro e
    rcases hg.eq with ⟨SA, B, h1, -⟩ | ⟨-, -, h1⟩
    · rw [e] at h1; cases h1
    · rw [h1]; rfl
  constructor
  · rintro ⟨h, k⟩ t ht
    have hsome : pb.p ≠ 0 → ∃ A, si.A = some A := by
      intro e
      cases hc : si.A with
      | none => exact absurd (hA.2 hc) e
      | some A => exact ⟨A, rfl⟩
    have hent : pb.A.nnz ≠ 0 → al .Atir = true ∧ al .Atpr = true := by
      intro e
      cases hc : si.A with
      | none => exact absurd (hnn hc) e
      | some A =>
        have hz := hz A hc
        obtain ⟨-, -, -, -, h5, h6⟩ := k.A A hc
        exact ⟨h5.resolve_right (by omega), h6.resolve_right (by omega)⟩
    cases t with
    | mat w =>
      cases w with
      | P => exact h.P
      | A => exact h.A ht
      | G => exact h.G
    | myQP => exact h.myQP
    | options => exact h.options
    | stats => exact h.stats
    | At => obtain ⟨A, e⟩ := hsome ht; exact (k.A A e).1
    | Atjc => obtain ⟨A, e⟩ := hsome ht; exact (k.A A e).2.1
    | Acount => obtain ⟨A, e⟩ := hsome ht; exact (k.A A e).2.2.1
    | y => obtain ⟨A, e⟩ := hsome ht; exact (k.A A e).2.2.2.1
    | Atir => exact (hent ht).1
    | Atpr => exact (hent ht).2
    | kktP => exact k.kktP ht
    | Gt => exact k.Gt
    | Gtjc => exact k.Gtjc
    | Gtir => exact k.Gtir
    | Gtpr => exact k.Gtpr
    | Gcount => exact k.Gcount
    | x => exact k.x
    | z => exact k.z
    | s => exact k.s
    | delta => exact k.delta
    | kkt => exact k.kkt
    | kktmatrix => exact k.kktmatrix
    | kktjc => exact k.kktjc
    | kktpr => exact k.kktpr
    | kktir => exact k.kktir
    | kktb => exact k.kktb
    | Pinv => exact k.Pinv
    | z_inter => exact k.z_inter
    | Y => exact k.Y
    | D => exact k.D
    | Lp => exact k.Lp
    | Parent => exact k.Parent
    | Pattern => exact k.Pattern
    | Flag => exact k.Flag
    | Lnz => exact k.Lnz
    | Li => exact k.Li
    | Lx => exact k.Lx
    | Lti => exact k.Lti
    | Ltp => exact k.Ltp
    | countL => exact k.countL
    | rx | ry | rz | delta_x | delta_y | delta_z | delta_s | ds | lambda | temp | UPattern
    | Ap | Ai | Ax => exact ht.elim
  · intro h
    have e := fun t (ht : Needed pb si.Permut t) => h t ht
    refine ⟨⟨e .myQP trivial, e .options trivial, e .stats trivial, e (.mat .A), e (.mat .P) trivial,
      e (.mat .G) trivial⟩, ?_⟩
    refine { Y := e .Y trivial, D := e .D trivial, Lp := e .Lp trivial, Parent := e .Parent trivial
             Pattern := e .Pattern trivial, Flag := e .Flag trivial, Lnz := e .Lnz trivial
             Li := e .Li trivial, Lx := e .Lx trivial, Lti := e .Lti trivial, Ltp := e .Ltp trivial
             countL := e .countL trivial, z_inter := e .z_inter trivial, Gt := e .Gt trivial
             Gtjc := e .Gtjc trivial, Gtir := e .Gtir trivial, Gtpr := e .Gtpr trivial
             Gcount := e .Gcount trivial, kkt := e .kkt trivial
             kktmatrix := e .kktmatrix trivial, kktjc := e .kktjc trivial, kktir := e .kktir trivial
             kktpr := e .kktpr trivial, kktb := e .kktb trivial, Pinv := e .Pinv trivial
             kktP := e .kktP, x := e .x trivial, z := e .z trivial, s := e .s trivial
             delta := e .delta trivial, A := fun A hc => ?_ }
    have hp : pb.p ≠ 0 := by have := hA.1 A hc; omega
    have hz := hz A hc
    refine ⟨e .At hp, e .Atjc hp, e .Acount hp, e .y hp, ?_⟩
    by_cases hn : pb.A.nnz = 0
    · exact ⟨Or.inr (by omega), Or.inr (by omega)⟩
    · exact ⟨Or.inl (e .Atir hn), Or.inl (e .Atpr hn)⟩

theorem toIn_A {a : SetupArgs K} {pb : Problem K} (h : a.Give pb) :
    (∀ A, (a.toIn pb).A = some A → 0 < pb.p) ∧ ((a.toIn pb).A = none → pb.p = 0) := by
  unfold SetupArgs.toIn
  dsimp only
  by_cases hp : pb.p = 0
  · rw [if_pos hp]
    exact ⟨fun A e => (by cases e), fun _ => hp⟩
  · rw [if_neg hp]
    refine ⟨fun A _ => by omega, fun e => ?_⟩
    rcases h.eq with ⟨Ajc, Air, Apr, B, e1, e2, e3, -⟩ | ⟨-, hAe⟩
    · rw [e1, e2, e3] at e
      cases e
    · refine absurd ?_ hp
      unfold Problem.p
      rw [hAe]
      rfl

theorem C86_setup_both {amd : Amd} {a : SetupArgs K} {pb : Problem K} {q0 : QP K}
    (h : Started amd a pb q0) (al : Site → Bool) (q : QP K) :
    QP_SETUPF al amd a = .ok q ↔ (∀ t, Needed pb a.Permut t → al t = true) ∧ q = q0.lose al := by
  obtain ⟨e1, hg⟩ := QP_SETUP_eq (amd := amd) h.wf.toShaped h.give
  have h0 : setupTail amd (a.toIn pb) = .ok q0 := by rw [← e1]; exact h.ok
  have hA := toIn_A h.give
  rw [QP_SETUPF_iff h.wf.toShaped h.give, tail_iff h.wf hg h.perm hA.1 h0, ← and_assoc,
    needed_iff hg hA, tail_lose h0]
  rfl

/-- **C86**, setup: with failing allocations `QP_SETUP` ends without undefined behaviour exactly if no
allocation failed whose result it accesses. (It never reports a failure.) -/
theorem C86_setup {amd : Amd} {a : SetupArgs K} {pb : Problem K} {q0 : QP K}
    (h : Started amd a pb q0) (al : Site → Bool) :
    (∃ q, QP_SETUPF al amd a = .ok q) ↔ ∀ t, Needed pb a.Permut t → al t = true :=
  ⟨fun ⟨q, e⟩ => ((C86_setup_both h al q).mp e).1, fun e => ⟨_, (C86_setup_both h al _).mpr ⟨e, rfl⟩⟩⟩

/-- **C86**, state after setup: it is that of a setup without failures, but for work arrays of the
solver that are null. -/
theorem C86_state {amd : Amd} {a : SetupArgs K} {pb : Problem K} {q0 q : QP K}
    (h : Started amd a pb q0) {al : Site → Bool} (e : QP_SETUPF al amd a = .ok q) :
    q = q0.lose al :=
  ((C86_setup_both h al q).mp e).2

theorem lose_le {α : Type} (t : Bool) (b : Buf α) : (if t then b else []) ≼ b := by
  cases t
  · exact Or.inr rfl
  · exact Or.inl rfl

theorem lose_ne {α : Type} {t : Bool} {b : Buf α} (h : (if t then b else []) ≠ []) : t = true := by
  cases t
  · exact absurd rfl h
  · rfl

theorem QP.lose_qple (al : Site → Bool) (q : QP K) (o : Settings K) :
    QpLe { q.lose al with options := o } { q with options := o } := by
  have hk : (q.lose al).kkt ≼ q.kkt := by
    unfold QP.lose
    refine ⟨?_, ?_, ?_, ?_, ?_, ?_, ?_, ?_, ?_, ?_, ?_, ?_, ?_, ?_, ?_, ?_⟩ <;>
      first | exact lose_le _ _ | exact Nullable.refl _
  constructor <;> first | rfl | exact hk | exact lose_le _ _ | exact Nullable.refl _

theorem null_len {α : Type} {a b : Buf α} (h : a ≼ b) (e : a.length = b.length) : a = b := by
  rcases h with h | h
  · exact h
  · subst h
    exact (List.length_eq_zero_iff.mp e.symm).symm

/-- The arrays the solver accesses in every run, and those it accesses once it takes a step. -/
def SolveNeeds (pb : Problem K) (stepped : Prop) : Site → Prop
  | .rx | .rz | .temp => True
  | .ry => pb.p ≠ 0
  | .lambda | .ds | .delta_x | .delta_z | .delta_s => stepped
  | .delta_y => stepped ∧ pb.p ≠ 0
  | _ => False

theorem C86_solve_state {amd : Amd} {a : SetupArgs K} {pb : Problem K} {q0 r : QP K} {f : Int}
    (h : Started amd a pb q0) {al : Site → Bool} {o : Settings K} (ho : 0 < o.maxit)
    (hs : QP_SOLVE { q0.lose al with options := o } = .ok (f, r)) :
    (∀ t, SolveNeeds pb (r.stats.IterationCount ≠ 0) t → al t = true) ∧
    ∃ r0, QP_SOLVE { q0 with options := o } = .ok (f, r0) ∧ r.x = r0.x ∧ r.y = r0.y ∧ r.z = r0.z ∧
      r.s = r0.s ∧ r.stats = r0.stats := by
  obtain ⟨p, q, hd⟩ := h.done
  obtain ⟨am, hst⟩ := hd.stats
  have hn := n_pos h.wf
  have hm : 0 < pb.m := h.wf.m_pos
  have hPm : q0.P.m = (pb.n : Int) := by
    rw [hd.inv.P.m]
    exact congrArg Int.ofNat h.wf.Pm
  constructor
  · have hF : q0.stats.Flag ≠ QP_KKTFAIL := by
      rw [hst]
      show QP_FATAL ≠ QP_KKTFAIL
      decide
    have hI : q0.stats.IterationCount = 0 := by rw [hst]; rfl
    obtain ⟨⟨h1, h2, h3, h4⟩, h5⟩ := solve_touch (qp := { q0.lose al with options := o }) hF ho
      (by show 0 < q0.P.m; rw [hPm]; omega) (by show 0 < q0.n; rw [hd.inv.n]; omega)
      (by show 0 < q0.m; rw [hd.inv.m]; omega) hs
    have hp : pb.p ≠ 0 → 0 < q0.p := by intro e; rw [hd.inv.pp]; omega
    have h5 : r.stats.IterationCount ≠ 0 → _ := fun e => h5 (by
      show r.stats.IterationCount ≠ q0.stats.IterationCount
      rw [hI]; exact e)
    intro t ht
    cases t with
    | rx => exact lose_ne h1
    | rz => exact lose_ne h2
    | temp => exact lose_ne h3
    | ry => exact lose_ne (h4 (hp ht))
    | lambda => exact lose_ne (h5 ht).1
    | ds => exact lose_ne (h5 ht).2.1
    | delta_x => exact lose_ne (h5 ht).2.2.1
    | delta_z => exact lose_ne (h5 ht).2.2.2.1
    | delta_s => exact lose_ne (h5 ht).2.2.2.2.1
    | delta_y => exact lose_ne ((h5 ht.1).2.2.2.2.2 (hp ht.2))
    | _ => exact ht.elim
  · obtain ⟨⟨f0, r0⟩, e0, hf, hr⟩ := sim_solve (q0.lose_qple al o) _ hs
    obtain rfl : f = f0 := hf
    have hr : QpLe r r0 := hr
    have l1 : SameLen _ r := QP_SOLVE_same _ hs
    have l0 : SameLen _ r0 := QP_SOLVE_same _ e0
    exact ⟨r0, e0, null_len hr.x (l1.x.trans l0.x.symm), null_len hr.y (l1.y.trans l0.y.symm),
      null_len hr.z (l1.z.trans l0.z.symm), null_len hr.s (l1.s.trans l0.s.symm), hr.stats⟩

/-- **C86**, solve: after a setup in which allocations failed a run of the solver either ends in
undefined behaviour or none of the arrays it needs is missing, and then it returns the flag, the
iterate and the statistics it returns after a setup without failures. -/
theorem C86_solve {amd : Amd} {a : SetupArgs K} {pb : Problem K} {q0 q r : QP K} {f : Int}
    (h : Started amd a pb q0) {al : Site → Bool} (e : QP_SETUPF al amd a = .ok q) {o : Settings K}
    (ho : 0 < o.maxit) (hs : QP_SOLVE { q with options := o } = .ok (f, r)) :
    (∀ t, SolveNeeds pb (r.stats.IterationCount ≠ 0) t → al t = true) ∧
    ∃ r0, QP_SOLVE { q0 with options := o } = .ok (f, r0) ∧ r.x = r0.x ∧ r.y = r0.y ∧ r.z = r0.z ∧
      r.s = r0.s ∧ r.stats = r0.stats := by
  rw [C86_state h e] at hs
  exact C86_solve_state h ho hs

theorem Started.tail {amd : Amd} {a : SetupArgs K} {pb : Problem K} {q0 : QP K}
    (h : Started amd a pb q0) : setupTail amd (a.toIn pb) = .ok q0 := by
  rw [← (QP_SETUP_eq (amd := amd) h.wf.toShaped h.give).1]
  exact h.ok

/-- Without equality constraints the arrays for them are null anyway. -/
theorem Started.no_eq {amd : Amd} {a : SetupArgs K} {pb : Problem K} {q0 : QP K}
    (h : Started amd a pb q0) (hp : pb.p = 0) : q0.ry = [] ∧ q0.delta_y = [] := by
  have e := tail_all h.tail
  have hA : (a.toIn pb).A = none := by
    unfold SetupArgs.toIn
    exact if_pos hp
  rw [hA] at e
  rw [e]
  exact ⟨rfl, rfl⟩

theorem Started.lose_eq {amd : Amd} {a : SetupArgs K} {pb : Problem K} {q0 : QP K}
    (h : Started amd a pb q0) {al : Site → Bool} (hal : ∀ t, SolveNeeds pb True t → al t = true) :
    q0.lose al = q0.setU (if al .UPattern then q0.kkt.UPattern else []) := by
  have hy : (if al .ry then q0.ry else []) = q0.ry ∧
      (if al .delta_y then q0.delta_y else []) = q0.delta_y := by
    by_cases hp : pb.p = 0
    · obtain ⟨e1, e2⟩ := h.no_eq hp
      rw [e1, e2]
      exact ⟨ite_self _, ite_self _⟩
    · rw [hal .ry hp, hal .delta_y ⟨trivial, hp⟩]
      exact ⟨rfl, rfl⟩
  unfold QP.lose QP.setU
  rw [hy.1, hy.2, hal .rx trivial, hal .rz trivial, hal .temp trivial, hal .lambda trivial,
    hal .ds trivial, hal .delta_x trivial, hal .delta_z trivial, hal .delta_s trivial]
  rfl

/-- **C86**, solve, converse: if none of the arrays the solver may need is missing, it does the same
as after a setup without failures. (The array `UPattern` is never accessed.) -/
theorem C86_solve_ok {amd : Amd} {a : SetupArgs K} {pb : Problem K} {q0 q r0 : QP K} {f : Int}
    (h : Started amd a pb q0) {al : Site → Bool} (e : QP_SETUPF al amd a = .ok q)
    (hal : ∀ t, SolveNeeds pb True t → al t = true) {o : Settings K}
    (hs : QP_SOLVE { q0 with options := o } = .ok (f, r0)) :
    ∃ u, QP_SOLVE { q with options := o }
      = .ok (f, { r0 with kkt := { r0.kkt with UPattern := u } }) := by
  refine ⟨if al .UPattern then q0.kkt.UPattern else [], ?_⟩
  rw [C86_state h e, h.lose_eq hal]
  refine (QP_SOLVE_setU (K := K) _ { q0 with options := o }).trans ?_
  rw [hs]
  rfl

/-! ### Dense form -/

/-- The arguments of the common part of the two setup functions. -/
def DenseArgs.toIn (da : DenseArgs K) (pb : Problem K) : SetupIn K :=
  { argn := pb.n, argm := pb.m, argp := da.p, p := pb.p, P := pb.P.toSmat, G := pb.G.toSmat
    A := if pb.p = 0 then none else some pb.A.toSmat, c := da.c, h := da.h
    b := if pb.p = 0 then none else da.b, sigma_d := Scalar.dec 0 0, Permut := da.Permut }

theorem DenseArgs.Give.toIn {da : DenseArgs K} {pb : Problem K} (h : da.Give pb) :
    (da.toIn pb).Give pb := by
  refine ⟨rfl, rfl, rfl, pb.P.toSmat_is, pb.G.toSmat_is, h.c, h.h, h.sigma_d.symm, ?_⟩
  unfold DenseArgs.toIn
  dsimp only
  rcases h.eq with ⟨Apr, B, f, e1, e2, e3, e4, e5, e6, e7⟩ | ⟨e1, e2⟩
  · rw [if_neg (by omega), if_neg (by omega)]
    exact Or.inl ⟨_, B, rfl, e2, pb.A.toSmat_is, e7⟩
  · have hp : pb.p = 0 := by unfold Problem.p; rw [e2]; rfl
    rw [if_pos hp, if_pos hp]
    exact Or.inr ⟨rfl, rfl, e2⟩

/-- The conversions of the matrices succeed. -/
structure ConvAll (al : Site → Bool) (pb : Problem K) : Prop where
  P : ConvOk al .P pb.P.nnz
  A : pb.p ≠ 0 → ConvOk al .A pb.A.nnz
  G : ConvOk al .G pb.G.nnz

theorem convert_bind {al : Site → Bool} {w : Which} {o m n : Int} {pr : Buf K} {A : Csc K}
    (hn : 0 ≤ n) (h : convertDense o m n pr = .ok A.toSmat) {β : Type} (f : Smat K → M β) (b : β) :
    (convertDenseF al w o m n pr >>= f) = .ok b ↔ ConvOk al w A.nnz ∧ f A.toSmat = .ok b := by
  constructor
  · intro e
    obtain ⟨S, e1, e2⟩ := bind_ok e
    obtain ⟨h1, rfl⟩ := (convert_iff hn h S).mp e1
    exact ⟨h1, e2⟩
  · rintro ⟨h1, e2⟩
    rw [(convert_iff hn h _).mpr ⟨h1, rfl⟩]
    exact e2

theorem QP_SETUP_denseF_iff {al : Site → Bool} {amd : Amd} {da : DenseArgs K} {pb : Problem K}
    (h : da.Give pb) (q : QP K) :
    QP_SETUP_denseF al amd da = .ok q ↔
      HeadOk al pb.p ∧ ConvAll al pb ∧ setupTailF al amd (da.toIn pb) = .ok q := by
  obtain ⟨fP, hP, cP⟩ := h.P
  obtain ⟨fG, hG, cG⟩ := h.G
  have e1 := convertDense_compress hP cP
  have e2 := convertDense_compress hG cG
  have hn : (0 : Int) ≤ (pb.n : Int) := by omega
  rcases h.eq with ⟨Apr, B, fA, a1, a2, a3, a4, a5, a6, a7⟩ | ⟨a1, a2⟩
  · have e3 := convertDense_compress a5 a6
    have hp0 : ¬ pb.p = 0 := by omega
    unfold QP_SETUP_denseF
    rw [a1, a2, a3, h.n, h.m]
    simp only [ne_eq, Int.natCast_eq_zero, hp0, not_false_eq_true, if_true, bind_assoc, pure_eq_ok,
      ok_bind, structF_iff, convert_bind hn e1, convert_bind hn e2, convert_bind hn e3]
    unfold DenseArgs.toIn
    simp only [hp0, if_false, a2, a3]
    exact ⟨fun ⟨b1, b2, b3, b4, b5, b6, b7, b8, b9, b10⟩ =>
        ⟨⟨b1, b2, b3, fun _ => b4, b6, b8⟩, ⟨b7, fun _ => b5, b9⟩, b10⟩,
      fun ⟨⟨b1, b2, b3, b4, b6, b8⟩, ⟨b7, b5, b9⟩, b10⟩ =>
        ⟨b1, b2, b3, b4 hp0, b5 hp0, b6, b7, b8, b9, b10⟩⟩
  · have hp : pb.p = 0 := by unfold Problem.p; rw [a2]; rfl
    have key : QP_SETUP_denseF al amd da = (do
        structF (al .myQP)
        structF (al .options)
        structF (al .stats)
        structF (al (.mat .P))
        let P ← convertDenseF al .P da.ordering pb.n pb.n da.Ppr
        structF (al (.mat .G))
        let G ← convertDenseF al .G da.ordering pb.m pb.n da.Gpr
        setupTailF al amd { da.toIn pb with P := P, G := G }) := by
      unfold QP_SETUP_denseF DenseArgs.toIn
      simp only [hp, if_true]
      split
      · next Apr B c1 c2 =>
        rw [c1, c2] at a1
        simp only [reduceCtorEq, false_or] at a1
        rw [if_neg (by simpa using a1)]
        simp only [pure_eq_ok, ok_bind]
        rw [h.n, h.m]
        rfl
      · simp only [pure_eq_ok, ok_bind]
        rw [h.n, h.m]
        rfl
    rw [key]
    simp only [structF_iff, convert_bind hn e1, convert_bind hn e2]
    exact ⟨fun ⟨b1, b2, b3, b6, b7, b8, b9, b10⟩ =>
        ⟨⟨b1, b2, b3, fun e => absurd hp e, b6, b8⟩, ⟨b7, fun e => absurd hp e, b9⟩, b10⟩,
      fun ⟨⟨b1, b2, b3, _, b6, b8⟩, ⟨b7, _, b9⟩, b10⟩ => ⟨b1, b2, b3, b6, b7, b8, b9, b10⟩⟩

theorem neededDense_iff {al : Site → Bool} {pb : Problem K} {P : Option (Buf Int)}
    (hA : pb.p = 0 → pb.A.nnz = 0) :
    (ConvAll al pb ∧ ∀ t, Needed pb P t → al t = true) ↔ ∀ t, NeededDense pb P t → al t = true := by
  constructor
  · rintro ⟨h, k⟩ t ht
    cases t with
    | Ap w =>
      cases w with
      | P => exact h.P.Ap
      | A => exact (h.A ht).Ap
      | G => exact h.G.Ap
    | Ai w =>
      cases w with
      | P => exact h.P.Ai ht
      | A => exact (h.A fun e => ht (hA e)).Ai ht
      | G => exact h.G.Ai ht
    | Ax w =>
      cases w with
      | P => exact h.P.Ax ht
      | A => exact (h.A fun e => ht (hA e)).Ax ht
      | G => exact h.G.Ax ht
    | _ => exact k _ ht
  · intro h
    refine ⟨⟨⟨h (.Ap .P) trivial, h (.Ai .P), h (.Ax .P)⟩,
      fun e => ⟨h (.Ap .A) e, h (.Ai .A), h (.Ax .A)⟩,
      ⟨h (.Ap .G) trivial, h (.Ai .G), h (.Ax .G)⟩⟩, fun t ht => h t ?_⟩
    cases t with
    | Ap w => exact ht.elim
    | Ai w => exact ht.elim
    | Ax w => exact ht.elim
    | _ => exact ht

/-- **C86**, dense form: with failing allocations `QP_SETUP_dense` ends without undefined behaviour
exactly if no allocation failed whose result it accesses; the state is then that of a setup without
failures, but for work arrays of the solver that are null. -/
theorem C86_dense {amd : Amd} {da : DenseArgs K} {pb : Problem K} {q0 : QP K} (h : da.Give pb)
    (hpb : pb.WF) (hperm : PermSource amd da.Permut da.p pb)
    (h0 : QP_SETUP_dense amd da = .ok q0) (al : Site → Bool) (q : QP K) :
    QP_SETUP_denseF al amd da = .ok q ↔
      (∀ t, NeededDense pb da.Permut t → al t = true) ∧ q = q0.lose al := by
  have hA : (∀ A, (da.toIn pb).A = some A → 0 < pb.p) ∧ ((da.toIn pb).A = none → pb.p = 0) := by
    unfold DenseArgs.toIn
    dsimp only
    by_cases hp : pb.p = 0
    · rw [if_pos hp]
      exact ⟨fun A e => (by cases e), fun _ => hp⟩
    · rw [if_neg hp]
      exact ⟨fun A e => (by omega), fun e => (by cases e)⟩
  have hz : pb.p = 0 → pb.A.nnz = 0 := by
    intro hp
    rcases h.eq with ⟨_, _, _, _, _, _, hp', _⟩ | ⟨_, e⟩
    · omega
    · rw [e]; rfl
  have ht : setupTail amd (da.toIn pb) = .ok q0 := by
    rw [← QP_SETUP_denseF_all] at h0
    have := ((QP_SETUP_denseF_iff h q0).mp h0).2.2
    rwa [setupTailF_all] at this
  rw [QP_SETUP_denseF_iff h, tail_iff hpb h.toIn hperm hA.1 ht, tail_lose ht,
    ← neededDense_iff hz]
  have k := needed_iff (al := al) h.toIn hA
  exact ⟨fun ⟨a1, a2, a3, a4⟩ => ⟨⟨a2, k.mp ⟨a1, a3⟩⟩, a4⟩,
    fun ⟨⟨a2, a1⟩, a4⟩ => ⟨(k.mpr a1).1, a2, (k.mpr a1).2, a4⟩⟩

/-! ### Examples -/

/-- All allocations but the given one succeed. -/
def allBut (t : Site) (u : Site) : Bool := decide (u ≠ t)

theorem allBut_iff {t u : Site} : allBut t u = true ↔ u ≠ t := by simp [allBut]

/-- No memory for `x`: setup accesses a null pointer. -/
example (q : QP ℚ) : QP_SETUPF (allBut .x) failAmd (demoArgs ℚ) ≠ .ok q := by
  obtain ⟨q0, h⟩ := demo_started ℚ
  intro e
  exact allBut_iff.mp ((C86_setup h _).mp ⟨q, e⟩ .x trivial) rfl

/-- No memory for `rx`: setup succeeds, and then every call of the solver accesses a null pointer. -/
example : ∃ q, QP_SETUPF (allBut .rx) failAmd (demoArgs ℚ) = .ok q ∧
    ∀ o : Settings ℚ, 0 < o.maxit → ∀ r, QP_SOLVE { q with options := o } ≠ .ok r := by
  obtain ⟨q0, h⟩ := demo_started ℚ
  obtain ⟨q, e⟩ := (C86_setup h (allBut .rx)).mpr fun t ht => allBut_iff.mpr (by rintro rfl; exact ht)
  refine ⟨q, e, fun o ho r hr => ?_⟩
  exact allBut_iff.mp ((C86_solve h e ho (f := r.1) (r := r.2) hr).1 .rx trivial) rfl

/-- No memory for `UPattern`: nobody notices. -/
example (o : Settings ℚ) (ho : o.verbose = 0) : ∃ q f r,
    QP_SETUPF (allBut .UPattern) failAmd (demoArgs ℚ) = .ok q ∧
      QP_SOLVE { q with options := o } = .ok (f, r) ∧ q.kkt.UPattern = [] := by
  obtain ⟨q0, h⟩ := demo_started ℚ
  obtain ⟨q, e⟩ := (C86_setup h (allBut .UPattern)).mpr
    fun t ht => allBut_iff.mpr (by rintro rfl; exact ht)
  obtain ⟨_, f, r, hr⟩ := C26_solve h (.options o .start) (Or.inl (by simp [ho]))
  obtain ⟨u, hu⟩ := C86_solve_ok h e (fun t ht => allBut_iff.mpr (by rintro rfl; exact ht)) hr
  refine ⟨q, f, _, e, hu, ?_⟩
  rw [C86_state h e]
  show (if allBut .UPattern .UPattern = true then q0.kkt.UPattern else []) = []
  rw [if_neg fun c => allBut_iff.mp c rfl]

/-- A problem with one variable, `min x² / 2` subject to `x ≤ 1`, in dense form: setup survives without
`temp`, but not without the entries of `G`. -/
example (da : DenseArgs ℚ) (hda : da =
    { n := 1, m := 1, p := 0, Ppr := [some (1 : ℚ)], Apr := none, Gpr := [some 1], c := [some 0]
      h := [some 1], b := none, Permut := none, ordering := COLUMN_MAJOR_ORDERING }) :
    (∃ q, QP_SETUP_denseF (allBut .temp) failAmd da = .ok q) ∧
    ∀ q, QP_SETUP_denseF (allBut (.Ax .G)) failAmd da ≠ .ok q := by
  have hg := denseProblem_give (K := ℚ) (n := 1) (m := 1) (p := 0) (P := fun _ => 1)
    (A := fun _ => 0) (G := fun _ => 1) (c := fun _ => 0) (b := fun _ => 0) (h := fun _ => 1)
    { n := 1, m := 1, p := 0, Ppr := [some 1], Apr := none, Gpr := [some 1], c := [some 0]
      h := [some 1], b := none, Permut := none, ordering := COLUMN_MAJOR_ORDERING }
    rfl rfl (by intro i hi; interval_cases i; rfl) (by intro i hi; interval_cases i; rfl)
    (by intro i hi; interval_cases i; rfl) (by intro i hi; interval_cases i; rfl) le_rfl
    (Or.inr ⟨Or.inl rfl, rfl⟩)
  have hw := denseProblem_wf (K := ℚ) (ordering := COLUMN_MAJOR_ORDERING) (n := 1) (m := 1)
    (p := 0) (P := fun _ => 1) (A := fun _ => 0) (G := fun _ => 1) (c := fun _ => 0)
    (b := fun _ => 0) (h := fun _ => 1) Nat.zero_lt_one
    (fun r hr => ⟨0, Nat.zero_lt_one, by simp [denseAt]; decide⟩)
  have hp : PermSource failAmd none 0 (denseProblem (K := ℚ) COLUMN_MAJOR_ORDERING 1 1 0 (fun _ => 1)
      (fun _ => 0) (fun _ => 1) (fun _ => 0) (fun _ => 0) (fun _ => 1)) :=
    Or.inr ⟨rfl, failAmd_safe, Or.inl rfl⟩
  obtain ⟨q0, h0⟩ := hg.setup_ok hw hp
  subst hda
  refine ⟨⟨_, (C86_dense hg hw hp h0 (allBut .temp) _).mpr ⟨fun t ht => ?_, rfl⟩⟩, fun q e => ?_⟩
  · exact allBut_iff.mpr (by rintro rfl; exact ht)
  · exact allBut_iff.mp (((C86_dense hg hw hp h0 _ q).mp e).1 (.Ax .G) (G_nnz hw)) rfl

end Verif
