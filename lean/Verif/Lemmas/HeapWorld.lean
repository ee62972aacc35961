import Verif.Lemmas.Heap

/-!
# Programs that set up, solve and clean up problems

Definitions for the statement about memory, and the runs of the functions in isolation.
-/

namespace Verif.Mem

/-! ## Programs using the library -/

/-- A problem the program has set up: the pointer it got, the kind of setup, and whether it has
not been cleaned up. -/
structure Handle where
  root : Nat
  dense : Bool
  open_ : Bool

/-- The heap, the problems set up so far, and the arrays the program has allocated itself. -/
structure World where
  heap : Heap
  handles : List Handle
  caller : List Nat

/-- Steps of the program. -/
inductive Op
  /-- allocate an array -/
  | array
  /-- `QP_SETUP` or `QP_SETUP_dense`; `pZero`: the number of equality constraints is zero;
  `args`: the pointer arguments (`none` is NULL); `amd`: what the ordering does, if called -/
  | setup (dense pZero : Bool) (amd : AmdPath) (args : Arg → Option Nat)
  /-- `QP_SOLVE` of the `i`-th problem -/
  | solve (i : Nat)
  /-- `QP_CLEANUP` or `QP_CLEANUP_dense` of the `i`-th problem -/
  | cleanup (i : Nat) (dense : Bool)

/-- Value of a pointer argument. -/
def argCell (args : Arg → Option Nat) (g : Arg) : Cell :=
  match args g with
  | none => .null
  | some a => .ptr a

/-- Configuration: lines 91 and 194 (sparse), 292 and 416 (dense) of `qpSWIFT.c`. -/
def cfgOf (dense pZero : Bool) (amd : AmdPath) (args : Arg → Option Nat) : Cfg where
  dense := dense
  hasA := (if dense then (args .Apr).isSome && (args .b).isSome
    else (args .Apr).isSome && (args .Ajc).isSome && (args .Air).isSome && (args .b).isSome)
      && !pZero
  perm := (args .Permut).isSome
  amd := amd

/-- State at the start of a function with the argument `myQP`. -/
def entry (h : Heap) (root : Nat) : St where
  heap := h
  var := fun v => if v = .myQP then .ptr root else .uninit

/-- One step of the program. -/
def World.step (w : World) : Op → Except HErr World
  | .array => .ok { w with heap := w.heap.alloc, caller := w.heap.next :: w.caller }
  | .setup dense pZero amd args => do
    let s ← exec (argCell args) ⟨w.heap, fun _ => .uninit⟩ (setup (cfgOf dense pZero amd args))
    match s.var .myQP with
    | .ptr r => .ok { w with heap := s.heap, handles := w.handles ++ [⟨r, dense, true⟩] }
    | _ => .error .type
  | .solve i =>
    match w.handles[i]? with
    | none => .error .handle
    | some hd => do
      let s ← exec (fun _ => .uninit) (entry w.heap hd.root) solve
      .ok { w with heap := s.heap }
  | .cleanup i dense =>
    match w.handles[i]? with
    | none => .error .handle
    | some hd => do
      let s ← exec (fun _ => .uninit) (entry w.heap hd.root) (cleanup dense)
      .ok { w with heap := s.heap, handles := w.handles.set i { hd with open_ := false } }

/-- Correct use: pointers passed to setup are arrays of the program, the required ones are not
NULL, a problem is used before it is cleaned up, and cleaned up by the matching function. -/
def World.Legal (w : World) : Op → Prop
  | .array => True
  | .setup dense _ _ args => (∀ g a, args g = some a → a ∈ w.caller) ∧
      (∀ g ∈ [Arg.Ppr, .Gpr, .c, .h], (args g).isSome = true) ∧
      (dense = false → ∀ g ∈ [Arg.Pjc, .Pir, .Gjc, .Gir], (args g).isSome = true)
  | .solve i => ∃ hd, w.handles[i]? = some hd ∧ hd.open_ = true
  | .cleanup i dense => ∃ hd, w.handles[i]? = some hd ∧ hd.open_ = true ∧ hd.dense = dense

/-- The program starts: nothing is allocated. -/
def World.start : World := ⟨⟨0, fun _ => false, fun _ _ => .uninit⟩, [], []⟩

/-- States reached by correct use. -/
inductive World.Reach : World → Prop
  | start : Reach .start
  | step {w w' : World} {o : Op} : Reach w → w.Legal o → w.step o = .ok w' → Reach w'

/-! ## Runs in isolation -/

/-- The heap after setup, run in isolation. -/
def small (g : Cfg) : Heap :=
  match exec Cell.ext ⟨World.start.heap, fun _ => .uninit⟩ (setup g) with
  | .ok s => s.heap
  | .error _ => World.start.heap

/-- Setup, run in isolation, succeeds and returns the first block. -/
def okSetup (g : Cfg) : Bool :=
  match exec Cell.ext ⟨World.start.heap, fun _ => .uninit⟩ (setup g) with
  | .ok s => (match s.var .myQP with | .ptr 0 => true | _ => false) && decide (0 < s.heap.next)
      && s.heap.live 0
  | .error _ => false

/-- Solve succeeds after setup. -/
def okSolve (g : Cfg) : Bool :=
  match exec Cell.ext (entry (small g) 0) solve with
  | .ok _ => true
  | .error _ => false

/-- The matching cleanup succeeds after setup and leaves nothing. -/
def okCleanup (g : Cfg) : Bool :=
  match exec Cell.ext (entry (small g) 0) (cleanup g.dense) with
  | .ok s => decide (s.heap.next = (small g).next) &&
      (List.range s.heap.next).all (fun a => !s.heap.live a)
  | .error _ => false

/-- The arguments setup uses. -/
def okArgs (g : Cfg) : Bool :=
  ((setup g).flatMap Stmt.args).all (fun a =>
    (a ∈ [Arg.Ppr, .Gpr, .c, .h]) || (!g.dense && decide (a ∈ [Arg.Pjc, .Pir, .Gjc, .Gir]))
    || (g.hasA && (a ∈ [Arg.Apr, .b])) || (g.hasA && !g.dense && decide (a ∈ [Arg.Ajc, .Air]))
    || (g.perm && decide (a = .Permut)))

/-- What cleaning up with the wrong function does: six or nine arrays stay allocated; or an array
of the caller is released. -/
def wrongCleanup (g : Cfg) : Bool :=
  match exec Cell.ext (entry (small g) 0) (cleanup !g.dense) with
  | .ok s => g.dense && decide (((List.range s.heap.next).filter s.heap.live).length
      = if g.hasA then 9 else 6)
  | .error .caller => !g.dense
  | .error _ => false

/-- With a permutation from the caller the ordering is not called. -/
theorem setup_perm (d a : Bool) (m : AmdPath) : setup ⟨d, a, true, m⟩ = setup ⟨d, a, true, .empty⟩ := rfl

theorem small_perm (d a : Bool) (m : AmdPath) : small ⟨d, a, true, m⟩ = small ⟨d, a, true, .empty⟩ := by
  unfold small
  rw [setup_perm]

theorem small_checks (g : Cfg) :
    okSetup g = true ∧ okSolve g = true ∧ okCleanup g = true ∧ okArgs g = true := by
  obtain ⟨d, a, p, m⟩ := g
  cases p
  · cases d <;> cases a <;> cases m <;> decide +kernel
  · have h1 : okSetup ⟨d, a, true, m⟩ = okSetup ⟨d, a, true, .empty⟩ := by
      unfold okSetup; rw [setup_perm]
    have h2 : okSolve ⟨d, a, true, m⟩ = okSolve ⟨d, a, true, .empty⟩ := by
      unfold okSolve; rw [small_perm]
    have h3 : okCleanup ⟨d, a, true, m⟩ = okCleanup ⟨d, a, true, .empty⟩ := by
      unfold okCleanup; rw [small_perm]
    have h4 : okArgs ⟨d, a, true, m⟩ = okArgs ⟨d, a, true, .empty⟩ := by
      unfold okArgs; rw [setup_perm]
    rw [h1, h2, h3, h4]
    clear h1 h2 h3 h4
    cases d <;> cases a <;> decide +kernel

theorem wrong_checks (g : Cfg) : wrongCleanup g = true := by
  obtain ⟨d, a, p, m⟩ := g
  cases p
  · cases d <;> cases a <;> cases m <;> decide +kernel
  · have h : wrongCleanup ⟨d, a, true, m⟩ = wrongCleanup ⟨d, a, true, .empty⟩ := by
      unfold wrongCleanup; rw [small_perm]
    rw [h]
    clear h
    cases d <;> cases a <;> decide +kernel

end Verif.Mem
