/-!
# Memory management: allocation, ownership, access paths

What `QP_SETUP`, `QP_SETUP_dense`, `QP_SOLVE`, `QP_CLEANUP` and `QP_CLEANUP_dense`
(`/repo/src/qpSWIFT.c`) do with the heap: which blocks they allocate, where they store the
pointers, through which pointers they access memory, and what they free. Numbers stored in the
blocks are left out, except the member `AMD_RESULT` that decides about freeing the permutation.

A block has an identity that is never used again. `malloc` may fail in `AMD_order`, which checks the
result; elsewhere it succeeds. Every access through a
pointer checks that the block is allocated, and `free` checks it too.
-/

namespace Verif.Mem

/-- Members of the structures `QP`, `smat`, `kkt`, `stats` that are used below
(`/repo/include/GlobalOptions.h`, `/repo/include/Auxilary.h`). -/
inductive Fld
  | options | stats | A | At | P | G | Gt | b | c | h | x | y | z | s | rx | ry | rz
  | delta | delta_x | delta_y | delta_z | delta_s | ds | lambda | temp | kkt
  | jc | ir | pr
  | kktmatrix | Parent | Flag | Lnz | Li | Lp | Lti | Ltp | Pattern | UPattern | Y | Lx | D | Pinv
  | AMD_RESULT
  deriving DecidableEq

/-- Local pointer variables of the functions. -/
inductive Var
  | myQP | count | z_inter | Ap | Ai | Ax | Len | Pinv | Rp | Ri | S
  deriving DecidableEq

/-- Pointer arguments of the setup functions. -/
inductive Arg
  | Pjc | Pir | Ppr | Ajc | Air | Apr | Gjc | Gir | Gpr | c | h | b | Permut
  deriving DecidableEq

/-- Content of a variable or member. `ext` is a pointer to an array of the caller, used when a
function is run in isolation. -/
inductive Cell
  | uninit | null | ptr (a : Nat) | ext (g : Arg) | int (v : Int)

/-- Errors. -/
inductive HErr
  /-- access through a pointer to a freed block -/
  | useAfterFree
  /-- `free` of a freed block -/
  | doubleFree
  /-- use of an uninitialised pointer -/
  | uninit
  /-- access through NULL -/
  | null
  /-- `free` of an array of the caller -/
  | caller
  /-- a number used as a pointer -/
  | type
  /-- no such handle -/
  | handle

/-- The heap: the next block identity, which blocks are allocated, and their pointer members. -/
structure Heap where
  next : Nat
  live : Nat → Bool
  cell : Nat → Fld → Cell

/-- Heap and local variables. -/
structure St where
  heap : Heap
  var : Var → Cell

/-- An lvalue: a local variable, or a member reached from a variable, such as
`myQP->kkt->kktmatrix->jc` (`fld .myQP [.kkt, .kktmatrix] .jc`). -/
inductive Place
  | var (v : Var)
  | fld (v : Var) (path : List Fld) (f : Fld)

/-- Statements that matter for the heap. -/
inductive Instr
  /-- `p = malloc(…)` -/
  | malloc (p : Place)
  /-- `p = NULL` -/
  | null (p : Place)
  /-- `p = argument` -/
  | arg (p : Place) (g : Arg)
  /-- `p = local variable` -/
  | copy (p : Place) (v : Var)
  /-- `p = number` -/
  | int (p : Place) (v : Int)
  /-- `free(p)` -/
  | free (p : Place)
  /-- access to the array or structure `p` points to -/
  | touch (p : Place)

/-- Instructions and conditional blocks. -/
inductive Stmt
  | run (i : Instr)
  /-- `if (p) { … }` -/
  | ifPtr (p : Place) (body : List Instr)
  /-- `if (p != -3) { … }` -/
  | ifNot3 (p : Place) (body : List Instr)

/-! ## Semantics -/

/-- The allocated block a pointer points to. -/
def Heap.deref (h : Heap) : Cell → Except HErr Nat
  | .ptr a => if h.live a then .ok a else .error .useAfterFree
  | .uninit => .error .uninit
  | .null => .error .null
  | .ext _ => .error .type
  | .int _ => .error .type

/-- The block reached from a pointer through members. -/
def Heap.walk (h : Heap) : Cell → List Fld → Except HErr Nat
  | c, [] => h.deref c
  | c, f :: fs => do
    let a ← h.deref c
    h.walk (h.cell a f) fs

/-- Value of an lvalue. -/
def St.get (s : St) : Place → Except HErr Cell
  | .var v => .ok (s.var v)
  | .fld v path f => do
    let a ← s.heap.walk (s.var v) path
    .ok (s.heap.cell a f)

/-- Assignment to a member of a block. -/
def Heap.put (h : Heap) (a : Nat) (f : Fld) (c : Cell) : Heap :=
  { h with cell := fun a' f' => if a' = a ∧ f' = f then c else h.cell a' f' }

/-- Assignment. -/
def St.set (s : St) (p : Place) (c : Cell) : Except HErr St :=
  match p with
  | .var v => .ok { s with var := fun v' => if v' = v then c else s.var v' }
  | .fld v path f => do
    let a ← s.heap.walk (s.var v) path
    .ok { s with heap := s.heap.put a f c }

/-- A new block, with uninitialised members. -/
def Heap.alloc (h : Heap) : Heap where
  next := h.next + 1
  live := fun a => if a = h.next then true else h.live a
  cell := fun a f => if a = h.next then .uninit else h.cell a f

/-- Release of a block. -/
def Heap.release (h : Heap) (a : Nat) : Heap :=
  { h with live := fun a' => if a' = a then false else h.live a' }

/-- `free` of a pointer value. -/
def St.free (s : St) : Cell → Except HErr St
  | .ptr a => if s.heap.live a then .ok { s with heap := s.heap.release a } else .error .doubleFree
  | .null => .ok s
  | .uninit => .error .uninit
  | .ext _ => .error .caller
  | .int _ => .error .type

/-- Access to the memory a pointer value points to. -/
def St.touch (s : St) : Cell → Except HErr St
  | .ptr a => if s.heap.live a then .ok s else .error .useAfterFree
  | .null => .error .null
  | .uninit => .error .uninit
  | .ext _ => .ok s
  | .int _ => .error .type

/-- One instruction. -/
def Instr.exec (args : Arg → Cell) (s : St) : Instr → Except HErr St
  | .malloc p => St.set { s with heap := s.heap.alloc } p (.ptr s.heap.next)
  | .null p => s.set p .null
  | .arg p g => s.set p (args g)
  | .copy p v => s.set p (s.var v)
  | .int p v => s.set p (.int v)
  | .free p => do
    let c ← s.get p
    s.free c
  | .touch p => do
    let c ← s.get p
    s.touch c

/-- A sequence of instructions. -/
def execs (args : Arg → Cell) (s : St) : List Instr → Except HErr St
  | [] => .ok s
  | i :: is => do
    let s ← i.exec args s
    execs args s is

/-- Condition `p` on a pointer value. -/
def isPtr : Cell → Except HErr Bool
  | .null => .ok false
  | .ptr _ => .ok true
  | .ext _ => .ok true
  | .uninit => .error .uninit
  | .int _ => .error .type

/-- Condition `v != -3` on a number. -/
def isNot3 : Cell → Except HErr Bool
  | .int v => .ok (decide (v ≠ -3))
  | .uninit => .error .uninit
  | .null => .error .type
  | .ptr _ => .error .type
  | .ext _ => .error .type

/-- One statement. -/
def Stmt.exec (args : Arg → Cell) (s : St) : Stmt → Except HErr St
  | .run i => i.exec args s
  | .ifPtr p body => do
    let c ← s.get p
    let t ← isPtr c
    if t then execs args s body else .ok s
  | .ifNot3 p body => do
    let c ← s.get p
    let t ← isNot3 c
    if t then execs args s body else .ok s

/-- A function body. -/
def exec (args : Arg → Cell) (s : St) : List Stmt → Except HErr St
  | [] => .ok s
  | i :: is => do
    let s ← i.exec args s
    exec args s is

/-! ## The functions -/

section

open Fld Instr

/-- Member of `myQP`. -/
abbrev qp (f : Fld) : Place := .fld .myQP [] f
/-- Member of a structure `myQP` points to. -/
abbrev sub (g f : Fld) : Place := .fld .myQP [g] f
/-- Member of `myQP->kkt->kktmatrix`. -/
abbrev km (f : Fld) : Place := .fld .myQP [kkt, kktmatrix] f

/-- How `AMD_order` (`/repo/src/amd_order.c`, lines 23-199) leaves: because of its arguments or of
the check of the matrix (lines 55, 71, 88); because the problem is too large, before its workspace
is allocated (line 79); with nothing to do (line 60); because `Len`, `Pinv` or both cannot be
allocated (line 102); because `Rp`, `Ri` or both cannot be allocated, which happens for a matrix
with unsorted columns (line 122); because `S` cannot be allocated or would be too large (line 174),
for a matrix with sorted or unsorted columns; normally (line 198). -/
inductive AmdPath
  | invalid | large | empty | noLen | noPinv | noLenPinv | noRp | noRi | noRpRi | noSSorted
  | noSJumbled | sorted | jumbled
  deriving DecidableEq

/-- Value returned. -/
def AmdPath.status : AmdPath → Int
  | invalid => -2
  | large => -1
  | empty => 0
  | noLen => -1
  | noPinv => -1
  | noLenPinv => -1
  | noRp => -1
  | noRi => -1
  | noRpRi => -1
  | noSSorted => -1
  | noSJumbled => -1
  | sorted => 0
  | jumbled => 1

/-- Workspace of `AMD_order`: lines 92-93 (98-101 if one of them fails), 109-110 (115-120) or
126-127, 153, 163, 169-172 or 192-196. A failing `malloc` returns NULL. -/
def amdOrder : AmdPath → List Instr
  | .invalid => []
  | .large => []
  | .empty => []
  | .noLen => [null (.var .Len), malloc (.var .Pinv), free (.var .Len), free (.var .Pinv)]
  | .noPinv => [malloc (.var .Len), null (.var .Pinv), free (.var .Len), free (.var .Pinv)]
  | .noLenPinv => [null (.var .Len), null (.var .Pinv), free (.var .Len), free (.var .Pinv)]
  | .noRp => [malloc (.var .Len), malloc (.var .Pinv), null (.var .Rp), malloc (.var .Ri),
      free (.var .Rp), free (.var .Ri), free (.var .Len), free (.var .Pinv)]
  | .noRi => [malloc (.var .Len), malloc (.var .Pinv), malloc (.var .Rp), null (.var .Ri),
      free (.var .Rp), free (.var .Ri), free (.var .Len), free (.var .Pinv)]
  | .noRpRi => [malloc (.var .Len), malloc (.var .Pinv), null (.var .Rp), null (.var .Ri),
      free (.var .Rp), free (.var .Ri), free (.var .Len), free (.var .Pinv)]
  | .noSSorted => [malloc (.var .Len), malloc (.var .Pinv), null (.var .Rp), null (.var .Ri),
      touch (.var .Len), null (.var .S), free (.var .Rp), free (.var .Ri), free (.var .Len),
      free (.var .Pinv)]
  | .noSJumbled => [malloc (.var .Len), malloc (.var .Pinv), malloc (.var .Rp),
      malloc (.var .Ri), touch (.var .Rp), touch (.var .Ri), touch (.var .Len), touch (.var .Pinv),
      null (.var .S), free (.var .Rp), free (.var .Ri), free (.var .Len), free (.var .Pinv)]
  | .sorted => [malloc (.var .Len), malloc (.var .Pinv), null (.var .Rp), null (.var .Ri),
      null (.var .S), malloc (.var .S), touch (.var .Len), touch (.var .Pinv), touch (.var .S),
      free (.var .Rp), free (.var .Ri), free (.var .Len), free (.var .Pinv), free (.var .S)]
  | .jumbled => [malloc (.var .Len), malloc (.var .Pinv), malloc (.var .Rp), malloc (.var .Ri),
      touch (.var .Rp), touch (.var .Ri), touch (.var .Len), touch (.var .Pinv),
      null (.var .S), malloc (.var .S), touch (.var .Len), touch (.var .Pinv), touch (.var .S),
      free (.var .Rp), free (.var .Ri), free (.var .Len), free (.var .Pinv), free (.var .S)]

/-- `SparseMatrixSetup` for one of the caller's matrices (`Auxilary.c`, lines 660-669, called on
lines 96, 107, 109 of `qpSWIFT.c`). -/
def sparseSetup (f : Fld) (gj gi gp : Arg) : List Instr :=
  [arg (sub f ir) gi, arg (sub f jc) gj, arg (sub f pr) gp]

/-- `densetosparse` and `densetosparse_ROWMAJOR`, `Auxilary.c`, lines 1154-1206 and 1219-1273. -/
def denseToSparse (f : Fld) : List Instr :=
  [malloc (.var .Ap), touch (.var .Ap), malloc (.var .Ai), malloc (.var .Ax),
    touch (.var .Ai), touch (.var .Ax), copy (sub f ir) .Ai, copy (sub f jc) .Ap,
    copy (sub f pr) .Ax]

/-- Allocation of a transpose and `SparseMatrixTranspose`: `qpSWIFT.c`, lines 117-123 and 125-130,
`Auxilary.c`, lines 901-951. -/
def transposeOf (f ft : Fld) : List Instr :=
  [malloc (qp ft), malloc (sub ft jc), malloc (sub ft ir), malloc (sub ft pr),
    malloc (.var .count), touch (sub f jc), touch (sub f ir), touch (sub f pr),
    touch (sub ft jc), touch (sub ft ir), touch (sub ft pr), touch (.var .count),
    free (.var .count)]

/-- Configuration of a call of a setup function: which of the two, whether there are equality
constraints, whether a permutation was given, and what the ordering does if not. -/
structure Cfg where
  dense : Bool
  hasA : Bool
  perm : Bool
  amd : AmdPath
  deriving DecidableEq

/-- `ldlinitialsolve` with `Transpose_Row_Count`, `Auxilary.c`, lines 578-625 and 683-732. -/
def ldlInitial : List Instr :=
  [malloc (sub kkt Y), malloc (sub kkt D), malloc (sub kkt Lp), malloc (sub kkt Parent),
    malloc (sub kkt Pattern), malloc (sub kkt Flag), malloc (sub kkt Lnz),
    touch (km jc), touch (km ir), touch (sub kkt P), touch (sub kkt Pinv),
    malloc (sub kkt Li), malloc (sub kkt Lx), touch (km pr), touch (sub kkt Li),
    touch (sub kkt Lx), malloc (sub kkt Lti), malloc (sub kkt Ltp),
    malloc (.var .count), touch (.var .count), touch (sub kkt Lti), touch (sub kkt Ltp),
    free (.var .count), touch (qp delta), touch (sub kkt b), touch (sub kkt D)]

/-- `QP_SETUP` (lines 60-234) and `QP_SETUP_dense` (lines 260-456). The two differ in the way the
matrices are stored. -/
def setup (g : Cfg) : List Stmt :=
  let mat (f : Fld) (gj gi gp : Arg) : List Instr :=
    if g.dense then denseToSparse f else sparseSetup f gj gi gp
  -- lines 66-87, 268-284
  ([malloc (.var .myQP), malloc (qp options), touch (qp options), malloc (qp stats),
    touch (qp stats)]
  -- lines 91-104, 292-312
  ++ (if g.hasA then [malloc (qp A), arg (qp b) .b] ++ mat A .Ajc .Air .Apr
      else [null (qp A), null (qp At), null (qp b)])
  -- lines 106-112, 314-335
  ++ [malloc (qp P)] ++ mat P .Pjc .Pir .Ppr ++ [malloc (qp G)] ++ mat G .Gjc .Gir .Gpr
  ++ [arg (qp c) .c, arg (qp h) .h]).map .run
  -- lines 115-131, 337-353
  ++ [.ifPtr (qp A) (transposeOf A At)] ++ (transposeOf G Gt).map .run
  -- lines 133-162, 355-384
  ++ [.run (malloc (qp x)), .ifPtr (qp A) [malloc (qp y)], .run (malloc (qp z)),
    .run (malloc (qp s)), .run (malloc (qp rx)), .ifPtr (qp A) [malloc (qp ry)],
    .run (malloc (qp rz)), .run (malloc (qp delta)), .run (malloc (qp delta_x)),
    .ifPtr (qp A) [malloc (qp delta_y)], .run (malloc (qp delta_z)), .run (malloc (qp delta_s)),
    .run (malloc (qp ds)), .run (malloc (qp lambda)), .run (malloc (qp temp))]
  -- lines 164-192, 386-414
  ++ [.run (malloc (qp kkt)), .run (malloc (sub kkt kktmatrix)), .run (malloc (km jc)),
    .run (malloc (km pr)), .run (malloc (km ir)),
    .run (touch (sub P jc)), .run (touch (sub P ir)), .run (touch (sub P pr)),
    .run (touch (sub Gt jc)), .run (touch (km jc)), .run (touch (km ir)), .run (touch (km pr)),
    .ifPtr (qp A) [touch (sub At jc), touch (sub At ir), touch (sub At pr), touch (sub A jc)],
    .run (malloc (sub kkt b))]
  -- lines 194-219, 416-441
  ++ (if g.perm then [arg (sub kkt P) .Permut, int (sub stats AMD_RESULT) (-3)]
      else [malloc (sub kkt P)] ++ amdOrder g.amd ++ [int (sub stats AMD_RESULT) g.amd.status,
        touch (sub kkt P)]).map .run
  -- lines 221-234, 443-456, `kkt_initialize` (`Auxilary.c`, lines 992-1089)
  ++ ([malloc (sub kkt Pinv), malloc (sub kkt UPattern), malloc (.var .z_inter),
    touch (.var .z_inter), touch (qp c), touch (qp h)] ++ ldlInitial
    ++ [touch (qp x), touch (qp s), touch (qp z), touch (sub G pr), free (.var .z_inter)]).map .run

/-- Members of `myQP` and `myQP->kkt` that `QP_SOLVE` (lines 473-644) and the functions it calls
access. Nothing is allocated or freed. -/
def solve : List Stmt :=
  ([options, stats, x, z, s, rx, rz, delta, delta_x, delta_z, delta_s, ds, lambda, temp, c, h, P,
    G, Gt, kkt].map (fun f => touch (qp f))
  ++ [P, G, Gt].flatMap (fun f => [touch (sub f jc), touch (sub f ir), touch (sub f pr)])
  ++ [kktmatrix, b, P, Pinv, Lp, Parent, Lnz, Li, Lx, D, Y, Pattern, Flag, UPattern].map
    (fun f => touch (sub kkt f))
  ++ [touch (km jc), touch (km ir), touch (km pr)]).map .run
  ++ [.ifPtr (qp A) ([touch (qp y), touch (qp ry), touch (qp delta_y), touch (qp b)]
    ++ [A, At].flatMap (fun f => [touch (sub f jc), touch (sub f ir), touch (sub f pr)]))]

/-- `QP_CLEANUP` (lines 661-737) and `QP_CLEANUP_dense` (lines 754-839), which differ in the
release of the arrays of `P`, `G`, `A`. -/
def cleanup (dense : Bool) : List Stmt :=
  let arrays (f : Fld) : List Instr :=
    if dense then [free (sub f pr), free (sub f jc), free (sub f ir)] else []
  ([x, z, s, delta, delta_x, delta_z, delta_s, rx, rz, ds, lambda, temp].map
    (fun f => free (qp f))
  ++ arrays P ++ [free (qp P)] ++ arrays G ++ [free (qp G)]).map .run
  ++ [.ifPtr (qp A) (arrays A ++ [free (qp A), free (sub At ir), free (sub At jc),
    free (sub At pr), free (qp At), free (qp y), free (qp delta_y), free (qp ry)])]
  ++ ([free (sub Gt ir), free (sub Gt jc), free (sub Gt pr), free (qp Gt),
    free (km ir), free (km jc), free (km pr), free (sub kkt kktmatrix)]
  ++ [b, Parent, Flag, Lnz, Li, Lp, Lti, Ltp, Pattern, UPattern, Y, Lx, D, Pinv].map
    (fun f => free (sub kkt f))).map .run
  ++ [.ifNot3 (sub stats AMD_RESULT) [free (sub kkt P)]]
  ++ ([free (qp kkt), free (qp options), free (qp stats), free (.var .myQP)]).map .run

end

end Verif.Mem
