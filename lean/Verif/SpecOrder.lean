import Mathlib.Data.Finset.Card
import Mathlib.Data.List.Chain
import Mathlib.Order.Interval.Finset.Nat
import Verif.Model.Amd

/-!
# What a state of the ordering routine says about the graph

The routine keeps groups of nodes that will be numbered together. `Nv` of the first node of a group,
its leader, is positive; for the other nodes it is zero and `Pe` leads to the leader. A group is waiting
as long as `Elen` of its leader is not negative; then it has been eliminated.
-/

namespace Verif

open Finset

/-- `x` is the leader of the group of `z`. -/
inductive InGroup (s : Amd2) : Int → Int → Prop
  | self {x v : Int} : rd s.Nv x = .ok v → 0 < v → InGroup s x x
  | up {z p x : Int} : rd s.Nv z = .ok 0 → rd s.Pe z = .ok p → p ≠ EMPTY → InGroup s (FLIP p) x → InGroup s z x

/-- `x` is the leader of a group that has not been eliminated. -/
def Waiting (s : Amd2) (x : Int) : Prop :=
  ∃ v e, rd s.Nv x = .ok v ∧ 0 < v ∧ rd s.Elen x = .ok e ∧ 0 ≤ e

/-- `x` is the leader of a group that has been eliminated. -/
def Eliminated (s : Amd2) (x : Int) : Prop :=
  ∃ v e, rd s.Nv x = .ok v ∧ 0 < v ∧ rd s.Elen x = .ok e ∧ e < 0

/-- Node `w` is in a group that has been eliminated. -/
def Gone (s : Amd2) (w : Nat) : Prop := ∃ x, InGroup s w x ∧ Eliminated s x

/-- There is a path from `u` to `v` whose inner nodes are in `S`. -/
inductive ReachThru {α : Type} (adj : α → α → Prop) (S : α → Prop) : α → α → Prop
  | edge {u v : α} : adj u v → ReachThru adj S u v
  | step {u w v : α} : adj u w → S w → ReachThru adj S w v → ReachThru adj S u v

/-- Node `v` is in a waiting group other than that of `x` and is a neighbour of that group once the
eliminated nodes are removed: a path through eliminated nodes joins it to a node of the group. -/
def ExternalNeighbour (N : Nat) (adj : Nat → Nat → Prop) (s : Amd2) (x : Int) (v : Nat) : Prop :=
  (∃ y, InGroup s v y ∧ Waiting s y ∧ y ≠ x) ∧ ∃ u, u < N ∧ InGroup s u x ∧
    ReachThru adj (fun w => w < N ∧ Gone s w) u v

open Classical in
/-- The groups of a state: every node that is not dense is in exactly one group, dense nodes in none;
`Nv` of a leader is the size of its group; `Degree` of a waiting group is at least its number of
external neighbours. It is that number if no node is dense and the group is adjacent to at most two
elements: `Elen` of the leader is the length of its list of elements. -/
structure GroupsOk (N : Nat) (adj : Nat → Nat → Prop) (dense : Nat → Prop) (s : Amd2) : Prop where
  group : ∀ u, u < N → ((∃ x, InGroup s u x) ↔ ¬ dense u)
  one : ∀ u x y, InGroup s u x → InGroup s u y → x = y
  size : ∀ x v, rd s.Nv x = .ok v → v = ((range N).filter (fun u : Nat => InGroup s u x)).card
  state : ∀ x v, rd s.Nv x = .ok v → 0 < v → Waiting s x ∨ Eliminated s x
  upper : ∀ x, Waiting s x → ∃ d, rd s.Degree x = .ok d ∧
    (((range N).filter (ExternalNeighbour N adj s x)).card : Int) ≤ d
  exact : (∀ u, u < N → ¬ dense u) → ∀ x e, Waiting s x → rd s.Elen x = .ok e → e ≤ 2 →
    rd s.Degree x = .ok (((range N).filter (ExternalNeighbour N adj s x)).card : Int)

/-- From `s` to `s'` one waiting group is eliminated; it is one of those with the smallest degree. -/
def PivotStep (s s' : Amd2) : Prop :=
  ∃ x d, Waiting s x ∧ Eliminated s' x ∧ rd s.Degree x = .ok d ∧
    (∀ y, Eliminated s y → Eliminated s' y) ∧
    ∀ y, Waiting s y → (Eliminated s' y → y = x) ∧ ∃ d', rd s.Degree y = .ok d' ∧ d ≤ d'

/-- `tr` is a run of minimum degree elimination on a graph with `N` nodes, where `deg u` is the number of
neighbours of `u` and the nodes with more than `limit` neighbours are left out. At first every other node
is a group, with its exact degree; the nodes without neighbours are eliminated at once, the others are
waiting. Every state has valid groups and degrees, every step eliminates a group of smallest degree, and
at the end no group is waiting. After `i` steps a waiting group is adjacent to at most `i` elements. -/
structure MinDegreeRun (N : Nat) (adj : Nat → Nat → Prop) (deg : Nat → Nat) (limit : Int) (tr : List Amd2) :
    Prop where
  start : ∃ s, tr.head? = some s ∧ ∀ u, u < N →
    (Waiting s u ↔ 0 < deg u ∧ (deg u : Int) ≤ limit) ∧
    (InGroup s u u ↔ (deg u : Int) ≤ limit) ∧ rd s.Degree u = .ok (deg u : Int)
  states : ∀ s ∈ tr, GroupsOk N adj (fun u => limit < deg u) s
  steps : tr.IsChain PivotStep
  stop : ∃ s, tr.getLast? = some s ∧ ∀ x, ¬ Waiting s x
  elems : ∀ (i : Nat) s x e, tr[i]? = some s → Waiting s x → rd s.Elen x = .ok e → e ≤ i

end Verif
