import Verif.Props.AmdMinDeg

/-!
# Exact degrees (C93)
-/

namespace Verif

open Finset

/-- **C93.** On a graph without dense nodes, the approximate degree of a waiting group that is adjacent to at
most two elements is its number of external neighbours. -/
theorem C93_exact_degree {N : Nat} {adj : Nat → Nat → Prop} {deg : Nat → Nat} {limit : Int} {tr : List Amd2}
    (h : MinDegreeRun N adj deg limit tr) (hd : ∀ u, u < N → (deg u : Int) ≤ limit) {s : Amd2} (hs : s ∈ tr)
    {x e : Int} (hx : Waiting s x) (he : rd s.Elen x = .ok e) (h2 : e ≤ 2) :
    ∃ F : Finset Nat, (∀ v, v ∈ F ↔ v < N ∧ ExternalNeighbour N adj s x v) ∧ rd s.Degree x = .ok (F.card : Int) := by
  classical
  refine ⟨_, fun v => ?_, (h.states s hs).exact (fun u hu => ?_) x e hx he h2⟩
  · rw [mem_filter, mem_range]
  · have := hd u hu
    omega

/-- **C93.** The group that a step eliminates has no more external neighbours than any waiting group that is
adjacent to at most two elements. -/
theorem C93_true_minimum {N : Nat} {adj : Nat → Nat → Prop} {deg : Nat → Nat} {limit : Int} {tr : List Amd2}
    (h : MinDegreeRun N adj deg limit tr) (hd : ∀ u, u < N → (deg u : Int) ≤ limit) {i : Nat} {s s' : Amd2}
    (h1 : tr[i]? = some s) (h2 : tr[i + 1]? = some s') :
    ∃ x, Waiting s x ∧ Eliminated s' x ∧ ∀ y e, Waiting s y → rd s.Elen y = .ok e → e ≤ 2 →
      ∀ F G : Finset Nat, (∀ v ∈ F, v < N ∧ ExternalNeighbour N adj s x v) →
        (∀ v, v < N → ExternalNeighbour N adj s y v → v ∈ G) → F.card ≤ G.card := by
  obtain ⟨x, d, a1, a2, a3, a4, a5⟩ := C92_step h h1 h2
  refine ⟨x, a1, a2, fun y e hy he h2 F G hF hG => ?_⟩
  obtain ⟨d', b1, b2⟩ := a5 y hy
  obtain ⟨F', c1, c2⟩ := C93_exact_degree h hd (List.mem_of_getElem? h1) hy he h2
  have e1 := Except.ok.inj (b1.symm.trans c2)
  have e2 := a4 F hF
  have e3 : F'.card ≤ G.card := card_le_card fun v hv => hG v ((c1 v).mp hv).1 ((c1 v).mp hv).2
  omega

/-- **C93.** Each of the first three steps eliminates a group with the least number of external neighbours of
all waiting groups. -/
theorem C93_first_steps {N : Nat} {adj : Nat → Nat → Prop} {deg : Nat → Nat} {limit : Int} {tr : List Amd2}
    (h : MinDegreeRun N adj deg limit tr) (hd : ∀ u, u < N → (deg u : Int) ≤ limit) {i : Nat} (hi : i < 3)
    {s s' : Amd2} (h1 : tr[i]? = some s) (h2 : tr[i + 1]? = some s') :
    ∃ x, Waiting s x ∧ Eliminated s' x ∧ ∀ y, Waiting s y →
      ∀ F G : Finset Nat, (∀ v ∈ F, v < N ∧ ExternalNeighbour N adj s x v) →
        (∀ v, v < N → ExternalNeighbour N adj s y v → v ∈ G) → F.card ≤ G.card := by
  obtain ⟨x, a1, a2, a3⟩ := C93_true_minimum h hd h1 h2
  refine ⟨x, a1, a2, fun y hy => ?_⟩
  obtain ⟨v, e, q1, q2, q3, q4⟩ := id hy
  have := h.elems i s y e h1 hy q3
  exact a3 y e hy q3 (by omega)

/-- **C93.** On every well-formed square pattern without dense nodes the ordering routine, unless it runs
out of memory, keeps exact degrees for the waiting groups that are adjacent to at most two elements, and
its first three pivots have the least number of external neighbours. -/
theorem C93_order (mem : AmdMem) (dense : Int → Int) (aggressive : Bool) {N : Nat} {A : Csc Unit}
    (hA : A.WF) (hn : A.n = N) (hm : A.m = N) {Ap Ai P : Buf Int}
    (hp : Buf.Has Ap (N + 1) (fun i => (A.jc i : Int)))
    (hi : Buf.Has Ai A.nnz (fun k => (A.ir k : Int))) (hP : P.length = N)
    (hd : ∀ u, u < N → (A.degree u : Int) ≤ min (N : Int) (max 16 (dense N))) :
    ∃ st P' tr, AMD_orderT mem dense aggressive N Ap Ai P = .ok ((st, P'), tr) ∧
      AMD_order mem dense aggressive N Ap Ai P = .ok (st, P') ∧
      ((N = 0 ∨ st = AMD_OUT_OF_MEMORY) ∧ tr = none ∨ ∃ t, tr = some t ∧
        (∀ s ∈ t, ∀ x e, Waiting s x → rd s.Elen x = .ok e → e ≤ 2 → ∃ F : Finset Nat,
          (∀ v, v ∈ F ↔ v < N ∧ ExternalNeighbour N A.Edge s x v) ∧ rd s.Degree x = .ok (F.card : Int)) ∧
        ∀ (i : Nat) s s', i < 3 → t[i]? = some s → t[i + 1]? = some s' →
          ∃ x, Waiting s x ∧ Eliminated s' x ∧ ∀ y, Waiting s y →
            ∀ F G : Finset Nat, (∀ v ∈ F, v < N ∧ ExternalNeighbour N A.Edge s x v) →
              (∀ v, v < N → ExternalNeighbour N A.Edge s y v → v ∈ G) → F.card ≤ G.card) := by
  obtain ⟨st, P', tr, h1, h2, h3⟩ := C92_min_degree mem dense aggressive hA hn hm hp hi hP
  refine ⟨st, P', tr, h1, h2, h3.imp id ?_⟩
  rintro ⟨t, ht, hr⟩
  exact ⟨t, ht, fun s hs x e hx he h' => C93_exact_degree hr hd hs hx he h',
    fun i s s' hi h1 h2 => C93_first_steps hr hd hi h1 h2⟩

/-- C93 for the pattern of `jumbledDemo`, whose node 2 is joined to 0 and to 1: no node is dense, there are
steps, and the first one eliminates a group with at most one external neighbour. -/
example : ∃ P' t s s' x, AMD_orderT ⟨true, true, true, true, true⟩ (fun _ => 10) true 3
      (Buf.ofFn 4 (fun i => (jumbledDemo.jc i : Int))) (Buf.ofFn 6 (fun k => (jumbledDemo.ir k : Int))) (malloc 3)
      = .ok ((AMD_OK_BUT_JUMBLED, P'), some t) ∧ t[0]? = some s ∧ t[1]? = some s' ∧
      Waiting s x ∧ Eliminated s' x ∧
      ∀ F : Finset Nat, (∀ v ∈ F, v < 3 ∧ ExternalNeighbour 3 jumbledDemo.Edge s x v) → F.card ≤ 1 := by
  classical
  obtain ⟨st, P', tr, h1, h2, h3⟩ := C92_min_degree (N := 3) ⟨true, true, true, true, true⟩ (fun _ => 10) true
    jumbledDemo_wf rfl rfl (Buf.has_ofFn 4 _) (Buf.has_ofFn 6 _) (P := malloc 3) rfl
  obtain ⟨P'', t', h4, -⟩ := demo_orderI
  have h5 := AMD_orderI_eq h4
  have e := h5.symm.trans h2
  rw [Except.ok.injEq, Prod.mk.injEq] at e
  obtain ⟨rfl, rfl⟩ := e
  rcases h3 with ⟨h | h, -⟩ | ⟨t, rfl, hr⟩
  · cases h
  · exact absurd h (by decide)
  have hdeg : ∀ u, u < 3 → (jumbledDemo.degree u : Int) ≤ min ((3 : Nat) : Int) (max 16 10) := by
    intro u hu
    rw [jumbledDemo_degree hu]
    interval_cases u <;> decide
  have d0 : jumbledDemo.degree 0 = 1 := (jumbledDemo_degree (by decide)).trans (by decide)
  obtain ⟨s, hs, hu⟩ := hr.start
  obtain ⟨s9, hs9, hw9⟩ := hr.stop
  have w0 : Waiting s 0 := (hu 0 (by decide)).1.mpr (by rw [d0]; decide)
  match t, hs, hs9, hr with
  | [], hs, _, _ => cases hs
  | [a], hs, hs9, _ =>
    cases hs
    cases hs9
    exact absurd w0 (hw9 0)
  | a :: b :: t, hs, _, hr =>
    cases hs
    obtain ⟨x, a1, a2, a3⟩ := C93_first_steps hr hdeg (i := 0) (by decide) rfl rfl
    refine ⟨P'', _, _, b, x, h1, rfl, rfl, a1, a2, fun F hF => ?_⟩
    obtain ⟨v, e, q1, q2, q3, q4⟩ := id w0
    have e0 := hr.elems 0 _ 0 e rfl w0 q3
    obtain ⟨G, c1, c2⟩ := C93_exact_degree hr hdeg (List.mem_cons_self) w0 q3 (by omega)
    have c3 := (hu 0 (by decide)).2.2
    have e1 := Except.ok.inj (c2.symm.trans c3)
    rw [d0] at e1
    have := a3 0 w0 F G hF fun v hv hn => (c1 v).mpr ⟨hv, hn⟩
    omega

end Verif
