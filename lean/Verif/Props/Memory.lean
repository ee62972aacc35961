import Verif.Lemmas.HeapWorld

/-!
# Memory: setup and cleanup balance

A program uses the library: it allocates arrays, sets up problems of both kinds with pointers to
its arrays, solves and cleans up, in any order and interleaving.
-/

namespace Verif.Mem

theorem setup_small (g : Cfg) : ∃ s, exec Cell.ext ⟨World.start.heap, fun _ => .uninit⟩ (setup g)
    = .ok s ∧ s.heap = small g ∧ s.var .myQP = .ptr 0 ∧ 0 < (small g).next ∧
      (small g).live 0 = true := by
  have h := (small_checks g).1
  unfold okSetup at h
  unfold small
  cases e : exec Cell.ext ⟨World.start.heap, fun _ => .uninit⟩ (setup g) with
  | error x => rw [e] at h; exact absurd h (by simp)
  | ok s =>
    rw [e] at h
    simp only [Bool.and_eq_true, decide_eq_true_eq] at h
    refine ⟨s, rfl, rfl, ?_, h.1.2, h.2⟩
    have h1 := h.1.1
    split at h1
    · assumption
    · exact absurd h1 (by simp)

theorem solve_small (g : Cfg) : ∃ s, exec Cell.ext (entry (small g) 0) solve = .ok s := by
  have h := (small_checks g).2.1
  unfold okSolve at h
  split at h
  · exact ⟨_, by assumption⟩
  · exact absurd h (by simp)

theorem cleanup_small (g : Cfg) : ∃ s, exec Cell.ext (entry (small g) 0) (cleanup g.dense) = .ok s ∧
    s.heap.next = (small g).next ∧ ∀ a, a < (small g).next → s.heap.live a = false := by
  have h := (small_checks g).2.2.1
  unfold okCleanup at h
  split at h
  · rename_i s e
    simp only [Bool.and_eq_true, decide_eq_true_eq, List.all_eq_true, List.mem_range,
      Bool.not_eq_true'] at h
    exact ⟨s, e, h.1, fun a ha => h.2 a (by rw [h.1]; exact ha)⟩
  · exact absurd h (by simp)

theorem args_small {dense pZero : Bool} {amd : AmdPath} {args : Arg → Option Nat}
    {w : World} (hl : w.Legal (.setup dense pZero amd args)) :
    ∀ g ∈ (setup (cfgOf dense pZero amd args)).flatMap Stmt.args,
      ∃ b, argCell args g = .ptr b ∧ b ∈ w.caller := by
  intro g hg
  obtain ⟨h1, h2, h3⟩ := hl
  have hs : (args g).isSome = true := by
    have h := (small_checks (cfgOf dense pZero amd args)).2.2.2
    unfold okArgs at h
    rw [List.all_eq_true] at h
    have := h g hg
    simp only [Bool.or_eq_true, Bool.and_eq_true, decide_eq_true_eq, Bool.not_eq_true'] at this
    rcases this with (((h4 | h4) | h4) | h4) | h4
    · exact h2 g h4
    · exact h3 h4.1 g h4.2
    · have ha := h4.1
      simp only [cfgOf, Bool.and_eq_true] at ha
      have hm := h4.2
      simp only [List.mem_cons, List.not_mem_nil, or_false] at hm
      cases dense <;> simp only [Bool.and_eq_true, if_true, Bool.false_eq_true, if_false] at ha <;>
        rcases hm with rfl | rfl <;> simp_all
    · have ha := h4.1.1
      have hd : dense = false := h4.1.2
      have hm := h4.2
      subst hd
      simp only [cfgOf, Bool.and_eq_true, Bool.false_eq_true, if_false] at ha
      simp only [List.mem_cons, List.not_mem_nil, or_false] at hm
      rcases hm with rfl | rfl <;> simp_all
    · rw [h4.2]; exact h4.1
  obtain ⟨b, hb⟩ := Option.isSome_iff_exists.mp hs
  exact ⟨b, by simp [argCell, hb], h1 g b hb⟩

/-! ## Invariant -/

/-- The problem `i` is in use. -/
def World.Open (w : World) (i : Nat) : Prop := ∃ hd, w.handles[i]? = some hd ∧ hd.open_ = true

/-- Every open problem has its own copy of the blocks setup allocates in isolation, and these
blocks and the arrays of the program are all there is. -/
structure World.Inv (w : World) (g : Nat → Cfg) (ρ : Nat → Nat → Nat) : Prop where
  wf : ∀ a, w.heap.live a = true → a < w.heap.next
  caller : ∀ b ∈ w.caller, w.heap.live b = true
  rel : ∀ i, w.Open i → HRel (ρ i) (· ∈ w.caller) (small (g i)) w.heap
  root : ∀ i hd, w.handles[i]? = some hd → hd.open_ = true →
    hd.root = ρ i 0 ∧ hd.dense = (g i).dense
  disj : ∀ i j, w.Open i → w.Open j → i ≠ j → ∀ a b, a < (small (g i)).next →
    b < (small (g j)).next → ρ i a ≠ ρ j b
  cover : ∀ b, w.heap.live b = true → b ∈ w.caller ∨
    ∃ i a, w.Open i ∧ a < (small (g i)).next ∧ ρ i a = b

/-- Steps that only look at memory. -/
def Instr.pure : Instr → Bool
  | .touch _ => true
  | _ => false

theorem Instr.exec_pure {args : Arg → Cell} {s s' : St} {i : Instr} (hp : i.pure = true)
    (e : i.exec args s = .ok s') : s' = s := by
  cases i with
  | touch p =>
    simp only [Instr.exec] at e
    cases h1 : s.get p with
    | error x => rw [h1] at e; exact absurd e (by simp [bind, Except.bind])
    | ok c =>
      rw [h1] at e
      change s.touch c = .ok s' at e
      unfold St.touch at e
      split at e
      · split at e
        · cases e; rfl
        · exact absurd e (by simp)
      · exact absurd e (by simp)
      · exact absurd e (by simp)
      · cases e; rfl
      · exact absurd e (by simp)
  | _ => exact absurd hp (by simp [Instr.pure])

theorem execs_pure {args : Arg → Cell} {s s' : St} (is : List Instr)
    (hp : is.all Instr.pure = true) (e : execs args s is = .ok s') : s' = s := by
  induction is generalizing s with
  | nil => cases e; rfl
  | cons i is ih =>
    simp only [List.all_cons, Bool.and_eq_true] at hp
    simp only [execs] at e
    cases h1 : i.exec args s with
    | error x => rw [h1] at e; exact absurd e (by simp [bind, Except.bind])
    | ok s1 =>
      rw [h1] at e
      rw [Instr.exec_pure hp.1 h1] at e
      exact ih hp.2 e

/-- Statements that only look at memory. -/
def Stmt.pure : Stmt → Bool
  | .run i => i.pure
  | .ifPtr _ b => b.all Instr.pure
  | .ifNot3 _ b => b.all Instr.pure

theorem Stmt.exec_pure {args : Arg → Cell} {s s' : St} {i : Stmt} (hp : i.pure = true)
    (e : i.exec args s = .ok s') : s' = s := by
  cases i with
  | run i => exact Instr.exec_pure hp e
  | ifPtr p body =>
    simp only [Stmt.exec, bind, Except.bind] at e
    split at e
    · exact absurd e (by simp)
    · split at e
      · exact absurd e (by simp)
      · split at e
        · exact execs_pure body hp e
        · cases e; rfl
  | ifNot3 p body =>
    simp only [Stmt.exec, bind, Except.bind] at e
    split at e
    · exact absurd e (by simp)
    · split at e
      · exact absurd e (by simp)
      · split at e
        · exact execs_pure body hp e
        · cases e; rfl

theorem exec_pure {args : Arg → Cell} {s s' : St} (is : List Stmt)
    (hp : is.all Stmt.pure = true) (e : exec args s is = .ok s') : s' = s := by
  induction is generalizing s with
  | nil => cases e; rfl
  | cons i is ih =>
    simp only [List.all_cons, Bool.and_eq_true] at hp
    simp only [exec] at e
    cases h1 : i.exec args s with
    | error x => rw [h1] at e; exact absurd e (by simp [bind, Except.bind])
    | ok s1 =>
      rw [h1] at e
      rw [Stmt.exec_pure hp.1 h1] at e
      exact ih hp.2 e

theorem entry_rel {ρ : Nat → Nat} {E : Nat → Prop} {σ h : Heap} (r : HRel ρ E σ h)
    (h0 : 0 < σ.next) : SRel ρ E (entry σ 0) (entry h (ρ 0)) := by
  refine ⟨r, fun v => ?_⟩
  dsimp only [entry]
  split
  · exact .ptr 0 h0
  · exact .uninit

/-- The blocks of a problem stay as they are when others are changed. -/
theorem HRel.frame {ρ : Nat → Nat} {E : Nat → Prop} {σ h h' : Heap} (r : HRel ρ E σ h)
    (hn : h.next ≤ h'.next) (wf : ∀ a, h'.live a = true → a < h'.next)
    (hE : ∀ b, E b → h'.live b = true)
    (hf : ∀ a, a < σ.next → h'.live (ρ a) = h.live (ρ a) ∧ ∀ f, h'.cell (ρ a) f = h.cell (ρ a) f) :
    HRel ρ E σ h' where
  lt a ha := Nat.lt_of_lt_of_le (r.lt a ha) hn
  inj := r.inj
  live a ha := (hf a ha).1.trans (r.live a ha)
  cell a f ha := by rw [(hf a ha).2 f]; exact r.cell a f ha
  wf := wf
  ext := hE
  extOut := r.extOut
  smallWf := r.smallWf

/-- More arrays of the caller. -/
theorem CRel.weaken {n : Nat} {ρ : Nat → Nat} {E E' : Nat → Prop} {c d : Cell}
    (h : CRel n ρ E c d) (hE : ∀ b, E b → E' b) : CRel n ρ E' c d := by
  cases h with
  | uninit => exact .uninit
  | null => exact .null
  | ptr a ha => exact .ptr a ha
  | ext g b hb => exact .ext g b (hE b hb)
  | int v => exact .int v

theorem start_inv (g : Nat → Cfg) (ρ : Nat → Nat → Nat) : World.start.Inv g ρ where
  wf a h := absurd h (by simp [World.start])
  caller b hb := absurd hb (by simp [World.start])
  rel i h := by obtain ⟨hd, h1, _⟩ := h; exact absurd h1 (by simp [World.start])
  root i hd h1 _ := absurd h1 (by simp [World.start])
  disj i j h := by obtain ⟨hd, h1, _⟩ := h; exact absurd h1 (by simp [World.start])
  cover b h := absurd h (by simp [World.start])

variable {w w' : World} {g : Nat → Cfg} {ρ : Nat → Nat → Nat}

theorem array_inv (I : w.Inv g ρ) :
    ∃ w', w.step .array = .ok w' ∧ w'.Inv g ρ ∧ w'.caller = w.heap.next :: w.caller := by
  refine ⟨_, rfl, ⟨?_, ?_, ?_, I.root, I.disj, ?_⟩, rfl⟩
  · intro a ha
    dsimp only [Heap.alloc] at ha ⊢
    split at ha
    · omega
    · have := I.wf a ha; omega
  · intro b hb
    dsimp only [Heap.alloc]
    split
    · rfl
    · rename_i hne
      exact I.caller b ((List.mem_cons.mp hb).resolve_left hne)
  · intro i hi
    have r := I.rel i hi
    refine ⟨?_, r.inj, ?_, ?_, ?_, ?_, ?_, r.smallWf⟩
    · intro a ha
      have := r.lt a ha
      dsimp only [Heap.alloc]; omega
    · intro a ha
      have := r.lt a ha
      dsimp only [Heap.alloc]
      rw [if_neg (by omega)]
      exact r.live a ha
    · intro a f ha
      have := r.lt a ha
      dsimp only [Heap.alloc]
      rw [if_neg (by omega)]
      exact (r.cell a f ha).weaken (fun b hb => List.mem_cons_of_mem _ hb)
    · intro a ha
      dsimp only [Heap.alloc] at ha ⊢
      split at ha
      · omega
      · have := I.wf a ha; omega
    · intro b hb
      dsimp only [Heap.alloc]
      split
      · rfl
      · rename_i hne
        exact I.caller b ((List.mem_cons.mp hb).resolve_left hne)
    · intro b hb a ha
      rcases List.mem_cons.mp hb with h1 | h1
      · have := r.lt a ha
        omega
      · exact r.extOut b h1 a ha
  · intro b hb
    dsimp only [Heap.alloc] at hb
    split at hb
    · rename_i he
      exact .inl (by rw [he]; exact List.mem_cons_self)
    · rcases I.cover b hb with h1 | h1
      · exact .inl (List.mem_cons_of_mem _ h1)
      · exact .inr h1

theorem open_append {hs : List Handle} {hd : Handle} {h h' : Heap} {cl : List Nat} {i : Nat}
    (hi : i < hs.length) :
    (World.mk h' (hs ++ [hd]) cl).Open i ↔ (World.mk h hs cl).Open i := by
  unfold World.Open
  dsimp only
  rw [List.getElem?_append_left hi]

theorem setup_inv (I : w.Inv g ρ) {dense pZero : Bool} {amd : AmdPath} {args : Arg → Option Nat}
    (hl : w.Legal (.setup dense pZero amd args)) :
    ∃ w' g' ρ', w.step (.setup dense pZero amd args) = .ok w' ∧ w'.Inv g' ρ' ∧
      w'.caller = w.caller ∧ (∃ r, w'.handles = w.handles ++ [⟨r, dense, true⟩]) ∧
      w.heap.next ≤ w'.heap.next ∧
      (∀ b, b < w.heap.next → w'.heap.live b = w.heap.live b) ∧
      (∀ b, w.heap.next ≤ b → w'.heap.live b = true → ∃ a,
        a < (small (g' w.handles.length)).next ∧ ρ' w.handles.length a = b) ∧
      (∀ a, a < (small (g' w.handles.length)).next → w.heap.next ≤ ρ' w.handles.length a) := by
  obtain ⟨s, e, hs, hr, h0, _⟩ := setup_small (cfgOf dense pZero amd args)
  have r0 : SRel (fun a => a) (· ∈ w.caller) ⟨World.start.heap, fun _ => .uninit⟩
      ⟨w.heap, fun _ => .uninit⟩ := by
    refine ⟨⟨?_, ?_, ?_, ?_, I.wf, I.caller, ?_, ?_⟩, fun _ => .uninit⟩
    · intro a ha; exact absurd ha (by simp [World.start])
    · intro a b ha; exact absurd ha (by simp [World.start])
    · intro a ha; exact absurd ha (by simp [World.start])
    · intro a f ha; exact absurd ha (by simp [World.start])
    · intro b _ a ha; exact absurd ha (by simp [World.start])
    · intro a ha; exact absurd ha (by simp [World.start])
  obtain ⟨t, ρn, e', r', gr⟩ := exec_sim (setup (cfgOf dense pZero amd args)) r0
    (args := argCell args) (args_small hl) e
  have hv := r'.var .myQP
  rw [hr] at hv
  have hv' : t.var .myQP = .ptr (ρn 0) := by
    generalize t.var Var.myQP = d at hv
    cases hv; rfl
  have R : HRel ρn (· ∈ w.caller) (small (cfgOf dense pZero amd args)) t.heap := by
    rw [← hs]; exact r'.heap
  rw [hs] at gr
  have hframe : ∀ b, b < w.heap.next → t.heap.live b = w.heap.live b ∧
      ∀ f, t.heap.cell b f = w.heap.cell b f :=
    fun b hb => gr.frame b hb (fun a ha => absurd ha (by simp [World.start]))
  let N := w.handles.length
  refine ⟨⟨t.heap, w.handles ++ [⟨ρn 0, dense, true⟩], w.caller⟩,
    fun i => if i = N then cfgOf dense pZero amd args else g i,
    fun i => if i = N then ρn else ρ i, ?_, ?_, rfl, ⟨_, rfl⟩, gr.leH,
    fun b hb => (hframe b hb).1, ?_, ?_⟩
  · simp only [World.step]
    rw [e']
    simp only [bind, Except.bind, hv']
  · have hop : ∀ i, (World.mk t.heap (w.handles ++ [⟨ρn 0, dense, true⟩]) w.caller).Open i →
        i ≠ N → w.Open i := by
      intro i hi hne
      have hlt : i < N := by
        obtain ⟨hd, h1, _⟩ := hi
        have := (List.getElem?_eq_some_iff.mp h1).1
        simp only [List.length_append, List.length_singleton] at this
        omega
      exact (open_append (h := w.heap) hlt).mp hi
    have hNopen : (World.mk t.heap (w.handles ++ [⟨ρn 0, dense, true⟩]) w.caller).Open N :=
      ⟨⟨ρn 0, dense, true⟩, by simp [N], rfl⟩
    refine ⟨R.wf, R.ext, ?_, ?_, ?_, ?_⟩
    · intro i hi
      by_cases he : i = N
      · simp only [if_pos he]; exact R
      · simp only [if_neg he]
        have r := I.rel i (hop i hi he)
        exact r.frame gr.leH R.wf R.ext (fun a ha => hframe _ (r.lt a ha))
    · intro i hd h1 h2
      by_cases he : i = N
      · simp only [if_pos he]
        rw [he] at h1
        have : hd = ⟨ρn 0, dense, true⟩ := by simpa [N] using h1.symm
        rw [this]; exact ⟨rfl, rfl⟩
      · simp only [if_neg he]
        have hlt : i < N := by
          have := (List.getElem?_eq_some_iff.mp h1).1
          simp only [List.length_append, List.length_singleton] at this
          omega
        rw [List.getElem?_append_left hlt] at h1
        exact I.root i hd h1 h2
    · intro i j hi hj hij a b ha hb
      have hnew : ∀ a, a < (small (cfgOf dense pZero amd args)).next → w.heap.next ≤ ρn a :=
        fun a ha => gr.fresh a (by simp [World.start]) ha
      by_cases hei : i = N
      · have hej : j ≠ N := fun h => hij (hei.trans h.symm)
        simp only [if_pos hei, if_neg hej] at ha hb ⊢
        have h1 := hnew a ha
        have h2 := (I.rel j (hop j hj hej)).lt b hb
        omega
      · by_cases hej : j = N
        · simp only [if_neg hei, if_pos hej] at ha hb ⊢
          have h1 := hnew b hb
          have h2 := (I.rel i (hop i hi hei)).lt a ha
          omega
        · simp only [if_neg hei, if_neg hej] at ha hb ⊢
          exact I.disj i j (hop i hi hei) (hop j hj hej) hij a b ha hb
    · intro b hb
      by_cases hlt : b < w.heap.next
      · have hb' := hb
        dsimp only at hb'
        rw [(hframe b hlt).1] at hb'
        rcases I.cover b hb' with h1 | ⟨i, a, h1, h2, h3⟩
        · exact .inl h1
        · have hi : i < N := by
            obtain ⟨hd, h4, _⟩ := h1
            exact (List.getElem?_eq_some_iff.mp h4).1
          have hne : i ≠ N := by omega
          refine .inr ⟨i, a, (open_append (h := w.heap) hi).mpr h1, ?_, ?_⟩
          · simp only [if_neg hne]; exact h2
          · simp only [if_neg hne]; exact h3
      · obtain ⟨a, h1, h2⟩ := gr.only b (by dsimp only; omega) hb
        refine .inr ⟨N, a, hNopen, ?_, ?_⟩
        · simp only [if_true]; exact h1
        · simp only [if_true]; exact h2
  · intro b hb hl
    obtain ⟨a, h1, h2⟩ := gr.only b hb hl
    exact ⟨a, by simp only [N, if_true]; exact h1, by simp only [N, if_true]; exact h2⟩
  · intro a ha
    simp only [N, if_true] at ha ⊢
    exact gr.fresh a (by simp [World.start]) ha

theorem solve_inv (I : w.Inv g ρ) {i : Nat} (hl : w.Legal (.solve i)) :
    w.step (.solve i) = .ok w := by
  obtain ⟨hd, h1, h2⟩ := hl
  obtain ⟨hr, _⟩ := I.root i hd h1 h2
  have R := I.rel i ⟨hd, h1, h2⟩
  obtain ⟨_, _, _, _, h0, _⟩ := setup_small (g i)
  obtain ⟨s, e⟩ := solve_small (g i)
  obtain ⟨t, _, e', _, _⟩ := exec_sim solve (entry_rel R h0) (args := fun _ => .uninit)
    (fun a ha => absurd ha (by
      have : solve.flatMap Stmt.args = [] := by decide
      rw [this]; simp)) e
  have ht : t = entry w.heap (ρ i 0) := exec_pure solve (by decide) e'
  simp only [World.step, h1]
  rw [hr, e', ht]
  rfl

theorem cleanup_noargs (d : Bool) : (cleanup d).flatMap Stmt.args = [] := by
  cases d <;> decide

theorem open_set {hs : List Handle} {h h' : Heap} {cl : List Nat} {i j : Nat} {hd : Handle} :
    (World.mk h' (hs.set i { hd with open_ := false }) cl).Open j ↔
      (World.mk h hs cl).Open j ∧ j ≠ i := by
  unfold World.Open
  dsimp only
  by_cases he : j = i
  · subst he
    constructor
    · rintro ⟨hd', h1, h2⟩
      rw [List.getElem?_set_self'] at h1
      cases hh : hs[j]? with
      | none => rw [hh] at h1; exact absurd h1 (by simp)
      | some x =>
        rw [hh] at h1
        simp only [Option.map_eq_map, Option.map_some, Option.some.injEq] at h1
        subst h1
        exact absurd h2 (by simp)
    · rintro ⟨_, h⟩
      exact absurd rfl h
  · rw [List.getElem?_set_ne (Ne.symm he)]
    exact ⟨fun h => ⟨h, he⟩, fun h => h.1⟩

theorem cleanup_inv (I : w.Inv g ρ) {i : Nat} {dense : Bool} (hl : w.Legal (.cleanup i dense)) :
    ∃ w', w.step (.cleanup i dense) = .ok w' ∧ w'.Inv g ρ ∧ w'.caller = w.caller ∧
      (∀ j, w'.Open j ↔ w.Open j ∧ j ≠ i) ∧
      (∀ a, a < (small (g i)).next → w'.heap.live (ρ i a) = false) ∧
      (∀ b, (∀ a, a < (small (g i)).next → ρ i a ≠ b) →
        (w'.heap.live b = true ↔ w.heap.live b = true)) := by
  obtain ⟨hd, h1, h2, h3⟩ := hl
  obtain ⟨hr, hdn⟩ := I.root i hd h1 h2
  have hop : w.Open i := ⟨hd, h1, h2⟩
  have R := I.rel i hop
  obtain ⟨_, _, _, _, h0, _⟩ := setup_small (g i)
  obtain ⟨s, e, hn, hdead⟩ := cleanup_small (g i)
  obtain ⟨t, ρ', e', r', gr⟩ := exec_sim (cleanup (g i).dense) (entry_rel R h0)
    (args := fun _ => .uninit)
    (fun a ha => absurd ha (by rw [cleanup_noargs]; simp)) e
  have hopen : ∀ j, (World.mk t.heap (w.handles.set i { hd with open_ := false }) w.caller).Open j
      ↔ w.Open j ∧ j ≠ i := fun j => open_set (h := w.heap)
  -- blocks of this problem are released
  have hgone : ∀ a, a < (small (g i)).next → t.heap.live (ρ i a) = false := by
    intro a ha
    have h4 := r'.heap.live a (by rw [hn]; exact ha)
    rw [hdead a ha] at h4
    rw [← gr.same a ha]; exact h4
  -- and all others unchanged
  have hkeep : ∀ b, b < w.heap.next → (∀ a, a < (small (g i)).next → ρ i a ≠ b) →
      t.heap.live b = w.heap.live b ∧ ∀ f, t.heap.cell b f = w.heap.cell b f := gr.frame
  refine ⟨⟨t.heap, w.handles.set i { hd with open_ := false }, w.caller⟩, ?_, ?_, rfl, hopen,
    hgone, ?_⟩
  · simp only [World.step, h1]
    rw [hr, ← h3, hdn, e']
    rfl
  · refine ⟨r'.heap.wf, r'.heap.ext, ?_, ?_, ?_, ?_⟩
    · intro j hj
      obtain ⟨hj1, hj2⟩ := (hopen j).mp hj
      have Rj := I.rel j hj1
      refine Rj.frame gr.leH r'.heap.wf r'.heap.ext (fun a ha => hkeep _ (Rj.lt a ha) ?_)
      intro b hb
      exact I.disj i j hop hj1 (Ne.symm hj2) b a hb ha
    · intro j hd' h4 h5
      obtain ⟨_, hj2⟩ := (hopen j).mp ⟨hd', h4, h5⟩
      dsimp only at h4
      rw [List.getElem?_set_ne (Ne.symm hj2)] at h4
      exact I.root j hd' h4 h5
    · intro j k hj hk
      exact I.disj j k ((hopen j).mp hj).1 ((hopen k).mp hk).1
    · intro b hb
      by_cases hin : ∃ a, a < (small (g i)).next ∧ ρ i a = b
      · obtain ⟨a, h4, h5⟩ := hin
        have := hgone a h4
        rw [h5] at this
        exact absurd (hb.symm.trans this) (by simp)
      · have hout : ∀ a, a < (small (g i)).next → ρ i a ≠ b := fun a ha he => hin ⟨a, ha, he⟩
        by_cases hlt : b < w.heap.next
        · have hb' := hb
          dsimp only at hb'
          rw [(hkeep b hlt hout).1] at hb'
          rcases I.cover b hb' with h4 | ⟨j, a, h4, h5, h6⟩
          · exact .inl h4
          · by_cases hji : j = i
            · subst hji
              exact absurd h6 (hout a h5)
            · exact .inr ⟨j, a, (hopen j).mpr ⟨h4, hji⟩, h5, h6⟩
        · obtain ⟨a, h4, h5⟩ := gr.only b (by dsimp only [entry]; omega) hb
          rw [hn] at h4
          rw [gr.same a h4] at h5
          exact absurd h5 (hout a h4)
  · intro b hout
    by_cases hlt : b < w.heap.next
    · dsimp only
      rw [(hkeep b hlt hout).1]
    · refine ⟨fun hb => ?_, fun hb => absurd (I.wf b hb) hlt⟩
      obtain ⟨a, h4, h5⟩ := gr.only b (by dsimp only [entry]; omega) hb
      rw [hn] at h4
      rw [gr.same a h4] at h5
      exact absurd h5 (hout a h4)

theorem step_inv (I : w.Inv g ρ) {o : Op} (hl : w.Legal o) :
    ∃ w' g' ρ', w.step o = .ok w' ∧ w'.Inv g' ρ' := by
  cases o with
  | array => obtain ⟨w', h1, h2, _⟩ := array_inv I; exact ⟨w', g, ρ, h1, h2⟩
  | setup d z m a => obtain ⟨w', g', ρ', h1, h2, _⟩ := setup_inv I hl; exact ⟨w', g', ρ', h1, h2⟩
  | solve i => exact ⟨w, g, ρ, solve_inv I hl, I⟩
  | cleanup i d => obtain ⟨w', h1, h2, _⟩ := cleanup_inv I hl; exact ⟨w', g, ρ, h1, h2⟩

theorem reach_inv (h : w.Reach) : ∃ g ρ, w.Inv g ρ := by
  induction h with
  | start => exact ⟨fun _ => ⟨true, true, true, .empty⟩, fun _ a => a, start_inv _ _⟩
  | step _ hl e ih =>
    obtain ⟨g, ρ, I⟩ := ih
    obtain ⟨w'', g', ρ', e', I'⟩ := step_inv I hl
    rw [e] at e'
    cases e'
    exact ⟨g', ρ', I'⟩

/-! ## The claim -/

/-- **C29, no error.** In every state reached by correct use, every further correct step runs: no
access through a freed, uninitialised or null pointer, no block released twice, no use of a block
that was never allocated. -/
theorem C29_safe (h : w.Reach) {o : Op} (hl : w.Legal o) : ∃ w', w.step o = .ok w' := by
  obtain ⟨g, ρ, I⟩ := reach_inv h
  obtain ⟨w', _, _, e, _⟩ := step_inv I hl
  exact ⟨w', e⟩

/-- **C29, the caller's arrays.** They are never released by the library. -/
theorem C29_caller (h : w.Reach) : ∀ b ∈ w.caller, w.heap.live b = true := by
  obtain ⟨g, ρ, I⟩ := reach_inv h
  exact I.caller

/-- **C29, no leak.** When every problem has been cleaned up, exactly the arrays of the program
are allocated, whatever the interleaving of setups, solves and cleanups was. -/
theorem C29_balance (h : w.Reach) (hc : ∀ hd ∈ w.handles, hd.open_ = false) (a : Nat) :
    w.heap.live a = true ↔ a ∈ w.caller := by
  obtain ⟨g, ρ, I⟩ := reach_inv h
  refine ⟨fun ha => ?_, I.caller a⟩
  rcases I.cover a ha with h1 | ⟨i, _, ⟨hd, h2, h3⟩, _⟩
  · exact h1
  · rw [hc hd (List.mem_of_getElem? h2)] at h3
    exact absurd h3 (by simp)

/-- **C29, one problem.** Setup immediately followed by the matching cleanup leaves exactly the
blocks that were allocated before. -/
theorem C29_pair (h : w.Reach) {dense pZero : Bool} {amd : AmdPath} {args : Arg → Option Nat}
    (hl : w.Legal (.setup dense pZero amd args)) :
    ∃ w1 w2, w.step (.setup dense pZero amd args) = .ok w1 ∧
      w1.step (.cleanup w.handles.length dense) = .ok w2 ∧ w2.caller = w.caller ∧
      ∀ a, w2.heap.live a = true ↔ w.heap.live a = true := by
  obtain ⟨g, ρ, I⟩ := reach_inv h
  obtain ⟨w1, g1, ρ1, e1, I1, hc1, ⟨r, hh⟩, hle, hf, hnew, hge⟩ := setup_inv I hl
  have hl2 : w1.Legal (.cleanup w.handles.length dense) := ⟨⟨r, dense, true⟩, by simp [hh], rfl, rfl⟩
  obtain ⟨w2, e2, I2, hc2, _, hgone, hkeep⟩ := cleanup_inv I1 hl2
  refine ⟨w1, w2, e1, e2, hc2.trans hc1, fun b => ?_⟩
  by_cases hin : ∃ a, a < (small (g1 w.handles.length)).next ∧ ρ1 w.handles.length a = b
  · obtain ⟨a, h1, h2⟩ := hin
    have h3 := hgone a h1
    rw [h2] at h3
    have h4 := hge a h1
    rw [h2] at h4
    refine ⟨fun hb => absurd (hb.symm.trans h3) (by simp), fun hb => ?_⟩
    exact absurd (I.wf b hb) (by omega)
  · rw [hkeep b (fun a ha he => hin ⟨a, ha, he⟩)]
    by_cases hlt : b < w.heap.next
    · rw [hf b hlt]
    · exact ⟨fun hb => absurd (hnew b (by omega) hb) hin, fun hb => absurd (I.wf b hb) hlt⟩

/-- A program that interleaves two problems: nine arrays, a sparse problem with equality
constraints and a given permutation, a dense one without, solved and cleaned up alternately. -/
def demoArgs : Arg → Option Nat
  | .Pjc => some 0
  | .Pir => some 1
  | .Ppr => some 2
  | .Ajc => some 0
  | .Air => some 1
  | .Apr => some 3
  | .Gjc => some 4
  | .Gir => some 5
  | .Gpr => some 6
  | .c => some 7
  | .h => some 8
  | .b => some 7
  | .Permut => some 5

def demoDense : Arg → Option Nat
  | .Ppr => some 2
  | .Gpr => some 6
  | .c => some 7
  | .h => some 8
  | _ => none

/-- Run of a program. -/
def World.run (w : World) : List Op → Except HErr World
  | [] => .ok w
  | o :: os => do
    let w ← w.step o
    w.run os

def demoOps : List Op := List.replicate 9 .array ++
  [.setup false false .sorted demoArgs, .solve 0, .setup true true .jumbled demoDense, .solve 1,
    .solve 0, .cleanup 0 false, .solve 1, .cleanup 1 true]

/-- The program runs, more than a hundred blocks were allocated, and nine are left. -/
example : (match World.start.run demoOps with
    | .ok w => decide (100 < w.heap.next) && decide ((List.range w.heap.next).filter w.heap.live =
        List.range 9) && w.handles.all (fun hd => !hd.open_) && decide (w.handles.length = 2)
    | .error _ => false) = true := by decide +kernel

/-- Its setups are correct uses in a state with nine arrays. -/
example (w : World) (h : w.caller = List.range 9) :
    w.Legal (.setup false false .sorted demoArgs) ∧ w.Legal (.setup true true .jumbled demoDense) := by
  simp only [World.Legal, h]
  refine ⟨⟨?_, by decide, by decide⟩, ⟨?_, by decide, by decide⟩⟩
  · intro g a hg
    cases g <;> simp [demoArgs] at hg <;> subst hg <;> decide
  · intro g a hg
    cases g <;> simp [demoDense] at hg <;> subst hg <;> decide

/-! ## Cleaning up with the wrong function -/

/-- `QP_CLEANUP` after `QP_SETUP_dense` runs, but the arrays of the matrices stay allocated. -/
theorem C29_mismatch_leaks (g : Cfg) (hd : g.dense = true) :
    ∃ s, exec Cell.ext (entry (small g) 0) (cleanup false) = .ok s ∧
      ((List.range s.heap.next).filter s.heap.live).length = if g.hasA then 9 else 6 := by
  have h := wrong_checks g
  unfold wrongCleanup at h
  rw [hd, Bool.not_true] at h
  split at h
  · rename_i s e
    exact ⟨s, e, by simpa using h⟩
  · exact absurd h (by simp)
  · exact absurd h (by simp)

/-- `QP_CLEANUP_dense` after `QP_SETUP` releases an array of the caller. -/
theorem C29_mismatch_frees_caller (g : Cfg) (hd : g.dense = false) :
    exec Cell.ext (entry (small g) 0) (cleanup true) = .error .caller := by
  have h := wrong_checks g
  unfold wrongCleanup at h
  rw [hd, Bool.not_false] at h
  split at h
  · exact absurd h (by simp)
  · assumption
  · exact absurd h (by simp)

end Verif.Mem
