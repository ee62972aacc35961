import Verif.Model.Heap

/-!
# Running a function in isolation and in an arbitrary heap

A run from an empty heap, with the arguments of the caller kept symbolic, is simulated in any
heap: addresses are renamed, everything outside the renamed blocks is untouched.
-/

namespace Verif.Mem

/-- Corresponding contents: `ρ` renames the blocks below `n`, `E` are the blocks of the caller. -/
inductive CRel (n : Nat) (ρ : Nat → Nat) (E : Nat → Prop) : Cell → Cell → Prop
  | uninit : CRel n ρ E .uninit .uninit
  | null : CRel n ρ E .null .null
  | ptr (a : Nat) : a < n → CRel n ρ E (.ptr a) (.ptr (ρ a))
  | ext (g : Arg) (b : Nat) : E b → CRel n ρ E (.ext g) (.ptr b)
  | int (v : Int) : CRel n ρ E (.int v) (.int v)

/-- The blocks of the small heap `σ` live, renamed by `ρ`, in the heap `h`. -/
structure HRel (ρ : Nat → Nat) (E : Nat → Prop) (σ h : Heap) : Prop where
  lt : ∀ a, a < σ.next → ρ a < h.next
  inj : ∀ a b, a < σ.next → b < σ.next → ρ a = ρ b → a = b
  live : ∀ a, a < σ.next → h.live (ρ a) = σ.live a
  cell : ∀ a f, a < σ.next → CRel σ.next ρ E (σ.cell a f) (h.cell (ρ a) f)
  wf : ∀ a, h.live a = true → a < h.next
  ext : ∀ b, E b → h.live b = true
  extOut : ∀ b, E b → ∀ a, a < σ.next → ρ a ≠ b
  smallWf : ∀ a, σ.live a = true → a < σ.next

/-- Corresponding states. -/
structure SRel (ρ : Nat → Nat) (E : Nat → Prop) (s t : St) : Prop where
  heap : HRel ρ E s.heap t.heap
  var : ∀ v, CRel s.heap.next ρ E (s.var v) (t.var v)

/-- What a step does to the heap around the renamed blocks. -/
structure Grow (ρ : Nat → Nat) (σ h : Heap) (ρ' : Nat → Nat) (σ' h' : Heap) : Prop where
  le : σ.next ≤ σ'.next
  leH : h.next ≤ h'.next
  same : ∀ a, a < σ.next → ρ' a = ρ a
  fresh : ∀ a, σ.next ≤ a → a < σ'.next → h.next ≤ ρ' a
  frame : ∀ b, b < h.next → (∀ a, a < σ.next → ρ a ≠ b) →
    h'.live b = h.live b ∧ ∀ f, h'.cell b f = h.cell b f
  only : ∀ b, h.next ≤ b → h'.live b = true → ∃ a, a < σ'.next ∧ ρ' a = b

theorem Grow.refl (ρ : Nat → Nat) (σ h : Heap) (hwf : ∀ a, h.live a = true → a < h.next) :
    Grow ρ σ h ρ σ h where
  le := Nat.le_refl _
  leH := Nat.le_refl _
  same _ _ := rfl
  fresh a h1 h2 := absurd h2 (by omega)
  frame _ _ _ := ⟨rfl, fun _ => rfl⟩
  only b h1 h2 := absurd (hwf b h2) (by omega)

theorem Grow.trans {ρ ρ' ρ'' : Nat → Nat} {σ h σ' h' σ'' h'' : Heap}
    (g : Grow ρ σ h ρ' σ' h') (g' : Grow ρ' σ' h' ρ'' σ'' h'') : Grow ρ σ h ρ'' σ'' h'' where
  le := Nat.le_trans g.le g'.le
  leH := Nat.le_trans g.leH g'.leH
  same a ha := by rw [g'.same a (Nat.lt_of_lt_of_le ha g.le), g.same a ha]
  fresh a h1 h2 := by
    by_cases hc : a < σ'.next
    · rw [g'.same a hc]; exact g.fresh a h1 hc
    · exact Nat.le_trans g.leH (g'.fresh a (by omega) h2)
  frame b hb ho := by
    have ho' : ∀ a, a < σ'.next → ρ' a ≠ b := by
      intro a ha he
      by_cases hc : a < σ.next
      · exact ho a hc (by rw [← g.same a hc]; exact he)
      · have := g.fresh a (by omega) ha
        omega
    obtain ⟨h1, h2⟩ := g.frame b hb ho
    obtain ⟨h3, h4⟩ := g'.frame b (Nat.lt_of_lt_of_le hb g.leH) ho'
    exact ⟨h3.trans h1, fun f => (h4 f).trans (h2 f)⟩
  only b hb hl := by
    by_cases hc : h'.next ≤ b
    · exact g'.only b hc hl
    · by_cases hi : ∃ a, a < σ'.next ∧ ρ' a = b
      · obtain ⟨a, ha, he⟩ := hi
        exact ⟨a, Nat.lt_of_lt_of_le ha g'.le, by rw [g'.same a ha]; exact he⟩
      · have ho : ∀ a, a < σ'.next → ρ' a ≠ b := fun a ha he => hi ⟨a, ha, he⟩
        obtain ⟨h1, _⟩ := g'.frame b (by omega) ho
        rw [h1] at hl
        exact absurd (g.only b hb hl) hi

/-- Renaming stays valid when it is extended. -/
theorem CRel.mono {n n' : Nat} {ρ ρ' : Nat → Nat} {E : Nat → Prop} {c d : Cell}
    (h : CRel n ρ E c d) (hn : n ≤ n') (hs : ∀ a, a < n → ρ' a = ρ a) : CRel n' ρ' E c d := by
  cases h with
  | uninit => exact .uninit
  | null => exact .null
  | ptr a ha => rw [← hs a ha]; exact .ptr a (Nat.lt_of_lt_of_le ha hn)
  | ext g b hb => exact .ext g b hb
  | int v => exact .int v

section

variable {ρ : Nat → Nat} {E : Nat → Prop} {s t : St}

theorem HRel.deref {σ h : Heap} (r : HRel ρ E σ h) {c d : Cell} (hc : CRel σ.next ρ E c d)
    {a : Nat} (e : σ.deref c = .ok a) : h.deref d = .ok (ρ a) ∧ a < σ.next ∧ σ.live a = true := by
  cases hc with
  | ptr a' ha =>
    simp only [Heap.deref] at e
    split at e
    · rename_i hl
      cases e
      refine ⟨?_, ha, hl⟩
      simp [Heap.deref, r.live _ ha, hl]
    · exact absurd e (by simp)
  | _ => exact absurd e (by simp [Heap.deref])

theorem HRel.walk {σ h : Heap} (r : HRel ρ E σ h) (fs : List Fld) : ∀ {c d : Cell},
    CRel σ.next ρ E c d → ∀ {a : Nat}, σ.walk c fs = .ok a →
      h.walk d fs = .ok (ρ a) ∧ a < σ.next ∧ σ.live a = true := by
  induction fs with
  | nil =>
    intro c d hc a e
    exact r.deref hc e
  | cons f fs ih =>
    intro c d hc a e
    simp only [Heap.walk] at e ⊢
    cases h1 : σ.deref c with
    | error x => rw [h1] at e; exact absurd e (by simp [bind, Except.bind])
    | ok b =>
      rw [h1] at e
      obtain ⟨h2, h3, _⟩ := r.deref hc h1
      rw [h2]
      exact ih (r.cell b f h3) e

theorem SRel.get (r : SRel ρ E s t) (p : Place) {c : Cell} (e : s.get p = .ok c) :
    ∃ d, t.get p = .ok d ∧ CRel s.heap.next ρ E c d := by
  cases p with
  | var v =>
    simp only [St.get, Except.ok.injEq] at e
    subst e
    exact ⟨_, rfl, r.var v⟩
  | fld v path f =>
    simp only [St.get] at e ⊢
    cases h1 : s.heap.walk (s.var v) path with
    | error x => rw [h1] at e; exact absurd e (by simp [bind, Except.bind])
    | ok b =>
      rw [h1] at e
      obtain ⟨h2, h3, _⟩ := r.heap.walk path (r.var v) h1
      cases e
      rw [h2]
      exact ⟨_, rfl, r.heap.cell b f h3⟩

/-- Result of a step: the states still correspond. -/
def Sim (ρ : Nat → Nat) (E : Nat → Prop) (s t : St) (s' : St) (r : Except HErr St) : Prop :=
  ∃ t' ρ', r = .ok t' ∧ SRel ρ' E s' t' ∧ Grow ρ s.heap t.heap ρ' s'.heap t'.heap

theorem SRel.set (r : SRel ρ E s t) (p : Place) {c d : Cell} (hc : CRel s.heap.next ρ E c d)
    {s' : St} (e : s.set p c = .ok s') : ∃ t', t.set p d = .ok t' ∧ SRel ρ E s' t' ∧
      Grow ρ s.heap t.heap ρ s'.heap t'.heap := by
  cases p with
  | var v =>
    simp only [St.set, Except.ok.injEq] at e
    subst e
    refine ⟨_, rfl, ⟨r.heap, ?_⟩, Grow.refl _ _ _ r.heap.wf⟩
    intro v'
    dsimp only
    split
    · exact hc
    · exact r.var v'
  | fld v path f =>
    simp only [St.set] at e ⊢
    cases h1 : s.heap.walk (s.var v) path with
    | error x => rw [h1] at e; exact absurd e (by simp [bind, Except.bind])
    | ok b =>
      rw [h1] at e
      obtain ⟨h2, h3, _⟩ := r.heap.walk path (r.var v) h1
      cases e
      rw [h2]
      refine ⟨_, rfl, ⟨⟨r.heap.lt, r.heap.inj, r.heap.live, ?_, r.heap.wf, r.heap.ext,
        r.heap.extOut, r.heap.smallWf⟩, r.var⟩, ⟨Nat.le_refl _, Nat.le_refl _, fun _ _ => rfl, ?_, ?_, ?_⟩⟩
      · intro a f' ha
        dsimp only [Heap.put] at ha ⊢
        by_cases hh : a = b ∧ f' = f
        · rw [if_pos hh, if_pos ⟨by rw [hh.1], hh.2⟩]
          exact hc
        · rw [if_neg hh, if_neg (fun h => hh ⟨r.heap.inj a b ha h3 h.1, h.2⟩)]
          exact r.heap.cell a f' ha
      · intro a h4 h5
        exact absurd h5 (by dsimp only [Heap.put]; omega)
      · intro b' _ ho
        refine ⟨rfl, fun f' => ?_⟩
        dsimp only [Heap.put]
        rw [if_neg (fun h => ho b h3 h.1.symm)]
      · intro b' hb hl
        exact absurd (r.heap.wf b' hl) (by omega)

/-- Allocation extends the renaming. -/
theorem SRel.alloc (r : SRel ρ E s t) : ∃ ρ',
    SRel ρ' E { s with heap := s.heap.alloc } { t with heap := t.heap.alloc } ∧
    Grow ρ s.heap t.heap ρ' s.heap.alloc t.heap.alloc ∧
    CRel s.heap.alloc.next ρ' E (.ptr s.heap.next) (.ptr t.heap.next) := by
  let ρ' : Nat → Nat := fun a => if a = s.heap.next then t.heap.next else ρ a
  have hs : ∀ a, a < s.heap.next → ρ' a = ρ a := fun a ha => if_neg (by omega)
  have hn : ρ' s.heap.next = t.heap.next := if_pos rfl
  have hlt := r.heap.lt
  refine ⟨ρ', ⟨⟨?_, ?_, ?_, ?_, ?_, ?_, ?_, ?_⟩, ?_⟩, ⟨?_, ?_, hs, ?_, ?_, ?_⟩, ?_⟩
  · intro a ha
    dsimp only [Heap.alloc] at ha ⊢
    by_cases he : a = s.heap.next
    · rw [he, hn]; omega
    · rw [hs a (by omega)]
      have := hlt a (by omega)
      omega
  · intro a b ha hb he
    dsimp only [Heap.alloc] at ha hb
    by_cases h1 : a = s.heap.next
    · by_cases h2 : b = s.heap.next
      · rw [h1, h2]
      · rw [h1, hn, hs b (by omega)] at he
        have := hlt b (by omega)
        omega
    · by_cases h2 : b = s.heap.next
      · rw [h2, hn, hs a (by omega)] at he
        have := hlt a (by omega)
        omega
      · rw [hs a (by omega), hs b (by omega)] at he
        exact r.heap.inj a b (by omega) (by omega) he
  · intro a ha
    dsimp only [Heap.alloc] at ha ⊢
    by_cases he : a = s.heap.next
    · rw [he, hn, if_pos rfl, if_pos rfl]
    · have := hlt a (by omega)
      rw [hs a (by omega), if_neg (by omega), if_neg he]
      exact r.heap.live a (by omega)
  · intro a f ha
    dsimp only [Heap.alloc] at ha ⊢
    by_cases he : a = s.heap.next
    · rw [he, hn, if_pos rfl, if_pos rfl]
      exact .uninit
    · have := hlt a (by omega)
      rw [hs a (by omega), if_neg he, if_neg (by omega)]
      exact (r.heap.cell a f (by omega)).mono (by omega) hs
  · intro a ha
    dsimp only [Heap.alloc] at ha ⊢
    split at ha
    · omega
    · have := r.heap.wf a ha
      omega
  · intro b hb
    dsimp only [Heap.alloc]
    split
    · rfl
    · exact r.heap.ext b hb
  · intro b hb a ha
    dsimp only [Heap.alloc] at ha
    by_cases he : a = s.heap.next
    · rw [he, hn]
      have := r.heap.wf b (r.heap.ext b hb)
      omega
    · rw [hs a (by omega)]
      exact r.heap.extOut b hb a (by omega)
  · intro a ha
    dsimp only [Heap.alloc] at ha ⊢
    split at ha
    · omega
    · have := r.heap.smallWf a ha
      omega
  · intro v
    exact (r.var v).mono (by dsimp only [Heap.alloc]; omega) hs
  · dsimp only [Heap.alloc]; omega
  · dsimp only [Heap.alloc]; omega
  · intro a h1 h2
    dsimp only [Heap.alloc] at h2
    have : a = s.heap.next := by omega
    rw [this, hn]
    exact Nat.le_refl _
  · intro b hb _
    dsimp only [Heap.alloc]
    rw [if_neg (by omega)]
    exact ⟨rfl, fun f => if_neg (by omega)⟩
  · intro b hb hl
    dsimp only [Heap.alloc] at hl
    split at hl
    · rename_i he
      exact ⟨s.heap.next, by dsimp only [Heap.alloc]; omega, by rw [hn, he]⟩
    · exact absurd (r.heap.wf b hl) (by omega)
  · have := CRel.ptr (ρ := ρ') (E := E) s.heap.next (n := s.heap.alloc.next)
      (by dsimp only [Heap.alloc]; omega)
    rwa [hn] at this

/-- Release of a renamed block. -/
theorem SRel.release (r : SRel ρ E s t) {a : Nat} (ha : a < s.heap.next) :
    SRel ρ E { s with heap := s.heap.release a } { t with heap := t.heap.release (ρ a) } ∧
    Grow ρ s.heap t.heap ρ (s.heap.release a) (t.heap.release (ρ a)) := by
  refine ⟨⟨⟨r.heap.lt, r.heap.inj, ?_, r.heap.cell, ?_, ?_, r.heap.extOut, ?_⟩, r.var⟩,
    ⟨Nat.le_refl _, Nat.le_refl _, fun _ _ => rfl, ?_, ?_, ?_⟩⟩
  · intro b hb
    dsimp only [Heap.release] at hb ⊢
    by_cases he : b = a
    · rw [he, if_pos rfl, if_pos rfl]
    · rw [if_neg he, if_neg (fun h => he (r.heap.inj b a hb ha h))]
      exact r.heap.live b hb
  · intro b hb
    dsimp only [Heap.release] at hb ⊢
    split at hb
    · exact absurd hb (by simp)
    · exact r.heap.wf b hb
  · intro b hb
    dsimp only [Heap.release]
    rw [if_neg (fun h => r.heap.extOut b hb a ha h.symm)]
    exact r.heap.ext b hb
  · intro b hb
    dsimp only [Heap.release] at hb ⊢
    split at hb
    · exact absurd hb (by simp)
    · exact r.heap.smallWf b hb
  · intro b h4 h5
    exact absurd h5 (by dsimp only [Heap.release]; omega)
  · intro b _ ho
    refine ⟨?_, fun _ => rfl⟩
    dsimp only [Heap.release]
    rw [if_neg (fun h => ho a ha h.symm)]
  · intro b hb hl
    dsimp only [Heap.release] at hl
    split at hl
    · exact absurd hl (by simp)
    · exact absurd (r.heap.wf b hl) (by omega)

end

/-- Arguments an instruction uses. -/
def Instr.args : Instr → List Arg
  | .arg _ g => [g]
  | _ => []

/-- Arguments a statement uses. -/
def Stmt.args : Stmt → List Arg
  | .run i => i.args
  | .ifPtr _ b => b.flatMap Instr.args
  | .ifNot3 _ b => b.flatMap Instr.args

variable {E : Nat → Prop} {args : Arg → Cell}

theorem Instr.sim {ρ : Nat → Nat} {s t : St} (r : SRel ρ E s t) (i : Instr)
    (ha : ∀ g ∈ i.args, ∃ b, args g = .ptr b ∧ E b) {s' : St} (e : i.exec Cell.ext s = .ok s') :
    Sim ρ E s t s' (i.exec args t) := by
  cases i with
  | malloc p =>
    obtain ⟨ρ', r', g, c⟩ := r.alloc
    obtain ⟨t', e', r'', g'⟩ := r'.set p c e
    exact ⟨t', ρ', e', r'', g.trans g'⟩
  | null p =>
    obtain ⟨t', e', r', g⟩ := r.set p .null e
    exact ⟨t', ρ, e', r', g⟩
  | arg p g =>
    obtain ⟨b, h1, h2⟩ := ha g (by simp [Instr.args])
    obtain ⟨t', e', r', gr⟩ := r.set p (.ext g b h2) e
    exact ⟨t', ρ, by simp only [Instr.exec, h1]; exact e', r', gr⟩
  | copy p v =>
    obtain ⟨t', e', r', g⟩ := r.set p (r.var v) e
    exact ⟨t', ρ, e', r', g⟩
  | int p v =>
    obtain ⟨t', e', r', g⟩ := r.set p (.int v) e
    exact ⟨t', ρ, e', r', g⟩
  | free p =>
    simp only [Instr.exec] at e ⊢
    cases h1 : s.get p with
    | error x => rw [h1] at e; exact absurd e (by simp [bind, Except.bind])
    | ok c =>
      rw [h1] at e
      obtain ⟨d, h2, h3⟩ := r.get p h1
      rw [h2]
      change s.free c = .ok s' at e
      change Sim ρ E s t s' (t.free d)
      cases h3 with
      | ptr a ha =>
        simp only [St.free] at e
        split at e
        · rename_i hl
          cases e
          obtain ⟨r', g⟩ := r.release ha
          exact ⟨_, ρ, by simp [St.free, r.heap.live a ha, hl], r', g⟩
        · exact absurd e (by simp)
      | null => cases e; exact ⟨t, ρ, rfl, r, Grow.refl _ _ _ r.heap.wf⟩
      | uninit => exact absurd e (by simp [St.free])
      | ext g b hb => exact absurd e (by simp [St.free])
      | int v => exact absurd e (by simp [St.free])
  | touch p =>
    simp only [Instr.exec] at e ⊢
    cases h1 : s.get p with
    | error x => rw [h1] at e; exact absurd e (by simp [bind, Except.bind])
    | ok c =>
      rw [h1] at e
      obtain ⟨d, h2, h3⟩ := r.get p h1
      rw [h2]
      change s.touch c = .ok s' at e
      change Sim ρ E s t s' (t.touch d)
      cases h3 with
      | ptr a ha =>
        simp only [St.touch] at e
        split at e
        · rename_i hl
          cases e
          exact ⟨t, ρ, by simp [St.touch, r.heap.live a ha, hl], r, Grow.refl _ _ _ r.heap.wf⟩
        · exact absurd e (by simp)
      | null => exact absurd e (by simp [St.touch])
      | uninit => exact absurd e (by simp [St.touch])
      | ext g b hb =>
        cases e
        exact ⟨t, ρ, by simp [St.touch, r.heap.ext b hb], r, Grow.refl _ _ _ r.heap.wf⟩
      | int v => exact absurd e (by simp [St.touch])

theorem execs_sim (is : List Instr) : ∀ {ρ : Nat → Nat} {s t : St}, SRel ρ E s t →
    (∀ g ∈ is.flatMap Instr.args, ∃ b, args g = .ptr b ∧ E b) →
    ∀ {s' : St}, execs Cell.ext s is = .ok s' → Sim ρ E s t s' (execs args t is) := by
  induction is with
  | nil =>
    intro ρ s t r _ s' e
    cases e
    exact ⟨t, ρ, rfl, r, Grow.refl _ _ _ r.heap.wf⟩
  | cons i is ih =>
    intro ρ s t r ha s' e
    simp only [execs] at e ⊢
    cases h1 : i.exec Cell.ext s with
    | error x => rw [h1] at e; exact absurd e (by simp [bind, Except.bind])
    | ok s1 =>
      rw [h1] at e
      obtain ⟨t1, ρ1, h2, r1, g1⟩ := Instr.sim r i
        (fun g hg => ha g (by simp only [List.flatMap_cons, List.mem_append]; exact .inl hg)) h1
      obtain ⟨t2, ρ2, h3, r2, g2⟩ := ih r1
        (fun g hg => ha g (by simp only [List.flatMap_cons, List.mem_append]; exact .inr hg)) e
      exact ⟨t2, ρ2, by rw [h2]; exact h3, r2, g1.trans g2⟩

theorem isPtr_rel {n : Nat} {ρ : Nat → Nat} {c d : Cell} (h : CRel n ρ E c d) {v : Bool}
    (e : isPtr c = .ok v) : isPtr d = .ok v := by
  cases h <;> first | exact e | exact absurd e (by simp [isPtr])

theorem isNot3_rel {n : Nat} {ρ : Nat → Nat} {c d : Cell} (h : CRel n ρ E c d) {v : Bool}
    (e : isNot3 c = .ok v) : isNot3 d = .ok v := by
  cases h <;> first | exact e | exact absurd e (by simp [isNot3])

theorem Stmt.sim {ρ : Nat → Nat} {s t : St} (r : SRel ρ E s t) (i : Stmt)
    (ha : ∀ g ∈ i.args, ∃ b, args g = .ptr b ∧ E b) {s' : St} (e : i.exec Cell.ext s = .ok s') :
    Sim ρ E s t s' (i.exec args t) := by
  cases i with
  | run i => exact Instr.sim r i ha e
  | ifPtr p body =>
    simp only [Stmt.exec] at e ⊢
    cases h1 : s.get p with
    | error x => rw [h1] at e; exact absurd e (by simp [bind, Except.bind])
    | ok c =>
      rw [h1] at e
      obtain ⟨d, h2, h3⟩ := r.get p h1
      rw [h2]
      change (isPtr c >>= _) = _ at e
      change Sim _ _ _ _ _ (isPtr d >>= _)
      cases h4 : isPtr c with
      | error x => rw [h4] at e; exact absurd e (by simp [bind, Except.bind])
      | ok v =>
        rw [h4] at e
        rw [isPtr_rel h3 h4]
        cases v with
        | false => cases e; exact ⟨t, ρ, rfl, r, Grow.refl _ _ _ r.heap.wf⟩
        | true => exact execs_sim body r ha e
  | ifNot3 p body =>
    simp only [Stmt.exec] at e ⊢
    cases h1 : s.get p with
    | error x => rw [h1] at e; exact absurd e (by simp [bind, Except.bind])
    | ok c =>
      rw [h1] at e
      obtain ⟨d, h2, h3⟩ := r.get p h1
      rw [h2]
      change (isNot3 c >>= _) = _ at e
      change Sim _ _ _ _ _ (isNot3 d >>= _)
      cases h4 : isNot3 c with
      | error x => rw [h4] at e; exact absurd e (by simp [bind, Except.bind])
      | ok v =>
        rw [h4] at e
        rw [isNot3_rel h3 h4]
        cases v with
        | false => cases e; exact ⟨t, ρ, rfl, r, Grow.refl _ _ _ r.heap.wf⟩
        | true => exact execs_sim body r ha e

/-- A run in isolation is simulated in any heap. -/
theorem exec_sim (is : List Stmt) : ∀ {ρ : Nat → Nat} {s t : St}, SRel ρ E s t →
    (∀ g ∈ is.flatMap Stmt.args, ∃ b, args g = .ptr b ∧ E b) →
    ∀ {s' : St}, exec Cell.ext s is = .ok s' → Sim ρ E s t s' (exec args t is) := by
  induction is with
  | nil =>
    intro ρ s t r _ s' e
    cases e
    exact ⟨t, ρ, rfl, r, Grow.refl _ _ _ r.heap.wf⟩
  | cons i is ih =>
    intro ρ s t r ha s' e
    simp only [exec] at e ⊢
    cases h1 : i.exec Cell.ext s with
    | error x => rw [h1] at e; exact absurd e (by simp [bind, Except.bind])
    | ok s1 =>
      rw [h1] at e
      obtain ⟨t1, ρ1, h2, r1, g1⟩ := Stmt.sim r i
        (fun g hg => ha g (by simp only [List.flatMap_cons, List.mem_append]; exact .inl hg)) h1
      obtain ⟨t2, ρ2, h3, r2, g2⟩ := ih r1
        (fun g hg => ha g (by simp only [List.flatMap_cons, List.mem_append]; exact .inr hg)) e
      exact ⟨t2, ρ2, by rw [h2]; exact h3, r2, g1.trans g2⟩

end Verif.Mem
