import Verif.Model.AmdInfo

/-!
# The ordering routine with and without statistics

If the routine that computes the statistics succeeds, so does the one that does not, with the same
ordering.
-/

namespace Verif

variable {α β γ δ : Type}

/-- If the first run succeeds, so does the second, with results related by `R`. -/
def Rel (R : α → β → Prop) (m : M α) (m' : M β) : Prop := ∀ a, m = .ok a → ∃ b, m' = .ok b ∧ R a b

theorem Rel.bind {R : α → β → Prop} {S : γ → δ → Prop} {m : M α} {m' : M β} {f : α → M γ} {f' : β → M δ}
    (h : Rel R m m') (hf : ∀ a b, R a b → Rel S (f a) (f' b)) : Rel S (m >>= f) (m' >>= f') := by
  intro c hc
  cases hm : m with
  | error e => rw [hm] at hc; cases hc
  | ok a =>
    rw [hm] at hc
    obtain ⟨b, hb, hr⟩ := h a hm
    obtain ⟨d, hd, hs⟩ := hf a b hr c hc
    exact ⟨d, by rw [hb]; exact hd, hs⟩

theorem Rel.same {S : γ → δ → Prop} {m : M α} {f : α → M γ} {f' : α → M δ}
    (hf : ∀ a, Rel S (f a) (f' a)) : Rel S (m >>= f) (m >>= f') :=
  Rel.bind (R := Eq) (fun a h => ⟨a, h, rfl⟩) (fun a _ e => e ▸ hf a)

theorem Rel.drop {S : γ → δ → Prop} {m : M α} {f : α → M γ} {m' : M δ}
    (hf : ∀ a, Rel S (f a) m') : Rel S (m >>= f) m' := by
  intro c hc
  cases hm : m with
  | error e => rw [hm] at hc; cases hc
  | ok a => rw [hm] at hc; exact hf a c hc

theorem Rel.pure {R : α → β → Prop} {a : α} {b : β} (h : R a b) : Rel R (Pure.pure a) (Pure.pure b) := by
  intro c hc
  cases hc
  exact ⟨b, rfl, h⟩

theorem Rel.ite {R : α → β → Prop} {c : Prop} [Decidable c] {m₁ m₂ : M α} {m₁' m₂' : M β}
    (h₁ : Rel R m₁ m₁') (h₂ : Rel R m₂ m₂') : Rel R (if c then m₁ else m₂) (if c then m₁' else m₂') := by
  split
  · exact h₁
  · exact h₂

theorem Rel.forI {R : α → β → Prop} {lo hi : Int} {s : α} {s' : β} {f : Int → α → M α} {f' : Int → β → M β}
    (h : R s s') (hf : ∀ i s s', R s s' → Rel R (f i s) (f' i s')) : Rel R (forI lo hi s f) (forI lo hi s' f') := by
  unfold Verif.forI
  generalize (hi - lo).toNat = k
  induction k generalizing lo s s' with
  | zero => exact Rel.pure h
  | succ k ih =>
    unfold forN
    exact Rel.bind (hf _ _ _ h) fun a b hab => ih hab

theorem Rel.whileM {R : α → β → Prop} {fuel : Nat} {s : α} {s' : β} {c : α → M Bool} {c' : β → M Bool}
    {f : α → M α} {f' : β → M β} (h : R s s') (hc : ∀ s s', R s s' → c s = c' s')
    (hf : ∀ s s', R s s' → Rel R (f s) (f' s')) : Rel R (whileM fuel c f s) (whileM fuel c' f' s') := by
  induction fuel generalizing s s' with
  | zero =>
    unfold Verif.whileM
    rw [hc _ _ h]
    refine Rel.same fun b => ?_
    cases b
    · exact Rel.pure h
    · intro a ha; cases ha
  | succ k ih =>
    unfold Verif.whileM
    rw [hc _ _ h]
    refine Rel.same fun b => ?_
    cases b
    · exact Rel.pure h
    · exact Rel.bind (hf _ _ h) fun a b hab => ih hab

theorem AMD_2I_rel {n dense0 iwlen : Int} {aggr : Bool} {s : Amd2} :
    Rel (fun x y => y = x.1) (AMD_2I n dense0 iwlen aggr s) (AMD_2 n dense0 iwlen aggr s) := by
  unfold AMD_2I AMD_2
  refine Rel.same fun wbig => Rel.bind (R := fun x y => y = x.2) ?_ ?_
  · unfold amd2InitI amd2Init
    refine Rel.same fun s1 => Rel.same fun f => ?_
    refine Rel.forI rfl ?_
    rintro i ⟨nd, s⟩ s' rfl
    unfold amd2ClassifyI
    refine Rel.drop fun _ => Rel.drop fun nd' => ?_
    have : Rel (fun (x : Int × Amd2) y => y = x.2) (amd2Classify (min n (max 16 dense0)) i s' >>= fun s => pure (nd', s))
        (amd2Classify (min n (max 16 dense0)) i s' >>= fun s => pure s) :=
      Rel.same fun a => Rel.pure rfl
    rwa [bind_pure] at this
  · rintro ⟨nd, s1⟩ s1' rfl
    refine Rel.bind (R := fun x y => y = x.2) ?_ ?_
    · refine Rel.whileM rfl (fun s s' e => by rw [e]) ?_
      rintro ⟨t, s⟩ s' rfl
      unfold amd2IterI amd2Iter
      exact Rel.same fun r => Rel.drop fun d => Rel.pure rfl
    · rintro ⟨t, s2⟩ s2' rfl
      have : Rel (fun (x : (Buf Int × Buf Int) × AmdStat × Int) y => y = x.1)
          (amd2Output n s2' >>= fun o => pure (o, t.front nd 0, nd)) (amd2Output n s2' >>= fun o => pure o) :=
        Rel.same fun a => Rel.pure rfl
      rwa [bind_pure] at this

theorem AMD_1I_rel {n slen dense0 : Int} {aggr : Bool} {Ap Ai P Pinv Len S : Buf Int} :
    Rel (fun x y => y = x.1) (AMD_1I n Ap Ai P Pinv Len slen S dense0 aggr)
      (AMD_1 n Ap Ai P Pinv Len slen S dense0 aggr) := by
  unfold AMD_1I AMD_1
  refine Rel.same fun t => Rel.same fun iwlen => ?_
  refine Rel.same fun ⟨_, _⟩ => Rel.same fun ⟨_, _⟩ => Rel.same fun ⟨_, _⟩ => Rel.same fun ⟨_, _⟩ => ?_
  refine Rel.same fun ⟨_, _⟩ => Rel.same fun ⟨_, _⟩ => Rel.same fun ⟨_, _⟩ => Rel.same fun r => ?_
  exact AMD_2I_rel

theorem AMD_aatI_rel {n : Int} {Ap Ai Len Tp : Buf Int} :
    Rel (fun x y => y = x.1) (AMD_aatI n Ap Ai Len Tp) (AMD_aat n Ap Ai Len Tp) := by
  intro x h
  unfold AMD_aat
  rw [h]
  exact ⟨_, rfl, rfl⟩

theorem AMD_orderI_rel {mem : AmdMem} {dense0 : Int → Int} {aggr : Bool} {n : Int} {Ap Ai P : Buf Int} :
    Rel (fun x y => y = x.1) (AMD_orderI mem dense0 aggr n Ap Ai P) (AMD_order mem dense0 aggr n Ap Ai P) := by
  unfold AMD_orderI AMD_order
  refine Rel.ite (Rel.pure rfl) (Rel.ite (Rel.pure rfl) ?_)
  refine Rel.same fun nz => Rel.ite (Rel.pure rfl) (Rel.ite (Rel.pure rfl) ?_)
  refine Rel.same fun status => Rel.ite (Rel.pure rfl) ?_
  refine Rel.same fun Len => Rel.same fun Pinv => Rel.ite (Rel.pure rfl) (Rel.ite (Rel.pure rfl) ?_)
  refine Rel.same fun c => Rel.bind AMD_aatI_rel ?_
  rintro t t' rfl
  refine Rel.same fun r => Rel.ite ?_ (Rel.pure rfl)
  refine Rel.same fun S => Rel.bind AMD_1I_rel ?_
  rintro o o' rfl
  exact Rel.pure rfl

/-- The ordering routine returns the same with and without statistics. -/
theorem AMD_orderI_eq {mem : AmdMem} {dense0 : Int → Int} {aggr : Bool} {n : Int} {Ap Ai P : Buf Int}
    {x : (Int × Buf Int) × Option OrderInfo} (h : AMD_orderI mem dense0 aggr n Ap Ai P = .ok x) :
    AMD_order mem dense0 aggr n Ap Ai P = .ok x.1 := by
  obtain ⟨y, h1, rfl⟩ := AMD_orderI_rel _ h
  exact h1

end Verif
