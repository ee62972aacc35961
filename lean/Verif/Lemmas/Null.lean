import Verif.Model.Alloc

/-!
# Null arrays

`a ≼ b`: `a` is `b` with some of its arrays replaced by NULL. A run with some arrays null that
succeeds does the same as the run with all arrays allocated.
-/

set_option linter.unusedSectionVars false

namespace Verif

/-- A type whose values may contain null arrays. -/
class Nullable (α : Type) where
  /-- `a ≼ b`: `a` is `b` with some arrays replaced by NULL. -/
  le : α → α → Prop
  refl : ∀ a, le a a

@[inherit_doc Nullable.le] infix:50 " ≼ " => Nullable.le

instance (priority := low) nullEq {α : Type} : Nullable α := ⟨Eq, fun _ => rfl⟩
instance nullBuf {α : Type} : Nullable (Buf α) := ⟨fun a b => a = b ∨ a = [], fun _ => Or.inl rfl⟩
instance nullProd {α β : Type} [Nullable α] [Nullable β] : Nullable (α × β) :=
  ⟨fun a b => a.1 ≼ b.1 ∧ a.2 ≼ b.2, fun _ => ⟨Nullable.refl _, Nullable.refl _⟩⟩
instance nullOption {α : Type} [Nullable α] : Nullable (Option α) where
  le a b := match a, b with
    | none, none => True
    | some a, some b => a ≼ b
    | _, _ => False
  refl a := by cases a <;> simp [Nullable.refl]
instance nullSmat {K : Type} : Nullable (Smat K) where
  le a b := a.jc ≼ b.jc ∧ a.ir ≼ b.ir ∧ a.pr ≼ b.pr ∧ a.n = b.n ∧ a.m = b.m ∧ a.nnz = b.nnz
  refl _ := ⟨Nullable.refl _, Nullable.refl _, Nullable.refl _, rfl, rfl, rfl⟩

variable {α β : Type}

/-- If the first run succeeds, so does the second, and the results correspond. -/
def Sim [Nullable α] (m m' : M α) : Prop := ∀ a, m = .ok a → ∃ a', m' = .ok a' ∧ a ≼ a'

theorem Sim.refl [Nullable α] (m : M α) : Sim m m := fun a h => ⟨a, h, Nullable.refl a⟩

theorem Sim.error [Nullable α] (e : Err) (m : M α) : Sim (.error e) m := fun _ h => by cases h

theorem Sim.ok [Nullable α] {a a' : α} (h : a ≼ a') : Sim (.ok a) (.ok a') := by
  intro b hb
  cases hb
  exact ⟨a', rfl, h⟩

theorem Sim.pure [Nullable α] {a a' : α} (h : a ≼ a') : Sim (Pure.pure a) (Pure.pure a') :=
  Sim.ok h

theorem Sim.bind [Nullable α] [Nullable β] {m m' : M α} {f f' : α → M β} (h : Sim m m')
    (hf : ∀ a a', a ≼ a' → Sim (f a) (f' a')) : Sim (m >>= f) (m' >>= f') := by
  intro b hb
  cases hm : m with
  | error e => rw [hm] at hb; cases hb
  | ok a =>
    rw [hm] at hb
    obtain ⟨a', ha', hle⟩ := h a hm
    obtain ⟨b', hb', h2⟩ := hf a a' hle b hb
    exact ⟨b', by rw [ha']; exact hb', h2⟩

/-- A step whose result is a number. -/
theorem Sim.val [Nullable β] {m m' : M α} {f f' : α → M β}
    (h : ∀ a, m = .ok a → m' = .ok a) (hf : ∀ a, Sim (f a) (f' a)) :
    Sim (m >>= f) (m' >>= f') := by
  intro b hb
  cases hm : m with
  | error e => rw [hm] at hb; cases hb
  | ok a =>
    rw [hm] at hb
    obtain ⟨b', hb', h2⟩ := hf a b hb
    exact ⟨b', by rw [h a hm]; exact hb', h2⟩

theorem rd_null {b b' : Buf α} {i : Int} (h : b ≼ b') :
    ∀ v, rd b i = .ok v → rd b' i = .ok v := by
  intro v hv
  rcases h with rfl | rfl
  · exact hv
  · unfold rd at hv
    split at hv
    · cases hv
    · simp at hv

theorem Sim.rd [Nullable β] {b b' : Buf α} {i : Int} {f f' : α → M β} (h : b ≼ b')
    (hf : ∀ v, Sim (f v) (f' v)) : Sim (rd b i >>= f) (rd b' i >>= f') :=
  Sim.val (rd_null h) hf

theorem Sim.wr_last {b b' : Buf α} {i : Int} {v : α} (h : b ≼ b') :
    Sim (wr b i v) (wr b' i v) := by
  rcases h with rfl | rfl
  · exact Sim.refl _
  · intro c hc
    unfold wr at hc
    split at hc
    · cases hc
    · simp at hc

theorem Sim.wr [Nullable β] {b b' : Buf α} {i : Int} {v : α} {f f' : Buf α → M β} (h : b ≼ b')
    (hf : ∀ c c', c ≼ c' → Sim (f c) (f' c')) : Sim (wr b i v >>= f) (wr b' i v >>= f') :=
  (Sim.wr_last h).bind hf

theorem Sim.ite [Nullable α] {c : Prop} [Decidable c] {m₁ m₂ m₁' m₂' : M α}
    (h₁ : Sim m₁ m₁') (h₂ : Sim m₂ m₂') :
    Sim (if c then m₁ else m₂) (if c then m₁' else m₂') := by
  split
  · exact h₁
  · exact h₂

theorem Sim.forN [Nullable α] {f f' : Int → α → M α}
    (hf : ∀ i a a', a ≼ a' → Sim (f i a) (f' i a')) :
    ∀ k i a a', a ≼ a' → Sim (forN k i a f) (forN k i a' f') := by
  intro k
  induction k with
  | zero => intro i a a' h; exact Sim.ok h
  | succ k ih => intro i a a' h; exact (hf i a a' h).bind (fun b b' hb => ih _ _ _ hb)

theorem Sim.forI [Nullable α] {lo hi : Int} {a a' : α} {f f' : Int → α → M α} (h : a ≼ a')
    (hf : ∀ i a a', a ≼ a' → Sim (f i a) (f' i a')) :
    Sim (forI lo hi a f) (forI lo hi a' f') := Sim.forN hf _ _ _ _ h

theorem Sim.forDownN [Nullable α] {f f' : Int → α → M α}
    (hf : ∀ i a a', a ≼ a' → Sim (f i a) (f' i a')) :
    ∀ k i a a', a ≼ a' → Sim (forDownN k i a f) (forDownN k i a' f') := by
  intro k
  induction k with
  | zero => intro i a a' h; exact Sim.ok h
  | succ k ih => intro i a a' h; exact (hf i a a' h).bind (fun b b' hb => ih _ _ _ hb)

theorem Sim.forDown [Nullable α] {hi : Int} {a a' : α} {f f' : Int → α → M α} (h : a ≼ a')
    (hf : ∀ i a a', a ≼ a' → Sim (f i a) (f' i a')) :
    Sim (forDown hi a f) (forDown hi a' f') := Sim.forDownN hf _ _ _ _ h

theorem Sim.forBrkN [Nullable α] {f f' : Int → α → M (α × Bool)}
    (hf : ∀ i a a', a ≼ a' → Sim (f i a) (f' i a')) :
    ∀ k i a a', a ≼ a' → Sim (forBrkN k i a f) (forBrkN k i a' f') := by
  intro k
  induction k with
  | zero => intro i a a' h; exact Sim.ok ⟨h, rfl⟩
  | succ k ih =>
    intro i a a' h
    refine (hf i a a' h).bind ?_
    rintro ⟨b, t⟩ ⟨b', t'⟩ ⟨hb, ht⟩
    have ht : t = t' := ht
    subst ht
    exact Sim.ite (Sim.ok ⟨hb, rfl⟩) (ih _ _ _ hb)

theorem Sim.forBrk [Nullable α] {lo hi : Int} {a a' : α} {f f' : Int → α → M (α × Bool)}
    (h : a ≼ a') (hf : ∀ i a a', a ≼ a' → Sim (f i a) (f' i a')) :
    Sim (forBrk lo hi a f) (forBrk lo hi a' f') := Sim.forBrkN hf _ _ _ _ h

theorem Sim.whileM [Nullable α] {c c' : α → M Bool} {f f' : α → M α}
    (hc : ∀ a a', a ≼ a' → Sim (c a) (c' a')) (hf : ∀ a a', a ≼ a' → Sim (f a) (f' a')) :
    ∀ k a a', a ≼ a' → Sim (whileM k c f a) (whileM k c' f' a') := by
  intro k
  induction k with
  | zero =>
    intro a a' h
    unfold Verif.whileM
    refine (hc a a' h).bind ?_
    intro t _ ht
    have ht : t = _ := ht
    subst ht
    exact Sim.ite (Sim.error _ _) (Sim.ok h)
  | succ k ih =>
    intro a a' h
    unfold Verif.whileM
    refine (hc a a' h).bind ?_
    intro t _ ht
    have ht : t = _ := ht
    subst ht
    exact Sim.ite ((hf a a' h).bind (fun b b' hb => ih _ _ hb)) (Sim.ok h)

theorem Sim.deref [Nullable β] [Nullable α] {c c' : Option α} {f f' : α → M β} (h : c ≼ c')
    (hf : ∀ a a', a ≼ a' → Sim (f a) (f' a')) : Sim (deref c >>= f) (deref c' >>= f') := by
  cases c with
  | none => exact Sim.error _ _
  | some a =>
    cases c' with
    | none => exact h.elim
    | some a' => exact hf a a' h

/-- Closes goals `a ≼ b` from the hypotheses. -/
macro "nul" : tactic => `(tactic| first
  | assumption
  | exact Nullable.refl _
  | repeat' (first | assumption | exact Nullable.refl _ | exact rfl | constructor))

/-- One statement. -/
macro "sim1" : tactic => `(tactic| first
  | exact Sim.wr_last (by nul)
  | exact Sim.pure (by nul)
  | exact Sim.ok (by nul)
  | refine Sim.rd (by nul) fun _ => ?_
  | refine Sim.wr (by nul) fun _ _ _ => ?_
  | refine Sim.forI (by nul) fun _ _ _ _ => ?_
  | refine Sim.ite ?_ ?_)

/-- As many statements as possible. -/
macro "sims" : tactic => `(tactic| repeat' sim1)

variable {K : Type} [Zero K] [One K] [Add K] [Sub K] [Mul K] [Div K] [Neg K] [Scalar K]

/-! ## Vectors and matrices -/

theorem sim_updatevariables {x x' d d' : Buf K} (hx : x ≼ x') (hd : d ≼ d') (a : K) (n : Int) :
    Sim (updatevariables x d a n) (updatevariables x' d' a n) := by
  unfold updatevariables
  sims

theorem sim_updatekktmatrix_b {b b' rx rx' ry ry' rz rz' ds ds' z z' : Buf K} (hb : b ≼ b')
    (h1 : rx ≼ rx') (h2 : ry ≼ ry') (h3 : rz ≼ rz') (h4 : ds ≼ ds') (h5 : z ≼ z') (n m p : Int) :
    Sim (updatekktmatrix_b b rx ry rz ds z n m p)
      (updatekktmatrix_b b' rx' ry' rz' ds' z' n m p) := by
  unfold updatekktmatrix_b
  refine Sim.bind (by sims) fun _ _ _ => Sim.bind (by sims) fun _ _ _ => ?_
  sims

theorem sim_updatekktmatrix {k k' : Smat K} {s s' z z' : Buf K} (hk : k ≼ k') (hs : s ≼ s')
    (hz : z ≼ z') (m n p : Int) :
    Sim (updatekktmatrix k s z m n p) (updatekktmatrix k' s' z' m n p) := by
  obtain ⟨h1, -, h3, -⟩ := hk
  unfold updatekktmatrix
  sims

theorem sim_form_ds {d d' l l' s s' z z' : Buf K} (hd : d ≼ d') (hl : l ≼ l') (hs : s ≼ s')
    (hz : z ≼ z') (sigma mu : K) (m sel : Int) :
    Sim (form_ds d l s z sigma mu m sel) (form_ds d' l' s' z' sigma mu m sel) := by
  unfold form_ds
  refine Sim.bind (by sims) fun _ _ _ => Sim.bind (by sims) fun _ _ _ => ?_
  sims

theorem val_of_sim {m m' : M α} (h : @Sim α nullEq m m') : ∀ a, m = .ok a → m' = .ok a := by
  intro a ha
  obtain ⟨a', h1, h2⟩ := h a ha
  have h2 : a = a' := h2
  rw [h2]; exact h1

theorem val_forI {lo hi : Int} {a : α} {f f' : Int → α → M α}
    (hf : ∀ i a, @Sim α nullEq (f i a) (f' i a)) :
    @Sim α nullEq (forI lo hi a f) (forI lo hi a f') :=
  @Sim.forI α nullEq lo hi a a f f' rfl (fun i a a' h => by
    have h : a = a' := h
    subst h
    exact hf i a)

theorem val_pure (a : α) : @Sim α nullEq (Pure.pure a) (Pure.pure a) := fun b h => ⟨b, h, rfl⟩

theorem val_bind {m m' : M α} {f f' : α → M β} (h : @Sim α nullEq m m')
    (hf : ∀ a, @Sim β nullEq (f a) (f' a)) : @Sim β nullEq (m >>= f) (m' >>= f') :=
  @Sim.val α β nullEq m m' f f' (val_of_sim h) hf

theorem val_rd {b b' : Buf α} {i : Int} {f f' : α → M β} (h : b ≼ b')
    (hf : ∀ v, @Sim β nullEq (f v) (f' v)) : @Sim β nullEq (rd b i >>= f) (rd b' i >>= f') :=
  @Sim.rd α β nullEq b b' i f f' h hf

theorem sim_findsteplength {s s' ds ds' z z' dz dz' : Buf K} (h1 : s ≼ s') (h2 : ds ≼ ds')
    (h3 : z ≼ z') (h4 : dz ≼ dz') (m : Int) : ∀ a, findsteplength s ds z dz m = .ok a →
      findsteplength s' ds' z' dz' m = .ok a := by
  refine val_of_sim ?_
  unfold findsteplength
  dsimp only
  refine val_bind (val_forI fun i a => ?_) fun st => val_pure _
  exact val_rd h2 fun _ => val_rd h1 fun _ => val_rd h4 fun _ => val_rd h3 fun _ => val_pure _

theorem sim_norm {p p' : Buf K} (h : p ≼ p') (n : Int) :
    ∀ a, norm p n = .ok a → norm p' n = .ok a := by
  refine val_of_sim ?_
  unfold norm
  exact val_bind (val_forI fun i a => val_rd h fun _ => val_pure _) fun st => val_pure _

theorem sim_innerproduct {x x' y y' : Buf K} (h : x ≼ x') (h2 : y ≼ y') (n : Int) :
    ∀ a, innerproduct x y n = .ok a → innerproduct x' y' n = .ok a := by
  refine val_of_sim ?_
  unfold innerproduct
  exact val_forI fun i a => val_rd h fun _ => val_rd h2 fun _ => val_pure _

theorem sim_formlambda {l l' s s' z z' : Buf K} (hl : l ≼ l') (hs : s ≼ s') (hz : z ≼ z')
    (n : Int) : Sim (formlambda l s z n) (formlambda l' s' z' n) := by
  unfold formlambda
  sims

theorem sim_transMultiply {A A' : Smat K} {x x' y y' : Buf K} (hA : A ≼ A') (hx : x ≼ x')
    (hy : y ≼ y') (t : Int) :
    Sim (SparseMatrixTransMultiply A x y t) (SparseMatrixTransMultiply A' x' y' t) := by
  obtain ⟨h1, h2, h3, h4, h5, -⟩ := hA
  unfold SparseMatrixTransMultiply
  rw [h4]
  refine Sim.bind (by sims) fun _ _ _ => ?_
  sims

theorem sim_multiply {A A' : Smat K} {x x' y y' : Buf K} (hA : A ≼ A') (hx : x ≼ x')
    (hy : y ≼ y') (t : Int) :
    Sim (SparseMatrixMultiply A x y t) (SparseMatrixMultiply A' x' y' t) := by
  obtain ⟨h1, h2, h3, h4, h5, -⟩ := hA
  unfold SparseMatrixMultiply
  rw [h4, h5]
  refine Sim.bind (by sims) fun _ _ _ => ?_
  sims

theorem sim_formrho {s s' ds ds' z z' dz dz' : Buf K} (h1 : s ≼ s') (h2 : ds ≼ ds')
    (h3 : z ≼ z') (h4 : dz ≼ dz') (a b : K) (m : Int) : ∀ r, formrho s ds z dz a b m = .ok r →
      formrho s' ds' z' dz' a b m = .ok r := by
  refine val_of_sim ?_
  unfold formrho
  refine val_bind (val_forI fun i a => ?_) fun _ => ?_
  · exact val_rd h1 fun _ => val_rd h2 fun _ => val_rd h3 fun _ => val_rd h4 fun _ => val_pure _
  · exact @Sim.val _ _ nullEq _ _ _ _ (sim_innerproduct h1 h3 m) fun _ => val_pure _

theorem sim_findminmax {z z' : Buf K} (h : z ≼ z') (n : Int) :
    ∀ r, findminmax z n = .ok r → findminmax z' n = .ok r := by
  refine val_of_sim ?_
  unfold findminmax
  exact val_rd h fun _ => val_forI fun i a => val_rd h fun _ => val_pure _

theorem sim_obj_value {P P' : Smat K} {c c' x x' t t' : Buf K} (hP : P ≼ P') (hc : c ≼ c')
    (hx : x ≼ x') (ht : t ≼ t') : Sim (obj_value P c x t) (obj_value P' c' x' t') := by
  unfold obj_value
  refine (sim_multiply hP hx ht 1).bind fun _ _ h => ?_
  rw [hP.2.2.2.1]
  exact Sim.val (sim_innerproduct h hx _) fun _ => Sim.val (sim_innerproduct hc hx _) fun _ =>
    Sim.pure ⟨rfl, h⟩

theorem sim_transposeRowCount {al : Site → Bool} {Li Li' Lp Lp' Lti Lti' Ltp Ltp' : Buf Int}
    (h1 : Li ≼ Li') (h2 : Lp ≼ Lp') (h3 : Lti ≼ Lti') (h4 : Ltp ≼ Ltp') (m n : Int) :
    Sim (Transpose_Row_CountF al m n Li Lp Lti Ltp)
      (Transpose_Row_Count m n Li' Lp' Lti' Ltp') := by
  unfold Transpose_Row_CountF Transpose_Row_Count
  have h0 : (mallocF (al .countL) m : Buf Int) ≼ malloc m := by
    unfold mallocF; split
    · exact Or.inl rfl
    · exact Or.inr rfl
  refine Sim.bind (by sims) fun _ _ _ => Sim.bind (by sims) fun _ _ _ => ?_
  sim1
  refine Sim.bind (by sims) fun _ _ _ => Sim.bind (by sims) fun _ _ _ => ?_
  refine Sim.bind (Sim.forI (by nul) ?_) ?_
  · rintro i ⟨a, b⟩ ⟨a', b'⟩ ⟨ha, hb⟩
    sim1; sim1
    refine Sim.forI (by nul) ?_
    rintro i ⟨a, b⟩ ⟨a', b'⟩ ⟨ha, hb⟩
    sims
  · rintro ⟨a, b⟩ ⟨a', b'⟩ ⟨ha, hb⟩
    sims

theorem null_mallocF {ok : Bool} {n : Int} : (mallocF ok n : Buf α) ≼ malloc n := by
  unfold mallocF; split
  · exact Or.inl rfl
  · exact Or.inr rfl

theorem sim_transpose {ok : Bool} {A A' At At' : Smat K} (hA : A ≼ A') (hAt : At ≼ At') :
    Sim (SparseMatrixTransposeF ok A At) (SparseMatrixTranspose A' At') := by
  obtain ⟨h1, h2, h3, h4, h5, -⟩ := hA
  obtain ⟨t1, t2, t3, t4, t5, t6⟩ := hAt
  have h0 : (mallocF ok A'.m : Buf Int) ≼ malloc A'.m := null_mallocF
  unfold SparseMatrixTransposeF SparseMatrixTranspose
  rw [h4, h5]
  refine Sim.bind (by sims) fun _ _ _ => Sim.bind (by sims) fun _ _ _ => ?_
  sim1
  refine Sim.bind (by sims) fun _ _ _ => Sim.bind (by sims) fun _ _ _ => ?_
  refine Sim.bind (Sim.forI (by nul) ?_) ?_
  · rintro i ⟨a, b, c⟩ ⟨a', b', c'⟩ ⟨ha, hb, hc⟩
    sim1; sim1
    refine Sim.forI (by nul) ?_
    rintro i ⟨a, b, c⟩ ⟨a', b', c'⟩ ⟨ha, hb, hc⟩
    sims
  · rintro ⟨a, b, c⟩ ⟨a', b', c'⟩ ⟨ha, hb, hc⟩
    exact Sim.pure ⟨by nul, hb, hc, t4, t5, t6⟩

end Verif
