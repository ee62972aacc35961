import Verif.Model.Checked
import Verif.Lemmas.Post

/-!
# Bounded integers: the library of `Model/Checked.lean` follows the unbounded one

`Chk x y Q`: if the unbounded computation `y` succeeds, the bounded one `x` succeeds with the same
value, and that value satisfies `Q`.
-/

set_option linter.unusedSectionVars false

namespace Verif

section

variable {α β σ : Type}

/-- If `y` succeeds, so does `x`, with the same value, which satisfies `Q`. -/
def Chk (x y : M α) (Q : α → Prop) : Prop := ∀ a, y = .ok a → x = .ok a ∧ Q a

theorem Chk.refl (y : M α) : Chk y y (fun a => y = .ok a) := fun _ h => ⟨h, h⟩

theorem Chk.of_post {y : M α} {Q : α → Prop} (h : Post y Q) : Chk y y Q := fun a e => ⟨e, h a e⟩

theorem Chk.ok {a : α} {Q : α → Prop} (h : Q a) : Chk (.ok a : M α) (.ok a) Q := by
  intro b hb
  cases hb
  exact ⟨rfl, h⟩

theorem Chk.pure {a : α} {Q : α → Prop} (h : Q a) : Chk (Pure.pure a : M α) (Pure.pure a) Q :=
  Chk.ok h

theorem Chk.mono {x y : M α} {Q R : α → Prop} (h : Chk x y Q) (hqr : ∀ a, y = .ok a → Q a → R a) :
    Chk x y R := fun a e => ⟨(h a e).1, hqr a e (h a e).2⟩

theorem Chk.post {x y : M α} {Q R : α → Prop} (h : Chk x y Q) (hp : Post y R) :
    Chk x y (fun a => Q a ∧ R a) := fun a e => ⟨(h a e).1, (h a e).2, hp a e⟩

/-- One step that differs. -/
theorem Chk.bind {x y : M α} {f g : α → M β} {Q : α → Prop} {R : β → Prop} (h : Chk x y Q)
    (hf : ∀ a, y = .ok a → Q a → Chk (f a) (g a) R) : Chk (x >>= f) (y >>= g) R := by
  intro b hb
  cases hy : y with
  | error e => rw [hy] at hb; cases hb
  | ok a =>
    rw [hy] at hb
    obtain ⟨h1, h2⟩ := h a hy
    rw [h1]
    exact hf a hy h2 b hb

/-- One step that is the same. -/
theorem Chk.step {y : M α} {f g : α → M β} {R : β → Prop}
    (hf : ∀ a, y = .ok a → Chk (f a) (g a) R) : Chk (y >>= f) (y >>= g) R :=
  (Chk.refl y).bind fun a _ h => hf a h

theorem Chk.ite {c : Prop} [Decidable c] {x₁ x₂ y₁ y₂ : M α} {Q : α → Prop}
    (h₁ : c → Chk x₁ y₁ Q) (h₂ : ¬c → Chk x₂ y₂ Q) :
    Chk (if c then x₁ else x₂) (if c then y₁ else y₂) Q := by
  split
  · exact h₁ ‹_›
  · exact h₂ ‹_›

/-- A value that is in range. -/
theorem Chk.chk {B v : Int} {f : Int → M β} {y : M β} {R : β → Prop} (h : -B - 1 ≤ v ∧ v ≤ B)
    (hf : Chk (f v) y R) : Chk (chk B v >>= f) y R := by
  unfold Verif.chk
  rw [if_pos h]
  exact hf

/-- A value that is in range because the rest of the unbounded run succeeds. -/
theorem Chk.chk' {B v : Int} {f : Int → M β} {y : M β} {R : β → Prop}
    (h : ∀ a, y = .ok a → -B - 1 ≤ v ∧ v ≤ B) (hf : Chk (f v) y R) :
    Chk (Verif.chk B v >>= f) y R := by
  intro a ha
  exact Chk.chk (h a ha) hf a ha

theorem Chk.malloc {B n : Int} {f : Buf α → M β} {y : M β} {R : β → Prop}
    (h : 0 ≤ n ∧ 8 * n ≤ 2 * B + 1) (hf : Chk (f (malloc n)) y R) :
    Chk (mallocC B n >>= f) y R := by
  unfold mallocC
  rw [if_pos h]
  exact hf

theorem Chk.forN {I : Int → σ → Prop} {f g : Int → σ → M σ} {hi : Int} :
    ∀ (k : Nat) (i : Int) (s : σ), i + k = hi → I i s →
      (∀ j t, i ≤ j → j < hi → I j t → Chk (f j t) (g j t) (I (j + 1))) →
      Chk (forN k i s f) (forN k i s g) (I hi) := by
  intro k
  induction k with
  | zero =>
    intro i s h hs _
    obtain rfl : i = hi := by simpa using h
    exact Chk.ok hs
  | succ k ih =>
    intro i s h hs hb
    refine (hb i s le_rfl (by omega) hs).bind fun a _ ha => ?_
    exact ih (i + 1) a (by push_cast at h; omega) ha fun j t h1 h2 => hb j t (by omega) h2

/-- A counting loop with an invariant. -/
theorem Chk.forI (I : Int → σ → Prop) {f g : Int → σ → M σ} {lo hi : Int} {s : σ} (hs : I lo s)
    (hb : ∀ j t, lo ≤ j → j < hi → I j t → Chk (f j t) (g j t) (I (j + 1))) :
    Chk (Verif.forI lo hi s f) (Verif.forI lo hi s g) (I (max lo hi)) := by
  unfold Verif.forI
  by_cases h : lo ≤ hi
  · have e : max lo hi = hi := max_eq_right h
    rw [e]
    exact Chk.forN _ _ _ (by omega) hs hb
  · have e : max lo hi = lo := max_eq_left (by omega)
    have e' : (hi - lo).toNat = 0 := by omega
    rw [e, e']
    exact Chk.ok hs

/-- A counting loop with an invariant that does not mention the counter. -/
theorem Chk.forI' (I : σ → Prop) {f g : Int → σ → M σ} {lo hi : Int} {s : σ} (hs : I s)
    (hb : ∀ j t, lo ≤ j → j < hi → I t → Chk (f j t) (g j t) I) :
    Chk (Verif.forI lo hi s f) (Verif.forI lo hi s g) I :=
  Chk.forI (fun _ => I) hs hb

theorem Chk.forDownN {I : σ → Prop} {f g : Int → σ → M σ} :
    ∀ (k : Nat) (i : Int) (s : σ), I s →
      (∀ j t, i - k < j → j ≤ i → I t → Chk (f j t) (g j t) I) →
      Chk (forDownN k i s f) (forDownN k i s g) I := by
  intro k
  induction k with
  | zero => intro i s hs _; exact Chk.ok hs
  | succ k ih =>
    intro i s hs hb
    refine (hb i s (by push_cast; omega) le_rfl hs).bind fun a _ ha => ?_
    exact ih (i - 1) a ha fun j t h1 h2 => hb j t (by push_cast; omega) (by omega)

theorem Chk.forDown (I : σ → Prop) {f g : Int → σ → M σ} {hi : Int} {s : σ} (hs : I s)
    (hb : ∀ j t, 0 ≤ j → j < hi → I t → Chk (f j t) (g j t) I) :
    Chk (Verif.forDown hi s f) (Verif.forDown hi s g) I := by
  unfold Verif.forDown
  by_cases h : 0 ≤ hi
  · exact Chk.forDownN _ _ _ hs fun j t h1 h2 => hb j t (by omega) (by omega)
  · have e : hi.toNat = 0 := by omega
    rw [e]
    exact Chk.ok hs

theorem Chk.forBrkN {I : Int → σ → Prop} {f g : Int → σ → M (σ × Bool)} {hi : Int}
    {Q : σ → Prop} (hq : ∀ j t, I j t → Q t) :
    ∀ (k : Nat) (i : Int) (s : σ), i + k = hi → I i s →
      (∀ j t, i ≤ j → j < hi → I j t → Chk (f j t) (g j t)
        (fun r => (r.2 = false → I (j + 1) r.1) ∧ Q r.1)) →
      Chk (forBrkN k i s f) (forBrkN k i s g) (fun r => Q r.1) := by
  intro k
  induction k with
  | zero => intro i s _ hs _; exact Chk.ok (hq _ _ hs)
  | succ k ih =>
    intro i s h hs hb
    refine (hb i s le_rfl (by omega) hs).bind fun a _ ha => ?_
    refine Chk.ite (fun _ => Chk.ok ha.2) fun hf => ?_
    exact ih (i + 1) a.1 (by push_cast at h; omega) (ha.1 (by simpa using hf))
      fun j t h1 h2 => hb j t (by omega) h2

/-- A `while` loop with an invariant. -/
theorem Chk.whileM (I : σ → Prop) {c : σ → M Bool} {f g : σ → M σ}
    (hb : ∀ s, I s → c s = .ok true → Chk (f s) (g s) I) :
    ∀ (fuel : Nat) (s : σ), I s → Chk (whileM fuel c f s) (whileM fuel c g s) I := by
  intro fuel
  induction fuel with
  | zero =>
    intro s hs
    unfold Verif.whileM
    refine Chk.step fun b hbb => ?_
    cases b with
    | false => exact Chk.ok hs
    | true => intro a ha; cases ha
  | succ fuel ih =>
    intro s hs
    unfold Verif.whileM
    refine Chk.step fun b hbb => ?_
    cases b with
    | false => exact Chk.ok hs
    | true => exact (hb s hs hbb).bind fun a _ ha => ih a ha

/-! ## What a successful access tells -/

theorem rd_run {b : Buf α} {i : Int} {v : α} (h : rd b i = .ok v) :
    0 ≤ i ∧ i < b.length ∧ b[i.toNat]? = some (some v) := by
  unfold rd at h
  split at h
  · cases h
  · rename_i h0
    split at h
    · cases h
    · cases h
    · rename_i w hw
      cases h
      have := (List.getElem?_eq_some_iff.1 hw).1
      exact ⟨by omega, by omega, hw⟩

theorem wr_run {b b' : Buf α} {i : Int} {v : α} (h : wr b i v = .ok b') :
    0 ≤ i ∧ i < b.length ∧ b' = b.set i.toNat (some v) := by
  unfold wr at h
  split at h
  · cases h
  · rename_i h0
    split at h
    · rename_i h1
      cases h
      exact ⟨by omega, by omega, rfl⟩
    · cases h

/-- All values that have been written lie between `lo` and `hi`. -/
def Bnd (lo hi : Int) (b : Buf Int) : Prop := ∀ (i : Nat) (v : Int), b[i]? = some (some v) → lo ≤ v ∧ v ≤ hi

theorem Bnd.mono {lo hi hi' : Int} {b : Buf Int} (h : Bnd lo hi b) (hh : hi ≤ hi') :
    Bnd lo hi' b := fun i v e => ⟨(h i v e).1, (h i v e).2.trans hh⟩

theorem Bnd.malloc {lo hi n : Int} : Bnd lo hi (malloc n) := by
  intro i v h
  unfold Verif.malloc at h
  rw [List.getElem?_replicate] at h
  split at h <;> simp at h

theorem Bnd.rd {lo hi : Int} {b : Buf Int} (h : Bnd lo hi b) {i v : Int} (e : rd b i = .ok v) :
    lo ≤ v ∧ v ≤ hi := h _ _ (rd_run e).2.2

theorem Bnd.wr {lo hi : Int} {b b' : Buf Int} (h : Bnd lo hi b) {i v : Int} (hv : lo ≤ v ∧ v ≤ hi)
    (e : wr b i v = .ok b') : Bnd lo hi b' := by
  obtain ⟨_, _, rfl⟩ := wr_run e
  intro j w hj
  rw [List.getElem?_set] at hj
  split at hj
  · split at hj
    · cases hj; exact hv
    · cases hj
  · exact h _ _ hj

theorem wr_length {b b' : Buf α} {i : Int} {v : α} (e : wr b i v = .ok b') :
    b'.length = b.length := by
  obtain ⟨_, _, rfl⟩ := wr_run e
  simp

theorem bind_run {m : M α} {f : α → M β} {b : β} (h : (m >>= f) = .ok b) :
    ∃ a, m = .ok a ∧ f a = .ok b := by
  cases hm : m with
  | error e => rw [hm] at h; cases h
  | ok a => rw [hm] at h; exact ⟨a, rfl, h⟩

theorem bind_of {m : M α} {f : α → M β} {a : α} {r : M β} (h : m = .ok a) (h2 : f a = r) :
    (m >>= f) = r := by
  rw [h]
  exact h2

theorem run_next {m : M α} {f : α → M β} {a : α} {b : β} (h : m = .ok a)
    (h2 : (m >>= f) = .ok b) : f a = .ok b := by
  rw [h] at h2
  exact h2

theorem Chk.fix {x y : M α} {Q : α → Prop} (h : ∀ a, y = .ok a → Chk x y Q) : Chk x y Q :=
  fun a e => h a e a e

end

/-! ## src/ldl.c -/

/-- The counts in `Lnz` while row `k` is processed: at most `k`, and one more at the nodes already
flagged. -/
def SymInv (k : Int) (st : SymSt) : Prop :=
  Bnd 0 (k + 1) st.Lnz ∧ ∀ i : Nat, ∀ v, st.Lnz[i]? = some (some v) → st.Flag[i]? ≠ some (some k) →
    v ≤ k

theorem symPath_chk {B n k i : Int} {st : SymSt} (hk : k + 1 ≤ B) (h : SymInv k st) (h0 : 0 ≤ k) :
    Chk (symPathC B n k i st) (symPath n k i st) (SymInv k) := by
  unfold symPathC symPath
  refine Chk.bind (Q := fun r => SymInv k r.2) ?_ (fun r _ hr => Chk.pure hr)
  refine Chk.whileM (fun r : Int × SymSt => SymInv k r.2) ?_ _ _ h
  rintro ⟨i, st⟩ hI hc
  obtain ⟨f, hf, hfk⟩ := bind_run hc
  simp only [pure_eq_ok, Except.ok.injEq, decide_eq_true_eq] at hfk
  dsimp only at hf hI ⊢
  refine Chk.step fun par hpar => Chk.step fun Parent hP => Chk.step fun c hcc => ?_
  have h1 := rd_run hf
  have h2 := rd_run hcc
  have hck : c ≤ k := hI.2 _ _ h2.2.2 (by rw [h1.2.2]; simpa using hfk)
  have hc0 := (hI.1.rd hcc).1
  refine Chk.chk (by omega) (Chk.step fun Lnz hL => Chk.step fun Flag hF => Chk.step fun next _ => ?_)
  refine Chk.pure ⟨hI.1.wr (by omega) hL, ?_⟩
  obtain ⟨_, _, rfl⟩ := wr_run hL
  obtain ⟨_, hfl, rfl⟩ := wr_run hF
  intro j v hj hne
  dsimp only at hj hne
  rw [List.getElem?_set] at hj hne
  split at hj
  · rename_i hij
    rw [if_pos hij, if_pos (by omega)] at hne
    exact absurd rfl hne
  · rename_i hij
    rw [if_neg hij] at hne
    exact hI.2 _ _ hj hne

/-- Prefix sums are at least as large as the first value. -/
theorem prefix_mono {cnt : Buf Int} (hc : ∀ (i : Nat) (v : Int), cnt[i]? = some (some v) → 0 ≤ v) :
    ∀ (j : Nat) (k : Int) (b b' : Buf Int) (a : Int), rd b k = .ok a →
      forN j k b (fun k b => do
        let a ← rd b k
        let c ← rd cnt k
        wr b (k + 1) (a + c)) = .ok b' → ∃ v, rd b' (k + j) = .ok v ∧ a ≤ v := by
  intro j
  induction j with
  | zero =>
    intro k b b' a ha h
    simp only [forN, Except.ok.injEq] at h
    subst h
    exact ⟨a, by simpa using ha, le_rfl⟩
  | succ j ih =>
    intro k b b' a ha h
    rw [forN] at h
    obtain ⟨b1, h1, h2⟩ := bind_run h
    rw [ha, ok_bind] at h1
    obtain ⟨c, hcc, hw⟩ := bind_run h1
    have hc0 := hc _ _ (rd_run hcc).2.2
    obtain ⟨_, hlen, rfl⟩ := wr_run hw
    have hr : rd (b.set (k + 1).toNat (some (a + c))) (k + 1) = .ok (a + c) := by
      have := (rd_run ha).1
      unfold rd
      rw [if_neg (by omega), List.getElem?_set, if_pos rfl, if_pos (by omega)]
    obtain ⟨v, hv, hle⟩ := ih (k + 1) _ b' _ hr h2
    exact ⟨v, by rw [← hv]; congr 1; push_cast; ring, by omega⟩

/-- The loop that turns counts into positions. -/
theorem prefix_chk {B L m : Int} {cnt b : Buf Int} (hm : m ≤ B) (hLB : L ≤ B)
    (hc : ∀ (i : Nat) (v : Int), cnt[i]? = some (some v) → 0 ≤ v) (hb : Bnd 0 L b) {a0 : Int}
    (h0 : rd b 0 = .ok a0)
    (hfin : ∀ b' v, forI 0 m b (fun k b => do
        let a ← rd b k
        let c ← rd cnt k
        wr b (k + 1) (a + c)) = .ok b' → rd b' m = .ok v → v ≤ L) :
    Chk (forI 0 m b (fun k b => do
        let a ← rd b k
        let c ← rd cnt k
        let k1 ← chk B (k + 1)
        let v ← chk B (a + c)
        wr b k1 v)) (forI 0 m b (fun k b => do
        let a ← rd b k
        let c ← rd cnt k
        wr b (k + 1) (a + c))) (fun b' => Bnd 0 L b' ∧ b'.length = b.length) := by
  by_cases hm0 : 0 ≤ m
  swap
  · unfold forI
    rw [show (m - 0).toNat = 0 by omega]
    exact Chk.ok ⟨hb, rfl⟩
  unfold forI at hfin ⊢
  have key : ∀ (j : Nat) (k : Int) (b : Buf Int) (a : Int), 0 ≤ k → k + j = m → Bnd 0 L b →
      rd b k = .ok a →
      (∀ b' v, forN j k b (fun k b => do
        let a ← rd b k
        let c ← rd cnt k
        wr b (k + 1) (a + c)) = .ok b' → rd b' m = .ok v → v ≤ L) →
      Chk (forN j k b (fun k b => do
        let a ← rd b k
        let c ← rd cnt k
        let k1 ← chk B (k + 1)
        let v ← chk B (a + c)
        wr b k1 v)) (forN j k b (fun k b => do
        let a ← rd b k
        let c ← rd cnt k
        wr b (k + 1) (a + c))) (fun b' => Bnd 0 L b' ∧ b'.length = b.length) := by
    intro j
    induction j with
    | zero => intro k b a _ _ hb _ _; exact Chk.ok ⟨hb, rfl⟩
    | succ j ih =>
      intro k b a hk0 hkm hb ha hfin b' hb'
      push_cast at hkm
      have hrun := hb'
      rw [forN] at hb'
      obtain ⟨b1, h1, h2⟩ := bind_run hb'
      rw [ha, ok_bind] at h1
      obtain ⟨c, hcc, hw⟩ := bind_run h1
      have hc0 := hc _ _ (rd_run hcc).2.2
      have ha0 := (hb.rd ha).1
      have hr : rd b1 (k + 1) = .ok (a + c) := by
        obtain ⟨_, hlen, rfl⟩ := wr_run hw
        unfold rd
        rw [if_neg (by omega), List.getElem?_set, if_pos rfl, if_pos (by omega)]
      obtain ⟨v, hv, hle⟩ := prefix_mono hc j (k + 1) b1 b' _ hr h2
      have hvL : v ≤ L := hfin b' v hrun (by rw [← hv]; congr 1; omega)
      have hb1 : Bnd 0 L b1 := hb.wr (by omega) hw
      have := ih (k + 1) b1 (a + c) (by omega) (by omega) hb1 hr
        (fun b'' w e1 e2 => by
          refine hfin b'' w ?_ e2
          rw [forN, ha, ok_bind, hcc, ok_bind, hw, ok_bind]
          exact e1) b' h2
      rw [forN, ha, ok_bind, hcc, ok_bind]
      unfold chk at this ⊢
      rw [if_pos (by omega), ok_bind, if_pos (by omega), ok_bind, hw, ok_bind]
      exact ⟨this.1, this.2.1, by rw [this.2.2, wr_length hw]⟩
  exact key _ 0 b a0 le_rfl (by omega) hb h0 hfin

theorem SymInv.start {k : Int} {st : SymSt} (h : Bnd 0 k st.Lnz) : SymInv k st :=
  ⟨h.mono (by omega), fun _ _ e _ => (h _ _ e).2⟩

theorem LDL_symbolic_chk {B L n : Int} {Ap Ai Lp Parent Lnz Flag : Buf Int}
    {P Pinv : Option (Buf Int)} (h0 : 0 ≤ n) (hn : n + 1 ≤ L) (hLB : L ≤ B)
    (hP : ∀ k v, 0 ≤ k → k < n → permAt P k = .ok v → 0 ≤ v ∧ v + 1 ≤ B) (hLp : Bnd 0 L Lp)
    (hLnz : Bnd 0 0 Lnz)
    (hfin : ∀ o v, LDL_symbolic n Ap Ai Lp Parent Lnz Flag P Pinv = .ok o →
      rd o.Lp n = .ok v → v ≤ L) :
    Chk (LDL_symbolicC B n Ap Ai Lp Parent Lnz Flag P Pinv)
      (LDL_symbolic n Ap Ai Lp Parent Lnz Flag P Pinv)
      (fun o => Bnd 0 L o.Lp ∧ Bnd 0 L o.Lnz) := by
  unfold LDL_symbolicC LDL_symbolic
  refine Chk.step fun Q hQ => ?_
  refine Chk.bind (Q := fun st : SymSt => Bnd 0 n st.Lnz) ?_ fun st hst hI => ?_
  · refine (Chk.forI (fun k (st : SymSt) => Bnd 0 k st.Lnz) hLnz ?_).mono
      (fun st _ h => h.mono (by omega))
    intro k st hk0 hkn hI
    refine Chk.step fun Par _ => Chk.step fun Fl hFl => Chk.step fun Ln hLn => ?_
    refine Chk.step fun kk hkk => ?_
    have := hP k kk hk0 hkn hkk
    refine Chk.chk (by omega) (Chk.step fun p2 _ => Chk.step fun p1 _ => ?_)
    refine (Chk.forI' (SymInv k) (SymInv.start (hI.wr (by omega) hLn)) ?_).mono
      (fun st _ h => h.1)
    intro p st _ _ hst
    refine Chk.step fun a _ => Chk.step fun i _ => Chk.ite (fun _ => ?_) (fun _ => Chk.pure hst)
    exact symPath_chk (by omega) hst hk0
  · refine Chk.step fun Lp0 hLp0 => ?_
    have h00 : rd Lp0 0 = .ok 0 := by
      obtain ⟨_, hl, rfl⟩ := wr_run hLp0
      unfold rd
      rw [if_neg (by omega), List.getElem?_set, if_pos rfl, if_pos (by omega)]
    refine Chk.bind (prefix_chk (L := L) (by omega) hLB (fun i v e => (hI i v e).1)
      (hLp.wr (by omega) hLp0) h00 ?_) fun Lp' _ hL => ?_
    · intro b' v hb' hv
      refine hfin { Lp := b', Parent := st.Parent, Lnz := st.Lnz, Flag := st.Flag, Pinv := Q } v ?_ hv
      unfold LDL_symbolic
      exact bind_of hQ (bind_of hst (bind_of hLp0 (bind_of hb' rfl)))
    · exact Chk.pure ⟨hL.1, hI.mono (by omega)⟩

variable {K : Type} [Zero K] [One K] [Add K] [Sub K] [Mul K] [Div K] [Neg K] [Scalar K]

theorem numPath_chk {B n k i : Int} {Parent Pattern Flag : Buf Int} (hl : Pattern.length ≤ B) :
    Chk (numPathC B n Parent k i Pattern Flag) (numPath n Parent k i Pattern Flag)
      (fun r => r.2.2.1.length = Pattern.length) := by
  unfold numPathC numPath
  refine Chk.whileM (fun r : Int × Int × Buf Int × Buf Int => r.2.2.1.length = Pattern.length)
    ?_ _ _ rfl
  rintro ⟨i, len, Pat, Fl⟩ hI _
  dsimp only at hI ⊢
  refine Chk.chk' ?_ (Chk.step fun Pat' hP => Chk.step fun _ _ => Chk.step fun _ _ => Chk.pure ?_)
  · intro a ha
    obtain ⟨P', hP', _⟩ := bind_run ha
    have := wr_run hP'
    omega
  · exact (wr_length hP).trans hI

theorem numMove_chk {B n len top : Int} {Pattern : Buf Int} (hl : Pattern.length ≤ B) :
    Chk (numMoveC B n len top Pattern) (numMove n len top Pattern)
      (fun r => r.2.length = Pattern.length) := by
  unfold numMoveC numMove
  refine Chk.bind (Q := fun r : Int × Int × Buf Int => r.2.2.length = Pattern.length) ?_
    fun r _ h => Chk.pure h
  refine Chk.whileM _ ?_ _ _ rfl
  rintro ⟨len, top, Pat⟩ hI _
  dsimp only at hI ⊢
  refine Chk.chk' ?_ (Chk.chk' ?_ (Chk.step fun v _ => Chk.step fun P' hP => Chk.pure ?_))
  · intro a ha
    obtain ⟨v, hv, _⟩ := bind_run ha
    have := rd_run hv
    omega
  · intro a ha
    obtain ⟨v, hv, h2⟩ := bind_run ha
    obtain ⟨P', hP', _⟩ := bind_run h2
    have := wr_run hP'
    omega
  · exact (wr_length hP).trans hI

/-- What keeps the integers of `LDL_numeric` small. -/
structure NumUp (L : Int) (st : NumSt K) : Prop where
  lnz : Bnd 0 L st.Lnz
  li : st.Li.length ≤ L
  pat : st.Pattern.length ≤ L

theorem numNode_chk {B L k top : Int} {Lp : Buf Int} {st : NumSt K} (hLB : 2 * L ≤ B)
    (hLp : Bnd 0 L Lp) (h : NumUp L st) :
    Chk (numNodeC B Lp k top st) (numNode Lp k top st) (NumUp L) := by
  unfold numNodeC numNode
  refine Chk.step fun i _ => Chk.step fun yi _ => Chk.step fun Y _ => Chk.step fun lp hlp =>
    Chk.step fun c hc => ?_
  have h1 := hLp.rd hlp
  have h2 := h.lnz.rd hc
  refine Chk.chk (by omega) ?_
  dsimp only
  refine Chk.step fun Y _ => Chk.step fun di _ => Chk.step fun dk _ => Chk.step fun D _ =>
    Chk.step fun Li hLi => Chk.step fun Lx _ => ?_
  have h3 := wr_run hLi
  have h4 := h.li
  have h5 : c + 1 ≤ L := by
    have := h3.2.1
    split at this <;> omega
  refine Chk.chk (by omega) (Chk.step fun Lnz hLnz => Chk.pure ⟨h.lnz.wr (by omega) hLnz, ?_, h.pat⟩)
  dsimp only
  rw [wr_length hLi]
  exact h.li

theorem numRow_chk {B L n k : Int} {Ap Ai Lp Parent : Buf Int} {Ax : Buf K}
    {P Pinv : Option (Buf Int)} {st : NumSt K} (hLB : 2 * L ≤ B) (h0 : 0 ≤ L)
    (hLp : Bnd 0 L Lp) (hP : ∀ v, permAt P k = .ok v → 0 ≤ v ∧ v + 1 ≤ B) (h : NumUp L st) :
    Chk (numRowC B n Ap Ai Ax Lp Parent P Pinv k st) (numRow n Ap Ai Ax Lp Parent P Pinv k st)
      (NumUp L) := by
  unfold numRowC numRow
  refine Chk.step fun Y _ => Chk.step fun Fl _ => Chk.step fun Ln hLn => Chk.step fun kk hkk => ?_
  have := hP kk hkk
  have hpat := h.pat
  refine Chk.chk (by omega) (Chk.step fun p2 _ => Chk.step fun p1 _ => ?_)
  refine Chk.bind (Q := fun r : Int × Buf K × Buf Int × Buf Int =>
    r.2.2.1.length = st.Pattern.length) (Chk.forI' _ rfl ?_) fun r _ hr => ?_
  · rintro p ⟨top, Y, Pat, Fl⟩ _ _ hI
    dsimp only at hI ⊢
    refine Chk.step fun a _ => Chk.step fun i _ => Chk.ite (fun _ => ?_) (fun _ => Chk.pure hI)
    refine Chk.step fun y _ => Chk.step fun v _ => Chk.step fun Y' _ => ?_
    refine (numPath_chk (by omega)).bind fun q _ hq => ?_
    refine (numMove_chk (by omega)).bind fun t _ ht => Chk.pure ?_
    dsimp only
    omega
  · dsimp only
    refine Chk.step fun yk _ => Chk.step fun D _ => Chk.step fun Y _ => ?_
    refine Chk.bind (Q := NumUp L) (Chk.forI' _ ?_ fun top st _ _ hst => numNode_chk hLB hLp hst)
      fun st' _ hst' => Chk.step fun dk _ => Chk.step fun D _ =>
        Chk.pure ⟨hst'.lnz, hst'.li, hst'.pat⟩
    exact ⟨h.lnz.wr (by omega) hLn, h.li, by rw [hr]; exact h.pat⟩

theorem LDL_numeric_chk {B L n : Int} {Ap Ai Lp Parent : Buf Int} {Ax : Buf K}
    {P Pinv : Option (Buf Int)} {st : NumSt K} (hLB : 2 * L ≤ B) (h0 : 0 ≤ L) (hLp : Bnd 0 L Lp)
    (hP : ∀ k v, 0 ≤ k → k < n → permAt P k = .ok v → 0 ≤ v ∧ v + 1 ≤ B) (h : NumUp L st) :
    Chk (LDL_numericC B n Ap Ai Ax Lp Parent st P Pinv)
      (LDL_numeric n Ap Ai Ax Lp Parent st P Pinv) (fun r => NumUp L r.2) := by
  unfold LDL_numericC LDL_numeric
  refine Chk.bind (Q := NumUp L) (Chk.forI' _ h fun k st h1 h2 hst =>
    numRow_chk hLB h0 hLp (hP k · h1 h2) hst) fun st _ hst => Chk.pure hst

theorem LDL_lsolve_chk {B n : Int} {X : Buf K} {Lp Li : Buf Int} {Lx : Buf K} (hn : n ≤ B) :
    Chk (LDL_lsolveC B n X Lp Li Lx) (LDL_lsolve n X Lp Li Lx) (fun _ => True) := by
  unfold LDL_lsolveC LDL_lsolve
  refine Chk.forI' _ trivial fun j X _ _ _ => ?_
  exact Chk.chk (by omega) ((Chk.refl _).mono fun _ _ _ => trivial)

theorem LDL_ltsolve_chk {B n : Int} {X : Buf K} {Lp Li : Buf Int} {Lx : Buf K} (hn : n ≤ B)
    (h0 : 0 ≤ n) :
    Chk (LDL_ltsolveC B n X Lp Li Lx) (LDL_ltsolve n X Lp Li Lx) (fun _ => True) := by
  unfold LDL_ltsolveC LDL_ltsolve
  refine Chk.chk (by omega) (Chk.forDown _ trivial fun j X _ _ _ => ?_)
  exact Chk.chk (by omega) ((Chk.refl _).mono fun _ _ _ => trivial)

/-! ## src/Auxilary.c -/

theorem Chk.triv {α : Type} (y : M α) : Chk y y (fun _ => True) :=
  (Chk.refl y).mono fun _ _ _ => trivial

theorem SparseMatrixTransMultiply_chk {B : Int} {A : Smat K} {x y : Buf K} {start : Int}
    (hn : A.n ≤ B) :
    Chk (SparseMatrixTransMultiplyC B A x y start) (SparseMatrixTransMultiply A x y start)
      (fun _ => True) := by
  unfold SparseMatrixTransMultiplyC SparseMatrixTransMultiply
  refine Chk.step fun y _ => Chk.forI' _ trivial fun j y _ _ _ => ?_
  exact Chk.step fun lo _ => Chk.chk (by omega) (Chk.triv _)

theorem SparseMatrixMultiply_chk {B : Int} {A : Smat K} {x y : Buf K} {start : Int}
    (hn : A.n ≤ B) :
    Chk (SparseMatrixMultiplyC B A x y start) (SparseMatrixMultiply A x y start)
      (fun _ => True) := by
  unfold SparseMatrixMultiplyC SparseMatrixMultiply
  refine Chk.step fun y _ => Chk.forI' _ trivial fun j y _ _ _ => ?_
  exact Chk.step fun lo _ => Chk.chk (by omega) (Chk.triv _)

theorem obj_value_chk {B : Int} {P : Smat K} {c x temp : Buf K} (hn : P.n ≤ B) :
    Chk (obj_valueC B P c x temp) (obj_value P c x temp) (fun _ => True) := by
  unfold obj_valueC obj_value
  exact (SparseMatrixMultiply_chk hn).bind fun _ _ _ => Chk.triv _

theorem copyOut_chk {B a b : Int} {dst src : Buf K} {lo hi : Int} (h : a + b = lo)
    (ha : 0 ≤ a) (hb : 0 ≤ b) (hhi : hi ≤ B) :
    Chk (copyOutC B a b dst src lo hi) (copyOut dst src lo hi) (fun _ => True) := by
  unfold copyOutC copyOut
  refine Chk.forI' _ trivial fun i d h1 h2 _ => Chk.step fun v _ => ?_
  refine Chk.chk (by omega) (Chk.chk (by omega) ?_)
  rw [show i - a - b = i - lo by omega]
  exact Chk.triv _

theorem updatekktmatrix_chk {B L : Int} {kkt : Smat K} {s z : Buf K} {m n p : Int}
    (hm : 0 ≤ m) (hn : 0 ≤ n) (hp : 0 ≤ p) (hN : n + m + p ≤ B) (hj : Bnd 0 L kkt.jc)
    (hL : L ≤ B) :
    Chk (updatekktmatrixC B kkt s z m n p) (updatekktmatrix kkt s z m n p) (fun _ => True) := by
  unfold updatekktmatrixC updatekktmatrix
  refine Chk.chk (by omega) (Chk.chk (by omega) (Chk.chk (by omega) ?_))
  refine Chk.forI' _ trivial fun i d h1 h2 _ => Chk.chk (by omega) (Chk.step fun e he => ?_)
  have := hj.rd he
  exact Chk.chk (by omega) (Chk.chk (by omega) (Chk.chk (by omega) (Chk.triv _)))

theorem updatekktmatrix_b_chk {B : Int} {b rx ry rz ds z : Buf K} {m n p : Int}
    (hm : 0 ≤ m) (hn : 0 ≤ n) (hp : 0 ≤ p) (hN : n + m + p ≤ B) :
    Chk (updatekktmatrix_bC B b rx ry rz ds z n m p) (updatekktmatrix_b b rx ry rz ds z n m p)
      (fun _ => True) := by
  unfold updatekktmatrix_bC updatekktmatrix_b
  refine Chk.step fun b _ => Chk.chk (by omega) (Chk.bind (Q := fun _ => True) ?_ fun b _ _ => ?_)
  · exact Chk.forI' _ trivial fun i b h1 h2 _ => Chk.chk (by omega) (Chk.triv _)
  · refine Chk.chk (by omega) (Chk.chk (by omega) ?_)
    exact Chk.forI' _ trivial fun i b h1 h2 _ => Chk.chk (by omega) (Chk.chk (by omega) (Chk.triv _))

/-- The column pointers of a matrix with `n` columns: non-decreasing from 0 to at most `L`. -/
structure Cols (L n : Int) (jc : Buf Int) : Prop where
  zero : ∀ v, rd jc 0 = .ok v → v = 0
  le : ∀ i v, 0 ≤ i → i ≤ n → rd jc i = .ok v → 0 ≤ v ∧ v ≤ L
  mono : ∀ i v w, 0 ≤ i → i < n → rd jc i = .ok v → rd jc (i + 1) = .ok w → v ≤ w

/-- The loop that counts the entries of the rows. -/
theorem count_chk {B L n : Int} {jc ir count : Buf Int} (hn : n ≤ B) (hL : L ≤ B)
    (hj : Cols L n jc) (hn0 : 0 ≤ n) (hL0 : 0 ≤ L) (hc : Bnd 0 0 count) :
    Chk (forI 0 n count fun i count => do
        let lo ← rd jc i
        let i1 ← chk B (i + 1)
        let hi ← rd jc i1
        forI lo hi count fun j count => do
          let k ← rd ir j
          let c ← rd count k
          let c' ← chk B (c + 1)
          wr count k c')
      (forI 0 n count fun i count => do
        let lo ← rd jc i
        let hi ← rd jc (i + 1)
        forI lo hi count fun j count => do
          let k ← rd ir j
          let c ← rd count k
          wr count k (c + 1)) (Bnd 0 L) := by
  refine (Chk.forI (fun i (c : Buf Int) => (∀ v, rd jc i = .ok v → Bnd 0 v c) ∧ Bnd 0 L c)
    ⟨?_, hc.mono hL0⟩ ?_).mono fun c _ h => h.2
  · intro v hv
    rw [hj.zero v hv]
    exact hc
  · intro i c h0 h1 hI
    refine Chk.step fun lo hlo => Chk.chk (by omega) (Chk.step fun hi hhi => ?_)
    have a1 := hj.le i lo h0 (by omega) hlo
    have a2 := hj.le (i + 1) hi (by omega) (by omega) hhi
    have a3 := hj.mono i lo hi h0 h1 hlo hhi
    refine (Chk.forI (fun j (c : Buf Int) => Bnd 0 j c) (hI.1 lo hlo) ?_).mono fun c _ h =>
      ⟨fun v hv => ?_, h.mono (by omega)⟩
    · intro j c h2 h3 hI
      refine Chk.step fun k _ => Chk.step fun x hx => ?_
      have := hI.rd hx
      exact Chk.chk (by omega) ((Chk.refl _).mono fun c' e _ =>
        (hI.mono (by omega)).wr (by omega) e)
    · rw [hhi] at hv
      cases hv
      exact h.mono (by omega)

theorem zeros_bnd {L m : Int} {b : Buf Int} (h : Bnd 0 L b) (h0 : 0 ≤ L) :
    Chk (forI 0 m b fun j b => wr b j 0) (forI 0 m b fun j b => wr b j 0) (Bnd 0 L) :=
  Chk.forI' _ h fun _ _ _ _ hI => (Chk.refl _).mono fun _ e _ => hI.wr (by omega) e

/-- The second pass over the entries, which places them. -/
theorem place_chk {τ : Type} {B L n : Int} {jc ir count tjc : Buf Int} {t0 : τ} (hn : n ≤ B)
    (hL : 4 * L ≤ B) (hL1 : 1 ≤ L) (hj : Cols L n jc) (hn0 : 0 ≤ n) (hc : Bnd 0 L count)
    (ht : Bnd 0 L tjc) (w : Int → Int → Int → τ → M τ) :
    Chk (forI 0 n (count, t0) fun i st => do
        let lo ← rd jc i
        let i1 ← chk B (i + 1)
        let hi ← rd jc i1
        forI lo hi st fun j st => do
          let k ← rd ir j
          let a ← rd tjc k
          let c ← rd st.1 k
          let index ← chk B (a + c)
          let t ← w i j index st.2
          let c' ← chk B (c + 1)
          let count ← wr st.1 k c'
          pure (count, t))
      (forI 0 n (count, t0) fun i st => do
        let lo ← rd jc i
        let hi ← rd jc (i + 1)
        forI lo hi st fun j st => do
          let k ← rd ir j
          let a ← rd tjc k
          let c ← rd st.1 k
          let t ← w i j (a + c) st.2
          let count ← wr st.1 k (c + 1)
          pure (count, t)) (fun _ => True) := by
  refine (Chk.forI (fun i (s : Buf Int × τ) => (∀ v, rd jc i = .ok v → Bnd 0 (L + v) s.1))
    ?_ ?_).mono fun _ _ _ => trivial
  · intro v hv
    rw [hj.zero v hv]
    exact hc.mono (by omega)
  · intro i c h0 h1 hI
    refine Chk.step fun lo hlo => Chk.chk (by omega) (Chk.step fun hi hhi => ?_)
    have a1 := hj.le i lo h0 (by omega) hlo
    have a2 := hj.le (i + 1) hi (by omega) (by omega) hhi
    have a3 := hj.mono i lo hi h0 h1 hlo hhi
    refine (Chk.forI (fun j (s : Buf Int × τ) => Bnd 0 (L + j) s.1) (hI lo hlo) ?_).mono
      fun c _ h v hv => ?_
    · intro j c h2 h3 hI
      refine Chk.step fun k _ => Chk.step fun a ha => Chk.step fun x hx => ?_
      have := hI.rd hx
      have := ht.rd ha
      exact Chk.chk (by omega) (Chk.step fun t _ => Chk.chk (by omega) (Chk.step fun c' e =>
        Chk.pure ((hI.mono (by omega)).wr (by omega) e)))
    · rw [hhi] at hv
      cases hv
      exact h.mono (by omega)

theorem rd_wr_self {α : Type} {b b' : Buf α} {i : Int} {v : α} (h : wr b i v = .ok b') :
    rd b' i = .ok v := by
  obtain ⟨h0, hl, rfl⟩ := wr_run h
  unfold rd
  rw [if_neg (by omega), List.getElem?_set, if_pos rfl, if_pos (by omega)]

theorem Transpose_Row_Count_chk {B L m n : Int} {Li Lp Lti Ltp : Buf Int} (hL : 4 * L ≤ B)
    (hL1 : 1 ≤ L) (hm0 : 0 ≤ m) (hm : 8 * m ≤ 2 * B + 1) (hn0 : 0 ≤ n) (hn : n ≤ B)
    (hj : Cols L n Lp) (hLtp : Bnd 0 L Ltp)
    (hfin : ∀ o v, Transpose_Row_Count m n Li Lp Lti Ltp = .ok o → rd o.2 m = .ok v → v ≤ L) :
    Chk (Transpose_Row_CountC B m n Li Lp Lti Ltp) (Transpose_Row_Count m n Li Lp Lti Ltp)
      (fun _ => True) := by
  refine Chk.fix fun o ho => ?_
  unfold Transpose_Row_CountC Transpose_Row_Count
  refine Chk.malloc ⟨hm0, hm⟩ ?_
  refine (zeros_bnd Bnd.malloc le_rfl).bind fun c1 e1 h1 => ?_
  refine (count_chk hn (by omega) hj hn0 (by omega) h1).bind fun c2 e2 h2 => ?_
  refine Chk.step fun Ltp0 e3 => ?_
  refine Chk.bind (Q := Bnd 0 L) ?_ fun tjc e4 h4 => ?_
  · refine (prefix_chk (L := L) (by omega) (by omega) (fun i v e => (h2 i v e).1)
      (hLtp.wr (by omega) e3) (rd_wr_self e3) ?_).mono fun _ _ h => h.1
    intro b' v hb' hv
    refine hfin o v ho ?_
    unfold Transpose_Row_Count at ho
    dsimp only at ho
    rw [e1, ok_bind, e2, ok_bind, e3, ok_bind, hb', ok_bind] at ho
    obtain ⟨_, _, ho⟩ := bind_run ho
    obtain ⟨_, _, ho⟩ := bind_run ho
    cases ho
    exact hv
  refine (zeros_bnd h2 (by omega)).bind fun c3 e5 h5 => ?_
  refine Chk.bind (Q := fun _ => True) ?_ fun _ _ _ => Chk.triv _
  exact place_chk hn hL hL1 hj hn0 h5 h4 (fun i _ index Lti => wr Lti index i)

theorem SparseMatrixTranspose_chk {B L : Int} {A At : Smat K} (hL : 4 * L ≤ B)
    (hL1 : 1 ≤ L) (hm0 : 0 ≤ A.m) (hm : 8 * A.m ≤ 2 * B + 1) (hn0 : 0 ≤ A.n) (hn : A.n ≤ B)
    (hj : Cols L A.n A.jc) (hLtp : Bnd 0 L At.jc)
    (hfin : ∀ o v, SparseMatrixTranspose A At = .ok o → rd o.jc A.m = .ok v → v ≤ L) :
    Chk (SparseMatrixTransposeC B A At) (SparseMatrixTranspose A At) (fun _ => True) := by
  refine Chk.fix fun o ho => ?_
  unfold SparseMatrixTransposeC SparseMatrixTranspose
  refine Chk.malloc ⟨hm0, hm⟩ ?_
  refine (zeros_bnd Bnd.malloc le_rfl).bind fun c1 e1 h1 => ?_
  refine (count_chk hn (by omega) hj hn0 (by omega) h1).bind fun c2 e2 h2 => ?_
  refine Chk.step fun Ltp0 e3 => ?_
  refine Chk.bind (Q := Bnd 0 L) ?_ fun tjc e4 h4 => ?_
  · refine (prefix_chk (L := L) (by omega) (by omega) (fun i v e => (h2 i v e).1)
      (hLtp.wr (by omega) e3) (rd_wr_self e3) ?_).mono fun _ _ h => h.1
    intro b' v hb' hv
    refine hfin o v ho ?_
    unfold SparseMatrixTranspose at ho
    dsimp only at ho
    rw [e1, ok_bind, e2, ok_bind, e3, ok_bind, hb', ok_bind] at ho
    obtain ⟨_, _, ho⟩ := bind_run ho
    obtain ⟨_, _, ho⟩ := bind_run ho
    cases ho
    exact hv
  refine (zeros_bnd h2 (by omega)).bind fun c3 e5 h5 => ?_
  refine Chk.bind (Q := fun _ => True) ?_ fun _ _ _ => Chk.triv _
  have key := place_chk (t0 := (At.ir, At.pr)) (ir := A.ir) hn hL hL1 hj hn0 h5 h4
    (fun i j index t => do
      let ir ← wr t.1 index i
      let v ← rd A.pr j
      let pr ← wr t.2 index v
      pure (ir, pr))
  simp only [bind_assoc, pure_bind] at key
  exact key

/-! ### Assembling the KKT matrix -/

/-- The arrays of the matrix under construction have at most `L` cells. -/
structure BuildUp (L : Int) (st : KktBuild K) : Prop where
  pr : st.pr.length ≤ L
  ir : st.ir.length ≤ L
  jc : Bnd 0 L st.jc
  nnz : 0 ≤ st.nnz ∧ st.nnz ≤ L

theorem kktAppendCol_chk {B L : Int} {src : Smat K} {off i : Int} {st : KktBuild K}
    (hL : 4 * L ≤ B) (hi : i < B) (hi0 : 0 ≤ i) (hoff : 0 ≤ off ∧ off ≤ L)
    (hlo : ∀ v, rd src.jc i = .ok v → 0 ≤ v) (hhi : ∀ v, rd src.jc (i + 1) = .ok v → v ≤ src.nnz)
    (hir : ∀ j v, 0 ≤ j → j < src.nnz → rd src.ir j = .ok v → 0 ≤ v ∧ v ≤ L) (h : BuildUp L st) :
    Chk (kktAppendColC B src off i st) (kktAppendCol src off i st) (BuildUp L) := by
  unfold kktAppendColC kktAppendCol
  refine Chk.step fun lo h1 => Chk.chk (by omega) (Chk.step fun hi h2 => ?_)
  have := hlo lo h1
  have := hhi hi h2
  refine Chk.forI' _ h fun j st h3 h4 hI => ?_
  refine Chk.step fun v _ => Chk.step fun pr hpr => Chk.step fun r hr => ?_
  have a1 := hir j r (by omega) (by omega) hr
  have a2 := wr_run hpr
  have a3 := hI.pr
  refine Chk.chk (by omega) (Chk.step fun ir hiw => Chk.chk (by omega) (Chk.pure ?_))
  exact ⟨by dsimp only; rw [wr_length hpr]; exact hI.pr,
    by dsimp only; rw [wr_length hiw]; exact hI.ir, hI.jc, by dsimp only; omega⟩

theorem kktAppendGt_chk {B L : Int} {Gt : Smat K} {off i : Int} {st : KktBuild K}
    (hL : 4 * L ≤ B) (hi0 : 0 ≤ i) (hoff : 0 ≤ off ∧ off ≤ L) (hi : i ≤ L) (hL1 : 1 ≤ L)
    (hhi : ∀ v, rd Gt.jc (i + 1) = .ok v → 0 ≤ v ∧ v ≤ L) (h : BuildUp L st) :
    Chk (kktAppendGtC B Gt off i st) (kktAppendGt Gt off i st) (BuildUp L) := by
  unfold kktAppendGtC kktAppendGt
  refine Chk.step fun lo h1 => Chk.chk (by omega) (Chk.step fun hi h2 => ?_)
  have := hhi hi h2
  refine Chk.forI' _ h fun j st h3 h4 hI => ?_
  refine Chk.step fun r hr => Chk.step fun ir hiw => Chk.step fun v _ => Chk.step fun pr hpr => ?_
  have a2 := wr_run hpr
  have a3 := hI.pr
  have hI2 : BuildUp L { st with pr := pr, ir := ir, nnz := st.nnz + 1 } :=
    ⟨by dsimp only; rw [wr_length hpr]; exact hI.pr,
      by dsimp only; rw [wr_length hiw]; exact hI.ir, hI.jc, by dsimp only; omega⟩
  refine Chk.chk (by omega) (Chk.chk (by omega) (Chk.ite (fun _ => ?_) (fun _ => Chk.pure hI2)))
  refine Chk.chk (by omega) (Chk.step fun ir' hiw' => Chk.step fun pr' hpr' => ?_)
  have a4 := wr_run hpr'
  have a5 := hI2.pr
  dsimp only at a4 a5
  refine Chk.chk (by dsimp only; omega) (Chk.pure ?_)
  exact ⟨by dsimp only; rw [wr_length hpr']; exact hI2.pr,
    by dsimp only; rw [wr_length hiw']; exact hI2.ir, hI2.jc, by dsimp only; omega⟩

/-- A matrix whose sizes and entries are at most `L`. -/
structure SmatUp (L : Int) (S : Smat K) : Prop where
  n0 : 0 ≤ S.n
  n : S.n ≤ L
  m0 : 0 ≤ S.m
  m : S.m ≤ L
  cols : Cols S.nnz S.n S.jc
  nnz : S.nnz ≤ L
  ir : ∀ j v, 0 ≤ j → j < S.nnz → rd S.ir j = .ok v → 0 ≤ v ∧ v ≤ L

theorem SmatUp.append {B L : Int} {src : Smat K} {off i : Int} {st : KktBuild K} (hs : SmatUp L src)
    (hL : 4 * L ≤ B) (_ : 1 ≤ L) (hi0 : 0 ≤ i) (hi : i < src.n) (hoff : 0 ≤ off ∧ off ≤ L)
    (h : BuildUp L st) :
    Chk (kktAppendColC B src off i st) (kktAppendCol src off i st) (BuildUp L) :=
  kktAppendCol_chk hL (by have := hs.n; omega) hi0 hoff
    (fun v e => (hs.cols.le i v hi0 (by omega) e).1)
    (fun v e => (hs.cols.le (i + 1) v (by omega) (by omega) e).2) hs.ir h

theorem SmatUp.appendGt {B L : Int} {Gt : Smat K} {off i : Int} {st : KktBuild K} (hs : SmatUp L Gt)
    (hL : 4 * L ≤ B) (hL1 : 1 ≤ L) (hi0 : 0 ≤ i) (hi : i < Gt.n) (hoff : 0 ≤ off ∧ off ≤ L)
    (h : BuildUp L st) :
    Chk (kktAppendGtC B Gt off i st) (kktAppendGt Gt off i st) (BuildUp L) :=
  kktAppendGt_chk hL hi0 hoff (by have := hs.n; omega) hL1
    (fun v e => by
      have := hs.cols.le (i + 1) v (by omega) (by omega) e
      have := hs.nnz
      omega) h

theorem formkktmatrix_full_chk {B L : Int} {P G : Smat K} {A : Option (Smat K)} {Gt : Smat K}
    {At : Option (Smat K)} {kkt : Smat K} (hL : 4 * L ≤ B) (hL1 : 1 ≤ L) (hP : SmatUp L P)
    (hG : SmatUp L G) (hGt : SmatUp L Gt) (hA : ∀ S, A = some S → SmatUp L S ∧ P.n ≤ S.n ∧
      P.m + S.m ≤ L ∧ P.nnz + G.nnz + S.nnz ≤ L)
    (hAt : ∀ S, At = some S → SmatUp L S) (hGn : P.n ≤ G.n) (hPG : P.nnz + G.nnz ≤ L)
    (hk : Bnd 0 L kkt.jc) (hkp : kkt.pr.length ≤ L) (hki : kkt.ir.length ≤ L) :
    Chk (formkktmatrix_fullC B P G A Gt At kkt) (formkktmatrix_full P G A Gt At kkt)
      (fun o => Bnd 0 L o.jc ∧ o.n = kkt.n) := by
  have b1 := hP.n0; have b2 := hP.n; have b3 := hP.m0; have b4 := hP.m
  have b5 := hGt.n0; have b6 := hGt.n
  unfold formkktmatrix_fullC formkktmatrix_full
  split
  · rename_i A At
    obtain ⟨hA, hAn, hAm, hAz⟩ := hA A rfl
    have hAt := hAt At rfl
    have c1 := hA.m0; have c2 := hAt.n
    refine Chk.step fun jc hjc => ?_
    dsimp only
    refine Chk.chk (by omega) ?_
    refine Chk.bind (Q := BuildUp L) (Chk.forI' _ ?_ fun i st h1 h2 hI => ?_) fun st1 _ h1 => ?_
    · exact ⟨hkp, hki, hk.wr (by omega) hjc, by dsimp only; omega⟩
    · refine (hP.append hL hL1 h1 h2 (by omega) hI).bind fun st2 _ hI => ?_
      refine (hA.append hL hL1 h1 (by omega) (by omega) hI).bind fun st2 _ hI => ?_
      refine (hG.append hL hL1 h1 (by omega) (by omega) hI).bind fun st2 _ hI => ?_
      refine Chk.chk (by omega) (Chk.step fun pj hpj => Chk.step fun gj hgj => ?_)
      have d1 := hP.cols.le _ _ (by omega) (by omega) hpj
      have d2 := hG.cols.le _ _ (by omega) (by omega) hgj
      refine Chk.chk (by omega) (Chk.step fun aj haj => ?_)
      have d3 := hA.cols.le _ _ (by omega) (by omega) haj
      refine Chk.chk (by omega) (Chk.step fun jc' hw => Chk.pure ?_)
      exact ⟨hI.pr, hI.ir, hI.jc.wr (by omega) hw, hI.nnz⟩
    refine Chk.bind (Q := BuildUp L) (Chk.forI' _ h1 fun i st h1 h2 hI => ?_) fun st1 _ h1 => ?_
    · refine (hAt.append hL hL1 h1 h2 (by omega) hI).bind fun st2 _ hI => ?_
      refine Chk.chk (by omega) (Chk.chk (by omega) (Chk.step fun jc' hw => Chk.pure ?_))
      exact ⟨hI.pr, hI.ir, hI.jc.wr hI.nnz hw, hI.nnz⟩
    refine Chk.bind (Q := BuildUp L) (Chk.forI' _ h1 fun i st h1 h2 hI => ?_) fun st1 _ h1 => ?_
    · refine (hGt.appendGt hL hL1 h1 h2 (by omega) hI).bind fun st2 _ hI => ?_
      have := hAt.n0
      refine Chk.chk (by omega) (Chk.chk (by omega) (Chk.chk (by omega)
        (Chk.step fun jc' hw => Chk.pure ?_)))
      exact ⟨hI.pr, hI.ir, hI.jc.wr hI.nnz hw, hI.nnz⟩
    exact Chk.pure ⟨h1.jc, rfl⟩
  · rename_i hno
    split
    · exact (hno _ _ rfl rfl).elim
    refine Chk.step fun jc hjc => ?_
    dsimp only
    refine Chk.bind (Q := BuildUp L) (Chk.forI' _ ?_ fun i st h1 h2 hI => ?_) fun st1 _ h1 => ?_
    · exact ⟨hkp, hki, hk.wr (by omega) hjc, by dsimp only; omega⟩
    · refine (hP.append hL hL1 h1 h2 (by omega) hI).bind fun st2 _ hI => ?_
      refine (hG.append hL hL1 h1 (by omega) (by omega) hI).bind fun st2 _ hI => ?_
      refine Chk.chk (by omega) (Chk.step fun pj hpj => Chk.step fun gj hgj => ?_)
      have d1 := hP.cols.le _ _ (by omega) (by omega) hpj
      have d2 := hG.cols.le _ _ (by omega) (by omega) hgj
      refine Chk.chk (by omega) (Chk.step fun jc' hw => Chk.pure ?_)
      exact ⟨hI.pr, hI.ir, hI.jc.wr (by omega) hw, hI.nnz⟩
    refine Chk.bind (Q := BuildUp L) (Chk.forI' _ h1 fun i st h1 h2 hI => ?_) fun st1 _ h1 => ?_
    · refine (hGt.appendGt hL hL1 h1 h2 (by omega) hI).bind fun st2 _ hI => ?_
      refine Chk.chk (by omega) (Chk.chk (by omega) (Chk.step fun jc' hw => Chk.pure ?_))
      exact ⟨hI.pr, hI.ir, hI.jc.wr hI.nnz hw, hI.nnz⟩
    exact Chk.pure ⟨h1.jc, rfl⟩

end Verif
