import Verif.Model.Ports
import Verif.Props.Front
import Verif.Props.TestHelpers
import Verif.Lemmas.DenseRun

/-!
# C95: input ports of the Simulink blocks
-/

set_option linter.unusedSectionVars false

namespace Verif

/-! ## Specification -/

section Spec

variable {K : Type}

/-- The signal at the port has `w` elements, and element `i` has the value `f i`. -/
def Port.Carries (in_ : Port) (mem : List (Buf K)) (w : Nat) (f : Nat → K) : Prop :=
  in_.length = w ∧ ∀ i, i < w → ∃ a o, in_[i]? = some a ∧ mem[a.1]? = some o ∧ o[a.2]? = some (some (f i))

/-- The elements of the signal lie side by side. -/
def Port.Contiguous (in_ : Port) : Prop :=
  ∃ o a, ∀ i, i < in_.length → in_[i]? = some (o, a + i)

/-- Six signals, matrices by columns; with `p = 0` only the four that are left. -/
structure Signals (K : Type) where
  P : Nat → K
  c : Nat → K
  A : Nat → K
  b : Nat → K
  G : Nat → K
  h : Nat → K

/-- The ports of a block carry the signals of a problem with `n` variables, `m` inequalities and `p` equalities. -/
structure SfPorts.Carry (i : SfPorts) (mem : List (Buf K)) (n m p : Nat) (g : Signals K) : Prop where
  P : i.P.Carries mem (n * n) g.P
  c : i.c.Carries mem n g.c
  G : i.G.Carries mem (m * n) g.G
  h : i.h.Carries mem m g.h
  eq : (i.eq = none ∧ p = 0) ∨
    ∃ A b, i.eq = some (A, b) ∧ 0 < p ∧ A.Carries mem (p * n) g.A ∧ b.Carries mem p g.b

/-- All signals lie side by side in memory. -/
structure SfPorts.Contiguous (i : SfPorts) : Prop where
  P : i.P.Contiguous
  c : i.c.Contiguous
  G : i.G.Contiguous
  h : i.h.Contiguous
  eq : ∀ A b, i.eq = some (A, b) → A.Contiguous ∧ b.Contiguous

end Spec

section Ports

variable {K : Type} [Zero K] [One K] [Add K] [Sub K] [Mul K] [Div K] [Neg K] [Scalar K]

/-- The problem given by the signals. -/
def Signals.problem (g : Signals K) (n m p : Nat) : Problem K :=
  denseProblem COLUMN_MAJOR_ORDERING n m p g.P g.A g.G g.c g.b g.h

/-- The block outputs the first three unknowns, the exit code and the number of iterations of a solve of `pb`. -/
def Solves (amd : Amd) (pb : Problem K) (out : M (SfOut K)) : Prop :=
  ∃ a q0 f q1 x y z s, Started amd a pb q0 ∧ QP_SOLVE q0 = .ok (f, q1) ∧ q1.Iter pb x y z s ∧
    out = .ok { x := [some (x 0), some (x 1), some (x 2)], exitflag := f, iter := q1.stats.IterationCount }

theorem Port.deref_has {in_ : Port} {mem : List (Buf K)} {w : Nat} {f : Nat → K} (hw : 0 < w)
    (h : in_.Carries mem w f) (hc : in_.Contiguous) : ∃ b, in_.deref mem = .ok b ∧ Buf.Has b w f := by
  obtain ⟨hl, hv⟩ := h
  obtain ⟨o, a, hc⟩ := hc
  obtain ⟨_, buf, e1, e2, _⟩ := hv 0 hw
  rw [hc 0 (by omega)] at e1
  cases e1
  refine ⟨buf.drop a, ?_, ?_⟩
  · unfold Port.deref
    rw [hc 0 (by omega)]
    simp only at e2 ⊢
    rw [e2]
    rfl
  · intro i hi
    obtain ⟨_, buf', g1, g2, g3⟩ := hv i hi
    rw [hc i (by omega)] at g1
    cases g1
    simp only at g2 g3 e2
    rw [g2] at e2
    cases e2
    rw [List.getElem?_drop]
    exact g3

/-- What a block does when its pointers lead to the values of the signals `g`. -/
theorem ports_solve {amd : Amd} (hamd : AmdSafe amd) {mem : List (Buf K)} {i : SfPorts} {n m p : Nat} {g : Signals K}
    (hn : 3 ≤ n) (hm : 0 < m)
    (hrow : ∀ r, r < m → ∃ j, j < n ∧ Scalar.eqb (g.G (j * m + r)) 0 = false)
    {P c G h : Buf K} (eP : i.P.deref mem = .ok P) (ec : i.c.deref mem = .ok c) (eG : i.G.deref mem = .ok G)
    (eh : i.h.deref mem = .ok h) (lc : i.c.length = n) (lh : i.h.length = m)
    (hP : Buf.Has P (n * n) g.P) (hc : Buf.Has c n g.c) (hG : Buf.Has G (m * n) g.G) (hh : Buf.Has h m g.h)
    (heq : (i.eq = none ∧ p = 0) ∨ ∃ iA ib A b, i.eq = some (iA, ib) ∧ 0 < p ∧ ib.length = p ∧
      iA.deref mem = .ok A ∧ ib.deref mem = .ok b ∧ Buf.Has A (p * n) g.A ∧ Buf.Has b p g.b) :
    Solves amd (g.problem n m p) (mdlOutputsPorts amd mem i) := by
  have hwf : (g.problem n m p).WF := by
    refine denseProblem_wf hm fun r hr => ?_
    obtain ⟨j, hj, h0⟩ := hrow r hr
    refine ⟨j, hj, ?_⟩
    simpa [denseAt] using h0
  unfold mdlOutputsPorts
  rw [eP, ok_bind, ec, ok_bind, eG, ok_bind, eh, ok_bind, lc, lh]
  rcases heq with ⟨e1, e2⟩ | ⟨iA, ib, A, b, e1, hp, lb, eA, eb, hA, hb⟩
  · rw [e1]
    subst e2
    exact C47_three_or_more hamd hwf (denseProblem_give (K := K) _ rfl rfl hP hG hc hh (by simp)
      (Or.inr ⟨Or.inl rfl, rfl⟩)) hn
  · rw [e1]
    simp only
    rw [eA, ok_bind, eb, ok_bind, lb]
    have hpp : (g.problem n m p).p = p := by
      simp only [Problem.p, Signals.problem, denseProblem]
      rw [if_neg (by omega)]
      rfl
    have hg : SfGive (g.problem n m p) P (some A) G c h (some b) := by
      unfold SfGive
      rw [hpp]
      exact denseProblem_give (K := K) _ rfl rfl hP hG hc hh (by simp)
        (Or.inl ⟨_, _, rfl, rfl, rfl, hp, hA, hb⟩)
    have := C47_three_or_more hamd hwf hg hn
    rw [hpp] at this
    exact this

/-- **C95**, signals that lie side by side: a block with at least three variables solves the problem its
signals describe. -/
theorem C95_contiguous {amd : Amd} (hamd : AmdSafe amd) {mem : List (Buf K)} {i : SfPorts} {n m p : Nat} {g : Signals K}
    (hn : 3 ≤ n) (hm : 0 < m)
    (hrow : ∀ r, r < m → ∃ j, j < n ∧ Scalar.eqb (g.G (j * m + r)) 0 = false)
    (hg : i.Carry mem n m p g) (hc : i.Contiguous) :
    Solves amd (g.problem n m p) (mdlOutputsPorts amd mem i) := by
  have hnn : 0 < n * n := Nat.mul_pos (by omega) (by omega)
  have hmn : 0 < m * n := Nat.mul_pos (by omega) (by omega)
  obtain ⟨P, eP, hP⟩ := Port.deref_has hnn hg.P hc.P
  obtain ⟨c, ec, hc'⟩ := Port.deref_has (by omega) hg.c hc.c
  obtain ⟨G, eG, hG⟩ := Port.deref_has hmn hg.G hc.G
  obtain ⟨h, eh, hh⟩ := Port.deref_has hm hg.h hc.h
  refine ports_solve hamd hn hm hrow eP ec eG eh hg.c.1 hg.h.1 hP hc' hG hh ?_
  rcases hg.eq with h0 | ⟨A, b, e, hp, hA, hb⟩
  · exact Or.inl h0
  · obtain ⟨c1, c2⟩ := hc.eq A b e
    obtain ⟨A', eA, hA'⟩ := Port.deref_has (Nat.mul_pos hp (by omega)) hA c1
    obtain ⟨b', eb, hb'⟩ := Port.deref_has hp hb c2
    exact Or.inr ⟨A, b, A', b', e, hp, hb.1, eA, eb, hA', hb'⟩

/-- A layout for a signal `f` where the memory behind the first element holds the values `f'`. -/
def splitObj (w : Nat) (f f' : Nat → K) : Buf K := Buf.ofFn w f' ++ Buf.ofFn w f

/-- Its pointers, for object number `o`. -/
def splitPort (o w : Nat) : Port := (List.range w).map fun i => (o, if i = 0 then 0 else w + i)

theorem splitPort_carries {mem : List (Buf K)} {o w : Nat} {f f' : Nat → K} (h : mem[o]? = some (splitObj w f f'))
    (h0 : f 0 = f' 0) : (splitPort o w).Carries mem w f := by
  refine ⟨by simp [splitPort], fun i hi => ⟨(o, if i = 0 then 0 else w + i), _, ?_, h, ?_⟩⟩
  · simp [splitPort, List.getElem?_map, List.getElem?_range hi]
  · by_cases hz : i = 0
    · subst hz
      simp only [if_true, splitObj]
      rw [List.getElem?_append_left (by simpa using hi), Buf.has_ofFn w f' 0 hi, h0]
    · simp only [if_neg hz, splitObj]
      rw [List.getElem?_append_right (by simp)]
      simp only [Buf.length_ofFn, Nat.add_sub_cancel_left]
      exact Buf.has_ofFn w f i hi

theorem splitPort_deref {mem : List (Buf K)} {o w : Nat} {f f' : Nat → K} (h : mem[o]? = some (splitObj w f f'))
    (hw : 0 < w) : ∃ b, (splitPort o w).deref mem = .ok b ∧ Buf.Has b w f' := by
  refine ⟨splitObj w f f', ?_, fun i hi => ?_⟩
  · unfold Port.deref
    have : (splitPort o w)[0]? = some (o, 0) := by
      simp [splitPort, List.getElem?_map, List.getElem?_range hw]
    rw [this]
    simp only
    rw [h]
    rfl
  · rw [splitObj, List.getElem?_append_left (by simpa using hi)]
    exact Buf.has_ofFn w f' i hi

/-- **C95**, signals that do not: for any two problems of the same size whose signals have equal first elements
there are pointers that carry the first problem and make the block solve the second. -/
theorem C95_scattered {amd : Amd} (hamd : AmdSafe amd) {n m p : Nat} {g g' : Signals K} (hn : 3 ≤ n) (hm : 0 < m)
    (hrow : ∀ r, r < m → ∃ j, j < n ∧ Scalar.eqb (g'.G (j * m + r)) 0 = false)
    (hP : g.P 0 = g'.P 0) (hc : g.c 0 = g'.c 0) (hA : g.A 0 = g'.A 0) (hb : g.b 0 = g'.b 0) (hG : g.G 0 = g'.G 0)
    (hh : g.h 0 = g'.h 0) :
    ∃ mem i, SfPorts.Carry i mem n m p g ∧ Solves amd (g'.problem n m p) (mdlOutputsPorts amd mem i) := by
  have hnn : 0 < n * n := Nat.mul_pos (by omega) (by omega)
  have hmn : 0 < m * n := Nat.mul_pos (by omega) (by omega)
  let mem : List (Buf K) := [splitObj (n * n) g.P g'.P, splitObj n g.c g'.c, splitObj (m * n) g.G g'.G,
    splitObj m g.h g'.h, splitObj (p * n) g.A g'.A, splitObj p g.b g'.b]
  have m0 : mem[0]? = some (splitObj (n * n) g.P g'.P) := rfl
  have m1 : mem[1]? = some (splitObj n g.c g'.c) := rfl
  have m2 : mem[2]? = some (splitObj (m * n) g.G g'.G) := rfl
  have m3 : mem[3]? = some (splitObj m g.h g'.h) := rfl
  have m4 : mem[4]? = some (splitObj (p * n) g.A g'.A) := rfl
  have m5 : mem[5]? = some (splitObj p g.b g'.b) := rfl
  let i : SfPorts := { P := splitPort 0 (n * n), c := splitPort 1 n, G := splitPort 2 (m * n), h := splitPort 3 m
                       eq := if p = 0 then none else some (splitPort 4 (p * n), splitPort 5 p) }
  have k1 := splitPort_carries m1 hc
  have k3 := splitPort_carries m3 hh
  obtain ⟨b0, e0, h0⟩ := splitPort_deref m0 hnn
  obtain ⟨b1, e1, h1⟩ := splitPort_deref m1 (by omega)
  obtain ⟨b2, e2, h2⟩ := splitPort_deref m2 hmn
  obtain ⟨b3, e3, h3⟩ := splitPort_deref m3 hm
  refine ⟨mem, i, ⟨splitPort_carries m0 hP, k1, splitPort_carries m2 hG, k3, ?_⟩,
    ports_solve hamd hn hm hrow e0 e1 e2 e3 k1.1 k3.1 h0 h1 h2 h3 ?_⟩
  · by_cases hp : p = 0
    · exact Or.inl ⟨if_pos hp, hp⟩
    · exact Or.inr ⟨_, _, if_neg hp, by omega, splitPort_carries m4 hA, splitPort_carries m5 hb⟩
  · by_cases hp : p = 0
    · exact Or.inl ⟨if_pos hp, hp⟩
    · have hp' : 0 < p := by omega
      obtain ⟨b4, e4, h4⟩ := splitPort_deref m4 (Nat.mul_pos hp' (by omega))
      obtain ⟨b5, e5, h5⟩ := splitPort_deref m5 hp'
      exact Or.inr ⟨_, _, _, _, if_neg hp, hp', (splitPort_carries m5 hb).1, e4, e5, h4, h5⟩

/-! ## Widths are not checked -/

theorem forN_error_inv {σ : Type} {f : Int → σ → M σ} {e : Err} (Inv : Nat → σ → Prop) (a : Nat) :
    ∀ (d k b : Nat) (i : Int) (s : σ), d + b = a → d < k → Inv b s →
    (∀ (j : Nat) s, j < a → Inv j s → ∃ s', f (i + ((j : Int) - b)) s = .ok s' ∧ Inv (j + 1) s') →
    (∀ s, Inv a s → f (i + ((a : Int) - b)) s = .error e) → forN k i s f = .error e
  | d, 0, _, _, _, _, h, _, _, _ => absurd h (Nat.not_lt_zero _)
  | 0, k + 1, b, i, s, hd, _, hi, _, h => by
    have hb : b = a := by omega
    subst hb
    have := h s hi
    simp only [sub_self, add_zero] at this
    unfold forN
    rw [this]
    rfl
  | d + 1, k + 1, b, i, s, hd, hk, hi, hs, h => by
    obtain ⟨s', e1, h1⟩ := hs b s (by omega) hi
    simp only [sub_self, add_zero] at e1
    unfold forN
    rw [e1, ok_bind]
    refine forN_error_inv Inv a d k (b + 1) (i + 1) s' (by omega) (by omega) h1 ?_ ?_
    · intro j s'' hj hinv
      have := hs j s'' hj hinv
      rwa [show i + 1 + ((j : Int) - ((b + 1 : Nat) : Int)) = i + ((j : Int) - b) by push_cast; ring]
    · intro s'' hinv
      have := h s'' hinv
      rwa [show i + 1 + ((a : Int) - ((b + 1 : Nat) : Int)) = i + ((a : Int) - b) by push_cast; ring]

theorem rd_end {α : Type} {b : Buf α} {i : Int} (h : (b.length : Int) ≤ i) : rd b i = .error .oob := by
  unfold rd
  rw [if_neg (by omega)]
  have : b[i.toNat]? = none := by
    rw [List.getElem?_eq_none_iff]
    omega
  rw [this]

/-- The conversion of a matrix whose array is too short. -/
theorem densetosparse_short {rows cols L : Nat} {pr : Buf K} {f : Nat → K} (hl : pr.length = L) (hf : Buf.Has pr L f)
    (h : L < rows * cols) : densetosparse rows cols pr = .error .oob := by
  have hr : 0 < rows := by
    rcases Nat.eq_zero_or_pos rows with h0 | h0
    · rw [h0] at h; simp at h
    · exact h0
  have hq : L / rows < cols := Nat.div_lt_of_lt_mul h
  have hmod : L % rows < rows := Nat.mod_lt _ hr
  have hsplit : (L / rows) * rows + L % rows = L := Nat.div_add_mod' L rows
  unfold densetosparse
  obtain ⟨Ap, e, hAp, _⟩ := forI_fill (n := cols + 1) (b := malloc ((cols : Int) + 1)) (f := fun i Ap => wr Ap i 0) (by simp) (fun _ => (0 : Int))
    (fun _ _ _ _ _ _ => rfl)
  have ec : ((cols : Int) + 1) = ((cols + 1 : Nat) : Int) := by omega
  simp only [ec] at e hAp ⊢
  rw [e, ok_bind]
  have key : forI 0 (cols : Int) (Ap, (0 : Int)) (fun j st => (do
      let count ← forI 0 (rows : Int) st.2 fun i count => do
        let v ← rd pr (j * rows + i)
        if Scalar.eqb v 0 then pure count else pure (count + 1)
      let Ap ← wr st.1 (j + 1) count
      pure (Ap, count))) = .error .oob := by
    unfold forI
    refine forN_error_inv (fun _ st => st.1.length = cols + 1) (L / rows) (L / rows) _ 0 _ _ (by omega) (by omega) ?_ ?_ ?_
    · simpa using hAp
    · rintro j ⟨Ap', ct⟩ hj hinv
      simp only at hinv
      have hin : ∃ r, forN ((rows : Int) - 0).toNat 0 ct (fun i count => (do
          let v ← rd pr ((0 + ((j : Int) - ((0 : Nat) : Int))) * rows + i)
          if Scalar.eqb v 0 then pure count else pure (count + 1))) = .ok r := by
        obtain ⟨r, e, _⟩ := forI_spec (lo := 0) (hi := rows) (Nat.zero_le _) (s := ct)
          (f := fun i count => (do
            let v ← rd pr ((0 + ((j : Int) - ((0 : Nat) : Int))) * rows + i)
            if Scalar.eqb v 0 then pure count else pure (count + 1)))
          (fun _ _ => True) trivial (by
            intro i s _ hi _
            have e : (0 + ((j : Int) - ((0 : Nat) : Int))) * rows + i = ((j * rows + i : Nat) : Int) := by push_cast; ring
            have hlt : j * rows + i < L := by
              have h1 : (j + 1) * rows ≤ (L / rows) * rows := Nat.mul_le_mul_right _ hj
              have h2 : (j + 1) * rows = j * rows + rows := by ring
              omega
            rw [e, hf.rd hlt, ok_bind]
            by_cases hz : Scalar.eqb (f (j * rows + i)) 0 = true
            · rw [if_pos hz]; exact Spec.ok trivial
            · rw [if_neg hz]; exact Spec.ok trivial)
        exact ⟨r, e⟩
      obtain ⟨r, er⟩ := hin
      refine ⟨(Ap'.set (j + 1) (some r), r), ?_, by simp [hinv]⟩
      rw [er, ok_bind]
      have e1 : (0 + ((j : Int) - ((0 : Nat) : Int))) + 1 = ((j + 1 : Nat) : Int) := by push_cast; ring
      rw [e1, wr_ok (by show j + 1 < Ap'.length; omega), ok_bind]
      rfl
    · rintro ⟨Ap', ct⟩ _
      simp only
      rw [forN_error (e := .oob) _ (L % rows) _ _ (by omega) ?_ ?_, error_bind]
      · intro i s hi
        have e : (0 + (((L / rows : Nat) : Int) - ((0 : Nat) : Int))) * rows + (0 + (i : Int))
            = ((L / rows * rows + i : Nat) : Int) := by push_cast; ring
        rw [e, hf.rd (by omega), ok_bind]
        by_cases hz : Scalar.eqb (f (L / rows * rows + i)) 0 = true
        · rw [if_pos hz]; exact ⟨_, rfl⟩
        · rw [if_neg hz]; exact ⟨_, rfl⟩
      · intro s
        have e : (0 + (((L / rows : Nat) : Int) - ((0 : Nat) : Int))) * rows + (0 + ((L % rows : Nat) : Int))
            = ((L / rows * rows + L % rows : Nat) : Int) := by push_cast; ring
        rw [e, hsplit, rd_end (by omega), error_bind]
  rw [key]
  rfl

theorem has_full {b : Buf K} (h : ∀ c ∈ b, c ≠ none) : ∃ f, Buf.Has b b.length f := by
  refine ⟨fun i => match b[i]? with | some (some v) => v | _ => 0, fun i hi => ?_⟩
  have h1 : b[i]? = some b[i] := List.getElem?_eq_getElem hi
  have h2 := h b[i] (List.getElem_mem hi)
  cases hc : b[i] with
  | none => exact absurd hc h2
  | some v => simp only [h1, hc]

/-- The conversion either succeeds or reads behind the array. -/
theorem convert_full {rows cols : Nat} {pr : Buf K} (h : ∀ c ∈ pr, c ≠ none) :
    (rows * cols ≤ pr.length ∧ ∃ S, convertDense COLUMN_MAJOR_ORDERING rows cols pr = .ok S) ∨
    (pr.length < rows * cols ∧ convertDense COLUMN_MAJOR_ORDERING rows cols pr = .error .oob) := by
  obtain ⟨f, hf⟩ := has_full h
  unfold convertDense
  simp only [if_true]
  rcases Nat.lt_or_ge pr.length (rows * cols) with hl | hl
  · exact Or.inr ⟨hl, densetosparse_short rfl hf hl⟩
  · exact Or.inl ⟨hl, _, densetosparse_eq (f := f) fun i hi => hf i (by omega)⟩

/-- **C95**, widths: if the object with the first element of a matrix signal holds fewer numbers from there on
than the matrix has entries, the block reads behind it. This is so for a signal of a smaller width in an array of its
own, and for a signal with elements from different blocks. -/
theorem C95_short (amd : Amd) {mem : List (Buf K)} {i : SfPorts} {P c G h : Buf K}
    (eP : i.P.deref mem = .ok P) (ec : i.c.deref mem = .ok c) (eG : i.G.deref mem = .ok G) (eh : i.h.deref mem = .ok h)
    (hP : ∀ v ∈ P, v ≠ none) (hG : ∀ v ∈ G, v ≠ none)
    (hs : (i.eq = none ∧ (P.length < i.c.length * i.c.length ∨ G.length < i.h.length * i.c.length)) ∨
      ∃ iA ib A b, i.eq = some (iA, ib) ∧ ib ≠ [] ∧ iA.deref mem = .ok A ∧ ib.deref mem = .ok b ∧ (∀ v ∈ A, v ≠ none) ∧
        (P.length < i.c.length * i.c.length ∨ G.length < i.h.length * i.c.length ∨
          A.length < ib.length * i.c.length)) :
    mdlOutputsPorts amd mem i = .error .oob := by
  unfold mdlOutputsPorts
  rw [eP, ok_bind, ec, ok_bind, eG, ok_bind, eh, ok_bind]
  rcases hs with ⟨he, hs⟩ | ⟨iA, ib, A, b, he, hb, eA, eb, hA, hs⟩
  · rw [he]
    simp only
    unfold mdlOutputs QP_SETUP_dense
    simp only [pure_eq_ok, ok_bind]
    rcases convert_full (rows := i.c.length) (cols := i.c.length) hP with ⟨l1, S, e1⟩ | ⟨l1, e1⟩
    · rcases convert_full (rows := i.h.length) (cols := i.c.length) hG with ⟨l2, T, e2⟩ | ⟨l2, e2⟩
      · omega
      · rw [e1, ok_bind, e2]; rfl
    · rw [e1]; rfl
  · rw [he]
    simp only
    rw [eA, ok_bind, eb, ok_bind]
    have hp : ((ib.length : Nat) : Int) ≠ 0 := by
      have := List.length_pos_of_ne_nil hb
      omega
    unfold mdlOutputs QP_SETUP_dense
    simp only [pure_eq_ok, ne_eq, hp, not_false_eq_true, if_true]
    rcases convert_full (rows := ib.length) (cols := i.c.length) hA with ⟨l3, U, e3⟩ | ⟨l3, e3⟩
    · rw [e3, ok_bind, ok_bind]
      rcases convert_full (rows := i.c.length) (cols := i.c.length) hP with ⟨l1, S, e1⟩ | ⟨l1, e1⟩
      · rcases convert_full (rows := i.h.length) (cols := i.c.length) hG with ⟨l2, T, e2⟩ | ⟨l2, e2⟩
        · omega
        · rw [e1, ok_bind, e2]; rfl
      · rw [e1]; rfl
    · rw [e3]; rfl

end Ports

/-! ## Examples -/

section Examples

/-- Minimise `x0 + x1²/2` subject to `x0 + x1 + x2 ≤ 1`. -/
def sfSignals : Signals ℚ where
  P := fun i => if i = 4 then 1 else 0
  c := fun i => if i = 0 then 1 else 0
  A := fun _ => 0
  b := fun _ => 0
  G := fun _ => 1
  h := fun _ => 1

/-- The same with `x0 + 2 x1 + 2 x2 ≤ 1`. -/
def sfSignals' : Signals ℚ := { sfSignals with G := fun i => if i = 0 then 1 else 2 }

/-- Pointers that carry the first program and make the block solve the second. -/
example : ∃ mem i, SfPorts.Carry i mem 3 1 0 sfSignals ∧
    Solves failAmd (sfSignals'.problem 3 1 0) (mdlOutputsPorts failAmd mem i) :=
  C95_scattered failAmd_safe (by decide) (by decide)
    (fun r hr => ⟨0, by decide, by interval_cases r; decide +kernel⟩) rfl rfl rfl rfl rfl rfl

/-- One object that holds all signals side by side. -/
def sfMem : List (Buf ℚ) :=
  [Buf.ofFn 9 sfSignals.P, Buf.ofFn 3 sfSignals.c, Buf.ofFn 3 sfSignals.G, Buf.ofFn 1 sfSignals.h]

/-- Pointers to consecutive elements of object `o`. -/
def rowPort (o w : Nat) : Port := (List.range w).map fun i => (o, i)

theorem rowPort_contiguous (o w : Nat) : (rowPort o w).Contiguous := by
  refine ⟨o, 0, fun i hi => ?_⟩
  simp only [rowPort, List.length_map, List.length_range] at hi
  simp [rowPort, List.getElem?_map, List.getElem?_range hi]

theorem rowPort_carries {K : Type} {mem : List (Buf K)} {o w : Nat} {f : Nat → K} (h : mem[o]? = some (Buf.ofFn w f)) :
    (rowPort o w).Carries mem w f :=
  ⟨by simp [rowPort], fun i hi => ⟨(o, i), _, by simp [rowPort, List.getElem?_map, List.getElem?_range hi], h,
    Buf.has_ofFn w f i hi⟩⟩

def sfPorts : SfPorts where
  P := rowPort 0 9
  c := rowPort 1 3
  eq := none
  G := rowPort 2 3
  h := rowPort 3 1

/-- With pointers to consecutive elements it solves the first. -/
example : Solves failAmd (sfSignals.problem 3 1 0) (mdlOutputsPorts failAmd sfMem sfPorts) :=
  C95_contiguous failAmd_safe (by decide) (by decide)
    (fun r hr => ⟨0, by decide, by interval_cases r; decide +kernel⟩)
    ⟨rowPort_carries rfl, rowPort_carries rfl, rowPort_carries rfl, rowPort_carries rfl, Or.inl ⟨rfl, rfl⟩⟩
    ⟨rowPort_contiguous _ _, rowPort_contiguous _ _, rowPort_contiguous _ _, rowPort_contiguous _ _, by intro A b h; cases h⟩

/-- The same ports, with `P` given by its diagonal only. -/
example : mdlOutputsPorts failAmd
    ([Buf.ofFn 3 (fun _ => 1), Buf.ofFn 3 sfSignals.c, Buf.ofFn 3 sfSignals.G, Buf.ofFn 1 sfSignals.h])
    { sfPorts with P := rowPort 0 3 } = .error .oob :=
  C95_short failAmd rfl rfl rfl rfl (by simp [Buf.ofFn]) (by simp [Buf.ofFn]) (Or.inl ⟨rfl, Or.inl (by decide)⟩)

end Examples

end Verif
