import Verif.Model.LdlOps
import Verif.Lemmas.LdlSolve

/-! # Counting the operations of the factorisation and of the solves -/

set_option linter.unusedSectionVars false

namespace Verif

open Finset

/-- `a` more divisions and `b` more multiplications with a subtraction. -/
def Ops.plus (o : Ops) (a b : Nat) : Ops := ⟨o.div + a, o.ms + b⟩

theorem Ops.plus_zero (o : Ops) : o.plus 0 0 = o := rfl

theorem Ops.plus_plus (o : Ops) (a b c d : Nat) : (o.plus a b).plus c d = o.plus (a + c) (b + d) := by
  simp [Ops.plus, Nat.add_assoc]

section loops

variable {σ : Type}

/-- A loop that counts: body `t` does what `g` does and adds `a t` and `b t`. -/
theorem forN_ops {f : Int → σ × Ops → M (σ × Ops)} {g : Int → σ → M σ} (k : Nat) (i : Int) (a b : Nat → Nat) (s : σ)
    (o : Ops) (h : ∀ t : Nat, t < k → ∀ s o, f (i + t) (s, o) = g (i + t) s >>= fun s' => .ok (s', o.plus (a t) (b t))) :
    forN k i (s, o) f
      = forN k i s g >>= fun s' => .ok (s', o.plus (∑ t ∈ range k, a t) (∑ t ∈ range k, b t)) := by
  induction k generalizing i a b s o with
  | zero => rfl
  | succ k ih =>
    have h0 := h 0 (by omega) s o
    simp only [Nat.cast_zero, add_zero] at h0
    simp only [forN]
    rw [h0]
    cases hg : g i s with
    | error e => rfl
    | ok s' =>
      simp only [ok_bind]
      rw [ih (i + 1) (fun t => a (t + 1)) (fun t => b (t + 1))]
      · simp only [Ops.plus_plus, Finset.sum_range_succ', Nat.add_comm]
      · intro t ht s o
        have := h (t + 1) (by omega) s o
        rw [show i + ((t + 1 : Nat) : Int) = i + 1 + t by push_cast; ring] at this
        exact this

theorem forDownN_ops {f : Int → σ × Ops → M (σ × Ops)} {g : Int → σ → M σ} (k : Nat) (i : Int) (a b : Nat → Nat) (s : σ)
    (o : Ops) (h : ∀ t : Nat, t < k → ∀ s o, f (i - t) (s, o) = g (i - t) s >>= fun s' => .ok (s', o.plus (a t) (b t))) :
    forDownN k i (s, o) f
      = forDownN k i s g >>= fun s' => .ok (s', o.plus (∑ t ∈ range k, a t) (∑ t ∈ range k, b t)) := by
  induction k generalizing i a b s o with
  | zero => rfl
  | succ k ih =>
    have h0 := h 0 (by omega) s o
    simp only [Nat.cast_zero, sub_zero] at h0
    simp only [forDownN]
    rw [h0]
    cases hg : g i s with
    | error e => rfl
    | ok s' =>
      simp only [ok_bind]
      rw [ih (i - 1) (fun t => a (t + 1)) (fun t => b (t + 1))]
      · simp only [Ops.plus_plus, Finset.sum_range_succ', Nat.add_comm]
      · intro t ht s o
        have := h (t + 1) (by omega) s o
        rw [show i - ((t + 1 : Nat) : Int) = i - 1 - t by push_cast; ring] at this
        exact this

/-- A loop whose body adds one multiplication with a subtraction. -/
theorem forI_ms {f : Int → σ × Ops → M (σ × Ops)} {g : Int → σ → M σ} (lo hi : Int) (s : σ) (o : Ops)
    (h : ∀ p s o, f p (s, o) = g p s >>= fun s' => .ok (s', o.addMs)) :
    forI lo hi (s, o) f = forI lo hi s g >>= fun s' => .ok (s', o.plus 0 (hi - lo).toNat) := by
  unfold forI
  rw [forN_ops (g := g) _ _ (fun _ => 0) (fun _ => 1) s o (fun t _ s o => h _ s o)]
  simp

/-- Forgetting the counter. -/
theorem forN_forget {f : Int → σ × Ops → M (σ × Ops)} {g : Int → σ → M σ} (k : Nat) (i : Int) (so : σ × Ops)
    (h : ∀ p so, Prod.fst <$> f p so = g p so.1) : Prod.fst <$> forN k i so f = forN k i so.1 g := by
  induction k generalizing i so with
  | zero => rfl
  | succ k ih =>
    simp only [forN]
    rw [← h i so]
    cases f i so with
    | error e => rfl
    | ok s' => exact ih (i + 1) s'

end loops

section

variable {K : Type} [Zero K] [One K] [Add K] [Sub K] [Mul K] [Div K] [Neg K] [Scalar K]

/-- The counter does not influence the computation of a node, which costs one division and one more
multiplication than its column has entries so far. -/
theorem numNodeO_eq (Lp : Buf Int) (k top : Int) (st : NumSt K) (o : Ops) :
    numNodeO Lp k top (st, o) = numNode Lp k top st >>= fun st' => (do
      let i ← rd st.Pattern top
      let c ← rd st.Lnz i
      .ok (st', o.plus 1 (c.toNat + 1))) := by
  unfold numNodeO numNode
  simp only
  cases hi : rd st.Pattern top with
  | error e => rfl
  | ok i =>
  simp only [ok_bind]
  cases rd st.Y i with
  | error e => rfl
  | ok yi =>
  simp only [ok_bind]
  cases wr st.Y i 0 with
  | error e => rfl
  | ok Y =>
  simp only [ok_bind]
  cases rd Lp i with
  | error e => rfl
  | ok lp =>
  simp only [ok_bind]
  cases hc : rd st.Lnz i with
  | error e => rfl
  | ok c =>
  simp only [ok_bind]
  rw [forI_ms (g := fun p Y => do
    let r ← rd st.Li p
    let y ← rd Y r
    let l ← rd st.Lx p
    wr Y r (y - l * yi))]
  · simp only [bind_assoc, ok_bind, add_sub_cancel_left, pure_eq_ok]
    rfl
  · intro p s o
    simp only [bind_assoc, pure_eq_ok]

theorem numNodeO_forget (Lp : Buf Int) (k top : Int) (so : NumSt K × Ops) :
    Prod.fst <$> numNodeO Lp k top so = numNode Lp k top so.1 := by
  obtain ⟨st, o⟩ := so
  unfold numNodeO numNode
  simp only [map_bind, map_pure]
  refine bind_congr fun i => bind_congr fun yi => bind_congr fun Y => bind_congr fun lp => bind_congr fun c => ?_
  rw [forI_ms (g := fun p Y => do
    let r ← rd st.Li p
    let y ← rd Y r
    let l ← rd st.Lx p
    wr Y r (y - l * yi))]
  · simp only [bind_assoc, ok_bind]
  · intro p s o
    simp only [bind_assoc, pure_eq_ok]

/-- Row `k` up to the loop over its nodes: where that loop starts, and the arrays. -/
def numHead (n : Int) (Ap Ai : Buf Int) (Ax : Buf K) (Parent : Buf Int)
    (P Pinv : Option (Buf Int)) (k : Int) (st : NumSt K) : M (Int × NumSt K) := do
  let Y ← wr st.Y k 0
  let Flag ← wr st.Flag k k
  let Lnz ← wr st.Lnz k 0
  let kk ← permAt P k
  let p2 ← rd Ap (kk + 1)
  let p1 ← rd Ap kk
  let r ← forI p1 p2 (n, Y, st.Pattern, Flag) fun p s => do
    let a ← rd Ai p
    let i ← permAt Pinv a
    if i ≤ k then do
      let y ← rd s.2.1 i
      let v ← rd Ax p
      let Y ← wr s.2.1 i (y + v)
      let q ← numPath n Parent k i s.2.2.1 s.2.2.2
      let t ← numMove n q.2.1 s.1 q.2.2.1
      pure (t.1, Y, t.2, q.2.2.2)
    else pure s
  let yk ← rd r.2.1 k
  let D ← wr st.D k yk
  let Y ← wr r.2.1 k 0
  pure (r.1, { Lnz := Lnz, Li := st.Li, Lx := st.Lx, D := D, Y := Y, Pattern := r.2.2.1, Flag := r.2.2.2 })

theorem numRow_head (n : Int) (Ap Ai : Buf Int) (Ax : Buf K) (Lp Parent : Buf Int)
    (P Pinv : Option (Buf Int)) (k : Int) (st : NumSt K) :
    numRow n Ap Ai Ax Lp Parent P Pinv k st = numHead n Ap Ai Ax Parent P Pinv k st >>= fun r => (do
      let st ← forI r.1 n r.2 fun top st => numNode Lp k top st
      let dk ← rd st.D k
      let D ← wr st.D k (regPivot dk)
      pure { st with D := D }) := by
  unfold numRow numHead
  simp only [bind_assoc, pure_bind]

theorem numRowO_head (n : Int) (Ap Ai : Buf Int) (Ax : Buf K) (Lp Parent : Buf Int)
    (P Pinv : Option (Buf Int)) (k : Int) (st : NumSt K) (o : Ops) :
    numRowO n Ap Ai Ax Lp Parent P Pinv k (st, o) = numHead n Ap Ai Ax Parent P Pinv k st >>= fun r => (do
      let so ← forI r.1 n (r.2, o) fun top so => numNodeO Lp k top so
      let dk ← rd so.1.D k
      let D ← wr so.1.D k (regPivot dk)
      pure ({ so.1 with D := D }, so.2)) := by
  unfold numRowO numHead
  simp only [bind_assoc, pure_bind]

theorem numRowO_forget (n : Int) (Ap Ai : Buf Int) (Ax : Buf K) (Lp Parent : Buf Int)
    (P Pinv : Option (Buf Int)) (k : Int) (so : NumSt K × Ops) :
    Prod.fst <$> numRowO n Ap Ai Ax Lp Parent P Pinv k so = numRow n Ap Ai Ax Lp Parent P Pinv k so.1 := by
  obtain ⟨st, o⟩ := so
  rw [numRowO_head, numRow_head, map_bind]
  refine bind_congr fun r => ?_
  have := forN_forget (f := fun top so => numNodeO Lp k top so) (g := fun top st => numNode Lp k top st)
    (n - r.1).toNat r.1 (r.2, o) (fun p so => numNodeO_forget Lp k p so)
  simp only [forI]
  rw [← this]
  simp only [map_bind, map_pure, bind_map_left]

/-- The counter does not influence the factorisation. -/
theorem LDL_numericO_forget (n : Int) (Ap Ai : Buf Int) (Ax : Buf K) (Lp Parent : Buf Int) (st : NumSt K)
    (P Pinv : Option (Buf Int)) :
    Prod.fst <$> LDL_numericO n Ap Ai Ax Lp Parent st P Pinv = LDL_numeric n Ap Ai Ax Lp Parent st P Pinv := by
  unfold LDL_numericO LDL_numeric forI
  rw [← forN_forget (f := fun k so => numRowO n Ap Ai Ax Lp Parent P Pinv k so) _ _ (st, ⟨0, 0⟩)
    (fun k so => numRowO_forget n Ap Ai Ax Lp Parent P Pinv k so)]
  simp only [map_bind, map_pure, bind_map_left]

theorem numHead_spec {n : Nat} {A : Csc K} {p q : Nat → Nat} {Ap Ai : Buf Int}
    {P Pinv : Option (Buf Int)} (h : LdlArgs n A p q Ap Ai P) {Ax : Buf K}
    (hAx : Buf.Has Ax A.nnz A.pr) (hQ : PermArg n Pinv q) {Parent : Buf Int}
    (hPar : Buf.Has Parent n (fun j => enc (tree (permPat A p q) n j))) {k : Nat} (hk : k < n)
    {s : FSt K} {st : NumSt K} (hst : NumRep (permPat A p q) n k k [] s st)
    (hfl : ∀ j, j < k → ∃ v : Int, st.Flag[j]? = some (some v) ∧ v < k) :
    Spec (numHead n Ap Ai Ax Parent P Pinv k st) (fun r => ∃ T, r.1 = ((n - T.length : Nat) : Int) ∧
      Topo (permPat A p q) k T ∧ PatHas n r.2.Pattern T ∧ FlagRep k r.2.Flag (· ∈ T) ∧ r.2.lens = st.lens ∧
      NumRep (permPat A p q) n k (k + 1) [] (rowInit k (permCol A p q k) s) r.2) := by
  set C := permPat A p q with hC
  unfold numHead
  have hnn := hst.nn
  have hnD := hst.nD
  have hnY := hst.nY
  have hnP := hst.nP
  have hnF := hst.nF
  have hpk := h.perm.p_lt k hk
  have e : ((p k : Nat) : Int) + 1 = ((p k + 1 : Nat) : Int) := by omega
  rw [wr_ok (by omega), ok_bind, wr_ok (by omega), ok_bind, wr_ok (by omega), ok_bind,
    h.p.at hk, ok_bind, e, h.ap.rd (by omega), ok_bind, h.ap.rd (by omega), ok_bind]
  have hmono := h.wf.mono (p k) (by rw [h.an]; exact hpk)
  have hclen : (permCol A p q k).length = A.jc (p k + 1) - A.jc (p k) := length_permCol A p q k
  set Y0 : Nat → K := Function.update s.Y k 0 with hY0
  refine Spec.bind (forI_spec (lo := A.jc (p k)) (hi := A.jc (p k + 1)) hmono
    (fun t (r : Int × Buf K × Buf Int × Buf Int) => ∃ T : List Nat,
      r.1 = ((n - T.length : Nat) : Int) ∧ PTopo C k T ∧
      (∀ i ∈ (C k).take (t - A.jc (p k)), i < k → i ∈ T) ∧
      r.2.1.length = st.Y.length ∧
      Buf.Has r.2.1 (k + 1) (addCol k ((permCol A p q k).take (t - A.jc (p k))) Y0) ∧
      r.2.2.1.length = st.Pattern.length ∧ PatHas n r.2.2.1 T ∧
      r.2.2.2.length = st.Flag.length ∧ FlagRep k r.2.2.2 (· ∈ T)) ?_ ?_) ?_
  · refine ⟨[], by simp, PTopo.nil C k, by simp, by simp, ?_, rfl, ⟨hnP, by simp, by simp⟩,
      by simp, ?_, ?_⟩
    · simp only [Nat.sub_self, List.take_zero, addCol, List.foldl_nil]
      exact hst.Y.push (by omega) _ (by rw [hY0, Function.update_self])
        (fun i hi => by rw [hY0, Function.update_of_ne (by omega)])
    · intro j hj
      obtain ⟨v, hv1, hv2⟩ := hfl j hj
      simp only
      rw [List.getElem?_set, if_neg (by omega)]
      refine ⟨v, hv1, ?_, by omega⟩
      simp only [List.not_mem_nil, iff_false]
      omega
    · simp [show k < st.Flag.length by omega]
  · rintro t ⟨top, Y, Pat, Fl⟩ ht1 ht2 ⟨T, h1, h2, h3, h4, h5, h6, h7, h8, h9⟩
    simp only at h1 h4 h5 h6 h7 h8 h9
    subst h1
    have htn : t < A.nnz := lt_of_lt_of_le ht2 (h.wf.le_nnz (by rw [h.an]; omega))
    have hirt := h.wf.ir_lt t htn
    rw [h.am] at hirt
    have hget := permCol_get A p q (k := k) (t := t - A.jc (p k)) (by omega)
    rw [show A.jc (p k) + (t - A.jc (p k)) = t by omega] at hget
    have hgetC : (C k)[t - A.jc (p k)]? = some (q (A.ir t)) := by
      rw [hC, permPat, List.getElem?_map, hget]; rfl
    have et : t + 1 - A.jc (p k) = t - A.jc (p k) + 1 := by omega
    have htake : (C k).take (t + 1 - A.jc (p k))
        = (C k).take (t - A.jc (p k)) ++ [q (A.ir t)] := by
      rw [et, List.take_add_one, hgetC]; rfl
    have htake2 : (permCol A p q k).take (t + 1 - A.jc (p k))
        = (permCol A p q k).take (t - A.jc (p k)) ++ [(q (A.ir t), A.pr t)] := by
      rw [et, List.take_add_one, hget]; rfl
    rw [h.ai.rd htn, ok_bind, hQ.at hirt, ok_bind]
    refine Spec.ite ?_ ?_
    · intro hle
      have hle' : q (A.ir t) ≤ k := by omega
      have hi : q (A.ir t) = k ∨ Fill C k (q (A.ir t)) := by
        rcases Nat.lt_or_ge (q (A.ir t)) k with hlt | hge
        · exact Or.inr (Fill.base (List.mem_of_getElem? hgetC) hlt)
        · exact Or.inl (by omega)
      have hYl : q (A.ir t) < Y.length := by omega
      rw [h5.rd (by omega), ok_bind, hAx.rd htn, ok_bind, wr_ok hYl, ok_bind]
      refine Spec.bind (numPath_spec hk h2 hPar h7 (by omega) h9 hi) ?_
      rintro ⟨x, len, Pat1, Fl1⟩ ⟨L, g1, g2, g3, g4, g5, g6, g7, g8⟩
      simp only at g1 g4 g5 g6 g7 g8
      subst g1
      have hcap : (L ++ T).length ≤ n := by
        have := PTopo.length_le g2.nodup (fun j hj => (g2.mem j hj).lt)
        omega
      rw [List.length_append] at hcap
      refine Spec.bind (numMove_spec g6 g7 hcap) ?_
      rintro ⟨top2, Pat2⟩ ⟨f1, f2, f3⟩
      simp only at f1 f2 f3
      refine Spec.ok ⟨L ++ T, f1, g2, ?_, by simp [h4], ?_, by simp only; rw [f2, g4, h6], f3,
        by simp only; rw [g5, h8], g8⟩
      · rw [htake]
        intro i hi' hik
        rcases List.mem_append.mp hi' with hi' | hi'
        · exact List.mem_append_right _ (h3 i hi' hik)
        · rw [List.mem_singleton] at hi'
          rcases g3 with g3 | g3
          · omega
          · rw [hi']; exact g3
      · simp only
        rw [htake2, addCol_append, if_pos hle']
        exact h5.set (by omega) _
    · intro hgt
      have hgt' : ¬ q (A.ir t) ≤ k := by omega
      refine Spec.ok ⟨T, rfl, h2, ?_, h4, ?_, h6, h7, h8, h9⟩
      · rw [htake]
        intro i hi' hik
        rcases List.mem_append.mp hi' with hi' | hi'
        · exact h3 i hi' hik
        · rw [List.mem_singleton] at hi'
          omega
      · simp only
        rw [htake2, addCol_append, if_neg hgt']
        exact h5
  · rintro ⟨top, Y, Pat, Fl⟩ ⟨T, h1, h2, h3, h4, h5, h6, h7, h8, h9⟩
    simp only at h1 h4 h5 h6 h7 h8 h9
    subst h1
    have hCl : (C k).length = A.jc (p k + 1) - A.jc (p k) := by
      rw [hC, permPat, List.length_map, hclen]
    rw [← hCl, List.take_length] at h3
    rw [← hclen, List.take_length] at h5
    have hT : Topo C k T := h2.topo h3
    simp only
    rw [h5.rd (by omega), ok_bind, wr_ok (by omega), ok_bind, wr_ok (by omega), ok_bind]
    have hcolk : s.col k = [] := by
      have := hst.rows k
      rw [fillRows_nil (by omega)] at this
      simpa using this
    have hinit : NumRep C n k (k + 1) [] (rowInit k (permCol A p q k) s)
        { Lnz := List.set st.Lnz k (some 0), Li := st.Li, Lx := st.Lx,
          D := List.set st.D k (some (addCol k (permCol A p q k) Y0 k)),
          Y := List.set Y k (some 0), Pattern := Pat, Flag := Fl } := by
      refine ⟨?_, ?_, ?_, hst.cells, hst.rows, by simp, by simpa using hnn, by simpa using hnD,
        by simp only [List.length_set]; omega, by simp only; omega, by simp only; omega,
        hst.nLi, hst.nLx⟩
      · refine hst.lnz.push (by omega) _ ?_ (fun i _ => rfl)
        rw [rowInit_col, hcolk]; rfl
      · refine hst.D.push (by omega) _ ?_ (fun i hi => ?_)
        · simp [rowInit, hY0]
        · simp only [rowInit]
          rw [Function.update_of_ne (by omega)]
      · exact h5.set (by omega) _
    exact Spec.ok ⟨T, rfl, hT, h7, h9, by simp [NumSt.lens, h4, h6, h8], hinit⟩

theorem numRowO_spec {n : Nat} {A : Csc K} {p q : Nat → Nat} {Ap Ai : Buf Int}
    {P Pinv : Option (Buf Int)} (h : LdlArgs n A p q Ap Ai P) {Ax : Buf K}
    (hAx : Buf.Has Ax A.nnz A.pr) (hQ : PermArg n Pinv q) {Lp Parent : Buf Int}
    (hLp : Buf.Has Lp (n + 1) (fun j => (lpOf (permPat A p q) n j : Int)))
    (hPar : Buf.Has Parent n (fun j => enc (tree (permPat A p q) n j))) {k : Nat} (hk : k < n)
    {s : FSt K} {st : NumSt K} (hst : NumRep (permPat A p q) n k k [] s st)
    (hfl : ∀ j, j < k → ∃ v : Int, st.Flag[j]? = some (some v) ∧ v < k) (o : Ops) :
    Spec (numRowO n Ap Ai Ax Lp Parent P Pinv k (st, o)) (fun r => ∃ T, Topo (permPat A p q) k T ∧
      r.2 = o.plus T.length (T.map fun i => (fillRows (permPat A p q) k i).length + 1).sum) := by
  set C := permPat A p q with hC
  rw [numRowO_head]
  refine Spec.bind (numHead_spec h hAx hQ hPar hk hst hfl) ?_
  rintro ⟨top, st1⟩ ⟨T, h1, hT, h7, h9, hl, hinit⟩
  simp only at h1 h7 h9 hl hinit
  subst h1
  have hTl : T.length ≤ n := h7.le
  refine Spec.bind (forI_spec (lo := n - T.length) (hi := n) (by omega)
    (fun j (so : NumSt K × Ops) =>
      NumRep C n k (k + 1) (T.take (j - (n - T.length)))
        ((T.take (j - (n - T.length))).foldl (nodeF k) (rowInit k (permCol A p q k) s)) so.1 ∧
      so.1.Pattern = st1.Pattern ∧ so.2 = o.plus (T.take (j - (n - T.length))).length
        ((T.take (j - (n - T.length))).map fun i => (fillRows C k i).length + 1).sum) ?_ ?_) ?_
  · refine ⟨?_, rfl, ?_⟩
    · simpa using hinit
    · simp only [Nat.sub_self, List.take_zero]; rfl
  · rintro j ⟨st2, o2⟩ hj1 hj2 ⟨r1, r3, r4⟩
    simp only at r1 r3 r4
    obtain ⟨x, rfl⟩ : ∃ x, j = n - T.length + x := ⟨j - (n - T.length), by omega⟩
    have hx : x < T.length := by omega
    have ex : n - T.length + x - (n - T.length) = x := by omega
    have ex1 : n - T.length + x + 1 - (n - T.length) = x + 1 := by omega
    rw [ex] at r1 r4
    have hgT : T[x]? = some T[x] := List.getElem?_eq_getElem hx
    have hpat : st2.Pattern[n - T.length + x]? = some (some ((T[x] : Nat) : Int)) := by
      rw [r3]; exact h7.get x _ hgT
    have hnotin : T[x] ∉ T.take x := by
      intro hmem
      obtain ⟨y, hy1, hy2⟩ := List.mem_take_iff_getElem.mp hmem
      have := (List.Nodup.getElem_inj_iff hT.nodup).mp hy2
      omega
    have hfill := (hT.mem _).mp (List.getElem_mem hx)
    rw [numNodeO_eq]
    refine Spec.bind (numNode_spec hk r1 hLp hpat hfill hnotin) ?_
    rintro st3 ⟨z1, z2, z3, z4⟩
    have hc := congrArg List.length (r1.rows T[x])
    rw [if_neg hnotin, List.append_nil, List.length_map] at hc
    rw [rd_ok hpat, ok_bind, r1.lnz.rd (by have := hfill.lt; omega), ok_bind]
    refine Spec.ok ?_
    rw [ex1, List.take_add_one, hgT, Option.toList_some, List.foldl_append]
    refine ⟨z1, z3.trans r3, ?_⟩
    simp only
    rw [r4, Ops.plus_plus, Int.toNat_natCast, hc]
    simp only [List.length_append, List.length_singleton, List.map_append, List.sum_append, List.map_cons,
      List.map_nil, List.sum_cons, List.sum_nil, add_zero]
  · rintro ⟨st2, o2⟩ ⟨r1, r3, r4⟩
    simp only at r1 r3 r4
    have ex : n - (n - T.length) = T.length := by omega
    rw [ex, List.take_length] at r1 r4
    have hnD2 := r1.nD
    simp only
    rw [r1.D.rd (by omega), ok_bind, wr_ok (by omega), ok_bind]
    exact Spec.ok ⟨T, hT, r4⟩

/-- Counts of the first `k` rows: each entry of the factor costs a division, and its column one
multiplication for each entry up to it. -/
theorem row_counts {C : Nat → List Nat} {n k : Nat} (hk : k < n) {T : List Nat} (hT : Topo C k T) :
    ∑ j ∈ range n, (fillRows C (k + 1) j).length = ∑ j ∈ range n, (fillRows C k j).length + T.length ∧
    ∑ j ∈ range n, (fillRows C (k + 1) j).length * ((fillRows C (k + 1) j).length + 1)
      = ∑ j ∈ range n, (fillRows C k j).length * ((fillRows C k j).length + 1)
        + 2 * (T.map fun i => (fillRows C k i).length + 1).sum := by
  classical
  have key : ∀ φ : Nat → Nat, (T.map φ).sum = ∑ j ∈ range n, if j ∈ T then φ j else 0 := by
    intro φ
    rw [← List.sum_toFinset _ hT.nodup, ← sum_filter]
    refine sum_congr ?_ fun _ _ => rfl
    ext j
    simp only [List.mem_toFinset, mem_filter, mem_range]
    exact ⟨fun hj => ⟨lt_trans ((hT.mem j).mp hj).lt hk, hj⟩, fun hj => hj.2⟩
  constructor
  · have := key fun _ => 1
    simp only [List.map_const', List.sum_replicate, smul_eq_mul, mul_one] at this
    rw [this, ← sum_add_distrib]
    refine sum_congr rfl fun j _ => ?_
    by_cases hf : Fill C k j
    · rw [if_pos ((hT.mem j).mpr hf), fillRows_succ_of hf]; simp
    · rw [if_neg (fun hc => hf ((hT.mem j).mp hc)), fillRows_succ_not hf, add_zero]
  · rw [key, mul_sum, ← sum_add_distrib]
    refine sum_congr rfl fun j _ => ?_
    by_cases hf : Fill C k j
    · rw [if_pos ((hT.mem j).mpr hf), fillRows_succ_of hf]
      simp only [List.length_append, List.length_singleton]
      ring
    · rw [if_neg (fun hc => hf ((hT.mem j).mp hc)), fillRows_succ_not hf]
      simp

theorem LDL_numericO_spec {n : Nat} {A : Csc K} {p q : Nat → Nat} {Ap Ai : Buf Int}
    {P Pinv : Option (Buf Int)} (h : LdlArgs n A p q Ap Ai P) {Ax : Buf K}
    (hAx : Buf.Has Ax A.nnz A.pr) (hQ : PermArg n Pinv q) {Lp Parent : Buf Int}
    (hLp : Buf.Has Lp (n + 1) (fun j => (lpOf (permPat A p q) n j : Int)))
    (hPar : Buf.Has Parent n (fun j => enc (tree (permPat A p q) n j)))
    {st : NumSt K} (hst : NumSizes (permPat A p q) n st) :
    Spec (LDL_numericO n Ap Ai Ax Lp Parent st P Pinv) (fun r =>
      r.2.div = ∑ j ∈ range n, (fillRows (permPat A p q) n j).length ∧
      2 * r.2.ms = ∑ j ∈ range n, (fillRows (permPat A p q) n j).length * ((fillRows (permPat A p q) n j).length + 1)) := by
  unfold LDL_numericO
  refine Spec.bind (forI_spec (lo := 0) (hi := n) (Nat.zero_le n)
    (fun k (so : NumSt K × Ops) =>
      (∀ j, j < k → ∃ v : Int, so.1.Flag[j]? = some (some v) ∧ v < k) ∧
      (∃ s, NumRep (permPat A p q) n k k [] s so.1) ∧
      so.2.div = ∑ j ∈ range n, (fillRows (permPat A p q) k j).length ∧
      2 * so.2.ms = ∑ j ∈ range n, (fillRows (permPat A p q) k j).length * ((fillRows (permPat A p q) k j).length + 1))
    ⟨fun j hj => absurd hj (by omega), ⟨⟨fun _ => [], fun _ => 0, fun _ => 0⟩,
      Buf.Has.zero _ _, Buf.Has.zero _ _, Buf.Has.zero _ _,
      by simp, by simp [fillRows_zero], by simp, hst.nn, hst.nD, hst.nY, hst.nP, hst.nF, hst.nLi,
      hst.nLx⟩, by simp [fillRows_zero], by simp [fillRows_zero]⟩ ?_) ?_
  · rintro k ⟨st', o⟩ _ hk ⟨h2, ⟨s, h4⟩, h5, h6⟩
    simp only at h2 h4 h5 h6
    obtain ⟨⟨st2, o2⟩, e, T, hT, ho⟩ := numRowO_spec h hAx hQ hLp hPar hk h4 h2 o
    have e' := numRowO_forget n Ap Ai Ax Lp Parent P Pinv k (st', o)
    rw [e] at e'
    obtain ⟨g1, g2, T', g3, g4⟩ := (numRow_spec h hAx hQ hLp hPar hk h4 h2).elim e'.symm
    simp only at ho
    subst ho
    obtain ⟨c1, c2⟩ := row_counts hk hT
    refine ⟨_, e, g2, ⟨_, g4⟩, ?_, ?_⟩
    · rw [c1, ← h5]; rfl
    · rw [c2, ← h6]; simp only [Ops.plus]; ring
  · rintro ⟨st', o⟩ ⟨_, _, h5, h6⟩
    exact Spec.ok ⟨h5, h6⟩

theorem LDL_lsolveO_eq {n : Nat} {col : Nat → List (Nat × K)} {pos : Nat → Nat} {Lp Li : Buf Int}
    {Lx : Buf K} (h : LFac n col pos Lp Li Lx) (X : Buf K) (o : Ops) :
    LDL_lsolveO n X Lp Li Lx o
      = LDL_lsolve n X Lp Li Lx >>= fun X' => .ok (X', o.plus 0 (∑ j ∈ range n, (col j).length)) := by
  unfold LDL_lsolveO LDL_lsolve forI
  rw [forN_ops (g := fun j X => do
    let p2 ← rd Lp (j + 1)
    let p1 ← rd Lp j
    forN (p2 - p1).toNat p1 X fun p X => do
      let r ← rd Li p
      let xr ← rd X r
      let l ← rd Lx p
      let xj ← rd X j
      wr X r (xr - l * xj)) _ _ (fun _ => 0) (fun j => (col j).length)]
  · simp
  · intro j hj s o
    have hj : j < n := by simpa using hj
    have e1 : ((0 : Int) + j + 1) = ((j + 1 : Nat) : Int) := by omega
    rw [e1, zero_add, h.lp.rd (by omega), ok_bind, h.lp.rd (by omega), ok_bind, ok_bind, ok_bind, h.posS j hj]
    refine (forI_ms (lo := (pos j : Int)) (hi := ((pos j + (col j).length : Nat) : Int)) (o := o) (s := s) (g := fun p X => do
      let r ← rd Li p
      let xr ← rd X r
      let l ← rd Lx p
      let xj ← rd X (j : Int)
      wr X r (xr - l * xj)) ?_).trans ?_
    · intro p s o
      simp only [bind_assoc, pure_eq_ok]
    · simp only [forI]
      congr 1
      funext s'
      congr 3
      omega

theorem LDL_dsolveO_eq (n : Nat) (X D : Buf K) (o : Ops) :
    LDL_dsolveO n X D o = LDL_dsolve n X D >>= fun X' => .ok (X', o.plus n 0) := by
  unfold LDL_dsolveO LDL_dsolve forI
  rw [forN_ops (g := fun j X => do
    let x ← rd X j
    let d ← rd D j
    wr X j (x / d)) _ _ (fun _ => 1) (fun _ => 0)]
  · simp
  · intro j _ s o
    simp only [bind_assoc, pure_eq_ok]
    rfl

theorem LDL_ltsolveO_eq {n : Nat} {col : Nat → List (Nat × K)} {pos : Nat → Nat} {Lp Li : Buf Int}
    {Lx : Buf K} (h : LFac n col pos Lp Li Lx) (X : Buf K) (o : Ops) :
    LDL_ltsolveO n X Lp Li Lx o
      = LDL_ltsolve n X Lp Li Lx >>= fun X' => .ok (X', o.plus 0 (∑ j ∈ range n, (col j).length)) := by
  unfold LDL_ltsolveO LDL_ltsolve forDown
  rw [forDownN_ops (g := fun j X => do
    let p2 ← rd Lp (j + 1)
    let p1 ← rd Lp j
    forI p1 p2 X fun p X => do
      let xj ← rd X j
      let l ← rd Lx p
      let r ← rd Li p
      let xr ← rd X r
      wr X j (xj - l * xr)) _ _ (fun _ => 0) (fun j => (col (n - 1 - j)).length)]
  · simp only [Int.toNat_natCast, sum_const_zero, sum_range_reflect (fun j => (col j).length) n]
  · intro t ht s o
    have ht : t < n := by simpa using ht
    obtain ⟨j, hj, e0⟩ : ∃ j, j < n ∧ (n : Int) - 1 - t = (j : Nat) := ⟨n - 1 - t, by omega, by omega⟩
    have e1 : ((j : Int) + 1) = ((j + 1 : Nat) : Int) := by omega
    have e2 : n - 1 - t = j := by omega
    rw [e0, e1, e2, h.lp.rd (by omega), ok_bind, h.lp.rd (by omega), ok_bind, ok_bind, ok_bind, h.posS j hj]
    refine (forI_ms (g := fun p X => do
      let xj ← rd X (j : Int)
      let l ← rd Lx p
      let r ← rd Li p
      let xr ← rd X r
      wr X (j : Int) (xj - l * xr)) _ _ s o ?_).trans ?_
    · intro p s o
      simp only [bind_assoc, pure_eq_ok]
    · congr 1
      funext s'
      congr 3
      omega

end

end Verif
