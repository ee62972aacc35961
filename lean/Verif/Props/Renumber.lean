import Verif.Props.Order

/-!
# Renumbering of variables and constraints, and other ways to store the same matrices

C74: in exact arithmetic two runs of the solver on problems that differ by a renumbering of the
variables, of the equality constraints and of the inequality constraints make the same iterates up
to this renumbering, as long as no pivot is changed by the regularisation rule. The matrices are
compared entry by entry, so the two problems may also store their matrices differently (order of
the entries of a column, repeated entries, explicit zeros).
-/

set_option linter.unusedSectionVars false

namespace Verif

open Finset

section

variable {K : Type} [Field K] [LinearOrder K] [IsStrictOrderedRing K] [Scalar K] [LawfulScalar K]

/-- `pb'` is `pb` with variable `i` renamed to `f i`, equality constraint `i` to `g i` and
inequality constraint `i` to `k i`. -/
structure Problem.Renumbered (pb pb' : Problem K) (f g k : Nat → Nat) : Prop where
  n : pb'.n = pb.n
  p : pb'.p = pb.p
  m : pb'.m = pb.m
  vars : ∃ f', PermPair pb.n f f'
  eqs : ∃ g', PermPair pb.p g g'
  ineqs : ∃ k', PermPair pb.m k k'
  P : ∀ r c, r < pb.n → c < pb.n → pb'.P.entry (f r) (f c) = pb.P.entry r c
  A : ∀ r c, r < pb.p → c < pb.n → pb'.A.entry (g r) (f c) = pb.A.entry r c
  G : ∀ r c, r < pb.m → c < pb.n → pb'.G.entry (k r) (f c) = pb.G.entry r c
  c : ∀ i, i < pb.n → pb'.c (f i) = pb.c i
  b : ∀ i, i < pb.p → pb'.b (g i) = pb.b i
  h : ∀ i, i < pb.m → pb'.h (k i) = pb.h i
  sigma_d : pb'.sigma_d = pb.sigma_d

/-- Two states of solves of renumbered problems agree in everything the caller sees: options, the
iterates up to the renumbering, statistics except the status of the ordering (and the internal
`resolve_kkt`). -/
structure SameUpTo (pb pb' : Problem K) (f g k : Nat → Nat) (a b : QP K) : Prop where
  options : a.options = b.options
  iter : ∃ x y z s, a.Iter pb (fun i => x (f i)) (fun i => y (g i)) (fun i => z (k i))
    (fun i => s (k i)) ∧ b.Iter pb' x y z s
  stats : { a.stats with AMD_RESULT := 0, resolve_kkt := none }
    = { b.stats with AMD_RESULT := 0, resolve_kkt := none }

/-- Reindexing of a sum. -/
theorem PermPair.sum_eq {n : Nat} {f f' : Nat → Nat} (h : PermPair n f f') (v : Nat → K) :
    ∑ i ∈ range n, v i = ∑ i ∈ range n, v (f i) := by
  refine sum_bij' (fun i _ => f' i) (fun i _ => f i) ?_ ?_ ?_ ?_ ?_
  · exact fun i hi => mem_range.mpr (h.q_lt i (mem_range.mp hi))
  · exact fun i hi => mem_range.mpr (h.p_lt i (mem_range.mp hi))
  · exact fun i hi => h.pq i (mem_range.mp hi)
  · exact fun i hi => h.qp i (mem_range.mp hi)
  · intro i hi
    rw [h.pq i (mem_range.mp hi)]

theorem PermPair.dot_eq {n : Nat} {f f' : Nat → Nat} (h : PermPair n f f') (v w : Nat → K) :
    dot n v w = dot n (fun i => v (f i)) (fun i => w (f i)) := by
  unfold dot
  exact h.sum_eq (fun i => v i * w i)

theorem PermPair.isNorm {n : Nat} {f f' : Nat → Nat} (h : PermPair n f f') {v w : Nat → K} {a : K}
    (hv : IsNorm n v a) (hw : ∀ i, i < n → v (f i) = w i) : IsNorm n w a := by
  refine ⟨hv.1, ?_⟩
  rw [hv.2, h.dot_eq]
  unfold dot
  exact sum_congr rfl fun i hi => by simp only; rw [hw i (mem_range.mp hi)]

theorem FullStep.reindex {m : Nat} {k k' : Nat → Nat} (h : PermPair m k k') {s d : Nat → K} {a : K}
    (hf : FullStep m s d a) : FullStep m (fun i => s (k i)) (fun i => d (k i)) a := by
  refine ⟨hf.pos, fun i hi => hf.stays _ (h.p_lt i hi), ?_⟩
  rcases hf.longest with ⟨h1, i, hi, h2, h3⟩ | ⟨h1, h2⟩
  · refine Or.inl ⟨h1, k' i, h.q_lt i hi, ?_, ?_⟩
    · rw [h.pq i hi]; exact h2
    · rw [h.pq i hi]; exact h3
  · exact Or.inr ⟨h1, fun i hi => h2 _ (h.p_lt i hi)⟩

variable {pb pb' : Problem K} {f g k : Nat → Nat}

namespace Problem.Renumbered

theorem N (R : pb.Renumbered pb' f g k) : pb'.N = pb.N := by
  unfold Problem.N
  rw [R.n, R.p, R.m]

theorem symm (R : pb.Renumbered pb' f g k) (hs : pb.P.Symm) : pb'.P.Symm := by
  obtain ⟨f', hf⟩ := R.vars
  intro r c hr hc
  have hr : r < pb.n := by rw [← R.n]; exact hr
  have hc : c < pb.n := by rw [← R.n]; exact hc
  have h1 := R.P (f' r) (f' c) (hf.q_lt r hr) (hf.q_lt c hc)
  have h2 := R.P (f' c) (f' r) (hf.q_lt c hc) (hf.q_lt r hr)
  rw [hf.pq r hr, hf.pq c hc] at h1 h2
  rw [h1, h2]
  exact hs _ _ (hf.q_lt r hr) (hf.q_lt c hc)

theorem mulP (R : pb.Renumbered pb' f g k) (x : Nat → K) {i : Nat} (hi : i < pb.n) :
    pb'.P.mulVec x (f i) = pb.P.mulVec (fun j => x (f j)) i := by
  obtain ⟨f', hf⟩ := R.vars
  unfold Csc.mulVec
  rw [show pb'.P.n = pb.n from R.n, hf.sum_eq]
  exact sum_congr rfl fun c hc => by rw [R.P i c hi (mem_range.mp hc)]

theorem mulA (R : pb.Renumbered pb' f g k) (hpb : pb.WF) (hpb' : pb'.WF) (x : Nat → K) {i : Nat}
    (hi : i < pb.p) : pb'.A.mulVec x (g i) = pb.A.mulVec (fun j => x (f j)) i := by
  obtain ⟨f', hf⟩ := R.vars
  unfold Csc.mulVec
  rw [hpb'.An, hpb.An, show pb'.P.n = pb.n from R.n, show pb.P.n = pb.n from rfl, hf.sum_eq]
  exact sum_congr rfl fun c hc => by rw [R.A i c hi (mem_range.mp hc)]

theorem mulG (R : pb.Renumbered pb' f g k) (hpb : pb.WF) (hpb' : pb'.WF) (x : Nat → K) {i : Nat}
    (hi : i < pb.m) : pb'.G.mulVec x (k i) = pb.G.mulVec (fun j => x (f j)) i := by
  obtain ⟨f', hf⟩ := R.vars
  unfold Csc.mulVec
  rw [hpb'.Gn, hpb.Gn, show pb'.P.n = pb.n from R.n, show pb.P.n = pb.n from rfl, hf.sum_eq]
  exact sum_congr rfl fun c hc => by rw [R.G i c hi (mem_range.mp hc)]

theorem tmulA (R : pb.Renumbered pb' f g k) (y : Nat → K) {i : Nat} (hi : i < pb.n) :
    pb'.A.tmulVec y (f i) = pb.A.tmulVec (fun j => y (g j)) i := by
  obtain ⟨g', hg⟩ := R.eqs
  unfold Csc.tmulVec
  rw [show pb'.A.m = pb.p from R.p, show pb.A.m = pb.p from rfl, hg.sum_eq]
  exact sum_congr rfl fun c hc => by rw [R.A c i (mem_range.mp hc) hi]

theorem tmulG (R : pb.Renumbered pb' f g k) (z : Nat → K) {i : Nat} (hi : i < pb.n) :
    pb'.G.tmulVec z (f i) = pb.G.tmulVec (fun j => z (k j)) i := by
  obtain ⟨k', hk⟩ := R.ineqs
  unfold Csc.tmulVec
  rw [show pb'.G.m = pb.m from R.m, show pb.G.m = pb.m from rfl, hk.sum_eq]
  exact sum_congr rfl fun c hc => by rw [R.G c i (mem_range.mp hc) hi]

theorem rx (R : pb.Renumbered pb' f g k) (x y z : Nat → K) {i : Nat} (hi : i < pb.n) :
    pb'.rx x y z (f i) = pb.rx (fun i => x (f i)) (fun i => y (g i)) (fun i => z (k i)) i := by
  unfold Problem.rx
  rw [R.mulP x hi, R.tmulG z hi, R.tmulA y hi, R.c i hi]

theorem ry (R : pb.Renumbered pb' f g k) (hpb : pb.WF) (hpb' : pb'.WF) (x : Nat → K) {i : Nat}
    (hi : i < pb.p) : pb'.ry x (g i) = pb.ry (fun i => x (f i)) i := by
  unfold Problem.ry
  rw [R.mulA hpb hpb' x hi, R.b i hi]

theorem rz (R : pb.Renumbered pb' f g k) (hpb : pb.WF) (hpb' : pb'.WF) (x s : Nat → K) {i : Nat}
    (hi : i < pb.m) : pb'.rz x s (k i) = pb.rz (fun i => x (f i)) (fun i => s (k i)) i := by
  unfold Problem.rz
  rw [R.mulG hpb hpb' x hi, R.h i hi]

theorem dotm (R : pb.Renumbered pb' f g k) (v w : Nat → K) :
    dot pb'.m v w = dot pb.m (fun i => v (k i)) (fun i => w (k i)) := by
  obtain ⟨k', hk⟩ := R.ineqs
  rw [R.m, hk.dot_eq]

theorem obj (R : pb.Renumbered pb' f g k) (x : Nat → K) :
    pb'.obj x = pb.obj (fun i => x (f i)) := by
  obtain ⟨f', hf⟩ := R.vars
  unfold Problem.obj
  rw [R.n, hf.dot_eq x, hf.dot_eq pb'.c x]
  have e1 : dot pb.n (fun i => x (f i)) (fun i => pb'.P.mulVec x (f i))
      = dot pb.n (fun i => x (f i)) (pb.P.mulVec fun i => x (f i)) :=
    sum_congr rfl fun i hi => by simp only; rw [R.mulP x (mem_range.mp hi)]
  have e2 : dot pb.n (fun i => pb'.c (f i)) (fun i => x (f i))
      = dot pb.n pb.c (fun i => x (f i)) :=
    sum_congr rfl fun i hi => by simp only; rw [R.c i (mem_range.mp hi)]
  rw [e1, e2]

/-- The linearised conditions of the renumbered problem, without perturbation. -/
theorem linearised (R : pb.Renumbered pb' f g k) (hpb : pb.WF) (hpb' : pb'.WF)
    {e x y z s tgt dx dy dz ds : Nat → K} (he : ∀ i, i < pb'.N → e i = 0)
    (h : pb'.Linearised e x y z s tgt dx dy dz ds) :
    pb.Linearised (fun _ => 0) (fun i => x (f i)) (fun i => y (g i)) (fun i => z (k i))
      (fun i => s (k i)) (fun i => tgt (k i)) (fun i => dx (f i)) (fun i => dy (g i))
      (fun i => dz (k i)) (fun i => ds (k i)) := by
  obtain ⟨f', hf⟩ := R.vars
  obtain ⟨g', hg⟩ := R.eqs
  obtain ⟨k', hk⟩ := R.ineqs
  have eN : pb'.N = pb'.n + pb'.p + pb'.m := rfl
  have en := R.n
  have ep := R.p
  have em := R.m
  refine ⟨fun i hi => ?_, fun i hi => ?_, fun i hi => ?_, fun i hi => ?_⟩
  · have h1 := hf.p_lt i hi
    have := h.rx (f i) (by omega)
    rw [he (f i) (by omega), R.mulP _ hi, R.tmulA _ hi, R.tmulG _ hi, R.rx _ _ _ hi] at this
    rw [← this]
  · have h1 := hg.p_lt i hi
    have := h.ry (g i) (by omega)
    rw [he _ (by omega), R.mulA hpb hpb' _ hi, R.ry hpb hpb' _ hi] at this
    rw [← this]
  · have h1 := hk.p_lt i hi
    have := h.rz (k i) (by omega)
    rw [he _ (by omega), R.mulG hpb hpb' _ hi, R.rz hpb hpb' _ _ hi] at this
    rw [← this]
  · have h1 := hk.p_lt i hi
    exact h.comp (k i) (by omega)

end Problem.Renumbered

/-- The equations of the starting point have one solution if the KKT matrix is nonsingular. -/
theorem start_unique (hpb : pb.WF)
    (hinj : ∀ v : Nat → K, (∀ r, r < pb.N → ∑ c ∈ range pb.N,
      kktEntry pb.P pb.A pb.G (fun _ => Scalar.dec (-1) 0) r c * v c = 0) → ∀ r, r < pb.N → v r = 0)
    {x y w x' y' w' : Nat → K}
    (r1 : ∀ i, i < pb.n → pb.P.mulVec x i + pb.A.tmulVec y i + pb.G.tmulVec w i = -(pb.c i))
    (r2 : ∀ i, i < pb.p → pb.A.mulVec x i = pb.b i)
    (r3 : ∀ i, i < pb.m → pb.G.mulVec x i - w i = pb.h i)
    (r1' : ∀ i, i < pb.n → pb.P.mulVec x' i + pb.A.tmulVec y' i + pb.G.tmulVec w' i = -(pb.c i))
    (r2' : ∀ i, i < pb.p → pb.A.mulVec x' i = pb.b i)
    (r3' : ∀ i, i < pb.m → pb.G.mulVec x' i - w' i = pb.h i) :
    (∀ i, i < pb.n → x i = x' i) ∧ ∀ i, i < pb.p → y i = y' i := by
  have eN : pb.N = pb.n + pb.p + pb.m := rfl
  set v : Nat → K := fun c => if c < pb.n then x c - x' c
    else if c < pb.n + pb.p then y (c - pb.n) - y' (c - pb.n)
    else w (c - pb.n - pb.p) - w' (c - pb.n - pb.p) with hv
  have vx : ∀ c, c < pb.n → v c = x c - x' c := fun c hc => by rw [hv]; simp only [if_pos hc]
  have vy : ∀ c, c < pb.p → v (pb.n + c) = y c - y' c := by
    intro c hc
    rw [hv]
    simp only [if_neg (by omega : ¬ pb.n + c < pb.n), if_pos (by omega : pb.n + c < pb.n + pb.p),
      Nat.add_sub_cancel_left]
  have vz : ∀ c, v (pb.n + pb.p + c) = w c - w' c := by
    intro c
    rw [hv]
    simp only [if_neg (by omega : ¬ pb.n + pb.p + c < pb.n),
      if_neg (by omega : ¬ pb.n + pb.p + c < pb.n + pb.p),
      show pb.n + pb.p + c - pb.n - pb.p = c by omega]
  have mv : ∀ B : Csc K, B.n = pb.n → ∀ i, B.mulVec v i = B.mulVec x i - B.mulVec x' i := by
    intro B hB i
    unfold Csc.mulVec
    rw [hB, ← sum_sub_distrib]
    exact sum_congr rfl fun c hc => by rw [vx c (mem_range.mp hc)]; ring
  have tA : ∀ i, pb.A.tmulVec (fun k => v (pb.n + k)) i = pb.A.tmulVec y i - pb.A.tmulVec y' i := by
    intro i
    unfold Csc.tmulVec
    rw [← sum_sub_distrib]
    refine sum_congr rfl fun c hc => ?_
    show _ * v (pb.n + c) = _
    rw [vy c (mem_range.mp hc)]; ring
  have tG : ∀ i, pb.G.tmulVec (fun k => v (pb.n + pb.p + k)) i
      = pb.G.tmulVec w i - pb.G.tmulVec w' i := by
    intro i
    unfold Csc.tmulVec
    rw [← sum_sub_distrib]
    refine sum_congr rfl fun c hc => ?_
    show _ * v (pb.n + pb.p + c) = _
    rw [vz c]; ring
  obtain ⟨b1, b2, b3⟩ := kkt_rows hpb (fun _ => Scalar.dec (-1) 0) v
  have hv0 := hinj v (by
    intro r hr
    by_cases h1 : r < pb.n
    · rw [b1 r h1, mv _ rfl, tA, tG]
      linear_combination r1 r h1 - r1' r h1
    · by_cases h2 : r < pb.n + pb.p
      · obtain ⟨i, rfl⟩ : ∃ i, r = pb.n + i := ⟨r - pb.n, by omega⟩
        rw [b2 i (by omega), mv _ hpb.An]
        linear_combination r2 i (by omega) - r2' i (by omega)
      · obtain ⟨i, rfl⟩ : ∃ i, r = pb.n + pb.p + i := ⟨r - pb.n - pb.p, by omega⟩
        have hi : i < pb.m := by omega
        rw [b3 i hi, mv _ hpb.Gn, vz, dec_neg_one]
        linear_combination r3 i hi - r3' i hi)
  refine ⟨fun i hi => ?_, fun i hi => ?_⟩
  · have := hv0 i (by omega)
    rw [vx i hi] at this
    exact sub_eq_zero.mp this
  · have := hv0 (pb.n + i) (by omega)
    rw [vy i hi] at this
    exact sub_eq_zero.mp this

/-- Setups of renumbered problems with exact factorisations produce the same starting point up to
the renumbering. -/
theorem start_renumbered {amd amd' : Amd} {a a' : SetupArgs K} {q0 q0' : QP K}
    (R : pb.Renumbered pb' f g k) (h : Started amd a pb q0) (h' : Started amd' a' pb' q0')
    (hsym : pb.P.Symm) (hex : q0.kkt.Exact pb.N) (hex' : q0'.kkt.Exact pb'.N) :
    SameUpTo pb pb' f g k q0 q0' := by
  obtain ⟨f', hf⟩ := R.vars
  obtain ⟨g', hg⟩ := R.eqs
  obtain ⟨k', hk⟩ := R.ineqs
  have en := R.n
  have ep := R.p
  have em := R.m
  have hpb := h.wf
  have hpb' := h'.wf
  obtain ⟨p, q, hd⟩ := h.done
  obtain ⟨p', q', hd'⟩ := h'.done
  obtain ⟨t, hfac, _, hit⟩ := hd.iter
  obtain ⟨t', hfac', _, hit'⟩ := hd'.iter
  have hinj := kkt_injective hpb hsym hd.kkt hfac hex
  obtain ⟨e, w, _, he, r1, r2, r3, lo, hi, m1, m2, m3, m4⟩ := C53_starting_point h hsym hit
  obtain ⟨e', w', _, he', r1', r2', r3', lo', hi', m1', m2', m3', m4'⟩ :=
    C53_starting_point h' (R.symm hsym) hit'
  have he := he hex
  have he' := he' hex'
  have eN : pb.N = pb.n + pb.p + pb.m := rfl
  have eN' : pb'.N = pb'.n + pb'.p + pb'.m := rfl
  obtain ⟨ux, uy⟩ := start_unique hpb hinj (w := w) (w' := fun i => w' (k i))
    (x' := fun i => sol0 pb' p' q' t' (f i)) (y' := fun i => sol0 pb' p' q' t' (pb'.n + g i))
    (fun i hi => by have := r1 i hi; rwa [he i (by omega), zero_mul, add_zero] at this)
    (fun i hi => by have := r2 i hi; rwa [he _ (by omega), zero_mul, add_zero] at this)
    (fun i hi => by have := r3 i hi; rwa [he _ (by omega), zero_mul, add_zero] at this)
    (fun i hi => by
      have h1 := hf.p_lt i hi
      have := r1' (f i) (by omega)
      rwa [he' _ (by omega), zero_mul, add_zero, R.mulP _ hi, R.tmulA _ hi, R.tmulG _ hi,
        R.c i hi] at this)
    (fun i hi => by
      have h1 := hg.p_lt i hi
      have := r2' (g i) (by omega)
      rwa [he' _ (by omega), zero_mul, add_zero, R.mulA hpb hpb' _ hi, R.b i hi] at this)
    (fun i hi => by
      have h1 := hk.p_lt i hi
      have := r3' (k i) (by omega)
      rwa [he' _ (by omega), zero_mul, add_zero, R.mulG hpb hpb' _ hi, R.h i hi] at this)
  have eG : ∀ i, i < pb.m → pb.h i - pb.G.mulVec (sol0 pb p q t) i
      = pb'.h (k i) - pb'.G.mulVec (sol0 pb' p' q' t') (k i) := by
    intro i hi
    rw [R.mulG hpb hpb' _ hi, R.h i hi]
    congr 1
    unfold Csc.mulVec
    rw [hpb.Gn]
    exact sum_congr rfl fun c hc => by rw [ux c (mem_range.mp hc)]
  have eset : {v | ∃ i, i < pb'.m ∧ v = pb'.h i - pb'.G.mulVec (sol0 pb' p' q' t') i}
      = {v | ∃ i, i < pb.m ∧ v = pb.h i - pb.G.mulVec (sol0 pb p q t) i} := by
    ext v
    constructor
    · rintro ⟨i, hi, rfl⟩
      have hi : i < pb.m := by omega
      exact ⟨k' i, hk.q_lt i hi, by rw [eG _ (hk.q_lt i hi), hk.pq i hi]⟩
    · rintro ⟨i, hi, rfl⟩
      have := hk.p_lt i hi
      exact ⟨k i, by omega, eG i hi⟩
  rw [eset] at m1' m2'
  have elo : lo = lo' := m1.unique m1'
  have ehi : hi = hi' := m2.unique m2'
  refine ⟨by rw [hd.options, hd'.options], ⟨_, _, _, _, hit.congr ?_ ?_ ?_ ?_, hit'⟩, ?_⟩
  · exact ux
  · exact uy
  · intro i hm
    have := hk.p_lt i hm
    rw [m4 i hm, m4' (k i) (by omega), ehi, eG i hm]
  · intro i hm
    have := hk.p_lt i hm
    rw [m3 i hm, m3' (k i) (by omega), elo, eG i hm]
  · obtain ⟨re, h1⟩ := hd.stats
    obtain ⟨re', h1'⟩ := hd'.stats
    rw [h1, h1']

section

variable [LawfulSqrt K]

theorem Problem.Renumbered.stats (R : pb.Renumbered pb' f g k) (hpb : pb.WF) (hpb' : pb'.WF)
    (x y z s : Nat → K) (st : Stats K) :
    evalStats pb' x y z s st = evalStats pb (fun i => x (f i)) (fun i => y (g i)) (fun i => z (k i))
      (fun i => s (k i)) st ∧
    ∀ o, exitF pb' o x y z s = exitF pb o (fun i => x (f i)) (fun i => y (g i)) (fun i => z (k i))
      (fun i => s (k i)) := by
  obtain ⟨f', hf⟩ := R.vars
  obtain ⟨g', hg⟩ := R.eqs
  obtain ⟨k', hk⟩ := R.ineqs
  have ix := (nrmF_isNorm pb'.n (rxF pb' x y z)).congr (fun i hi => rxF_eq hpb' x y z hi)
  have iy := (nrmF_isNorm pb'.p (ryF pb' x)).congr (fun i _ => ryF_eq hpb' x i)
  have iz := (nrmF_isNorm pb'.m (rzF pb' x s)).congr (fun i _ => rzF_eq hpb' x s i)
  have jx := (nrmF_isNorm pb.n (rxF pb (fun i => x (f i)) (fun i => y (g i)) fun i => z (k i))).congr
    (fun i hi => rxF_eq hpb _ _ _ hi)
  have jy := (nrmF_isNorm pb.p (ryF pb fun i => x (f i))).congr (fun i _ => ryF_eq hpb _ i)
  have jz := (nrmF_isNorm pb.m (rzF pb (fun i => x (f i)) fun i => s (k i))).congr
    (fun i _ => rzF_eq hpb _ _ i)
  rw [R.n] at ix
  rw [R.p] at iy
  rw [R.m] at iz
  have e1 := (hf.isNorm ix (fun i hi => R.rx x y z hi)).unique jx
  have e2 := (hg.isNorm iy (fun i hi => R.ry hpb hpb' x hi)).unique jy
  have e3 := (hk.isNorm iz (fun i hi => R.rz hpb hpb' x s hi)).unique jz
  have e4 : gapF pb' z s = gapF pb (fun i => z (k i)) (fun i => s (k i)) := by
    rw [gapF_eq, gapF_eq, R.dotm, R.m]
  constructor
  · unfold evalStats
    rw [R.n, R.p, R.m, e1, e2, e3, e4, objF_eq hpb', objF_eq hpb, R.obj]
  · intro o
    unfold exitF
    rw [R.n, R.p, R.m, e1, e2, e3, e4]

/-- One step from states that agree up to the renumbering, with exact factorisations, leads to such
states. -/
theorem step_renumbered {amd amd' : Amd} {a a' : SetupArgs K} {q0 q0' qp qp' r r' : QP K}
    (R : pb.Renumbered pb' f g k) (h : Started amd a pb q0) (h' : Started amd' a' pb' q0')
    (hsym : pb.P.Symm) (hr : Reach q0 qp) (hr' : Reach q0' qp') (hsame : SameUpTo pb pb' f g k qp qp')
    (hb : solveBody qp = .ok (r, false)) (hb' : solveBody qp' = .ok (r', false))
    (hex : r.kkt.Exact pb.N) (hex' : r'.kkt.Exact pb'.N) : SameUpTo pb pb' f g k r r' := by
  obtain ⟨f', hf⟩ := R.vars
  obtain ⟨g', hg⟩ := R.eqs
  obtain ⟨k', hk⟩ := R.ineqs
  have en := R.n
  have ep := R.p
  have em := R.m
  obtain ⟨x, y, z, s, hi, hi'⟩ := hsame.iter
  have hpos := C16_positive h hr hi
  obtain ⟨p, q, hs, _⟩ := h.sinv hr
  obtain ⟨p', q', hs', _⟩ := h'.sinv hr'
  have hbo := hs.bodyOut h.wf hb hi
  have hbo' := hs'.bodyOut h'.wf hb' hi'
  obtain ⟨t, hst, hopt, re, hstat⟩ := hbo.step rfl
  obtain ⟨t', hst', hopt', re', hstat'⟩ := hbo'.step rfl
  simp only at hst hst' hopt hopt' hstat hstat'
  have hinj := kkt_injective h.wf hsym hst.sym hst.fac hex
  obtain ⟨e, dx, dy, dz, ds, tgt, d1, d2, d3, d4, _, he, hlin, hA, hB⟩ :=
    C31_directions h hsym hr hb hi
  obtain ⟨e', dx', dy', dz', ds', tgt', d1', d2', d3', d4', _, he', hlin', hA', hB'⟩ :=
    C31_directions h' (R.symm hsym) hr' hb' hi'
  have he := he hex
  have he' := he' hex'
  have hzp : ∀ i, i < pb.m → 0 < z (k i) := fun i hm => (hpos i hm).2
  have esd := R.sigma_d
  have edot := R.dotm s z
  -- target and centering parameter
  have key : r.options.sigma = r'.options.sigma ∧ ∀ i, i < pb.m → tgt i = tgt' (k i) := by
    by_cases hc : qp.options.sigma ≤ pb.sigma_d
    · obtain ⟨k1, k2⟩ := hA hc
      obtain ⟨k1', k2'⟩ := hA' (by rw [← hsame.options, esd]; exact hc)
      refine ⟨by rw [k1, k1', esd], fun i hm => ?_⟩
      have hm' := hk.p_lt i hm
      rw [k2 i hm, k2' (k i) (by omega), edot, esd, em]
    · push Not at hc
      obtain ⟨px, py, pz, ps, ap, ad, l1, l2, l3, l4, l5⟩ := hB hc
      obtain ⟨px', py', pz', ps', ap', ad', l1', l2', l3', l4', l5'⟩ :=
        hB' (by rw [← hsame.options, esd]; exact hc)
      obtain ⟨_, _, u3, u4⟩ := l1.unique h.wf hzp hinj he (fun _ _ => rfl) (fun _ _ => rfl)
        (R.linearised h.wf h'.wf he' l1')
      rw [em] at l2' l3'
      have eap := l2.unique (l2'.reindex hk) u4
      have ead := l3.unique (l3'.reindex hk) u3
      have es : r.options.sigma = r'.options.sigma := by
        rw [l4, l4', eap, ead, edot, esd, R.dotm]
        have : dot pb.m (fun i => s (k i) + ap' * ps i) (fun i => z (k i) + ad' * pz i)
            = dot pb.m (fun i => s (k i) + ap' * ps' (k i)) (fun i => z (k i) + ad' * pz' (k i)) := by
          unfold dot
          refine sum_congr rfl fun i hm => ?_
          simp only
          rw [u3 i (mem_range.mp hm), u4 i (mem_range.mp hm)]
        rw [this]
      refine ⟨es, fun i hm => ?_⟩
      have hm' := hk.p_lt i hm
      rw [l5 i hm, l5' (k i) (by omega), es, u3 i hm, u4 i hm, edot, em]
  obtain ⟨es, et⟩ := key
  obtain ⟨u1, u2, u3, u4⟩ := hlin.unique h.wf hzp hinj he (fun _ _ => rfl) et
    (R.linearised h.wf h'.wf he' hlin')
  -- step lengths
  obtain ⟨_, _, _, _, gx, gy, gz, gs, ap, ad, j1, j2, j3, j4, f1, f2, f3, f4, hn⟩ :=
    C17_steps h hr hb hi
  obtain ⟨_, _, _, _, gx', gy', gz', gs', ap', ad', j1', j2', j3', j4', f1', f2', f3', f4', hn'⟩ :=
    C17_steps h' hr' hb' hi'
  have w1 : ∀ i, i < pb.n → gx i = gx' (f i) := fun i hm => by
    have := hf.p_lt i hm
    rw [j1.unique d1 hm, j1'.unique d1' (show f i < pb'.n by omega), u1 i hm]
  have w2 : ∀ i, i < pb.p → gy i = gy' (g i) := fun i hm => by
    have := hg.p_lt i hm
    rw [j2.unique d2 hm, j2'.unique d2' (show g i < pb'.p by omega), u2 i hm]
  have w3 : ∀ i, i < pb.m → gz i = gz' (k i) := fun i hm => by
    have := hk.p_lt i hm
    rw [j3.unique d3 hm, j3'.unique d3' (show k i < pb'.m by omega), u3 i hm]
  have w4 : ∀ i, i < pb.m → gs i = gs' (k i) := fun i hm => by
    have := hk.p_lt i hm
    rw [j4.unique d4 hm, j4'.unique d4' (show k i < pb'.m by omega), u4 i hm]
  rw [em] at f1' f2'
  have ea : r.stats.alpha_p = r'.stats.alpha_p := by rw [f3, f3', f1.unique (f1'.reindex hk) w4]
  have eb : r.stats.alpha_d = r'.stats.alpha_d := by rw [f4, f4', f2.unique (f2'.reindex hk) w3]
  refine ⟨?_, ⟨_, _, _, _, hn.congr ?_ ?_ ?_ ?_, hn'⟩, ?_⟩
  · rw [hopt] at es
    rw [hopt'] at es
    rw [hopt, hopt', hsame.options]
    simp only at es
    rw [hsame.options] at es
    rw [es]
  · intro i hm; rw [w1 i hm, ea]
  · intro i hm; rw [w2 i hm, eb]
  · intro i hm; rw [w3 i hm, eb]
  · intro i hm; rw [w4 i hm, ea]
  · have e1 := hsame.stats
    rw [hstat, hstat'] at ea eb
    simp only at ea eb
    rw [hstat, hstat', ea, eb, (R.stats h.wf h'.wf x y z s _).1]
    simp only [evalStats, Stats.mk.injEq, and_true, true_and] at e1 ⊢
    obtain ⟨c1, c2, c3, c4, c5, c6, c7, c8, c9⟩ := e1
    rw [c1, c3, c9]
    simp

/-- Whether an iteration stops depends only on the common part. -/
theorem brk_renumbered {amd amd' : Amd} {a a' : SetupArgs K} {q0 q0' qp qp' r r' : QP K} {b b' : Bool}
    (R : pb.Renumbered pb' f g k) (h : Started amd a pb q0) (h' : Started amd' a' pb' q0')
    (hr : Reach q0 qp) (hr' : Reach q0' qp') (hsame : SameUpTo pb pb' f g k qp qp')
    (hb : solveBody qp = .ok (r, b)) (hb' : solveBody qp' = .ok (r', b')) :
    b = b' ∧ (b = true → SameUpTo pb pb' f g k r r') := by
  obtain ⟨x, y, z, s, hi, hi'⟩ := hsame.iter
  obtain ⟨p, q, hs, _⟩ := h.sinv hr
  obtain ⟨p', q', hs', _⟩ := h'.sinv hr'
  have hbo := hs.bodyOut h.wf hb hi
  have hbo' := hs'.bodyOut h'.wf hb' hi'
  have e : b = b' := by
    have h1 := hbo.brk
    have h2 := hbo'.brk
    simp only at h1 h2
    rw [h1, h2, hsame.options, (R.stats h.wf h'.wf x y z s qp.stats).2]
  refine ⟨e, fun ht => ?_⟩
  obtain ⟨g1, _, g3, g4, _⟩ := hbo.stop ht
  obtain ⟨g1', _, g3', g4', _⟩ := hbo'.stop (e ▸ ht)
  simp only at g1 g1' g3 g3' g4 g4'
  refine ⟨by rw [g3, g3', hsame.options], ⟨x, y, z, s, g1, g1'⟩, ?_⟩
  have e1 := hsame.stats
  rw [g4, g4', (R.stats h.wf h'.wf x y z s _).1]
  simp only [evalStats, Stats.mk.injEq, and_true, true_and] at e1 ⊢
  obtain ⟨c1, c2, c3, c4, c5, c6, c7, c8, c9⟩ := e1
  rw [c1, c3, c6, c7]
  simp

/-- The runs stay together for as long as the factorisations are exact. -/
theorem iterations_renumbered {amd amd' : Amd} {a a' : SetupArgs K} {q0 q0' qp qp' : QP K}
    (R : pb.Renumbered pb' f g k) (h : Started amd a pb q0) (h' : Started amd' a' pb' q0')
    (hsym : pb.P.Symm) (hr : Reach q0 qp) (hr' : Reach q0' qp') (hsame : SameUpTo pb pb' f g k qp qp')
    (hex : ∀ (j : Nat) qk qk' r r', (j : Int) < qp.options.maxit → Iterations j qp qk →
      Iterations j qp' qk' → SameUpTo pb pb' f g k qk qk' → solveBody qk = .ok (r, false) →
      solveBody qk' = .ok (r', false) → r.kkt.Exact pb.N ∧ r'.kkt.Exact pb'.N) :
    ∀ j qk qk', j ≤ qp.options.maxit.toNat → Iterations j qp qk → Iterations j qp' qk' →
      SameUpTo pb pb' f g k qk qk' := by
  intro j
  induction j with
  | zero => intro qk qk' _ h1 h2; cases h1; cases h2; exact hsame
  | succ j ih =>
    intro qk qk' hj h1 h2
    obtain _ | ⟨g1, g2⟩ := h1
    obtain _ | ⟨g1', g2'⟩ := h2
    have hk := ih _ _ (by omega) g1 g1'
    obtain ⟨e1, e2⟩ := hex j _ _ _ _ (by omega) g1 g1' hk g2 g2'
    exact step_renumbered R h h' hsym (hr.iterations g1) (hr'.iterations g1') hk g2 g2' e1 e2

/-- Two solves from states that agree up to the renumbering, with exact factorisations, give the
same result up to the renumbering. -/
theorem solve_renumbered {amd amd' : Amd} {a a' : SetupArgs K} {q0 q0' qp qp' q1 q1' : QP K}
    {fl fl' : Int} (R : pb.Renumbered pb' f g k) (h : Started amd a pb q0)
    (h' : Started amd' a' pb' q0') (hsym : pb.P.Symm) (hr : Reach q0 qp) (hr' : Reach q0' qp')
    (hsame : SameUpTo pb pb' f g k qp qp') (hs : QP_SOLVE qp = .ok (fl, q1))
    (hs' : QP_SOLVE qp' = .ok (fl', q1'))
    (hex : ∀ (j : Nat) qk qk' r r', (j : Int) < qp.options.maxit → Iterations j qp qk →
      Iterations j qp' qk' → SameUpTo pb pb' f g k qk qk' → solveBody qk = .ok (r, false) →
      solveBody qk' = .ok (r', false) → r.kkt.Exact pb.N ∧ r'.kkt.Exact pb'.N) :
    fl = fl' ∧ SameUpTo pb pb' f g k q1 q1' := by
  obtain ⟨p, q, hi, _⟩ := h.sinv hr
  obtain ⟨p', q', hi', _⟩ := h'.sinv hr'
  obtain ⟨j, qk, hk⟩ := QP_SOLVE_inv h.wf hi hs
  obtain ⟨j', qk', hk'⟩ := QP_SOLVE_inv h'.wf hi' hs'
  have all := iterations_renumbered R h h' hsym hr hr' hsame hex
  obtain ⟨r, h5, h6⟩ := hk.stop
  obtain ⟨r', h5', h6'⟩ := hk'.stop
  have emax : qp.options.maxit = qp'.options.maxit := by rw [hsame.options]
  -- the two runs have the same length
  have n1 : j < qp.options.maxit.toNat → solveBody qk = .ok (r, true) → ¬ j < j' := by
    intro hlt hb hjj
    obtain ⟨c, d, g1, g2⟩ := hk'.its.prefix j hjj
    have := (brk_renumbered R h h' (hr.iterations hk.its) (hr'.iterations g1)
      (all _ _ _ (by omega) hk.its g1) hb g2).1
    cases this
  have n2 : j' < qp'.options.maxit.toNat → solveBody qk' = .ok (r', true) → ¬ j' < j := by
    intro hlt hb hjj
    obtain ⟨c, d, g1, g2⟩ := hk.its.prefix j' hjj
    have := (brk_renumbered R h h' (hr.iterations g1) (hr'.iterations hk'.its)
      (all _ _ _ (by rw [emax]; omega) g1 hk'.its) g2 hb).1
    cases this
  have hkk : j = j' := by
    rcases h5 with ⟨c1, c2⟩ | ⟨c1, c2⟩ <;> rcases h5' with ⟨c1', c2'⟩ | ⟨c1', c2'⟩
    · have := n1 c1 c2
      have := n2 c1' c2'
      omega
    · have := n1 c1 c2
      rw [← emax] at c1'
      omega
    · have := n2 c1' c2'
      rw [← emax] at c1'
      omega
    · rw [c1, c1', emax]
  subst hkk
  have hle : j ≤ qp.options.maxit.toNat := by rcases h5 with ⟨c1, _⟩ | ⟨c1, _⟩ <;> omega
  have hk0 := all j _ _ hle hk.its hk'.its
  have key : SameUpTo pb pb' f g k r r' := by
    rcases h5 with ⟨c1, c2⟩ | ⟨c1, c2⟩ <;> rcases h5' with ⟨c1', c2'⟩ | ⟨c1', c2'⟩
    · exact (brk_renumbered R h h' (hr.iterations hk.its) (hr'.iterations hk'.its) hk0 c2 c2').2 rfl
    · rw [← emax] at c1'; omega
    · rw [← emax] at c1'; omega
    · rw [c2, c2']; exact hk0
  have ec := key.stats
  simp only [Stats.mk.injEq, and_true] at ec
  have e1 : q1.stats.Flag = q1'.stats.Flag ∧ SameUpTo pb pb' f g k q1 q1' := by
    rw [h6, h6', key.options]
    rw [ec.1]
    split
    · obtain ⟨x, y, z, s, w1, w2⟩ := key.iter
      refine ⟨rfl, rfl, ⟨x, y, z, s, ⟨w1.x, w1.y, w1.z, w1.s⟩, ⟨w2.x, w2.y, w2.z, w2.s⟩⟩, ?_⟩
      obtain ⟨c1, c2, c3, c4, c5, c6, c7, c8, c9⟩ := ec
      simp only [Stats.mk.injEq]
      exact ⟨c1, c2, c3, c4, c5, c6, c7, c8, trivial, trivial, trivial⟩
    · exact ⟨ec.2.2.2.2.2.2.2.2, key⟩
  exact ⟨by rw [hk.ret, hk'.ret]; exact e1.1, e1.2⟩

/-- **C74.** Two runs with the same options on problems that differ by a renumbering of variables
and constraints and by the way the matrices are stored (`P` symmetric), with any two orderings, in
which every factorisation is exact, give the same exit code, the same iterate up to the renumbering
and the same statistics. -/
theorem C74_renumbering {amd amd' : Amd} {a a' : SetupArgs K} {q0 q0' q1 q1' : QP K} {fl fl' : Int}
    (R : pb.Renumbered pb' f g k) (h : Started amd a pb q0) (h' : Started amd' a' pb' q0')
    (hsym : pb.P.Symm) (o : Settings K) (hs : QP_SOLVE { q0 with options := o } = .ok (fl, q1))
    (hs' : QP_SOLVE { q0' with options := o } = .ok (fl', q1'))
    (hex0 : q0.kkt.Exact pb.N) (hex0' : q0'.kkt.Exact pb'.N)
    (hex : ∀ (j : Nat) qk, (j : Int) < o.maxit → Iterations (j + 1) { q0 with options := o } qk →
      qk.kkt.Exact pb.N)
    (hex' : ∀ (j : Nat) qk, (j : Int) < o.maxit → Iterations (j + 1) { q0' with options := o } qk →
      qk.kkt.Exact pb'.N) :
    fl = fl' ∧ SameUpTo pb pb' f g k q1 q1' := by
  have h0 := start_renumbered R h h' hsym hex0 hex0'
  obtain ⟨x, y, z, s, w1, w2⟩ := h0.iter
  refine solve_renumbered R h h' hsym (.options o .start) (.options o .start)
    ⟨rfl, ⟨x, y, z, s, ⟨w1.x, w1.y, w1.z, w1.s⟩, ⟨w2.x, w2.y, w2.z, w2.s⟩⟩, h0.stats⟩ hs hs' ?_
  intro j qk qk' r r' hj i1 i2 _ b1 b2
  exact ⟨hex j r hj (i1.succ b1), hex' j r' hj (i2.succ b2)⟩

theorem Problem.Renumbered.strong (R : pb.Renumbered pb' f g k) {eps : K} (h : pb.Strong eps) :
    pb'.Strong eps := by
  obtain ⟨f', hf⟩ := R.vars
  intro v
  rw [R.n, hf.dot_eq v v, hf.dot_eq v (pb'.P.mulVec v)]
  have e1 : dot pb.n (fun i => v (f i)) (fun i => pb'.P.mulVec v (f i))
      = dot pb.n (fun i => v (f i)) (pb.P.mulVec fun i => v (f i)) :=
    sum_congr rfl fun i hi => by simp only; rw [R.mulP v (mem_range.mp hi)]
  rw [e1]
  exact h _

/-- **C74** for strongly convex problems without equality constraints: it is enough that the first
run visits only points whose ratios of slack to multiplier exceed `1e-14`. -/
theorem C74_strongly_convex {amd amd' : Amd} {a a' : SetupArgs K} {q0 q0' q1 q1' : QP K}
    {fl fl' : Int} (R : pb.Renumbered pb' f g k) (h : Started amd a pb q0)
    (h' : Started amd' a' pb' q0') (hsym : pb.P.Symm) {eps : K} (heps : 1 / 10 ^ 14 < eps)
    (hP : pb.Strong eps) (hp0 : pb.p = 0) (o : Settings K)
    (hs : QP_SOLVE { q0 with options := o } = .ok (fl, q1))
    (hs' : QP_SOLVE { q0' with options := o } = .ok (fl', q1'))
    (hsz : ∀ (j : Nat) qk x y z s, (j : Int) < o.maxit → Iterations j { q0 with options := o } qk →
      qk.Iter pb x y z s → ∀ i, i < pb.m → 1 / 10 ^ 14 < s i / z i) :
    fl = fl' ∧ SameUpTo pb pb' f g k q1 q1' := by
  have hp0' : pb'.p = 0 := by rw [R.p, hp0]
  have h0 := start_renumbered R h h' hsym (C55_exact_setup h hsym heps hP hp0)
    (C55_exact_setup h' (R.symm hsym) heps (R.strong hP) hp0')
  obtain ⟨x, y, z, s, w1, w2⟩ := h0.iter
  refine solve_renumbered R h h' hsym (.options o .start) (.options o .start)
    ⟨rfl, ⟨x, y, z, s, ⟨w1.x, w1.y, w1.z, w1.s⟩, ⟨w2.x, w2.y, w2.z, w2.s⟩⟩, h0.stats⟩ hs hs' ?_
  intro j qk qk' r r' hj i1 i2 hsame b1 b2
  obtain ⟨x, y, z, s, w1, w2⟩ := hsame.iter
  have hr := hsz j qk _ _ _ _ hj i1 w1
  have hr' : ∀ i, i < pb'.m → 1 / 10 ^ 14 < s i / z i := by
    obtain ⟨k', hk⟩ := R.ineqs
    intro i hi
    rw [R.m] at hi
    have := hr (k' i) (hk.q_lt i hi)
    rwa [hk.pq i hi] at this
  have r1 : Reach q0 { q0 with options := o } := .options o .start
  have r2 : Reach q0' { q0' with options := o } := .options o .start
  exact ⟨C55_exact_step h hsym heps hP hp0 (r1.iterations i1) b1 w1 hr,
    C55_exact_step h' (R.symm hsym) heps (R.strong hP) hp0' (r2.iterations i2) b2 w2 hr'⟩

end

end

/-- `min x²/2` subject to `x ≤ 2`, `-x ≤ 1`. -/
noncomputable def pairPb : Problem ℝ where
  P := .lit 1 1 [0, 1] [0] [1]
  A := Csc.empty 1
  G := .lit 2 1 [0, 2] [0, 1] [1, -1]
  c := fun _ => 0
  b := fun _ => 0
  h := fun i => if i = 0 then 2 else 1
  sigma_d := 0

/-- The same with the constraints exchanged, the entry of `P` split into two and the entries of `G`
not sorted. -/
noncomputable def swapPb : Problem ℝ where
  P := .lit 1 1 [0, 2] [0, 0] [1 / 4, 3 / 4]
  A := Csc.empty 1
  G := .lit 2 1 [0, 2] [1, 0] [1, -1]
  c := fun _ => 0
  b := fun _ => 0
  h := fun i => if i = 0 then 1 else 2
  sigma_d := 0

theorem pairPb_wf : pairPb.WF where
  P := by
    refine ⟨rfl, ?_, ?_⟩
    · intro c hc; simp only [pairPb, Csc.lit] at hc ⊢; interval_cases c; decide
    · intro k hk
      have hk : k < 1 := hk
      interval_cases k; exact Nat.zero_lt_one
  A := ⟨rfl, fun _ _ => le_rfl, fun _ hk => absurd hk (by simp [pairPb, Csc.empty])⟩
  G := by
    refine ⟨rfl, ?_, ?_⟩
    · intro c hc; simp only [pairPb, Csc.lit] at hc ⊢; interval_cases c; decide
    · intro k hk
      have hk : k < 2 := hk
      interval_cases k <;> simp [pairPb, Csc.lit]
  Pm := rfl
  An := rfl
  Gn := rfl
  rows := by
    intro r hr
    have hr : r < 2 := hr
    interval_cases r
    · exact ⟨0, by simp [pairPb, Csc.lit], rfl⟩
    · exact ⟨1, by simp [pairPb, Csc.lit], rfl⟩
  m_pos := by simp [pairPb, Csc.lit]

theorem swapPb_wf : swapPb.WF where
  P := by
    refine ⟨rfl, ?_, ?_⟩
    · intro c hc; simp only [swapPb, Csc.lit] at hc ⊢; interval_cases c; decide
    · intro k hk
      have hk : k < 2 := hk
      interval_cases k <;> exact Nat.zero_lt_one
  A := ⟨rfl, fun _ _ => le_rfl, fun _ hk => absurd hk (by simp [swapPb, Csc.empty])⟩
  G := by
    refine ⟨rfl, ?_, ?_⟩
    · intro c hc; simp only [swapPb, Csc.lit] at hc ⊢; interval_cases c; decide
    · intro k hk
      have hk : k < 2 := hk
      interval_cases k <;> simp [swapPb, Csc.lit]
  Pm := rfl
  An := rfl
  Gn := rfl
  rows := by
    intro r hr
    have hr : r < 2 := hr
    interval_cases r
    · exact ⟨1, by simp [swapPb, Csc.lit], rfl⟩
    · exact ⟨0, by simp [swapPb, Csc.lit], rfl⟩
  m_pos := by simp [swapPb, Csc.lit]

theorem pairPb_strong : pairPb.Strong 1 := by
  intro v
  simp [dot, Csc.mulVec, Problem.n, pairPb, Csc.lit, Csc.entry, sum_Ico_eq_sum_range]

theorem pairPb_symm : pairPb.P.Symm := by
  intro r c hr hc
  simp only [pairPb, Csc.lit] at hr hc
  interval_cases r; interval_cases c; rfl

theorem pair_swap : pairPb.Renumbered swapPb id id (fun i => 1 - i) where
  n := rfl
  p := rfl
  m := rfl
  vars := ⟨id, fun i h => h, fun i h => h, fun _ _ => rfl, fun _ _ => rfl⟩
  eqs := ⟨id, fun i h => h, fun i h => h, fun _ _ => rfl, fun _ _ => rfl⟩
  ineqs := by
    refine ⟨fun i => 1 - i, ?_, ?_, ?_, ?_⟩ <;> intro i hi <;> have hi : i < 2 := hi
    · show 1 - i < 2; omega
    · show 1 - i < 2; omega
    · show 1 - (1 - i) = i; omega
    · show 1 - (1 - i) = i; omega
  P := by
    intro r c hr hc
    have hr : r < 1 := hr
    have hc : c < 1 := hc
    interval_cases r; interval_cases c
    simp [pairPb, swapPb, Csc.lit, Csc.entry, sum_range_succ]
    norm_num
  A := fun r c hr => absurd hr (by simp [Problem.p, pairPb, Csc.empty])
  G := by
    intro r c hr hc
    have hr : r < 2 := hr
    have hc : c < 1 := hc
    interval_cases c
    interval_cases r <;>
      simp [pairPb, swapPb, Csc.lit, Csc.entry, sum_range_succ]
  c := fun _ _ => rfl
  b := fun _ _ => rfl
  h := by
    intro i hi
    have hi : i < 2 := hi
    interval_cases i <;> simp [pairPb, swapPb]
  sigma_d := rfl

/-- The two programs are set up. -/
theorem id_started {pb : Problem ℝ} (hpb : pb.WF) (hA : pb.A = Csc.empty pb.n) :
    ∃ q0, Started failAmd (pb.args (some (Buf.ofFn pb.N (fun i => (i : Int))))) pb q0 := by
  have hg : (pb.args (some (Buf.ofFn pb.N (fun i => (i : Int))))).Give pb :=
    Problem.args_give _ _ (fun _ => hA)
  have hs : PermSource failAmd (pb.args (some (Buf.ofFn pb.N (fun i => (i : Int))))).Permut
      (pb.args (some (Buf.ofFn pb.N (fun i => (i : Int))))).p pb :=
    Or.inl ⟨_, id, id, rfl, ⟨fun i h => h, fun i h => h, fun _ _ => rfl, fun _ _ => rfl⟩,
      Buf.has_ofFn _ _⟩
  obtain ⟨q0, h⟩ := C26_setup hpb hg hs
  exact ⟨q0, hpb, hg, hs, h⟩

/-- The starting point of the first program: `x = 1/3`, `s = (5/3, 4/3)`, `z = (1, 4/3)`. -/
theorem pair_start {amd : Amd} {a : SetupArgs ℝ} {q0 : QP ℝ} (h : Started amd a pairPb q0)
    {x y z s : Nat → ℝ} (hi : q0.Iter pairPb x y z s) :
    x 0 = 1 / 3 ∧ s 0 = 5 / 3 ∧ s 1 = 4 / 3 ∧ z 0 = 1 ∧ z 1 = 4 / 3 := by
  obtain ⟨e, w, _, he, r1, r2, r3, lo, up, m1, m2, m3, m4⟩ := C53_starting_point h pairPb_symm hi
  have he := he (C55_exact_setup h pairPb_symm one_gt_small pairPb_strong rfl)
  have eN : pairPb.N = 3 := rfl
  have q1 := r1 0 (by decide)
  have q2 := r3 0 (by decide)
  have q3 := r3 1 (by decide)
  rw [he 0 (by decide)] at q1
  rw [he _ (by decide)] at q2
  rw [he _ (by decide)] at q3
  have g0 : pairPb.G.mulVec x 0 = x 0 := by
    simp [pairPb, Csc.mulVec, Csc.lit, Csc.entry, sum_Ico_eq_sum_range, sum_range_succ]
  have g1 : pairPb.G.mulVec x 1 = -x 0 := by
    simp [pairPb, Csc.mulVec, Csc.lit, Csc.entry, sum_Ico_eq_sum_range, sum_range_succ]
  have p0 : pairPb.P.mulVec x 0 = x 0 := by
    simp [pairPb, Csc.mulVec, Csc.lit, Csc.entry, sum_Ico_eq_sum_range]
  have t0 : pairPb.G.tmulVec w 0 = w 0 - w 1 := by
    simp [pairPb, Csc.tmulVec, Csc.lit, Csc.entry, sum_range_succ]
    ring
  have a0 : pairPb.A.tmulVec y 0 = 0 := by simp [pairPb, Csc.tmulVec, Csc.empty]
  have h0 : pairPb.h 0 = 2 := rfl
  have h1 : pairPb.h 1 = 1 := rfl
  have c0 : pairPb.c 0 = 0 := rfl
  rw [p0, a0, t0, c0] at q1
  rw [g0, h0] at q2
  rw [g1, h1] at q3
  have hx : x 0 = 1 / 3 := by linarith
  have v0 : pairPb.h 0 - pairPb.G.mulVec x 0 = 5 / 3 := by rw [h0, g0, hx]; norm_num
  have v1 : pairPb.h 1 - pairPb.G.mulVec x 1 = 4 / 3 := by rw [h1, g1, hx]; norm_num
  have elo : lo = 4 / 3 := by
    refine m1.unique ⟨⟨1, by decide, v1.symm⟩, ?_⟩
    rintro v ⟨i, hi, rfl⟩
    have hi : i < 2 := hi
    interval_cases i
    · rw [v0]; norm_num
    · rw [v1]
  have eup : up = 5 / 3 := by
    refine m2.unique ⟨⟨0, by decide, v0.symm⟩, ?_⟩
    rintro v ⟨i, hi, rfl⟩
    have hi : i < 2 := hi
    interval_cases i
    · rw [v0]
    · rw [v1]; norm_num
  have s0 := m3 0 (by decide)
  have s1 := m3 1 (by decide)
  have z0 := m4 0 (by decide)
  have z1 := m4 1 (by decide)
  rw [v0, elo, if_pos (by norm_num)] at s0
  rw [v1, elo, if_pos (by norm_num)] at s1
  rw [v0, eup, if_neg (by norm_num)] at z0
  rw [v1, eup, if_neg (by norm_num)] at z1
  exact ⟨hx, s0, s1, by rw [z0]; norm_num, by rw [z1]; norm_num⟩

/-- C74 for the two programs: the results of one iteration agree, with slacks and multipliers
exchanged. -/
example : ∃ (q0 q0' q1 q1' : QP ℝ) (a a' : SetupArgs ℝ) (f f' : Int) (o : Settings ℝ),
    Started failAmd a pairPb q0 ∧ Started failAmd a' swapPb q0' ∧ o.maxit = 1 ∧
    QP_SOLVE { q0 with options := o } = .ok (f, q1) ∧
    QP_SOLVE { q0' with options := o } = .ok (f', q1') ∧ f = f' ∧
    SameUpTo pairPb swapPb id id (fun i => 1 - i) q1 q1' := by
  obtain ⟨q0, h⟩ := id_started pairPb_wf rfl
  obtain ⟨q0', h'⟩ := id_started swapPb_wf rfl
  obtain ⟨o, ho, hv⟩ : ∃ o : Settings ℝ, o.maxit = 1 ∧ o.verbose ≤ 0 :=
    ⟨{ q0.options with maxit := 1, verbose := 0 }, rfl, le_rfl⟩
  obtain ⟨_, f, q1, hq⟩ := C26_solve h (.options o .start) (Or.inl hv)
  obtain ⟨_, f', q1', hq'⟩ := C26_solve h' (.options o .start) (Or.inl hv)
  obtain ⟨e1, e2⟩ := C74_strongly_convex pair_swap h h' pairPb_symm one_gt_small pairPb_strong rfl o
    hq hq' (by
      intro k qk x y z s hk hik hit i hi
      have hk : k = 0 := by omega
      subst hk
      cases hik
      have hi : i < 2 := hi
      obtain ⟨_, s0, s1, z0, z1⟩ := pair_start h (x := x) (y := y) (z := z) (s := s)
        ⟨hit.x, hit.y, hit.z, hit.s⟩
      interval_cases i
      · rw [z0, s0]; norm_num
      · rw [z1, s1]; norm_num)
  exact ⟨q0, q0', q1, q1', _, _, f, f', o, h, h', ho, hq, hq', e1, e2⟩

end Verif
