import Verif.Lemmas.AmdAat
import Verif.Props.AmdInput
import Verif.Props.Start

/-! # The ordering returns a permutation (C39) -/

namespace Verif

/-- The arrays of a pattern with sorted columns. -/
theorem Csc.patBuf {N : Nat} {A : Csc Unit} (hA : A.WF) (hn : A.n = N) (hm : A.m = N) (hs : A.Sorted)
    {Ap Ai : Buf Int} (hp : Buf.Has Ap (N + 1) (fun i => (A.jc i : Int)))
    (hi : Buf.Has Ai A.nnz (fun k => (A.ir k : Int))) :
    PatBuf N Ap Ai (fun j => (A.jc j.toNat : Int)) (fun q => (A.ir q.toNat : Int)) := by
  have hle : ∀ c, c ≤ A.n → A.jc c ≤ A.nnz := fun c hc => hA.le_nnz hc
  have hst : ∀ c, c < A.n → ∀ d q, A.jc c ≤ q → q + d + 1 < A.jc (c + 1) → A.ir q < A.ir (q + d + 1) := by
    intro c hc d
    induction d with
    | zero => intro q h1 h2; exact hs c hc q h1 h2
    | succ d ih =>
      intro q h1 h2
      exact (ih q h1 (by omega)).trans (hs c hc (q + d + 1) (by omega) h2)
  have hlen : A.nnz ≤ Ai.length := by
    by_contra hc
    have := hi Ai.length (by omega)
    simp at this
  refine ⟨⟨?_, ?_, ?_⟩, ?_, ?_, ?_⟩
  · intro j j0 j1
    have := hA.mono j.toNat (by omega)
    rw [show (j + 1).toNat = j.toNat + 1 by omega]
    exact_mod_cast this
  · intro j j0 j1 q q0 q1
    rw [show (j + 1).toNat = j.toNat + 1 by omega] at q1
    have h1 := hle (j.toNat + 1) (by omega)
    have := hA.ir_lt q.toNat (by unfold Csc.nnz at h1; omega)
    omega
  · intro j j0 j1 q q' q0 q1 q2
    rw [show (j + 1).toNat = j.toNat + 1 by omega] at q2
    have := hst j.toNat (by omega) (q'.toNat - q.toNat - 1) q.toNat (by omega) (by omega)
    rw [show q.toNat + (q'.toNat - q.toNat - 1) + 1 = q'.toNat by omega] at this
    exact_mod_cast this
  · intro j j0 j1
    have := hp.rd (show j.toNat < N + 1 by omega)
    rwa [Int.toNat_of_nonneg j0] at this
  · intro j j0 j1 q q0 q1
    rw [show (j + 1).toNat = j.toNat + 1 by omega] at q1
    have h1 := hle (j.toNat + 1) (by omega)
    have := hi.rd (show q.toNat < A.nnz by omega)
    rwa [Int.toNat_of_nonneg (by omega)] at this
  · intro j j0 j1
    rw [show (j + 1).toNat = j.toNat + 1 by omega]
    have h1 := hle (j.toNat + 1) (by omega)
    omega

theorem amdMalloc_ok {n : Int} (h0 : 0 ≤ n) (h1 : n < SIZE_T_MAX_8 + 1) : amdMalloc n = .ok (malloc n) := by
  unfold amdMalloc
  unfold SIZE_T_MAX_8 at h1
  rw [if_pos (by norm_num at h1 ⊢; omega)]

/-- The size computed for the block `S` is the sum without the reduction modulo `2 ^ 64`, or the checks
fail and the sum is at least `2 ^ 64`. -/
theorem orderSize_spec {n nzaat : Int} (hn : 0 ≤ n) (hn1 : n < SIZE_T_MAX_8) (hz : 0 ≤ nzaat)
    (hz1 : nzaat < 2 * SIZE_T_MAX_8) : Spec (orderSize n nzaat) (fun r => 0 ≤ r.2 ∧
      ((r.1 = true ∧ r.2 = nzaat + nzaat / 5 + 7 * n) ∨
        (r.1 = false ∧ (n = 0 ∨ 2 ^ 64 ≤ nzaat + nzaat / 5 + 7 * n)))) := by
  unfold orderSize
  unfold SIZE_T_MAX_8 at hn1 hz1
  norm_num at hn1 hz1
  have e : addSize nzaat (nzaat / 5) = nzaat + nzaat / 5 := by
    unfold addSize
    rw [Int.emod_eq_of_lt (by omega) (by norm_num; omega)]
  refine (forI_int (by decide) (fun k (r : Bool × Int) => 0 ≤ r.2 ∧ r.2 < 2 ^ 64 ∧
      ((r.1 = true ∧ r.2 = nzaat + nzaat / 5 + k * n) ∨
        (r.1 = false ∧ (n = 0 ∨ 2 ^ 64 ≤ nzaat + nzaat / 5 + 7 * n)))) ?_ ?_).mono ?_
  · dsimp only
    rw [e]
    exact ⟨by omega, by norm_num; omega, Or.inl ⟨by simp; omega, by omega⟩⟩
  · rintro k ⟨b, v⟩ k0 k1 ⟨h0, h1, h2⟩
    dsimp only at h0 h1 h2 ⊢
    rcases h2 with ⟨rfl, h2⟩ | ⟨rfl, h2⟩
    · rw [if_pos rfl]
      refine Spec.ok ?_
      dsimp only
      have hm : 0 ≤ addSize v n ∧ addSize v n < 2 ^ 64 := by
        unfold addSize
        exact ⟨Int.emod_nonneg _ (by norm_num), Int.emod_lt_of_pos _ (by norm_num)⟩
      refine ⟨hm.1, hm.2, ?_⟩
      have hk : (k + 1) * n = k * n + n := by ring
      by_cases hw : v + n < 2 ^ 64
      · have : addSize v n = v + n := by
          unfold addSize
          rw [Int.emod_eq_of_lt (by omega) hw]
        rw [this]
        by_cases hpos : v + n > v
        · exact Or.inl ⟨by simp; omega, by omega⟩
        · exact Or.inr ⟨by simp; omega, Or.inl (by omega)⟩
      · have : addSize v n = v + n - 2 ^ 64 := by
          unfold addSize
          rw [Int.emod_eq_sub_self_emod, Int.emod_eq_of_lt (by omega) (by norm_num at h1 ⊢; omega)]
        have h7 : k * n ≤ 6 * n := Int.mul_le_mul_of_nonneg_right (by omega) hn
        exact Or.inr ⟨by rw [this]; simp; norm_num at h1 ⊢; omega, Or.inr (by omega)⟩
    · rw [if_neg (by simp)]
      exact Spec.ok ⟨h0, h1, Or.inr ⟨rfl, h2⟩⟩
  · rintro ⟨b, v⟩ ⟨h0, -, h2⟩
    exact ⟨h0, h2⟩

/-- Counting and ordering of a pattern with sorted columns. -/
private theorem order_tail {N : Nat} (hB : (N : Int) < SIZE_T_MAX_8) (hN : 0 < N) {A : Csc Unit}
    (hZ : (A.nnz : Int) < SIZE_T_MAX_8) (hA : A.WF) (hn : A.n = N) (hm : A.m = N)
    (hs : A.Sorted) {Ap Ai : Buf Int} (hp : Buf.Has Ap (N + 1) (fun i => (A.jc i : Int)))
    (hi : Buf.Has Ai A.nnz (fun k => (A.ir k : Int))) {W Flag P : Buf Int} (hW : W.length = N)
    (hF : Flag.length = N) (hP : P.length = N) (dense : Int) (aggressive : Bool) (status : Int) (ok : Bool) :
    Spec (do
      let t ← AMD_aat N Ap Ai W P
      let r ← orderSize N t.1
      if (r.1 = true ∧ r.2 < SIZE_T_MAX_8 ∧ r.2 < Int_MAX) ∧ ok = true then do
        let S ← amdMalloc r.2
        let o ← AMD_1 N Ap Ai t.2.2 Flag t.2.1 r.2 S dense aggressive
        pure (status, o.1)
      else pure (AMD_OUT_OF_MEMORY, t.2.2) : M (Int × Buf Int)) (fun r => r.2.length = N ∧
        ((r.1 = AMD_OUT_OF_MEMORY ∧ ¬ (N < 2 ^ 55 ∧ A.nnz < 2 ^ 55 ∧ ok = true)) ∨
          (r.1 = status ∧ ok = true ∧ ∃ p q : Nat → Nat, PermPair N p q ∧ Buf.Has r.2 N (fun i => (p i : Int))))) := by
  have hb := Csc.patBuf hA hn hm hs hp hi
  have hB' := hB
  have hZ' := hZ
  unfold SIZE_T_MAX_8 at hB' hZ'
  norm_num at hB' hZ'
  have e : A.jc N = A.nnz := by rw [← hn]; rfl
  refine Spec.bind (AMD_aat_spec (n := N) (by unfold Int_MAX; omega) (by omega) hb (by simp [hA.jc0])
    (by simp only [Int.toNat_natCast, e]; norm_num; omega) (by simp only [Int.toNat_natCast, e]; unfold Int_MAX; omega) (Len := W) (Tp := P) (by omega) (by omega)) ?_
  rintro ⟨nzaat, Len, Tp⟩ ⟨D, hD, hsum, hL, hLv, hT⟩
  simp only at hsum hL hLv hT ⊢
  have hpos : 0 ≤ nzaat := by rw [hsum]; exact Finset.sum_nonneg (fun _ _ => by omega)
  have hup := nzaat_le (n := N) (by omega) hb.pat (by simp [hA.jc0]) hD
  rw [← hsum] at hup
  simp only [Int.toNat_natCast] at hup
  rw [e] at hup
  refine Spec.bind (orderSize_spec (n := N) (by omega) hB hpos (by omega)) ?_
  rintro ⟨b, slen⟩ ⟨hr0, hr⟩
  dsimp only at hr0 hr ⊢
  by_cases hc : (b = true ∧ slen < SIZE_T_MAX_8 ∧ slen < Int_MAX) ∧ ok = true
  · rw [if_pos hc, amdMalloc_ok hr0 (by omega), ok_bind]
    rcases hr with ⟨-, hr⟩ | ⟨hr, -⟩
    · refine Spec.bind (AMD_1_spec (n := N) (by
        have := hc.1.2.1
        unfold SIZE_T_MAX_8 at this
        unfold Int_MAX
        omega) (by omega) hb hD hL hLv hT (by omega) (by simp; omega) (by omega)) ?_
      rintro ⟨o1, o2⟩ ⟨p, q, h1, h2, h3, h4, h5⟩
      simp only [Int.toNat_natCast] at h1 h2 h3 h4 h5 ⊢
      exact Spec.ok ⟨by simp only; omega, Or.inr ⟨rfl, hc.2, p, q, h1, h4⟩⟩
    · simp [hr] at hc
  · rw [if_neg hc]
    refine Spec.ok ⟨by simp only; omega, Or.inl ⟨rfl, ?_⟩⟩
    rintro ⟨h1, h2, h3⟩
    norm_num at h1 h2
    rcases hr with ⟨hr, hr'⟩ | ⟨-, hr⟩
    · refine hc ⟨⟨hr, ?_⟩, h3⟩
      unfold SIZE_T_MAX_8 Int_MAX
      norm_num
      omega
    · norm_num at hr
      omega

/-- The workspace needed to order a pattern is allocated: `Rp` and `Ri` are needed for a pattern
with an unsorted column or a repeated entry. -/
def AmdMem.Enough (mem : AmdMem) (A : Csc Unit) : Prop :=
  mem.Len = true ∧ mem.Pinv = true ∧ mem.S = true ∧ (¬ A.Sorted → mem.Rp = true ∧ mem.Ri = true)

open Classical in
/-- **C39.** On every well-formed square pattern the ordering routine terminates without touching
memory outside its arrays and without an integer overflow, whichever of its allocations succeed. It either reports
`AMD_OUT_OF_MEMORY`, which does not happen when the dimension and the number of entries are below
`2 ^ 55` and the workspace it needs is allocated, or reports `AMD_OK` (`AMD_OK_BUT_JUMBLED` when
some column is unsorted or has a repeated entry) and the output array holds a permutation, which
does not happen when an allocation fails. This holds for every choice of the control parameters. -/
theorem C39_order (mem : AmdMem) (dense : Int → Int) (aggressive : Bool) {N : Nat} {A : Csc Unit}
    (hA : A.WF) (hn : A.n = N)
    (hm : A.m = N) {Ap Ai P : Buf Int} (hp : Buf.Has Ap (N + 1) (fun i => (A.jc i : Int)))
    (hi : Buf.Has Ai A.nnz (fun k => (A.ir k : Int))) (hP : P.length = N) :
    ∃ st P', AMD_order mem dense aggressive N Ap Ai P = .ok (st, P') ∧ P'.length = N ∧
      ((st = AMD_OUT_OF_MEMORY ∧ ¬ (N < 2 ^ 55 ∧ A.nnz < 2 ^ 55 ∧ mem.Enough A)) ∨
        (st = (if A.Sorted then AMD_OK else AMD_OK_BUT_JUMBLED) ∧ (N = 0 ∨ mem.Enough A) ∧
          ∃ p q : Nat → Nat, PermPair N p q ∧ Buf.Has P' N (fun i => (p i : Int)))) := by
  suffices h : Spec (AMD_order mem dense aggressive N Ap Ai P) (fun r => r.2.length = N ∧
      ((r.1 = AMD_OUT_OF_MEMORY ∧ ¬ (N < 2 ^ 55 ∧ A.nnz < 2 ^ 55 ∧ mem.Enough A)) ∨
        (r.1 = (if A.Sorted then AMD_OK else AMD_OK_BUT_JUMBLED) ∧ (N = 0 ∨ mem.Enough A) ∧
          ∃ p q : Nat → Nat, PermPair N p q ∧ Buf.Has r.2 N (fun i => (p i : Int))))) by
    obtain ⟨⟨st, P'⟩, h1, h2⟩ := h
    exact ⟨st, P', h1, h2⟩
  unfold AMD_order
  rw [if_neg (by omega)]
  by_cases hN : N = 0
  · subst hN
    rw [if_pos (by simp)]
    refine Spec.ok ⟨hP, Or.inr ⟨?_, Or.inl rfl, id, id, ⟨by simp, by simp, by simp, by simp⟩, fun i hi => by omega⟩⟩
    have hs0 : A.Sorted := fun c hc => by omega
    rw [if_pos hs0]
  rw [if_neg (by omega)]
  have hrd := hp.rd (show N < N + 1 by omega)
  rw [hrd]
  have e : A.jc N = A.nnz := by rw [← hn]; rfl
  rw [e]
  simp only [ok_bind]
  rw [if_neg (by omega)]
  by_cases hbig : (N : Int) ≥ SIZE_T_MAX_8 ∨ (A.nnz : Int) ≥ SIZE_T_MAX_8
  · rw [if_pos hbig]
    refine Spec.ok ⟨hP, Or.inl ⟨rfl, ?_⟩⟩
    rintro ⟨h1, h2, -⟩
    unfold SIZE_T_MAX_8 at hbig
    norm_num at h1 h2 hbig
    omega
  rw [if_neg hbig]
  have hle : ∀ c, c ≤ A.n → A.jc c ≤ A.nnz := fun c hc => hA.le_nnz hc
  have hval := C40_valid (m := N) (n := N) hp hi (fun j hj => by
    have := hle j (by omega)
    exact_mod_cast this)
  have hv : ValidPattern N N (fun i => (A.jc i : Int)) (fun k => (A.ir k : Int)) := by
    refine ⟨by simp [hA.jc0], fun j hj => by have := hA.mono j (by omega); simp only; omega, ?_⟩
    intro k hk
    have := hA.ir_lt k (by simp only at hk; rw [hn]; omega)
    simp only
    omega
  have hinc : IncreasingColumns N (fun i => (A.jc i : Int)) (fun k => (A.ir k : Int)) ↔ A.Sorted := by
    unfold IncreasingColumns Csc.Sorted
    constructor
    · intro h c hc k h1 h2
      have := h c (by omega) k (by simp only; omega) (by simp only; omega)
      simp only at this
      omega
    · intro h c hc k h1 h2
      simp only at h1 h2 ⊢
      have := h c (by omega) k (by omega) (by omega)
      omega
  rw [hval, if_neg (not_not.mpr hv)]
  simp only [ok_bind, hinc]
  have hne : (if ¬ A.Sorted then AMD_OK_BUT_JUMBLED else AMD_OK) ≠ AMD_INVALID := by
    split <;> decide
  have hbig' := not_or.mp hbig
  rw [if_neg hne, amdMalloc_ok (by omega) (by omega), ok_bind, ok_bind]
  by_cases hLP : (!mem.Len || !mem.Pinv) = true
  · rw [if_pos hLP]
    refine Spec.ok ⟨hP, Or.inl ⟨rfl, ?_⟩⟩
    rintro ⟨-, -, h1, h2, -⟩
    simp [h1, h2] at hLP
  rw [if_neg hLP]
  have hL : mem.Len = true ∧ mem.Pinv = true := by simpa using hLP
  by_cases hs : A.Sorted
  · rw [if_neg (not_not.mpr hs), if_pos hs, if_neg (by simp [AMD_OK, AMD_OK_BUT_JUMBLED]),
      if_neg (by decide)]
    simp only [pure_eq_ok, ok_bind]
    refine (order_tail (by omega) (by omega) (by omega) hA hn hm hs hp hi (by simp) (by simp) hP _ _ _ _).mono ?_
    rintro r ⟨ha, hb⟩
    refine ⟨ha, ?_⟩
    rcases hb with ⟨hc, hd⟩ | ⟨hc, hd, he⟩
    · exact Or.inl ⟨hc, fun h => hd ⟨h.1, h.2.1, h.2.2.2.2.1⟩⟩
    · exact Or.inr ⟨hc, Or.inr ⟨hL.1, hL.2, hd, fun h => absurd hs h⟩, he⟩
  · rw [if_pos hs, if_neg hs]
    by_cases hR : (!mem.Rp || !mem.Ri) = true
    · rw [if_pos (by simpa using hR)]
      refine Spec.ok ⟨hP, Or.inl ⟨rfl, ?_⟩⟩
      rintro ⟨-, -, -, -, -, h1⟩
      simp [h1 hs] at hR
    rw [if_neg (by simpa using hR), if_pos rfl, ck_bind (by
      have := hbig'.1
      unfold SIZE_T_MAX_8 at this
      unfold Int_MAX
      omega), amdMalloc_ok (by omega) (by omega), ok_bind, amdMalloc_ok (by omega) (by
      unfold SIZE_T_MAX_8 at hbig' ⊢
      omega), ok_bind]
    have hRR : mem.Rp = true ∧ mem.Ri = true := by simpa using hR
    obtain ⟨⟨Rp, Ri, W, F⟩, h0, R, h1, h2, h3, h4, h5, h6, h7, h8, h9, h10, h11⟩ :=
      AMD_preprocess_spec hA hn hm hp hi (by unfold Int_MAX; unfold SIZE_T_MAX_8 at hbig; omega) (Rp := malloc (N + 1)) (Ri := malloc (max (A.nnz : Int) 1))
        (W := malloc N) (Flag := malloc N) (by simp) (by simp) (by simp) (by simp)
    rw [h0]
    simp only [pure_eq_ok, ok_bind] at h6 h7 h8 h9 h10 h11 ⊢
    have hlen : (R.nnz : Int) ≤ max (A.nnz : Int) 1 := by
      have : R.nnz ≤ Ri.length := by
        by_contra hc
        have := h7 Ri.length (by omega)
        simp at this
      rw [h9] at this
      simp at this
      omega
    refine (order_tail (by omega) (by omega) (by
      unfold SIZE_T_MAX_8 at hbig' ⊢
      omega) h1 h2 h3 h4 h6 h7 h10 h11 hP _ _ _ _).mono ?_
    rintro r ⟨ha, hb⟩
    refine ⟨ha, ?_⟩
    rcases hb with ⟨hc, hd⟩ | ⟨hc, hd, he⟩
    · refine Or.inl ⟨hc, fun hlt => hd ⟨hlt.1, ?_, hlt.2.2.2.2.1⟩⟩
      omega
    · exact Or.inr ⟨hc, Or.inr ⟨hL.1, hL.2, hd, fun _ => hRR⟩, he⟩

/-- **C39.** The ordering routine of the repository meets the assumption `AmdSafe` made on it in the theorems
about setup and solve. -/
theorem C39_safe (mem : AmdMem) (dense : Int → Int) (aggressive : Bool) : AmdSafe (AMD_order mem dense aggressive) := by
  intro N A Ap Ai P hA hn hm hp hi hP
  obtain ⟨st, P', h1, h2, h3⟩ := C39_order mem dense aggressive hA hn hm hp hi hP
  refine ⟨st, P', h1, h2, ?_⟩
  rcases h3 with ⟨rfl, _⟩ | ⟨_, -, h⟩
  · exact Or.inl (by decide)
  · exact Or.inr h

/-- **C39.** Setup without a permutation from the caller, with the ordering routine of the repository. -/
theorem C39_setup {K : Type} [Field K] [Scalar K] (mem : AmdMem) (dense : Int → Int) (aggressive : Bool) {a : SetupArgs K}
    {pb : Problem K} (hpb : pb.WF) (ha : a.Give pb) (hN : a.Permut = none) (hp : a.p = pb.p) :
    ∃ q0, QP_SETUP (AMD_order mem dense aggressive) a = .ok q0 ∧
      Started (AMD_order mem dense aggressive) a pb q0 := by
  have hs : PermSource (AMD_order mem dense aggressive) a.Permut a.p pb :=
    Or.inr ⟨hN, C39_safe mem dense aggressive, Or.inl hp⟩
  obtain ⟨q0, h⟩ := C26_setup hpb ha hs
  exact ⟨q0, h, hpb, ha, hs, h⟩

/-- The unsorted pattern with a repeated entry of `jumbledDemo` is ordered. -/
example : ∃ P', AMD_order ⟨true, true, true, true, true⟩ (fun _ => 10) true 3 (Buf.ofFn 4 (fun i => (jumbledDemo.jc i : Int)))
      (Buf.ofFn 6 (fun k => (jumbledDemo.ir k : Int))) (malloc 3) = .ok (AMD_OK_BUT_JUMBLED, P') ∧
    ∃ p q : Nat → Nat, PermPair 3 p q ∧ Buf.Has P' 3 (fun i => (p i : Int)) := by
  obtain ⟨st, P', h1, h2, h3⟩ := C39_order (N := 3) ⟨true, true, true, true, true⟩ (fun _ => 10) true jumbledDemo_wf rfl rfl
    (Buf.has_ofFn 4 _) (Buf.has_ofFn 6 _) (P := malloc 3) rfl
  have hns : ¬ jumbledDemo.Sorted := fun h => absurd (h 0 (by decide) 0 (by decide) (by decide)) (by decide)
  rw [if_neg hns] at h3
  rcases h3 with ⟨_, h⟩ | ⟨rfl, -, h⟩
  · exact absurd ⟨by decide, by decide, rfl, rfl, rfl, fun _ => ⟨rfl, rfl⟩⟩ h
  · exact ⟨P', h1, h⟩

/-- Setup of the demo program with the ordering of the repository. -/
example (mem : AmdMem) (dense : Int → Int) (aggressive : Bool) :
    ∃ q0, QP_SETUP (AMD_order mem dense aggressive) ((demoPb ℚ).args none) = .ok q0 := by
  obtain ⟨q0, h, _⟩ := C39_setup mem dense aggressive demoPb_wf (a := (demoPb ℚ).args none)
    (Problem.args_give _ _ (by simp [demoPb, Problem.p, Csc.lit])) rfl rfl
  exact ⟨q0, h⟩

/-- C54 without a permutation from the caller: the ordering in the state is the one `AMD_order`
computed, or the identity if it reported a failure. -/
example (mem : AmdMem) (dense : Int → Int) (aggressive : Bool) :
    ∃ q0 : QP ℚ, QP_SETUP (AMD_order mem dense aggressive) ((demoPb ℚ).args none) = .ok q0 ∧
      ∃ (S : Smat ℚ) (P' : Buf Int), AMD_order mem dense aggressive (demoPb ℚ).N S.jc S.ir
        (malloc (demoPb ℚ).N) = .ok (q0.stats.AMD_RESULT, P') ∧
        (0 ≤ q0.stats.AMD_RESULT → q0.kkt.P = P') := by
  obtain ⟨q0, h, hs⟩ := C39_setup mem dense aggressive demoPb_wf (a := (demoPb ℚ).args none)
    (Problem.args_give _ _ (by simp [demoPb, Problem.p, Csc.lit])) rfl rfl
  obtain ⟨S, P', _, h1, h2, _⟩ := (C54_ordering_used hs).2 rfl
  exact ⟨q0, h, S, P', h1, h2⟩

end Verif
