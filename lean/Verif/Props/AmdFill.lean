import Verif.Lemmas.AmdStat
import Verif.Lemmas.AmdRel
import Verif.Props.AmdStats
import Verif.Props.FillPath

/-!
# The statistics of the ordering routine (C87)
-/

namespace Verif

open Finset

open Classical in
/-- The number of entries off the diagonal in row `u` of the pattern of `A + A'`. -/
noncomputable def Csc.degree {K : Type} (A : Csc K) (u : Nat) : Nat := ((range A.n).filter (A.Edge u)).card

theorem LPattern.within {S S' : Nat → Nat → Prop} {n k j : Nat} (h : LPattern S k j)
    (hS : ∀ j k, j < k → k < n → S j k → S' j k) : k < n → LPattern S' k j := by
  induction h with
  | entry h hs => exact fun hk => .entry h (hS _ _ h hk hs)
  | fill h1 h2 _ _ i1 i2 => exact fun hk => .fill h1 h2 (i1 hk) (i2 (by omega))

open Classical in
theorem colCount_mono {S S' : Nat → Nat → Prop} {n : Nat} (hS : ∀ j k, j < k → k < n → S j k → S' j k) (j : Nat) :
    colCount n S j ≤ colCount n S' j := by
  unfold colCount
  refine card_le_card fun k hk => ?_
  rw [mem_filter, mem_range] at hk ⊢
  exact ⟨hk.1, hk.2.within hS hk.1⟩

theorem FillBound.congr {N : Nat} {adj adj' : Nat → Nat → Prop} {p q : Nat → Nat} {t : AmdStat}
    (h : FillBound N adj p t) (hp : PermPair N p q) (he : ∀ u v, u < N → v < N → (adj u v ↔ adj' u v)) :
    FillBound N adj' p t := by
  have e : ∀ j, colCount N (fun j k => adj' (p j) (p k)) j = colCount N (fun j k => adj (p j) (p k)) j := by
    intro j
    refine le_antisymm (colCount_mono (fun j k h1 h2 => ?_) j) (colCount_mono (fun j k h1 h2 => ?_) j)
    · exact (he _ _ (hp.p_lt j (by omega)) (hp.p_lt k h2)).mpr
    · exact (he _ _ (hp.p_lt j (by omega)) (hp.p_lt k h2)).mp
  refine ⟨?_, ?_, ?_, ?_, ?_⟩ <;> simp only [e]
  exacts [h.lnz, h.ndiv, h.lu, h.ldl, h.dmax]

section

variable {K : Type} {A : Csc K} {N : Nat} {D : Int → List Int}

theorem nbrs_degree (hn : A.n = N)
    (hD : Nbrs N (fun j => (A.jc j.toNat : Int)) (fun q => (A.ir q.toNat : Int)) D) {u : Nat} (hu : u < N) :
    (D u).length = A.degree u := by
  unfold Csc.degree
  rw [hn]
  exact nbrs_card hD hu

end

/-- The result of an ordering that succeeded, with the statistics; `ex` is the size of the two work
arrays for unsorted patterns. -/
def Good {K : Type} (A : Csc K) (N : Nat) (dense ex : Int) (r : (Int × Buf Int) × Option OrderInfo) : Prop :=
  ∃ (p q : Nat → Nat) (t : OrderInfo), PermPair N p q ∧ Buf.Has r.1.2 N (fun i => (p i : Int)) ∧
    r.2 = some t ∧ FillBound N A.Edge p t.stat ∧
    (∀ u, u < N → ((N : Int) - t.ndense ≤ q u ↔ min (N : Int) (max 16 dense) < A.degree u)) ∧
    InputStats A N t.aat ∧ t.memory = 8 * (9 * N + t.aat.nzaat + t.aat.nzaat / 5 + ex)

open Classical in
theorem Good.congr {K L : Type} {A : Csc K} {B : Csc L} {N : Nat} {dense ex : Int}
    {r : (Int × Buf Int) × Option OrderInfo} (h : Good A N dense ex r) (hA : A.n = N) (hB : B.n = N)
    (he' : ∀ u v, u < N → v < N → (A.Stored u v ↔ B.Stored v u)) : Good B N dense ex r := by
  have he : ∀ u v, u < N → v < N → (A.Edge u v ↔ B.Edge u v) := by
    intro u v hu hv
    unfold Csc.Edge
    rw [he' u v hu hv, he' v u hv hu, or_comm]
  obtain ⟨p, q, t, h1, h2, h3, h4, h5, h6, h7⟩ := h
  refine ⟨p, q, t, h1, h2, h3, h4.congr h1 he, fun u hu => ?_, h6.congr he', h7⟩
  have : A.degree u = B.degree u := by
    unfold Csc.degree
    rw [hA, hB]
    congr 1
    exact filter_congr fun v hv => he u v hu (mem_range.mp hv)
  rw [h5 u hu, this]

/-- Counting and ordering of a pattern with sorted columns. -/
private theorem order_tailI {N : Nat} (hB : (N : Int) < SIZE_T_MAX_8) (hN : 0 < N) {A : Csc Unit}
    (hZ : (A.nnz : Int) < SIZE_T_MAX_8) (hA : A.WF) (hn : A.n = N) (hm : A.m = N)
    (hs : A.Sorted) {Ap Ai : Buf Int} (hp : Buf.Has Ap (N + 1) (fun i => (A.jc i : Int)))
    (hi : Buf.Has Ai A.nnz (fun k => (A.ir k : Int))) {W Flag P : Buf Int} (hW : W.length = N)
    (hF : Flag.length = N) (hP : P.length = N) (dense : Int) (aggressive : Bool) (status : Int) (ok : Bool) (ex : Int) :
    Spec (do
      let ti ← AMD_aatI N Ap Ai W P
      let t := ti.1
      let r ← orderSize N t.1
      if (r.1 = true ∧ r.2 < SIZE_T_MAX_8 ∧ r.2 < Int_MAX) ∧ ok = true then do
        let S ← amdMalloc r.2
        let o ← AMD_1I N Ap Ai t.2.2 Flag t.2.1 r.2 S dense aggressive
        let mem := (N : Int) + N + ex + r.2
        pure ((status, o.1.1), some { aat := ti.2, memory := mem * 8, stat := o.2.1, ndense := o.2.2 })
      else pure ((AMD_OUT_OF_MEMORY, t.2.2), none) : M ((Int × Buf Int) × Option OrderInfo))
      (fun r => r.1.1 = AMD_OUT_OF_MEMORY ∧ r.2 = none ∨ Good A N dense ex r) := by
  have hb := Csc.patBuf hA hn hm hs hp hi
  have hB' := hB
  have hZ' := hZ
  unfold SIZE_T_MAX_8 at hB' hZ'
  norm_num at hB' hZ'
  have e : A.jc N = A.nnz := by rw [← hn]; rfl
  refine Spec.bind (AMD_aatI_spec (n := N) (by unfold Int_MAX; omega) (by omega) hb (by simp [hA.jc0])
    (by simp only [Int.toNat_natCast, e]; norm_num; omega) (by simp only [Int.toNat_natCast, e]; unfold Int_MAX; omega) (Len := W) (Tp := P) (by omega) (by omega)) ?_
  rintro ⟨⟨nzaat, Len, Tp⟩, ai⟩ ⟨D, hD, ⟨hsum, hL, hLv, hT⟩, a1, a2, a3, nb, a4, -, a5⟩
  simp only at hsum hL hLv hT a1 a2 a3 a4 a5 ⊢
  have hai : InputStats A N ai := by
    rw [nbrs_sum hD] at a3 a4
    simp only [Int.toNat_natCast] at a1 a4 a5
    exact InputStats.of_counts hA hn hm hs a1 a2 a3 a4 a5
  rw [← hsum] at a3
  have hpos : 0 ≤ nzaat := by rw [hsum]; exact Finset.sum_nonneg (fun _ _ => by omega)
  have hup := nzaat_le (n := N) (by omega) hb.pat (by simp [hA.jc0]) hD
  rw [← hsum] at hup
  simp only [Int.toNat_natCast] at hup
  rw [e] at hup
  refine Spec.bind (orderSize_spec (n := N) (by omega) hB hpos (by omega)) ?_
  rintro ⟨b, slen⟩ ⟨hr0, hr⟩
  dsimp only at hr0 hr ⊢
  by_cases hc : (b = true ∧ slen < SIZE_T_MAX_8 ∧ slen < Int_MAX) ∧ ok = true
  · rw [if_pos hc, amdMalloc_ok hr0 (by omega), ok_bind]
    rcases hr with ⟨-, hr⟩ | ⟨hr, -⟩
    · have hb1 := hc.1.2.1
      unfold SIZE_T_MAX_8 at hb1
      refine Spec.bind (amd1With_spec (G := fun iwlen s => AMD_2I N dense iwlen aggressive s)
        (Q := fun r => Good A N dense ex ((status, r.1.1), some { aat := ai, memory := ((N : Int) + N + ex + slen) * 8, stat := r.2.1, ndense := r.2.2 })) (n := N) (by unfold Int_MAX; omega)
        (by omega) hb hD hL hLv hT (by omega) (by simp; omega) (by omega) (fun D' s hD' hs' =>
          (AMD_2I_spec (by unfold Int_MAX; omega) hs').mono ?_)) ?_
      · rintro ⟨⟨o1, o2⟩, t1, nd⟩ ⟨p, q, h1, h2, h3, h4, h5, h6, h7⟩
        simp only at h1 h2 h3 h4 h5 h6 h7 ⊢
        refine ⟨p, q, _, h1, h4, rfl, h6.congr h1 fun u v hu hv => ?_, fun u hu => ?_, hai, ?_⟩
        · simp only [hu, true_and]
          exact nbrs_edge hD' u v hu hv
        · rw [h7 u hu, nbrs_degree hn hD' hu]
        · dsimp only
          rw [hr, a3]
          ring
      · intro r hr
        exact Spec.ok (Or.inr hr)
    · simp [hr] at hc
  · rw [if_neg hc]
    exact Spec.ok (Or.inl ⟨rfl, rfl⟩)

/-- The ordering with its statistics on every pattern. -/
theorem orderI_spec (mem : AmdMem) (dense : Int → Int) (aggressive : Bool) {N : Nat} {A : Csc Unit}
    (hA : A.WF) (hn : A.n = N)
    (hm : A.m = N) {Ap Ai P : Buf Int} (hp : Buf.Has Ap (N + 1) (fun i => (A.jc i : Int)))
    (hi : Buf.Has Ai A.nnz (fun k => (A.ir k : Int))) (hP : P.length = N) :
    Spec (AMD_orderI mem dense aggressive N Ap Ai P)
      (fun r => ((N = 0 ∨ r.1.1 = AMD_OUT_OF_MEMORY) ∧ r.2 = none) ∨
        Good A N (dense N) (open Classical in if A.Sorted then 0 else N + 1 + max (A.nnz : Int) 1) r) := by
  classical
  unfold AMD_orderI
  rw [if_neg (by omega)]
  by_cases hN : N = 0
  · subst hN
    rw [if_pos (by simp)]
    exact Spec.ok (Or.inl ⟨Or.inl rfl, rfl⟩)
  rw [if_neg (by omega)]
  have hrd := hp.rd (show N < N + 1 by omega)
  rw [hrd]
  have e : A.jc N = A.nnz := by rw [← hn]; rfl
  rw [e]
  simp only [ok_bind]
  rw [if_neg (by omega)]
  by_cases hbig : (N : Int) ≥ SIZE_T_MAX_8 ∨ (A.nnz : Int) ≥ SIZE_T_MAX_8
  · rw [if_pos hbig]
    exact Spec.ok (Or.inl ⟨Or.inr rfl, rfl⟩)
  rw [if_neg hbig]
  have hle : ∀ c, c ≤ A.n → A.jc c ≤ A.nnz := fun c hc => hA.le_nnz hc
  have hval := C40_valid (m := N) (n := N) hp hi (fun j hj => by
    have := hle j (by omega)
    exact_mod_cast this)
  have hv : ValidPattern N N (fun i => (A.jc i : Int)) (fun k => (A.ir k : Int)) := by
    refine ⟨by simp [hA.jc0], fun j hj => by have := hA.mono j (by omega); simp only; omega, ?_⟩
    intro k hk
    have := hA.ir_lt k (by simp only at hk; rw [hn]; omega)
    simp only
    omega
  have hinc : IncreasingColumns N (fun i => (A.jc i : Int)) (fun k => (A.ir k : Int)) ↔ A.Sorted := by
    unfold IncreasingColumns Csc.Sorted
    constructor
    · intro h c hc k h1 h2
      have := h c (by omega) k (by simp only; omega) (by simp only; omega)
      simp only at this
      omega
    · intro h c hc k h1 h2
      simp only at h1 h2 ⊢
      have := h c (by omega) k (by omega) (by omega)
      omega
  rw [hval, if_neg (not_not.mpr hv)]
  simp only [ok_bind, hinc]
  have hne : (if ¬ A.Sorted then AMD_OK_BUT_JUMBLED else AMD_OK) ≠ AMD_INVALID := by
    split <;> decide
  have hbig' := not_or.mp hbig
  rw [if_neg hne, amdMalloc_ok (by omega) (by omega), ok_bind, ok_bind]
  by_cases hLP : (!mem.Len || !mem.Pinv) = true
  · rw [if_pos hLP]
    exact Spec.ok (Or.inl ⟨Or.inr rfl, rfl⟩)
  rw [if_neg hLP]
  have hL : mem.Len = true ∧ mem.Pinv = true := by simpa using hLP
  by_cases hs : A.Sorted
  · rw [if_neg (not_not.mpr hs), if_neg (by simp [AMD_OK, AMD_OK_BUT_JUMBLED]),
      if_neg (by decide)]
    simp only [pure_eq_ok, ok_bind, if_pos hs, if_neg (show ¬ AMD_OK = AMD_OK_BUT_JUMBLED by decide)]
    refine (order_tailI (by omega) (by omega) (by omega) hA hn hm hs hp hi (by simp) (by simp) hP _ _ _ _ 0).mono ?_
    rintro r (⟨ha, hb⟩ | h)
    · exact Or.inl ⟨Or.inr ha, hb⟩
    · exact Or.inr h
  · rw [if_pos hs]
    by_cases hR : (!mem.Rp || !mem.Ri) = true
    · rw [if_pos (by simpa using hR)]
      exact Spec.ok (Or.inl ⟨Or.inr rfl, rfl⟩)
    rw [if_neg (by simpa using hR), if_pos rfl, ck_bind (by
      have := hbig'.1
      unfold SIZE_T_MAX_8 at this
      unfold Int_MAX
      omega), amdMalloc_ok (by omega) (by omega), ok_bind, amdMalloc_ok (by omega) (by
      unfold SIZE_T_MAX_8 at hbig' ⊢
      omega), ok_bind]
    have hRR : mem.Rp = true ∧ mem.Ri = true := by simpa using hR
    obtain ⟨⟨Rp, Ri, W, F⟩, h0, R, h1, h2, h3, h4, h5, h6, h7, h8, h9, h10, h11⟩ :=
      AMD_preprocess_spec hA hn hm hp hi (by unfold Int_MAX; unfold SIZE_T_MAX_8 at hbig; omega) (Rp := malloc (N + 1)) (Ri := malloc (max (A.nnz : Int) 1))
        (W := malloc N) (Flag := malloc N) (by simp) (by simp) (by simp) (by simp)
    rw [h0]
    simp only [pure_eq_ok, ok_bind, if_neg hs, if_true] at h6 h7 h8 h9 h10 h11 ⊢
    have hlen : (R.nnz : Int) ≤ max (A.nnz : Int) 1 := by
      have : R.nnz ≤ Ri.length := by
        by_contra hc
        have := h7 Ri.length (by omega)
        simp at this
      rw [h9] at this
      simp at this
      omega
    refine (order_tailI (by omega) (by omega) (by
      unfold SIZE_T_MAX_8 at hbig' ⊢
      omega) h1 h2 h3 h4 h6 h7 h10 h11 hP _ _ _ _ _).mono ?_
    rintro r (⟨ha, hb⟩ | h)
    · exact Or.inl ⟨Or.inr ha, hb⟩
    · exact Or.inr (h.congr h2 hn fun u v hu hv => h5 u v hu hv)

/-- **C87.** On every well-formed square pattern, for every choice of the control parameters, the
ordering routine called with an `Info` array behaves as without one. Unless the pattern is empty or it
runs out of memory, it reports statistics that are upper bounds for the factor `L` of a matrix with the
pattern of `A + A'` in the order returned: the number of entries of `L` below the diagonal (`AMD_LNZ`,
`AMD_NDIV`), the number of multiplications of an `LU` and of an `LDL'` factorisation (`AMD_NMULTSUBS_LU`,
`AMD_NMULTSUBS_LDL`) and the largest number of entries of a column including the diagonal (`AMD_DMAX`).
The last `AMD_NDENSE` rows of the order are exactly the dense ones. -/
theorem C87_order (mem : AmdMem) (dense : Int → Int) (aggressive : Bool) {N : Nat} {A : Csc Unit}
    (hA : A.WF) (hn : A.n = N) (hm : A.m = N) {Ap Ai P : Buf Int}
    (hp : Buf.Has Ap (N + 1) (fun i => (A.jc i : Int)))
    (hi : Buf.Has Ai A.nnz (fun k => (A.ir k : Int))) (hP : P.length = N) :
    ∃ st P' info, AMD_orderI mem dense aggressive N Ap Ai P = .ok ((st, P'), info) ∧
      AMD_order mem dense aggressive N Ap Ai P = .ok (st, P') ∧
      ((N = 0 ∨ st = AMD_OUT_OF_MEMORY) ∧ info = none ∨
        ∃ (p q : Nat → Nat) (t : OrderInfo), PermPair N p q ∧ Buf.Has P' N (fun i => (p i : Int)) ∧
          info = some t ∧ FillBound N A.Edge p t.stat ∧
          ∀ u, u < N → ((N : Int) - t.ndense ≤ q u ↔ min (N : Int) (max 16 (dense N)) < A.degree u)) := by
  obtain ⟨⟨⟨st, P'⟩, info⟩, h, hg⟩ := orderI_spec mem dense aggressive hA hn hm hp hi hP
  refine ⟨st, P', info, h, AMD_orderI_eq h, hg.imp_right ?_⟩
  rintro ⟨p, q, t, h1, h2, h3, h4, h5, -⟩
  exact ⟨p, q, t, h1, h2, h3, h4, h5⟩

/-- **C87**, the factorisation: if a matrix is analysed in the order returned, the numbers of entries
predicted are at most those reported: `Lp[n] ≤ Info[AMD_LNZ]` and `Lnz[j] + 1 ≤ Info[AMD_DMAX]`. -/
theorem C87_symbolic {K : Type} (mem : AmdMem) (dense : Int → Int) (aggressive : Bool) {n : Nat} {A : Csc K}
    (hA : A.WF) (hn : A.n = n) (hm : A.m = n) {Ap Ai P P' : Buf Int}
    (hp : Buf.Has Ap (n + 1) (fun i => (A.jc i : Int)))
    (hi : Buf.Has Ai A.nnz (fun k => (A.ir k : Int))) (hP : P.length = n) {st : Int} {t : OrderInfo}
    (h : AMD_orderI mem dense aggressive n Ap Ai P = .ok ((st, P'), some t))
    {Lp Parent Lnz Flag Pinv : Buf Int}
    (hLp : n + 1 ≤ Lp.length) (hPar : n ≤ Parent.length) (hLnz : n ≤ Lnz.length)
    (hFlag : n ≤ Flag.length) (hPinv : n ≤ Pinv.length) :
    ∃ o, LDL_symbolic n Ap Ai Lp Parent Lnz Flag (some P') (some Pinv) = .ok o ∧
      (∃ lnz : Nat, rd o.Lp n = .ok (lnz : Int) ∧ (lnz : Int) ≤ t.stat.lnz) ∧
      ∀ j, j < n → ∃ c : Nat, rd o.Lnz j = .ok (c : Int) ∧ (c : Int) + 1 ≤ t.stat.dmax := by
  obtain ⟨r, hr, hg⟩ := orderI_spec mem dense aggressive (A := A.pattern) (N := n) ⟨hA.jc0, hA.mono, hA.ir_lt⟩
    hn hm hp hi hP
  rw [h, Except.ok.injEq] at hr
  subst hr
  rcases hg with ⟨-, hg⟩ | ⟨p, q, t', h1, h2, h3, h4, -⟩
  · cases hg
  simp only [Option.some.injEq] at h2 h3
  subst h3
  obtain ⟨o, ho, -, o2, o3⟩ := C09_symbolic (A := A) (p := p) (q := q) (P := some P') (Pinv := some Pinv)
    ⟨hA, hn, hm, h1, hp, hi, h2⟩ hLp hPar hLnz hFlag (fun _ => ⟨_, rfl, hPinv⟩) (by simp)
  have hle : ∀ j, colCount n (fun j k => A.Stored (p j) (p k)) j
      ≤ colCount n (fun j k => A.pattern.Edge (p j) (p k)) j := by
    refine fun j => colCount_mono (fun j k hjk hk hs => ⟨fun e => ?_, Or.inl hs⟩) j
    have := congrArg q e
    rw [h1.qp j (by omega), h1.qp k hk] at this
    omega
  refine ⟨o, ho, ⟨_, o3 n le_rfl, le_trans ?_ h4.lnz⟩, fun j hj => ⟨_, o2 j hj, le_trans ?_ (h4.dmax j hj)⟩⟩
  · push_cast
    exact sum_le_sum fun j _ => by exact_mod_cast hle j
  · have := hle j
    omega

/-- **C87**, the solver: if setup uses the order computed by the routine, the factor has at most as
many entries as the statistics say, in total and in each column. -/
theorem C87_solver {K : Type} [Zero K] [One K] [Add K] [Sub K] [Mul K] [Div K] [Neg K] [Scalar K]
    {mem : AmdMem} {dense : Int → Int} {aggressive : Bool} {a : SetupArgs K} {pb : Problem K} {q0 : QP K}
    (h : Started (AMD_order mem dense aggressive) a pb q0) (hn : a.Permut = none)
    (hr : 0 ≤ q0.stats.AMD_RESULT) (hN : 0 < pb.N) :
    ∃ (S : Smat K) (t : OrderInfo), S.Is (kktCsc pb.P pb.A pb.G (fun _ => Scalar.dec (-1) 0)) ∧
      AMD_orderI mem dense aggressive pb.N S.jc S.ir (malloc pb.N)
        = .ok ((q0.stats.AMD_RESULT, q0.kkt.P), some t) ∧
      (∃ lnz : Nat, rd q0.kkt.Lp pb.N = .ok (lnz : Int) ∧ (lnz : Int) ≤ t.stat.lnz) ∧
      ∀ j, j < pb.N → ∃ l c : Nat, rd q0.kkt.Lp j = .ok (l : Int) ∧
        rd q0.kkt.Lp (j + 1 : Nat) = .ok ((l + c : Nat) : Int) ∧ (c : Int) + 1 ≤ t.stat.dmax := by
  obtain ⟨S, P', hS, hP', hu, -⟩ := (C54_ordering_used h).2 hn
  obtain ⟨p', q', hd⟩ := h.done
  have hk := hd.kkt
  have hu := hu hr
  subst hu
  set M := kktCsc pb.P pb.A pb.G (fun _ => Scalar.dec (-1) 0)
  obtain ⟨⟨⟨st, P'⟩, info⟩, e, hg⟩ := orderI_spec mem dense aggressive (A := M.pattern) (N := pb.N)
    ⟨hk.wf.jc0, hk.wf.mono, hk.wf.ir_lt⟩ rfl rfl hS.jc hS.ir (P := malloc pb.N) (by simp)
  have e' := AMD_orderI_eq e
  rw [hP', Except.ok.injEq, Prod.mk.injEq] at e'
  obtain ⟨e1, e2⟩ := e'
  subst e1 e2
  rcases hg with ⟨hg | hg, -⟩ | ⟨p, q, t, h1, h2, h3, h4, -⟩
  · omega
  · simp only at hg
    rw [hg] at hr
    exact absurd hr (by decide)
  simp only at h2 h3
  subst h3
  refine ⟨S, t, hS, e, ?_⟩
  have hpp : ∀ i, i < pb.N → p' i = p i := by
    intro i hi
    have := (hk.P i hi).symm.trans (h2 i hi)
    simpa using this
  have hle : ∀ j, colCount pb.N (fun j k => M.Stored (p' j) (p' k)) j
      ≤ colCount pb.N (fun j k => M.pattern.Edge (p j) (p k)) j := by
    refine fun j => colCount_mono (fun j k hjk hk' hs => ?_) j
    rw [hpp j (by omega), hpp k hk'] at hs
    refine ⟨fun e => ?_, Or.inl hs⟩
    have := congrArg q e
    rw [h1.qp j (by omega), h1.qp k hk'] at this
    omega
  constructor
  · refine ⟨_, hk.lp.rd (by omega), le_trans ?_ h4.lnz⟩
    rw [lpOf_eq hk.wf hk.an hk.am hk.perm]
    push_cast
    exact sum_le_sum fun j _ => by exact_mod_cast hle j
  · intro j hj
    refine ⟨_, colCount pb.N (fun j k => M.Stored (p' j) (p' k)) j, hk.lp.rd (by omega), ?_, le_trans ?_ (h4.dmax j hj)⟩
    · rw [hk.lp.rd (by omega), lpOf_eq hk.wf hk.an hk.am hk.perm, lpOf_eq hk.wf hk.an hk.am hk.perm,
        sum_range_succ]
    · have := hle j
      omega

/-- **C88.** Unless the pattern is empty or memory runs out, the ordering routine reports about a
well-formed square pattern: the number of entries, not counting repetitions (`AMD_NZ`), the number of
entries on the diagonal (`AMD_NZDIAG`), the number of entries of `A + A'` off the diagonal
(`AMD_NZ_A_PLUS_AT`), the fraction of entries off the diagonal whose mirror image is an entry, too, or 1 if
there is none (`AMD_SYMMETRY`), and the bytes allocated (`AMD_MEMORY`), which are those of 9 `n` integers
and six fifths of the entries of `A + A'`, rounded down, and of a copy of the pattern if it is not
sorted or has repetitions. -/
theorem C88_input (mem : AmdMem) (dense : Int → Int) (aggressive : Bool) {N : Nat} {A : Csc Unit}
    (hA : A.WF) (hn : A.n = N) (hm : A.m = N) {Ap Ai P : Buf Int}
    (hp : Buf.Has Ap (N + 1) (fun i => (A.jc i : Int)))
    (hi : Buf.Has Ai A.nnz (fun k => (A.ir k : Int))) (hP : P.length = N) :
    ∃ st P' info, AMD_orderI mem dense aggressive N Ap Ai P = .ok ((st, P'), info) ∧
      ((N = 0 ∨ st = AMD_OUT_OF_MEMORY) ∧ info = none ∨
        ∃ t, info = some t ∧ InputStats A N t.aat ∧
          (A.Sorted → t.memory = 8 * (9 * N + t.aat.nzaat + t.aat.nzaat / 5)) ∧
          (¬ A.Sorted → t.memory = 8 * (9 * N + t.aat.nzaat + t.aat.nzaat / 5 + (N + 1) + max (A.nnz : Int) 1))) := by
  obtain ⟨⟨⟨st, P'⟩, info⟩, h, hg⟩ := orderI_spec mem dense aggressive hA hn hm hp hi hP
  refine ⟨st, P', info, h, hg.imp_right ?_⟩
  rintro ⟨p, q, t, h1, h2, h3, h4, h5, h6, h7⟩
  refine ⟨t, h3, h6, fun hs => ?_, fun hs => ?_⟩
  · rw [h7, if_pos hs]
    ring
  · rw [h7, if_neg hs]
    ring

/-- **C88**, the bounds: the diagonal has at most `n` of the entries, the symmetry lies between 0 and 1,
and is 1 exactly if the pattern is symmetric, `A + A'` has between as many and twice as many entries off the
diagonal as `A`. -/
theorem C88_bounds {K : Type} {A : Csc K} {N : Nat} {t : AatInfo} (h : InputStats A N t) :
    0 ≤ t.nzdiag ∧ t.nzdiag ≤ N ∧ t.nzdiag ≤ t.nz ∧ t.nz - t.nzdiag ≤ t.nzaat ∧ t.nzaat ≤ 2 * (t.nz - t.nzdiag) ∧
      0 ≤ t.symmetry ∧ t.symmetry ≤ 1 ∧
      (t.symmetry = 1 ↔ ∀ u v, u < N → v < N → (A.Stored u v ↔ A.Stored v u)) := by
  classical
  obtain ⟨h1, h2, h3, h4⟩ := h
  have hsp := pairs_split (n := N) (R := A.Stored) (fun u v => u = v)
  have hec := edge_count (A := A) (N := N)
  simp only [← ne_eq] at hsp
  have hmono : pairs N (fun u v => u ≠ v ∧ A.Stored u v ∧ A.Stored v u) ≤ pairs N (fun u v => u ≠ v ∧ A.Stored u v) := by
    unfold pairs
    refine card_le_card fun e he => ?_
    simp only [mem_filter] at he ⊢
    exact ⟨he.1, he.2.1, he.2.2.1⟩
  have hdiag : pairs N (fun u v => u = v ∧ A.Stored u v) ≤ N := by
    rw [pairs_col]
    refine (sum_le_card_nsmul _ _ 1 fun v hv => ?_).trans (by simp)
    refine card_le_one.mpr fun a ha b hb => ?_
    simp only [mem_filter] at ha hb
    rw [ha.2.1, hb.2.1]
  have hsym : pairs N (fun u v => u ≠ v ∧ A.Stored u v ∧ A.Stored v u) = pairs N (fun u v => u ≠ v ∧ A.Stored u v) ↔
      ∀ u v, u < N → v < N → (A.Stored u v ↔ A.Stored v u) := by
    constructor
    · intro e
      unfold pairs at e
      have e' := eq_of_subset_of_card_le (fun x hx => by
        simp only [mem_filter] at hx ⊢
        exact ⟨hx.1, hx.2.1, hx.2.2.1⟩) (le_of_eq e.symm)
      have key : ∀ u v, u < N → v < N → A.Stored u v → A.Stored v u := by
        intro u v hu hv hs
        by_cases huv : u = v
        · subst huv
          exact hs
        · have := (Finset.ext_iff.mp e' (u, v)).mpr (by
            simp only [mem_filter, mem_product, mem_range]
            exact ⟨⟨hu, hv⟩, huv, hs⟩)
          simp only [mem_filter] at this
          exact this.2.2.2
      exact fun u v hu hv => ⟨key u v hu hv, key v u hv hu⟩
    · intro h
      refine pairs_congr fun u v hu hv => ?_
      rw [h v u hv hu, and_self]
  refine ⟨by omega, by omega, by omega, by omega, by omega, ?_, ?_, ?_⟩
  · rw [h4]
    split
    · exact zero_le_one
    · positivity
  · rw [h4]
    split
    · exact le_rfl
    · next h0 =>
      rw [div_le_one (by exact_mod_cast Nat.pos_of_ne_zero h0)]
      exact_mod_cast hmono
  · rw [← hsym, h4]
    split
    · next h0 =>
      rw [h0] at hmono ⊢
      simp only [true_iff]
      omega
    · next h0 =>
      rw [div_eq_one_iff_eq (by exact_mod_cast h0)]
      norm_cast

/-- C87 for the unsorted pattern with a repeated entry of `jumbledDemo`: the statistics are reported. -/
theorem demo_orderI : ∃ P' t, AMD_orderI ⟨true, true, true, true, true⟩ (fun _ => 10) true 3
      (Buf.ofFn 4 (fun i => (jumbledDemo.jc i : Int))) (Buf.ofFn 6 (fun k => (jumbledDemo.ir k : Int))) (malloc 3)
      = .ok ((AMD_OK_BUT_JUMBLED, P'), some t) ∧
    ∃ p q : Nat → Nat, PermPair 3 p q ∧ Buf.Has P' 3 (fun i => (p i : Int)) ∧ FillBound 3 jumbledDemo.Edge p t.stat := by
  obtain ⟨st, P', info, h1, h2, h3⟩ := C87_order (N := 3) ⟨true, true, true, true, true⟩ (fun _ => 10) true
    jumbledDemo_wf rfl rfl (Buf.has_ofFn 4 _) (Buf.has_ofFn 6 _) (P := malloc 3) rfl
  obtain ⟨st', P'', h4, h5, h6⟩ := C39_order (N := 3) ⟨true, true, true, true, true⟩ (fun _ => 10) true jumbledDemo_wf rfl rfl
    (Buf.has_ofFn 4 _) (Buf.has_ofFn 6 _) (P := malloc 3) rfl
  rw [h4, Except.ok.injEq, Prod.mk.injEq] at h2
  obtain ⟨rfl, rfl⟩ := h2
  have hns : ¬ jumbledDemo.Sorted := fun h => absurd (h 0 (by decide) 0 (by decide) (by decide)) (by decide)
  rw [if_neg hns] at h6
  rcases h6 with ⟨_, h⟩ | ⟨rfl, -, h⟩
  · exact absurd ⟨by decide, by decide, rfl, rfl, rfl, fun _ => ⟨rfl, rfl⟩⟩ h
  · rcases h3 with ⟨h | h, -⟩ | ⟨p, q, t, h7, h8, h9, h10, -⟩
    · omega
    · exact absurd h (by decide)
    · subst h9
      exact ⟨_, t, h1, p, q, h7, h8, h10⟩

theorem pairs_dec {n : Nat} {R : Nat → Nat → Prop} (R' : Nat → Nat → Bool)
    (h : ∀ u v, u < n → v < n → (R u v ↔ R' u v = true)) :
    pairs n R = ((range n ×ˢ range n).filter (fun e => R' e.1 e.2 = true)).card := by
  classical
  rw [pairs_congr h]
  unfold pairs
  congr

theorem jumbledDemo_stored (u v : Nat) (hv : v < 3) :
    jumbledDemo.Stored u v ↔ ((u, v) ∈ [(2, 0), (0, 0), (1, 1), (2, 2), (1, 2)]) := by
  constructor
  · rintro ⟨k, h1, h2, rfl⟩
    have hk : k < 6 := lt_of_lt_of_le h2 ((by decide : ∀ v, v < 3 → jumbledDemo.jc (v + 1) ≤ 6) v hv)
    interval_cases v <;> interval_cases k <;> revert h1 h2 <;> decide
  · intro h
    simp only [List.mem_cons, Prod.mk.injEq, List.not_mem_nil, or_false] at h
    rcases h with ⟨rfl, rfl⟩ | ⟨rfl, rfl⟩ | ⟨rfl, rfl⟩ | ⟨rfl, rfl⟩ | ⟨rfl, rfl⟩
    exacts [⟨0, by decide⟩, ⟨1, by decide⟩, ⟨3, by decide⟩, ⟨4, by decide⟩, ⟨5, by decide⟩]

/-- C88 for the same pattern: five different entries out of six, three of them on the diagonal, none of
the two others with its mirror image. -/
theorem demo_input : ∃ P' t, AMD_orderI ⟨true, true, true, true, true⟩ (fun _ => 10) true 3
      (Buf.ofFn 4 (fun i => (jumbledDemo.jc i : Int))) (Buf.ofFn 6 (fun k => (jumbledDemo.ir k : Int))) (malloc 3)
      = .ok ((AMD_OK_BUT_JUMBLED, P'), some t) ∧ InputStats jumbledDemo 3 t.aat ∧
    t.aat = { nz := 5, symmetry := 0, nzdiag := 3, nzaat := 4 } ∧ t.memory = 328 := by
  obtain ⟨P', t, h, -⟩ := demo_orderI
  obtain ⟨st, P'', info, h1, h2⟩ := C88_input (N := 3) ⟨true, true, true, true, true⟩ (fun _ => 10) true
    jumbledDemo_wf rfl rfl (Buf.has_ofFn 4 _) (Buf.has_ofFn 6 _) (P := malloc 3) rfl
  have h1 := h.symm.trans h1
  rw [Except.ok.injEq, Prod.mk.injEq, Prod.mk.injEq] at h1
  obtain ⟨⟨rfl, rfl⟩, rfl⟩ := h1
  rcases h2 with ⟨-, h2⟩ | ⟨t', h2, h3, -, h5⟩
  · cases h2
  simp only [Option.some.injEq] at h2
  subst h2
  have hns : ¬ jumbledDemo.Sorted := fun h => absurd (h 0 (by decide) 0 (by decide) (by decide)) (by decide)
  have hm := h5 hns
  refine ⟨P', t, h, h3, ?_⟩
  have e1 : pairs 3 jumbledDemo.Stored = 5 :=
    (pairs_dec (fun u v => decide ((u, v) ∈ [(2, 0), (0, 0), (1, 1), (2, 2), (1, 2)])) fun u v _ hv => by
      rw [jumbledDemo_stored u v hv, decide_eq_true_iff]).trans (by decide)
  have e2 : pairs 3 (fun u v => u = v ∧ jumbledDemo.Stored u v) = 3 :=
    (pairs_dec (fun u v => decide (u = v ∧ (u, v) ∈ [(2, 0), (0, 0), (1, 1), (2, 2), (1, 2)])) fun u v _ hv => by
      rw [jumbledDemo_stored u v hv, decide_eq_true_iff]).trans (by decide)
  have e3 : pairs 3 (fun u v => u ≠ v ∧ jumbledDemo.Stored u v) = 2 :=
    (pairs_dec (fun u v => decide (u ≠ v ∧ (u, v) ∈ [(2, 0), (0, 0), (1, 1), (2, 2), (1, 2)])) fun u v _ hv => by
      rw [jumbledDemo_stored u v hv, decide_eq_true_iff]).trans (by decide)
  have e4 : pairs 3 (fun u v => u ≠ v ∧ jumbledDemo.Stored u v ∧ jumbledDemo.Stored v u) = 0 :=
    (pairs_dec (fun u v => decide (u ≠ v ∧ (u, v) ∈ [(2, 0), (0, 0), (1, 1), (2, 2), (1, 2)] ∧
        (v, u) ∈ [(2, 0), (0, 0), (1, 1), (2, 2), (1, 2)])) fun u v hu hv => by
      rw [jumbledDemo_stored u v hv, jumbledDemo_stored v u hu, decide_eq_true_iff]).trans (by decide)
  have e5 : pairs 3 jumbledDemo.Edge = 4 := by
    have := edge_count (A := jumbledDemo) (N := 3)
    omega
  obtain ⟨a1, a2, a3, a4⟩ := h3
  rw [e1] at a1
  rw [e2] at a2
  rw [e5] at a3
  rw [e3, e4] at a4
  rw [a3, show jumbledDemo.nnz = 6 from rfl] at hm
  obtain ⟨⟨x1, x2, x3, x4⟩, m, s, d⟩ := t
  simp only at a1 a2 a3 a4 hm ⊢
  subst a1 a2 a3 a4 hm
  norm_num

/-- … so its symmetry is 0. -/
example : ∃ t : AatInfo, InputStats jumbledDemo 3 t ∧ t.symmetry ≠ 1 := by
  obtain ⟨P', t, -, h, e, -⟩ := demo_input
  exact ⟨t.aat, h, by rw [e]; norm_num⟩

/-- … and the analysis of a matrix with this pattern in the order returned stays within them. -/
example : ∃ P' t o lnz, AMD_orderI ⟨true, true, true, true, true⟩ (fun _ => 10) true 3
      (Buf.ofFn 4 (fun i => (jumbledDemo.jc i : Int))) (Buf.ofFn 6 (fun k => (jumbledDemo.ir k : Int))) (malloc 3)
      = .ok ((AMD_OK_BUT_JUMBLED, P'), some t) ∧
    LDL_symbolic 3 (Buf.ofFn 4 (fun i => (jumbledDemo.jc i : Int))) (Buf.ofFn 6 (fun k => (jumbledDemo.ir k : Int)))
      (malloc 4) (malloc 3) (malloc 3) (malloc 3) (some P') (some (malloc 3)) = .ok o ∧
    rd o.Lp 3 = .ok (lnz : Int) ∧ lnz ≤ t.stat.lnz := by
  obtain ⟨P', t, h, -⟩ := demo_orderI
  obtain ⟨o, h1, ⟨lnz, h2, h3⟩, -⟩ := C87_symbolic ⟨true, true, true, true, true⟩ (fun _ => 10) true jumbledDemo_wf rfl rfl
    (Buf.has_ofFn 4 _) (Buf.has_ofFn 6 _) (P := malloc 3) rfl h (Lp := malloc 4) (Parent := malloc 3)
    (Lnz := malloc 3) (Flag := malloc 3) (Pinv := malloc 3) (by decide) (by decide) (by decide) (by decide) (by decide)
  exact ⟨P', t, o, lnz, h, h1, h2, h3⟩

/-- C87 for the demo problem: setup uses the order computed by the routine. -/
example : ∃ a q0, Started (AMD_order ⟨true, true, true, true, true⟩ (fun _ => 10) true) a (demoPb ℚ) q0 ∧
    a.Permut = none ∧ 0 ≤ q0.stats.AMD_RESULT ∧ 0 < (demoPb ℚ).N := by
  obtain ⟨q0, -, h⟩ := C39_setup ⟨true, true, true, true, true⟩ (fun _ => 10) true demoPb_wf
    (a := (demoPb ℚ).args none) (Problem.args_give _ _ (by simp [demoPb, Problem.p, Csc.lit])) rfl rfl
  refine ⟨_, q0, h, rfl, ?_, by decide⟩
  obtain ⟨S, P', hS, hP', -⟩ := (C54_ordering_used h).2 rfl
  obtain ⟨p', q', hd⟩ := h.done
  have hk := hd.kkt
  obtain ⟨st, P2, e, -, h3⟩ := C39_order ⟨true, true, true, true, true⟩ (fun _ => 10) true
    (A := (kktCsc (demoPb ℚ).P (demoPb ℚ).A (demoPb ℚ).G (fun _ => Scalar.dec (-1) 0)).pattern) (N := (demoPb ℚ).N)
    ⟨hk.wf.jc0, hk.wf.mono, hk.wf.ir_lt⟩ rfl rfl hS.jc hS.ir (P := malloc (demoPb ℚ).N) (by simp)
  rw [hP', Except.ok.injEq, Prod.mk.injEq] at e
  rw [e.1]
  rcases h3 with ⟨-, h⟩ | ⟨rfl, -⟩
  · exact absurd ⟨by decide, by decide +kernel, rfl, rfl, rfl, fun _ => ⟨rfl, rfl⟩⟩ h
  · split <;> decide

end Verif
