import Verif.Lemmas.CheckedDense
import Verif.Props.Safety
import Verif.Props.Tiny

/-!
# C84: no signed overflow

`Model/Checked.lean` repeats the solver with integers of limited range: `qp_int` holds the values from
`-B - 1` to `B`, `size_t` those from `0` to `2 * B + 1` (for a 64-bit `long`, `B = 2 ^ 63 - 1`). Every
addition, subtraction and multiplication of `qp_int` values, and every size in bytes passed to
`malloc`, is checked there, and a result out of range is the outcome `overflow`.

The theorems say that this never happens as long as the three largest arrays can be allocated at all:
the column pointers of the KKT matrix, its entries, and the entries of its factor. The run is then, step by
step, the run of the model with unbounded integers, to which the other theorems apply. They hold for
any arithmetic and any ordering routine; for the integers inside the ordering routine see C85.
-/

set_option linter.unusedSectionVars false

namespace Verif

/-- Arrays that setup allocates have sizes in bytes that `size_t` can hold. The last two are the
arrays of the factor, whose size setup finds out. -/
structure Problem.InRange {K : Type} [Zero K] (pb : Problem K) (B : Int) (q0 : QP K) : Prop where
  /-- column pointers of the KKT matrix: one more than its order -/
  ptr : 8 * ((pb.n + pb.p + pb.m : Nat) + 1 : Int) ≤ 2 * B + 1
  /-- entries of the KKT matrix: `P`, `A` and `G` twice, and the diagonal for `G` -/
  kkt : 8 * (pb.P.nnz + 2 * pb.G.nnz + pb.G.m + 2 * pb.A.nnz : Nat) ≤ 2 * B + 1
  /-- entries of the factor, one more than their number -/
  fac : ∀ lnz, rd q0.kkt.Lp (pb.n + pb.p + pb.m : Nat) = .ok lnz → 8 * (lnz + 1) ≤ 2 * B + 1

section

variable {K : Type} [Zero K] [One K] [Add K] [Sub K] [Mul K] [Div K] [Neg K] [Scalar K]

/-- A common bound for the three. -/
theorem Problem.InRange.bound {pb : Problem K} {B : Int} {q0 : QP K} (h : pb.InRange B q0) :
    ∃ L : Int, 8 * L ≤ 2 * B + 1 ∧ (pb.N : Int) + 1 ≤ L ∧ (kktCap pb.P pb.A pb.G : Int) ≤ L ∧
      ∀ v, rd q0.kkt.Lp pb.N = .ok v → v + 1 ≤ L := by
  have h1 : 8 * ((pb.N : Int) + 1) ≤ 2 * B + 1 := h.ptr
  have h2 : 8 * (kktCap pb.P pb.A pb.G : Int) ≤ 2 * B + 1 := h.kkt
  cases hv : rd q0.kkt.Lp pb.N with
  | error e =>
    exact ⟨max ((pb.N : Int) + 1) (kktCap pb.P pb.A pb.G), by omega, by omega, by omega,
      fun v e => by cases e⟩
  | ok v =>
    have h3 := h.fac v hv
    exact ⟨max (max ((pb.N : Int) + 1) (kktCap pb.P pb.A pb.G)) (v + 1), by omega, by omega, by omega,
      fun w e => by cases e; omega⟩

theorem Started.up {B : Int} {amd : Amd} {a : SetupArgs K} {pb : Problem K} {q0 : QP K}
    (h : Started amd a pb q0) (hf : pb.InRange B q0) :
    QP_SETUPC B amd a = .ok q0 ∧ ∃ L, 8 * L ≤ 2 * B + 1 ∧ QUp L 0 q0 := by
  obtain ⟨L, h1, h2, h3, h4⟩ := hf.bound
  have key := QP_SETUP_chk (B := B) (L := L) h.wf h.give h.perm h1 h2 h3 (by
    intro o v ho hv
    rw [h.ok] at ho
    cases ho
    exact h4 v hv) q0 h.ok
  exact ⟨key.1, L, h1, key.2⟩

/-- The bounds hold in all reachable states. -/
theorem Reach.up {L : Int} {q0 qp : QP K} (h0 : QUp L 0 q0) (hr : Reach q0 qp) :
    ∃ c, 0 ≤ c ∧ QUp L c qp := by
  induction hr with
  | start => exact ⟨0, le_rfl, h0⟩
  | options o _ ih =>
    obtain ⟨c, hc, h⟩ := ih
    exact ⟨c, hc, h.n0, h.m0, h.p0, h.sum, h.P, h.G, h.A, h.kkt, h.count⟩
  | cell v _ ih =>
    obtain ⟨c, hc, h⟩ := ih
    exact ⟨c, hc, h.n0, h.m0, h.p0, h.sum, h.P, h.G, h.A, h.kkt, h.count⟩
  | @iteration qp qp' brk _ e ih =>
    obtain ⟨c, hc, h⟩ := ih
    have := h.sum; have := h.n0; have := h.m0; have := h.p0
    have key := (solveBody_chk (B := 4 * L + c + 1) (by omega) h (by omega) _ e).2
    cases brk
    · exact ⟨c + 1, by omega, by simpa using key⟩
    · exact ⟨c, hc, by simpa using key⟩
  | @solve qp qp' f _ e ih =>
    obtain ⟨c, hc, h⟩ := ih
    have := h.sum; have := h.n0; have := h.m0; have := h.p0
    obtain ⟨c', h', hcc⟩ := (QP_SOLVE_chk (B := 4 * L + c + max 0 qp.options.maxit) (by omega) h hc
      (by omega) _ e).2
    exact ⟨c', by omega, h'⟩

/-- **C84**, setup: if the arrays fit, no integer operation of setup overflows, and the result is that of
the model with unbounded integers. -/
theorem C84_setup {B : Int} {amd : Amd} {a : SetupArgs K} {pb : Problem K} {q0 : QP K}
    (h : Started amd a pb q0) (hf : pb.InRange B q0) : QP_SETUPC B amd a = .ok q0 :=
  (h.up hf).1

/-- **C84**, setup from dense matrices: in addition the three dense arrays have sizes that fit. -/
theorem C84_setup_dense {B : Int} {amd : Amd} {da : DenseArgs K} {pb : Problem K} {q0 : QP K}
    (hpb : pb.WF) (hg : da.Give pb) (hp : PermSource amd da.Permut da.p pb)
    (h0 : QP_SETUP_dense amd da = .ok q0) (hf : pb.InRange B q0)
    (hP : 8 * (pb.n * pb.n : Nat) ≤ 2 * B + 1) (hG : 8 * (pb.m * pb.n : Nat) ≤ 2 * B + 1)
    (hA : 8 * (pb.p * pb.n : Nat) ≤ 2 * B + 1) : QP_SETUP_denseC B amd da = .ok q0 := by
  have hp1 : 8 * ((pb.N : Int) + 1) ≤ 2 * B + 1 := hf.ptr
  obtain ⟨a, e1, e2, h1, h2, h3⟩ := hg.sparseC (B := B)
    (L := max (max ((pb.N : Int) + 1) ((pb.n * pb.n : Nat) : Int))
      (max ((pb.m * pb.n : Nat) : Int) ((pb.p * pb.n : Nat) : Int))) amd (by omega) (by omega) (by omega)
    (by omega) (by omega)
  rw [e2]
  exact C84_setup ⟨hpb, h1, by rw [h2, h3]; exact hp, by rw [← e1]; exact h0⟩ hf

/-- **C84**, solve: in every state reachable after such a setup, if the iteration counter plus the limit
on the iterations is in range, a solve returns without overflow, with the result of the model with
unbounded integers. (The counter is never reset, see C68.) -/
theorem C84_solve {B : Int} {amd : Amd} {a : SetupArgs K} {pb : Problem K} {q0 qp : QP K}
    (h : Started amd a pb q0) (hf : pb.InRange B q0) (hr : Reach q0 qp)
    (hv : qp.options.verbose ≤ 0 ∨ pb.p ≠ 0)
    (hc : qp.stats.IterationCount + qp.options.maxit ≤ B) :
    ∃ f qp', QP_SOLVEC B qp = .ok (f, qp') ∧ QP_SOLVE qp = .ok (f, qp') := by
  obtain ⟨_, L, hL, h0⟩ := h.up hf
  obtain ⟨c, hc0, hq⟩ := Reach.up h0 hr
  obtain ⟨_, f, qp', e⟩ := C26_solve h hr hv
  exact ⟨f, qp', (QP_SOLVE_chk hL hq hc0 (by rw [← hq.count]; exact hc) _ e).1, e⟩

theorem lpOf_le (C : Nat → List Nat) (n j : Nat) : lpOf C n j ≤ j * n := by
  induction j with
  | zero => simp [lpOf]
  | succ j ih =>
    have : (fillRows C n j).length ≤ n := by
      unfold fillRows
      exact (List.length_filter_le _ _).trans (by simp)
    rw [lpOf_succ, Nat.succ_mul]
    omega

/-- **C84**, a condition on the input alone: the entries of the KKT matrix, and as many entries as a full
matrix of its order has, have sizes that fit. -/
theorem C84_fits {B : Int} {amd : Amd} {a : SetupArgs K} {pb : Problem K} {q0 : QP K}
    (h : Started amd a pb q0)
    (h1 : 8 * ((pb.n + pb.p + pb.m) * (pb.n + pb.p + pb.m) + 1 : Nat) ≤ 2 * B + 1)
    (h2 : 8 * (pb.P.nnz + 2 * pb.G.nnz + pb.G.m + 2 * pb.A.nnz : Nat) ≤ 2 * B + 1) :
    pb.InRange B q0 := by
  have hle : pb.N ≤ pb.N * pb.N := Nat.le_mul_self _
  have h1' : 8 * ((pb.N * pb.N + 1 : Nat) : Int) ≤ 2 * B + 1 := h1
  refine ⟨?_, h2, ?_⟩
  · show 8 * ((pb.N : Nat) + 1 : Int) ≤ _
    omega
  · intro lnz hl
    obtain ⟨p, q, hd⟩ := h.done
    have e := hd.kkt.lp.val (i := (pb.N : Nat)) (by omega) (by omega) hl
    rw [Int.toNat_natCast] at e
    have := lpOf_le (permPat (kktCsc pb.P pb.A pb.G fun _ => Scalar.dec (-1) 0) p q) pb.N pb.N
    omega

/-- **C84**, 64-bit integers: problems with fewer than `2 ^ 30` rows in the KKT matrix and fewer than
`2 ^ 60` entries in it can be set up and solved without overflow, as long as the counter and the limit
on the iterations add up to less than `2 ^ 63`. -/
theorem C84_long {amd : Amd} {a : SetupArgs K} {pb : Problem K} {q0 qp : QP K}
    (h : Started amd a pb q0) (hN : pb.n + pb.p + pb.m < 2 ^ 30)
    (hz : pb.P.nnz + 2 * pb.G.nnz + pb.G.m + 2 * pb.A.nnz < 2 ^ 60) (hr : Reach q0 qp)
    (hv : qp.options.verbose ≤ 0 ∨ pb.p ≠ 0)
    (hc : qp.stats.IterationCount + qp.options.maxit < 2 ^ 63) :
    QP_SETUPC (2 ^ 63 - 1) amd a = .ok q0 ∧
      ∃ f qp', QP_SOLVEC (2 ^ 63 - 1) qp = .ok (f, qp') ∧ QP_SOLVE qp = .ok (f, qp') := by
  have hsq : (pb.n + pb.p + pb.m) * (pb.n + pb.p + pb.m) ≤ 2 ^ 30 * 2 ^ 30 :=
    Nat.mul_le_mul (by omega) (by omega)
  have hf : pb.InRange (2 ^ 63 - 1) q0 := by
    refine C84_fits h ?_ ?_
    · have : (((pb.n + pb.p + pb.m) * (pb.n + pb.p + pb.m) + 1 : Nat) : Int) ≤ 2 ^ 60 + 1 := by
        exact_mod_cast Nat.succ_le_succ hsq
      omega
    · omega
  exact ⟨C84_setup h hf, C84_solve h hf hr hv (by omega)⟩

/-- **C84**, the other direction: if the column pointers or the entries of the KKT matrix do not fit, setup
does not return. -/
theorem C84_needed {B : Int} {amd : Amd} {a : SetupArgs K} {pb : Problem K} (hpb : pb.Shaped)
    (hg : a.Give pb)
    (hbig : 2 * B + 1 < 8 * ((pb.n + pb.p + pb.m : Nat) + 1 : Int) ∨
      2 * B + 1 < 8 * (pb.P.nnz + 2 * pb.G.nnz + pb.G.m + 2 * pb.A.nnz : Nat)) :
    ∀ q, QP_SETUPC B amd a ≠ .ok q := by
  intro q hq
  rw [QP_SETUPC_eq hpb hg] at hq
  have hi := (QP_SETUP_eq (amd := amd) hpb hg).2
  have e1 := hi.P.n; have e2 := hi.G.m; have e3 := hi.P.nnz; have e4 := hi.G.nnz
  have z1 : ((pb.n + pb.p + pb.m : Nat) : Int) = pb.P.n + pb.A.m + pb.G.m := by
    unfold Problem.n Problem.p Problem.m; push_cast; ring
  unfold setupTailC at hq
  dsimp only at hq
  obtain ⟨_, _, hq⟩ := bind_run hq
  obtain ⟨_, _, hq⟩ := bind_run hq
  obtain ⟨_, _, hq⟩ := bind_run hq
  obtain ⟨_, _, hq⟩ := bind_run hq
  obtain ⟨_, _, hq⟩ := bind_run hq
  obtain ⟨_, _, hq⟩ := bind_run hq
  obtain ⟨_, _, hq⟩ := bind_run hq
  obtain ⟨_, _, hq⟩ := bind_run hq
  obtain ⟨dims, hdims, hq⟩ := bind_run hq
  obtain ⟨m1, hm1, hq⟩ := bind_run hq
  obtain ⟨_, hj, hq⟩ := bind_run hq
  obtain ⟨_, hp, hq⟩ := bind_run hq
  have hm1 := (chk_run hm1).1
  have hj := (mallocC_run hj).2
  have hp := (mallocC_run hp).2
  have hd : dims.1 = (pb.P.nnz + 2 * pb.G.nnz + pb.G.m + 2 * pb.A.nnz : Nat) ∧
      dims.2 = pb.P.n + pb.A.m + pb.G.m := by
    unfold kktDimsC at hdims
    obtain ⟨_, c1, hdims⟩ := bind_run hdims
    obtain ⟨_, c2, hdims⟩ := bind_run hdims
    obtain ⟨_, c3, hdims⟩ := bind_run hdims
    have c1 := (chk_run c1).1; have c2 := (chk_run c2).1; have c3 := (chk_run c3).1
    rcases hi.eq with ⟨SA, Bf, hA, _, hSA, _⟩ | ⟨hA, _, hAe⟩
    · rw [hA] at hdims
      have f1 := hSA.m; have f2 := hSA.nnz
      obtain ⟨_, c4, hdims⟩ := bind_run hdims
      obtain ⟨_, c5, hdims⟩ := bind_run hdims
      obtain ⟨_, c6, hdims⟩ := bind_run hdims
      obtain ⟨_, c7, hdims⟩ := bind_run hdims
      have c4 := (chk_run c4).1; have c5 := (chk_run c5).1
      have c6 := (chk_run c6).1; have c7 := (chk_run c7).1
      cases hdims
      constructor <;> (dsimp only; omega)
    · rw [hA] at hdims
      have f1 : pb.A.m = 0 := by rw [hAe]; rfl
      have f2 : pb.A.nnz = 0 := by rw [hAe]; rfl
      obtain ⟨_, c4, hdims⟩ := bind_run hdims
      have c4 := (chk_run c4).1
      cases hdims
      constructor <;> (dsimp only; omega)
  omega

end

/-! ## Examples -/

/-- The demo program with 64-bit integers: setup, a solve, and a second solve with up to a million
iterations. -/
example : ∃ q0 f q1 g q2, QP_SETUPC (2 ^ 63 - 1) failAmd (demoArgs ℚ) = .ok q0 ∧
    QP_SOLVEC (2 ^ 63 - 1) q0 = .ok (f, q1) ∧
    (q1.stats.IterationCount ≤ 2 ^ 62 → QP_SOLVEC (2 ^ 63 - 1)
      { q1 with options := { q1.options with maxit := 1000000 } } = .ok (g, q2)) := by
  obtain ⟨q0, h⟩ := demo_started ℚ
  have hp : (demoPb ℚ).p ≠ 0 := by simp [Problem.p, demoPb, Csc.lit]
  have hN : (demoPb ℚ).n + (demoPb ℚ).p + (demoPb ℚ).m < 2 ^ 30 := by
    simp [Problem.n, Problem.p, Problem.m, demoPb, Csc.lit]
  have hz : (demoPb ℚ).P.nnz + 2 * (demoPb ℚ).G.nnz + (demoPb ℚ).G.m + 2 * (demoPb ℚ).A.nnz
      < 2 ^ 60 := by
    simp [Csc.nnz, demoPb, Csc.lit]
  obtain ⟨p, q, hd⟩ := h.done
  obtain ⟨r, hst⟩ := hd.stats
  obtain ⟨h1, f, q1, h2, h3⟩ := C84_long h hN hz .start (Or.inr hp) (by
    rw [hd.options, hst]
    simp [initialStats, defaultSettings])
  by_cases hc : q1.stats.IterationCount ≤ 2 ^ 62
  · obtain ⟨_, g, q2, h4, _⟩ := C84_long h hN hz
      (.options { q1.options with maxit := 1000000 } (.solve .start h3)) (Or.inr hp) (by
        dsimp only; omega)
    exact ⟨q0, f, q1, g, q2, h1, h2, fun _ => h4⟩
  · exact ⟨q0, f, q1, f, q1, h1, h2, fun h => absurd h hc⟩

/-- The smallest problem with integers up to 24: the three arrays have 24, 32 and at most 40 bytes. -/
example : ∃ q0, QP_SETUPC 24 failAmd (tinyArgs ℚ) = .ok q0 := by
  obtain ⟨q0, h⟩ := tiny_started ℚ
  refine ⟨q0, C84_setup h (C84_fits h ?_ ?_)⟩
  · simp [Problem.n, Problem.p, Problem.m, tinyPb, Csc.lit, Csc.empty]
  · simp [Csc.nnz, tinyPb, Csc.lit, Csc.empty]

/-- With integers up to 15 it cannot be set up: 32 bytes are needed. -/
example (q : QP ℚ) : QP_SETUPC 15 failAmd (tinyArgs ℚ) ≠ .ok q := by
  obtain ⟨q0, h⟩ := tiny_started ℚ
  refine C84_needed h.wf.toShaped h.give (Or.inr ?_) q
  simp [Csc.nnz, tinyPb, Csc.lit, Csc.empty]

/-- A problem with one variable, `min x² / 2` subject to `x ≤ 1`, in dense form. -/
example : ∃ q0, QP_SETUP_denseC (2 ^ 63 - 1) failAmd
    { n := 1, m := 1, p := 0, Ppr := [some (1 : ℚ)], Apr := none, Gpr := [some 1], c := [some 0]
      h := [some 1], b := none, Permut := none, ordering := COLUMN_MAJOR_ORDERING } = .ok q0 := by
  have hg := denseProblem_give (K := ℚ) (n := 1) (m := 1) (p := 0) (P := fun _ => 1)
    (A := fun _ => 0) (G := fun _ => 1) (c := fun _ => 0) (b := fun _ => 0) (h := fun _ => 1)
    { n := 1, m := 1, p := 0, Ppr := [some 1], Apr := none, Gpr := [some 1], c := [some 0]
      h := [some 1], b := none, Permut := none, ordering := COLUMN_MAJOR_ORDERING }
    rfl rfl (by intro i hi; interval_cases i; rfl) (by intro i hi; interval_cases i; rfl)
    (by intro i hi; interval_cases i; rfl) (by intro i hi; interval_cases i; rfl) le_rfl
    (Or.inr ⟨Or.inl rfl, rfl⟩)
  have hw := denseProblem_wf (K := ℚ) (ordering := COLUMN_MAJOR_ORDERING) (n := 1) (m := 1)
    (p := 0) (P := fun _ => 1) (A := fun _ => 0) (G := fun _ => 1) (c := fun _ => 0)
    (b := fun _ => 0) (h := fun _ => 1) Nat.zero_lt_one
    (fun r hr => ⟨0, Nat.zero_lt_one, by simp [denseAt]; decide⟩)
  have hp : PermSource failAmd none 0 (denseProblem (K := ℚ) COLUMN_MAJOR_ORDERING 1 1 0 (fun _ => 1)
      (fun _ => 0) (fun _ => 1) (fun _ => 0) (fun _ => 0) (fun _ => 1)) :=
    Or.inr ⟨rfl, failAmd_safe, Or.inl rfl⟩
  obtain ⟨q0, h0⟩ := hg.setup_ok hw hp
  obtain ⟨a, hs⟩ := hg.started hw hp h0
  refine ⟨q0, C84_setup_dense hw hg hp h0 (C84_fits hs ?_ ?_) ?_ ?_ ?_⟩ <;> decide

end Verif
