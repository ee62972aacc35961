import Verif.Props.AmdOrder
import Verif.Props.Overflow

/-!
# C85: no signed overflow in the ordering routine

In the model of AMD (`Model/Amd.lean`) every sum, difference and negation of two integers of type
`SuiteSparse_long` is checked: a result beyond `2 ^ 63 - 1` or below `-2 ^ 63` is the outcome
`overflow`. This includes the flag `wflg`, which grows with every elimination and which
`clear_flag` has to reset in time, the hash values, the sums of degrees that are only bounds, and
the encoding `FLIP` of negative entries. With C84 this covers all the integers of setup and solve.
-/

namespace Verif

/-- **C85.** The ordering routine returns, without integer overflow, on every well-formed square
pattern whatever its size, whichever of its allocations succeed and whatever its control parameters
are. (A pattern too large for its workspace is refused with the status `AMD_OUT_OF_MEMORY`.) -/
theorem C85_order (mem : AmdMem) (dense : Int → Int) (aggressive : Bool) {N : Nat} {A : Csc Unit}
    (hA : A.WF) (hn : A.n = N) (hm : A.m = N) {Ap Ai P : Buf Int}
    (hp : Buf.Has Ap (N + 1) (fun i => (A.jc i : Int)))
    (hi : Buf.Has Ai A.nnz (fun k => (A.ir k : Int))) (hP : P.length = N) :
    AMD_order mem dense aggressive N Ap Ai P ≠ .error .overflow ∧
      ∃ r, AMD_order mem dense aggressive N Ap Ai P = .ok r := by
  obtain ⟨st, P', h, _⟩ := C39_order mem dense aggressive hA hn hm hp hi hP
  exact ⟨by rw [h]; simp, (st, P'), h⟩

/-- **C85**, the whole solver with 64-bit integers and with the ordering routine of the repository: a
problem with fewer than `2 ^ 30` rows and fewer than `2 ^ 60` entries in the KKT matrix is set up without
overflow, and in every state reachable afterwards a solve returns without overflow, as long as the
counter and the limit on the iterations add up to less than `2 ^ 63`. -/
theorem C85_solver {K : Type} [Field K] [Scalar K] (mem : AmdMem) (dense : Int → Int) (aggressive : Bool)
    {a : SetupArgs K} {pb : Problem K} (hpb : pb.WF) (ha : a.Give pb) (hN : a.Permut = none)
    (hp : a.p = pb.p) (hs : pb.n + pb.p + pb.m < 2 ^ 30)
    (hz : pb.P.nnz + 2 * pb.G.nnz + pb.G.m + 2 * pb.A.nnz < 2 ^ 60) :
    ∃ q0, QP_SETUPC (2 ^ 63 - 1) (AMD_order mem dense aggressive) a = .ok q0 ∧
      ∀ qp, Reach q0 qp → (qp.options.verbose ≤ 0 ∨ pb.p ≠ 0) →
        qp.stats.IterationCount + qp.options.maxit < 2 ^ 63 →
        ∃ f qp', QP_SOLVEC (2 ^ 63 - 1) qp = .ok (f, qp') := by
  obtain ⟨q0, _, h⟩ := C39_setup mem dense aggressive hpb ha hN hp
  refine ⟨q0, ?_, ?_⟩
  · refine C84_setup h (C84_fits h ?_ ?_)
    · have : (((pb.n + pb.p + pb.m) * (pb.n + pb.p + pb.m) + 1 : Nat) : Int) ≤ 2 ^ 60 + 1 := by
        exact_mod_cast Nat.succ_le_succ
          (Nat.mul_le_mul (show pb.n + pb.p + pb.m ≤ 2 ^ 30 by omega) (show _ ≤ 2 ^ 30 by omega))
      omega
    · omega
  · intro qp hr hv hc
    obtain ⟨_, f, qp', h1, _⟩ := C84_long h hs hz hr hv hc
    exact ⟨f, qp', h1⟩

/-- C85 on an unsorted pattern with a repeated entry, with all control parameters and allocations. -/
example (mem : AmdMem) (dense : Int → Int) (aggressive : Bool) : ∃ r,
    AMD_order mem dense aggressive 3 (Buf.ofFn 4 (fun i => (jumbledDemo.jc i : Int)))
      (Buf.ofFn 6 (fun k => (jumbledDemo.ir k : Int))) (malloc 3) = .ok r :=
  (C85_order (N := 3) mem dense aggressive jumbledDemo_wf rfl rfl (Buf.has_ofFn 4 _) (Buf.has_ofFn 6 _)
    (P := malloc 3) rfl).2

/-- The check is there: adding one to a count that has reached the largest integer is an overflow. -/
example : incr [some Int_MAX] 0 = .error .overflow := by decide

/-- C85 on the demo program. -/
example (mem : AmdMem) (dense : Int → Int) (aggressive : Bool) :
    ∃ q0, QP_SETUPC (2 ^ 63 - 1) (AMD_order mem dense aggressive) ((demoPb ℚ).args none) = .ok q0 := by
  obtain ⟨q0, h, _⟩ := C85_solver mem dense aggressive demoPb_wf (a := (demoPb ℚ).args none)
    (Problem.args_give _ _ (by simp [demoPb, Problem.p, Csc.lit])) rfl rfl
    (by simp [Problem.n, Problem.p, Problem.m, demoPb, Csc.lit]) (by simp [Csc.nnz, demoPb, Csc.lit])
  exact ⟨q0, h⟩

end Verif
