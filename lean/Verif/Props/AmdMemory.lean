import Verif.Props.AmdOrder
import Verif.Props.Start

/-!
# Failing allocations in the ordering

`AMD_order` checks the result of every `malloc`. What happens to a setup when one of them fails.
-/

namespace Verif

variable {K : Type} [Field K] [Scalar K]

open Classical in
/-- **C73.** If one of the allocations that `AMD_order` needs for the pattern fails, it reports
`AMD_OUT_OF_MEMORY` without touching memory outside its arrays; this includes the two arrays that
are needed only for a pattern with an unsorted column or a repeated entry. Conversely, when the
needed ones succeed and the problem is small enough for the index type, the others do not matter:
the outcome is that of a run in which every allocation succeeds. -/
theorem C73_order (mem : AmdMem) (dense : Int → Int) (aggressive : Bool) {N : Nat} (hN : 0 < N)
    {A : Csc Unit} (hA : A.WF) (hn : A.n = N) (hm : A.m = N) {Ap Ai P : Buf Int}
    (hp : Buf.Has Ap (N + 1) (fun i => (A.jc i : Int)))
    (hi : Buf.Has Ai A.nnz (fun k => (A.ir k : Int))) (hP : P.length = N) :
    (¬ (mem.Len = true ∧ mem.Pinv = true ∧ mem.S = true ∧
        (¬ A.Sorted → mem.Rp = true ∧ mem.Ri = true)) →
      ∃ P', AMD_order mem dense aggressive N Ap Ai P = .ok (-1, P') ∧ P'.length = N) ∧
    (mem.Len = true ∧ mem.Pinv = true ∧ mem.S = true ∧
        (¬ A.Sorted → mem.Rp = true ∧ mem.Ri = true) → N < 2 ^ 55 → A.nnz < 2 ^ 55 →
      ∃ P', AMD_order mem dense aggressive N Ap Ai P =
        .ok (if A.Sorted then 0 else 1, P') ∧
        ∃ p q : Nat → Nat, PermPair N p q ∧ Buf.Has P' N (fun i => (p i : Int))) := by
  obtain ⟨st, P', h1, h2, h3⟩ := C39_order mem dense aggressive hA hn hm hp hi hP
  constructor
  · intro h
    rcases h3 with ⟨rfl, -⟩ | ⟨-, h3, -⟩
    · exact ⟨P', h1, h2⟩
    · rcases h3 with h3 | h3
      · omega
      · exact absurd h3 h
  · intro h b1 b2
    rcases h3 with ⟨-, h3⟩ | ⟨h3, -, h4⟩
    · exact absurd ⟨b1, b2, h⟩ h3
    · exact ⟨P', by rw [h1, h3]; rfl, h4⟩

/-- **C73.** Setup succeeds whichever allocations of the ordering succeed, and leaves a state the
theorems about `QP_SOLVE` apply to. If an allocation the pattern of the KKT matrix needs fails, the
status in the statistics is -1, which is not the mark of a permutation owned by the caller, and the
KKT matrix is factored in its natural order. -/
theorem C73_setup (mem : AmdMem) (dense : Int → Int) (aggressive : Bool) {a : SetupArgs K}
    {pb : Problem K} (hpb : pb.WF) (ha : a.Give pb) (hN : a.Permut = none) (hp : a.p = pb.p) :
    ∃ q0, QP_SETUP (AMD_order mem dense aggressive) a = .ok q0 ∧
      Started (AMD_order mem dense aggressive) a pb q0 ∧
      (¬ (mem.Len = true ∧ mem.Pinv = true ∧ mem.S = true ∧
          (¬ (kktCsc pb.P pb.A pb.G (fun _ => Scalar.dec (-1) 0)).pattern.Sorted →
            mem.Rp = true ∧ mem.Ri = true)) →
        q0.stats.AMD_RESULT = -1 ∧ Buf.Has q0.kkt.P pb.N (fun i => (i : Int))) := by
  obtain ⟨q0, h, hs⟩ := C39_setup mem dense aggressive hpb ha hN hp
  refine ⟨q0, h, hs, fun hmem => ?_⟩
  obtain ⟨S, P', hS, h1, h2, h3⟩ := (C54_ordering_used hs).2 hN
  have hwf := hpb.kktCsc_wf (fun _ => Scalar.dec (-1) 0)
  have hpos : 0 < pb.N := by
    have := hpb.m_pos
    unfold Problem.N Problem.m
    omega
  obtain ⟨P'', g1, -⟩ := (C73_order mem dense aggressive hpos
    (A := (kktCsc pb.P pb.A pb.G (fun _ => Scalar.dec (-1) 0)).pattern)
    ⟨hwf.jc0, hwf.mono, hwf.ir_lt⟩ rfl rfl hS.jc hS.ir (P := malloc pb.N)
    (by simp)).1 hmem
  rw [g1] at h1
  have e : (-1 : Int) = q0.stats.AMD_RESULT := congrArg Prod.fst (Except.ok.inj h1)
  exact ⟨e.symm, h3 (by omega)⟩

/-- A failing allocation of the buffer for the sorted pattern: reported for the unsorted pattern
`jumbledDemo`, irrelevant for the sorted pattern with entries `(0,0)`, `(1,1)`. -/
example : (∃ P', AMD_order ⟨true, true, false, true, true⟩ (fun _ => 10) true 3
      (Buf.ofFn 4 (fun i => (jumbledDemo.jc i : Int)))
      (Buf.ofFn 6 (fun k => (jumbledDemo.ir k : Int))) (malloc 3) = .ok (-1, P') ∧ P'.length = 3) ∧
    ∃ P', AMD_order ⟨true, true, false, true, true⟩ (fun _ => 10) true 2
      (Buf.ofFn 3 (fun i => (i : Int))) (Buf.ofFn 2 (fun k => (k : Int))) (malloc 2) = .ok (0, P') ∧
      ∃ p q : Nat → Nat, PermPair 2 p q ∧ Buf.Has P' 2 (fun i => (p i : Int)) := by
  constructor
  · refine (C73_order (N := 3) ⟨true, true, false, true, true⟩ (fun _ => 10) true (by decide)
      jumbledDemo_wf rfl rfl (Buf.has_ofFn 4 _) (Buf.has_ofFn 6 _) (P := malloc 3) rfl).1 ?_
    rintro ⟨-, -, -, h⟩
    have hns : ¬ jumbledDemo.Sorted :=
      fun h => absurd (h 0 (by decide) 0 (by decide) (by decide)) (by decide)
    exact absurd (h hns).1 (by decide)
  · have hs : (⟨2, 2, id, id, fun _ => ()⟩ : Csc Unit).Sorted := by
      intro c hc k h1 h2
      simp only [id] at h1 h2 ⊢
      omega
    obtain ⟨P', h1, h2⟩ := (C73_order (N := 2) ⟨true, true, false, true, true⟩ (fun _ => 10) true
      (by decide) (A := ⟨2, 2, id, id, fun _ => ()⟩) ⟨rfl, fun c _ => by simp, fun k h => h⟩ rfl rfl
      (Buf.has_ofFn 3 _) (Buf.has_ofFn 2 _) (P := malloc 2) rfl).2
      ⟨rfl, rfl, rfl, fun h => absurd hs h⟩ (by decide) (by decide)
    rw [if_pos hs] at h1
    exact ⟨P', h1, h2⟩

/-- Setup of the demo program when the last allocation of the ordering fails. -/
example : ∃ q0, QP_SETUP (AMD_order ⟨true, true, true, true, false⟩ (fun _ => 10) true)
      ((demoPb ℚ).args none) = .ok q0 ∧ q0.stats.AMD_RESULT = -1 ∧
      Buf.Has q0.kkt.P (demoPb ℚ).N (fun i => (i : Int)) := by
  obtain ⟨q0, h, -, h'⟩ := C73_setup ⟨true, true, true, true, false⟩ (fun _ => 10) true demoPb_wf
    (a := (demoPb ℚ).args none) (Problem.args_give _ _ (by simp [demoPb, Problem.p, Csc.lit]))
    rfl rfl
  exact ⟨q0, h, h' (fun h => absurd h.2.2.1 (by decide))⟩

end Verif
