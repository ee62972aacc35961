import Verif.Lemmas.Front
import Verif.Lemmas.DenseRun
import Verif.Props.Safety
import Verif.Props.LdlBasic

/-!
# C43-C49: the timer and the Simulink, Python and MATLAB entry points
-/

set_option linter.unusedSectionVars false

namespace Verif

/-! ## C46 -/

/-- A clock reading in nanoseconds. -/
def Timespec.total (t : Timespec) : Int := t.tv_sec * 10 ^ 9 + t.tv_nsec

/-- A reading as the clock returns it. -/
def Timespec.Normal (t : Timespec) : Prop := 0 ≤ t.tv_nsec ∧ t.tv_nsec < 10 ^ 9

/-- **C46**: in exact arithmetic the timer returns the difference of the two readings in seconds. -/
theorem C46_elapsed {K : Type} [Field K] [LinearOrder K] [IsStrictOrderedRing K] [Scalar K]
    [LawfulScalar K] (t1 t2 : Timespec) :
    (toc t1 t2 : K) = ((t2.total - t1.total : Int) : K) / 10 ^ 9 := by
  unfold toc tocDiff Timespec.total
  split
  · simp only [LawfulScalar.ofInt_eq]
    push_cast
    field_simp
    ring
  · simp only [LawfulScalar.ofInt_eq]
    push_cast
    field_simp
    ring

/-- **C46**, integers: for readings of the clock in order the intermediate difference is itself a
clock reading, not negative, with the nanoseconds in range (so that no precision is lost by the
conversion to floating point), and adds up to the difference. -/
theorem C46_borrow {t1 t2 : Timespec} (h1 : t1.Normal) (h2 : t2.Normal)
    (h : t1.total ≤ t2.total) :
    (tocDiff t1 t2).Normal ∧ 0 ≤ (tocDiff t1 t2).tv_sec ∧
      (tocDiff t1 t2).total = t2.total - t1.total := by
  unfold Timespec.Normal Timespec.total at *
  unfold tocDiff
  split <;> refine ⟨⟨?_, ?_⟩, ?_, ?_⟩ <;> simp only <;> omega

/-- From 1.9 s to 3.1 s: a borrow, 1.2 s. -/
example : (Timespec.mk 1 900000000).Normal ∧ (Timespec.mk 3 100000000).Normal ∧
    (toc (Timespec.mk 1 900000000) (Timespec.mk 3 100000000) : ℚ) = 6 / 5 := by
  refine ⟨⟨by decide, by decide⟩, ⟨by decide, by decide⟩, ?_⟩
  rw [C46_elapsed]
  norm_num [Timespec.total]

section Generic

variable {K : Type} [Zero K] [One K] [Add K] [Sub K] [Mul K] [Div K] [Neg K] [Scalar K]

/-! ## C47 -/

theorem sfCopy_ok {x : Buf K} {n : Nat} {f : Nat → K} (hx : Buf.Has x n f) (hn : 3 ≤ n) :
    sfCopy (malloc NV) x = .ok [some (f 0), some (f 1), some (f 2)] := by
  have h := forI_copy_eq (hx.mono hn)
  simpa [sfCopy, NV, Buf.ofFn, List.range_succ] using h

theorem sfCopy_oob {x : Buf K} {n : Nat} {f : Nat → K} (hx : Buf.Has x n f) (hl : x.length = n)
    (hn : n < 3) : sfCopy (malloc NV) x = .error .oob := by
  have hend : rd x (n : Int) = .error .oob := by
    unfold rd
    rw [if_neg (by omega), List.getElem?_eq_none (by simp [hl])]
  have h0 : (0 : Nat) < n → rd x (0 : Int) = .ok (f 0) := fun h => by simpa using hx.rd h
  have h1 : (1 : Nat) < n → rd x (1 : Int) = .ok (f 1) := fun h => by simpa using hx.rd h
  unfold sfCopy forI NV
  rcases n with _ | _ | _ | n
  · have : rd x (0 : Int) = .error .oob := by simpa using hend
    simp [forN, this]
  · have : rd x (1 : Int) = .error .oob := by simpa using hend
    simp [forN, this, h0, wr, malloc]
  · have : rd x (2 : Int) = .error .oob := by simpa using hend
    simp [forN, this, h0, h1, wr, malloc]
  · omega

/-- The inputs of the block describe the problem `pb`. -/
def SfGive (pb : Problem K) (P : Buf K) (A : Option (Buf K)) (G c h : Buf K)
    (b : Option (Buf K)) : Prop :=
  DenseArgs.Give
    { n := pb.n, m := pb.m, p := pb.p, Ppr := P, Apr := A, Gpr := G, c := c, h := h, b := b
      Permut := none, ordering := COLUMN_MAJOR_ORDERING } pb

/-- **C47**: for every well-formed problem with fewer than three variables the block reads outside
the solution array. -/
theorem C47_reads_outside {amd : Amd} (hamd : AmdSafe amd) {pb : Problem K} (hpb : pb.WF)
    {P G c h : Buf K} {A b : Option (Buf K)} (hg : SfGive pb P A G c h b) (hn : pb.n < 3) :
    mdlOutputs amd pb.n pb.m pb.p P A G c h b = .error .oob := by
  obtain ⟨q0, e0⟩ := hg.setup_ok (amd := amd) hpb (Or.inr ⟨rfl, hamd, Or.inl rfl⟩)
  obtain ⟨a, hs⟩ := hg.started hpb (Or.inr ⟨rfl, hamd, Or.inl rfl⟩) e0
  obtain ⟨_, _, hd⟩ := hs.done
  obtain ⟨_, f, q1, e1⟩ := C26_solve hs .start (Or.inl (by rw [hd.options]; exact le_rfl))
  obtain ⟨_, _, hi, _⟩ := hs.sinv (.solve .start e1)
  obtain ⟨x, _, _, _, hit⟩ := hi.iter
  have hl : q1.x.length = pb.n := by
    have h1 := QP_SOLVE_x _ e1
    have h2 := QP_SETUP_dense_x _ e0
    simp only at h1 h2
    rw [h1, h2]
    simp
  unfold mdlOutputs
  rw [e0, ok_bind, e1, ok_bind]
  simp only
  rw [sfCopy_oob hit.x hl hn]
  rfl

/-- **C47**, otherwise: with three variables or more it succeeds and its output is the first three
components of the solution the solver found, with the exit code and the iteration count. -/
theorem C47_three_or_more {amd : Amd} (hamd : AmdSafe amd) {pb : Problem K} (hpb : pb.WF)
    {P G c h : Buf K} {A b : Option (Buf K)} (hg : SfGive pb P A G c h b) (hn : 3 ≤ pb.n) :
    ∃ a q0 f q1 x y z s, Started amd a pb q0 ∧ QP_SOLVE q0 = .ok (f, q1) ∧ q1.Iter pb x y z s ∧
      mdlOutputs amd pb.n pb.m pb.p P A G c h b = .ok
        { x := [some (x 0), some (x 1), some (x 2)], exitflag := f
          iter := q1.stats.IterationCount } := by
  obtain ⟨q0, e0⟩ := hg.setup_ok (amd := amd) hpb (Or.inr ⟨rfl, hamd, Or.inl rfl⟩)
  obtain ⟨a, hs⟩ := hg.started hpb (Or.inr ⟨rfl, hamd, Or.inl rfl⟩) e0
  obtain ⟨_, _, hd⟩ := hs.done
  obtain ⟨_, f, q1, e1⟩ := C26_solve hs .start (Or.inl (by rw [hd.options]; exact le_rfl))
  obtain ⟨_, _, hi, _⟩ := hs.sinv (.solve .start e1)
  obtain ⟨x, y, z, s, hit⟩ := hi.iter
  refine ⟨a, q0, f, q1, x, y, z, s, hs, e1, hit, ?_⟩
  unfold mdlOutputs
  rw [e0, ok_bind, e1, ok_bind]
  simp only
  rw [sfCopy_ok hit.x hn]
  rfl

end Generic

/-- A problem with one variable, `min x² / 2` subject to `x ≤ 1`, in dense form. -/
example : mdlOutputs failAmd 1 1 0 [some (1 : ℚ)] none [some 1] [some 0] [some 1] none
    = .error .oob := by
  have hg := denseProblem_give (K := ℚ) (n := 1) (m := 1) (p := 0) (P := fun _ => 1)
    (A := fun _ => 0) (G := fun _ => 1) (c := fun _ => 0) (b := fun _ => 0) (h := fun _ => 1)
    { n := 1, m := 1, p := 0, Ppr := [some 1], Apr := none, Gpr := [some 1], c := [some 0]
      h := [some 1], b := none, Permut := none, ordering := COLUMN_MAJOR_ORDERING }
    rfl rfl (by intro i hi; interval_cases i; rfl) (by intro i hi; interval_cases i; rfl)
    (by intro i hi; interval_cases i; rfl) (by intro i hi; interval_cases i; rfl) le_rfl
    (Or.inr ⟨Or.inl rfl, rfl⟩)
  have hw := denseProblem_wf (K := ℚ) (ordering := COLUMN_MAJOR_ORDERING) (n := 1) (m := 1)
    (p := 0) (P := fun _ => 1) (A := fun _ => 0) (G := fun _ => 1) (c := fun _ => 0)
    (b := fun _ => 0) (h := fun _ => 1) Nat.zero_lt_one
    (fun r hr => ⟨0, Nat.zero_lt_one, by simp [denseAt]; decide⟩)
  exact C47_reads_outside failAmd_safe hw hg (by decide)

end Verif
