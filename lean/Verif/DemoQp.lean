import Verif.SpecQp
import Verif.Demo
import Mathlib.Algebra.Field.Basic

/-!
# A concrete quadratic program for the examples beside the theorems

The program of `/repo/demo/runqp.c`, over any field, and the same program without its equality
constraint.
-/

namespace Verif

variable {K : Type}

/-- Arguments of `QP_SETUP` for a problem: fully initialised arrays, NULL for the equality
constraints if there are none. -/
def Problem.args (pb : Problem K) (Permut : Option (Buf Int)) : SetupArgs K where
  n := pb.n
  m := pb.m
  p := pb.p
  Pjc := pb.P.toSmat.jc
  Pir := pb.P.toSmat.ir
  Ppr := pb.P.toSmat.pr
  Ajc := if pb.p = 0 then none else some pb.A.toSmat.jc
  Air := if pb.p = 0 then none else some pb.A.toSmat.ir
  Apr := if pb.p = 0 then none else some pb.A.toSmat.pr
  Gjc := pb.G.toSmat.jc
  Gir := pb.G.toSmat.ir
  Gpr := pb.G.toSmat.pr
  c := Buf.ofFn pb.n pb.c
  h := Buf.ofFn pb.m pb.h
  b := if pb.p = 0 then none else some (Buf.ofFn pb.p pb.b)
  sigma_d := pb.sigma_d
  Permut := Permut

/-- Every problem can be given to setup. -/
theorem Problem.args_give [Zero K] (pb : Problem K) (Permut : Option (Buf Int))
    (h : pb.p = 0 → pb.A = Csc.empty pb.n) : (pb.args Permut).Give pb := by
  refine ⟨rfl, rfl, pb.P.toSmat_is.jc, pb.P.toSmat_is.ir, pb.P.toSmat_is.pr, pb.G.toSmat_is.jc,
    pb.G.toSmat_is.ir, pb.G.toSmat_is.pr, Buf.has_ofFn _ _, Buf.has_ofFn _ _, rfl, ?_⟩
  by_cases hp : pb.p = 0
  · refine Or.inr ⟨Or.inl ?_, h hp⟩
    simp [Problem.args, hp]
  · refine Or.inl ⟨_, _, _, _, ?_, ?_, ?_, ?_, rfl, by omega, pb.A.toSmat_is.jc, pb.A.toSmat_is.ir,
      pb.A.toSmat_is.pr, Buf.has_ofFn _ _⟩ <;> simp [Problem.args, hp]

section

variable [Field K]

/-- The program of the demo. -/
def demoPb (K : Type) [Field K] : Problem K where
  P := .lit 3 3 [0, 2, 5, 7] [0, 1, 0, 1, 2, 1, 2] [5, 1, 1, 2, 1, 1, 4]
  A := .lit 1 3 [0, 1, 2, 3] [0, 0, 0] [1, -2, 1]
  G := .lit 2 3 [0, 1, 2, 3] [0, 0, 1] [-4, -4, -1]
  c := fun i => [1, 2, 1].getD i 0
  b := fun i => [3].getD i 0
  h := fun i => [-1, -1].getD i 0
  sigma_d := 0

/-- The same program without equality constraint. -/
def demoPb0 (K : Type) [Field K] : Problem K := { demoPb K with A := Csc.empty 3 }

theorem demoPb_wf : (demoPb K).WF where
  P := by
    refine ⟨rfl, ?_, ?_⟩
    · intro c hc; simp only [demoPb, Csc.lit] at hc ⊢; interval_cases c <;> decide
    · intro k hk
      simp only [demoPb, Csc.lit, List.getD] at hk ⊢
      norm_num at hk
      interval_cases k <;> decide
  A := by
    refine ⟨rfl, ?_, ?_⟩
    · intro c hc; simp only [demoPb, Csc.lit] at hc ⊢; interval_cases c <;> decide
    · intro k hk
      simp only [demoPb, Csc.lit, List.getD] at hk ⊢
      norm_num at hk
      interval_cases k <;> decide
  G := by
    refine ⟨rfl, ?_, ?_⟩
    · intro c hc; simp only [demoPb, Csc.lit] at hc ⊢; interval_cases c <;> decide
    · intro k hk
      simp only [demoPb, Csc.lit, List.getD] at hk ⊢
      norm_num at hk
      interval_cases k <;> decide
  Pm := rfl
  An := rfl
  Gn := rfl
  rows := by
    intro r hr
    simp only [demoPb, Csc.lit] at hr
    interval_cases r
    · exact ⟨0, by simp [demoPb, Csc.lit], rfl⟩
    · exact ⟨2, by simp [demoPb, Csc.lit], rfl⟩
  m_pos := by simp [demoPb, Csc.lit]

theorem demoPb0_wf : (demoPb0 K).WF :=
  { demoPb_wf (K := K) with
    A := ⟨rfl, fun _ _ => le_rfl, fun _ hk => absurd hk (by simp [demoPb0, Csc.empty])⟩
    An := rfl }

/-- Inverse of the demo permutation. -/
def demoPermInv : Nat → Nat := fun i => [5, 3, 1, 2, 4, 0].getD i 0

theorem demoPerm_pair : PermPair 6 demoPerm demoPermInv where
  p_lt := by intro i hi; interval_cases i <;> decide
  q_lt := by intro i hi; interval_cases i <;> decide
  qp := by intro i hi; interval_cases i <;> decide
  pq := by intro i hi; interval_cases i <;> decide

/-- The permutation array of the demo. -/
def demoPermut : Buf Int := Buf.ofFn 6 (fun i => (demoPerm i : Int))

/-- Arguments of setup for the demo. -/
def demoArgs (K : Type) [Field K] : SetupArgs K := (demoPb K).args (some demoPermut)

/-- Arguments of setup for the demo without equality constraint; identity permutation. -/
def demoArgs0 (K : Type) [Field K] : SetupArgs K :=
  (demoPb0 K).args (some (Buf.ofFn 5 (fun i => (i : Int))))

theorem demoArgs_give : (demoArgs K).Give (demoPb K) :=
  Problem.args_give _ _ (fun h => absurd h (by simp [Problem.p, demoPb, Csc.lit]))

theorem demoArgs0_give : (demoArgs0 K).Give (demoPb0 K) := Problem.args_give _ _ (fun _ => rfl)

theorem demoArgs_perm (amd : Amd) :
    PermSource amd (demoArgs K).Permut (demoArgs K).p (demoPb K) :=
  Or.inl ⟨_, _, _, rfl, demoPerm_pair, Buf.has_ofFn _ _⟩

theorem demoArgs0_perm (amd : Amd) :
    PermSource amd (demoArgs0 K).Permut (demoArgs0 K).p (demoPb0 K) :=
  Or.inl ⟨_, _, _, rfl, idPair 5, Buf.has_ofFn _ _⟩

/-- An ordering routine that always reports an error; used to run the model where a permutation
is given. -/
def failAmd : Amd := fun _ _ _ P => .ok (-1, P)

theorem failAmd_safe : AmdSafe failAmd :=
  fun _ _ _ _ P _ _ _ _ _ hP => ⟨-1, P, rfl, hP, Or.inl (by decide)⟩

end

end Verif
