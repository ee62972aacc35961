import Verif.Spec
import Mathlib.Tactic.IntervalCases
import Mathlib.Tactic.NormNum

/-!
# Concrete data for the examples beside the theorems

The matrices are those of `/repo/demo/runqp.c`: three variables, two inequality constraints, one
equality constraint.
-/

namespace Verif

/-- A matrix given by literal lists. -/
def Csc.lit {K : Type} [Zero K] (m n : Nat) (jc ir : List Nat) (pr : List K) : Csc K :=
  { m := m, n := n, jc := fun i => jc.getD i 0, ir := fun i => ir.getD i 0,
    pr := fun i => pr.getD i 0 }

/-- `P` of the demo problem. -/
def demoP : Csc ℚ := .lit 3 3 [0, 2, 5, 7] [0, 1, 0, 1, 2, 1, 2] [5, 1, 1, 2, 1, 1, 4]
/-- `A` of the demo problem. -/
def demoA : Csc ℚ := .lit 1 3 [0, 1, 2, 3] [0, 0, 0] [1, -2, 1]
/-- `G` of the demo problem. -/
def demoG : Csc ℚ := .lit 2 3 [0, 1, 2, 3] [0, 0, 1] [-4, -4, -1]

theorem demoP_wf : demoP.WF where
  jc0 := rfl
  mono := by intro c hc; simp only [demoP, Csc.lit] at hc ⊢; interval_cases c <;> decide
  ir_lt := by
    intro k hk
    simp only [demoP, Csc.lit, List.getD] at hk ⊢
    norm_num at hk
    interval_cases k <;> decide

theorem demoA_wf : demoA.WF where
  jc0 := rfl
  mono := by intro c hc; simp only [demoA, Csc.lit] at hc ⊢; interval_cases c <;> decide
  ir_lt := by
    intro k hk
    simp only [demoA, Csc.lit, List.getD] at hk ⊢
    norm_num at hk
    interval_cases k <;> decide

theorem demoG_wf : demoG.WF where
  jc0 := rfl
  mono := by intro c hc; simp only [demoG, Csc.lit] at hc ⊢; interval_cases c <;> decide
  ir_lt := by
    intro k hk
    simp only [demoG, Csc.lit, List.getD] at hk ⊢
    norm_num at hk
    interval_cases k <;> decide

theorem demoG_rows : demoG.RowsNonempty := by
  intro r hr
  simp only [demoG, Csc.lit] at hr
  interval_cases r
  · exact ⟨0, by decide, rfl⟩
  · exact ⟨2, by decide, rfl⟩

/-- The demo permutation. -/
def demoPerm : Nat → Nat := fun i => [5, 2, 3, 1, 4, 0].getD i 0

/-- A permutation of the three variables whose factor has fill-in: the middle variable first. -/
def demoPerm3 : Nat → Nat := fun i => [1, 0, 2].getD i 0

theorem demoPerm3_pair : PermPair 3 demoPerm3 demoPerm3 where
  p_lt := by intro i hi; interval_cases i <;> decide
  q_lt := by intro i hi; interval_cases i <;> decide
  qp := by intro i hi; interval_cases i <;> decide
  pq := by intro i hi; interval_cases i <;> decide

theorem idPair (n : Nat) : PermPair n (fun i => i) (fun i => i) :=
  ⟨fun _ h => h, fun _ h => h, fun _ _ => rfl, fun _ _ => rfl⟩

theorem demoP_symm : demoP.Symm := by
  intro r c hr hc
  have hr' : r < 3 := hr
  have hc' : c < 3 := hc
  interval_cases r <;> interval_cases c <;> decide +kernel

/-- `P` of the demo problem with a permutation, as arguments of the factorisation. -/
theorem demoLdl : LdlArgs 3 demoP demoPerm3 demoPerm3 demoP.toSmat.jc demoP.toSmat.ir
    (some (Buf.ofFn 3 (fun i => (demoPerm3 i : Int)))) where
  wf := demoP_wf
  an := rfl
  am := rfl
  perm := demoPerm3_pair
  ap := demoP.toSmat_is.jc
  ai := demoP.toSmat_is.ir
  p := Buf.has_ofFn _ _

end Verif
