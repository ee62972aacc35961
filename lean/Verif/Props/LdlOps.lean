import Verif.Lemmas.LdlOps
import Verif.Props.AmdFill
import Verif.Props.FillPath

/-!
# C91: operations of the factorisation and of the solves

`LDL_numericO`, `LDL_lsolveO`, `LDL_dsolveO` and `LDL_ltsolveO` (`Model/LdlOps.lean`) are the routines of
`/repo/src/ldl.c` with a counter of divisions (`Ops.div`) and of multiplications with a subtraction (`Ops.ms`).
-/

set_option linter.unusedSectionVars false

namespace Verif

open Finset

section

variable {K : Type} [Zero K] [One K] [Add K] [Sub K] [Mul K] [Div K] [Neg K] [Scalar K]

/-- **C91**, the counters do not influence what is computed: for any input whatsoever, also one that
leads to undefined behaviour, the counting factorisation without its counter is the factorisation. -/
theorem C91_same (n : Int) (Ap Ai : Buf Int) (Ax : Buf K) (Lp Parent : Buf Int) (st : NumSt K)
    (P Pinv : Option (Buf Int)) :
    Prod.fst <$> LDL_numericO n Ap Ai Ax Lp Parent st P Pinv = LDL_numeric n Ap Ai Ax Lp Parent st P Pinv :=
  LDL_numericO_forget n Ap Ai Ax Lp Parent st P Pinv

/-- **C91**, the factorisation: if the symbolic analysis reports `c j` entries in column `j` of the
factor, the numeric factorisation takes `∑ c j` divisions and `∑ c j (c j + 1) / 2` multiplications with a
subtraction, whatever the values of the matrix are. -/
theorem C91_numeric {n : Nat} {A : Csc K} {p q : Nat → Nat} {Ap Ai : Buf Int} {Ax : Buf K}
    {P Pinv : Option (Buf Int)} (h : LdlArgs n A p q Ap Ai P) (hAx : Buf.Has Ax A.nnz A.pr)
    {Lp0 Parent0 Lnz0 Flag0 : Buf Int} (hLp : n + 1 ≤ Lp0.length) (hPar : n ≤ Parent0.length)
    (hLnz : n ≤ Lnz0.length) (hFlag : n ≤ Flag0.length)
    (hPinv : P.isSome → ∃ Q, Pinv = some Q ∧ n ≤ Q.length) (hPn : P = none → Pinv = none)
    {o : SymOut} (ho : LDL_symbolic n Ap Ai Lp0 Parent0 Lnz0 Flag0 P Pinv = .ok o)
    {lnz : Nat} (hlnz : rd o.Lp n = .ok (lnz : Int)) {Li Pattern : Buf Int} {Lx D Y : Buf K}
    (hLi : lnz ≤ Li.length) (hLx : lnz ≤ Lx.length) (hD : n ≤ D.length) (hY : n ≤ Y.length)
    (hPat : n ≤ Pattern.length) :
    ∃ (st : NumSt K) (w : Ops) (c : Nat → Nat),
      LDL_numericO n Ap Ai Ax o.Lp o.Parent ⟨o.Lnz, Li, Lx, D, Y, Pattern, o.Flag⟩ P o.Pinv
        = .ok (((n : Int), st), w) ∧
      LDL_numeric n Ap Ai Ax o.Lp o.Parent ⟨o.Lnz, Li, Lx, D, Y, Pattern, o.Flag⟩ P o.Pinv = .ok ((n : Int), st) ∧
      (∀ j, j < n → rd o.Lnz j = .ok (c j : Int)) ∧ lnz = ∑ j ∈ range n, c j ∧
      w.div = ∑ j ∈ range n, c j ∧ 2 * w.ms = ∑ j ∈ range n, c j * (c j + 1) := by
  have hs := LDL_symbolic_spec h hLp hPar hLnz hFlag hPinv hPn
  obtain ⟨hd, l1, l2, l3, l4, _⟩ := hs.elim ho
  have hlp : Buf.Has o.Lp (n + 1) (fun j => (lpOf (permPat A p q) n j : Int)) := hd.lp
  have hz : lnz = lpOf (permPat A p q) n n := by
    rw [hlp.rd (by omega)] at hlnz
    simpa using hlnz.symm
  have hsz : NumSizes (permPat A p q) n (⟨o.Lnz, Li, Lx, D, Y, Pattern, o.Flag⟩ : NumSt K) :=
    ⟨by simp only; omega, by simp only; omega, by simp only; omega, by simp only; omega,
      by simp only; omega, by simp only; omega, by simp only; omega⟩
  obtain ⟨⟨⟨r, st⟩, w⟩, h1, h2, h3⟩ := LDL_numericO_spec h hAx hd.pinv hlp hd.parent hsz
  have e := LDL_numericO_forget n Ap Ai Ax o.Lp o.Parent ⟨o.Lnz, Li, Lx, D, Y, Pattern, o.Flag⟩ P o.Pinv
  rw [h1] at e
  obtain ⟨g, -⟩ := (LDL_numeric_spec h hAx hd.pinv hlp hd.parent hsz).elim e.symm
  simp only at g
  subst g
  exact ⟨st, w, fun j => (fillRows (permPat A p q) n j).length, h1, e.symm, fun j hj => hd.lnz.rd hj, hz, h2, h3⟩

/-- **C91**, the solves: with a factor of `L.nnz` entries below the diagonal, the forward and the
backward solve take as many multiplications with a subtraction, and the solve with the diagonal takes `n`
divisions, and they compute what they compute without the counter. -/
theorem C91_solves {n : Nat} {Lp Li : Buf Int} {Lx D : Buf K} {L : Csc K} {d : Nat → K}
    (h : HoldsFactor n Lp Li Lx D L d) {X : Buf K} {x : Nat → K} (hX : Buf.Has X n x) (w : Ops) :
    ∃ X1 X2 X3 w1 w2 w3, LDL_lsolveO n X Lp Li Lx w = .ok (X1, w1) ∧ LDL_lsolve n X Lp Li Lx = .ok X1 ∧
      LDL_dsolveO n X1 D w1 = .ok (X2, w2) ∧ LDL_dsolve n X1 D = .ok X2 ∧
      LDL_ltsolveO n X2 Lp Li Lx w2 = .ok (X3, w3) ∧ LDL_ltsolve n X2 Lp Li Lx = .ok X3 ∧
      w1.div = w.div ∧ w1.ms = w.ms + L.nnz ∧ w2.div = w.div + n ∧ w2.ms = w.ms + L.nnz ∧
      w3.div = w.div + n ∧ w3.ms = w.ms + 2 * L.nnz := by
  have hz : ∀ m, m ≤ n → ∑ j ∈ range m, (L.col j).length = L.jc m := by
    intro m
    induction m with
    | zero => intro _; simp [h.wf.jc0]
    | succ m ih =>
      intro hm
      rw [sum_range_succ, ih (by omega), h.lfac.posS m (by omega)]
  have hnnz : ∑ j ∈ range n, (L.col j).length = L.nnz := by
    rw [hz n le_rfl]
    unfold Csc.nnz
    rw [h.ln]
  obtain ⟨X1, e1, -, h1⟩ := LDL_lsolve_spec h.lfac hX
  obtain ⟨X2, e2, -, h2⟩ := LDL_dsolve_spec h1 h.D
  obtain ⟨X3, e3, -, -⟩ := LDL_ltsolve_spec h.lfac h2
  refine ⟨X1, X2, X3, w.plus 0 L.nnz, (w.plus 0 L.nnz).plus n 0, ((w.plus 0 L.nnz).plus n 0).plus 0 L.nnz,
    ?_, e1, ?_, e2, ?_, e3, rfl, rfl, rfl, rfl, rfl, ?_⟩
  · rw [LDL_lsolveO_eq h.lfac, e1, ok_bind, hnnz]
  · rw [LDL_dsolveO_eq, e2, ok_bind]
  · rw [LDL_ltsolveO_eq h.lfac, e3, ok_bind, hnnz]
  · simp only [Ops.plus]
    omega

/-- **C91**, the statistics of the ordering: if a matrix is analysed and factorised in the order
returned by AMD, the factorisation takes at most `Info[AMD_NDIV]` divisions and at most
`Info[AMD_NMULTSUBS_LDL]` multiplications with a subtraction. -/
theorem C91_ordering (mem : AmdMem) (dense : Int → Int) (aggressive : Bool) {n : Nat} {A : Csc K}
    (hA : A.WF) (hn : A.n = n) (hm : A.m = n) {Ap Ai P P' : Buf Int} {Ax : Buf K}
    (hp : Buf.Has Ap (n + 1) (fun i => (A.jc i : Int)))
    (hi : Buf.Has Ai A.nnz (fun k => (A.ir k : Int))) (hAx : Buf.Has Ax A.nnz A.pr) (hP : P.length = n) {s : Int}
    {t : OrderInfo} (h : AMD_orderI mem dense aggressive n Ap Ai P = .ok ((s, P'), some t))
    {Lp Parent Lnz Flag Pinv : Buf Int}
    (hLp : n + 1 ≤ Lp.length) (hPar : n ≤ Parent.length) (hLnz : n ≤ Lnz.length)
    (hFlag : n ≤ Flag.length) (hPinv : n ≤ Pinv.length) :
    ∃ (o : SymOut) (lnz : Nat), LDL_symbolic n Ap Ai Lp Parent Lnz Flag (some P') (some Pinv) = .ok o ∧
      rd o.Lp n = .ok (lnz : Int) ∧
      ∀ (Li Pattern : Buf Int) (Lx D Y : Buf K), lnz ≤ Li.length → lnz ≤ Lx.length → n ≤ D.length → n ≤ Y.length →
        n ≤ Pattern.length → ∃ (st : NumSt K) (w : Ops),
        LDL_numericO n Ap Ai Ax o.Lp o.Parent ⟨o.Lnz, Li, Lx, D, Y, Pattern, o.Flag⟩ (some P') o.Pinv
          = .ok (((n : Int), st), w) ∧ (w.div : Int) ≤ t.stat.ndiv ∧ (w.ms : Int) ≤ t.stat.nmsLdl := by
  obtain ⟨r, hr, hg⟩ := orderI_spec mem dense aggressive (A := A.pattern) (N := n) ⟨hA.jc0, hA.mono, hA.ir_lt⟩
    hn hm hp hi hP
  rw [h, Except.ok.injEq] at hr
  subst hr
  rcases hg with ⟨-, hg⟩ | ⟨p, q, t', h1, h2, h3, h4, -⟩
  · cases hg
  simp only [Option.some.injEq] at h2 h3
  subst h3
  have hargs : LdlArgs n A p q Ap Ai (some P') := ⟨hA, hn, hm, h1, hp, hi, h2⟩
  obtain ⟨o, ho, -, o2, o3⟩ := C09_symbolic hargs (Pinv := some Pinv) hLp hPar hLnz hFlag
    (fun _ => ⟨_, rfl, hPinv⟩) (by simp)
  refine ⟨o, _, ho, o3 n le_rfl, fun Li Pattern Lx D Y a1 a2 a3 a4 a5 => ?_⟩
  obtain ⟨st, w, c, g1, -, g2, -, g3, g4⟩ := C91_numeric hargs hAx hLp hPar hLnz hFlag (fun _ => ⟨_, rfl, hPinv⟩)
    (by simp) ho (o3 n le_rfl) a1 a2 a3 a4 a5
  have hle : ∀ j, j < n → c j ≤ colCount n (fun j k => A.pattern.Edge (p j) (p k)) j := by
    intro j hj
    have e := (g2 j hj).symm.trans (o2 j hj)
    rw [Except.ok.injEq, Nat.cast_inj] at e
    rw [e]
    refine colCount_mono (fun j k hjk hk hs => ⟨fun e => ?_, Or.inl hs⟩) j
    have := congrArg q e
    rw [h1.qp j (by omega), h1.qp k hk] at this
    omega
  refine ⟨st, w, g1, le_trans ?_ h4.ndiv, le_trans ?_ h4.ldl⟩
  · rw [g3]
    push_cast
    exact sum_le_sum fun j hj => by exact_mod_cast hle j (mem_range.mp hj)
  · have hh : (w.ms : Int) = ∑ j ∈ range n, (c j : Int) * (c j + 1) / 2 := by
      have e : ∀ j, 2 * ((c j : Int) * (c j + 1) / 2) = (c j : Int) * (c j + 1) := fun j =>
        Int.mul_ediv_cancel' (Int.even_mul_succ_self (c j)).two_dvd
      have g : (2 : Int) * w.ms = ∑ j ∈ range n, (c j : Int) * (c j + 1) := by exact_mod_cast g4
      have : (2 : Int) * ∑ j ∈ range n, (c j : Int) * (c j + 1) / 2 = ∑ j ∈ range n, (c j : Int) * (c j + 1) := by
        rw [mul_sum]
        exact sum_congr rfl fun j _ => e j
      omega
    rw [hh]
    refine sum_le_sum fun j hj => Int.ediv_le_ediv (by omega) ?_
    have := hle j (mem_range.mp hj)
    gcongr

end

/-- The demo matrix with an ordering that causes fill-in: columns of 2, 1 and 0 entries. -/
example := C91_numeric demoLdl demoP.toSmat_is.pr (o := demoSym) (Pinv := some (malloc 3))
  (Lp0 := malloc 4) (Parent0 := malloc 3) (Lnz0 := malloc 3) (Flag0 := malloc 3)
  (by decide) (by decide) (by decide) (by decide) (fun _ => ⟨_, rfl, by decide⟩) (by simp)
  demoSym_eq (lnz := 3) (by decide +kernel) (Li := malloc 3) (Lx := malloc 3)
  (D := malloc 3) (Y := malloc 3) (Pattern := malloc 3) (by decide) (by decide)
  (by decide) (by decide) (by decide)

/-- It takes 3 divisions and 4 multiplications with a subtraction. -/
example : (match LDL_numericO (K := ℚ) 3 demoP.toSmat.jc demoP.toSmat.ir demoP.toSmat.pr demoSym.Lp demoSym.Parent
    ⟨demoSym.Lnz, malloc 3, malloc 3, malloc 3, malloc 3, malloc 3, demoSym.Flag⟩
    (some [some 1, some 0, some 2]) demoSym.Pinv with
    | .ok r => r.2.div == 3 && r.2.ms == 4
    | .error _ => false) = true := by decide +kernel

example := C91_solves demoL_holds (X := [some 1, some 2, some 3]) (x := fun i => [1, 2, 3].getD i 0)
  (by intro i hi; interval_cases i <;> rfl) ⟨0, 0⟩

/-- Another matrix, in the order of AMD, with any values. -/
example (v : Nat → ℚ) : ∃ P' t, ∃ (o : SymOut) (lnz : Nat) (st : NumSt ℚ) (w : Ops), AMD_orderI ⟨true, true, true, true, true⟩ (fun _ => 10) true 3
      (Buf.ofFn 4 (fun i => (jumbledDemo.jc i : Int))) (Buf.ofFn 6 (fun k => (jumbledDemo.ir k : Int))) (malloc 3)
      = .ok ((AMD_OK_BUT_JUMBLED, P'), some t) ∧
    LDL_numericO 3 (Buf.ofFn 4 (fun i => (jumbledDemo.jc i : Int))) (Buf.ofFn 6 (fun k => (jumbledDemo.ir k : Int)))
      (Buf.ofFn 6 v) o.Lp o.Parent ⟨o.Lnz, malloc lnz, malloc lnz, malloc 3, malloc 3, malloc 3, o.Flag⟩ (some P') o.Pinv
      = .ok ((3, st), w) ∧ (w.div : Int) ≤ t.stat.ndiv ∧ (w.ms : Int) ≤ t.stat.nmsLdl := by
  obtain ⟨P', t, h, -⟩ := demo_orderI
  obtain ⟨o, lnz, -, -, h2⟩ := C91_ordering (K := ℚ) (n := 3) ⟨true, true, true, true, true⟩ (fun _ => 10) true
    (A := ⟨3, 3, jumbledDemo.jc, jumbledDemo.ir, v⟩)
    ⟨jumbledDemo_wf.jc0, jumbledDemo_wf.mono, jumbledDemo_wf.ir_lt⟩ rfl rfl
    (Buf.has_ofFn 4 _) (Buf.has_ofFn 6 _) (Buf.has_ofFn 6 _) (P := malloc 3) rfl h (Lp := malloc 4) (Parent := malloc 3)
    (Lnz := malloc 3) (Flag := malloc 3) (Pinv := malloc 3) (by decide) (by decide) (by decide) (by decide) (by decide)
  obtain ⟨st, w, h3, h4, h5⟩ := h2 (malloc lnz) (malloc 3) (malloc lnz) (malloc 3) (malloc 3) (by simp) (by simp)
    (by simp) (by simp) (by simp)
  exact ⟨P', t, o, lnz, st, w, h, h3, h4, h5⟩

end Verif
