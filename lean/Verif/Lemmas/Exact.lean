import Verif.Lemmas.Solve
import Mathlib.Tactic.LinearCombination

/-! # Residuals, norms and step lengths of the solver in exact arithmetic -/

set_option linter.unusedSectionVars false

namespace Verif

open Finset

variable {K : Type} [Field K] [LinearOrder K] [IsStrictOrderedRing K] [Scalar K] [LawfulScalar K]

theorem dec_neg_one : (Scalar.dec (-1) 0 : K) = -1 := by rw [dec_zero]; simp

theorem rxF_eq {pb : Problem K} (hpb : pb.WF) (x y z : Nat → K) {i : Nat} (hi : i < pb.n) :
    rxF pb x y z i = pb.rx x y z i := by
  unfold rxF Problem.rx
  rw [stmmF_eq hpb.A _ _ (by rw [hpb.An]; exact hi), stmmF_eq hpb.G _ _ (by rw [hpb.Gn]; exact hi),
    smmF_eq hpb.P, dec_neg_one]
  ring

theorem ryF_eq {pb : Problem K} (hpb : pb.WF) (x : Nat → K) (i : Nat) :
    ryF pb x i = pb.ry x i := by
  unfold ryF Problem.ry
  rw [smmF_eq hpb.A, dec_one_zero]
  ring

theorem rzF_eq {pb : Problem K} (hpb : pb.WF) (x s : Nat → K) (i : Nat) :
    rzF pb x s i = pb.rz x s i := by
  unfold rzF Problem.rz
  rw [smmF_eq hpb.G]
  ring

theorem objF_eq {pb : Problem K} (hpb : pb.WF) (x : Nat → K) :
    objF pb.P pb.c x = pb.obj x := by
  unfold objF Problem.obj
  rw [dotF_eq, dotF_eq, LawfulScalar.dec_eq]
  have : dot pb.P.n (smmF pb.P x fun _ => 0) x = - dot pb.n x (pb.P.mulVec x) := by
    unfold dot
    rw [← sum_neg_distrib]
    refine sum_congr rfl fun i _ => ?_
    rw [smmF_eq hpb.P]
    ring
  rw [this]
  show _ + dot pb.n pb.c x = _
  norm_num

theorem dot_self_nonneg (n : Nat) (f : Nat → K) : 0 ≤ dot n f f :=
  sum_nonneg fun i _ => mul_self_nonneg (f i)

theorem dot_congr {n : Nat} {f g f' g' : Nat → K} (h : ∀ i, i < n → f i = f' i)
    (h' : ∀ i, i < n → g i = g' i) : dot n f g = dot n f' g' :=
  sum_congr rfl fun i hi => by rw [h i (mem_range.mp hi), h' i (mem_range.mp hi)]

theorem IsNorm.congr {n : Nat} {f g : Nat → K} {v : K} (h : IsNorm n f v)
    (hfg : ∀ i, i < n → f i = g i) : IsNorm n g v :=
  ⟨h.1, by rw [h.2]; exact dot_congr hfg hfg⟩

theorem sq_unique {a b : K} (ha : 0 ≤ a) (hb : 0 ≤ b) (h : a * a = b * b) : a = b := by
  nlinarith [mul_self_eq_mul_self_iff.mp h]

theorem IsNorm.unique {n : Nat} {f : Nat → K} {v w : K} (h : IsNorm n f v) (h' : IsNorm n f w) :
    v = w := sq_unique h.1 h'.1 (h.2.trans h'.2.symm)

theorem IsNorm.empty (f : Nat → K) : IsNorm 0 f (0 : K) := ⟨le_rfl, by simp [dot]⟩

/-- Every component is bounded by the norm. -/
theorem IsNorm.abs_le {n : Nat} {f : Nat → K} {v : K} (h : IsNorm n f v) {i : Nat} (hi : i < n) :
    |f i| ≤ v := by
  have h1 : f i * f i ≤ v * v := by
    rw [h.2]
    exact single_le_sum (f := fun i => f i * f i) (fun i _ => mul_self_nonneg _) (mem_range.mpr hi)
  exact abs_le_of_sq_le_sq' (by rw [sq, sq]; exact h1) h.1 |> _root_.abs_le.mpr

/-- Cauchy-Schwarz. -/
theorem IsNorm.dot_le {n : Nat} {f g : Nat → K} {v w : K} (hf : IsNorm n f v) (hg : IsNorm n g w) :
    dot n f g ≤ v * w := by
  have h : (∑ i ∈ range n, f i * g i) ^ 2 ≤ (∑ i ∈ range n, f i ^ 2) * ∑ i ∈ range n, g i ^ 2 :=
    sum_mul_sq_le_sq_mul_sq _ _ _
  have e1 : ∑ i ∈ range n, f i ^ 2 = v * v := by
    rw [hf.2]; exact sum_congr rfl fun i _ => sq _
  have e2 : ∑ i ∈ range n, g i ^ 2 = w * w := by
    rw [hg.2]; exact sum_congr rfl fun i _ => sq _
  rw [e1, e2] at h
  refine (abs_le_of_sq_le_sq' ?_ (mul_nonneg hf.1 hg.1)).2
  calc (dot n f g) ^ 2 ≤ v * v * (w * w) := h
    _ = (v * w) ^ 2 := by ring

variable [LawfulSqrt K]

theorem nrmF_isNorm (n : Nat) (f : Nat → K) : IsNorm n f (nrmF n f) := by
  unfold nrmF
  rw [dotF_eq]
  exact ⟨LawfulSqrt.sqrt_nonneg _, LawfulSqrt.sqrt_mul_self _ (dot_self_nonneg n f)⟩

theorem lamF_sq {z s : Nat → K} {i : Nat} (h : 0 ≤ s i * z i) : lamF z s i * lamF z s i = s i * z i :=
  LawfulSqrt.sqrt_mul_self _ h

theorem sqrt3_eq {t : K} (h0 : 0 ≤ t) (h : t * t = 3) : (Scalar.sqrt (Scalar.dec 3 0) : K) = t := by
  refine sq_unique (LawfulSqrt.sqrt_nonneg _) h0 ?_
  rw [dec_zero, LawfulSqrt.sqrt_mul_self _ (by norm_num), h]
  norm_num

theorem gapF_eq (pb : Problem K) (z s : Nat → K) : gapF pb z s = dot pb.m s z / (pb.m : K) := by
  unfold gapF
  rw [dotF_eq, LawfulScalar.ofInt_eq]
  simp

theorem exitF_iff {pb : Problem K} (o : Settings K) (x y z s : Nat → K) {t : K}
    (h0 : 0 ≤ t) (h : t * t = 3) :
    exitF pb o x y z s = true ↔ nrmF pb.n (rxF pb x y z) < o.reltol / t ∧
      (pb.p ≠ 0 → nrmF pb.p (ryF pb x) < o.reltol / t) ∧
      nrmF pb.m (rzF pb x s) < o.reltol / t ∧ gapF pb z s < o.abstol := by
  unfold exitF
  simp only [sqrt3_eq h0 h]
  split
  · next hp => simp [hp, LawfulScalar.ltb_iff, and_assoc]
  · next hp =>
    simp only [Bool.and_eq_true, LawfulScalar.ltb_iff, ne_eq, hp, not_false_eq_true, forall_const]
    tauto

end Verif
