import Verif.Props.AnyExact
import Mathlib.LinearAlgebra.Matrix.Block

/-!
# C100: the product of the pivots is the determinant of the KKT matrix
-/

set_option linter.unusedSectionVars false

namespace Verif

open Finset

/-! ## Specification -/

section Spec

variable {K : Type} [Field K]

/-- The KKT matrix with diagonal `dd` in its last block and `e` added to its diagonal, as a matrix. -/
def Problem.kktMatrix (pb : Problem K) (dd e : Nat → K) : Matrix (Fin pb.N) (Fin pb.N) K :=
  fun i j => kktEntry pb.P pb.A pb.G dd i j + if i = j then e i else 0

end Spec

section Det

variable {K : Type} [Field K] [LinearOrder K] [IsStrictOrderedRing K] [Scalar K] [LawfulScalar K]

/-- The permutation of `Fin N`. -/
def PermPair.equiv {N : Nat} {p q : Nat → Nat} (hp : PermPair N p q) : Fin N ≃ Fin N where
  toFun i := ⟨p i, hp.p_lt i i.2⟩
  invFun i := ⟨q i, hp.q_lt i i.2⟩
  left_inv i := Fin.ext (hp.qp i i.2)
  right_inv i := Fin.ext (hp.pq i i.2)

theorem kkt_det {pb : Problem K} (hpb : pb.WF) (hsym : pb.P.Symm) {dd : Nat → K}
    {p q : Nat → Nat} {k : Kkt K} {t : FSt K}
    (hk : KktSym pb.N (kktCsc pb.P pb.A pb.G dd) p q k)
    (hf : KktFac pb.N (kktCsc pb.P pb.A pb.G dd) p q t k) :
    ∃ L e, k.Factored pb.N (kktCsc pb.P pb.A pb.G dd) p L t.D e ∧
      ∏ r ∈ range pb.N, t.D r = (pb.kktMatrix dd e).det := by
  have hp := hk.perm
  have hs : ∀ r c, kktEntry pb.P pb.A pb.G dd r c = kktEntry pb.P pb.A pb.G dd c r :=
    fun r c => kktEntry_symm hsym dd r c
  obtain ⟨raw, hF, u1, u0, hM, _⟩ := kkt_raw hpb hk hf
  refine ⟨_, _, hF, ?_⟩
  let U : Matrix (Fin pb.N) (Fin pb.N) K := fun i j => uFun pb.N t i j
  have hdU : U.det = 1 := by
    rw [Matrix.det_of_isLowerTriangular]
    · exact prod_eq_one fun i _ => u1 i
    · intro i j hij
      exact u0 i j hij
  have heq : (pb.kktMatrix dd (regDiag t raw q)).submatrix hp.equiv hp.equiv
      = U * Matrix.diagonal (fun i : Fin pb.N => t.D i) * U.transpose := by
    have up : ∀ i j : Fin pb.N, i ≤ j → (U * Matrix.diagonal (fun i : Fin pb.N => t.D i) * U.transpose) i j
        = kktEntry pb.P pb.A pb.G dd (p i) (p j) + if i = j then t.D i - raw i else 0 := by
      intro i j hij
      rw [Matrix.mul_apply]
      simp only [Matrix.mul_diagonal, Matrix.transpose_apply]
      have h := hM j j.2 i hij
      rw [← Fin.sum_univ_eq_sum_range (fun c => uFun pb.N t i c * t.D c * uFun pb.N t j c)] at h
      refine h.trans ?_
      congr 1
      by_cases e : i = j
      · subst e; simp
      · rw [if_neg e, if_neg (fun h => e (Fin.ext h))]
    have sy : ∀ i j : Fin pb.N, (U * Matrix.diagonal (fun i : Fin pb.N => t.D i) * U.transpose) i j
        = (U * Matrix.diagonal (fun i : Fin pb.N => t.D i) * U.transpose) j i := by
      intro i j
      rw [Matrix.mul_apply, Matrix.mul_apply]
      simp only [Matrix.mul_diagonal, Matrix.transpose_apply]
      exact sum_congr rfl fun c _ => by ring
    have all : ∀ i j : Fin pb.N, (U * Matrix.diagonal (fun i : Fin pb.N => t.D i) * U.transpose) i j
        = kktEntry pb.P pb.A pb.G dd (p i) (p j) + if i = j then t.D i - raw i else 0 := by
      intro i j
      rcases le_total i j with h | h
      · exact up i j h
      · rw [sy, up j i h, hs]
        congr 1
        by_cases e : i = j
        · subst e; rfl
        · rw [if_neg e, if_neg (Ne.symm e)]
    ext i j
    rw [all]
    simp only [Matrix.submatrix_apply, Problem.kktMatrix, EmbeddingLike.apply_eq_iff_eq]
    show kktEntry pb.P pb.A pb.G dd (p i) (p j) + (if i = j then regDiag t raw q (p i) else 0) = _
    unfold regDiag
    rw [hp.qp i i.2]
  have hd := congrArg Matrix.det heq
  rw [Matrix.det_submatrix_equiv_self, Matrix.det_mul, Matrix.det_mul, Matrix.det_transpose, hdU,
    Matrix.det_diagonal, one_mul, mul_one] at hd
  rw [hd, Fin.prod_univ_eq_prod_range (fun r => t.D r)]

/-- **C100**, setup: the product of the pivots is the determinant of the KKT matrix plus the changes of the pivots;
without changes it is the determinant of the KKT matrix. -/
theorem C100_setup {amd : Amd} {a : SetupArgs K} {pb : Problem K} {q0 : QP K}
    (h : Started amd a pb q0) (hsym : pb.P.Symm) :
    ∃ M p L d e, q0.kkt.Factored pb.N M p L d e ∧
      ∏ r ∈ range pb.N, d r = (pb.kktMatrix (fun _ => -1) e).det ∧
      (q0.kkt.Exact pb.N → ∏ r ∈ range pb.N, d r = (pb.kktMatrix (fun _ => -1) (fun _ => 0)).det) := by
  obtain ⟨p, q, hd⟩ := h.done
  obtain ⟨t, hfac, _⟩ := hd.iter
  obtain ⟨L, e, hF, hdet⟩ := kkt_det h.wf hsym (dd := fun _ => Scalar.dec (-1) 0) hd.kkt hfac
  simp only [dec_neg_one] at hdet
  refine ⟨_, p, L, _, e, hF, hdet, fun hex => ?_⟩
  obtain ⟨M', p', L', d', hf'⟩ := hex
  rw [hdet]
  congr 1
  ext i j
  unfold Problem.kktMatrix
  congr 1
  split
  · exact hF.unique hf' hd.kkt.perm i.2
  · rfl

/-- **C100**, iterations. -/
theorem C100_step {amd : Amd} {a : SetupArgs K} {pb : Problem K} {q0 qp qp' : QP K}
    (h : Started amd a pb q0) (hsym : pb.P.Symm) (hr : Reach q0 qp)
    (hb : solveBody qp = .ok (qp', false)) {x y z s : Nat → K} (hi : qp.Iter pb x y z s) :
    ∃ M p L d e, qp'.kkt.Factored pb.N M p L d e ∧
      ∏ r ∈ range pb.N, d r = (pb.kktMatrix (fun i => -(s i / z i)) e).det ∧
      (qp'.kkt.Exact pb.N → ∏ r ∈ range pb.N, d r = (pb.kktMatrix (fun i => -(s i / z i)) (fun _ => 0)).det) := by
  obtain ⟨p, q, hs, _⟩ := h.sinv hr
  obtain ⟨t, hst, _⟩ := (hs.bodyOut h.wf hb hi).step rfl
  simp only at hst
  have esl : slackD z s = fun i => -(s i / z i) := by
    funext i; unfold slackD; rw [neg_div]
  obtain ⟨L, e, hF, hdet⟩ := kkt_det h.wf hsym (dd := slackD z s) hst.sym hst.fac
  rw [esl] at hdet
  refine ⟨_, p, L, _, e, hF, hdet, fun hex => ?_⟩
  obtain ⟨M', p', L', d', hf'⟩ := hex
  rw [hdet]
  congr 1
  ext i j
  unfold Problem.kktMatrix
  congr 1
  split
  · exact hF.unique hf' hst.sym.perm i.2
  · rfl

end Det

/-- C100 for the demo with its rows in order, where the factorisation is exact, and for its first iteration. -/
example : ∃ (q0 qp' : QP ℝ) (o : Settings ℝ) (d d' z s : Nat → ℝ), Started failAmd (idArgs ℝ) (demoPb ℝ) q0 ∧
    solveBody { q0 with options := o } = .ok (qp', false) ∧ Buf.Has q0.kkt.D 6 d ∧ Buf.Has qp'.kkt.D 6 d' ∧
    ∏ r ∈ range 6, d r = ((demoPb ℝ).kktMatrix (fun _ => -1) (fun _ => 0)).det ∧
    ∃ e, ∏ r ∈ range 6, d' r = ((demoPb ℝ).kktMatrix (fun i => -(s i / z i)) e).det := by
  obtain ⟨q0, h⟩ := idArgs_started ℝ
  have hex := C96_exact_setup h demoPb_symm one_gt_small demoPb_strong (C96_permut h rfl idArgs_first)
    (demo_indep fun _ _ => by norm_num)
  obtain ⟨o, qp', x, y, z, s, hi, hb⟩ := step_exists h .start
  obtain ⟨_, _, _, d, _, h1, _, h2⟩ := C100_setup h demoPb_symm
  obtain ⟨_, _, _, d', e', h3, h4, _⟩ := C100_step h demoPb_symm (.options o .start) hb hi
  exact ⟨q0, qp', o, d, d', z, s, h, hb, h1.fac.D, h3.fac.D, h2 hex, e', h4⟩

end Verif
