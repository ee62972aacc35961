import Verif.SpecQp
import Verif.Lemmas.Factor
import Verif.Lemmas.Kkt
import Verif.Lemmas.Steps

/-!
# State invariant of the solver and one iteration of the main loop, for any arithmetic

Every step of `QP_SOLVE` is shown to succeed on a state satisfying `QInv`, to preserve it, and to
compute the pure functions below.
-/

set_option linter.unusedSectionVars false

namespace Verif

/-! ## The assembled matrix -/

section

variable {K : Type} [Zero K]

theorem kktCsc_wf {P A G : Csc K} (hP : P.WF) (hA : A.WF) (hG : G.WF) (hPm : P.m = P.n)
    (hAn : A.n = P.n) (hGn : G.n = P.n) (d : Nat → K) : (kktCsc P A G d).WF := by
  refine Csc.ofCols_wf _ _ _ ?_
  intro c hc e he
  unfold kktCol at he
  split at he
  · next h =>
    simp only [List.mem_append, shiftCol, List.mem_map] at he
    rcases he with (he | ⟨f, hf, rfl⟩) | ⟨f, hf, rfl⟩
    · have := hP.col_lt (by omega) he; omega
    · have := hA.col_lt (by omega) hf; simp only; omega
    · have := hG.col_lt (by omega) hf; simp only; omega
  · split at he
    · next h1 h2 =>
      have := tcol_lt _ he; omega
    · next h1 h2 =>
      unfold slackCol at he
      rw [List.mem_append] at he
      rcases he with he | he
      · have := tcol_lt _ he; omega
      · split at he
        · simp at he
        · simp only [List.mem_singleton] at he
          subst he
          simp only
          omega

theorem kktCol_fst (P A G : Csc K) (d d' : Nat → K) (i : Nat) :
    (kktCol P A G d i).map Prod.fst = (kktCol P A G d' i).map Prod.fst := by
  unfold kktCol slackCol
  split
  · rfl
  · split
    · rfl
    · simp only [List.map_append]
      split <;> rfl

theorem kktCsc_shape (P A G : Csc K) (d d' : Nat → K) :
    (kktCsc P A G d').m = (kktCsc P A G d).m ∧ (kktCsc P A G d').n = (kktCsc P A G d).n ∧
      (kktCsc P A G d').jc = (kktCsc P A G d).jc ∧ (kktCsc P A G d').ir = (kktCsc P A G d).ir := by
  refine ⟨rfl, rfl, funext (fun i => offs_kktCol P A G d' d i), ?_⟩
  have key : ∀ n, (flatTo (kktCol P A G d') n).map Prod.fst
      = (flatTo (kktCol P A G d) n).map Prod.fst := by
    intro n
    induction n with
    | zero => rfl
    | succ n ih => rw [flatTo_succ, flatTo_succ, List.map_append, List.map_append, ih,
        kktCol_fst P A G d' d]
  funext k
  show ((flatTo (kktCol P A G d') _)[k]?.map Prod.fst).getD 0
    = ((flatTo (kktCol P A G d) _)[k]?.map Prod.fst).getD 0
  rw [← List.getElem?_map, ← List.getElem?_map, key]

end

section

variable {K : Type} [Zero K] [One K] [Add K] [Sub K] [Mul K] [Div K] [Neg K] [Scalar K]

theorem stmmF_empty (n : Nat) (z y : Nat → K) : stmmF (Csc.empty n) z y = y := by
  unfold stmmF
  refine foldI_induct (lo := 0) (hi := (Csc.empty n : Csc K).n) (Nat.zero_le _) (fun _ f => f = y)
    rfl ?_
  rintro j f _ _ rfl
  exact foldI_self _ _ _

/-- Like `stmmF_empty`, for any matrix without rows. -/
theorem stmmF_norows {A : Csc K} (hA : A.WF) (h0 : A.m = 0) (z y : Nat → K) : stmmF A z y = y := by
  have hz : A.nnz = 0 := by
    by_contra h
    have := hA.ir_lt 0 (by unfold Csc.nnz at h; omega)
    omega
  unfold stmmF
  refine foldI_induct (lo := 0) (hi := A.n) (Nat.zero_le _) (fun _ f => f = y) rfl ?_
  rintro j f _ hj rfl
  have h1 := hA.le_nnz (c := j + 1) (by omega)
  exact foldI_ge (by omega) _ _

/-! ## Pure values of one iteration -/

/-- Residuals as computed. -/
def rxF (pb : Problem K) (x y z : Nat → K) (i : Nat) : K :=
  stmmF pb.A y (stmmF pb.G z (smmF pb.P x (fun _ => 0))) i + pb.c i * Scalar.dec (-1) 0
@[inherit_doc rxF] def ryF (pb : Problem K) (x : Nat → K) (i : Nat) : K :=
  smmF pb.A x (fun _ => 0) i + pb.b i * Scalar.dec 1 0
@[inherit_doc rxF] def rzF (pb : Problem K) (x s : Nat → K) (i : Nat) : K :=
  smmF pb.G x (fun _ => 0) i + (pb.h i - s i)

/-- Euclidean norm as computed. -/
def nrmF (n : Nat) (f : Nat → K) : K := Scalar.sqrt (dotF n f f)

/-- Average complementarity as computed. -/
def gapF (pb : Problem K) (z s : Nat → K) : K := dotF pb.m s z / Scalar.ofInt pb.m

/-- Statistics after the evaluation of an iterate. -/
def evalStats (pb : Problem K) (x y z s : Nat → K) (st : Stats K) : Stats K :=
  { st with
    n_rx := some (nrmF pb.n (rxF pb x y z))
    n_ry := if pb.p = 0 then st.n_ry else some (nrmF pb.p (ryF pb x))
    n_rz := some (nrmF pb.m (rzF pb x s))
    n_mu := some (gapF pb z s)
    fval := some (objF pb.P pb.c x) }

/-- The termination test as computed. -/
def exitF (pb : Problem K) (o : Settings K) (x y z s : Nat → K) : Bool :=
  let tol : K := o.reltol / Scalar.sqrt (Scalar.dec 3 0)
  if pb.p = 0 then
    Scalar.ltb (nrmF pb.n (rxF pb x y z)) tol && Scalar.ltb (nrmF pb.m (rzF pb x s)) tol &&
      Scalar.ltb (gapF pb z s) o.abstol
  else
    Scalar.ltb (nrmF pb.n (rxF pb x y z)) tol && Scalar.ltb (nrmF pb.m (rzF pb x s)) tol &&
      Scalar.ltb (nrmF pb.p (ryF pb x)) tol && Scalar.ltb (gapF pb z s) o.abstol

/-- `lambda` -/
def lamF (z s : Nat → K) (i : Nat) : K := Scalar.sqrt (s i * z i)
/-- `mu` -/
def muF (pb : Problem K) (z s : Nat → K) : K :=
  dotF pb.m (lamF z s) (lamF z s) / Scalar.ofInt pb.m
/-- diagonal of the slack block -/
def slackD (z s : Nat → K) (i : Nat) : K := -(s i) / z i

/-- A search direction. -/
structure Dir (K : Type) where
  dx : Nat → K
  dy : Nat → K
  dz : Nat → K
  ds : Nat → K

/-- Search direction for the complementarity target `tgt`, given the factor `t`. -/
def dirF (pb : Problem K) (p q : Nat → Nat) (t : FSt K) (x y z s tgt : Nat → K) : Dir K :=
  let sol := solveF pb.N t p q
    (rhsF pb.n pb.p (rxF pb x y z) (ryF pb x) (rzF pb x s) tgt z)
  { dx := sol
    dy := fun i => sol (pb.n + i)
    dz := fun i => sol (pb.n + pb.p + i)
    ds := fun i => (tgt i - s i * sol (pb.n + pb.p + i)) / z i }

/-- Target of the predictor. -/
def tgtN (z s : Nat → K) (i : Nat) : K := -(lamF z s i) * lamF z s i

/-- Predictor direction. -/
def predF (pb : Problem K) (p q : Nat → Nat) (t : FSt K) (x y z s : Nat → K) : Dir K :=
  dirF pb p q t x y z s (tgtN z s)

/-- `rho` after the predictor step. -/
def rhoP (pb : Problem K) (p q : Nat → Nat) (t : FSt K) (x y z s : Nat → K) : K :=
  let d := predF pb p q t x y z s
  rhoF pb.m s d.ds z d.dz (stepF pb.m s d.ds) (stepF pb.m z d.dz)

/-- The new centering parameter. -/
def sigF (pb : Problem K) (p q : Nat → Nat) (t : FSt K) (x y z s : Nat → K) (sigma : K) : K :=
  if Scalar.ltb pb.sigma_d sigma then
    let r1 := fmin (Scalar.dec 1 0) (rhoP pb p q t x y z s)
    fmax pb.sigma_d (r1 * r1 * r1)
  else pb.sigma_d

/-- Complementarity target of the step taken. -/
def tgtF (pb : Problem K) (p q : Nat → Nat) (t : FSt K) (x y z s : Nat → K) (sigma : K)
    (i : Nat) : K :=
  if Scalar.ltb pb.sigma_d sigma then
    -(lamF z s i * lamF z s i) - (predF pb p q t x y z s).ds i * (predF pb p q t x y z s).dz i
      + sigF pb p q t x y z s sigma * muF pb z s
  else -(lamF z s i * lamF z s i) + sigF pb p q t x y z s sigma * muF pb z s

/-- Direction of the step taken. -/
def stepDir (pb : Problem K) (p q : Nat → Nat) (t : FSt K) (x y z s : Nat → K) (sigma : K) :
    Dir K :=
  dirF pb p q t x y z s (tgtF pb p q t x y z s sigma)

/-- The accepted step lengths. -/
def alphaP (pb : Problem K) (s : Nat → K) (d : Dir K) : K := acceptF (stepF pb.m s d.ds)
@[inherit_doc alphaP] def alphaD (pb : Problem K) (z : Nat → K) (d : Dir K) : K :=
  acceptF (stepF pb.m z d.dz)

/-! ## The invariant -/

/-- The problem `pk` is well formed and has the dimensions of `pb`. -/
structure Problem.Fits (pk pb : Problem K) : Prop where
  wf : pk.WF
  n : pk.n = pb.n
  m : pk.m = pb.m
  p : pk.p = pb.p

theorem Problem.WF.fits {pb : Problem K} (h : pb.WF) : pb.Fits pb := ⟨h, rfl, rfl, rfl⟩

/-- The structure holds the problem `pb`, every work array has its size, and the KKT part is ready
for factorisation of a matrix with the KKT pattern of `pk`, permuted by `p`. After setup `pk` and
`pb` are the same problem; they differ when the caller overwrites data later (C68). -/
structure QInv (pk pb : Problem K) (p q : Nat → Nat) (qp : QP K) : Prop where
  fits : pk.Fits pb
  n : qp.n = pb.n
  m : qp.m = pb.m
  pp : qp.p = pb.p
  sd : qp.sigma_d = pb.sigma_d
  P : qp.P.Is pb.P
  G : qp.G.Is pb.G
  A : pb.p ≠ 0 → ∃ S, qp.A = some S ∧ S.Is pb.A
  b : pb.p ≠ 0 → ∃ B, qp.b = some B ∧ Buf.Has B pb.p pb.b
  c : Buf.Has qp.c pb.n pb.c
  h : Buf.Has qp.h pb.m pb.h
  lrx : pb.n ≤ qp.rx.length
  lry : pb.p ≤ qp.ry.length
  lrz : pb.m ≤ qp.rz.length
  ldelta : pb.N ≤ qp.delta.length
  ldx : pb.n ≤ qp.delta_x.length
  ldy : pb.p ≤ qp.delta_y.length
  ldz : pb.m ≤ qp.delta_z.length
  lds : pb.m ≤ qp.delta_s.length
  lt : pb.m ≤ qp.ds.length
  ll : pb.m ≤ qp.lambda.length
  ltemp : pb.n ≤ qp.temp.length
  kkt : ∃ d, KktSym pb.N (kktCsc pk.P pk.A pk.G d) p q qp.kkt
  kb : pb.N ≤ qp.kkt.b.length

/-- The residual arrays hold the residuals of the iterate. -/
structure QP.Res (pb : Problem K) (qp : QP K) (x y z s : Nat → K) : Prop where
  rx : Buf.Has qp.rx pb.n (rxF pb x y z)
  ry : Buf.Has qp.ry pb.p (ryF pb x)
  rz : Buf.Has qp.rz pb.m (rzF pb x s)

theorem copyOut_spec {dst src : Buf K} {lo hi : Nat} {f : Nat → K} (hle : lo ≤ hi)
    (hs : Buf.Has src hi f) (hd : hi - lo ≤ dst.length) :
    Spec (copyOut dst src lo hi) (fun d => d.length = dst.length ∧
      Buf.Has d (hi - lo) (fun i => f (lo + i))) := by
  unfold copyOut
  refine (forI_write (off := lo) hle le_rfl hd f ?_).mono ?_
  · intro j b' h1 h2 h3 h4 h5
    rw [hs.rd h2, ok_bind, sub_cast h1]
  · rintro d ⟨h1, h2, _⟩
    refine ⟨h1, fun i hi' => ?_⟩
    rw [h2 i (by omega) hi', Nat.add_comm]

theorem evaluate_spec {pk pb : Problem K} (hpb : pb.WF) {p q : Nat → Nat} {qp : QP K}
    (h : QInv pk pb p q qp) {x y z s : Nat → K} (hi : qp.Iter pb x y z s) :
    Spec (evaluate qp) (fun qp' => QInv pk pb p q qp' ∧ qp'.Iter pb x y z s ∧ qp'.Res pb x y z s ∧
      qp'.stats = evalStats pb x y z s qp.stats ∧
      ∃ rx ry rz temp, qp' = { qp with
        rx := rx, ry := ry, rz := rz, temp := temp, stats := qp'.stats }) := by
  have hPm : pb.P.m = pb.P.n := hpb.Pm
  have hAn : pb.A.n = pb.P.n := hpb.An
  have hGn : pb.G.n = pb.P.n := hpb.Gn
  have hx : Buf.Has qp.x pb.P.n x := hi.x
  unfold evaluate computeresiduals
  simp only [bind_assoc]
  refine Spec.bind (SparseMatrixMultiply_spec h.P hpb.P (fy := x) (start := 1) hx
    (by rw [hPm]; exact h.lrx) (by simp)) ?_
  rintro rx1 ⟨l1, h1, _⟩
  simp only [one_ne_zero, if_false, hPm] at h1
  refine Spec.bind (SparseMatrixTransMultiply_spec h.G hpb.G (start := 0) hi.z
    (by rw [hGn, l1]; exact h.lrx) (fun _ => by rw [hGn]; exact h1)) ?_
  rintro rx2 ⟨l2, h2, _⟩
  simp only [if_true, hGn] at h2
  have hrx3 : Spec (if qp.p ≠ 0 then do
        let A ← deref qp.A
        SparseMatrixTransMultiply A qp.y rx2 0
      else pure rx2) (fun r => r.length = rx2.length ∧ Buf.Has r pb.n
        (stmmF pb.A y (stmmF pb.G z (smmF pb.P x (fun _ => 0))))) := by
    rw [h.pp]
    by_cases hp : pb.p = 0
    · simp only [hp, Nat.cast_zero, ne_eq, not_true_eq_false, if_false]
      refine Spec.pure ⟨rfl, ?_⟩
      rw [stmmF_norows hpb.A hp]
      exact h2
    · obtain ⟨S, hS, hSi⟩ := h.A hp
      rw [if_pos (by exact_mod_cast hp), hS]
      simp only [deref, ok_bind]
      refine (SparseMatrixTransMultiply_spec hSi hpb.A (start := 0) hi.y
        (by rw [hAn, l2, l1]; exact h.lrx) (fun _ => by rw [hAn]; exact h2)).mono ?_
      rintro r ⟨g1, g2, _⟩
      simp only [if_true, hAn] at g2
      exact ⟨g1, g2⟩
  refine Spec.bind hrx3 ?_
  rintro rx3 ⟨l3, h3⟩
  have hupd := updatevariables_spec (alpha := Scalar.dec (-1) 0) h3 h.c
  rw [← h.n] at hupd
  refine Spec.bind hupd ?_
  rintro rx4 ⟨l4, h4, _⟩
  have h4' : Buf.Has rx4 pb.n (rxF pb x y z) := h4
  have hnrm := norm_eq h4'
  rw [← h.n] at hnrm
  rw [hnrm, ok_bind]
  have hry : ∀ (st : Stats K), Spec (if qp.p ≠ 0 then do
        let A ← deref qp.A
        let ry ← SparseMatrixMultiply A qp.x qp.ry 1
        let b ← deref qp.b
        let ry ← updatevariables ry b (Scalar.dec 1 0) qp.p
        let n_ry ← norm ry qp.p
        pure { qp with rx := rx4, ry := ry, stats := { st with n_ry := some n_ry } }
      else pure { qp with rx := rx4, stats := st }) (fun r => ∃ ry, ry.length = qp.ry.length ∧
        Buf.Has ry pb.p (ryF pb x) ∧ r = { qp with rx := rx4, ry := ry, stats := { st with
          n_ry := if pb.p = 0 then st.n_ry else some (nrmF pb.p (ryF pb x)) } }) := by
    intro st
    rw [h.pp]
    by_cases hp : pb.p = 0
    · simp only [hp, Nat.cast_zero, ne_eq, not_true_eq_false, if_false, if_true]
      exact Spec.pure ⟨qp.ry, rfl, Buf.Has.zero _ _, rfl⟩
    · obtain ⟨S, hS, hSi⟩ := h.A hp
      obtain ⟨B, hB, hBi⟩ := h.b hp
      rw [if_pos (by exact_mod_cast hp), hS, hB]
      simp only [deref, ok_bind]
      refine Spec.bind (SparseMatrixMultiply_spec hSi hpb.A (fy := x) (start := 1)
        (by rw [hAn]; exact hx) h.lry (by simp)) ?_
      rintro ry1 ⟨g1, g2, _⟩
      simp only [one_ne_zero, if_false] at g2
      refine Spec.bind (updatevariables_spec (n := pb.p) g2 hBi) ?_
      rintro ry2 ⟨g3, g4, _⟩
      have g4' : Buf.Has ry2 pb.p (ryF pb x) := g4
      rw [norm_eq g4', ok_bind]
      refine Spec.pure ⟨ry2, by rw [g3, g1], g4', ?_⟩
      rw [if_neg hp]
      rfl
  refine Spec.bind (hry _) ?_
  rintro _ ⟨ry, l5, h5, rfl⟩
  simp only
  refine Spec.bind (SparseMatrixMultiply_spec h.G hpb.G (fy := x) (start := 1)
    (by rw [hGn]; exact hx) h.lrz (by simp)) ?_
  rintro rz1 ⟨l6, h6, _⟩
  simp only [one_ne_zero, if_false] at h6
  have hfill := forI_fill (n := pb.m) (b := rz1) (by rw [l6]; exact h.lrz) (f := fun i rz => do
      let r ← rd rz i
      let h ← rd qp.h i
      let s ← rd qp.s i
      wr rz i (r + (h - s))) (rzF pb x s) (by
    intro j b' hj _ _ hb
    have e : rd b' (j : Int) = .ok (smmF pb.G x (fun _ => 0) j) :=
      rd_ok (by rw [hb j le_rfl, h6 j hj])
    rw [e, ok_bind, h.h.rd hj, ok_bind, hi.s.rd hj, ok_bind]
    rfl)
  rw [← h.m] at hfill
  refine Spec.bind hfill ?_
  rintro rz ⟨l7, h7, _⟩
  have hn7 := norm_eq h7
  have hip := innerproduct_eq hi.s hi.z
  rw [← h.m] at hn7 hip
  rw [hn7, ok_bind, hip, ok_bind]
  simp only [pure_eq_ok, ok_bind]
  refine Spec.bind (obj_value_spec h.P hpb.P hPm h.c hx h.ltemp) ?_
  rintro ⟨f, temp⟩ ⟨h8, l8⟩
  simp only at h8 l8
  subst h8
  refine Spec.ok ⟨?_, ⟨hi.x, hi.y, hi.z, hi.s⟩, ⟨h4', h5, h7⟩, ?_, rx4, ry, rz, temp, rfl⟩
  swap
  · simp only [evalStats, gapF, nrmF, h.m]
  exact { h with
    lrx := h4'.le_length
    lry := h5.le_length
    lrz := h7.le_length
    ltemp := by show _ ≤ temp.length; rw [l8]; exact h.ltemp }

theorem exitTest_eq {pk pb : Problem K} {p q : Nat → Nat} {qp : QP K} (h : QInv pk pb p q qp)
    {x y z s : Nat → K} {st : Stats K} (hst : qp.stats = evalStats pb x y z s st) :
    exitTest qp = .ok (exitF pb qp.options x y z s) := by
  unfold exitTest exitF
  rw [hst, h.pp]
  by_cases hp : pb.p = 0
  · simp [hp, evalStats, rdCell]
  · simp [hp, evalStats, rdCell]

/-- `kktsolve_1` on a structure ready for the matrix with slack diagonal `-s/z`. -/
theorem kktsolve_1_spec {pk pb : Problem K} {p q : Nat → Nat} {qp : QP K} (h : QInv pk pb p q qp)
    {z s rhs tgt : Nat → K} (hk : KktSym pb.N (kktCsc pk.P pk.A pk.G (slackD z s)) p q qp.kkt)
    (hb : Buf.Has qp.kkt.b pb.N rhs) (hz : Buf.Has qp.z pb.m z) (hs : Buf.Has qp.s pb.m s)
    (ht : Buf.Has qp.ds pb.m tgt) :
    Spec (kktsolve_1 qp) (fun r => r.1 = 1 ∧ ∃ t delta dz ds k,
      r.2 = { qp with delta := delta, delta_z := dz, delta_s := ds, kkt := k } ∧
      KktFac pb.N (kktCsc pk.P pk.A pk.G (slackD z s)) p q t k ∧
      KktSym pb.N (kktCsc pk.P pk.A pk.G (slackD z s)) p q k ∧ pb.N ≤ delta.length ∧
      pb.N ≤ k.b.length ∧ k.P = qp.kkt.P ∧
      Buf.Has dz pb.m (fun i => solveF pb.N t p q rhs (pb.n + pb.p + i)) ∧
      Buf.Has ds pb.m (fun i => (tgt i - s i * solveF pb.N t p q rhs (pb.n + pb.p + i)) / z i)) := by
  unfold kktsolve_1
  refine Spec.bind (callNumeric_spec hk) ?_
  rintro ⟨r, k1⟩ ⟨h1, h2, ⟨t, h3⟩, h4, h5⟩
  simp only at h1 h2 h3 h4 h5
  subst h1
  simp only [h2.n, if_true]
  have hkb : k1.b = qp.kkt.b := by rw [h5]; rfl
  have hkP : k1.P = qp.kkt.P := by rw [h5]; rfl
  refine Spec.bind (ldlSolve_spec h2 h3 (by rw [hkb]; exact hb) h.ldelta) ?_
  rintro ⟨delta, b⟩ ⟨g1, g2, g3, _⟩
  simp only at g1 g2 g3
  have hco := copyOut_spec (lo := pb.n + pb.p) (hi := pb.n + pb.p + pb.m) (dst := qp.delta_z)
    (by omega) (show Buf.Has b (pb.n + pb.p + pb.m) _ from g3)
    (by rw [Nat.add_sub_cancel_left]; exact h.ldz)
  rw [Nat.add_sub_cancel_left] at hco
  push_cast at hco
  rw [← h.n, ← h.m, ← h.pp] at hco
  refine Spec.bind hco ?_
  rintro dz ⟨l1, hdz⟩
  have hfs : Spec (formDeltaS { qp with
      delta := delta, kkt := { k1 with b := b } } dz) (fun ds => Buf.Has ds pb.m (fun i =>
        (tgt i - s i * solveF pb.N t p q rhs (pb.n + pb.p + i)) / z i)) := by
    unfold formDeltaS
    rw [h.m]
    refine (forI_fill h.lds _ ?_).mono (fun _ h => h.2.1)
    intro j b' hj _ _ _
    rw [ht.rd hj, ok_bind, hs.rd hj, ok_bind, hdz.rd hj, ok_bind, hz.rd hj, ok_bind]
  refine Spec.bind hfs ?_
  intro ds hds
  refine Spec.pure ⟨rfl, t, delta, dz, ds, _, rfl, h3, ?_, ?_, ?_, hkP, hdz, hds⟩
  · exact ⟨h2.wf, h2.an, h2.am, h2.perm, h2.mat, h2.P, h2.Pinv, h2.lp, h2.parent, h2.sizes⟩
  · rw [g1]; exact h.ldelta
  · show _ ≤ b.length
    rw [g2, hkb]; exact h.kb

/-- `kktsolve_2`: with `resolve_kkt = 0` the stored factor `t` is used again, otherwise a new one
is computed. -/
theorem kktsolve_2_spec {pk pb : Problem K} {p q : Nat → Nat} {qp : QP K} (h : QInv pk pb p q qp)
    {z s rhs tgt : Nat → K} {re : Int} {t0 : FSt K} (hre : qp.stats.resolve_kkt = some re)
    (hk : KktSym pb.N (kktCsc pk.P pk.A pk.G (slackD z s)) p q qp.kkt)
    (hf : re = 0 → KktFac pb.N (kktCsc pk.P pk.A pk.G (slackD z s)) p q t0 qp.kkt)
    (hb : Buf.Has qp.kkt.b pb.N rhs) (hz : Buf.Has qp.z pb.m z) (hs : Buf.Has qp.s pb.m s)
    (ht : Buf.Has qp.ds pb.m tgt) :
    Spec (kktsolve_2 qp) (fun r => ∃ t delta dx dy dz ds k,
      r = { qp with
        delta := delta, delta_x := dx, delta_y := dy, delta_z := dz, delta_s := ds, kkt := k } ∧
      (re = 0 → t = t0) ∧
      KktFac pb.N (kktCsc pk.P pk.A pk.G (slackD z s)) p q t k ∧
      KktSym pb.N (kktCsc pk.P pk.A pk.G (slackD z s)) p q k ∧ pb.N ≤ delta.length ∧
      pb.N ≤ k.b.length ∧ k.P = qp.kkt.P ∧
      Buf.Has dx pb.n (fun i => solveF pb.N t p q rhs i) ∧
      Buf.Has dy pb.p (fun i => solveF pb.N t p q rhs (pb.n + i)) ∧
      Buf.Has dz pb.m (fun i => solveF pb.N t p q rhs (pb.n + pb.p + i)) ∧
      Buf.Has ds pb.m (fun i => (tgt i - s i * solveF pb.N t p q rhs (pb.n + pb.p + i)) / z i)) := by
  unfold kktsolve_2
  rw [hre]
  simp only [rdCell, ok_bind]
  have hnum : Spec (if re ≠ 0 then do
        let r ← callNumeric qp.kkt
        pure r.2
      else pure qp.kkt) (fun k => ∃ t, (re = 0 → t = t0) ∧
        KktFac pb.N (kktCsc pk.P pk.A pk.G (slackD z s)) p q t k ∧
        KktSym pb.N (kktCsc pk.P pk.A pk.G (slackD z s)) p q k ∧ k.b = qp.kkt.b ∧
        k.P = qp.kkt.P) := by
    by_cases h0 : re = 0
    · rw [if_neg (by simpa using h0)]
      exact Spec.pure ⟨t0, fun _ => rfl, hf h0, hk, rfl, rfl⟩
    · rw [if_pos h0]
      refine Spec.bind (callNumeric_spec hk) ?_
      rintro ⟨r, k1⟩ ⟨h1, h2, ⟨t, h3⟩, h4, h5⟩
      simp only at h1 h2 h3 h4 h5
      exact Spec.pure ⟨t, fun h => absurd h h0, h3, h2, by rw [h5]; rfl, by rw [h5]; rfl⟩
  refine Spec.bind hnum ?_
  rintro k1 ⟨t, ht0, h3, h2, hkb, hkP⟩
  refine Spec.bind (ldlSolve_spec h2 h3 (by rw [hkb]; exact hb) h.ldelta) ?_
  rintro ⟨delta, b⟩ ⟨g1, g2, g3, _⟩
  simp only at g1 g2 g3
  have g3' : Buf.Has b (pb.n + pb.p + pb.m) (solveF pb.N t p q rhs) := g3
  have hcx := copyOut_spec (lo := 0) (hi := pb.n) (dst := qp.delta_x) (by omega)
    (g3'.mono (by omega)) (by simpa using h.ldx)
  simp only [Nat.sub_zero, Nat.zero_add, Nat.cast_zero] at hcx
  rw [← h.n] at hcx
  refine Spec.bind hcx ?_
  rintro dx ⟨_, hdx⟩
  have hcy := copyOut_spec (lo := pb.n) (hi := pb.n + pb.p) (dst := qp.delta_y) (by omega)
    (g3'.mono (by omega)) (by rw [Nat.add_sub_cancel_left]; exact h.ldy)
  rw [Nat.add_sub_cancel_left] at hcy
  push_cast at hcy
  rw [← h.n, ← h.pp] at hcy
  refine Spec.bind hcy ?_
  rintro dy ⟨_, hdy⟩
  have hco := copyOut_spec (lo := pb.n + pb.p) (hi := pb.n + pb.p + pb.m) (dst := qp.delta_z)
    (by omega) g3' (by rw [Nat.add_sub_cancel_left]; exact h.ldz)
  rw [Nat.add_sub_cancel_left] at hco
  push_cast at hco
  rw [← h.n, ← h.m, ← h.pp] at hco
  refine Spec.bind hco ?_
  rintro dz ⟨l1, hdz⟩
  have hfs : Spec (formDeltaS { qp with
      delta := delta, kkt := { k1 with b := b } } dz) (fun ds => Buf.Has ds pb.m (fun i =>
        (tgt i - s i * solveF pb.N t p q rhs (pb.n + pb.p + i)) / z i)) := by
    unfold formDeltaS
    rw [h.m]
    refine (forI_fill h.lds _ ?_).mono (fun _ h => h.2.1)
    intro j b' hj _ _ _
    rw [ht.rd hj, ok_bind, hs.rd hj, ok_bind, hdz.rd hj, ok_bind, hz.rd hj, ok_bind]
  refine Spec.bind hfs ?_
  intro ds hds
  refine Spec.pure ⟨t, delta, dx, dy, dz, ds, _, rfl, ht0, h3, ?_, ?_, ?_, hkP, hdx, hdy, hdz, hds⟩
  · exact ⟨h2.wf, h2.an, h2.am, h2.perm, h2.mat, h2.P, h2.Pinv, h2.lp, h2.parent, h2.sizes⟩
  · rw [g1]; exact h.ldelta
  · show _ ≤ b.length
    rw [g2, hkb]; exact h.kb

theorem Problem.Shaped.kktCsc_wf {pb : Problem K} (hpb : pb.Shaped) (d : Nat → K) :
    (kktCsc pb.P pb.A pb.G d).WF :=
  Verif.kktCsc_wf hpb.P hpb.A hpb.G hpb.Pm hpb.An hpb.Gn d

/-- `updatekktmatrix` on the solver's structure. -/
theorem updateKkt_spec {pk pb : Problem K} {p q : Nat → Nat} {qp : QP K}
    (h : QInv pk pb p q qp) {z s : Nat → K} (hz : Buf.Has qp.z pb.m z) (hs : Buf.Has qp.s pb.m s) :
    Spec (updatekktmatrix qp.kkt.kktmatrix qp.s qp.z qp.m qp.n qp.p) (fun pr =>
      ∀ k : Kkt K, k.kktmatrix = { qp.kkt.kktmatrix with pr := pr } → k.P = qp.kkt.P →
        k.Pinv = qp.kkt.Pinv → k.Lp = qp.kkt.Lp → k.Parent = qp.kkt.Parent →
        k.num = qp.kkt.num → KktSym pb.N (kktCsc pk.P pk.A pk.G (slackD z s)) p q k) := by
  obtain ⟨d, hd⟩ := h.kkt
  have hm' : pk.G.m = pb.m := h.fits.m
  have hn' : pk.P.n = pb.n := h.fits.n
  have hp' : pk.A.m = pb.p := h.fits.p
  have hu := updatekktmatrix_spec h.fits.wf.G h.fits.wf.rows hd.mat (by rw [hm']; exact hs)
    (by rw [hm']; exact hz)
  have e1 : ((pk.G.m : Nat) : Int) = qp.m := by rw [hm']; exact h.m.symm
  have e2 : ((pk.P.n : Nat) : Int) = qp.n := by rw [hn']; exact h.n.symm
  have e3 : ((pk.A.m : Nat) : Int) = qp.p := by rw [hp']; exact h.pp.symm
  rw [e1, e2, e3] at hu
  refine hu.mono ?_
  rintro pr ⟨h1, h2⟩ k hm hP hPi hLp hPar hnum
  refine hd.withMat (kktCsc_shape pk.P pk.A pk.G d (slackD z s)) ?_ hP hPi hLp hPar hnum
  obtain ⟨s1, s2, s3, s4⟩ := kktCsc_shape pk.P pk.A pk.G d (slackD z s)
  have hz' : (kktCsc pk.P pk.A pk.G (slackD z s)).nnz = (kktCsc pk.P pk.A pk.G d).nnz :=
    kktCsc_nnz _ _ _ _ _
  rw [hm]
  refine ⟨hd.mat.m, hd.mat.n, ?_, ?_, ?_, ?_⟩
  · rw [hz']; exact hd.mat.nnz
  · rw [s3]; exact hd.mat.jc
  · rw [hz', s4]; exact hd.mat.ir
  · rw [hz']; exact h2

/-- The branch condition of the iteration: predictor-corrector or pure centering. -/
abbrev twoStep (pb : Problem K) (sigma : K) : Bool := Scalar.ltb pb.sigma_d sigma

theorem directions_spec {pk pb : Problem K} {p q : Nat → Nat} {qp : QP K}
    (h : QInv pk pb p q qp) {x y z s : Nat → K} (hi : qp.Iter pb x y z s) (hr : qp.Res pb x y z s)
    (hl : Buf.Has qp.lambda pb.m (lamF z s)) :
    Spec (directions qp (muF pb z s)) (fun r => r.2 = false ∧ QInv pk pb p q r.1 ∧
      r.1.Iter pb x y z s ∧ r.1.Res pb x y z s ∧ qp.Frame r.1 ∧ ∃ t0 : FSt K,
        r.1.stats.resolve_kkt = some (if twoStep pb qp.options.sigma then 0 else 1) ∧
        KktSym pb.N (kktCsc pk.P pk.A pk.G (slackD z s)) p q r.1.kkt ∧
        (twoStep pb qp.options.sigma →
          KktFac pb.N (kktCsc pk.P pk.A pk.G (slackD z s)) p q t0 r.1.kkt) ∧
        Buf.Has r.1.ds pb.m (tgtF pb p q t0 x y z s qp.options.sigma) ∧
        Buf.Has r.1.kkt.b pb.N (rhsF pb.n pb.p (rxF pb x y z) (ryF pb x) (rzF pb x s)
          (tgtF pb p q t0 x y z s qp.options.sigma) z) ∧
        r.1.options = { qp.options with sigma := sigF pb p q t0 x y z s qp.options.sigma } ∧
        ∃ ap ad re, r.1.stats = { qp.stats with alpha_p := ap, alpha_d := ad, resolve_kkt := re }) := by
  have eN : pb.n + pb.m + pb.p = pb.N := by unfold Problem.N; omega
  unfold directions
  by_cases hts : twoStep pb qp.options.sigma = true
  · have hts' : Scalar.ltb pb.sigma_d qp.options.sigma = true := hts
    rw [if_pos (show Scalar.ltb qp.sigma_d qp.options.sigma = true by rw [h.sd]; exact hts')]
    have hds := form_ds_newton_spec (s := qp.delta_s) (z := qp.delta_z)
      (sigma := qp.options.sigma) (mu := muF pb z s) h.lt hl
    rw [← h.m] at hds
    refine Spec.bind hds ?_
    rintro ds1 ⟨l1, h1⟩
    refine Spec.bind (updateKkt_spec h hi.z hi.s) ?_
    intro pr hpr
    have hub := updatekktmatrix_b_spec (b := qp.kkt.b) (n := pb.n) (m := pb.m) (p := pb.p)
      (by rw [eN]; exact h.kb) hr.rx hr.ry hr.rz h1 hi.z
    rw [← h.m, ← h.n, ← h.pp, eN] at hub
    refine Spec.bind hub ?_
    rintro b1 ⟨l2, h2⟩
    have hk1 : KktSym pb.N (kktCsc pk.P pk.A pk.G (slackD z s)) p q
        { qp.kkt with b := b1, kktmatrix := { qp.kkt.kktmatrix with pr := pr } } :=
      hpr _ rfl rfl rfl rfl rfl rfl
    have hinv1 : QInv pk pb p q { qp with
        ds := ds1
        kkt := { qp.kkt with b := b1, kktmatrix := { qp.kkt.kktmatrix with pr := pr } } } :=
      { h with lt := h1.le_length, kkt := ⟨_, hk1⟩, kb := h2.le_length }
    refine Spec.bind (kktsolve_1_spec hinv1 hk1 h2 hi.z hi.s h1) ?_
    rintro ⟨f, qp1⟩ ⟨hf, t, delta, dz, dss, k, hq, h3, h4, l3, l4, hP, h5, h6⟩
    simp only at hf hq
    subst hf hq
    simp only [one_ne_zero, if_false]
    have hst := findsteplength_eq hi.s h6 hi.z h5
    rw [← h.m] at hst
    rw [hst, ok_bind]
    have hrho := formrho_eq (ap := stepF pb.m s (predF pb p q t x y z s).ds)
      (ad := stepF pb.m z (predF pb p q t x y z s).dz) hi.s h6 hi.z h5
    rw [← h.m] at hrho
    erw [hrho]
    rw [ok_bind]
    have hd2 := form_ds_corrector_spec (sigma := sigF pb p q t x y z s qp.options.sigma)
      (mu := muF pb z s) (d := ds1) h1.le_length hl h6 h5
    rw [← h.m] at hd2
    have esig : fmax qp.sigma_d
        (fmin (Scalar.dec 1 0) (rhoF pb.m s (predF pb p q t x y z s).ds z (predF pb p q t x y z s).dz
          (stepF pb.m s (predF pb p q t x y z s).ds) (stepF pb.m z (predF pb p q t x y z s).dz)) *
        fmin (Scalar.dec 1 0) (rhoF pb.m s (predF pb p q t x y z s).ds z (predF pb p q t x y z s).dz
          (stepF pb.m s (predF pb p q t x y z s).ds) (stepF pb.m z (predF pb p q t x y z s).dz)) *
        fmin (Scalar.dec 1 0) (rhoF pb.m s (predF pb p q t x y z s).ds z (predF pb p q t x y z s).dz
          (stepF pb.m s (predF pb p q t x y z s).ds) (stepF pb.m z (predF pb p q t x y z s).dz)))
        = sigF pb p q t x y z s qp.options.sigma := by
      unfold sigF
      rw [if_pos hts', h.sd]
      rfl
    erw [esig]
    refine Spec.bind hd2 ?_
    rintro ds2 ⟨l5, h7⟩
    have h7' : Buf.Has ds2 pb.m (tgtF pb p q t x y z s qp.options.sigma) := by
      refine h7.congr (fun i _ => ?_)
      unfold tgtF
      rw [if_pos hts']
      rfl
    have hub2 := updatekktmatrix_b_spec (b := k.b) (n := pb.n) (m := pb.m) (p := pb.p)
      (by rw [eN]; exact l4) hr.rx hr.ry hr.rz h7' hi.z
    rw [← h.m, ← h.n, ← h.pp, eN] at hub2
    refine Spec.bind hub2 ?_
    rintro b2 ⟨l6, h8⟩
    have h4' : KktSym pb.N (kktCsc pk.P pk.A pk.G (slackD z s)) p q { k with b := b2 } :=
      ⟨h4.wf, h4.an, h4.am, h4.perm, h4.mat, h4.P, h4.Pinv, h4.lp, h4.parent, h4.sizes⟩
    refine Spec.pure ⟨rfl, ?_, ⟨hi.x, hi.y, hi.z, hi.s⟩, ⟨hr.rx, hr.ry, hr.rz⟩, ?_, t, ?_, h4', fun _ => h3, h7', h8, rfl,
      _, _, _, rfl⟩
    · exact { h with
        ldelta := l3
        ldz := h5.le_length
        lds := h6.le_length
        lt := h7'.le_length
        kkt := ⟨_, h4'⟩
        kb := h8.le_length }
    · exact { QP.Frame.refl qp with perm := hP }
    · rw [if_pos hts]
  · have hts' : ¬ Scalar.ltb pb.sigma_d qp.options.sigma = true := hts
    rw [if_neg (show ¬ Scalar.ltb qp.sigma_d qp.options.sigma = true by rw [h.sd]; exact hts')]
    have hds := form_ds_centering_spec (s := qp.delta_s) (z := qp.delta_z)
      (sigma := qp.sigma_d) (mu := muF pb z s) h.lt hl
    rw [← h.m] at hds
    refine Spec.bind hds ?_
    rintro ds1 ⟨l1, h1⟩
    refine Spec.bind (updateKkt_spec h hi.z hi.s) ?_
    intro pr hpr
    have t0 : FSt K := ⟨fun _ => [], fun _ => 0, fun _ => 0⟩
    have h1' : Buf.Has ds1 pb.m (tgtF pb p q t0 x y z s qp.options.sigma) := by
      refine h1.congr (fun i _ => ?_)
      unfold tgtF sigF
      rw [if_neg hts', if_neg hts', h.sd]
    have hub := updatekktmatrix_b_spec (b := qp.kkt.b) (n := pb.n) (m := pb.m) (p := pb.p)
      (by rw [eN]; exact h.kb) hr.rx hr.ry hr.rz h1' hi.z
    rw [← h.m, ← h.n, ← h.pp, eN] at hub
    refine Spec.bind hub ?_
    rintro b1 ⟨l2, h2⟩
    have hk1 : KktSym pb.N (kktCsc pk.P pk.A pk.G (slackD z s)) p q
        { qp.kkt with b := b1, kktmatrix := { qp.kkt.kktmatrix with pr := pr } } :=
      hpr _ rfl rfl rfl rfl rfl rfl
    refine Spec.pure ⟨rfl, ?_, ⟨hi.x, hi.y, hi.z, hi.s⟩, ⟨hr.rx, hr.ry, hr.rz⟩, ?_, t0, ?_, hk1, fun h => absurd h hts,
      h1', h2, ?_, _, _, _, rfl⟩
    · exact { h with lt := h1.le_length, kkt := ⟨_, hk1⟩, kb := h2.le_length }
    · exact { QP.Frame.refl qp with }
    · rw [if_neg hts]
    · unfold sigF
      rw [if_neg hts', ← h.sd]

/-- One step from the iterate `x, y, z, s` with centering parameter `sigma`, as pure values. -/
structure StepTo (pk pb : Problem K) (p q : Nat → Nat) (t : FSt K) (x y z s : Nat → K) (sigma : K)
    (qp : QP K) : Prop where
  iter : qp.Iter pb
    (fun i => x i + (stepDir pb p q t x y z s sigma).dx i
      * alphaP pb s (stepDir pb p q t x y z s sigma))
    (fun i => y i + (stepDir pb p q t x y z s sigma).dy i
      * alphaD pb z (stepDir pb p q t x y z s sigma))
    (fun i => z i + (stepDir pb p q t x y z s sigma).dz i
      * alphaD pb z (stepDir pb p q t x y z s sigma))
    (fun i => s i + (stepDir pb p q t x y z s sigma).ds i
      * alphaP pb s (stepDir pb p q t x y z s sigma))
  dx : Buf.Has qp.delta_x pb.n (stepDir pb p q t x y z s sigma).dx
  dy : Buf.Has qp.delta_y pb.p (stepDir pb p q t x y z s sigma).dy
  dz : Buf.Has qp.delta_z pb.m (stepDir pb p q t x y z s sigma).dz
  ds : Buf.Has qp.delta_s pb.m (stepDir pb p q t x y z s sigma).ds
  tgt : Buf.Has qp.ds pb.m (tgtF pb p q t x y z s sigma)
  fac : KktFac pb.N (kktCsc pk.P pk.A pk.G (slackD z s)) p q t qp.kkt
  sym : KktSym pb.N (kktCsc pk.P pk.A pk.G (slackD z s)) p q qp.kkt
  res : qp.Res pb x y z s

theorem advance_spec {pk pb : Problem K} {p q : Nat → Nat} {qp : QP K}
    (h : QInv pk pb p q qp) {x y z s : Nat → K} (hi : qp.Iter pb x y z s) (hr : qp.Res pb x y z s) :
    Spec (advance qp) (fun r => r.2 = false ∧ QInv pk pb p q r.1 ∧ qp.Frame r.1 ∧ ∃ t : FSt K,
      StepTo pk pb p q t x y z s qp.options.sigma r.1 ∧
      r.1.options = { qp.options with sigma := sigF pb p q t x y z s qp.options.sigma } ∧
      ∃ re, r.1.stats = { qp.stats with
        alpha_p := alphaP pb s (stepDir pb p q t x y z s qp.options.sigma)
        alpha_d := alphaD pb z (stepDir pb p q t x y z s qp.options.sigma)
        resolve_kkt := re
        IterationCount := qp.stats.IterationCount + 1 }) := by
  unfold advance
  have hfl := formlambda_spec h.ll hi.s hi.z
  rw [← h.m] at hfl
  refine Spec.bind hfl ?_
  rintro lam ⟨l1, h1⟩
  have h1' : Buf.Has lam pb.m (lamF z s) := h1
  have hip := innerproduct_eq h1' h1'
  rw [← h.m] at hip
  rw [hip, ok_bind]
  have emu : dotF pb.m (lamF z s) (lamF z s) / Scalar.ofInt qp.m = muF pb z s := by
    rw [h.m]; rfl
  rw [emu]
  have hinv1 : QInv pk pb p q { qp with lambda := lam, mu := some (muF pb z s) } :=
    { h with ll := h1'.le_length }
  refine Spec.bind (directions_spec hinv1 (x := x) (y := y) ⟨hi.x, hi.y, hi.z, hi.s⟩
    ⟨hr.rx, hr.ry, hr.rz⟩ h1') ?_
  rintro ⟨qp1, brk⟩ ⟨hb, hinv, hit, hres, hfr, t0, hre, hsym, hfac, hds, hkb, hopt, ap, ad, re, hst⟩
  simp only at hb hinv hit hres hfr hre hsym hfac hds hkb hopt hst
  subst hb
  simp only [Bool.false_eq_true, if_false]
  unfold takeStep
  simp only [bind_assoc]
  refine Spec.bind (kktsolve_2_spec (t0 := t0) hinv hre hsym (by
    intro h0
    refine hfac ?_
    by_contra hc
    rw [if_neg hc] at h0
    exact absurd h0 one_ne_zero) hkb hit.z hit.s hds) ?_
  rintro _ ⟨t, delta, dx, dy, dz, dss, k, rfl, htt, g1, g2, l3, l4, hP, hdx, hdy, hdz, hdss⟩
  have etgt : tgtF pb p q t0 x y z s qp.options.sigma = tgtF pb p q t x y z s qp.options.sigma ∧
      sigF pb p q t0 x y z s qp.options.sigma = sigF pb p q t x y z s qp.options.sigma := by
    by_cases hts : twoStep pb qp.options.sigma = true
    · have : t = t0 := htt (by rw [if_pos hts])
      subst this
      exact ⟨rfl, rfl⟩
    · have hts' : ¬ Scalar.ltb pb.sigma_d qp.options.sigma = true := hts
      have e2 : sigF pb p q t0 x y z s qp.options.sigma
          = sigF pb p q t x y z s qp.options.sigma := by
        unfold sigF; rw [if_neg hts', if_neg hts']
      refine ⟨?_, e2⟩
      funext i
      unfold tgtF
      rw [if_neg hts', if_neg hts', e2]
  rw [etgt.1] at hds hdx hdy hdz hdss
  rw [etgt.2] at hopt
  set D := stepDir pb p q t x y z s qp.options.sigma with hD
  have hdx' : Buf.Has dx pb.n D.dx := hdx
  have hdy' : Buf.Has dy pb.p D.dy := hdy
  have hdz' : Buf.Has dz pb.m D.dz := hdz
  have hds' : Buf.Has dss pb.m D.ds := hdss
  have hstep := findsteplength_eq hit.s hds' hit.z hdz'
  rw [← hinv.m] at hstep
  simp only
  rw [hstep, ok_bind]
  simp only
  have eP : fmin (Scalar.dec 99 2 * stepF pb.m s D.ds) (Scalar.dec 1 0) = alphaP pb s D := rfl
  have eD : fmin (Scalar.dec 99 2 * stepF pb.m z D.dz) (Scalar.dec 1 0) = alphaD pb z D := rfl
  rw [eP, eD]
  have ux := updatevariables_spec (alpha := alphaP pb s D) hit.x hdx'
  have uy := updatevariables_spec (alpha := alphaD pb z D) hit.y hdy'
  have us := updatevariables_spec (alpha := alphaP pb s D) hit.s hds'
  have uz := updatevariables_spec (alpha := alphaD pb z D) hit.z hdz'
  rw [← hinv.n] at ux
  rw [← hinv.pp] at uy
  rw [← hinv.m] at us uz
  refine Spec.bind ux ?_
  rintro x' ⟨_, hx', _⟩
  refine Spec.bind uy ?_
  rintro y' ⟨_, hy', _⟩
  refine Spec.bind us ?_
  rintro s' ⟨_, hs', _⟩
  refine Spec.bind uz ?_
  rintro z' ⟨_, hz', _⟩
  simp only [pure_eq_ok, ok_bind]
  refine Spec.ok ⟨rfl, ?_, ?_, t, ⟨⟨hx', hy', hz', hs'⟩, hdx', hdy', hdz', hds', hds, g1, g2,
    ⟨hres.rx, hres.ry, hres.rz⟩⟩, hopt,
    re, ?_⟩
  · exact { hinv with
      ldelta := l3
      ldx := hdx'.le_length
      ldy := hdy'.le_length
      ldz := hdz'.le_length
      lds := hds'.le_length
      kkt := ⟨_, g2⟩
      kb := l4 }
  · have hfr' : qp.Frame qp1 := { hfr with }
    exact hfr'.trans { QP.Frame.refl qp1 with perm := hP }
  · simp only [hst]
    rfl

end

end Verif
