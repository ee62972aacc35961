import Verif.Lemmas.State
import Verif.Props.Transpose

/-!
# Setup establishes the invariant, for any arithmetic
-/

set_option linter.unusedSectionVars false

namespace Verif

variable {K : Type} [Zero K] [One K] [Add K] [Sub K] [Mul K] [Div K] [Neg K] [Scalar K]

/-! ## Pure values of the starting point -/

/-- Right-hand side of the first linear system. -/
def rhs0 (pb : Problem K) (i : Nat) : K :=
  if i < pb.n then -(pb.c i) else if i < pb.n + pb.p then pb.b (i - pb.n)
  else pb.h (i - pb.n - pb.p)

/-- `h - G x` as computed, from which slacks and multipliers are made. -/
def interF (pb : Problem K) (x : Nat → K) (i : Nat) : K :=
  smmF pb.G x (fun _ => 0) i + pb.h i * Scalar.dec 1 0

/-- Starting slacks. -/
def initS (pb : Problem K) (x : Nat → K) (i : Nat) : K :=
  let mm := minmaxF pb.m (interF pb x)
  if Scalar.ltb (-mm.1) 0 then interF pb x i else interF pb x i + (Scalar.dec 1 0 + -mm.1)

/-- Starting multipliers. -/
def initZ (pb : Problem K) (x : Nat → K) (i : Nat) : K :=
  let mm := minmaxF pb.m (interF pb x)
  if Scalar.ltb mm.2 0 then -(interF pb x i) else -(interF pb x i) + (Scalar.dec 1 0 + mm.2)

/-- Solution of the first linear system with factor `t`. -/
def sol0 (pb : Problem K) (p q : Nat → Nat) (t : FSt K) : Nat → K := solveF pb.N t p q (rhs0 pb)

/-- The structure as it is when `kkt_initialize` is called. -/
structure QPre (pb : Problem K) (p q : Nat → Nat) (d : Nat → K) (qp : QP K) : Prop where
  n : qp.n = pb.n
  m : qp.m = pb.m
  pp : qp.p = pb.p
  sd : qp.sigma_d = pb.sigma_d
  P : qp.P.Is pb.P
  G : qp.G.Is pb.G
  A : pb.p ≠ 0 → ∃ S, qp.A = some S ∧ S.Is pb.A
  b : pb.p ≠ 0 → ∃ B, qp.b = some B ∧ Buf.Has B pb.p pb.b
  c : Buf.Has qp.c pb.n pb.c
  h : Buf.Has qp.h pb.m pb.h
  lx : pb.n ≤ qp.x.length
  ly : pb.p ≤ qp.y.length
  lz : pb.m ≤ qp.z.length
  ls : pb.m ≤ qp.s.length
  lrx : pb.n ≤ qp.rx.length
  lry : pb.p ≤ qp.ry.length
  lrz : pb.m ≤ qp.rz.length
  ldelta : pb.N ≤ qp.delta.length
  ldx : pb.n ≤ qp.delta_x.length
  ldy : pb.p ≤ qp.delta_y.length
  ldz : pb.m ≤ qp.delta_z.length
  lds : pb.m ≤ qp.delta_s.length
  lt : pb.m ≤ qp.ds.length
  ll : pb.m ≤ qp.lambda.length
  ltemp : pb.n ≤ qp.temp.length
  perm : PermPair pb.N p q
  mat : qp.kkt.kktmatrix.Is (kktCsc pb.P pb.A pb.G d)
  kP : Buf.Has qp.kkt.P pb.N (fun i => (p i : Int))
  kPinv : pb.N ≤ qp.kkt.Pinv.length
  kb : pb.N ≤ qp.kkt.b.length

/-- `kkt_initialize` after the minimum and maximum have been found. -/
def kktInitRest (qp : QP K) (k1 : Kkt K) (delta x y z_inter : Buf K) (mm : K × K) :
    M (Int × QP K) := do
  let s ← (if Scalar.ltb (-mm.1) 0 then
      forI 0 qp.m qp.s fun i s => do
        let v ← rd z_inter i
        wr s i v
    else
      forI 0 qp.m qp.s fun i s => do
        let v ← rd z_inter i
        wr s i (v + (Scalar.dec 1 0 + -mm.1)))
  let z ← (if Scalar.ltb mm.2 0 then
      forI 0 qp.m qp.z fun i z => do
        let v ← rd z_inter i
        wr z i (-v)
    else
      forI 0 qp.m qp.z fun i z => do
        let v ← rd z_inter i
        wr z i (-v + (Scalar.dec 1 0 + mm.2)))
  pure (1, { qp with kkt := k1, delta := delta, x := x, y := y, s := s, z := z })

/-- `kkt_initialize` up to the search for minimum and maximum. -/
theorem kktInit_prefix {pb : Problem K} (hpb : pb.Shaped) {p q : Nat → Nat} {d : Nat → K}
    {qp : QP K} (h : QPre pb p q d qp) :
    ∃ (k1 : Kkt K) (delta x y z2 : Buf K) (t : FSt K),
      kkt_initialize qp = (do
        let mm ← findminmax z2 qp.m
        kktInitRest qp k1 delta x y z2 mm) ∧
      KktSym pb.N (kktCsc pb.P pb.A pb.G d) p q k1 ∧ k1.kktmatrix = qp.kkt.kktmatrix ∧
      k1.P = qp.kkt.P ∧ delta.length = qp.delta.length ∧
      KktFac pb.N (kktCsc pb.P pb.A pb.G d) p q t k1 ∧ Buf.Has k1.b pb.N (sol0 pb p q t) ∧
      Buf.Has x pb.n (sol0 pb p q t) ∧ Buf.Has y pb.p (fun i => sol0 pb p q t (pb.n + i)) ∧
      z2.length = pb.m ∧ Buf.Has z2 pb.m (interF pb (sol0 pb p q t)) := by
  have hGn : pb.G.n = pb.P.n := hpb.Gn
  unfold kkt_initialize
  simp only
  -- the right-hand side
  have hrhs : Spec (do
      let b ← forI 0 qp.n qp.kkt.b fun i b => do
        let v ← rd qp.c i
        wr b i (-v)
      let b ← forI qp.n (qp.n + qp.p) b fun i b => do
        let ub ← deref qp.b
        let v ← rd ub (i - qp.n)
        wr b i v
      forI (qp.n + qp.p) (qp.n + qp.p + qp.m) b fun i b => do
        let v ← rd qp.h (i - qp.n - qp.p)
        wr b i v) (fun b => b.length = qp.kkt.b.length ∧ Buf.Has b pb.N (rhs0 pb)) := by
    rw [h.n, h.pp, h.m]
    have hkb : pb.n + pb.p + pb.m ≤ qp.kkt.b.length := h.kb
    refine Spec.bind (forI_fill (n := pb.n) (by omega) (fun i => -(pb.c i)) (by
      intro j b' hj _ _ _
      rw [h.c.rd hj]; rfl)) ?_
    rintro b1 ⟨l1, h1, _⟩
    have e1 : ((pb.n : Int) + (pb.p : Int)) = ((pb.n + pb.p : Nat) : Int) := by push_cast; rfl
    have e2 : (((pb.n + pb.p : Nat) : Int) + (pb.m : Int)) = ((pb.n + pb.p + pb.m : Nat) : Int) := by
      push_cast; rfl
    rw [e1, e2]
    refine Spec.bind (forI_write (lo := pb.n) (hi := pb.n + pb.p) (off := 0) (by omega) (by omega)
      (by omega) (fun i => pb.b (i - pb.n)) (by
        intro j b' hj1 hj2 _ _ _
        obtain ⟨B, hB, hBi⟩ := h.b (by omega)
        rw [hB]
        simp only [deref, ok_bind]
        rw [sub_cast hj1, hBi.rd (by omega), ok_bind]
        rfl)) ?_
    rintro b2 ⟨l2, h2, h2'⟩
    refine (forI_write (lo := pb.n + pb.p) (hi := pb.n + pb.p + pb.m) (off := 0) (by omega)
      (by omega) (by omega) (fun i => pb.h (i - pb.n - pb.p)) (by
        intro j b' hj1 hj2 _ _ _
        have e3 : ((j : Int) - (pb.n : Int) - (pb.p : Int)) = ((j - pb.n - pb.p : Nat) : Int) := by
          omega
        rw [e3, h.h.rd (by omega), ok_bind]
        rfl)).mono ?_
    rintro b3 ⟨l3, h3, h3'⟩
    refine ⟨by omega, fun i hi => ?_⟩
    have hi' : i < pb.n + pb.p + pb.m := hi
    unfold rhs0
    by_cases hi1 : i < pb.n
    · rw [if_pos hi1, h3' i (by omega), h2' i (by omega), h1 i hi1]
    · rw [if_neg hi1]
      by_cases hi2 : i < pb.n + pb.p
      · rw [if_pos hi2, h3' i (by omega), h2 i (by omega) (by omega)]
        simp
      · rw [if_neg hi2, h3 i (by omega) (by omega)]
        simp
  rw [show ∀ {β : Type} (f : Buf K → M β), (do
      let b ← forI 0 qp.n qp.kkt.b fun i b => do
        let v ← rd qp.c i
        wr b i (-v)
      let b ← forI qp.n (qp.n + qp.p) b fun i b => do
        let ub ← deref qp.b
        let v ← rd ub (i - qp.n)
        wr b i v
      let b ← forI (qp.n + qp.p) (qp.n + qp.p + qp.m) b fun i b => do
        let v ← rd qp.h (i - qp.n - qp.p)
        wr b i v
      f b) = ((do
      let b ← forI 0 qp.n qp.kkt.b fun i b => do
        let v ← rd qp.c i
        wr b i (-v)
      let b ← forI qp.n (qp.n + qp.p) b fun i b => do
        let ub ← deref qp.b
        let v ← rd ub (i - qp.n)
        wr b i v
      forI (qp.n + qp.p) (qp.n + qp.p + qp.m) b fun i b => do
        let v ← rd qp.h (i - qp.n - qp.p)
        wr b i v) >>= f) from by intro β f; simp only [bind_assoc]]
  obtain ⟨b0, eb0, lb0, hb0⟩ := hrhs
  rw [eb0, ok_bind]
  obtain ⟨⟨f, k1, delta⟩, e1, g1, g2, ⟨t, g3, g4⟩, g5, g6, g7, g8, g9⟩ := ldlinitialsolve_spec
    (p := p) (q := q) (hpb.kktCsc_wf d) rfl rfl h.perm
    (k := { qp.kkt with b := b0 }) h.mat h.kP h.kPinv hb0 h.ldelta
  simp only at g1 g2 g3 g4 g5 g6 g7 g8 g9
  subst g1
  rw [e1, ok_bind]
  simp only [ne_eq, one_ne_zero, not_false_eq_true, if_true]
  have g4' : Buf.Has k1.b (pb.n + pb.p + pb.m) (sol0 pb p q t) := g4
  -- primal and dual vectors
  have hcx := copyOut_spec (lo := 0) (hi := pb.n) (dst := qp.x) (by omega)
    (g4'.mono (by omega)) (by simpa using h.lx)
  simp only [Nat.sub_zero, Nat.zero_add, Nat.cast_zero] at hcx
  rw [← h.n] at hcx
  obtain ⟨x, ex, _, hx⟩ := hcx
  rw [ex, ok_bind]
  have hx' : Buf.Has x pb.P.n (sol0 pb p q t) := hx
  have hcy := copyOut_spec (lo := pb.n) (hi := pb.n + pb.p) (dst := qp.y) (by omega)
    (g4'.mono (by omega)) (by rw [Nat.add_sub_cancel_left]; exact h.ly)
  rw [Nat.add_sub_cancel_left] at hcy
  push_cast at hcy
  rw [← h.n, ← h.pp] at hcy
  obtain ⟨y, ey, _, hy⟩ := hcy
  rw [ey, ok_bind]
  obtain ⟨z1, ez1, lz1, hz1, _⟩ := SparseMatrixMultiply_spec h.G hpb.G (fy := sol0 pb p q t)
    (start := 1) (by rw [hGn]; exact hx') (y := malloc qp.m)
    (by rw [h.m, length_malloc]; exact le_rfl) (by simp)
  simp only [one_ne_zero, if_false] at hz1
  rw [ez1, ok_bind]
  have hup := updatevariables_spec (alpha := Scalar.dec 1 0) (n := pb.m) hz1 h.h
  rw [← h.m] at hup
  obtain ⟨z2, ez2, lz2, hz2, _⟩ := hup
  rw [ez2, ok_bind]
  refine ⟨k1, delta, x, y, z2, t, rfl, g2, g7, g8, g5, g3, g4, hx, hy, ?_, hz2⟩
  rw [lz2, lz1, h.m, length_malloc]
  simp

/-- Without inequality constraints the search for the minimum reads outside its array. -/
theorem kkt_initialize_m0 {pb : Problem K} (hpb : pb.Shaped) (hm : pb.m = 0) {p q : Nat → Nat}
    {d : Nat → K} {qp : QP K} (h : QPre pb p q d qp) : kkt_initialize qp = .error .oob := by
  obtain ⟨k1, delta, x, y, z2, t, e, _, _, _, _, _, _, _, _, l, _⟩ := kktInit_prefix hpb h
  rw [e]
  have hz : z2 = [] := List.length_eq_zero_iff.mp (by rw [l, hm])
  subst hz
  rfl

theorem kkt_initialize_spec {pb : Problem K} (hpb : pb.WF) {p q : Nat → Nat} {d : Nat → K}
    {qp : QP K} (h : QPre pb p q d qp) :
    Spec (kkt_initialize qp) (fun r => r.1 = 1 ∧ QInv pb pb p q r.2 ∧ qp.Frame r.2 ∧
      KktSym pb.N (kktCsc pb.P pb.A pb.G d) p q r.2.kkt ∧
      r.2.kkt.kktmatrix = qp.kkt.kktmatrix ∧
      r.2.stats = qp.stats ∧ r.2.options = qp.options ∧ ∃ t : FSt K,
        KktFac pb.N (kktCsc pb.P pb.A pb.G d) p q t r.2.kkt ∧
        Buf.Has r.2.kkt.b pb.N (sol0 pb p q t) ∧
        r.2.Iter pb (sol0 pb p q t) (fun i => sol0 pb p q t (pb.n + i)) (initZ pb (sol0 pb p q t))
          (initS pb (sol0 pb p q t))) := by
  obtain ⟨k1, delta, x, y, z2, t, e, g2, g7, g8, g5, g3, g4, hx, hy, _, hz2'⟩ :=
    kktInit_prefix hpb.toShaped h
  rw [e]
  have hmm := findminmax_eq hpb.m_pos hz2'
  have e1 : ((pb.G.m : Nat) : Int) = qp.m := h.m.symm
  rw [e1] at hmm
  rw [hmm, ok_bind]
  unfold kktInitRest
  -- slacks
  have hs : Spec (if Scalar.ltb (-(minmaxF pb.G.m (interF pb (sol0 pb p q t))).1) 0 then
        forI 0 qp.m qp.s fun i s => do
          let v ← rd z2 i
          wr s i v
      else
        forI 0 qp.m qp.s fun i s => do
          let v ← rd z2 i
          wr s i (v + (Scalar.dec 1 0 + -(minmaxF pb.G.m (interF pb (sol0 pb p q t))).1)))
      (fun s => Buf.Has s pb.m (initS pb (sol0 pb p q t))) := by
    rw [h.m]
    refine Spec.ite (fun hc => ?_) (fun hc => ?_)
    · refine (forI_fill h.ls (initS pb (sol0 pb p q t)) ?_).mono (fun _ h => h.2.1)
      intro j b' hj _ _ _
      rw [hz2'.rd hj, ok_bind]
      have hc' : Scalar.ltb (-(minmaxF pb.m (interF pb (sol0 pb p q t))).1) 0 = true := hc
      simp only [initS, hc', if_true]
    · refine (forI_fill h.ls (initS pb (sol0 pb p q t)) ?_).mono (fun _ h => h.2.1)
      intro j b' hj _ _ _
      rw [hz2'.rd hj, ok_bind]
      have hc' : ¬ Scalar.ltb (-(minmaxF pb.m (interF pb (sol0 pb p q t))).1) 0 = true := hc
      simp only [initS, hc']
      rfl
  refine Spec.bind hs ?_
  intro s hs
  have hz : Spec (if Scalar.ltb (minmaxF pb.G.m (interF pb (sol0 pb p q t))).2 0 then
        forI 0 qp.m qp.z fun i z => do
          let v ← rd z2 i
          wr z i (-v)
      else
        forI 0 qp.m qp.z fun i z => do
          let v ← rd z2 i
          wr z i (-v + (Scalar.dec 1 0 + (minmaxF pb.G.m (interF pb (sol0 pb p q t))).2)))
      (fun s => Buf.Has s pb.m (initZ pb (sol0 pb p q t))) := by
    rw [h.m]
    refine Spec.ite (fun hc => ?_) (fun hc => ?_)
    · refine (forI_fill h.lz (initZ pb (sol0 pb p q t)) ?_).mono (fun _ h => h.2.1)
      intro j b' hj _ _ _
      rw [hz2'.rd hj, ok_bind]
      have hc' : Scalar.ltb (minmaxF pb.m (interF pb (sol0 pb p q t))).2 0 = true := hc
      simp only [initZ, hc', if_true]
    · refine (forI_fill h.lz (initZ pb (sol0 pb p q t)) ?_).mono (fun _ h => h.2.1)
      intro j b' hj _ _ _
      rw [hz2'.rd hj, ok_bind]
      have hc' : ¬ Scalar.ltb (minmaxF pb.m (interF pb (sol0 pb p q t))).2 0 = true := hc
      simp only [initZ, hc']
      rfl
  refine Spec.bind hz ?_
  intro z hz
  refine Spec.pure ⟨rfl, ?_, ?_, g2, g7, rfl, rfl, t, g3, g4, hx, hy, hz, hs⟩
  · exact ⟨hpb.fits, h.n, h.m, h.pp, h.sd, h.P, h.G, h.A, h.b, h.c, h.h, h.lrx, h.lry, h.lrz,
      by show _ ≤ delta.length; rw [g5]; exact h.ldelta, h.ldx, h.ldy, h.ldz, h.lds, h.lt, h.ll,
      h.ltemp, ⟨d, g2⟩, g4.le_length⟩
  · exact { QP.Frame.refl qp with perm := g8 }

/-! ## The permutation -/

/-- What `choosePerm` returns. -/
structure PermDone (Permut : Option (Buf Int)) (N : Nat) (p : Nat → Nat) (r : Int × Buf Int) :
    Prop where
  has : Buf.Has r.2 N (fun i => (p i : Int))
  given : ∀ B, Permut = some B → r = (-3, B)

theorem choosePerm_spec {amd : Amd} {pb : Problem K} (hpb : pb.Shaped) {si : SetupIn K} {km : Smat K}
    {d : Nat → K} (hn : si.argn = pb.n) (hm : si.argm = pb.m)
    (hs : PermSource amd si.Permut si.argp pb) (hk : km.Is (kktCsc pb.P pb.A pb.G d)) {dim : Int}
    (hdim : dim = pb.N) :
    Spec (choosePerm amd si km dim) (fun r => ∃ p q, PermPair pb.N p q ∧
      PermDone si.Permut pb.N p r) := by
  unfold choosePerm
  rcases hs with ⟨B, p, q, hB, hp, hh⟩ | ⟨hB, hamd, hor⟩
  · rw [hB]
    exact Spec.pure ⟨p, q, hp, hh, by rintro B' h; cases h; rfl⟩
  · rw [hB]
    have hwf := hpb.kktCsc_wf d
    have hn' : km.n = pb.N := hk.n
    obtain ⟨st, P', h1, h2, h3⟩ := hamd pb.N (kktCsc pb.P pb.A pb.G d).pattern km.jc km.ir
      (malloc dim) ⟨hwf.jc0, hwf.mono, hwf.ir_lt⟩ rfl rfl hk.jc hk.ir (by
        rw [hdim, length_malloc]; simp)
    simp only
    rw [hn', h1, ok_bind]
    by_cases hst : st < 0
    · simp only [hst, if_true]
      have hp : si.argp = pb.p := by
        rcases hor with h | h
        · exact h
        · have := h pb.N (kktCsc pb.P pb.A pb.G d).pattern km.jc km.ir
            (malloc dim) st P' ⟨hwf.jc0, hwf.mono, hwf.ir_lt⟩ rfl rfl hk.jc hk.ir (by
              rw [hdim, length_malloc]; simp) h1
          omega
      rw [hn, hm, hp]
      have e : ((pb.n : Int) + (pb.m : Int) + (pb.p : Int)) = (pb.N : Int) := by
        unfold Problem.N; push_cast; ring
      rw [e]
      refine Spec.bind (forI_fill (b := P') (n := pb.N) (by omega) (fun i => (i : Int)) (by
        intro j b' _ _ _ _; rfl)) ?_
      rintro P2 ⟨_, h4, _⟩
      exact Spec.pure ⟨fun i => i, fun i => i, ⟨fun _ h => h, fun _ h => h, fun _ _ => rfl,
        fun _ _ => rfl⟩, h4, by simp⟩
    · simp only [hst, if_false]
      rcases h3 with h3 | ⟨p, q, hp, hh⟩
      · exact absurd h3 hst
      · exact Spec.pure ⟨p, q, hp, hh, by simp⟩

/-! ## The common tail -/

/-- The input of the common tail describes the problem. -/
structure SetupIn.Give (si : SetupIn K) (pb : Problem K) : Prop where
  n : si.argn = pb.n
  m : si.argm = pb.m
  p : si.p = pb.p
  P : si.P.Is pb.P
  G : si.G.Is pb.G
  c : Buf.Has si.c pb.n pb.c
  h : Buf.Has si.h pb.m pb.h
  sigma_d : si.sigma_d = pb.sigma_d
  eq : (∃ SA B, si.A = some SA ∧ si.b = some B ∧ SA.Is pb.A ∧ Buf.Has B pb.p pb.b) ∨
    (si.A = none ∧ si.b = none ∧ pb.A = Csc.empty pb.n)

/-- The state after setup. -/
structure SetupDone (pb : Problem K) (si : SetupIn K) (p q : Nat → Nat) (qp : QP K) : Prop where
  inv : QInv pb pb p q qp
  P : qp.P = si.P
  G : qp.G = si.G
  A : qp.A = si.A
  c : qp.c = si.c
  h : qp.h = si.h
  b : qp.b = si.b
  Gt : qp.Gt = pb.G.transpose.toSmat
  At : ∀ SA, si.A = some SA → qp.At = some pb.A.transpose.toSmat
  perm : Buf.Has qp.kkt.P pb.N (fun i => (p i : Int))
  given : ∀ B, si.Permut = some B → qp.kkt.P = B ∧ qp.stats.AMD_RESULT = -3
  kkt : KktSym pb.N (kktCsc pb.P pb.A pb.G (fun _ => Scalar.dec (-1) 0)) p q qp.kkt
  kjl : qp.kkt.kktmatrix.jc.length = pb.N + 1
  kil : qp.kkt.kktmatrix.ir.length = kktCap pb.P pb.A pb.G
  kpl : qp.kkt.kktmatrix.pr.length = kktCap pb.P pb.A pb.G
  options : qp.options = defaultSettings
  stats : ∃ r, qp.stats = { (initialStats : Stats K) with AMD_RESULT := r }
  iter : ∃ t : FSt K,
    KktFac pb.N (kktCsc pb.P pb.A pb.G (fun _ => Scalar.dec (-1) 0)) p q t qp.kkt ∧
    Buf.Has qp.kkt.b pb.N (sol0 pb p q t) ∧
    qp.Iter pb (sol0 pb p q t) (fun i => sol0 pb p q t (pb.n + i)) (initZ pb (sol0 pb p q t))
      (initS pb (sol0 pb p q t))

/-- The part of the tail after the KKT matrix has been assembled. -/
def setupRest (amd : Amd) (si : SetupIn K) (At : Option (Smat K)) (Gt : Smat K)
    (ybuf : Buf K) (kktmatrix : Smat K) : M (QP K) := do
  let n := si.argn
  let m := si.argm
  let p := si.p
  let dim := m + n + p
  let pr ← choosePerm amd si kktmatrix dim
  let kkt : Kkt K :=
    { kktmatrix := kktmatrix, b := malloc dim, P := pr.2, Pinv := malloc dim,
      UPattern := malloc dim, Parent := [], Flag := [], Lnz := [], Li := [], Lp := [], Lti := [],
      Ltp := [], Pattern := [], Y := [], Lx := [], D := [] }
  let qp : QP K :=
    { n := n, m := m, p := p, sigma_d := si.sigma_d, mu := none, rho := none
      x := malloc n, y := ybuf, z := malloc m, s := malloc m
      rx := malloc n, ry := ybuf, rz := malloc m
      delta := malloc (n + m + p), delta_x := malloc n, delta_y := ybuf
      delta_z := malloc m, delta_s := malloc m, ds := malloc m, lambda := malloc m
      temp := malloc n
      P := si.P, c := si.c, G := si.G, h := si.h, A := si.A, b := si.b, At := At, Gt := Gt
      kkt := kkt, options := defaultSettings
      stats := { (initialStats : Stats K) with AMD_RESULT := pr.1 } }
  let r ← kkt_initialize qp
  if r.1 = 0 then
    pure { r.2 with stats := { r.2.stats with Flag := QP_KKTFAIL } }
  else pure r.2

theorem SetupIn.Give.eqs {si : SetupIn K} {pb : Problem K} (h : si.Give pb) :
    (pb.p ≠ 0 → ∃ S, si.A = some S ∧ S.Is pb.A) ∧
      (pb.p ≠ 0 → ∃ B, si.b = some B ∧ Buf.Has B pb.p pb.b) := by
  constructor
  · intro h0
    rcases h.eq with ⟨SA, B, h1, h2, h3, h4⟩ | ⟨_, _, h3⟩
    · exact ⟨SA, h1, h3⟩
    · exact absurd (show pb.p = 0 by unfold Problem.p; rw [h3]; rfl) h0
  · intro h0
    rcases h.eq with ⟨SA, B, h1, h2, h3, h4⟩ | ⟨_, _, h3⟩
    · exact ⟨B, h2, h4⟩
    · exact absurd (show pb.p = 0 by unfold Problem.p; rw [h3]; rfl) h0

theorem setupRest_spec {amd : Amd} {pb : Problem K} (hpb : pb.WF) {si : SetupIn K}
    (h : si.Give pb) (hs : PermSource amd si.Permut si.argp pb) {At : Option (Smat K)}
    (hAt : ∀ SA, si.A = some SA → At = some pb.A.transpose.toSmat) {ybuf : Buf K}
    (hy : pb.p ≤ ybuf.length) {km : Smat K}
    (hk : km.Is (kktCsc pb.P pb.A pb.G (fun _ => Scalar.dec (-1) 0)))
    (k1 : km.jc.length = pb.N + 1) (k2 : km.ir.length = kktCap pb.P pb.A pb.G)
    (k3 : km.pr.length = kktCap pb.P pb.A pb.G) :
    Spec (setupRest amd si At pb.G.transpose.toSmat ybuf km)
      (fun qp => ∃ p q, SetupDone pb si p q qp) := by
  unfold setupRest
  have e : si.argm + si.argn + si.p = (pb.N : Int) := by
    rw [h.n, h.m, h.p]; unfold Problem.N; push_cast; ring
  have e' : si.argn + si.argm + si.p = (pb.N : Int) := by
    rw [h.n, h.m, h.p]; unfold Problem.N; push_cast; ring
  simp only [e, e']
  refine Spec.bind (choosePerm_spec hpb.toShaped h.n h.m hs hk rfl) ?_
  rintro ⟨r, P⟩ ⟨p, q, hp, hd⟩
  obtain ⟨hA, hb⟩ := h.eqs
  have ln : (malloc si.argn : Buf K).length = pb.n := by rw [h.n, length_malloc]; simp
  have lm : (malloc si.argm : Buf K).length = pb.m := by rw [h.m, length_malloc]; simp
  have lN : (malloc (pb.N : Int) : Buf K).length = pb.N := by rw [length_malloc]; simp
  have lNi : (malloc (pb.N : Int) : Buf Int).length = pb.N := by rw [length_malloc]; simp
  refine Spec.bind (kkt_initialize_spec hpb (p := p) (q := q)
    (d := fun _ => Scalar.dec (-1) 0)
    ⟨h.n, h.m, h.p, h.sigma_d, h.P, h.G, hA, hb, h.c, h.h, ln.ge, hy, lm.ge, lm.ge, ln.ge, hy, lm.ge,
      lN.ge, ln.ge, hy, lm.ge, lm.ge, lm.ge, lm.ge, ln.ge, hp, hk, hd.has, lNi.ge, lN.ge⟩) ?_
  rintro ⟨f, qp⟩ ⟨h1, h2, h3, h4, h5, h6, h7, t, h8, h9, h10⟩
  simp only at h1 h2 h3 h4 h5 h6 h7 h8 h9 h10
  subst h1
  simp only [one_ne_zero, if_false]
  refine Spec.pure ⟨p, q, h2, h3.P, h3.G, h3.A, h3.c, h3.h, h3.b, h3.Gt, ?_, h4.P, ?_, h4, ?_, ?_, ?_,
    h7, ⟨r, h6⟩, t, h8, h9, h10⟩
  · intro SA hSA
    rw [h3.At]
    exact hAt SA hSA
  · intro B hB
    have := hd.given B hB
    cases this
    exact ⟨h3.perm, h3.amd⟩
  · rw [h5]; exact k1
  · rw [h5]; exact k2
  · rw [h5]; exact k3

theorem setupRest_m0 {amd : Amd} {pb : Problem K} (hpb : pb.Shaped) {si : SetupIn K}
    (h : si.Give pb) (hs : PermSource amd si.Permut si.argp pb) (hm0 : pb.m = 0)
    {At : Option (Smat K)} {ybuf : Buf K} (hy : pb.p ≤ ybuf.length) {km : Smat K}
    (hk : km.Is (kktCsc pb.P pb.A pb.G (fun _ => Scalar.dec (-1) 0))) :
    setupRest amd si At pb.G.transpose.toSmat ybuf km = .error .oob := by
  unfold setupRest
  have e : si.argm + si.argn + si.p = (pb.N : Int) := by
    rw [h.n, h.m, h.p]; unfold Problem.N; push_cast; ring
  have e' : si.argn + si.argm + si.p = (pb.N : Int) := by
    rw [h.n, h.m, h.p]; unfold Problem.N; push_cast; ring
  simp only [e, e']
  obtain ⟨⟨r, P⟩, ep, p, q, hp, hd⟩ := choosePerm_spec hpb h.n h.m hs hk (dim := (pb.N : Int)) rfl
  rw [ep, ok_bind]
  obtain ⟨hA, hb⟩ := h.eqs
  have ln : (malloc si.argn : Buf K).length = pb.n := by rw [h.n, length_malloc]; simp
  have lm : (malloc si.argm : Buf K).length = pb.m := by rw [h.m, length_malloc]; simp
  have lN : (malloc (pb.N : Int) : Buf K).length = pb.N := by rw [length_malloc]; simp
  have lNi : (malloc (pb.N : Int) : Buf Int).length = pb.N := by rw [length_malloc]; simp
  rw [kkt_initialize_m0 hpb hm0 (p := p) (q := q) (d := fun _ => Scalar.dec (-1) 0)
    ⟨h.n, h.m, h.p, h.sigma_d, h.P, h.G, hA, hb, h.c, h.h, ln.ge, hy, lm.ge, lm.ge, ln.ge, hy, lm.ge,
      lN.ge, ln.ge, hy, lm.ge, lm.ge, lm.ge, lm.ge, ln.ge, hp, hk, hd.has, lNi.ge, lN.ge⟩]
  rfl

/-- The tail up to the assembly of the KKT matrix always succeeds. -/
theorem setupTail_rest (amd : Amd) {pb : Problem K} (hpb : pb.Shaped) {si : SetupIn K}
    (h : si.Give pb) : ∃ (At : Option (Smat K)) (ybuf : Buf K) (km : Smat K),
      setupTail amd si = setupRest amd si At pb.G.transpose.toSmat ybuf km ∧
      (∀ SA, si.A = some SA → At = some pb.A.transpose.toSmat) ∧ pb.p ≤ ybuf.length ∧
      km.Is (kktCsc pb.P pb.A pb.G (fun _ => Scalar.dec (-1) 0)) ∧
      km.jc.length = pb.N + 1 ∧ km.ir.length = kktCap pb.P pb.A pb.G ∧
      km.pr.length = kktCap pb.P pb.A pb.G := by
  have hGt := allocTranspose_eq h.G hpb.G
  rcases h.eq with ⟨SA, B, hA, hB, hSA, hBi⟩ | ⟨hA, hB, hAe⟩
  · have hAt := allocTranspose_eq hSA hpb.A
    unfold setupTail
    unfold setupRest
    rw [hA]
    simp only [hAt, hGt, ok_bind, pure_eq_ok]
    have hform := formkktmatrix_full_some (kkt := SparseMatrixSetup (si.P.n + SA.m + si.G.m)
        (si.P.n + SA.m + si.G.m) (si.P.nnz + 2 * si.G.nnz + si.G.m + 2 * SA.nnz)
        (malloc (si.P.n + SA.m + si.G.m + 1))
        (malloc (si.P.nnz + 2 * si.G.nnz + si.G.m + 2 * SA.nnz))
        (malloc (si.P.nnz + 2 * si.G.nnz + si.G.m + 2 * SA.nnz)))
      h.P hSA h.G pb.A.transpose.toSmat_is pb.G.transpose.toSmat_is hpb.P hpb.A hpb.G
      pb.A.transpose_wf pb.G.transpose_wf hpb.An hpb.Gn
      (by simp only [SparseMatrixSetup, length_malloc, h.P.n, hSA.m, h.G.m]; omega)
      (by simp only [SparseMatrixSetup, length_malloc, h.P.nnz, hSA.nnz, h.G.nnz, h.G.m, kktCap]
          omega)
      (by simp only [SparseMatrixSetup, length_malloc, h.P.nnz, hSA.nnz, h.G.nnz, h.G.m, kktCap]
          omega)
    obtain ⟨km, ekm, hkm⟩ := hform
    have hIs := hkm.is hpb.P hpb.A hpb.G hpb.An hpb.Gn hpb.rows
      (by simp only [SparseMatrixSetup, h.P.n, hSA.m, h.G.m]; omega)
      (by simp only [SparseMatrixSetup, h.P.n, hSA.m, h.G.m]; omega)
      (by simp only [SparseMatrixSetup, h.P.nnz, hSA.nnz, h.G.nnz, h.G.m, kktCap]; omega)
    refine ⟨some pb.A.transpose.toSmat, malloc si.p, km, by rw [ekm]; rfl, fun _ _ => rfl,
      by rw [h.p, length_malloc]; simp, hIs, ?_, ?_, ?_⟩
    · rw [hkm.jl]
      simp only [SparseMatrixSetup, length_malloc, h.P.n, hSA.m, h.G.m]
      unfold Problem.N Problem.n Problem.p Problem.m
      omega
    · rw [hkm.il]
      simp only [SparseMatrixSetup, length_malloc, h.P.nnz, hSA.nnz, h.G.nnz, h.G.m, kktCap]
      omega
    · rw [hkm.pl]
      simp only [SparseMatrixSetup, length_malloc, h.P.nnz, hSA.nnz, h.G.nnz, h.G.m, kktCap]
      omega
  · have hp0 : pb.p = 0 := by unfold Problem.p; rw [hAe]; rfl
    unfold setupTail
    unfold setupRest
    rw [hA]
    simp only [hGt, ok_bind, pure_eq_ok]
    have hAe' : pb.A = Csc.empty pb.P.n := hAe
    have hcap : kktCap pb.P pb.A pb.G = pb.P.nnz + 2 * pb.G.nnz + pb.G.m := by
      rw [hAe']; rfl
    have hform := formkktmatrix_full_none (kkt := SparseMatrixSetup (si.P.n + si.G.m)
        (si.P.n + si.G.m) (si.P.nnz + 2 * si.G.nnz + si.G.m) (malloc (si.P.n + si.G.m + 1))
        (malloc (si.P.nnz + 2 * si.G.nnz + si.G.m))
        (malloc (si.P.nnz + 2 * si.G.nnz + si.G.m)))
      h.P h.G pb.G.transpose.toSmat_is hpb.P hpb.G pb.G.transpose_wf hpb.Gn none
      (by simp only [SparseMatrixSetup, length_malloc, h.P.n, h.G.m]; omega)
      (by rw [← hAe', hcap]
          simp only [SparseMatrixSetup, length_malloc, h.P.nnz, h.G.nnz, h.G.m]; omega)
      (by rw [← hAe', hcap]
          simp only [SparseMatrixSetup, length_malloc, h.P.nnz, h.G.nnz, h.G.m]; omega)
    rw [← hAe'] at hform
    have hAm : pb.A.m = 0 := hp0
    obtain ⟨km, ekm, hkm⟩ := hform
    have hIs := hkm.is hpb.P hpb.A hpb.G hpb.An hpb.Gn hpb.rows
      (by simp only [SparseMatrixSetup, h.P.n, h.G.m]; omega)
      (by simp only [SparseMatrixSetup, h.P.n, h.G.m]; omega)
      (by rw [hcap]; simp only [SparseMatrixSetup, h.P.nnz, h.G.nnz, h.G.m]; omega)
    refine ⟨none, [], km, by rw [ekm]; rfl, by simp, by rw [hp0]; simp, hIs,
      ?_, ?_, ?_⟩
    · rw [hkm.jl]
      simp only [SparseMatrixSetup, length_malloc, h.P.n, h.G.m]
      unfold Problem.N Problem.n Problem.p Problem.m
      omega
    · rw [hkm.il, hcap]
      simp only [SparseMatrixSetup, length_malloc, h.P.nnz, h.G.nnz, h.G.m]
      omega
    · rw [hkm.pl, hcap]
      simp only [SparseMatrixSetup, length_malloc, h.P.nnz, h.G.nnz, h.G.m]
      omega

theorem setupTail_spec {amd : Amd} {pb : Problem K} (hpb : pb.WF) {si : SetupIn K}
    (h : si.Give pb) (hs : PermSource amd si.Permut si.argp pb) :
    Spec (setupTail amd si) (fun qp => ∃ p q, SetupDone pb si p q qp) := by
  obtain ⟨At, ybuf, km, e, hAt, hy, hk, k1, k2, k3⟩ := setupTail_rest amd hpb.toShaped h
  rw [e]
  exact setupRest_spec hpb h hs hAt hy hk k1 k2 k3

/-! ## The sparse entry point -/

/-- The input of the tail computed by `QP_SETUP`. -/
def SetupArgs.toIn (a : SetupArgs K) (pb : Problem K) : SetupIn K :=
  { argn := a.n, argm := a.m, argp := a.p, p := pb.p
    P := SparseMatrixSetup pb.n pb.n pb.P.nnz a.Pjc a.Pir a.Ppr
    G := SparseMatrixSetup pb.m pb.n pb.G.nnz a.Gjc a.Gir a.Gpr
    A := if pb.p = 0 then none else
      match a.Apr, a.Ajc, a.Air with
      | some Apr, some Ajc, some Air => some (SparseMatrixSetup pb.p pb.n pb.A.nnz Ajc Air Apr)
      | _, _, _ => none
    c := a.c, h := a.h, b := if pb.p = 0 then none else a.b
    sigma_d := a.sigma_d, Permut := a.Permut }

theorem QP_SETUP_eq {amd : Amd} {a : SetupArgs K} {pb : Problem K} (hpb : pb.Shaped)
    (h : a.Give pb) :
    QP_SETUP amd a = setupTail amd (a.toIn pb) ∧ (a.toIn pb).Give pb := by
  have hPz : rd a.Pjc a.n = .ok (pb.P.nnz : Int) := by rw [h.n]; exact h.Pjc.rd (Nat.lt_succ_self _)
  have hGz : rd a.Gjc a.n = .ok (pb.G.nnz : Int) := by
    have : (a.n : Int) = (pb.G.n : Nat) := by rw [h.n, hpb.Gn]; rfl
    rw [this]; exact h.Gjc.rd (Nat.lt_succ_self _)
  have isP : (SparseMatrixSetup (pb.n : Int) pb.n pb.P.nnz a.Pjc a.Pir a.Ppr).Is pb.P :=
    ⟨by simp only [SparseMatrixSetup]; rw [hpb.Pm]; rfl, rfl, rfl, h.Pjc, h.Pir, h.Ppr⟩
  have isG : (SparseMatrixSetup (pb.m : Int) pb.n pb.G.nnz a.Gjc a.Gir a.Gpr).Is pb.G :=
    ⟨rfl, by simp only [SparseMatrixSetup]; rw [hpb.Gn]; rfl, rfl, h.Gjc, h.Gir, h.Gpr⟩
  rcases h.eq with ⟨Ajc, Air, Apr, B, e1, e2, e3, e4, e5, hp0, i1, i2, i3, i4⟩ | ⟨hnone, hAe⟩
  · have hAz : rd Ajc a.n = .ok (pb.A.nnz : Int) := by
      have : (a.n : Int) = (pb.A.n : Nat) := by rw [h.n, hpb.An]; rfl
      rw [this]; exact i1.rd (Nat.lt_succ_self _)
    have isA : (SparseMatrixSetup (pb.p : Int) pb.n pb.A.nnz Ajc Air Apr).Is pb.A :=
      ⟨rfl, by simp only [SparseMatrixSetup]; rw [hpb.An]; rfl, rfl, i1, i2, i3⟩
    have ep : a.p ≠ 0 := by rw [e5]; omega
    constructor
    · unfold QP_SETUP SetupArgs.toIn
      rw [e1, e2, e3, e4]
      simp only [ep, ne_eq, not_false_eq_true, if_true, hAz, ok_bind, hPz, hGz, pure_eq_ok,
        (show ¬ pb.p = 0 by omega), if_false]
      rw [e5, h.n, h.m]
    · refine ⟨h.n, h.m, rfl, isP, isG, h.c, h.h, h.sigma_d, Or.inl ⟨_, B, ?_, ?_, isA, i4⟩⟩
      · simp only [SetupArgs.toIn, e1, e2, e3, (show ¬ pb.p = 0 by omega), if_false]
      · simp only [SetupArgs.toIn, e4, (show ¬ pb.p = 0 by omega), if_false]
  · have hp0 : pb.p = 0 := by unfold Problem.p; rw [hAe]; rfl
    constructor
    · unfold QP_SETUP SetupArgs.toIn
      simp only [hPz, hGz, hp0, if_true]
      split
      · next Apr Ajc Air B e1 e2 e3 e4 =>
        rw [e1, e2, e3, e4] at hnone
        simp only [reduceCtorEq, false_or] at hnone
        rw [if_neg (by simpa using hnone)]
        simp only [pure_eq_ok, ok_bind]
        rw [h.n, h.m]
        rfl
      · simp only [pure_eq_ok, ok_bind]
        rw [h.n, h.m]
        rfl
    · exact ⟨h.n, h.m, rfl, isP, isG, h.c, h.h, h.sigma_d, Or.inr
        ⟨by simp only [SetupArgs.toIn, hp0, if_true], by simp only [SetupArgs.toIn, hp0, if_true],
          hAe⟩⟩

theorem QP_SETUP_spec {amd : Amd} {a : SetupArgs K} {pb : Problem K} (hpb : pb.WF) (h : a.Give pb)
    (hs : PermSource amd a.Permut a.p pb) :
    Spec (QP_SETUP amd a) (fun qp => ∃ p q, SetupDone pb (a.toIn pb) p q qp) := by
  obtain ⟨h1, h2⟩ := QP_SETUP_eq (amd := amd) hpb.toShaped h
  rw [h1]
  exact setupTail_spec hpb h2 hs

end Verif
