import Verif.Lemmas.CheckedRun
import Verif.Lemmas.Setup

/-!
# Bounded integers: setup
-/

set_option linter.unusedSectionVars false

namespace Verif

variable {K : Type} [Zero K] [One K] [Add K] [Sub K] [Mul K] [Div K] [Neg K] [Scalar K]

theorem Buf.Has.val {α : Type} {b : Buf α} {n : Nat} {f : Nat → α} (h : Buf.Has b n f) {i : Int}
    {v : α} (h0 : 0 ≤ i) (h1 : i < n) (e : Verif.rd b i = .ok v) : v = f i.toNat := by
  obtain ⟨k, rfl⟩ := Int.eq_ofNat_of_zero_le h0
  rw [h.rd (by omega)] at e
  cases e
  rfl

theorem Buf.Has.bnd {b : Buf Int} {n : Nat} {f : Nat → Int} {L : Int} (h : Buf.Has b n f)
    (hl : b.length = n) (hf : ∀ i, i < n → 0 ≤ f i ∧ f i ≤ L) : Bnd 0 L b := by
  intro i v e
  have hi : i < n := by
    rw [← hl]
    exact (List.getElem?_eq_some_iff.mp e).1
  have := h.val (i := i) (v := v) (by omega) (by omega) (by
    rw [Verif.rd, if_neg (by omega), Int.toNat_natCast, e])
  rw [this]
  exact hf i hi

theorem Smat.Is.up {L : Int} {S : Smat K} {A : Csc K} (h : S.Is A) (wf : A.WF) (hn : A.n ≤ L)
    (hm : A.m ≤ L) (hz : A.nnz ≤ L) : SmatUp L S := by
  refine ⟨by rw [h.n]; omega, by rw [h.n]; exact hn, by rw [h.m]; omega, by rw [h.m]; exact hm, ?_,
    by rw [h.nnz]; exact hz, ?_⟩
  · refine ⟨fun v e => ?_, fun i v h0 h1 e => ?_, fun i v w h0 h1 e f => ?_⟩
    · have := h.jc.val le_rfl (by omega) e
      rw [this]
      simp [wf.jc0]
    · rw [h.n] at h1
      have := h.jc.val h0 (by omega) e
      have g := wf.le_nnz (c := i.toNat) (by omega)
      rw [this, h.nnz]
      omega
    · rw [h.n] at h1
      have e1 := h.jc.val h0 (by omega) e
      have e2 := h.jc.val (i := i + 1) (by omega) (by omega) f
      have g := wf.jc_mono (c := i.toNat) (d := (i + 1).toNat) (by omega) (by omega)
      rw [e1, e2]
      exact_mod_cast g
  · intro j v h0 h1 e
    rw [h.nnz] at h1
    have e1 := h.ir.val h0 h1 e
    have := wf.ir_lt j.toNat (by show j.toNat < A.nnz; omega)
    rw [e1]
    omega

theorem transpose_nnz {A : Csc K} (wf : A.WF) : A.transpose.nnz = A.nnz := offs_tcol_total wf

theorem allocTranspose_chk {B L : Int} {S : Smat K} {A : Csc K} (h : S.Is A) (wf : A.WF)
    (hL : 8 * L ≤ 2 * B + 1) (hn : A.n ≤ L) (hm : A.m + 1 ≤ L) (hz : A.nnz ≤ L) :
    Chk (allocTransposeC B S) (allocTranspose S) (fun o => o = A.transpose.toSmat) := by
  have hu := h.up wf hn (by omega) hz
  have e1 := h.m; have e2 := h.nnz; have e3 := h.n
  intro o ho
  have hoe : o = A.transpose.toSmat := by
    rw [allocTranspose_eq h wf] at ho
    cases ho; rfl
  refine ⟨?_, hoe⟩
  have key : Chk (allocTransposeC B S) (allocTranspose S) (fun _ => True) := by
    unfold allocTransposeC allocTranspose
    refine Chk.chk (by omega) (Chk.malloc (by omega) (Chk.malloc (by omega) (Chk.malloc (by omega)
      ?_)))
    refine SparseMatrixTranspose_chk (L := L) (by omega) (by omega) hu.m0 (by omega) hu.n0 (by omega)
      ?_ Bnd.malloc ?_
    · exact ⟨hu.cols.zero, fun i v h0 h1 e => ⟨(hu.cols.le i v h0 h1 e).1,
        (hu.cols.le i v h0 h1 e).2.trans hu.nnz⟩, hu.cols.mono⟩
    · intro o' v ho' hv
      have : o' = A.transpose.toSmat := by
        have e := allocTranspose_eq h wf
        unfold allocTranspose at e
        rw [ho'] at e
        cases e; rfl
      subst this
      have hjc := A.transpose.toSmat_is.jc
      have g := hjc.val (i := S.m) (by omega) (by rw [e1]; show (A.m : Int) < ((A.m + 1 : Nat) : Int); omega) hv
      rw [g, e1]
      have : A.transpose.jc A.m = A.nnz := transpose_nnz wf
      rw [Int.toNat_natCast, this]
      exact hz
  exact (key o ho).1

theorem ldlinitialsolve_chk {B L : Int} {N : Nat} {A : Csc K} {p q : Nat → Nat} {k : Kkt K}
    (wf : A.WF) (an : A.n = N) (am : A.m = N) (perm : PermPair N p q) (mat : k.kktmatrix.Is A)
    (hP : Buf.Has k.P N (fun i => (p i : Int))) (hPinv : N ≤ k.Pinv.length) {delta : Buf K}
    (hL : 8 * L ≤ 2 * B + 1) (hN : (N : Int) + 1 ≤ L) (hjc : Bnd 0 L k.kktmatrix.jc)
    (hlp : (lpOf (permPat A p q) N N : Int) + 1 ≤ L) :
    Chk (ldlinitialsolveC B k delta) (ldlinitialsolve k delta) (fun r => KktUp L N r.2.1) := by
  have hn : k.kktmatrix.n = N := by rw [mat.n, an]
  have hargs : LdlArgs N A p q k.kktmatrix.jc k.kktmatrix.ir (some k.P) :=
    ⟨wf, an, am, perm, by have := mat.jc; rw [an] at this; exact this, mat.ir, hP⟩
  have hPv : ∀ i v, 0 ≤ i → i < (N : Int) → rd k.P i = .ok v → 0 ≤ v ∧ v < N := by
    intro i v h0 h1 e
    have e1 := hP.val h0 h1 e
    have := perm.p_lt i.toNat (by omega)
    rw [e1]
    omega
  have hsym := LDL_symbolic_spec hargs (Lp := malloc ((N : Int) + 1)) (Parent := malloc N)
    (Lnz := malloc N) (Flag := malloc N) (by simp) (by simp) (by simp) (by simp)
    (fun _ => ⟨k.Pinv, rfl, hPinv⟩) (by simp)
  have hmono : ∀ {i j : Nat}, i ≤ j →
      lpOf (permPat A p q) N i ≤ lpOf (permPat A p q) N j := fun h => lpOf_mono _ _ h
  unfold ldlinitialsolveC ldlinitialsolve
  simp only [hn]
  refine Chk.malloc (by omega) (Chk.malloc (by omega) (Chk.chk (by omega) (Chk.malloc (by omega)
    (Chk.malloc (by omega) (Chk.malloc (by omega) (Chk.malloc (by omega) (Chk.malloc (by omega)
    ?_)))))))
  refine (LDL_symbolic_chk (L := L) (by omega) hN (by omega) ?_ Bnd.malloc Bnd.malloc ?_).bind
    fun sy esy hsy => ?_
  · intro i v h0 h1 e
    have := hPv i v h0 h1 e
    omega
  · intro o v ho hv
    have hs := (hsym.elim ho).1
    have e1 := hs.lp.val (i := N) (by omega) (by omega) hv
    have e2 : v = (lpOf (permPat A p q) N N : Int) := by
      rw [e1, Int.toNat_natCast]; rfl
    omega
  obtain ⟨hs, l1, l2, l3, l4, l5⟩ := hsym.elim esy
  have hlpH : Buf.Has sy.Lp (N + 1) (fun j => (lpOf (permPat A p q) N j : Int)) := hs.lp
  refine Chk.step fun Q hQ => Chk.step fun lnz hlnz => ?_
  have hQ' : sy.Pinv = some Q := by
    cases h : sy.Pinv with
    | none => rw [h] at hQ; cases hQ
    | some R => rw [h] at hQ; cases hQ; rfl
  have hQH : Buf.Has Q N (fun i => (q i : Int)) := by
    have := hs.pinv
    rw [hQ'] at this
    exact this
  have hlnzE : lnz = (lpOf (permPat A p q) N N : Int) := by
    have := hlpH.val (i := N) (by omega) (by omega) hlnz
    rw [this, Int.toNat_natCast]
  subst hlnzE
  refine Chk.chk (by omega) (Chk.malloc (by omega) (Chk.malloc (by omega) ?_))
  simp only [length_malloc] at l1 l2 l3 l4
  set k1 : Kkt K := { k with
    Y := malloc N, D := malloc N, Lp := sy.Lp, Parent := sy.Parent, Pattern := malloc N
    Flag := sy.Flag, Lnz := sy.Lnz, Pinv := Q
    Li := malloc ((lpOf (permPat A p q) N N : Int) + 1)
    Lx := malloc ((lpOf (permPat A p q) N N : Int) + 1) } with hk1
  have hsym1 : KktSym N A p q k1 :=
    ⟨wf, an, am, perm, mat, hP, hQH, hlpH, hs.parent, by
      refine ⟨?_, ?_, ?_, ?_, ?_, ?_, ?_⟩ <;>
        simp only [Kkt.num, hk1, length_malloc] <;> omega⟩
  have hup1 : KktUp L N k1 := ⟨hn, hjc, hPv, hsy.1, hsy.2, by
      simp only [Kkt.num, hk1, length_malloc]; omega, by
      simp only [Kkt.num, hk1, length_malloc]; omega⟩
  refine (callNumeric_chk hL (by omega) hN hup1).bind fun r er hr => ?_
  refine Chk.malloc (by omega) (Chk.malloc (by omega) ?_)
  obtain ⟨h1, h2, ⟨s, h3⟩, h4, h5⟩ := (callNumeric_spec hsym1).elim er
  have hfac := h3.2.factor h2.lp
  have hnnz : (facCsc N s).nnz = lpOf (permPat A p q) N N := h3.2.offs N
  have htr := Transpose_Row_Count_spec (A := (facCsc N s).pattern)
    ⟨hfac.wf.jc0, hfac.wf.mono, hfac.wf.ir_lt⟩ (Li := r.2.Li) (Lp := r.2.Lp)
    (Lti := malloc (lpOf (permPat A p q) N N : Int)) (Ltp := malloc ((N : Int) + 1))
    hfac.lp hfac.li (by
      show N + 1 ≤ _
      simp) (by
      show (facCsc N s).nnz ≤ _
      rw [hnnz]; simp)
  have e1 : ((facCsc N s).pattern.m : Int) = N := rfl
  have e2 : ((facCsc N s).pattern.n : Int) = N := rfl
  rw [e1, e2] at htr
  refine (Transpose_Row_Count_chk (L := L) (by omega) (by omega) (by omega) (by omega) (by omega)
    (by omega) ?_ Bnd.malloc ?_).bind fun t et _ => ?_
  · refine ⟨fun v e => ?_, fun i v h0 h1 e => ?_, fun i v w h0 h1 e f => ?_⟩
    · have := h2.lp.val le_rfl (by omega) e
      rw [this]; rfl
    · have g := h2.lp.val h0 (by omega) e
      have := hmono (i := i.toNat) (j := N) (by omega)
      rw [g]
      omega
    · have g1 := h2.lp.val h0 (by omega) e
      have g2 := h2.lp.val (i := i + 1) (by omega) (by omega) f
      have := hmono (i := i.toNat) (j := (i + 1).toNat) (by omega)
      rw [g1, g2]
      exact_mod_cast this
  · intro o v ho hv
    have g := (htr.elim ho).2.2.1
    have g1 := g.val (i := N) (by omega) (by show (N : Int) < ((N + 1 : Nat) : Int); omega) hv
    have g2 : offs (tcol (facCsc N s).pattern) N = (facCsc N s).nnz :=
      offs_tcol_total (A := (facCsc N s).pattern)
        ⟨hfac.wf.jc0, hfac.wf.mono, hfac.wf.ir_lt⟩
    rw [g1, Int.toNat_natCast, g2, hnnz]
    omega
  refine Chk.ite (fun _ => ?_) (fun _ => Chk.pure ⟨hr.n, hr.jc, hr.P, hr.lp, hr.num⟩)
  exact (ldlSolve_chk hL (by omega) hN hr.n).bind fun d _ _ =>
    Chk.pure ⟨hr.n, hr.jc, hr.P, hr.lp, hr.num⟩

theorem kkt_initialize_chk {B L c : Int} {pb : Problem K} (hpb : pb.Shaped) {p q : Nat → Nat}
    {d : Nat → K} {qp : QP K} (h : QPre pb p q d qp) (hL : 8 * L ≤ 2 * B + 1)
    (hN : (pb.N : Int) + 1 ≤ L) (hjc : Bnd 0 L qp.kkt.kktmatrix.jc)
    (hA : ∀ S, qp.A = some S → S.n ≤ L)
    (hlp : (lpOf (permPat (kktCsc pb.P pb.A pb.G d) p q) pb.N pb.N : Int) + 1 ≤ L)
    (hc : qp.stats.IterationCount = c) :
    Chk (kkt_initializeC B qp) (kkt_initialize qp) (fun r => QUp L c r.2) := by
  have e1 := h.n; have e2 := h.m; have e3 := h.pp
  have eN : (pb.N : Int) = qp.n + qp.m + qp.p := by
    rw [e1, e2, e3]; unfold Problem.N; push_cast; ring
  have gP : qp.P.n ≤ L := by rw [h.P.n]; have : qp.n = (pb.P.n : Int) := e1; omega
  have gG : qp.G.n ≤ L := by rw [h.G.n, hpb.Gn]; have : qp.n = (pb.P.n : Int) := e1; omega
  have k1 : 0 ≤ qp.n := by omega
  have k2 : 0 ≤ qp.m := by omega
  have k3 : 0 ≤ qp.p := by omega
  have k4 : qp.n + qp.m + qp.p + 1 ≤ L := by omega
  have wf := hpb.kktCsc_wf d
  unfold kkt_initializeC kkt_initialize
  refine Chk.malloc (by omega) (Chk.step fun b1 _ => Chk.chk (by omega) ?_)
  refine Chk.bind (Q := fun _ => True) ?_ fun b2 _ _ => Chk.chk (by omega) ?_
  · refine Chk.forI' (fun _ => True) trivial fun i b h0 h1 _ => ?_
    exact Chk.step fun ub _ => Chk.chk (by omega) (Chk.triv _)
  refine Chk.bind (Q := fun _ => True) ?_ fun b3 _ _ => ?_
  · refine Chk.forI' (fun _ => True) trivial fun i b h0 h1 _ => ?_
    exact Chk.chk (by omega) (Chk.chk (by omega) (Chk.triv _))
  have key := ldlinitialsolve_chk (B := B) (L := L) (N := pb.N) (k := { qp.kkt with b := b3 })
    (delta := qp.delta) wf rfl rfl h.perm h.mat h.kP h.kPinv hL hN hjc hlp
  refine key.bind fun r _ hr => ?_
  have hr : KktUp L (qp.n + qp.m + qp.p) r.2.1 := by rw [← eN]; exact hr
  dsimp only
  refine Chk.ite (fun _ => ?_) (fun _ => Chk.pure
    ⟨k1, k2, k3, k4, gP, gG, hA, hr, hc⟩)
  refine Chk.step fun x _ => (copyOut_chk (by omega) (by omega) le_rfl (by omega)).bind
    fun y _ _ => ?_
  refine (SparseMatrixMultiply_chk (by omega)).bind fun z1 _ _ => ?_
  refine Chk.step fun z2 _ => Chk.step fun mm _ => Chk.step fun s _ => Chk.step fun z _ =>
    Chk.pure ?_
  exact ⟨k1, k2, k3, k4, gP, gG, hA, hr, hc⟩

theorem choosePerm_chk {B : Int} {amd : Amd} {pb : Problem K} (hpb : pb.Shaped) {si : SetupIn K}
    {km : Smat K} {d : Nat → K} (hn : si.argn = pb.n) (hm : si.argm = pb.m)
    (hs : PermSource amd si.Permut si.argp pb) (hk : km.Is (kktCsc pb.P pb.A pb.G d)) {dim : Int}
    (hdim : dim = pb.N) (hN : 8 * (pb.N : Int) ≤ 2 * B + 1) :
    Chk (choosePermC B amd si km dim) (choosePerm amd si km dim) (fun r =>
      ∃ p q, PermPair pb.N p q ∧ PermDone si.Permut pb.N p r) := by
  intro o ho
  refine ⟨?_, (choosePerm_spec hpb hn hm hs hk hdim).elim ho⟩
  revert o
  have key : Chk (choosePermC B amd si km dim) (choosePerm amd si km dim) (fun _ => True) := by
    unfold choosePermC choosePerm
    rcases hs with ⟨Bf, p, q, hB, hp, hh⟩ | ⟨hB, hamd, hor⟩
    · rw [hB]
      exact Chk.triv _
    · rw [hB]
      have hwf := hpb.kktCsc_wf d
      have hn' : km.n = pb.N := hk.n
      refine Chk.malloc (by omega) (Chk.step fun r hr => ?_)
      refine Chk.ite (fun hst => ?_) (fun _ => Chk.triv _)
      have hp : si.argp = pb.p := by
        rcases hor with h | h
        · exact h
        · rw [hn'] at hr
          have := h pb.N (kktCsc pb.P pb.A pb.G d).pattern km.jc km.ir
            (malloc dim) r.1 r.2 ⟨hwf.jc0, hwf.mono, hwf.ir_lt⟩ rfl rfl hk.jc hk.ir (by
              rw [hdim, length_malloc]; simp) hr
          omega
      have e : ((pb.n : Int) + (pb.m : Int) + (pb.p : Int)) = (pb.N : Int) := by
        unfold Problem.N; push_cast; ring
      refine Chk.chk (by omega) (Chk.chk (by omega) (Chk.triv _))
  exact fun o ho => (key o ho).1

/-! ## The common tail -/

theorem chk_ok {B v : Int} (h : -B - 1 ≤ v ∧ v ≤ B) : chk B v = .ok v := if_pos h

theorem mallocC_ok {α : Type} {B n : Int} (h : 0 ≤ n ∧ 8 * n ≤ 2 * B + 1) :
    (mallocC B n : M (Buf α)) = .ok (malloc n) := if_pos h

theorem chk_run {B v w : Int} (h : chk B v = .ok w) : w = v ∧ -B - 1 ≤ v ∧ v ≤ B := by
  unfold chk at h
  split at h
  · cases h; exact ⟨rfl, ‹_›⟩
  · cases h

theorem mallocC_run {α : Type} {B n : Int} {b : Buf α} (h : mallocC B n = .ok b) :
    0 ≤ n ∧ 8 * n ≤ 2 * B + 1 := by
  unfold mallocC at h
  split at h
  · assumption
  · cases h

/-- The part of the checked tail after the KKT matrix has been assembled. -/
def setupRestC (B : Int) (amd : Amd) (si : SetupIn K) (At : Option (Smat K)) (Gt : Smat K)
    (ybuf : Buf K) (kktmatrix : Smat K) : M (QP K) := do
  let n := si.argn
  let m := si.argm
  let p := si.p
  let e1 ← chk B (m + n)
  let dim ← chk B (e1 + p)
  let kb ← mallocC B dim
  let pr ← choosePermC B amd si kktmatrix dim
  let Pinv ← mallocC B dim
  let UPattern ← mallocC B dim
  let kkt : Kkt K :=
    { kktmatrix := kktmatrix, b := kb, P := pr.2, Pinv := Pinv,
      UPattern := UPattern, Parent := [], Flag := [], Lnz := [], Li := [], Lp := [], Lti := [],
      Ltp := [], Pattern := [], Y := [], Lx := [], D := [] }
  let qp : QP K :=
    { n := n, m := m, p := p, sigma_d := si.sigma_d, mu := none, rho := none
      x := malloc n, y := ybuf, z := malloc m, s := malloc m
      rx := malloc n, ry := ybuf, rz := malloc m
      delta := malloc (n + m + p), delta_x := malloc n, delta_y := ybuf
      delta_z := malloc m, delta_s := malloc m, ds := malloc m, lambda := malloc m
      temp := malloc n
      P := si.P, c := si.c, G := si.G, h := si.h, A := si.A, b := si.b, At := At, Gt := Gt
      kkt := kkt, options := defaultSettings
      stats := { (initialStats : Stats K) with AMD_RESULT := pr.1 } }
  let r ← kkt_initializeC B qp
  if r.1 = 0 then
    pure { r.2 with stats := { r.2.stats with Flag := QP_KKTFAIL } }
  else pure r.2

theorem setupRest_chk {B L : Int} {amd : Amd} {pb : Problem K} (hpb : pb.WF) {si : SetupIn K}
    (h : si.Give pb) (hs : PermSource amd si.Permut si.argp pb) {At : Option (Smat K)}
    {ybuf : Buf K} (hy : pb.p ≤ ybuf.length) {km : Smat K}
    (hk : km.Is (kktCsc pb.P pb.A pb.G (fun _ => Scalar.dec (-1) 0)))
    (hL : 8 * L ≤ 2 * B + 1) (hN : (pb.N : Int) + 1 ≤ L) (hjc : Bnd 0 L km.jc)
    (hfin : ∀ o v, setupRest amd si At pb.G.transpose.toSmat ybuf km = .ok o →
      rd o.kkt.Lp pb.N = .ok v → v + 1 ≤ L) :
    Chk (setupRestC B amd si At pb.G.transpose.toSmat ybuf km)
      (setupRest amd si At pb.G.transpose.toSmat ybuf km) (QUp L 0) := by
  intro o ho
  have hfin' := hfin o
  have hoL : ∀ v, rd o.kkt.Lp pb.N = .ok v → v + 1 ≤ L := fun v => hfin' v ho
  have e : si.argm + si.argn + si.p = (pb.N : Int) := by
    rw [h.n, h.m, h.p]; unfold Problem.N; push_cast; ring
  have e' : si.argn + si.argm + si.p = (pb.N : Int) := by
    rw [h.n, h.m, h.p]; unfold Problem.N; push_cast; ring
  have a1 := h.n; have a2 := h.m; have a3 := h.p
  unfold setupRest at ho
  unfold setupRestC
  simp only [e, e'] at ho ⊢
  obtain ⟨pr, e1, ho⟩ := bind_run ho
  obtain ⟨r, e2, ho⟩ := bind_run ho
  obtain ⟨g1, p, q, hp, hd⟩ := choosePerm_chk (B := B) hpb.toShaped h.n h.m hs hk rfl (by omega) pr e1
  obtain ⟨hA, hb⟩ := h.eqs
  have ln : (malloc si.argn : Buf K).length = pb.n := by rw [h.n, length_malloc]; simp
  have lm : (malloc si.argm : Buf K).length = pb.m := by rw [h.m, length_malloc]; simp
  have lN : (malloc (pb.N : Int) : Buf K).length = pb.N := by rw [length_malloc]; simp
  have lNi : (malloc (pb.N : Int) : Buf Int).length = pb.N := by rw [length_malloc]; simp
  have hkk : o.kkt = r.2.kkt := by
    split at ho
    · cases ho; rfl
    · cases ho; rfl
  have hAn : ∀ S, si.A = some S → S.n ≤ L := by
    intro S hS
    rcases h.eq with ⟨SA, Bf, b1, b2, b3, b4⟩ | ⟨b1, _⟩
    · rw [b1] at hS
      cases hS
      rw [b3.n, hpb.An]
      have : si.argn = (pb.P.n : Int) := a1
      omega
    · rw [b1] at hS; cases hS
  have step : ∀ {qp : QP K}, kkt_initialize qp = .ok r →
      QPre pb p q (fun _ => Scalar.dec (-1) 0) qp → qp.kkt.kktmatrix = km → qp.A = si.A →
      qp.stats.IterationCount = 0 → kkt_initializeC B qp = .ok r ∧ QUp L 0 r.2 := by
    intro qp e2 pre f1 f2 f3
    obtain ⟨_, _, _, h4, _⟩ := (kkt_initialize_spec hpb pre).elim e2
    have hlp := hoL _ (by rw [hkk]; exact h4.lp.rd (by omega))
    exact kkt_initialize_chk (B := B) (L := L) (c := 0) hpb.toShaped pre hL hN (by rw [f1]; exact hjc)
      (by rw [f2]; exact hAn) hlp f3 r e2
  obtain ⟨g2, g3⟩ := step e2
    ⟨h.n, h.m, h.p, h.sigma_d, h.P, h.G, hA, hb, h.c, h.h, ln.ge, hy, lm.ge, lm.ge, ln.ge, hy, lm.ge,
      lN.ge, ln.ge, hy, lm.ge, lm.ge, lm.ge, lm.ge, ln.ge, hp, hk, hd.has, lNi.ge, lN.ge⟩ rfl rfl rfl
  refine ⟨?_, ?_⟩
  · refine bind_of (chk_ok (by omega)) ?_
    rw [e]
    refine bind_of (chk_ok (by omega)) (bind_of (mallocC_ok (by omega)) (bind_of g1
      (bind_of (mallocC_ok (by omega)) (bind_of (mallocC_ok (by omega)) (bind_of g2 ho)))))
  · split at ho
    · cases ho
      exact ⟨g3.n0, g3.m0, g3.p0, g3.sum, g3.P, g3.G, g3.A, g3.kkt, g3.count⟩
    · cases ho
      exact g3

theorem setupTail_chk {B L : Int} {amd : Amd} {pb : Problem K} (hpb : pb.WF) {si : SetupIn K}
    (h : si.Give pb) (hs : PermSource amd si.Permut si.argp pb)
    (hL : 8 * L ≤ 2 * B + 1) (hN : (pb.N : Int) + 1 ≤ L)
    (hcap : (kktCap pb.P pb.A pb.G : Int) ≤ L)
    (hfin : ∀ o v, setupTail amd si = .ok o → rd o.kkt.Lp pb.N = .ok v → v + 1 ≤ L) :
    Chk (setupTailC B amd si) (setupTail amd si) (QUp L 0) := by
  have z0 : (kktCap pb.P pb.A pb.G : Int) =
      pb.P.nnz + 2 * pb.G.nnz + pb.G.m + 2 * pb.A.nnz := by unfold kktCap; push_cast; ring
  have z1 : (pb.N : Int) = pb.P.n + pb.A.m + pb.G.m := by
    unfold Problem.N Problem.n Problem.p Problem.m; push_cast; ring
  have z2 := hpb.Pm
  have a1 : si.argn = (pb.P.n : Int) := h.n
  have a2 : si.argm = (pb.G.m : Int) := h.m
  have a3 : si.p = (pb.A.m : Int) := h.p
  have hGn := hpb.Gn
  have hAn := hpb.An
  have p1 := h.P.n; have p2 := h.P.m; have p3 := h.P.nnz
  have q1 := h.G.n; have q2 := h.G.m; have q3 := h.G.nnz
  have hGt := allocTranspose_eq h.G hpb.G
  have hGtc := (allocTranspose_chk (B := B) (L := L) h.G hpb.G hL (by omega) (by omega) (by omega) _
    hGt).1
  have uP := h.P.up (L := L) hpb.P (by omega) (by omega) (by omega)
  have uG := h.G.up (L := L) hpb.G (by omega) (by omega) (by omega)
  have tG := transpose_nnz hpb.G
  have uGt := pb.G.transpose.toSmat_is.up (L := L) pb.G.transpose_wf
    (by show (pb.G.m : Int) ≤ L; omega) (by show (pb.G.n : Int) ≤ L; omega) (by omega)
  rcases h.eq with ⟨SA, Bf, hA, hBf, hSA, hBi⟩ | ⟨hA, hBf, hAe⟩
  · have r1 := hSA.n; have r2 := hSA.m; have r3 := hSA.nnz
    have hAt := allocTranspose_eq hSA hpb.A
    have hAtc := (allocTranspose_chk (B := B) (L := L) hSA hpb.A hL (by omega) (by omega) (by omega) _
      hAt).1
    have uA := hSA.up (L := L) hpb.A (by omega) (by omega) (by omega)
    have tA := transpose_nnz hpb.A
    have uAt := pb.A.transpose.toSmat_is.up (L := L) pb.A.transpose_wf
      (by show (pb.A.m : Int) ≤ L; omega) (by show (pb.A.n : Int) ≤ L; omega) (by omega)
    have hform := formkktmatrix_full_some (kkt := SparseMatrixSetup (si.P.n + SA.m + si.G.m)
        (si.P.n + SA.m + si.G.m) (si.P.nnz + 2 * si.G.nnz + si.G.m + 2 * SA.nnz)
        (malloc (si.P.n + SA.m + si.G.m + 1))
        (malloc (si.P.nnz + 2 * si.G.nnz + si.G.m + 2 * SA.nnz))
        (malloc (si.P.nnz + 2 * si.G.nnz + si.G.m + 2 * SA.nnz)))
      h.P hSA h.G pb.A.transpose.toSmat_is pb.G.transpose.toSmat_is hpb.P hpb.A hpb.G
      pb.A.transpose_wf pb.G.transpose_wf hpb.An hpb.Gn
      (by simp only [SparseMatrixSetup, length_malloc]; omega)
      (by simp only [SparseMatrixSetup, length_malloc]; omega)
      (by simp only [SparseMatrixSetup, length_malloc]; omega)
    obtain ⟨km, ekm, hkm⟩ := hform
    have hIs := hkm.is hpb.P hpb.A hpb.G hpb.An hpb.Gn hpb.rows
      (by simp only [SparseMatrixSetup]; omega)
      (by simp only [SparseMatrixSetup]; omega)
      (by simp only [SparseMatrixSetup]; omega)
    obtain ⟨ekc, hjc, _⟩ := formkktmatrix_full_chk (B := B) (L := L) (by omega) (by omega) uP uG uGt
      (fun S hS => by cases hS; exact ⟨uA, by omega, by omega, by omega⟩)
      (fun S hS => by cases hS; exact uAt) (by omega) (by omega) Bnd.malloc
      (by simp only [SparseMatrixSetup, length_malloc]; omega)
      (by simp only [SparseMatrixSetup, length_malloc]; omega) km ekm
    have e1 : setupTail amd si = setupRest amd si (some pb.A.transpose.toSmat)
        pb.G.transpose.toSmat (malloc si.p) km := by
      unfold setupTail setupRest
      rw [hA]
      simp only [hAt, hGt, ok_bind, pure_eq_ok]
      rw [ekm]
      rfl
    have e2 : setupTailC B amd si = setupRestC B amd si (some pb.A.transpose.toSmat)
        pb.G.transpose.toSmat (malloc si.p) km := by
      unfold setupTailC setupRestC kktDimsC
      rw [hA]
      simp only [hAtc, hGtc, ok_bind, pure_eq_ok]
      refine bind_of (mallocC_ok (by omega)) (bind_of (mallocC_ok (by omega)) (bind_of
        (mallocC_ok (by omega)) (bind_of (chk_ok (by omega)) (bind_of (chk_ok (by omega)) (bind_of
        (mallocC_ok (by omega)) ?_)))))
      refine bind_of (a := (si.P.nnz + 2 * si.G.nnz + si.G.m + 2 * SA.nnz,
          si.P.n + SA.m + si.G.m)) ?_ ?_
      · exact bind_of (chk_ok (by omega)) (bind_of (chk_ok (by omega)) (bind_of (chk_ok (by omega))
          (bind_of (chk_ok (by omega)) (bind_of (chk_ok (by omega)) (bind_of (chk_ok (by omega))
          (bind_of (chk_ok (by omega)) rfl))))))
      dsimp only
      refine bind_of (chk_ok (by omega)) (bind_of (mallocC_ok (by omega)) (bind_of
        (mallocC_ok (by omega)) (bind_of (mallocC_ok (by omega)) (bind_of ekc rfl))))
    rw [e1, e2]
    refine setupRest_chk hpb h hs (by rw [h.p, length_malloc]; simp) hIs hL hN hjc ?_
    rw [← e1]
    exact hfin
  · have hp0 : pb.p = 0 := by unfold Problem.p; rw [hAe]; rfl
    have hAm : pb.A.m = 0 := hp0
    have hAe' : pb.A = Csc.empty pb.P.n := hAe
    have hz : pb.A.nnz = 0 := by rw [hAe']; rfl
    have hform := formkktmatrix_full_none (kkt := SparseMatrixSetup (si.P.n + si.G.m)
        (si.P.n + si.G.m) (si.P.nnz + 2 * si.G.nnz + si.G.m) (malloc (si.P.n + si.G.m + 1))
        (malloc (si.P.nnz + 2 * si.G.nnz + si.G.m))
        (malloc (si.P.nnz + 2 * si.G.nnz + si.G.m)))
      h.P h.G pb.G.transpose.toSmat_is hpb.P hpb.G pb.G.transpose_wf hpb.Gn none
      (by simp only [SparseMatrixSetup, length_malloc]; omega)
      (by rw [← hAe']
          simp only [SparseMatrixSetup, length_malloc]; omega)
      (by rw [← hAe']
          simp only [SparseMatrixSetup, length_malloc]; omega)
    rw [← hAe'] at hform
    obtain ⟨km, ekm, hkm⟩ := hform
    have hIs := hkm.is hpb.P hpb.A hpb.G hpb.An hpb.Gn hpb.rows
      (by simp only [SparseMatrixSetup]; omega)
      (by simp only [SparseMatrixSetup]; omega)
      (by simp only [SparseMatrixSetup]; omega)
    obtain ⟨ekc, hjc, _⟩ := formkktmatrix_full_chk (B := B) (L := L) (by omega) (by omega) uP uG uGt
      (fun S hS => by cases hS) (fun S hS => by cases hS) (by omega) (by omega) Bnd.malloc
      (by simp only [SparseMatrixSetup, length_malloc]; omega)
      (by simp only [SparseMatrixSetup, length_malloc]; omega) km ekm
    have e1 : setupTail amd si = setupRest amd si none pb.G.transpose.toSmat [] km := by
      unfold setupTail setupRest
      rw [hA]
      simp only [hGt, ok_bind, pure_eq_ok]
      rw [ekm]
      rfl
    have e2 : setupTailC B amd si = setupRestC B amd si none pb.G.transpose.toSmat [] km := by
      unfold setupTailC setupRestC kktDimsC
      rw [hA]
      simp only [hGtc, ok_bind, pure_eq_ok]
      refine bind_of (mallocC_ok (by omega)) (bind_of
        (mallocC_ok (by omega)) (bind_of (chk_ok (by omega)) (bind_of (chk_ok (by omega)) (bind_of
        (mallocC_ok (by omega)) ?_))))
      refine bind_of (a := (si.P.nnz + 2 * si.G.nnz + si.G.m, si.P.n + si.G.m)) ?_ ?_
      · exact bind_of (chk_ok (by omega)) (bind_of (chk_ok (by omega)) (bind_of (chk_ok (by omega))
          (bind_of (chk_ok (by omega)) rfl)))
      dsimp only
      refine bind_of (chk_ok (by omega)) (bind_of (mallocC_ok (by omega)) (bind_of
        (mallocC_ok (by omega)) (bind_of (mallocC_ok (by omega)) (bind_of ekc rfl))))
    rw [e1, e2]
    refine setupRest_chk hpb h hs (by rw [hp0]; simp) hIs hL hN hjc ?_
    rw [← e1]
    exact hfin

theorem QP_SETUPC_eq {B : Int} {amd : Amd} {a : SetupArgs K} {pb : Problem K} (hpb : pb.Shaped)
    (h : a.Give pb) : QP_SETUPC B amd a = setupTailC B amd (a.toIn pb) := by
  have hPz : rd a.Pjc a.n = .ok (pb.P.nnz : Int) := by
    rw [h.n]; exact h.Pjc.rd (Nat.lt_succ_self _)
  have hGz : rd a.Gjc a.n = .ok (pb.G.nnz : Int) := by
    have : (a.n : Int) = (pb.G.n : Nat) := by rw [h.n, hpb.Gn]; rfl
    rw [this]; exact h.Gjc.rd (Nat.lt_succ_self _)
  rcases h.eq with ⟨Ajc, Air, Apr, Bf, e1, e2, e3, e4, e5, hp0, i1, i2, i3, i4⟩ | ⟨hnone, hAe⟩
  · have hAz : rd Ajc a.n = .ok (pb.A.nnz : Int) := by
      have : (a.n : Int) = (pb.A.n : Nat) := by rw [h.n, hpb.An]; rfl
      rw [this]; exact i1.rd (Nat.lt_succ_self _)
    have ep : a.p ≠ 0 := by rw [e5]; omega
    unfold QP_SETUPC SetupArgs.toIn
    rw [e1, e2, e3, e4]
    simp only [ep, ne_eq, not_false_eq_true, if_true, hAz, ok_bind, hPz, hGz, pure_eq_ok,
      (show ¬ pb.p = 0 by omega), if_false]
    rw [e5, h.n, h.m]
  · have hp0 : pb.p = 0 := by unfold Problem.p; rw [hAe]; rfl
    unfold QP_SETUPC SetupArgs.toIn
    simp only [hPz, hGz, hp0, if_true]
    split
    · next Apr Ajc Air Bf e1 e2 e3 e4 =>
      rw [e1, e2, e3, e4] at hnone
      simp only [reduceCtorEq, false_or] at hnone
      rw [if_neg (by simpa using hnone)]
      simp only [pure_eq_ok, ok_bind]
      rw [h.n, h.m]
      rfl
    · simp only [pure_eq_ok, ok_bind]
      rw [h.n, h.m]
      rfl

theorem QP_SETUP_chk {B L : Int} {amd : Amd} {a : SetupArgs K} {pb : Problem K} (hpb : pb.WF)
    (h : a.Give pb) (hs : PermSource amd a.Permut a.p pb)
    (hL : 8 * L ≤ 2 * B + 1) (hN : (pb.N : Int) + 1 ≤ L)
    (hcap : (kktCap pb.P pb.A pb.G : Int) ≤ L)
    (hfin : ∀ o v, QP_SETUP amd a = .ok o → rd o.kkt.Lp pb.N = .ok v → v + 1 ≤ L) :
    Chk (QP_SETUPC B amd a) (QP_SETUP amd a) (QUp L 0) := by
  obtain ⟨e1, hg⟩ := QP_SETUP_eq (amd := amd) hpb.toShaped h
  rw [e1] at hfin
  have key := setupTail_chk (B := B) hpb hg hs hL hN hcap hfin
  rw [e1, QP_SETUPC_eq hpb.toShaped h]
  exact key

end Verif
