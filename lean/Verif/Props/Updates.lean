import Verif.SpecData
import Verif.Props.Certify

/-!
# Overwriting the problem data between calls (C68)
-/

set_option linter.unusedSectionVars false

namespace Verif

open Finset

section

variable {K : Type} [Zero K] [One K] [Add K] [Sub K] [Mul K] [Div K] [Neg K] [Scalar K]

theorem Csc.WF.withPr {A : Csc K} (h : A.WF) (v : Nat → K) : ({ A with pr := v } : Csc K).WF :=
  ⟨h.jc0, h.mono, h.ir_lt⟩

theorem Problem.SamePattern.wf {pk pb : Problem K} (h : pk.SamePattern pb) (hpk : pk.WF) :
    pb.WF := by
  obtain ⟨⟨u, hu⟩, ⟨v, hv⟩, ⟨w, hw⟩, _⟩ := h
  refine ⟨⟨?_, ?_, ?_, ?_, ?_, ?_, ?_⟩, ?_⟩
  · rw [hu]; exact hpk.P.withPr u
  · rw [hv]; exact hpk.A.withPr v
  · rw [hw]; exact hpk.G.withPr w
  · rw [hu]; exact hpk.Pm
  · rw [hu, hv]; exact hpk.An
  · rw [hu, hw]; exact hpk.Gn
  · rw [hw]; exact hpk.rows
  · rw [hw]; exact hpk.m_pos

theorem Problem.SamePattern.fits {pk pb : Problem K} (h : pk.SamePattern pb) (hpk : pk.WF) :
    pk.Fits pb := by
  obtain ⟨⟨u, hu⟩, ⟨v, hv⟩, ⟨w, hw⟩, _⟩ := h
  refine ⟨hpk, ?_, ?_, ?_⟩
  · unfold Problem.n; rw [hu]
  · unfold Problem.m; rw [hw]
  · unfold Problem.p; rw [hv]

theorem Problem.SamePattern.refl (pk : Problem K) : pk.SamePattern pk :=
  ⟨⟨_, rfl⟩, ⟨_, rfl⟩, ⟨_, rfl⟩, rfl⟩

theorem Problem.SameMatrices.pattern {pk pb : Problem K} (h : pk.SameMatrices pb) :
    pk.SamePattern pb :=
  ⟨⟨_, h.P⟩, ⟨_, h.A⟩, ⟨_, h.G⟩, h.sigma_d⟩

/-- The work arrays and the KKT part stay ready; only the data changes. -/
theorem SInv.write {pk pb pb' : Problem K} {p q : Nat → Nat} {qp qp' : QP K}
    (hs : SInv pk pb p q qp) (h1 : pk.SamePattern pb) (hw : qp.Overwritten qp')
    (h2 : pk.SamePattern pb') (hh : qp'.Holds pb') (hpk : pk.WF) : SInv pk pb' p q qp' := by
  have f1 := h1.fits hpk
  have f2 := h2.fits hpk
  have en : pb.n = pb'.n := f1.n.symm.trans f2.n
  have em : pb.m = pb'.m := f1.m.symm.trans f2.m
  have ep : pb.p = pb'.p := f1.p.symm.trans f2.p
  have eN : pb.N = pb'.N := by unfold Problem.N; rw [en, em, ep]
  obtain ⟨c, h, b, Ppr, Gpr, Apr, rfl⟩ := hw
  obtain ⟨x, y, z, s, hi⟩ := hs.iter
  have hq := hs.inv
  obtain ⟨d, hd⟩ := hq.kkt
  refine ⟨?_, ⟨x, y, z, s, ?_⟩, hs.flag, hs.count⟩
  · refine ⟨f2, ?_, ?_, ?_, ?_, hh.P, hh.G, hh.A, hh.b, hh.c, hh.h, ?_, ?_, ?_, ?_, ?_, ?_, ?_, ?_,
      ?_, ?_, ?_, ⟨d, ?_⟩, ?_⟩
    · rw [← en]; exact hq.n
    · rw [← em]; exact hq.m
    · rw [← ep]; exact hq.pp
    · exact hq.sd.trans (h1.sigma_d.trans h2.sigma_d.symm)
    · rw [← en]; exact hq.lrx
    · rw [← ep]; exact hq.lry
    · rw [← em]; exact hq.lrz
    · rw [← eN]; exact hq.ldelta
    · rw [← en]; exact hq.ldx
    · rw [← ep]; exact hq.ldy
    · rw [← em]; exact hq.ldz
    · rw [← em]; exact hq.lds
    · rw [← em]; exact hq.lt
    · rw [← em]; exact hq.ll
    · rw [← en]; exact hq.ltemp
    · rw [← eN]; exact hd
    · rw [← eN]; exact hq.kb
  · refine ⟨?_, ?_, ?_, ?_⟩
    · rw [← en]; exact hi.x
    · rw [← ep]; exact hi.y
    · rw [← em]; exact hi.z
    · rw [← em]; exact hi.s

theorem Session.pattern {pk pb : Problem K} {q0 qp : QP K} (h : Session pk q0 pb qp) :
    pk.SamePattern pb := by
  induction h with
  | start => exact .refl _
  | options _ _ ih => exact ih
  | cell _ _ ih => exact ih
  | iteration _ _ ih => exact ih
  | solve _ _ ih => exact ih
  | write _ _ h _ _ => exact h

/-- Induction over the histories. -/
theorem Session.induct {pk : Problem K} (hpk : pk.WF) {p q : Nat → Nat} {q0 : QP K}
    (h0 : SInv pk pk p q q0) (Q : Problem K → QP K → Prop) (base : Q pk q0)
    (opt : ∀ pb qp o, Q pb qp → Q pb { qp with options := o })
    (st : ∀ pb qp t, Q pb qp → Q pb { qp with stats := t })
    (body : ∀ pb qp r, pb.WF → SInv pk pb p q qp → Q pb qp → solveBody qp = .ok r → Q pb r.1)
    (wr : ∀ pb pb' qp qp', pk.SamePattern pb → pk.SamePattern pb' → Q pb qp →
      qp.Overwritten qp' → qp'.Holds pb' → Q pb' qp')
    {pb : Problem K} {qp : QP K} (h : Session pk q0 pb qp) :
    SInv pk pb p q qp ∧ Q pb qp := by
  have hits : ∀ {pb : Problem K}, pb.WF → ∀ {k : Nat} {a b : QP K}, Iterations k a b →
      SInv pk pb p q a → Q pb a → SInv pk pb p q b ∧ Q pb b := by
    intro pb hpb k a b hi
    induction hi with
    | zero => intro g h; exact ⟨g, h⟩
    | succ hi hs ih =>
      intro g1 g2
      obtain ⟨h1, h2⟩ := ih g1 g2
      obtain ⟨x, y, z, s, hit⟩ := h1.iter
      exact ⟨(h1.bodyOut hpb hs hit).sinv h1, body _ _ _ hpb h1 h2 hs⟩
  induction h with
  | start => exact ⟨h0, base⟩
  | options o _ ih =>
    obtain ⟨h1, h2⟩ := ih
    obtain ⟨x, y, z, s, hi⟩ := h1.iter
    exact ⟨⟨{ h1.inv with }, ⟨x, y, z, s, hi.x, hi.y, hi.z, hi.s⟩, h1.flag, h1.count⟩, opt _ _ o h2⟩
  | cell v _ ih =>
    obtain ⟨h1, h2⟩ := ih
    obtain ⟨x, y, z, s, hi⟩ := h1.iter
    exact ⟨⟨{ h1.inv with }, ⟨x, y, z, s, hi.x, hi.y, hi.z, hi.s⟩, h1.flag, h1.count⟩, st _ _ _ h2⟩
  | iteration hse hb ih =>
    obtain ⟨h1, h2⟩ := ih
    have hpb := hse.pattern.wf hpk
    obtain ⟨x, y, z, s, hi⟩ := h1.iter
    exact ⟨(h1.bodyOut hpb hb hi).sinv h1, body _ _ _ hpb h1 h2 hb⟩
  | @solve pb qp qp' f hse hb ih =>
    obtain ⟨h1, h2⟩ := ih
    have hpb := hse.pattern.wf hpk
    obtain ⟨k, qk, hk⟩ := QP_SOLVE_inv hpb h1 hb
    refine ⟨(hk.facts hpb h1).1, ?_⟩
    obtain ⟨g1, g2⟩ := hits hpb hk.its h1 h2
    obtain ⟨r, h5, rfl⟩ := hk.stop
    have key : Q pb r := by
      rcases h5 with ⟨_, hb⟩ | ⟨_, rfl⟩
      · exact body _ _ _ hpb g1 g2 hb
      · exact g2
    split
    · exact st _ _ _ key
    · exact key
  | write hse hw hp hh ih =>
    obtain ⟨h1, h2⟩ := ih
    exact ⟨h1.write hse.pattern hw hp hh hpk, wr _ _ _ _ hse.pattern hp h2 hw hh⟩

theorem Started.session {amd : Amd} {a : SetupArgs K} {pk pb : Problem K} {q0 qp : QP K}
    (h : Started amd a pk q0) (hs : Session pk q0 pb qp) :
    pb.WF ∧ ∃ p q, SInv pk pb p q qp := by
  obtain ⟨p, q, hd⟩ := h.done
  exact ⟨hs.pattern.wf h.wf, p, q, (hs.induct h.wf hd.sinv (fun _ _ => True) trivial
    (fun _ _ _ _ => trivial) (fun _ _ _ _ => trivial) (fun _ _ _ _ _ _ _ => trivial)
    (fun _ _ _ _ _ _ _ _ _ => trivial)).1⟩

theorem Session.iterations {pk pb : Problem K} {q0 a b : QP K} {k : Nat} (h : Session pk q0 pb a)
    (hi : Iterations k a b) : Session pk q0 pb b := by
  induction hi with
  | zero => exact h
  | succ _ hs ih => exact (ih h).iteration hs

/-- The caller can write any data with the same patterns. -/
theorem Session.overwrite {amd : Amd} {a : SetupArgs K} {pk pb pb' : Problem K} {q0 qp : QP K}
    (h : Started amd a pk q0) (hs : Session pk q0 pb qp) (hp : pk.SamePattern pb') :
    ∃ qp', qp.Overwritten qp' ∧ qp'.Holds pb' ∧ Session pk q0 pb' qp' ∧
      qp'.options = qp.options ∧ qp'.stats = qp.stats := by
  obtain ⟨hpb, p, q, hi⟩ := h.session hs
  have hw : qp.Overwritten { qp with
      c := Buf.ofFn pb'.n pb'.c
      h := Buf.ofFn pb'.m pb'.h
      b := qp.b.map fun _ => Buf.ofFn pb'.p pb'.b
      P := { qp.P with pr := Buf.ofFn pb'.P.nnz pb'.P.pr }
      G := { qp.G with pr := Buf.ofFn pb'.G.nnz pb'.G.pr }
      A := qp.A.map fun S => { S with pr := Buf.ofFn pb'.A.nnz pb'.A.pr } } :=
    ⟨_, _, _, _, _, _, rfl⟩
  have is : ∀ {S : Smat K} {B B0 B' : Csc K}, S.Is B → (∃ v, B = { B0 with pr := v }) →
      (∃ v, B' = { B0 with pr := v }) →
      Smat.Is { S with pr := Buf.ofFn B'.nnz B'.pr } B' := by
    rintro S B B0 B' h ⟨v, rfl⟩ ⟨w, rfl⟩
    exact ⟨h.m, h.n, h.nnz, h.jc, h.ir, Buf.has_ofFn _ _⟩
  have ep : pb'.p = pb.p :=
    (hp.fits h.wf).p.symm.trans (hs.pattern.fits h.wf).p
  have hh : QP.Holds pb' { qp with
      c := Buf.ofFn pb'.n pb'.c
      h := Buf.ofFn pb'.m pb'.h
      b := qp.b.map fun _ => Buf.ofFn pb'.p pb'.b
      P := { qp.P with pr := Buf.ofFn pb'.P.nnz pb'.P.pr }
      G := { qp.G with pr := Buf.ofFn pb'.G.nnz pb'.G.pr }
      A := qp.A.map fun S => { S with pr := Buf.ofFn pb'.A.nnz pb'.A.pr } } := by
    refine ⟨is hi.inv.P hs.pattern.P hp.P, is hi.inv.G hs.pattern.G hp.G, fun h0 => ?_,
      fun h0 => ?_, Buf.has_ofFn _ _, Buf.has_ofFn _ _⟩
    · obtain ⟨S, e1, e2⟩ := hi.inv.A (by rw [← ep]; exact h0)
      refine ⟨_, ?_, is e2 hs.pattern.A hp.A⟩
      show qp.A.map _ = _
      rw [e1]
      rfl
    · obtain ⟨B, e1, e2⟩ := hi.inv.b (by rw [← ep]; exact h0)
      refine ⟨_, ?_, Buf.has_ofFn _ _⟩
      show qp.b.map _ = _
      rw [e1]
      rfl
  exact ⟨_, hw, hh, .write hs hw hp hh, rfl, rfl⟩

/-- C68, safety: whatever the caller wrote into the arrays of `P`, `A`, `G`, `c`, `b`, `h` between
the calls (the sparsity patterns stay), the next iteration and the next solve return. -/
theorem C68_safe {amd : Amd} {a : SetupArgs K} {pk pb : Problem K} {q0 qp : QP K}
    (h : Started amd a pk q0) (hs : Session pk q0 pb qp) (hv : PrintOk pb qp) :
    (∃ r, solveBody qp = .ok r) ∧ ∃ f qp', QP_SOLVE qp = .ok (f, qp') := by
  obtain ⟨hpb, p, q, hi⟩ := h.session hs
  obtain ⟨_, _, _, _, r, _, h1, _⟩ := hi.body hpb hv
  obtain ⟨_, _, f, qp', h2, _⟩ := QP_SOLVE_run hpb hi hv
  exact ⟨⟨r, h1⟩, f, qp', h2⟩

/-- C68, the flag: once a call has returned 0 after at least one step, no later call reports that
the iteration limit was reached without success, whatever data the caller wrote meanwhile: it
returns 0, or it returns 2 and the test of its last iteration succeeded. -/
theorem C68_flag_sticks {amd : Amd} {a : SetupArgs K} {pk pb : Problem K} {q0 qp qp' : QP K}
    {f : Int} (h : Started amd a pk q0) (hs : Session pk q0 pb qp) (hf : qp.stats.Flag = 0)
    (hc : 0 < qp.stats.IterationCount) (hm : 0 ≤ qp.options.maxit)
    (hr : QP_SOLVE qp = .ok (f, qp')) :
    f = 0 ∨ (f = 2 ∧ ∃ k qk r, Iterations k qp qk ∧ solveBody qk = .ok (r, true) ∧
      qp' = { r with stats := { r.stats with Flag := 2 } }) := by
  obtain ⟨hpb, p, q, hi⟩ := h.session hs
  obtain ⟨k, qk, hk⟩ := QP_SOLVE_inv hpb hi hr
  obtain ⟨h1, h2, h3, h4⟩ := hk.its.facts hpb hi
  obtain ⟨r, h5, h6⟩ := hk.stop
  have hret := hk.ret
  rcases h5 with ⟨_, hb⟩ | ⟨hkm, rfl⟩
  · obtain ⟨x, y, z, s, hit⟩ := h1.iter
    have hfl := (h1.bodyOut hpb hb hit).flag
    simp only [if_true] at hfl
    by_cases hcm : r.stats.IterationCount = r.options.maxit
    · rw [if_pos hcm] at h6
      subst h6
      exact Or.inr ⟨hret, k, qk, r, hk.its, hb, rfl⟩
    · rw [if_neg hcm] at h6
      subst h6
      exact Or.inl (hret.trans hfl)
  · rw [if_neg (by rw [h4, h2.maxit]; omega)] at h6
    subst h6
    exact Or.inl (hret.trans (h3.trans hf))

end

/-! ## Exact arithmetic -/

section

variable {K : Type} [Field K] [LinearOrder K] [IsStrictOrderedRing K] [Scalar K] [LawfulScalar K]

/-- C68, positivity: slacks and multipliers stay strictly positive whatever data the caller
writes. -/
theorem C68_positive {amd : Amd} {a : SetupArgs K} {pk pb : Problem K} {q0 qp : QP K}
    (h : Started amd a pk q0) (hs : Session pk q0 pb qp) {x y z s : Nat → K}
    (hi : qp.Iter pb x y z s) : ∀ i, i < pb.m → 0 < s i ∧ 0 < z i := by
  obtain ⟨p, q, hd⟩ := h.done
  refine (hs.induct h.wf hd.sinv (fun pb qp => ∀ x y z s, qp.Iter pb x y z s →
    ∀ i, i < pb.m → 0 < s i ∧ 0 < z i) ?_ ?_ ?_ ?_ ?_).2 x y z s hi
  · intro x y z s hi i hm
    exact C16_positive h .start hi i hm
  · intro pb qp o ih x y z s hi
    exact ih x y z s ⟨hi.x, hi.y, hi.z, hi.s⟩
  · intro pb qp o ih x y z s hi
    exact ih x y z s ⟨hi.x, hi.y, hi.z, hi.s⟩
  · intro pb qp r hpb hs ih hb x y z s hi i hm
    obtain ⟨x0, y0, z0, s0, hi0⟩ := hs.iter
    have hbo := hs.bodyOut hpb hb hi0
    have hp0 := ih x0 y0 z0 s0 hi0
    cases hbr : r.2
    · obtain ⟨t, hst, _⟩ := hbo.step hbr
      rw [hi.s.unique hst.iter.s hm, hi.z.unique hst.iter.z hm]
      exact stepTo_pos hp0 hm
    · have hi1 := (hbo.stop hbr).1
      rw [hi.s.unique hi1.s hm, hi.z.unique hi1.z hm]
      exact hp0 i hm
  · intro pb pb' qp qp' h1 h2 ih hw _ x y z s hi i hm
    have f1 := h1.fits h.wf
    have f2 := h2.fits h.wf
    obtain ⟨c, hh, b, Ppr, Gpr, Apr, rfl⟩ := hw
    have en : pb'.n = pb.n := f2.n.symm.trans f1.n
    have em : pb'.m = pb.m := f2.m.symm.trans f1.m
    have ep : pb'.p = pb.p := f2.p.symm.trans f1.p
    exact ih x y z s ⟨by rw [← en]; exact hi.x, by rw [← ep]; exact hi.y, by rw [← em]; exact hi.z,
      by rw [← em]; exact hi.s⟩ i (by rw [← em]; exact hm)

/-- The direction solves linear equations with the matrices of `pk` (perturbed on the diagonal by
`e`) and the residuals of `pb` at `x, y, z, s` on the right. -/
structure Problem.LinearisedWith (pk pb : Problem K) (e x y z s tgt dx dy dz ds : Nat → K) :
    Prop where
  rx : ∀ i, i < pb.n → pk.P.mulVec dx i + pk.A.tmulVec dy i + pk.G.tmulVec dz i + e i * dx i
    = pb.rx x y z i
  ry : ∀ i, i < pb.p → pk.A.mulVec dx i + e (pb.n + i) * dy i = pb.ry x i
  rz : ∀ i, i < pb.m → pk.G.mulVec dx i + ds i + e (pb.n + pb.p + i) * dz i = pb.rz x s i
  comp : ∀ i, i < pb.m → z i * ds i + s i * dz i = tgt i

theorem Problem.LinearisedWith.same {pk pb : Problem K} (hm : pk.SameMatrices pb)
    {e x y z s tgt dx dy dz ds : Nat → K}
    (h : pk.LinearisedWith pb e x y z s tgt dx dy dz ds) :
    pb.Linearised e x y z s tgt dx dy dz ds := by
  refine ⟨?_, ?_, ?_, h.comp⟩
  · rw [hm.P, hm.A, hm.G]; exact h.rx
  · rw [hm.A]; exact h.ry
  · rw [hm.G]; exact h.rz

theorem dirF_with {pk pb : Problem K} (hf : pk.Fits pb) (hpb : pb.WF) (hsym : pk.P.Symm)
    {p q : Nat → Nat} (hp : PermPair pb.N p q) {t : FSt K} {raw : Nat → K} {x y z s : Nat → K}
    (hr : RowsInv (permCol (kktCsc pk.P pk.A pk.G (slackD z s)) p q) pb.N t raw)
    (hz : ∀ i, i < pb.m → 0 < z i) (tgt : Nat → K) :
    pk.LinearisedWith pb (regDiag t raw q) x y z s tgt (dirF pb p q t x y z s tgt).dx
      (dirF pb p q t x y z s tgt).dy (dirF pb p q t x y z s tgt).dz
      (dirF pb p q t x y z s tgt).ds := by
  have hpk := hf.wf
  have eNk : pk.N = pb.N := by unfold Problem.N; rw [hf.n, hf.m, hf.p]
  set rhs := rhsF pb.n pb.p (rxF pb x y z) (ryF pb x) (rzF pb x s) tgt z with hrhs
  set v := solveF pb.N t p q rhs with hv
  have ent : ∀ r c, c < pb.N → (kktCsc pk.P pk.A pk.G (slackD z s)).entry r c
      = kktEntry pk.P pk.A pk.G (slackD z s) r c := fun r c hc =>
    kktCsc_entry hpk.P hpk.A hpk.G hpk.Pm hpk.An hpk.Gn hpk.rows _
      (show c < pk.N by rw [eNk]; exact hc)
  have sol : ∀ r, r < pb.N → ∑ c ∈ range pb.N, kktEntry pk.P pk.A pk.G (slackD z s) r c * v c
      + regDiag t raw q r * v r = rhs r := by
    intro r hr'
    have := hr.solve (hpk.kktCsc_wf _) eNk eNk hp (by
      intro r c h1 h2
      rw [ent r c h2, ent c r h1]
      exact kktEntry_symm hsym _ _ _) rhs hr'
    rw [← this]
    show _ = ∑ c ∈ range pb.N, (kktCsc pk.P pk.A pk.G (slackD z s)).entry r c * v c
      + regDiag t raw q r * v r
    refine congrArg (· + _) (sum_congr rfl fun c hc => ?_)
    rw [ent r c (mem_range.mp hc)]
  obtain ⟨k1, k2, k3⟩ := kkt_blocks hpk.An hpk.Gn (slackD z s) v
  rw [eNk, hf.n] at k1 k2 k3
  rw [hf.p] at k1 k2 k3
  rw [hf.m] at k3
  have eN : pb.N = pb.n + pb.p + pb.m := rfl
  refine ⟨?_, ?_, ?_, ?_⟩
  · intro i hi
    have h1 := sol i (by omega)
    rw [k1 i hi] at h1
    have e0 : rhs i = pb.rx x y z i := by
      rw [hrhs]
      unfold rhsF
      rw [if_pos hi, rxF_eq hpb x y z hi]
    rw [e0] at h1
    exact h1
  · intro i hi
    have h1 := sol (pb.n + i) (by omega)
    rw [k2 i hi] at h1
    have e0 : rhs (pb.n + i) = pb.ry x i := by
      rw [hrhs]
      unfold rhsF
      rw [if_neg (by omega), if_pos (by omega), Nat.add_sub_cancel_left, ryF_eq hpb]
    rw [e0] at h1
    exact h1
  · intro i hi
    have h1 := sol (pb.n + pb.p + i) (by omega)
    rw [k3 i hi] at h1
    have hzi := (hz i hi).ne'
    have e0 : rhs (pb.n + pb.p + i) = pb.rz x s i - tgt i / z i := by
      rw [hrhs]
      unfold rhsF
      rw [if_neg (by omega), if_neg (by omega), show pb.n + pb.p + i - pb.n - pb.p = i by omega,
        rzF_eq hpb]
    rw [e0] at h1
    show pk.G.mulVec v i + (tgt i - s i * v (pb.n + pb.p + i)) / z i
      + regDiag t raw q (pb.n + pb.p + i) * v (pb.n + pb.p + i) = _
    unfold slackD at h1
    rw [sub_div]
    have : -(s i) / z i * v (pb.n + pb.p + i) = -(s i * v (pb.n + pb.p + i) / z i) := by ring
    rw [this] at h1
    linarith
  · intro i hi
    have hzi := (hz i hi).ne'
    show z i * ((tgt i - s i * v (pb.n + pb.p + i)) / z i) + s i * v (pb.n + pb.p + i) = tgt i
    field_simp
    ring

/-- C68, directions: a step after the data was overwritten solves linear equations with the
matrices that were there at setup and the residuals of the current data. -/
theorem C68_directions {amd : Amd} {a : SetupArgs K} {pk pb : Problem K} {q0 qp qp' : QP K}
    (h : Started amd a pk q0) (hsym : pk.P.Symm) (hs : Session pk q0 pb qp)
    (hb : solveBody qp = .ok (qp', false)) {x y z s : Nat → K} (hi : qp.Iter pb x y z s) :
    ∃ e dx dy dz ds tgt : Nat → K, Buf.Has qp'.delta_x pb.n dx ∧ Buf.Has qp'.delta_y pb.p dy ∧
      Buf.Has qp'.delta_z pb.m dz ∧ Buf.Has qp'.delta_s pb.m ds ∧
      (∃ M p L d, qp'.kkt.Factored pb.N M p L d e) ∧
      (qp'.kkt.Exact pb.N → ∀ i, i < pb.N → e i = 0) ∧
      pk.LinearisedWith pb e x y z s tgt dx dy dz ds ∧
      (pk.SameMatrices pb → pb.Linearised e x y z s tgt dx dy dz ds) ∧
      qp'.Iter pb (fun i => x i + qp'.stats.alpha_p * dx i) (fun i => y i + qp'.stats.alpha_d * dy i)
        (fun i => z i + qp'.stats.alpha_d * dz i) (fun i => s i + qp'.stats.alpha_p * ds i) := by
  have hpos := C68_positive h hs hi
  obtain ⟨hpb, p, q, hs'⟩ := h.session hs
  obtain ⟨t, hst, hopt, re, hstat⟩ := (hs'.bodyOut hpb hb hi).step rfl
  simp only at hst hopt hstat
  obtain ⟨raw, hraw⟩ := hst.fac.1.inv
  have hp := hst.sym.perm
  obtain ⟨g1, g2⟩ := factor_exact hst.sym.wf hst.sym.an hst.sym.am hp hraw
  set D := stepDir pb p q t x y z s qp.options.sigma
  have hfac : qp'.kkt.Factored pb.N (kktCsc pk.P pk.A pk.G (slackD z s)) p (facCsc pb.N t) t.D
      (regDiag t raw q) := by
    refine ⟨hst.sym.wf, hst.sym.an, hst.sym.mat, hst.sym.P, hst.fac.2.factor hst.sym.lp, ?_⟩
    intro r hr'
    rw [g1 r hr' r le_rfl, if_pos rfl]
    unfold regDiag
    rw [hp.qp r hr']
  have hl := dirF_with hs'.inv.fits hpb hsym hp hraw (fun i hi => (hpos i hi).2)
    (tgtF pb p q t x y z s qp.options.sigma) (x := x) (y := y)
  refine ⟨regDiag t raw q, D.dx, D.dy, D.dz, D.ds, _, hst.dx, hst.dy, hst.dz, hst.ds,
    ⟨_, _, _, _, hfac⟩, ?_, hl, fun hm => hl.same hm, ?_⟩
  · rintro ⟨M', p', L', d', hf'⟩ i hi
    exact hfac.unique hf' hp hi
  · have eP : qp'.stats.alpha_p = alphaP pb s D := by rw [hstat]
    have eD : qp'.stats.alpha_d = alphaD pb z D := by rw [hstat]
    rw [eP, eD]
    exact ⟨hst.iter.x.congr fun i _ => by ring, hst.iter.y.congr fun i _ => by ring,
      hst.iter.z.congr fun i _ => by ring, hst.iter.s.congr fun i _ => by ring⟩

variable [LawfulSqrt K]

/-- An iteration whose test succeeded leaves the point unchanged, and it satisfies the optimality
conditions of the current data. -/
theorem Session.approx {amd : Amd} {a : SetupArgs K} {pk pb : Problem K} {q0 qp qp' : QP K}
    (h : Started amd a pk q0) (hs : Session pk q0 pb qp) (hb : solveBody qp = .ok (qp', true))
    {x y z s : Nat → K} (hit : qp.Iter pb x y z s) {t : K} (h0 : 0 ≤ t) (h3 : t * t = 3) :
    qp'.Iter pb x y z s ∧ pb.Approx (qp.options.reltol / t) qp.options.abstol x y z s := by
  obtain ⟨hpb, p, q, hi⟩ := h.session hs
  have hbo := hi.bodyOut hpb hb hit
  have hpos := C68_positive h hs hit
  have hbk := hbo.brk
  simp only at hbk
  obtain ⟨e1, e2, e3, e4⟩ := (exitF_iff _ _ _ _ _ h0 h3).mp hbk.symm
  have ix := (nrmF_isNorm pb.n (rxF pb x y z)).congr (fun i hi => rxF_eq hpb x y z hi)
  have iy := (nrmF_isNorm pb.p (ryF pb x)).congr (fun i _ => ryF_eq hpb x i)
  have iz := (nrmF_isNorm pb.m (rzF pb x s)).congr (fun i _ => rzF_eq hpb x s i)
  refine ⟨(hbo.stop rfl).1, ⟨_, ix, e1⟩, ⟨_, iy, ?_⟩, ⟨_, iz, e3⟩,
    by rw [← gapF_eq]; exact e4, fun i hi => (hpos i hi).1, fun i hi => (hpos i hi).2⟩
  by_cases hp : pb.p = 0
  · have : nrmF pb.p (ryF pb x) = 0 := by
      rw [hp] at iy ⊢
      exact (nrmF_isNorm 0 (ryF pb x)).unique (IsNorm.empty _)
    rw [this]
    exact lt_of_le_of_lt ix.1 e1
  · exact e2 hp

/-- C68, exit code 0: if a solve returns 0 and the flag was not 0 before, the point left in the
structure satisfies the optimality conditions of the data in the caller's arrays at that time,
within the tolerances. `t` is the square root of 3. -/
theorem C68_exit_zero {amd : Amd} {a : SetupArgs K} {pk pb : Problem K} {q0 qp qp' : QP K}
    (h : Started amd a pk q0) (hs : Session pk q0 pb qp) (hf : qp.stats.Flag ≠ 0)
    (hr : QP_SOLVE qp = .ok (0, qp')) {t : K} (h0 : 0 ≤ t) (h3 : t * t = 3) :
    ∃ x y z s, qp'.Iter pb x y z s ∧
      pb.Approx (qp.options.reltol / t) qp.options.abstol x y z s := by
  obtain ⟨hpb, p, q, hi⟩ := h.session hs
  obtain ⟨k, qk, hk⟩ := QP_SOLVE_inv hpb hi hr
  obtain ⟨g1, g2, g3, _⟩ := hk.its.facts hpb hi
  obtain ⟨r, h5, h6⟩ := hk.stop
  have hret := hk.ret
  have hnm : r.stats.IterationCount ≠ r.options.maxit := by
    intro hc
    rw [if_pos hc] at h6
    rw [h6] at hret
    exact absurd hret (by decide : (0 : Int) ≠ QP_MAXIT)
  rw [if_neg hnm] at h6
  subst h6
  rcases h5 with ⟨_, hb⟩ | ⟨_, rfl⟩
  · obtain ⟨x, y, z, s, hit⟩ := g1.iter
    have := Session.approx h (hs.iterations hk.its) hb hit h0 h3
    rw [g2.reltol, g2.abstol] at this
    exact ⟨x, y, z, s, this⟩
  · rw [g3] at hret
    exact absurd hret.symm hf

theorem IsNorm.smul {n : Nat} {f : Nat → K} {v k : K} (h : IsNorm n f v) (hk : 0 ≤ k) :
    IsNorm n (fun i => k * f i) (k * v) := by
  refine ⟨mul_nonneg hk h.1, ?_⟩
  have : dot n (fun i => k * f i) (fun i => k * f i) = k * k * dot n f f := by
    unfold dot
    rw [mul_sum]
    exact sum_congr rfl fun i _ => by ring
  rw [this, ← h.2]
  ring

theorem tmulVec_smul (A : Csc K) (y : Nat → K) (k : K) (i : Nat) :
    A.tmulVec (fun j => k * y j) i = k * A.tmulVec y i := by
  unfold Csc.tmulVec
  rw [mul_sum]
  exact sum_congr rfl fun c _ => by ring

/-- If some combination of the constraints with nonnegative weights for the inequalities
vanishes on the left, the right-hand sides can be chosen so that no point whatsoever comes close to
satisfying the constraints. -/
theorem Problem.make_infeasible (pk : Problem K) (hpk : pk.WF) {y z : Nat → K}
    (hz : ∀ i, i < pk.m → 0 ≤ z i) (hne : ∃ i, i < pk.m ∧ z i ≠ 0)
    (orth : ∀ i, i < pk.n → pk.A.tmulVec y i + pk.G.tmulVec z i = 0) (tol : K) :
    ∃ b h, (¬ ∃ w, Problem.Feasible { pk with b := b, h := h } w) ∧
      ∀ gap x y z s, ¬ Problem.Approx { pk with b := b, h := h } tol gap x y z s := by
  obtain ⟨ny, hny⟩ : ∃ v, IsNorm pk.p y v := ⟨_, nrmF_isNorm _ _⟩
  obtain ⟨nz, hnz⟩ : ∃ v, IsNorm pk.m z v := ⟨_, nrmF_isNorm _ _⟩
  set S := dot pk.p y y + dot pk.m z z with hS
  have hS0 : 0 < S := by
    obtain ⟨i, hi, hzi⟩ := hne
    have h1 : 0 ≤ dot pk.p y y := dot_self_nonneg _ _
    have h2 : z i * z i ≤ dot pk.m z z :=
      single_le_sum (f := fun i => z i * z i) (fun j _ => mul_self_nonneg (z j)) (mem_range.mpr hi)
    have h3 : 0 < z i * z i := mul_self_pos.mpr hzi
    linarith
  set T := |tol| * (ny + nz) + 1 with hT
  have hT1 : 1 ≤ T := by
    have := mul_nonneg (abs_nonneg tol) (add_nonneg hny.1 hnz.1)
    linarith
  have hT0 : 0 < T := by linarith
  set pb : Problem K := { pk with b := fun i => -(T / S) * y i, h := fun i => -(T / S) * z i }
    with hpb
  have hw : pb.WF := ⟨⟨hpk.P, hpk.A, hpk.G, hpk.Pm, hpk.An, hpk.Gn, hpk.rows⟩, hpk.m_pos⟩
  have cert : pb.PrimalCert (fun i => T⁻¹ * y i) (fun i => T⁻¹ * z i) := by
    refine ⟨fun i hi => mul_nonneg (inv_nonneg.mpr hT0.le) (hz i hi), ?_, ?_⟩
    · intro i hi
      show pk.A.tmulVec _ i + pk.G.tmulVec _ i = 0
      rw [tmulVec_smul, tmulVec_smul, ← mul_add, orth i hi, mul_zero]
    · have e : ∀ (n : Nat) (v : Nat → K), dot n (fun i => -(T / S) * v i) (fun i => T⁻¹ * v i)
          = -(1 / S) * dot n v v := by
        intro n v
        unfold dot
        rw [mul_sum]
        refine sum_congr rfl fun i _ => ?_
        field_simp
      show dot pk.p (fun i => -(T / S) * y i) _ + dot pk.m (fun i => -(T / S) * z i) _ = -1
      rw [e, e, ← mul_add, ← hS]
      field_simp
  refine ⟨_, _, cert.infeasible hw, fun gap x' y' z' s' ha => ?_⟩
  have := ha.no_primalCert hw cert (hny.smul (inv_nonneg.mpr hT0.le))
    (hnz.smul (inv_nonneg.mpr hT0.le))
  have e : tol * (T⁻¹ * ny + T⁻¹ * nz) = tol * (ny + nz) / T := by
    field_simp
  rw [e, lt_div_iff₀ hT0, one_mul, hT] at this
  have := mul_le_mul_of_nonneg_right (le_abs_self tol) (add_nonneg hny.1 hnz.1)
  linarith

/-- C68, wrong success: for every problem in which some nonnegative combination of the inequality
rows (plus any combination of equality rows) vanishes on the left, there are right-hand sides `b`,
`h` and a history of calls (a first one that stops at the limit, a second one that succeeds) after
which overwriting `b` and `h` and solving again with unchanged options performs `maxit` iterations,
none of whose tests succeeds, and reports 0, although the problem now has no feasible point. -/
theorem C68_wrong_optimal {amd : Amd} {a : SetupArgs K} {pk : Problem K} {q0 : QP K}
    (h : Started amd a pk q0) {y z : Nat → K} (hz : ∀ i, i < pk.m → 0 ≤ z i)
    (hne : ∃ i, i < pk.m ∧ z i ≠ 0)
    (orth : ∀ i, i < pk.n → pk.A.tmulVec y i + pk.G.tmulVec z i = 0) :
    ∃ pb o1 o2 q1 q2 q3 q4, pk.SameMatrices pb ∧
      QP_SOLVE { q0 with options := o1 } = .ok (2, q1) ∧
      QP_SOLVE { q1 with options := o2 } = .ok (0, q2) ∧
      q2.Overwritten q3 ∧ q3.Holds pb ∧
      QP_SOLVE q3 = .ok (0, q4) ∧ 0 < q3.options.maxit ∧ Iterations q3.options.maxit.toNat q3 q4 ∧
      ¬ ∃ w, pb.Feasible w := by
  obtain ⟨q1, h1, hc, hf1⟩ := first_call h
  have hr1 : Reach q0 q1 := .solve (.options _ .start) h1
  obtain ⟨p, q, hs, _⟩ := h.sinv hr1
  obtain ⟨x0, y0, z0, s0, hi⟩ := hs.iter
  obtain ⟨rt, ab, hex⟩ := exists_tolerances pk x0 y0 z0 s0
  obtain ⟨t3, ht0, ht3⟩ := sqrt3_exists (K := K)
  set o2 : Settings K := { maxit := 5, reltol := rt, abstol := ab, sigma := 100, verbose := 0 }
  have hr2 : Reach q0 { q1 with options := o2 } := .options o2 hr1
  have hi2 : QP.Iter pk { q1 with options := o2 } x0 y0 z0 s0 := ⟨hi.x, hi.y, hi.z, hi.s⟩
  obtain ⟨p', q', hs2, _⟩ := h.sinv hr2
  have hset : Settled pk p' q' { q1 with options := o2 } :=
    ⟨hs2, Or.inl le_rfl, ⟨x0, y0, z0, s0, hi2, hex _ rfl rfl⟩, (by decide : (0 : Int) < 5),
      by show q1.stats.IterationCount ≠ 5; rw [hc]; decide⟩
  obtain ⟨q2, h2, sp, hset2, hb2⟩ := hset.solve h.wf
  have hopt : q2.options = o2 := by
    have := ((hs2.bodyOut h.wf hb2 hi2).stop rfl).2.2.1
    exact this
  obtain ⟨b, hh, hinf, hno⟩ := pk.make_infeasible h.wf hz hne orth (rt / t3)
  set pb : Problem K := { pk with b := b, h := hh }
  have hse : Session pk q0 pk q2 := .solve (.options o2 (.solve (.options _ .start) h1)) h2
  have hmat : pk.SameMatrices pb := ⟨rfl, rfl, rfl, rfl⟩
  obtain ⟨q3, how, hholds, hse3, ho3, hst3⟩ := hse.overwrite h hmat.pattern
  obtain ⟨hpb, p3, r3, hs3⟩ := h.session hse3
  have hopt3 : q3.options = o2 := ho3.trans hopt
  obtain ⟨k, qk, f, q4, h4, hrun⟩ := QP_SOLVE_run hpb hs3
    (Or.inl (by rw [hopt3]))
  obtain ⟨g1, g2, g3, g4⟩ := hrun.its.facts hpb hs3
  obtain ⟨r, h5, h6⟩ := hrun.stop
  have hkr : k = q3.options.maxit.toNat ∧ r = qk := by
    rcases h5 with ⟨_, hb⟩ | hk
    · obtain ⟨x, y, z, s, hit⟩ := g1.iter
      have := (Session.approx h (hse3.iterations hrun.its) hb hit ht0 ht3).2
      rw [g2.reltol, hopt3] at this
      exact absurd this (hno _ _ _ _ _)
    · exact hk
  obtain ⟨rfl, rfl⟩ := hkr
  have hcnt : q3.stats.IterationCount = 1 := by
    have := sp.count
    simp only at this
    rw [hst3]
    exact this.trans hc
  have hfl : q3.stats.Flag = 0 := by
    obtain ⟨_, _, hrun2⟩ := QP_SOLVE_inv h.wf hs2 h2
    rw [hst3]
    exact hrun2.ret.symm
  rw [if_neg (by
    rw [g4, g2.maxit, hcnt, hopt3]
    exact (by decide : (1 : Int) + ((5 : Int).toNat : Int) ≠ 5))] at h6
  subst h6
  have hf0 : f = 0 := hrun.ret.trans (g3.trans hfl)
  subst hf0
  exact ⟨pb, _, o2, q1, q2, q3, q4, hmat, h1, h2, how, hholds, h4,
    by rw [hopt3]; exact (by decide : (0 : Int) < 5), hrun.its, hinf⟩

end

/-! ## Examples -/

/-- C68, wrong success: `minimise x²/2 + x subject to 3x ≤ -1, -4x ≤ -1` with the bounds of a
feasible problem at setup. -/
example : ∃ (q0 : QP ℝ) (pb : Problem ℝ) (q3 q4 : QP ℝ),
    QP_SETUP failAmd (Problem.args { clashPb ℝ with h := fun _ => 1 }
      (some (Buf.ofFn 3 (fun i => (i : Int))))) = .ok q0 ∧
    (clashPb ℝ).G = pb.G ∧ q3.Holds pb ∧ QP_SOLVE q3 = .ok (0, q4) ∧ 0 < q3.options.maxit ∧
    Iterations q3.options.maxit.toNat q3 q4 ∧ ¬ ∃ w, pb.Feasible w := by
  set pk : Problem ℝ := { clashPb ℝ with h := fun _ => 1 }
  have hw : pk.WF := Problem.SamePattern.wf (pk := clashPb ℝ)
    ⟨⟨_, rfl⟩, ⟨_, rfl⟩, ⟨_, rfl⟩, rfl⟩ clashPb_wf
  have hg : (pk.args (some (Buf.ofFn 3 (fun i => (i : Int))))).Give pk :=
    Problem.args_give _ _ (fun _ => rfl)
  have hs : PermSource failAmd (some (Buf.ofFn 3 (fun i => (i : Int))))
      (pk.args (some (Buf.ofFn 3 (fun i => (i : Int))))).p pk :=
    Or.inl ⟨_, _, _, rfl, idPair 3, Buf.has_ofFn _ _⟩
  obtain ⟨q0, h0⟩ := C26_setup hw hg hs
  have h : Started failAmd _ pk q0 := ⟨hw, hg, hs, h0⟩
  obtain ⟨pb, _, _, _, _, q3, q4, g1, _, _, _, g2, g3, g4, g5, g6⟩ :=
    C68_wrong_optimal h (y := fun _ => 0) (z := fun i => if i = 0 then 4 / 7 else 3 / 7)
      clashPb_cert.nonneg ⟨0, Nat.zero_lt_two, by norm_num⟩ clashPb_cert.orth
  exact ⟨q0, pb, q3, q4, h0, g1.G.symm, g2, g3, g4, g5, g6⟩

/-- The demo with all values of `P` replaced by 9 and other linear terms. -/
def changedPb (K : Type) [Field K] : Problem K :=
  { demoPb K with P := { (demoPb K).P with pr := fun _ => 9 }, c := fun _ => 1, h := fun _ => 5 }

/-- C68, directions: the demo is set up, then `P`, `c` and `h` are overwritten; the next step uses
the old `P` on the left. -/
example : ∃ (q0 qp qp' : QP ℝ) (x y z s e dx dy dz ds tgt : Nat → ℝ),
    Started failAmd (demoArgs ℝ) (demoPb ℝ) q0 ∧ Session (demoPb ℝ) q0 (changedPb ℝ) qp ∧
    solveBody qp = .ok (qp', false) ∧ qp.Iter (changedPb ℝ) x y z s ∧
    (demoPb ℝ).P.mulVec dx 0 + (demoPb ℝ).A.tmulVec dy 0 + (demoPb ℝ).G.tmulVec dz 0 + e 0 * dx 0
      = (changedPb ℝ).rx x y z 0 ∧ 0 < s 0 ∧
    (demoPb ℝ).LinearisedWith (changedPb ℝ) e x y z s tgt dx dy dz ds := by
  obtain ⟨q0, h⟩ := demo_started ℝ
  obtain ⟨q1, _, _, hse, ho, _⟩ := (Session.start (q0 := q0)).overwrite h
    (pb' := changedPb ℝ) ⟨⟨_, rfl⟩, ⟨_, rfl⟩, ⟨_, rfl⟩, rfl⟩
  set o : Settings ℝ := { maxit := 5, reltol := 0, abstol := 0, sigma := 100, verbose := 0 }
  have hse' := hse.options o
  obtain ⟨hpb, p, q, hi⟩ := h.session hse'
  obtain ⟨x, y, z, s, ⟨qp', b⟩, hit, hb, hbo⟩ := hi.body hpb (Or.inl le_rfl)
  obtain ⟨t, h0, h3⟩ := sqrt3_exists (K := ℝ)
  have hbf : b = false := by
    by_contra hc
    have : b = true := by simpa using hc
    subst this
    obtain ⟨v, hv, hlt⟩ := (Session.approx h hse' hb hit h0 h3).2.rx
    have hlt : v < 0 / t := hlt
    rw [zero_div] at hlt
    linarith [hv.1]
  subst hbf
  obtain ⟨e, dx, dy, dz, ds, tgt, _, _, _, _, _, _, hl, _⟩ :=
    C68_directions h demoPb_symm hse' hb hit
  exact ⟨q0, _, qp', x, y, z, s, e, dx, dy, dz, ds, tgt, h, hse', hb, hit, hl.rx 0 (by decide),
    (C68_positive h hse' hit 0 (by decide)).1, hl⟩

/-- C68, exit code 0: after overwriting the data a first solve can return 0, and then the point
fits the new data. -/
example : ∃ (q0 qp qp' : QP ℝ) (t : ℝ) (x y z s : Nat → ℝ),
    Started failAmd (demoArgs ℝ) (demoPb ℝ) q0 ∧ Session (demoPb ℝ) q0 (changedPb ℝ) qp ∧
    QP_SOLVE qp = .ok (0, qp') ∧ 0 ≤ t ∧ t * t = 3 ∧ qp'.Iter (changedPb ℝ) x y z s ∧
    (changedPb ℝ).Approx (qp.options.reltol / t) qp.options.abstol x y z s := by
  obtain ⟨q0, h⟩ := demo_started ℝ
  obtain ⟨q1, _, _, hse, ho, hst1⟩ := (Session.start (q0 := q0)).overwrite h
    (pb' := changedPb ℝ) ⟨⟨_, rfl⟩, ⟨_, rfl⟩, ⟨_, rfl⟩, rfl⟩
  obtain ⟨t, h0, h3⟩ := sqrt3_exists (K := ℝ)
  obtain ⟨hpb, p, q, hi⟩ := h.session hse
  obtain ⟨x, y, z, s, hit⟩ := hi.iter
  obtain ⟨rt, ab, hex⟩ := exists_tolerances (changedPb ℝ) x y z s
  set o : Settings ℝ := { maxit := 5, reltol := rt, abstol := ab, sigma := 100, verbose := 0 }
  have hse' := hse.options o
  obtain ⟨hpb', p', q', hi'⟩ := h.session hse'
  have hit' : QP.Iter (changedPb ℝ) { q1 with options := o } x y z s :=
    ⟨hit.x, hit.y, hit.z, hit.s⟩
  obtain ⟨p0, r0, hd⟩ := h.done
  obtain ⟨re, hst⟩ := hd.stats
  obtain ⟨k, qk, f, qp', hr, hrun⟩ := QP_SOLVE_run hpb' hi' (Or.inl le_rfl)
  have hk : k = 0 := by
    by_contra hne
    obtain ⟨j, rfl⟩ := Nat.exists_eq_succ_of_ne_zero hne
    have : ∀ {j : Nat} {a b : QP ℝ}, Iterations (j + 1) a b → ∃ c, solveBody a = .ok (c, false) := by
      intro j
      induction j with
      | zero =>
        intro a b hi
        cases hi with
        | succ h1 h2 => cases h1; exact ⟨_, h2⟩
      | succ j ih =>
        intro a b hi
        cases hi with
        | succ h1 h2 => exact ih h1
    obtain ⟨c, hb⟩ := this hrun.its
    have := (hi'.bodyOut hpb' hb hit').brk
    rw [hex _ rfl rfl] at this
    simp at this
  subst hk
  obtain ⟨r, h5, h6⟩ := hrun.stop
  have hqk : qk = { q1 with options := o } := by
    cases hrun.its; rfl
  rcases h5 with ⟨_, hb⟩ | ⟨hc, _⟩
  · rw [hqk] at hb
    have hbo := hi'.bodyOut hpb' hb hit'
    have hcnt := hbo.count
    have hfl := hbo.flag
    have hop := (hbo.stop rfl).2.2.1
    simp only [if_true] at hcnt hfl hop
    rw [if_neg (by
      rw [hcnt, hop, hst1, hst]
      exact (by decide : (0 : Int) + 0 ≠ 5))] at h6
    subst h6
    have hf0 : f = 0 := hrun.ret.trans hfl
    subst hf0
    obtain ⟨x', y', z', s', g1, g2⟩ := C68_exit_zero h hse' (by
      show q1.stats.Flag ≠ 0
      rw [hst1, hst]
      exact (by decide : (3 : Int) ≠ 0)) hr h0 h3
    exact ⟨q0, _, qp', t, x', y', z', s', h, hse', hr, h0, h3, g1, g2⟩
  · exact absurd hc (by decide : (0 : Nat) ≠ (5 : Int).toNat)

end Verif
