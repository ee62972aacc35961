import Verif.Lemmas.NullTouch

/-!
# Arrays that setup does not access

Setup with these arrays missing does what it does with them.
-/

set_option linter.unusedSectionVars false

namespace Verif

/-- Apply a function to the result. -/
def M.mapOk {α β : Type} (h : α → β) (m : M α) : M β := m >>= fun a => pure (h a)

theorem mapOk_bind {α β γ : Type} {m : M α} {f : α → M β} {g : α → M γ} {h : γ → β}
    (H : ∀ a, f a = M.mapOk h (g a)) : (m >>= f) = M.mapOk h (m >>= g) := by
  cases m with
  | error e => rfl
  | ok a => exact H a

theorem mapOk_ite {β γ : Type} {c : Prop} [Decidable c] {f₁ f₂ : M β} {g₁ g₂ : M γ} {h : γ → β}
    (h₁ : f₁ = M.mapOk h g₁) (h₂ : f₂ = M.mapOk h g₂) :
    (if c then f₁ else f₂) = M.mapOk h (if c then g₁ else g₂) := by
  split
  · exact h₁
  · exact h₂

variable {K : Type} [Zero K] [One K] [Add K] [Sub K] [Mul K] [Div K] [Neg K] [Scalar K]

/-- The arrays that setup allocates without accessing them. -/
structure Spare (K : Type) where
  rx : Buf K
  ry : Buf K
  rz : Buf K
  delta_x : Buf K
  delta_y : Buf K
  delta_z : Buf K
  delta_s : Buf K
  ds : Buf K
  lambda : Buf K
  temp : Buf K
  UPattern : Buf Int

/-- Replace these arrays. -/
def QP.spare (q : QP K) (u : Spare K) : QP K :=
  { q with rx := u.rx, ry := u.ry, rz := u.rz, delta_x := u.delta_x, delta_y := u.delta_y
           delta_z := u.delta_z, delta_s := u.delta_s, ds := u.ds, lambda := u.lambda
           temp := u.temp, kkt := { q.kkt with UPattern := u.UPattern } }

theorem ldlinitialsolve_pass {k : Kkt K} {delta : Buf K} (U : Buf Int) :
    ldlinitialsolve { k with UPattern := U } delta
      = M.mapOk (fun r => (r.1, { r.2.1 with UPattern := U }, r.2.2)) (ldlinitialsolve k delta) := by
  unfold ldlinitialsolve
  refine mapOk_bind fun sy => mapOk_bind fun Pi => mapOk_bind fun lnz => ?_
  unfold callNumeric
  simp only [bind_assoc, pure_bind]
  refine mapOk_bind fun r => mapOk_bind fun t => mapOk_ite ?_ rfl
  unfold ldlSolve
  simp only [bind_assoc, pure_bind]
  refine mapOk_bind fun _ => mapOk_bind fun _ => mapOk_bind fun _ => mapOk_bind fun _ =>
    mapOk_bind fun _ => rfl

theorem kkt_initialize_pass {q : QP K} (u : Spare K) :
    kkt_initialize (q.spare u) = M.mapOk (fun r => (r.1, r.2.spare u)) (kkt_initialize q) := by
  unfold kkt_initialize
  refine mapOk_bind fun b1 => mapOk_bind fun b2 => mapOk_bind fun b3 => ?_
  have := ldlinitialsolve_pass (k := { q.kkt with b := b3 }) (delta := q.delta) u.UPattern
  have e : ldlinitialsolve { (q.spare u).kkt with b := b3 } (q.spare u).delta
      = ldlinitialsolve { { q.kkt with b := b3 } with UPattern := u.UPattern } q.delta := rfl
  rw [e, this]
  unfold M.mapOk
  simp only [bind_assoc, pure_bind]
  cases ldlinitialsolve { q.kkt with b := b3 } q.delta with
  | error e => rfl
  | ok r =>
    refine mapOk_ite ?_ rfl
    refine mapOk_bind fun x => mapOk_bind fun y => mapOk_bind fun z1 => mapOk_bind fun z2 =>
      mapOk_bind fun mm => mapOk_bind fun s => mapOk_bind fun z => rfl

theorem init_pass {q q' : QP K} {u : Spare K} (h : q' = q.spare u) {f g : Int × QP K → M (QP K)}
    (H : ∀ r : Int × QP K, f (r.1, r.2.spare u) = M.mapOk (fun q => q.spare u) (g r)) :
    (kkt_initialize q' >>= f) = M.mapOk (fun q => q.spare u) (kkt_initialize q >>= g) := by
  rw [h, kkt_initialize_pass]
  cases kkt_initialize q with
  | error e => rfl
  | ok r => exact H r

theorem mallocF_true {α : Type} {t : Bool} {n : Int} (h : t = true) :
    (mallocF t n : Buf α) = malloc n := by
  unfold mallocF
  rw [if_pos h]

theorem mallocF_nil {α : Type} {t : Bool} {n : Int} (h : t = true ∨ n ≤ 0) :
    (mallocF t n : Buf α) = malloc n := by
  rcases h with h | h
  · exact mallocF_true h
  · unfold mallocF malloc
    split
    · rfl
    · rw [show n.toNat = 0 by omega]; rfl

theorem structF_true {t : Bool} (h : t = true) : structF t = .ok () := by
  unfold structF
  rw [if_pos h]

/-- The allocations of `kkt_initialize` that are used. -/
structure InitOk (al : Site → Bool) : Prop where
  Y : al .Y = true
  D : al .D = true
  Lp : al .Lp = true
  Parent : al .Parent = true
  Pattern : al .Pattern = true
  Flag : al .Flag = true
  Lnz : al .Lnz = true
  Li : al .Li = true
  Lx : al .Lx = true
  Lti : al .Lti = true
  Ltp : al .Ltp = true
  countL : al .countL = true
  z_inter : al .z_inter = true

theorem rowcount_ok {al : Site → Bool} (h : InitOk al) (m n : Int) (Li Lp Lti Ltp : Buf Int) :
    Transpose_Row_CountF al m n Li Lp Lti Ltp = Transpose_Row_Count m n Li Lp Lti Ltp := by
  unfold Transpose_Row_CountF Transpose_Row_Count
  rw [mallocF_true h.countL]

theorem initialize_ok {al : Site → Bool} (h : InitOk al) (q : QP K) :
    kkt_initializeF al q = kkt_initialize q := by
  have e : ∀ (k : Kkt K) d, ldlinitialsolveF al k d = ldlinitialsolve k d := by
    intro k d
    unfold ldlinitialsolveF ldlinitialsolve
    simp only [mallocF_true h.Y, mallocF_true h.D, mallocF_true h.Lp, mallocF_true h.Parent,
      mallocF_true h.Pattern, mallocF_true h.Flag, mallocF_true h.Lnz, mallocF_true h.Li,
      mallocF_true h.Lx, mallocF_true h.Lti, mallocF_true h.Ltp, rowcount_ok h]
  unfold kkt_initializeF kkt_initialize
  simp only [mallocF_true h.z_inter, e]

/-- The allocations of the common part of setup that are used. -/
structure TailOk (al : Site → Bool) (si : SetupIn K) : Prop extends InitOk al where
  Gt : al .Gt = true
  Gtjc : al .Gtjc = true
  Gtir : al .Gtir = true
  Gtpr : al .Gtpr = true
  Gcount : al .Gcount = true
  A : ∀ A, si.A = some A → al .At = true ∧ al .Atjc = true ∧ al .Acount = true ∧ al .y = true ∧
    (al .Atir = true ∨ A.nnz ≤ 0) ∧ (al .Atpr = true ∨ A.nnz ≤ 0)
  kkt : al .kkt = true
  kktmatrix : al .kktmatrix = true
  kktjc : al .kktjc = true
  kktir : al .kktir = true
  kktpr : al .kktpr = true
  kktb : al .kktb = true
  Pinv : al .Pinv = true
  kktP : si.Permut = none → al .kktP = true
  x : al .x = true
  z : al .z = true
  s : al .s = true
  delta : al .delta = true

/-- The arrays that setup does not access, as allocated. -/
def spareF (al : Site → Bool) (n m p : Int) (hasA : Bool) : Spare K where
  rx := mallocF (al .rx) n
  ry := if hasA then mallocF (al .ry) p else []
  rz := mallocF (al .rz) m
  delta_x := mallocF (al .delta_x) n
  delta_y := if hasA then mallocF (al .delta_y) p else []
  delta_z := mallocF (al .delta_z) m
  delta_s := mallocF (al .delta_s) m
  ds := mallocF (al .ds) m
  lambda := mallocF (al .lambda) m
  temp := mallocF (al .temp) n
  UPattern := mallocF (al .UPattern) (m + n + p)

theorem transposeF_ok {t : Bool} (h : t = true) (A At : Smat K) :
    SparseMatrixTransposeF t A At = SparseMatrixTranspose A At := by
  unfold SparseMatrixTransposeF SparseMatrixTranspose
  rw [mallocF_true h]

theorem choosePerm_ok {al : Site → Bool} {amd : Amd} {si : SetupIn K} (h : TailOk al si)
    (k : Smat K) (dim : Int) : choosePermF al amd si k dim = choosePerm amd si k dim := by
  unfold choosePermF choosePerm
  cases hP : si.Permut with
  | some Q => rfl
  | none =>
    simp only [h.kktP hP, h.kktjc, h.kktir, Bool.and_self, if_true, mallocF]

/-- With all accessed arrays allocated, setup does what it does if all allocations succeed, and leaves
the other arrays as allocated. -/
theorem setupTail_ok {al : Site → Bool} {amd : Amd} {si : SetupIn K} (h : TailOk al si) :
    setupTailF al amd si = M.mapOk (fun q => q.spare
      (spareF al si.argn si.argm si.p si.A.isSome)) (setupTail amd si) := by
  unfold setupTailF setupTail
  have hG : transposeGF al si.G = allocTranspose si.G := by
    unfold transposeGF allocTranspose
    rw [structF_true h.Gt, ok_bind, transposeF_ok h.Gcount, mallocF_true h.Gtjc,
      mallocF_true h.Gtir, mallocF_true h.Gtpr]
  rw [hG]
  have hA : ∀ A, si.A = some A → transposeAF al A = allocTranspose A := by
    intro A e
    obtain ⟨h1, h2, h3, h4, h5, h6⟩ := h.A A e
    unfold transposeAF allocTranspose
    rw [structF_true h1, ok_bind, transposeF_ok h3, mallocF_true h2, mallocF_nil h5,
      mallocF_nil h6]
  dsimp only
  simp only [structF_true h.kkt, structF_true h.kktmatrix, ok_bind, choosePerm_ok h,
    mallocF_true h.kktjc, mallocF_true h.kktir, mallocF_true h.kktpr, mallocF_true h.kktb,
    mallocF_true h.Pinv, mallocF_true h.x, mallocF_true h.z, mallocF_true h.s,
    mallocF_true h.delta, initialize_ok (K := K) h.toInitOk]
  cases e : si.A with
  | none =>
    dsimp only
    refine mapOk_bind fun At => mapOk_bind fun Gt => mapOk_bind fun k => mapOk_bind fun pr => ?_
    refine init_pass (K := K) (u := spareF al si.argn si.argm si.p false) ?_ fun r => ?_
    · rfl
    · exact mapOk_ite rfl rfl
  | some A =>
    obtain ⟨h1, h2, h3, h4, h5, h6⟩ := h.A A e
    dsimp only
    rw [hA A e]
    simp only [bind_assoc, pure_bind, mallocF_true h4]
    refine mapOk_bind fun At => mapOk_bind fun Gt => mapOk_bind fun k => mapOk_bind fun pr => ?_
    refine init_pass (K := K) (u := spareF al si.argn si.argm si.p true) ?_ fun r => ?_
    · rfl
    · exact mapOk_ite rfl rfl

end Verif
