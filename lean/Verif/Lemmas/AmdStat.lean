import Verif.Model.AmdInfo
import Verif.Lemmas.AmdOutput2
import Verif.Lemmas.AmdFill

/-!
# The statistics computed by `AMD_2`
-/

namespace Verif

open Finset

/-! ## The dense nodes -/

theorem amd2InitI_spec {n iwlen dense0 wbig : Int} {A : Int → List Int} {s : Amd2} (hB : n ≤ Int_MAX) (hn : 0 ≤ n)
    (h : GIn n iwlen A s) :
    Spec (amd2InitI n dense0 wbig s) (fun r => InitOut n iwlen (min n (max 16 dense0)) A r.2 ∧
      r.1 = (((Ico 0 n).filter (fun x => min n (max 16 dense0) < ((A x).length : Int))).card : Int)) := by
  unfold amd2InitI
  refine Spec.bind (initNodes_spec hn h) ?_
  intro s1 h1
  have hcf : clear_flag 0 wbig s1.W n = clear_flag 2 2 s1.W n := by
    unfold clear_flag
    rw [if_pos (Or.inl (by omega)), if_pos (Or.inr (by omega))]
  rw [hcf]
  refine Spec.bind (clear_flag_spec hn h1.aW (fun x x0 x1 => by rw [h1.vW x x0 x1]; omega)) ?_
  rintro ⟨wf, W⟩ ⟨aW, hwf, -, hWlt, hWz⟩
  simp only at aW hwf hWlt hWz ⊢
  have hdg := init_deg h h1
  set dense := min n (max 16 dense0) with hdense
  have hd0 : 0 ≤ dense := by omega
  set s2 : Amd2 := { s1 with nel := 0, mindeg := 0, lemax := 0, wflg := wf, W := W } with hs2
  have hlen : ∀ x, 0 ≤ x → x < n → s1.Degree.at x = (A x).length := by
    intro x x0 x1
    rw [← h.len x x0 x1]; exact h1.vD x x0 x1
  refine (forI_int hn (fun k (r : Int × Amd2) => Init2 n dense s2 k r.2 ∧
    r.1 = (((Ico 0 k).filter (fun x => dense < ((A x).length : Int))).card : Int)) ⟨?_, by simp⟩ ?_).mono ?_
  · exact classify_start (by simp only [hs2]; rw [h1.ePe]; exact h.aP) h1.aT h1.aH h1.aN h1.aNv aW h1.aE h1.vT h1.vH
  · rintro k ⟨nd, t⟩ k0 k1 ⟨ht, hnd⟩
    simp only at ht hnd
    unfold amd2ClassifyI
    have hD : Arr t.Degree n n := by rw [ht.eD]; exact h1.aD
    have hv : t.Degree.at k = (A k).length := by rw [ht.eD]; exact hlen k k0 k1
    have hcard : (((Ico 0 k).filter (fun x => dense < ((A x).length : Int))).card : Int) ≤ k := by
      have := card_filter_le (Ico 0 k) (fun x => dense < ((A x).length : Int))
      rw [Int.card_Ico] at this
      omega
    have hnk : k ∉ (Ico 0 k).filter (fun x => dense < ((A x).length : Int)) := by simp
    rw [hD.rd k0 k1, ok_bind, hv]
    have hb : (if ((A k).length : Int) = 0 then pure nd else if ((A k).length : Int) > dense then ck (nd + 1) else pure nd : M Int)
        = .ok (((Ico 0 (k + 1)).filter (fun x => dense < ((A x).length : Int))).card : Int) := by
      rw [Ico_succ_int k0, filter_insert]
      by_cases h0 : ((A k).length : Int) = 0
      · rw [if_pos h0, if_neg (by omega), hnd]; rfl
      · rw [if_neg h0]
        by_cases h2 : ((A k).length : Int) > dense
        · rw [if_pos h2, if_pos h2, card_insert_of_notMem hnk, ck_ok (by omega), hnd]
          push_cast
          rfl
        · rw [if_neg h2, if_neg h2, hnd]; rfl
    simp only
    rw [hb, ok_bind]
    refine Spec.bind (classify_step (s := s2) hB rfl hd0 h1.aD hdg k0 k1 ht) ?_
    intro t' ht'
    exact Spec.pure ⟨ht', rfl⟩
  · rintro ⟨nd, t⟩ ⟨ht, hnd⟩
    exact ⟨init_fin hn hd0 h h1 (by omega) hWlt hWz ht, hnd⟩

/-! ## The sums over the fronts -/

section

variable {n nd : Int} {P : Int → Prop} {V Z V' Z' : Finset Int} {rep rep' : Int → Int} {C C' : Int → Finset Int}
  {t : AmdStat}

open Classical in
/-- The fronts found so far that do not belong to a node without neighbours. -/
noncomputable def fronts (n : Int) (P : Int → Prop) (V Z : Finset Int) : Finset Int :=
  (Ico 0 n).filter (fun g => Elim n V Z g ∧ P g)

/-- A sum over the fronts. -/
noncomputable def frontSum (n nd : Int) (P : Int → Prop) (V Z : Finset Int) (rep : Int → Int) (C : Int → Finset Int)
    (φ : Int → Int → Int) : Int := ∑ g ∈ fronts n P V Z, φ (cnt n rep g) ((C g).card + nd)

def fLnz (f r : Int) : Int := f * r + (f - 1) * f / 2

def fLu (f r : Int) : Int := f * r * r + r * (f - 1) * f + (f - 1) * f * (2 * f - 1) / 6

def fLdl (f r : Int) : Int := (fLu f r + fLnz f r) / 2

structure StatI (n nd : Int) (P : Int → Prop) (V Z : Finset Int) (rep : Int → Int) (C : Int → Finset Int)
    (t : AmdStat) : Prop where
  lnz : t.lnz = frontSum n nd P V Z rep C fLnz
  ndiv : t.ndiv = frontSum n nd P V Z rep C fLnz
  lu : t.nmsLu = frontSum n nd P V Z rep C fLu
  ldl : t.nmsLdl = frontSum n nd P V Z rep C fLdl
  one : 1 ≤ t.dmax
  dmax : ∀ g ∈ fronts n P V Z, cnt n rep g + ((C g).card + nd) ≤ t.dmax

theorem mem_fronts {g : Int} : g ∈ fronts n P V Z ↔ (0 ≤ g ∧ g < n) ∧ Elim n V Z g ∧ P g := by
  classical
  unfold fronts
  rw [mem_filter, mem_Ico]

theorem StatI.start (h : ∀ g, Elim n V Z g → ¬ P g) : StatI n nd P V Z rep C AmdStat.init := by
  have e : fronts n P V Z = ∅ := by
    ext g
    rw [mem_fronts]
    simp only [notMem_empty, iff_false]
    exact fun q => h g q.2.1 q.2.2
  refine ⟨?_, ?_, ?_, ?_, by decide, ?_⟩ <;> simp [frontSum, e, AmdStat.init]

theorem StatI.step (h : StatI n nd P V Z rep C t) {me f r : Int} (hE : ∀ x, Elim n V' Z' x ↔ x = me ∨ Elim n V Z x)
    (hme : ¬ Elim n V Z me) (hr : 0 ≤ me ∧ me < n) (hP : P me)
    (hrep : ∀ x, Elim n V Z x → ∀ z, rep' z = x ↔ rep z = x) (hC : ∀ x, x ≠ me → C' x = C x)
    (hf : f = cnt n rep' me) (hr' : r = (C' me).card + nd) : StatI n nd P V' Z' rep' C' (t.front f r) := by
  have e : fronts n P V' Z' = insert me (fronts n P V Z) := by
    ext g
    rw [mem_insert, mem_fronts, mem_fronts, hE]
    constructor
    · rintro ⟨q1, rfl | q2, q3⟩
      · exact Or.inl rfl
      · exact Or.inr ⟨q1, q2, q3⟩
    · rintro (rfl | ⟨q1, q2, q3⟩)
      · exact ⟨hr, Or.inl rfl, hP⟩
      · exact ⟨q1, Or.inr q2, q3⟩
  have hn : me ∉ fronts n P V Z := fun h' => hme (mem_fronts.mp h').2.1
  have hs : ∀ φ, frontSum n nd P V' Z' rep' C' φ = frontSum n nd P V Z rep C φ + φ f r := by
    intro φ
    unfold frontSum
    rw [e, sum_insert hn, ← hf, ← hr', add_comm]
    congr 1
    refine sum_congr rfl fun g hg => ?_
    have hg' := (mem_fronts.mp hg).2.1
    rw [cnt_congr (hrep g hg'), hC g (fun e : g = me => hme (e ▸ hg'))]
  refine ⟨?_, ?_, ?_, ?_, ?_, ?_⟩
  · rw [hs, ← h.lnz]; rfl
  · rw [hs, ← h.ndiv]; rfl
  · rw [hs, ← h.lu]; rfl
  · rw [hs, ← h.ldl]; rfl
  · exact le_trans h.one (le_max_left _ _)
  · intro g hg
    rw [e, mem_insert] at hg
    rcases hg with rfl | hg
    · rw [← hf, ← hr']
      exact le_max_right _ _
    · have hg' := (mem_fronts.mp hg).2.1
      rw [cnt_congr (hrep g hg'), hC g (fun e : g = me => hme (e ▸ hg'))]
      exact le_trans (h.dmax g hg) (le_max_left _ _)

end

/-! ## The main loop -/

/-- The state of the main loop. -/
def LoopI (n iwlen nd : Int) (adj : Int → Int → Prop) (Z0 : Finset Int) (r : AmdStat × Amd2) : Prop :=
  0 ≤ r.2.nel ∧ ∃ V K Z E A L rep rk C, AInv n iwlen V K Z E A L rep rk r.2 ∧
    QSem n adj V K Z A L rep r.2.Pe.at C ∧ (∀ z, 0 ≤ z → z < n → (rep z = -1 ↔ z ∈ Z0)) ∧
    (∀ g, Elim n V Z g → (¬ ∃ v, adj g v) → ∀ z, rep z = g → z = g) ∧
    StatI n nd (fun g => ∃ v, adj g v) V Z rep C r.1

variable {n iwlen nd : Int} {adj : Int → Int → Prop} {Z0 : Finset Int}

theorem loopI_spec {wbig : Int} {aggr : Bool} (hBig : 0 ≤ n ∧ 0 ≤ iwlen ∧ 3 * (n + iwlen) + 10 ≤ Int_MAX)
    (hwb : wbig = Int_MAX - n) (hnd : 0 ≤ nd ∧ nd ≤ n) {r : AmdStat × Amd2} (h : LoopI n iwlen nd adj Z0 r) :
    Spec (whileM n.toNat (fun r : AmdStat × Amd2 => pure (decide (r.2.nel < n))) (amd2IterI aggr n iwlen wbig nd) r)
      (fun r' => LoopI n iwlen nd adj Z0 r' ∧ r'.2.nel = n) := by
  refine whileM_spec (LoopI n iwlen nd adj Z0) (fun r => (n - r.2.nel).toNat) _ h
    (by have := h.1; omega) ?_
  rintro ⟨t, s⟩ h
  obtain ⟨h0, V, K, Z, E, A, L, rep, rk, C, hi, hs, hz, hiso, hst⟩ := id h
  refine Spec.pure ?_
  simp only at hi hs hst h0 ⊢
  have hle := hi.nelPos
  by_cases hlt : s.nel < n
  · simp only [hlt, decide_true, if_true]
    unfold amd2IterI
    refine Spec.bind (amd2IterF_spec hBig hwb hi hlt) ?_
    rintro ⟨degme, nvpiv, s'⟩ ⟨h1, V', K', Z', E', A', L', rep', rk', me, hi', hE, hme, hnv, hrep, -, hsem⟩
    obtain ⟨C', hs', hc, hC⟩ := hsem adj C hs
    simp only at h1 hi' hnv hs' hc ⊢
    have hmr := hi.g.Vr me hme
    have hne : ¬ Elim n V Z me := fun h' => h'.2.1 hme
    have hcn : ((C' me).card : Int) ≤ n := by
      have hsub : C' me ⊆ Ico 0 n := fun v hv => mem_Ico.mpr (hs'.dom me ((hE me).mpr (Or.inl rfl)) v hv).1
      have := card_le_card hsub
      rw [Int.card_Ico] at this
      omega
    rw [ck_bind (by omega)]
    refine Spec.pure ⟨⟨by simp only; omega, V', K', Z', E', A', L', rep', rk', C', hi', hs', ?_, ?_, ?_⟩,
      by simp only; omega⟩
    · intro z z0 z1
      rw [hrep _ (Or.inl rfl), hz z z0 z1]
    · intro g hg hng z hzg
      rcases (hE g).mp hg with rfl | hg'
      · exact absurd (hs.nis g hme) hng
      · exact hiso g hg' hng z ((hrep g (Or.inr hg') z).mp hzg)
    · exact hst.step hE hne hmr (hs.nis me hme) (fun x hx => hrep x (Or.inr hx)) hC hnv (by rw [hc])
  · simp only [hlt, decide_false, Bool.false_eq_true, if_false]
    exact ⟨h, by omega⟩

/-- The statistics bound the factor of the matrix permuted by `p`: `adj u v` says that the matrix has
an entry in row `u` and column `v`. -/
structure FillBound (N : Nat) (adj : Nat → Nat → Prop) (p : Nat → Nat) (t : AmdStat) : Prop where
  lnz : ∑ j ∈ range N, (colCount N (fun j k => adj (p j) (p k)) j : Int) ≤ t.lnz
  ndiv : ∑ j ∈ range N, (colCount N (fun j k => adj (p j) (p k)) j : Int) ≤ t.ndiv
  lu : ∑ j ∈ range N, (colCount N (fun j k => adj (p j) (p k)) j : Int) * colCount N (fun j k => adj (p j) (p k)) j
    ≤ t.nmsLu
  ldl : ∑ j ∈ range N, (colCount N (fun j k => adj (p j) (p k)) j : Int)
    * (colCount N (fun j k => adj (p j) (p k)) j + 1) / 2 ≤ t.nmsLdl
  dmax : ∀ j, j < N → (colCount N (fun j k => adj (p j) (p k)) j : Int) + 1 ≤ t.dmax

theorem Final.bound {N : Nat} {adj : Int → Int → Prop} {Z : Finset Int} {A L : Int → List Int} {rep : Int → Int}
    {rk : Int → Nat} {pe el : Int → Int} {C : Int → Finset Int} {p q : Nat → Nat} {t : AmdStat}
    (h : Final N adj Z A L rep rk pe el C p q) (hst : StatI N (cnt N rep (-1)) (fun g => ∃ v, adj g v) ∅ Z rep C t) :
    FillBound N (fun u v => adj u v) p (t.front (cnt N rep (-1)) 0) := by
  have key : ∀ (φ : Int → Int) (ψ : Int → Int → Int), Monotone φ → φ 0 = 0 →
      (∀ (f : Nat) (r : Int), ∑ i ∈ range f, φ (r + i) = ψ f r) →
      ∑ j ∈ range N, φ (colCount N (fun j k => adj (p j) (p k)) j)
        ≤ frontSum N (cnt N rep (-1)) (fun g => ∃ v, adj g v) ∅ Z rep C ψ + ψ (cnt N rep (-1)) 0 := by
    intro φ ψ hφ h0 hs
    have := h.sum_le (φ := fun k : Nat => φ k) (fun a b hab => hφ (by exact_mod_cast hab)) (by simpa using h0)
    refine le_trans this (le_of_eq ?_)
    unfold frontSum fronts
    congr 1
    · refine sum_congr rfl fun g _ => ?_
      rw [cnt_perm h.perm, cnt_perm h.perm, ← hs]
      refine sum_congr rfl fun i _ => ?_
      congr 1
      push_cast
      ring
    · rw [cnt_perm h.perm, ← hs]
      exact sum_congr rfl fun i _ => by simp
  have k1 := key (fun x => x) fLnz monotone_id rfl fun f r => sum_lin f r
  refine ⟨?_, ?_, ?_, ?_, ?_⟩
  · refine le_trans k1 (le_of_eq ?_)
    rw [← hst.lnz]; rfl
  · refine le_trans k1 (le_of_eq ?_)
    rw [← hst.ndiv]; rfl
  · have := h.sum_le (φ := fun k : Nat => (k : Int) * k)
      (fun a b hab => by
        have : (a : Int) ≤ b := by exact_mod_cast hab
        exact mul_le_mul this this (by omega) (by omega)) (by simp)
    refine le_trans this (le_of_eq ?_)
    change _ = t.nmsLu + fLu (cnt N rep (-1)) 0
    rw [hst.lu]
    unfold frontSum fronts
    congr 1
    · refine sum_congr rfl fun g _ => ?_
      rw [cnt_perm h.perm, cnt_perm h.perm]
      unfold fLu
      rw [← sum_sq]
      refine sum_congr rfl fun i _ => ?_
      push_cast
      ring
    · rw [cnt_perm h.perm]
      unfold fLu
      rw [← sum_sq]
      exact sum_congr rfl fun i _ => by simp
  · have := h.sum_le (φ := fun k : Nat => (k : Int) * (k + 1) / 2)
      (fun a b hab => by
        have : (a : Int) ≤ b := by exact_mod_cast hab
        exact Int.ediv_le_ediv (by decide) (mul_le_mul this (by omega) (by omega) (by omega))) (by simp)
    refine le_trans this (le_of_eq ?_)
    change _ = t.nmsLdl + fLdl (cnt N rep (-1)) 0
    rw [hst.ldl]
    unfold frontSum fronts
    congr 1
    · refine sum_congr rfl fun g _ => ?_
      rw [cnt_perm h.perm, cnt_perm h.perm]
      unfold fLdl fLu fLnz
      rw [← sum_tri]
      refine sum_congr rfl fun i _ => ?_
      push_cast
      congr 1
      ring
    · rw [cnt_perm h.perm]
      unfold fLdl fLu fLnz
      rw [← sum_tri]
      exact sum_congr rfl fun i _ => by simp
  · intro j hj
    refine h.col_le (le_trans hst.one (le_max_left _ _)) ?_ ?_ hj
    · intro g hg ha
      have := hst.dmax g (mem_fronts.mpr ⟨hg.1, hg, ha⟩)
      refine le_trans ?_ (le_max_left _ _)
      omega
    · refine le_trans ?_ (le_max_right _ _)
      omega

/-- `AMD_2` for an `Info` that is not NULL. -/
theorem AMD_2I_spec {N : Nat} {dense0 : Int} {aggr : Bool} {A : Int → List Int} {s : Amd2}
    (hBig : 0 ≤ iwlen ∧ 3 * (N + iwlen) + 10 ≤ Int_MAX)
    (h : GIn N iwlen A s) :
    Spec (AMD_2I N dense0 iwlen aggr s) (fun r => ∃ p q : Nat → Nat, PermPair N p q ∧
      r.1.1.length = N ∧ r.1.2.length = N ∧ Buf.Has r.1.1 N (fun i => (p i : Int)) ∧
      Buf.Has r.1.2 N (fun i => (q i : Int)) ∧
      FillBound N (fun u v => u < N ∧ (v : Int) ∈ A u) p r.2.1 ∧
      ∀ u, u < N → ((N : Int) - r.2.2 ≤ q u ↔ min (N : Int) (max 16 dense0) < ((A u).length : Int))) := by
  have hBig' : 0 ≤ (N : Int) ∧ 0 ≤ iwlen ∧ 3 * (N + iwlen) + 10 ≤ Int_MAX := ⟨by omega, hBig⟩
  unfold AMD_2I
  rw [ck_bind (by omega)]
  refine Spec.bind (amd2InitI_spec (by omega) (by omega) h) ?_
  rintro ⟨nd, s1⟩ ⟨⟨h1n, V, Z, h1, hV, hZ, -⟩, hnd⟩
  simp only at h1n h1 hnd ⊢
  have hZe : Z = (Ico 0 (N : Int)).filter (fun x => min (N : Int) (max 16 dense0) < ((A x).length : Int)) := by
    ext x
    rw [hZ, mem_filter, mem_Ico]
  have hndn : 0 ≤ nd ∧ nd ≤ N := by
    have := card_filter_le (Ico 0 (N : Int)) (fun x => min (N : Int) (max 16 dense0) < ((A x).length : Int))
    rw [Int.card_Ico] at this
    omega
  have hl : LoopI N iwlen nd (fun u v => (0 ≤ u ∧ u < N) ∧ v ∈ A u) Z (AmdStat.init, s1) := by
    refine ⟨h1n, V, ∅, Z, _, A, _, _, _, fun _ => ∅, h1, ?_, ?_, ?_, StatI.start ?_⟩
    · have hin : ∀ u v, ((0 ≤ u ∧ u < (N : Int)) ∧ v ∈ A u) → u ∉ Z → u ∈ V := by
        intro u v huv hz
        rw [hV]
        refine ⟨huv.1, List.ne_nil_of_mem huv.2, ?_⟩
        by_contra hc
        exact hz ((hZ u).mpr ⟨huv.1, by omega⟩)
      refine ⟨by simp, ?_, ?_, by simp, by simp, ?_, by simp⟩
      · intro x hx
        obtain ⟨q1, q2, q3⟩ := (hV x).mp hx
        obtain ⟨v, hv⟩ := List.exists_mem_of_ne_nil _ q2
        exact ⟨v, q1, hv⟩
      · intro u v u0 u1 v0 v1 huv hu hv
        simp only [ne_eq] at hu hv ⊢
        have hu' : u ∉ Z := fun h' => hu (by simp [h'])
        have hv' : v ∉ Z := fun h' => hv (by simp [h'])
        refine Or.inr ?_
        simp only [hu', hv', if_false]
        exact ⟨hin u v huv hu', hin v u ⟨⟨v0, v1⟩, h.sym u u0 u1 v huv.2⟩ hv', Or.inl huv.2⟩
      · intro u v u0 u1 _ _ hu hv huv
        have key : ∀ x : Int, (if x ∈ Z then (-1 : Int) else x) ∈ V → (if x ∈ Z then (-1 : Int) else x) = x := by
          intro x hx
          split at hx
          · have := h1.g.Vr _ hx
            omega
          · next hz => simp [hz]
        rw [key u hu, key v hv] at huv
        exact .edge ⟨⟨u0, u1⟩, huv⟩
    · intro z z0 z1
      split
      · next hz => simp [hz]
      · next hz =>
          simp only [hz, iff_false]
          omega
    · intro g hg _ z hzg
      split at hzg
      · have := hg.1; omega
      · exact hzg
    · rintro g hg ⟨v, hv⟩
      have := hg.2.1
      rw [hV] at this
      have hz := hg.2.2
      rw [hZ] at hz
      refine this ⟨hg.1, List.ne_nil_of_mem hv.2, ?_⟩
      by_contra hc
      exact hz ⟨hg.1, by omega⟩
  refine Spec.bind (loopI_spec hBig' rfl hndn hl) ?_
  rintro ⟨t, s2⟩ ⟨⟨_, V', K', Z', E', A', L', rep', rk', C', hi, hs, hz, hiso, hst⟩, hnel⟩
  simp only at hi hs hst hnel ⊢
  refine Spec.bind (amd2Output_spec hBig' hi hnel) ?_
  rintro ⟨b1, b2⟩ ⟨p, q, hp, l1, l2, v1, v2, hord⟩
  simp only [Int.toNat_natCast] at hp l1 l2 v1 v2 hord ⊢
  have hV' : V' = ∅ := by
    by_contra hne
    obtain ⟨x, hx⟩ := Finset.nonempty_iff_ne_empty.mpr hne
    have h1 := hi.nel
    have hr := hi.g.Vr x hx
    have h2 := hi.t.cntP hr.1 hr.2 (hi.g.VZ x hx)
    have h3 : cnt N rep' x ≤ ∑ x ∈ V', cnt N rep' x := Finset.single_le_sum (fun _ _ => cnt_nonneg _) hx
    omega
  have hK' : K' = ∅ := by
    by_contra hne
    obtain ⟨e, he⟩ := Finset.nonempty_iff_ne_empty.mpr hne
    obtain ⟨i, hi', _⟩ := hi.j e he
    rw [hV'] at hi'
    simp at hi'
  subst hV' hK'
  have hF : Final N (fun u v => (0 ≤ u ∧ u < N) ∧ v ∈ A u) Z' A' L' rep' rk' s2.Pe.at s2.Elen.at C' p q := by
    refine ⟨hi.t, hs, hp, hord, ?_, hiso⟩
    rintro u v ⟨hu, hv⟩
    have := h.nbr u hu.1 hu.2 v hv
    exact ⟨⟨this.1, this.2.1⟩, h.sym u hu.1 hu.2 v hv⟩
  have hc : cnt N rep' (-1) = nd := by
    rw [hnd]
    unfold cnt
    congr 2
    refine filter_congr fun x hx => ?_
    rw [mem_Ico] at hx
    rw [hz x hx.1 hx.2, hZ]
    exact ⟨fun h' => h'.2, fun h' => ⟨hx, h'⟩⟩
  refine Spec.pure ⟨p, q, hp, by simp only; omega, by simp only; omega, v1, v2, ?_, ?_⟩
  · have := hF.bound (by rw [hc]; exact hst)
    rw [hc] at this
    have e : (fun u v : Nat => (0 ≤ (u : Int) ∧ (u : Int) < N) ∧ (v : Int) ∈ A u)
        = fun u v : Nat => u < N ∧ (v : Int) ∈ A u := by
      funext u v
      simp
    rwa [e] at this
  · intro u hu
    have := hF.dense_iff hu
    rw [hc] at this
    rw [this, hz u (by omega) (by omega), hZ]
    exact ⟨fun h' => h'.2, fun h' => ⟨by omega, h'⟩⟩

end Verif
