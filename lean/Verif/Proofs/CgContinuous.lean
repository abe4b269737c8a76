import Verif.Proofs.Smooth

/-!
# The iterative solver as a function of the signals
-/

set_option linter.unusedSectionVars false

namespace FBE

open Spec Matrix XR Filter Topology

variable {X : Type*} [TopologicalSpace X] {x0 : X} {J : Type} [Fintype J]

/-! ### the loop -/

/-- Operators that depend continuously on a parameter. -/
def OpCont (A : X → (J → ℝ) → (J → ℝ)) (x0 : X) : Prop :=
  ∀ u : X → J → ℝ, ContinuousAt u x0 → ContinuousAt (fun x => A x (u x)) x0

theorem continuousAt_innerProd {u v : X → J → ℝ} (hu : ContinuousAt u x0) (hv : ContinuousAt v x0) :
    ContinuousAt (fun x => innerProd (u x) (v x)) x0 := by
  unfold innerProd
  exact tendsto_finsetSum _ fun i _ => ((continuous_apply i).continuousAt.comp hu).mul ((continuous_apply i).continuousAt.comp hv)

/-- All variables of the loop depend continuously on the parameter. -/
structure StCont (st : X → CgState J) (x0 : X) : Prop where
  x : ContinuousAt (fun p => (st p).x) x0
  r : ContinuousAt (fun p => (st p).r) x0
  p : ContinuousAt (fun p => (st p).p) x0
  rsold : ContinuousAt (fun p => (st p).rsold) x0

variable {A M : X → (J → ℝ) → (J → ℝ)} (hA : OpCont A x0) (hM : OpCont M x0) {b y : X → J → ℝ} (hb : ContinuousAt b x0)
include hA hM hb

theorem cgBody_cont {st : X → CgState J} (h : StCont st x0) (epoch : ℕ) :
    StCont (fun p => cgBody (A p) (M p) (b p) (st p) epoch) x0 := by
  have hAp := hA _ h.p
  have hm : ∀ v : ℝ, max v 1e-6 ≠ 0 := fun v => (lt_max_of_lt_right (by norm_num)).ne'
  have halpha : ContinuousAt (fun p => (st p).rsold / max (innerProd (st p).p (A p (st p).p)) 1e-6) x0 :=
    h.rsold.div ((continuousAt_innerProd h.p hAp).max continuousAt_const) (hm _)
  have hx : ContinuousAt (fun p => (cgBody (A p) (M p) (b p) (st p) epoch).x) x0 := h.x.add (halpha.smul h.p)
  have hr : ContinuousAt (fun p => (cgBody (A p) (M p) (b p) (st p) epoch).r) x0 := by
    unfold cgBody
    split
    · exact hb.sub (hA _ hx)
    · exact h.r.sub (halpha.smul hAp)
  have hz := hM _ hr
  have hrs : ContinuousAt (fun p => (cgBody (A p) (M p) (b p) (st p) epoch).rsold) x0 := continuousAt_innerProd hr hz
  have hbeta : ContinuousAt (fun p => (cgBody (A p) (M p) (b p) (st p) epoch).rsold / max (st p).rsold 1e-6) x0 :=
    hrs.div (h.rsold.max continuousAt_const) (hm _)
  exact ⟨hx, hr, hz.add (hbeta.smul h.p), hrs⟩

theorem cg_cont (hy : ContinuousAt y x0) (it : ℕ) : ContinuousAt (fun p => conjugateGradient (A p) (M p) (b p) (y p) it) x0 := by
  suffices h : StCont (fun p => cgRun (A p) (M p) (b p) (y p) it) x0 from h.x
  induction it with
  | zero =>
    have hr : ContinuousAt (fun p => b p - A p (y p)) x0 := hb.sub (hA _ hy)
    exact ⟨hy, hr, hM _ hr, continuousAt_innerProd hr (hM _ hr)⟩
  | succ it ih =>
    have := cgBody_cont hA hM hb ih it
    simpa only [cgRun, List.range_succ, List.foldl_append, List.foldl_cons, List.foldl_nil] using this

omit hA hM hb

/-! ### the operators -/

theorem opCont_mulVec {T : X → Matrix J J ℝ} (h : ∀ i j, ContinuousAt (fun x => T x i j) x0) :
    OpCont (fun x v => T x *ᵥ v) x0 := by
  intro u hu
  rw [continuousAt_pi]
  intro i
  exact tendsto_finsetSum _ fun j _ => ContinuousAt.mul (h i j) ((continuous_apply j).continuousAt.comp hu)

theorem continuousAt_ofReal {f : X → ℝ} (hf : ContinuousAt f x0) : ContinuousAt (fun x => (f x : ℂ)) x0 :=
  Complex.continuous_ofReal.continuousAt.comp hf

theorem continuousAt_dft {n k : ℕ} {u : X → ℕ → ℝ} (hu : ∀ t < n, ContinuousAt (fun x => u x t) x0) :
    ContinuousAt (fun x => dft n (u x) k) x0 := by
  unfold dft
  refine tendsto_finsetSum _ fun t ht => ContinuousAt.mul (continuousAt_ofReal (hu t (Finset.mem_range.1 ht))) continuousAt_const

theorem opCont_specMul {n : ℕ} {κ : Type} [Fintype κ] [DecidableEq κ] {G : X → ℕ → Matrix κ κ ℂ}
    (h : ∀ k < n, ∀ a d, ContinuousAt (fun x => G x k a d) x0) : OpCont (fun x => specMul n (G x)) x0 := by
  intro u hu
  rw [continuousAt_pi]
  intro p
  unfold specMul
  refine ContinuousAt.div_const (Complex.continuous_re.continuousAt.comp (tendsto_finsetSum _ fun k hk => ?_)) _
  refine ContinuousAt.mul ?_ continuousAt_const
  refine tendsto_finsetSum _ fun d _ => ContinuousAt.mul (h k (Finset.mem_range.1 hk) _ _) ?_
  refine continuousAt_dft fun t ht => ?_
  simp only [zpad, dif_pos ht]
  exact (continuous_apply _).continuousAt.comp hu

theorem continuousAt_specInv {B : Backend} (hB : Covered B) {f : X → ℂ} (hf : ContinuousAt f x0) :
    ContinuousAt (fun x => B.specInv (f x)) x0 := by
  simp only [hB.specInv]
  have h1 := Complex.continuous_re.continuousAt.comp hf
  have h2 := Complex.continuous_im.continuousAt.comp hf
  refine ContinuousAt.div (Complex.continuous_conj.continuousAt.comp hf)
    (continuousAt_ofReal (((h1.pow 2).add (h2.pow 2)).max continuousAt_const)) ?_
  exact_mod_cast (lt_max_of_lt_right (by norm_num)).ne'

/-- `toeplitz_conjugate_gradient` depends continuously on matrix and right-hand side. -/
theorem toeplitzCg_cont {B : Backend} (hB : Covered B) {n : ℕ} (hn : 0 < n) {col : X → List ℝ} (hc : ∀ x, (col x).length = n)
    (hcol : ∀ t < n, ContinuousAt (fun x => (col x).getD t 0) x0) {b : X → Fin n → ℝ} (hb : ContinuousAt b x0) (it : ℕ) :
    ContinuousAt (fun x => toeplitzCg B n (col x) (b x) it) x0 := by
  have e1 : ∀ x, symToeplitzOp B n (col x) = fun v => toeplitz B n (col x) *ᵥ v := fun x => by
    rw [symToeplitzOp_coe hB (hc x) hn]
    rfl
  have e2 : ∀ x, circPrecond B n (col x) = fun v t => specMul n (fun k => Matrix.of fun _ _ : Unit =>
      B.specInv (symSpec n (col x) k)) (fun p => v p.1) (t, ()) := fun x => by
    rw [circPrecond_coe hB]
    rfl
  unfold toeplitzCg
  simp only [e1, e2]
  refine cg_cont (opCont_mulVec fun i j => ?_) (fun u hu => ?_) hb continuousAt_const it
  · simp only [fun x => toeplitz_apply hB (hc x)]
    exact hcol _ (by omega)
  · have h := opCont_specMul (x0 := x0) (n := n) (G := fun x k => Matrix.of fun _ _ : Unit => B.specInv (symSpec n (col x) k))
      (fun k hk a d => ?_) (fun x p => u x p.1) (continuousAt_pi.2 fun p => (continuous_apply p.1).continuousAt.comp hu)
    · rw [continuousAt_pi] at h ⊢
      exact fun t => h (t, ())
    · refine continuousAt_specInv hB (continuousAt_dft fun t ht => ?_)
      by_cases h0 : t = 0
      · subst h0
        simp only [fun x => symPrecondCol_zero (hc x) hn]
        exact hcol 0 hn
      · simp only [fun x => symPrecondCol_get (hc x) (Nat.pos_of_ne_zero h0) ht]
        exact ((continuousAt_const.mul (hcol t ht)).add (continuousAt_const.mul (hcol _ (by omega)))).div_const _

/-- The same for the block system, as long as no matrix of the preconditioner is singular. -/
theorem blockOps_cont {B : Backend} (hB : Covered B) {n c : ℕ} (hn : 2 ≤ n) {acf : X → Fin c → Fin c → List ℝ}
    (hc : ∀ x k l, (acf x k l).length = n + n)
    (h1 : ∀ k l, ∀ t < n, ContinuousAt (fun x => (acf x k l).getD t 0) x0)
    (h2 : ∀ k l, ∀ t, 0 < t → t < n → ContinuousAt (fun x => (acf x k l).getD (n + n - t) 0) x0) :
    (∀ k ≤ n / 2, ContinuousAt (fun x => (blockPrecondSpec B (acf x) k).det) x0) ∧
    ((∀ k ≤ n / 2, (blockPrecondSpec B (acf x0) k).det ≠ 0) → ∀ {b y : X → Fin n × Fin c → ℝ}, ContinuousAt b x0 →
      ContinuousAt y x0 → ∀ it, ContinuousAt (fun x => conjugateGradient (blockToeplitzOp B n (acf x))
        (blockPrecond B n (acf x)) (b x) (y x) it) x0) := by
  have hspec : ∀ k a d, ContinuousAt (fun x => blockSpec B n (acf x) k a d) x0 := by
    intro k a d
    refine continuousAt_dft fun t ht => ?_
    by_cases h0 : t = 0
    · subst h0
      simp only [fun x => nonsymPrecondCol_zero (B := B) hn (hc x a d)]
      exact h1 _ _ 0 (by omega)
    · simp only [fun x => nonsymPrecondCol_get hB hn (hc x a d) (Nat.pos_of_ne_zero h0) ht]
      exact ((continuousAt_const.mul (h2 _ _ t (by omega) ht)).add
        (continuousAt_const.mul (h1 _ _ _ (by omega)))).div_const _
  have hmat : ∀ k, ContinuousAt (fun x => blockSpec B n (acf x) k) x0 := fun k =>
    continuousAt_pi.2 fun a => continuousAt_pi.2 fun d => hspec k a d
  have hdet : ∀ k, ContinuousAt (fun x => (blockSpec B n (acf x) k).det) x0 := fun k =>
    ContinuousAt.comp (g := Matrix.det) (f := fun x => blockSpec B n (acf x) k)
      (continuous_id.matrix_det).continuousAt (hmat k)
  have hps : ∀ x, ∀ k ≤ n / 2, blockPrecondSpec B (acf x) k = blockSpec B n (acf x) k := fun x k hk =>
    blockPrecondSpec_eq hB hn (hc x) hk
  refine ⟨fun k hk => ?_, fun hns b y hb hy it => ?_⟩
  · simp only [fun x => hps x k hk]
    exact hdet k
  · have e1 : ∀ x, blockToeplitzOp B n (acf x) = fun v => lagMatrix n (acf x) *ᵥ v := fun x => by
      rw [blockToeplitzOp_coe hB hn (hc x)]
      rfl
    have e2 : ∀ x, blockPrecond B n (acf x) = specMul n fun k => (blockSpec B n (acf x) k)⁻¹ := fun x => by
      rw [blockPrecond_eq hB hn (hc x)]
      rfl
    simp only [e1, e2]
    have hns' : ∀ k < n, (blockSpec B n (acf x0) k).det ≠ 0 := by
      intro k hk
      rcases Nat.lt_or_ge (n / 2) k with h | h
      · have e3 : blockSpec B n (acf x0) k = (blockSpec B n (acf x0) (n - k)).map (starRingEnd ℂ) := by
          ext a d
          have := herm_dft (n := n) (fun t => (nonsymPrecondCol B (acf x0 a d)).getD t 0) (n - k) (by omega) (by omega)
          rw [show n - (n - k) = k by omega] at this
          exact this
        rw [e3, ← RingHom.mapMatrix_apply, ← RingHom.map_det, ne_eq, map_eq_zero]
        rw [← hps x0 _ (by omega)]
        exact hns _ (by omega)
      · rw [← hps x0 k h]
        exact hns k h
    refine cg_cont (opCont_mulVec fun p q => ?_) (opCont_specMul fun k hk a d => ?_) hb hy it
    · unfold lagMatrix lagAt
      simp only [hc]
      split
      · exact h1 _ _ _ (by omega)
      · exact h2 _ _ _ (by omega) (by omega)
    · simp only [Matrix.inv_def, Matrix.smul_apply, Ring.inverse_eq_inv', smul_eq_mul]
      refine ContinuousAt.mul ((hdet k).inv₀ (hns' k hk)) ?_
      have : ContinuousAt (fun x => (blockSpec B n (acf x) k).adjugate) x0 :=
        ContinuousAt.comp (g := Matrix.adjugate) (f := fun x => blockSpec B n (acf x) k)
          (continuous_id.matrix_adjugate).continuousAt (hmat k)
      exact continuousAt_pi.1 (continuousAt_pi.1 this a) d

/-! ### the coherences -/

section coh

variable {s : List ℕ} {r e c N n : ℕ} {B : Backend} {o : Opts}

theorem continuous_circ (n τ : ℕ) : Continuous fun p : (Fin N → ℝ) × (Fin N → ℝ) => circ n p.1 p.2 τ := by
  unfold circ
  refine continuous_finsetSum _ fun u _ => ?_
  exact ((contDiff_zpad (ν := 0) u).continuous.comp continuous_fst).mul
    ((contDiff_zpad (ν := 0) _).continuous.comp continuous_snd)

theorem continuous_circ_prep (n τ : ℕ) (m : BIdx s) (k : Fin r) (j : Fin e) : Continuous fun p : Sig s r N × Sig s e N =>
    circ n (prep o p.1 m k) (prep o p.2 m j) τ := by
  have h1 : Continuous fun p : Sig s r N × Sig s e N => prep o p.1 m k :=
    (continuous_apply k).comp ((continuous_apply m).comp (continuous_prep.comp continuous_fst))
  have h2 : Continuous fun p : Sig s r N × Sig s e N => prep o p.2 m j :=
    (continuous_apply j).comp ((continuous_apply m).comp (continuous_prep.comp continuous_snd))
  exact (continuous_circ n τ).comp (h1.prodMk h2)

theorem continuous_circ_ref (n τ : ℕ) (m : BIdx s) (k l : Fin r) : Continuous fun p : Sig s r N × Sig s e N =>
    circ n (prep o p.1 m k) (prep o p.1 m l) τ :=
  (continuous_circ_prep n τ m k l).comp (continuous_fst.prodMk continuous_fst)

section lists

variable {K : ℕ} (F : Fam N N K n (fun x i => cshift n x i) (fun y => cshift n y 0)) (hK : min o.filterLength n = K)
  (hL : 2 ≤ o.filterLength) (p0 : Sig s r N × Sig s e N)
include F hK hL

theorem xcorr_cont (m : BIdx s) (k : Fin r) (j : Fin e) :
    ContinuousAt (fun p : Sig s r N × Sig s e N => vec K (sdrXcorr o n p.1 p.2 m k j)) p0 := by
  simp only [vec_sdrXcorr F hK (by omega)]
  rw [continuousAt_pi]
  intro l
  show ContinuousAt (fun p : Sig s r N × Sig s e N => inner ℝ (cshift n (prep o p.1 m k) l) (cshift n (prep o p.2 m j) 0)) p0
  simp only [fun x y => F.cross x y l.val l.isLt]
  exact (continuous_circ_prep n _ m k j).continuousAt

theorem acf_cont (m : BIdx s) (k : Fin r) (t : ℕ) (ht : t < K) :
    ContinuousAt (fun p : Sig s r N × Sig s e N => (sdrAcf o n p.1 m k).getD t 0) p0 := by
  simp only [fun ref : Sig s r N => sdrAcf_get F hK (by omega) ref m k t ht]
  exact ((continuous_circ_ref n t m k k).continuousAt).add continuousAt_const

theorem sdrSol_cont (hB : Covered B) (it : ℕ) (m : BIdx s) (k : Fin r) (j : Fin e) :
    ContinuousAt (fun p : Sig s r N × Sig s e N => toeplitzCg B K (sdrAcf o n p.1 m k) (vec K (sdrXcorr o n p.1 p.2 m k j)) it)
      p0 := by
  have hn0 := F.n_ne
  have h1 : ∀ p : Sig s r N × Sig s e N, (sdrAcf o n p.1 m k).length = K := fun p => length_sdrAcf F hK (by omega) p.1 m k
  have h2 := fun t ht => acf_cont (e := e) F hK hL p0 m k t ht
  exact toeplitzCg_cont (x0 := p0) (col := fun p : Sig s r N × Sig s e N => sdrAcf o n p.1 m k) hB (by omega) h1 h2
    (xcorr_cont F hK hL p0 m k j) it

theorem dot_cont {J : Type} [Fintype J] {u v : Sig s r N × Sig s e N → J → ℝ} (hu : ContinuousAt u p0)
    (hv : ContinuousAt v p0) : ContinuousAt (fun p => ∑ l, u p l * v p l) p0 :=
  continuousAt_innerProd hu hv

/-- The iterative solve of the block system. -/
theorem cohSar_cont (hB : Covered B) (hLn : o.filterLength ≤ n) {it : ℕ} (hit : o.useCgIter = some it)
    {x0 : Sig s r N × Sig s e N → BIdx s → Fin e → Fin K × Fin r → ℝ} (hx : ∀ m j, ContinuousAt (fun p => x0 p m j) p0)
    {sa} (h : cohSar B o n K p0.1 p0.2 (x0 p0) = .ok sa) :
    ∃ H : Sig s r N × Sig s e N → BIdx s → Fin e → ℝ, H p0 = sa ∧
      (∀ᶠ p in 𝓝 p0, cohSar B o n K p.1 p.2 (x0 p) = .ok (H p)) ∧ ∀ m j, ContinuousAt (fun p => H p m j) p0 := by
  have hn0 := F.n_ne
  have hK2 : 2 ≤ K := by omega
  have hlen : ∀ m (p : Sig s r N × Sig s e N) k l, (bssAcf o n p.1 m k l).length = K + K := fun m p k l =>
    length_bssAcf F hK (by omega) p.1 m k l
  have hops := fun m => blockOps_cont (x0 := p0) hB hK2 (hlen m)
    (fun k l t ht => by
      simp only [fun ref : Sig s r N => bssAcf_get F hK (by omega) ref m k l t ht]
      exact ((continuous_circ_ref n t m l k).continuousAt).add continuousAt_const)
    (fun k l t h0 ht => by
      simp only [fun ref : Sig s r N => bssAcf_get_neg F hK (by omega) hLn ref m k l t h0 ht]
      exact (continuous_circ_ref n t m k l).continuousAt)
  unfold cohSar at h
  rw [hit] at h
  simp only [blockCg] at h
  by_cases hs : ∃ i, ∃ k ≤ K / 2, (blockPrecondSpec B (bssAcf o n p0.1 i) k).det = 0
  · rw [if_pos hs] at h
    cases h
  rw [if_neg hs] at h
  have h := Except.ok.inj h
  push Not at hs
  have hxc : ∀ m j, ContinuousAt (fun p : Sig s r N × Sig s e N => xcorrFlat o n K p.1 p.2 m j) p0 := fun m j => by
    rw [continuousAt_pi]
    intro q
    exact continuousAt_pi.1 (xcorr_cont F hK hL p0 m q.2 j) q.1
  refine ⟨fun p m j => ∑ q, xcorrFlat o n K p.1 p.2 m j q *
    conjugateGradient (blockToeplitzOp B K (bssAcf o n p.1 m)) (blockPrecond B K (bssAcf o n p.1 m))
      (xcorrFlat o n K p.1 p.2 m j) (x0 p m j) it q, h, ?_, fun m j => ?_⟩
  · have hev : ∀ᶠ p : Sig s r N × Sig s e N in 𝓝 p0, ∀ i, ∀ k : Fin (K / 2 + 1),
        (blockPrecondSpec B (bssAcf o n p.1 i) k).det ≠ 0 := by
      rw [eventually_all]; intro i
      rw [eventually_all]; intro k
      exact ((hops i).1 k (by omega)).eventually_ne (hs i k (by omega))
    filter_upwards [hev] with p hp
    unfold cohSar
    rw [hit]
    simp only [blockCg]
    rw [if_neg]
    rintro ⟨i, k, hk, h0⟩
    exact hp i ⟨k, by omega⟩ h0
  · exact dot_cont F hK hL p0 (hxc m j) ((hops m).2 (hs m) (hxc m j) (hx m j) it)

end lists

/-- The coherences of `sdr_loss` depend continuously on the signals. -/
theorem sdrCohPair_cont (hB : Covered B) {ref : Sig s r N} {est : Sig s e N} {coh}
    (h : sdrCohPair B o ref est = .ok coh) :
    ∃ G : Sig s r N × Sig s e N → BIdx s → Fin r → Fin e → ℝ, G (ref, est) = coh ∧
      (∀ᶠ p in 𝓝 (ref, est), sdrCohPair B o p.1 p.2 = .ok (G p)) ∧
      ∀ m k j, ContinuousAt (fun p => G p m k j) (ref, est) := by
  by_cases hdir : o.direct
  · obtain ⟨G, h1, h2, h3⟩ := sdrCohPair_smooth (ν := 0) hB hdir h (contDiff_zero.2 continuous_prep).contDiffAt
      (contDiff_zero.2 continuous_prep).contDiffAt
    exact ⟨G, h1, h2, fun m k j => (h3 m k j).continuousAt⟩
  have hdir' := not_or.1 hdir
  have h0 : o.filterLength ≠ 0 := fun h0 => by
    simp only [sdrCohPair_def] at h
    rw [if_pos h0] at h
    cases h
  have hL : 2 ≤ o.filterLength := by have := hdir'.1; omega
  obtain ⟨n, hn⟩ := nFft_of_coh hL h
  have F := fam_of_nFft (o := o) hn
  obtain ⟨it, hit⟩ := Option.ne_none_iff_exists'.1 hdir'.2
  have hd := sdrCohPair_unfold (o := o) (s := s) (r := r) (e := e) hn rfl hL B
  simp only [hit] at hd
  refine ⟨fun p m k j => ∑ l, vec (min o.filterLength n) (sdrXcorr o n p.1 p.2 m k j) l *
    toeplitzCg B (min o.filterLength n) (sdrAcf o n p.1 m k) (vec (min o.filterLength n) (sdrXcorr o n p.1 p.2 m k j)) it l,
    ?_, Eventually.of_forall fun p => hd p.1 p.2, fun m k j => ?_⟩
  · rw [hd] at h
    exact Except.ok.inj h
  · exact dot_cont F rfl hL _ (xcorr_cont F rfl hL _ m k j) (sdrSol_cont F rfl hL _ hB it m k j)

/-- All coherences of `bss_eval_sources` depend continuously on the signals. -/
theorem sqCosPair_cont (hB : Covered B) {ref : Sig s r N} {est : Sig s e N} {sd sa}
    (h : sqCosPair B o ref est = .ok (sd, sa)) :
    ∃ (G : Sig s r N × Sig s e N → BIdx s → Fin r → Fin e → ℝ) (H : Sig s r N × Sig s e N → BIdx s → Fin e → ℝ),
      G (ref, est) = sd ∧ H (ref, est) = sa ∧
      (∀ᶠ p in 𝓝 (ref, est), sqCosPair B o p.1 p.2 = .ok (G p, H p)) ∧
      (∀ m k j, ContinuousAt (fun p => G p m k j) (ref, est)) ∧
      ∀ m j, ContinuousAt (fun p => H p m j) (ref, est) := by
  by_cases hdir : o.direct
  · obtain ⟨G, H, h1, h2, h3, h4, h5⟩ := sqCosPair_smooth (ν := 0) hB hdir h
      (contDiff_zero.2 continuous_prep).contDiffAt (contDiff_zero.2 continuous_prep).contDiffAt
    exact ⟨G, H, h1, h2, h3, fun m k j => (h4 m k j).continuousAt, fun m j => (h5 m j).continuousAt⟩
  have hdir' := not_or.1 hdir
  have h0 : o.filterLength ≠ 0 := fun h0 => by
    simp only [sqCosPair_def] at h
    rw [if_pos h0] at h
    cases h
  have hL : 2 ≤ o.filterLength := by have := hdir'.1; omega
  obtain ⟨n, hn⟩ := nFft_of_coh hL (sqCosPair_sdr _ _ h)
  have F := fam_of_nFft (o := o) hn
  obtain ⟨it, hit⟩ := Option.ne_none_iff_exists'.1 hdir'.2
  by_cases hLn : o.filterLength ≤ n
  swap
  · rw [sqCosPair_too_long (by omega) hn (by omega)] at h
    cases h
  have hd := sqCosPair_unfold (o := o) (s := s) (r := r) (e := e) hn rfl hL hLn B
  simp only [hit, bssAcfSdr_eq_sdrAcf F rfl (by omega) hLn] at hd
  rw [hd] at h
  split at h
  · cases h
  rename_i sar hsar
  have h := Prod.mk.inj (Except.ok.inj h)
  obtain ⟨H, h1, h2, h3⟩ := cohSar_cont F rfl hL (ref, est) hB hLn hit
    (x0 := fun p m j q => toeplitzCg B (min o.filterLength n) (sdrAcf o n p.1 m q.2)
        (vec (min o.filterLength n) (sdrXcorr o n p.1 p.2 m q.2 j)) it q.1)
    (fun m j => continuousAt_pi.2 fun q => continuousAt_pi.1 (sdrSol_cont F rfl hL (ref, est) hB it m q.2 j) q.1) hsar
  refine ⟨fun p m k j => ∑ l, vec (min o.filterLength n) (sdrXcorr o n p.1 p.2 m k j) l *
    toeplitzCg B (min o.filterLength n) (sdrAcf o n p.1 m k) (vec (min o.filterLength n) (sdrXcorr o n p.1 p.2 m k j)) it l,
    H, h.1, h1.trans h.2, ?_, fun m k j => ?_, h3⟩
  · filter_upwards [h2] with p hp
    rw [hd, hp]
  · exact dot_cont F rfl hL _ (xcorr_cont F rfl hL _ m k j) (sdrSol_cont F rfl hL _ hB it m k j)

/-- The same for the aligned call. -/
theorem sqCosDiag_cont (hB : Covered B) (hsv : o.filterLength = 1 ∨ o.useCgIter ≠ none ∨ B.stackedVectors = true)
    {ref est : Sig s c N} {sd sa} (h : sqCosDiag B o ref est = .ok (sd, sa)) :
    ∃ G H : Sig s c N × Sig s c N → BIdx s → Fin c → ℝ,
      G (ref, est) = sd ∧ H (ref, est) = sa ∧
      (∀ᶠ p in 𝓝 (ref, est), sqCosDiag B o p.1 p.2 = .ok (G p, H p)) ∧
      (∀ m k, ContinuousAt (fun p => G p m k) (ref, est)) ∧
      ∀ m j, ContinuousAt (fun p => H p m j) (ref, est) := by
  by_cases hdir : o.direct
  · have hor : o.filterLength = 1 ∨ o.useCgIter = none ∧ B.stackedVectors = true := by
      unfold Opts.direct at hdir
      tauto
    rw [sqCosDiag_eq B o hor] at h
    cases hp : sqCosPair B o ref est with
    | error err => rw [hp] at h; cases h
    | ok q =>
    obtain ⟨sd2, sa2⟩ := q
    rw [hp] at h
    cases h
    obtain ⟨G, H, rfl, rfl, h3, h4, h5⟩ := sqCosPair_cont hB hp
    refine ⟨fun p m k => G p m k k, H, rfl, rfl, ?_, fun m k => h4 m k k, h5⟩
    filter_upwards [h3] with p hp
    exact sqCosDiag_of_pair B o hor hp
  have hdir' := not_or.1 hdir
  have h0 : o.filterLength ≠ 0 := fun h0 => by
    simp only [sqCosDiag_def] at h
    rw [if_pos h0] at h
    cases h
  have hL : 2 ≤ o.filterLength := by have := hdir'.1; omega
  obtain ⟨it, hit⟩ := Option.ne_none_iff_exists'.1 hdir'.2
  cases hn : nFft N with
  | error err =>
    simp only [sqCosDiag_def] at h
    unfold sqCosDiagGen at h
    rw [if_neg h0, if_neg (by omega), hn] at h
    cases h
  | ok n =>
  have F := fam_of_nFft (o := o) hn
  by_cases hLn : o.filterLength ≤ n
  swap
  · simp only [sqCosDiag_def] at h
    unfold sqCosDiagGen at h
    rw [if_neg h0, if_neg (by omega), hn] at h
    simp only at h
    have hn0 := F.n_ne
    rw [if_pos (by rw [min_eq_right (by omega : n ≤ o.filterLength)]; omega)] at h
    cases h
  have hd := sqCosDiag_unfold (o := o) (s := s) (c := c) hn rfl hL hLn B
  simp only [hit, bssAcfSdr_eq_sdrAcf F rfl (by omega) hLn] at hd
  rw [hd] at h
  split at h
  · cases h
  rename_i sar hsar
  have h := Prod.mk.inj (Except.ok.inj h)
  obtain ⟨H, h1, h2, h3⟩ := cohSar_cont F rfl hL (ref, est) hB hLn hit
    (x0 := fun _ _ _ _ => 0) (fun m j => continuousAt_const) hsar
  refine ⟨fun p m k => ∑ l, vec (min o.filterLength n) (sdrXcorr o n p.1 p.2 m k k) l *
    toeplitzCg B (min o.filterLength n) (sdrAcf o n p.1 m k) (vec (min o.filterLength n) (sdrXcorr o n p.1 p.2 m k k)) it l,
    H, h.1, h1.trans h.2, ?_, fun m k => ?_, h3⟩
  · filter_upwards [h2] with p hp
    rw [hd, hp]
  · exact dot_cont F rfl hL _ (xcorr_cont F rfl hL _ m k k) (sdrSol_cont F rfl hL _ hB it m k k)

end coh

end FBE
