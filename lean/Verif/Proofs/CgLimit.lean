import Verif.Proofs.CgConverge
import Mathlib.Topology.Order.MonotoneContinuity
import Mathlib.Topology.Instances.EReal.Lemmas

/-!
# The limits of the iterative solves of the code
-/

set_option linter.unusedSectionVars false

namespace FBE

open Spec Matrix XR Filter Topology

variable {s : List ℕ} {r e c N n : ℕ} {B : Backend} {o : Opts} {J : Type} [Fintype J] [DecidableEq J]

/-! ### decibels -/

/-- The decibel value depends continuously on the coherence. -/
theorem continuous_negSdr_none : Continuous fun c : ℝ => toEReal (coherenceToNegSdr none (fin c)) := by
  have hm : Monotone fun c : ℝ => OrderDual.toDual (toEReal (coherenceToNegSdr none (fin c))) := fun c c' h =>
    coherenceToNegSdr_anti none h
  have hs : Function.Surjective fun c : ℝ => OrderDual.toDual (toEReal (coherenceToNegSdr none (fin c))) := by
    intro x
    obtain ⟨x, rfl⟩ := OrderDual.toDual.surjective x
    induction x with
    | bot =>
      refine ⟨1, ?_⟩
      simp only
      rw [coherenceToNegSdr_fin, cclamp_none (by norm_num) le_rfl]
      simp [negDb, toEReal]
    | top =>
      refine ⟨0, ?_⟩
      simp only
      rw [coherenceToNegSdr_fin, cclamp_none le_rfl (by norm_num)]
      simp [negDb, toEReal]
    | coe x =>
      refine ⟨dbClampEps x, ?_⟩
      simp only
      rw [coherenceToNegSdr_fin, cclamp_none (dbClampEps_pos x).le (dbClampEps_lt x).le, negDb_eps]
      rfl
  exact continuous_ofDual.comp (hm.continuous_of_surjective hs)

theorem continuous_cclamp (cl : Option ℝ) : Continuous (cclamp cl) :=
  (continuous_id.max continuous_const).min continuous_const

theorem continuous_negSdr (cl : Option ℝ) : Continuous fun c : ℝ => toEReal (coherenceToNegSdr cl (fin c)) := by
  have h := continuous_negSdr_none.comp (continuous_cclamp cl)
  refine h.congr fun c => ?_
  show toEReal (coherenceToNegSdr none (fin (cclamp cl c))) = _
  rw [coherenceToNegSdr_fin, coherenceToNegSdr_fin, cclamp_none (cclamp_nonneg _ _) (cclamp_le _ _)]

/-! ### one system -/

/-- The value `b ⬝ x` tends to the exact one, for starts of bounded error. -/
theorem cg_value_tendsto {A M : (J → ℝ) →ₗ[ℝ] (J → ℝ)} (hA : Spd A) (hM : Spd M) {b y : J → ℝ} (hy : A y = b)
    {x0 : ℕ → J → ℝ} {E : ℝ} (hE : ∀ n, errSq A y (x0 n) ≤ E) :
    Tendsto (fun n => b ⬝ᵥ conjugateGradient A M b (x0 n) n) atTop (𝓝 (b ⬝ᵥ y)) := by
  have hC : 0 ≤ b ⬝ᵥ y := by
    rw [dotProduct_comm, ← hy]
    exact hA.spsd.nonneg y
  rw [Metric.tendsto_atTop]
  intro ε hε
  have hη : 0 < ε ^ 2 / (2 * (b ⬝ᵥ y + 1)) := by positivity
  obtain ⟨n0, hn0⟩ := errSq_small hA hM E hη
  refine ⟨n0, fun n hn => ?_⟩
  have h1 := hn0 b (x0 n) y hy (hE n) n hn
  have h2 := value_error hA.spsd hy (conjugateGradient A M b (x0 n) n)
  rw [Real.dist_eq, abs_sub_comm]
  refine abs_lt_of_sq_lt_sq ?_ hε.le
  refine lt_of_le_of_lt (h2.trans (mul_le_mul_of_nonneg_left h1 hC)) ?_
  rw [mul_div_assoc', div_lt_iff₀ (by positivity)]
  nlinarith [sq_nonneg ε, mul_pos hε hε]

/-- The solution itself stays bounded. -/
theorem cg_bounded {A M : (J → ℝ) →ₗ[ℝ] (J → ℝ)} (hA : Spd A) (hM : Spd M) {b y x0 : J → ℝ} (hy : A y = b) :
    ∃ C, ∀ n, (y - conjugateGradient A M b x0 n) ⬝ᵥ (y - conjugateGradient A M b x0 n) ≤ C := by
  obtain ⟨c, hc, h⟩ := quad_le_mul (continuous_quad LinearMap.id LinearMap.id) (continuous_quad LinearMap.id A)
    (quad_smul _ _) (quad_smul _ _) fun v hv => hA.pos v hv
  refine ⟨c * errSq A y x0, fun n => (h _).trans (mul_le_mul_of_nonneg_left ?_ hc.le)⟩
  exact errSq_anti hA.spsd (fun v => hM.spsd.nonneg v) hy (Nat.zero_le n)

section one

variable {col : List ℝ} (hB : Covered B) (hc : col.length = n) (hn : 0 < n) (hT : (toeplitz B n col).PosDef)
include hB hc hn hT

theorem toeplitzCg_tendsto (b : Fin n → ℝ) :
    Tendsto (fun it => b ⬝ᵥ toeplitzCg B n col b it) atTop (𝓝 (b ⬝ᵥ ((toeplitz B n col)⁻¹ *ᵥ b))) := by
  unfold toeplitzCg
  rw [symToeplitzOp_coe hB hc hn, circPrecond_coe hB]
  exact cg_value_tendsto (mulVec_spd hT) (circPrecond_spd hB hc hn hT)
    (mulVec_inv ((isUnit_iff_isUnit_det _).1 hT.isUnit).ne_zero b) (x0 := fun _ _ => 0) fun _ => le_rfl

theorem toeplitzCg_bounded (b : Fin n → ℝ) : ∃ C, ∀ it (t : Fin n), |toeplitzCg B n col b it t| ≤ C := by
  unfold toeplitzCg
  rw [symToeplitzOp_coe hB hc hn, circPrecond_coe hB]
  obtain ⟨C, hC⟩ := cg_bounded (mulVec_spd hT) (circPrecond_spd hB hc hn hT)
    (mulVec_inv ((isUnit_iff_isUnit_det _).1 hT.isUnit).ne_zero b) (x0 := fun _ => 0)
  set y := (toeplitz B n col)⁻¹ *ᵥ b with hy
  refine ⟨1 + C + ∑ t, |y t|, fun it t => ?_⟩
  have h := hC it
  set x := conjugateGradient (toeplitz B n col).mulVecLin (circPrecondLin B n col) b (fun _ => 0) it with hx
  have h1 : (y t - x t) * (y t - x t) ≤ C := by
    refine le_trans ?_ h
    exact Finset.single_le_sum (f := fun t => (y - x) t * (y - x) t) (fun i _ => mul_self_nonneg _) (Finset.mem_univ t)
  have h2 : |y t| ≤ ∑ t, |y t| := Finset.single_le_sum (f := fun t => |y t|) (fun i _ => abs_nonneg _) (Finset.mem_univ t)
  have h3 : |y t - x t| ≤ 1 + C := by
    have := abs_mul_abs_self (y t - x t)
    nlinarith [sq_nonneg (|y t - x t| - 1), abs_nonneg (y t - x t)]
  have h4 : |x t| ≤ |y t| + |y t - x t| := by
    have := abs_sub (y t) (y t - x t)
    rwa [sub_sub_cancel] at this
  linarith

end one

/-- The block system, for bounded starts. -/
theorem blockCg_tendsto (hB : Covered B) (hn : 2 ≤ n) {ι κ : Type} {acf : ι → Fin c → Fin c → List ℝ}
    (hc : ∀ i k l, (acf i k l).length = n + n) (hT : ∀ i, (lagMatrix n (acf i)).PosDef)
    {b : ι → κ → Fin n × Fin c → ℝ} {x0 : ℕ → ι → κ → Fin n × Fin c → ℝ}
    (hx : ∀ i k, ∃ C, ∀ it p, |x0 it i k p| ≤ C) :
    ∃ sol : ℕ → ι → κ → Fin n × Fin c → ℝ, (∀ it, blockCg B n acf b (x0 it) it = .ok (sol it)) ∧
      ∀ i k, Tendsto (fun it => b i k ⬝ᵥ sol it i k) atTop (𝓝 (b i k ⬝ᵥ ((lagMatrix n (acf i))⁻¹ *ᵥ b i k))) := by
  refine ⟨fun it i k => conjugateGradient (blockToeplitzOp B n (acf i)) (blockPrecond B n (acf i)) (b i k)
    (x0 it i k) it, fun it => ?_, fun i k => ?_⟩
  · unfold blockCg
    rw [if_neg]
    rintro ⟨i, k, hk, h0⟩
    exact blockPrecondSpec_det hB hn (hc i) (hT i) hk h0
  · simp only
    rw [blockToeplitzOp_coe hB hn (hc i), blockPrecond_eq hB hn (hc i)]
    obtain ⟨C, hC⟩ := hx i k
    set A := (lagMatrix n (acf i)).mulVecLin with hA
    set y := (lagMatrix n (acf i))⁻¹ *ᵥ b i k with hy
    obtain ⟨a, ha, h⟩ := quad_le_mul (continuous_quad LinearMap.id A) (continuous_quad LinearMap.id LinearMap.id)
      (quad_smul _ _) (quad_smul _ _) fun v hv => by
        have := dotProduct_self_star_pos_iff.2 hv
        simpa using this
    refine cg_value_tendsto (mulVec_spd (hT i)) (blockPrecond_spd hB hn (hc i) (hT i))
      (mulVec_inv ((isUnit_iff_isUnit_det _).1 (hT i).isUnit).ne_zero (b i k))
      (E := a * ∑ p, (|y p| + C) * (|y p| + C)) fun it => ?_
    refine (h _).trans (mul_le_mul_of_nonneg_left ?_ ha.le)
    show ∑ p, (y p - x0 it i k p) * (y p - x0 it i k p) ≤ _
    refine Finset.sum_le_sum fun p _ => ?_
    have h1 : |y p - x0 it i k p| ≤ |y p| + C := (abs_sub _ _).trans (by linarith [hC it p])
    rw [← abs_mul_abs_self]
    exact mul_self_le_mul_self (abs_nonneg _) h1

/-! ### the coherences -/

section coh

variable (hB : Covered B) (hload : 0 ≤ o.load) {ref : Sig s r N} {est : Sig s e N}
include hB hload

/-- The coherences of `sdr_loss`. -/
theorem sdrCohPair_tendsto {coh} (h : sdrCohPair B { o with useCgIter := none } ref est = .ok coh) :
    ∃ coh' : ℕ → BIdx s → Fin r → Fin e → ℝ,
      (∀ it, sdrCohPair B { o with useCgIter := some it } ref est = .ok (coh' it)) ∧
      ∀ m k j, Tendsto (fun it => coh' it m k j) atTop (𝓝 (coh m k j)) := by
  by_cases hL : 2 ≤ o.filterLength
  · obtain ⟨n, hn⟩ := nFft_of_coh (o := { o with useCgIter := none }) hL h
    have F := fam_of_nFft (o := o) hn
    have hn0 := F.n_ne
    refine ⟨_, fun it => sdrCohPair_cg hL hn it, fun m k j => ?_⟩
    obtain ⟨hpd, hval⟩ := systems_posDef hB hload hL hn h m k
    rw [hval j]
    exact toeplitzCg_tendsto hB (length_sdrAcf F rfl (by omega) ref m k) (by omega) hpd _
  · refine ⟨fun _ => coh, fun it => ?_, fun m k j => tendsto_const_nhds⟩
    rw [← h]
    simp only [sdrCohPair_def]
    by_cases h0 : o.filterLength = 0
    · rw [if_pos (by exact h0), if_pos (by exact h0)]
    · simp only [if_neg h0, if_pos (show o.filterLength = 1 by omega)]
      rfl

/-- The coherences for the SAR, for bounded starts. -/
theorem cohSar_tendsto (hL : 2 ≤ o.filterLength) (hn : nFft N = .ok n) (hLn : o.filterLength ≤ n)
    (hns : ∀ m, (gramD (allFam (fun x i => cshift n x i) (min o.filterLength n) (prep o ref m)) o.load).det ≠ 0)
    {x0 : ℕ → BIdx s → Fin e → Fin (min o.filterLength n) × Fin r → ℝ} (hx : ∀ m j, ∃ C, ∀ it p, |x0 it m j p| ≤ C) :
    ∃ sa' : ℕ → BIdx s → Fin e → ℝ,
      (∀ it, cohSar B { o with useCgIter := some it } n (min o.filterLength n) ref est (x0 it) = .ok (sa' it)) ∧
      ∀ m j, Tendsto (fun it => sa' it m j) atTop (𝓝 (quad (allFam (fun x i => cshift n x i) (min o.filterLength n)
        (prep o ref m)) o.load (cshift n (prep o est m j) 0))) := by
  have F := fam_of_nFft (o := o) hn
  have hn0 := F.n_ne
  have hT : ∀ m, (lagMatrix (min o.filterLength n) (bssAcf o n ref m)).PosDef := fun m => by
    rw [lagMatrix_bssAcf hB hload hL hn hLn]
    exact gramD_posDef hload (hns m)
  obtain ⟨sol, hsol, hlim⟩ := blockCg_tendsto hB (n := min o.filterLength n) (by omega) (acf := bssAcf o n ref)
    (fun m k l => length_bssAcf F rfl (by omega) ref m k l) hT
    (b := xcorrFlat o n (min o.filterLength n) ref est) hx
  refine ⟨fun it m j => xcorrFlat o n (min o.filterLength n) ref est m j ⬝ᵥ sol it m j, fun it => ?_, fun m j => ?_⟩
  · unfold cohSar
    simp only
    rw [show blockCg B (min o.filterLength n) (bssAcf { o with useCgIter := some it } n ref)
      (xcorrFlat { o with useCgIter := some it } n (min o.filterLength n) ref est) _ it = _ from hsol it]
    rfl
  · have h2 := hlim m j
    rw [lagMatrix_bssAcf hB hload hL hn hLn] at h2
    have e2 := xcorrFlat_eq F rfl hL ref est m j
    simp only [e2] at h2 ⊢
    exact h2

/-- What a returned direct solve says about the signals. -/
theorem direct_cases {p} (hL : 2 ≤ o.filterLength) (h : sqCosPair B { o with useCgIter := none } ref est = .ok p) :
    ∃ n, nFft N = .ok n ∧ o.filterLength ≤ n ∧
      (∀ m, (gramD (allFam (fun x i => cshift n x i) (min o.filterLength n) (prep o ref m)) o.load).det ≠ 0) ∧
      ∀ m j, p.2 m j = quad (allFam (fun x i => cshift n x i) (min o.filterLength n) (prep o ref m)) o.load
        (cshift n (prep o est m j) 0) := by
  obtain ⟨sd, sa⟩ := p
  have hsd := sqCosPair_sdr _ _ h
  obtain ⟨n, hn⟩ := nFft_of_coh (o := { o with useCgIter := none }) hL hsd
  have F := fam_of_nFft (o := o) hn
  by_cases hLn : o.filterLength ≤ n
  swap
  · rw [sqCosPair_too_long (o := { o with useCgIter := none }) (by show o.filterLength ≠ 1; omega) hn
      (by show n < o.filterLength; omega)] at h
    cases h
  rw [sqCosPair_direct (o := { o with useCgIter := none }) hn rfl hL F hLn hB rfl] at h
  split at h
  · cases h
  rename_i hns
  push Not at hns
  refine ⟨n, hn, hLn, fun m => hns.2 m, fun m j => ?_⟩
  rw [← (Prod.mk.inj (Except.ok.inj h)).2]
  rfl

/-- All coherences of `bss_eval_sources`. -/
theorem sqCosPair_tendsto {sd sa} (h : sqCosPair B { o with useCgIter := none } ref est = .ok (sd, sa)) :
    ∃ (sd' : ℕ → BIdx s → Fin r → Fin e → ℝ) (sa' : ℕ → BIdx s → Fin e → ℝ),
      (∀ it, sqCosPair B { o with useCgIter := some it } ref est = .ok (sd' it, sa' it)) ∧
      (∀ m k j, Tendsto (fun it => sd' it m k j) atTop (𝓝 (sd m k j))) ∧
      ∀ m j, Tendsto (fun it => sa' it m j) atTop (𝓝 (sa m j)) := by
  by_cases hL : 2 ≤ o.filterLength
  swap
  · refine ⟨fun _ => sd, fun _ => sa, fun it => ?_, fun m k j => tendsto_const_nhds, fun m j => tendsto_const_nhds⟩
    rw [← h]
    simp only [sqCosPair_def]
    by_cases h0 : o.filterLength = 0
    · rw [if_pos (by exact h0), if_pos (by exact h0)]
    · simp only [if_neg h0, if_pos (show o.filterLength = 1 by omega)]
      rfl
  have hsd := sqCosPair_sdr _ _ h
  obtain ⟨n, hn, hLn, hns, hsa⟩ := direct_cases hB hload hL h
  have F := fam_of_nFft (o := o) hn
  have hn0 := F.n_ne
  have e1 : ∀ it m k, bssAcfSdr { o with useCgIter := some it } n ref m k = sdrAcf o n ref m k := fun it m k =>
    bssAcfSdr_eq_sdrAcf (o := o) F rfl (by omega) hLn ref m k
  obtain ⟨sa', hsa', hlim⟩ := cohSar_tendsto hB hload (est := est) hL hn hLn hns
    (x0 := fun it m j p => toeplitzCg B (min o.filterLength n) (sdrAcf o n ref m p.2)
        (vec (min o.filterLength n) (sdrXcorr o n ref est m p.2 j)) it p.1) (fun m j => by
      have hk : ∀ k : Fin r, ∃ C, ∀ it t, |toeplitzCg B (min o.filterLength n) (sdrAcf o n ref m k)
          (vec (min o.filterLength n) (sdrXcorr o n ref est m k j)) it t| ≤ C := fun k =>
        toeplitzCg_bounded hB (length_sdrAcf F rfl (by omega) ref m k) (by omega)
          (systems_posDef hB hload hL hn hsd m k).1 _
      choose C hC using hk
      refine ⟨∑ k, |C k|, fun it p => ?_⟩
      refine (hC p.2 it p.1).trans ((le_abs_self _).trans ?_)
      exact Finset.single_le_sum (f := fun k => |C k|) (fun i _ => abs_nonneg _) (Finset.mem_univ p.2))
  refine ⟨fun it m k j => vec (min o.filterLength n) (sdrXcorr o n ref est m k j) ⬝ᵥ
    toeplitzCg B (min o.filterLength n) (sdrAcf o n ref m k)
      (vec (min o.filterLength n) (sdrXcorr o n ref est m k j)) it, sa', fun it => ?_, fun m k j => ?_,
    fun m j => ?_⟩
  · rw [sqCosPair_unfold (o := { o with useCgIter := some it }) hn rfl hL hLn]
    simp only [e1]
    rw [show cohSar B { o with useCgIter := some it } n (min o.filterLength n) ref est
        (fun m j p => toeplitzCg B (min o.filterLength n) (sdrAcf o n ref m p.2)
          (vec (min o.filterLength n) (sdrXcorr { o with useCgIter := some it } n ref est m p.2 j)) it p.1) = _ from hsa' it]
    rfl
  · obtain ⟨hpd, hval⟩ := systems_posDef hB hload hL hn hsd m k
    rw [hval j]
    exact toeplitzCg_tendsto hB (length_sdrAcf F rfl (by omega) ref m k) (by omega) hpd _
  · have := hsa m j
    simp only at this
    rw [this]
    exact hlim m j

/-- The same for the aligned call. -/
theorem sqCosDiag_tendsto {ref est : Sig s c N} {sd sa} (hsv : B.stackedVectors = true)
    (h : sqCosDiag B { o with useCgIter := none } ref est = .ok (sd, sa)) :
    ∃ sd' sa' : ℕ → BIdx s → Fin c → ℝ,
      (∀ it, sqCosDiag B { o with useCgIter := some it } ref est = .ok (sd' it, sa' it)) ∧
      (∀ m k, Tendsto (fun it => sd' it m k) atTop (𝓝 (sd m k))) ∧
      ∀ m k, Tendsto (fun it => sa' it m k) atTop (𝓝 (sa m k)) := by
  by_cases hL : 2 ≤ o.filterLength
  swap
  · refine ⟨fun _ => sd, fun _ => sa, fun it => ?_, fun m k => tendsto_const_nhds, fun m j => tendsto_const_nhds⟩
    rw [← h]
    simp only [sqCosDiag_def]
    by_cases h0 : o.filterLength = 0
    · rw [if_pos (by exact h0), if_pos (by exact h0)]
    · simp only [if_neg h0, if_pos (show o.filterLength = 1 by omega)]
      rfl
  rw [sqCosDiag_eq B { o with useCgIter := none } (Or.inr ⟨rfl, hsv⟩)] at h
  cases hpair : sqCosPair B { o with useCgIter := none } ref est with
  | error err => rw [hpair] at h; cases h
  | ok q =>
  rw [hpair] at h
  obtain ⟨sd0, sa0⟩ := q
  cases h
  obtain ⟨n, hn, hLn, hns, hsa⟩ := direct_cases hB hload hL hpair
  have F := fam_of_nFft (o := o) hn
  have hn0 := F.n_ne
  have hsd := sqCosPair_sdr _ _ hpair
  have e1 : ∀ it m k, bssAcfSdr { o with useCgIter := some it } n ref m k = sdrAcf o n ref m k := fun it m k =>
    bssAcfSdr_eq_sdrAcf (o := o) F rfl (by omega) hLn ref m k
  obtain ⟨sa', hsa', hlim⟩ := cohSar_tendsto hB hload (ref := ref) (est := est) hL hn hLn hns (x0 := fun _ _ _ _ => 0)
    fun m j => ⟨0, fun _ _ => by simp⟩
  refine ⟨fun it m k => vec (min o.filterLength n) (sdrXcorr o n ref est m k k) ⬝ᵥ
    toeplitzCg B (min o.filterLength n) (sdrAcf o n ref m k)
      (vec (min o.filterLength n) (sdrXcorr o n ref est m k k)) it, sa', fun it => ?_, fun m k => ?_, fun m k => ?_⟩
  · rw [sqCosDiag_unfold (o := { o with useCgIter := some it }) hn rfl hL hLn]
    simp only [e1]
    rw [hsa' it]
    rfl
  · obtain ⟨hpd, hval⟩ := systems_posDef hB hload hL hn hsd m k
    simp only
    rw [hval k]
    exact toeplitzCg_tendsto hB (length_sdrAcf F rfl (by omega) ref m k) (by omega) hpd _
  · have := hsa m k
    simp only at this ⊢
    rw [this]
    exact hlim m k

end coh

end FBE
