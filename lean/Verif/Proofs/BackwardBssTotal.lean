import Verif.Proofs.BackwardBss
import Verif.Proofs.CgSolve
import Verif.Proofs.Success

/-!
The backward pass from the values of `bss_eval_sources` to the signals.
-/

set_option linter.unusedSectionVars false

namespace FBE.Backward

open Spec XR Filter Topology Matrix

variable {s : List ℕ} {r e c N M K n : ℕ} {o : Opts}

/-! ### The coherences of `square_cosine_metrics` -/

/-- `P` are the coherences `CA`, `CB` of `ref` and `est` and their derivatives. -/
structure Covers (o : Opts) (ref : Sig s r N) (est : Sig s e M) (P : BssPass s r e N M) (CA : (Fin N → ℝ) → (Fin M → ℝ) → ℝ)
    (CB : (Fin r → Fin N → ℝ) → (Fin M → ℝ) → ℝ) : Prop where
  sdr : ∀ m k j, P.cohSdr m k j = CA (prep o ref m k) (prep o est m j)
  sar : ∀ m j, P.cohSar m j = CB (prep o ref m) (prep o est m j)
  pass : ∀ m, PassAt CA CB (prep o ref m) (prep o est m) (P.est m) (P.ref m)
  near_est : ∀ p : Sig s e M, sqCosPair torchBackend o ref p =
    .ok (fun m k j => CA (prep o ref m k) (prep o p m j), fun m j => CB (prep o ref m) (prep o p m j))
  near_ref : ∀ᶠ p in 𝓝 ref, sqCosPair torchBackend o p est =
    .ok (fun m k j => CA (prep o p m k) (prep o est m j), fun m j => CB (prep o p m) (prep o est m j))

section fir

variable (hn : nFft N M = .ok n) (hL : 2 ≤ o.filterLength) (hLn : o.filterLength ≤ n)
include hn hL hLn

theorem blockToeplitz_blkM (ref : Sig s r N) : blockToeplitz torchBackend (min o.filterLength n) (bssAcf o n ref) =
    .ok fun m => blkM n (min o.filterLength n) o.load (prep o ref m) := by
  have h0 := fftSize_ne hn
  have F : Fam N M (min o.filterLength n) n _ _ := fam_cshift h0 (min_le_right _ _)
  rw [blockToeplitz_ok (by omega) _ (fun m k l => by rw [length_bssAcf F rfl (by omega)]; omega)]
  congr 1
  funext m
  ext p q
  obtain ⟨i, a⟩ := p
  obtain ⟨j, b⟩ := q
  have hi := i.isLt
  have hj := j.isLt
  unfold lagAt blkM lagOf
  rw [length_bssAcf F rfl (by omega)]
  dsimp only
  split
  · rename_i hij
    rw [bssAcf_get F rfl (by omega) _ _ _ _ _ (by omega)]
    congr 1
    by_cases hpq : ((i, a) : Fin (min o.filterLength n) × Fin r) = (j, b)
    · rw [if_pos hpq]
      cases hpq
      simp
    · rw [if_neg hpq, if_neg]
      rintro ⟨h1, h2⟩
      exact hpq (by rw [h2, Fin.ext (by omega : i.val = j.val)])
  · rename_i hij
    rw [bssAcf_get_neg F rfl (by omega) hLn _ _ _ _ _ (by omega) (by omega), circ_swap _ _ _ _ (by omega), if_neg, add_zero]
    intro h
    cases h
    exact hij le_rfl

theorem xcorrFlat_blkV (ref : Sig s r N) (est : Sig s e M) (m : BIdx s) (j : Fin e) :
    xcorrFlat o n (min o.filterLength n) ref est m j = blkV n (min o.filterLength n) (prep o ref m) (prep o est m j) := by
  funext p
  unfold xcorrFlat
  rw [vec_xcV (fftSize_ne hn)]
  rfl

theorem toeplitz_bssAcfSdr (ref : Sig s r N) (m : BIdx s) (k : Fin r) :
    toeplitz torchBackend (min o.filterLength n) (bssAcfSdr o n ref m k) =
      acfM n (min o.filterLength n) o.load (prep o ref m k) := by
  have h0 := fftSize_ne hn
  have F : Fam N M (min o.filterLength n) n _ _ := fam_cshift h0 (min_le_right _ _)
  rw [bssAcfSdr_eq_sdrAcf F rfl (by omega) hLn, toeplitz_acfM h0 (by omega)]

open Classical in
theorem sqCosPair_fir (hcg : o.useCgIter = none) (ref : Sig s r N) (est : Sig s e M) : sqCosPair torchBackend o ref est =
    if (∃ i : BIdx s × Fin r, (acfM n (min o.filterLength n) o.load (prep o ref i.1 i.2)).det = 0) ∨
      ∃ m, (blkM n (min o.filterLength n) o.load (prep o ref m)).det = 0 then .error .linAlgError
    else .ok (fun m k j => firCoh n (min o.filterLength n) o.load (prep o ref m k) (prep o est m j),
      fun m j => blkCoh n (min o.filterLength n) o.load (prep o ref m) (prep o est m j)) := by
  rw [sqCosPair_unfold hn rfl hL hLn, hcg]
  unfold cohSar
  rw [hcg]
  simp only [toeplitz_bssAcfSdr hn hL hLn, vec_xcV (fftSize_ne hn), solveStack, blockToeplitz_blkM hn hL hLn,
    xcorrFlat_blkV hn hL hLn]
  by_cases h1 : ∃ i : BIdx s × Fin r, (acfM n (min o.filterLength n) o.load (prep o ref i.1 i.2)).det = 0
  · rw [if_pos h1, if_pos (Or.inl h1)]
  · rw [if_neg h1]
    by_cases h2 : ∃ m, (blkM n (min o.filterLength n) o.load (prep o ref m)).det = 0
    · rw [if_pos h2, if_pos (Or.inr h2)]
    · rw [if_neg h2, if_neg (by tauto)]
      rfl

theorem passFir_eq {ref : Sig s r N} (hd : ∀ m k, (acfM n (min o.filterLength n) o.load (prep o ref m k)).det ≠ 0)
    (hD : ∀ m, (blkM n (min o.filterLength n) o.load (prep o ref m)).det ≠ 0) (est : Sig s e M) : passFir o ref est = .ok
    { cohSdr := fun m k j => firCoh n (min o.filterLength n) o.load (prep o ref m k) (prep o est m j)
      cohSar := fun m j => blkCoh n (min o.filterLength n) o.load (prep o ref m) (prep o est m j)
      est := fun m j => estFir n (min o.filterLength n) o.load (prep o ref m) (prep o est m j)
      ref := fun m => refFir n (min o.filterLength n) o.load (prep o ref m) (prep o est m) } := by
  unfold passFir
  rw [hn]
  dsimp only
  rw [if_neg (by omega)]
  simp only [toeplitz_bssAcfSdr hn hL hLn, vec_xcV (fftSize_ne hn), solveStack, blockToeplitz_blkM hn hL hLn]
  rw [if_neg (by push Not; exact fun i => hd i.1 i.2)]
  dsimp only
  rw [if_neg (by push Not; exact hD)]
  have hf : xcorrFlat o n (min o.filterLength n) ref est =
      fun m j => blkV n (min o.filterLength n) (prep o ref m) (prep o est m j) :=
    funext fun m => funext fun j => xcorrFlat_blkV hn hL hLn ref est m j
  simp only [hf]
  rfl

theorem covers_fir (hN : 0 < N) (hcg : o.useCgIter = none) {ref : Sig s r N} {est : Sig s e M} {p} (h : sqCosPair torchBackend o ref est = .ok p) :
    ∃ P, bssPass o ref est = .ok P ∧ Covers o ref est P (firCoh n (min o.filterLength n) o.load)
      (blkCoh n (min o.filterLength n) o.load) := by
  rw [sqCosPair_fir hn hL hLn hcg] at h
  split at h
  · cases h
  rename_i hne
  push Not at hne
  obtain ⟨hd, hD⟩ := hne
  have hd : ∀ m k, (acfM n (min o.filterLength n) o.load (prep o ref m k)).det ≠ 0 := fun m k => hd (m, k)
  have hb := nFft_bounds hn
  have hp : bssPass o ref est = passFir o ref est := by
    unfold bssPass
    rw [if_neg (by omega), if_neg (by omega)]
  rw [passFir_eq hn hL hLn hd hD est] at hp
  refine ⟨_, hp, ⟨fun _ _ _ => rfl, fun _ _ => rfl, fun m => ?_, fun q => ?_, ?_⟩⟩
  · exact passAt_fir (fftSize_ne hn) (min_le_right _ _) (by omega) (by omega) _ (hd m) (hD m)
  · rw [sqCosPair_fir hn hL hLn hcg, if_neg]
    rintro (⟨i, hi⟩ | ⟨m, hm⟩)
    · exact hd _ _ hi
    · exact hD _ hm
  · have hc : ∀ m, Tendsto (fun p : Sig s r N => prep o p m) (𝓝 ref) (𝓝 (prep o ref m)) := fun m =>
      ((continuous_apply m).comp (continuous_prep (o := o))).tendsto ref
    have hc' : ∀ m k, Tendsto (fun p : Sig s r N => prep o p m k) (𝓝 ref) (𝓝 (prep o ref m k)) := fun m k =>
      ((continuous_apply k).tendsto _).comp (hc m)
    have h1 : ∀ᶠ p in 𝓝 ref, ∀ m k, (acfM n (min o.filterLength n) o.load (prep o p m k)).det ≠ 0 := by
      rw [eventually_all]
      intro m
      rw [eventually_all]
      exact fun k => (hc' m k).eventually (eventually_acfM (hd m k))
    have h2 : ∀ᶠ p in 𝓝 ref, ∀ m, (blkM n (min o.filterLength n) o.load (prep o p m)).det ≠ 0 := by
      rw [eventually_all]
      exact fun m => (hc m).eventually (eventually_blkM (hD m))
    filter_upwards [h1, h2] with q h3 h4
    rw [sqCosPair_fir hn hL hLn hcg, if_neg]
    rintro (⟨i, hi⟩ | ⟨m, hm⟩)
    · exact h3 _ _ hi
    · exact h4 _ hm

end fir

section one

/-- The plain matrix of all references. -/
noncomputable def acmOf (o : Opts) (ref : Sig s r N) : BIdx s → Matrix (Fin r) (Fin r) ℝ :=
  fun m k l => dot (prep o ref m k) (prep o ref m l)

theorem oneM_eq (ref : Sig s r N) : ((match o.loadDiag with
    | some d => fun m => acmOf o ref m + d • (1 : Matrix (Fin r) (Fin r) ℝ)
    | none => acmOf o ref) : BIdx s → Matrix (Fin r) (Fin r) ℝ) = fun m => oneM o.load (prep o ref m) := by
  unfold Opts.load
  cases o.loadDiag with
  | none =>
    funext m
    ext k l
    simp [oneM, acmOf]
  | some d =>
    funext m
    ext k l
    simp only [oneM, acmOf, Matrix.add_apply, Matrix.smul_apply, Matrix.one_apply, smul_eq_mul, Option.getD_some]
    split <;> simp

open Classical in
theorem sqCosPair_one (h1 : o.filterLength = 1) (ref : Sig s r N) (est : Sig s e N) : sqCosPair torchBackend o ref est =
    if ∃ m, (oneM o.load (prep o ref m)).det = 0 then .error .linAlgError
    else .ok (fun m k j => sqCoh (prep o ref m k) (prep o est m j), fun m j => oneCoh o.load (prep o ref m) (prep o est m j)) := by
  rw [sqCosPair_def, if_neg (by omega), if_pos h1]
  have h2 : cohSarOne o ref est = match solveStack (fun m => oneM o.load (prep o ref m))
      (fun m j => oneV (prep o ref m) (prep o est m j)) with
      | .error err => .error err
      | .ok sol => .ok fun m j => ∑ k, oneV (prep o ref m) (prep o est m j) k * sol m j k := by
    rw [← oneM_eq]
    rfl
  rw [h2]
  unfold solveStack
  by_cases h : ∃ m, (oneM o.load (prep o ref m)).det = 0
  · rw [if_pos h, if_pos h]
  · rw [if_neg h, if_neg h]
    rfl

theorem passOne_eq {ref : Sig s r N} (hD : ∀ m, (oneM o.load (prep o ref m)).det ≠ 0) (est : Sig s e N) : passOne o ref est = .ok
    { cohSdr := fun m k j => sqCoh (prep o ref m k) (prep o est m j)
      cohSar := fun m j => oneCoh o.load (prep o ref m) (prep o est m j)
      est := fun m j => estOne o.load (prep o ref m) (prep o est m j)
      ref := fun m => refOne o.load (prep o ref m) (prep o est m) } := by
  have h2 : passOne o ref est = match solveStack (fun m => oneM o.load (prep o ref m))
      (fun m j => oneV (prep o ref m) (prep o est m j)) with
      | .error err => .error err
      | .ok sol => .ok
        { cohSdr := fun m k j => oneV (prep o ref m) (prep o est m j) k ^ 2
          cohSar := fun m j => ∑ k, oneV (prep o ref m) (prep o est m j) k * sol m j k
          est := fun m j g h => estBackOne (prep o ref m) fun k => g k * (2 * oneV (prep o ref m) (prep o est m j) k) +
            rhsGrad (oneM o.load (prep o ref m)) (oneV (prep o ref m) (prep o est m j)) (sol m j) h k
          ref := fun m g h => refBackOne (prep o ref m) (prep o est m)
            (fun k j => g k j * (2 * oneV (prep o ref m) (prep o est m j) k) +
              rhsGrad (oneM o.load (prep o ref m)) (oneV (prep o ref m) (prep o est m j)) (sol m j) (h j) k)
            (lhsGrad (oneM o.load (prep o ref m)) (fun j => oneV (prep o ref m) (prep o est m j)) (sol m) h) } := by
    have h3 := oneM_eq (o := o) ref
    unfold passOne
    dsimp only
    have h4 := fun m => congrFun h3 m
    simp only [← h4]
    rfl
  rw [h2]
  unfold solveStack
  rw [if_neg (by push Not; exact hD)]
  rfl

theorem covers_one (h1 : o.filterLength = 1) {ref : Sig s r N} {est : Sig s e N} {p} (h : sqCosPair torchBackend o ref est = .ok p) :
    ∃ P, bssPass o ref est = .ok P ∧ Covers o ref est P sqCoh (oneCoh o.load) := by
  rw [sqCosPair_one h1] at h
  split at h
  · cases h
  rename_i hD
  push Not at hD
  have hp : bssPass o ref est = passOne o ref est := by
    unfold bssPass
    rw [if_neg (by omega), if_pos h1, dif_pos rfl]
  rw [passOne_eq hD est] at hp
  refine ⟨_, hp, ⟨fun _ _ _ => rfl, fun _ _ => rfl, fun m => ?_, fun q => ?_, ?_⟩⟩
  · exact passAt_one _ (hD m)
  · rw [sqCosPair_one h1, if_neg (by push Not; exact hD)]
  · have hc : ∀ m, Tendsto (fun p : Sig s r N => prep o p m) (𝓝 ref) (𝓝 (prep o ref m)) := fun m =>
      ((continuous_apply m).comp (continuous_prep (o := o))).tendsto ref
    have h2 : ∀ᶠ p in 𝓝 ref, ∀ m, (oneM o.load (prep o p m)).det ≠ 0 := by
      rw [eventually_all]
      exact fun m => (hc m).eventually (eventually_oneM (hD m))
    filter_upwards [h2] with q h3
    rw [sqCosPair_one h1, if_neg (by push Not; exact h3)]

end one

/-- Whenever the coherences are returned. -/
theorem covers (hN : 0 < N) (hdir : o.direct) {ref : Sig s r N} {est : Sig s e M} {p} (h : sqCosPair torchBackend o ref est = .ok p) :
    ∃ P CA CB, bssPass o ref est = .ok P ∧ Covers o ref est P CA CB := by
  by_cases h0 : o.filterLength = 0
  · rw [sqCosPair_zero torchBackend h0] at h; cases h
  by_cases h1 : o.filterLength = 1
  · by_cases hNM : M = N
    case neg => rw [sqCosPair_ne torchBackend h1 hNM] at h; cases h
    subst hNM
    obtain ⟨P, h2, h3⟩ := covers_one h1 h
    exact ⟨P, _, _, h2, h3⟩
  have hcg : o.useCgIter = none := hdir.resolve_left h1
  cases hn : nFft N M with
  | error err => rw [sqCosPair_gen torchBackend (by omega)] at h; unfold sqCosPairGen at h; rw [hn] at h; cases h
  | ok n =>
    by_cases hLn : o.filterLength ≤ n
    · obtain ⟨P, h2, h3⟩ := covers_fir hn (by omega) hLn hN hcg h
      exact ⟨P, _, _, h2, h3⟩
    · rw [sqCosPair_too_long h1 hn (by omega)] at h
      cases h

/-- The coherences of the pass are those of the call. -/
theorem Covers.eq {ref : Sig s r N} {est : Sig s e M} {P : BssPass s r e N M} {CA CB} (hC : Covers o ref est P CA CB) {S A}
    (h : sqCosPair torchBackend o ref est = .ok (S, A)) : P.cohSdr = S ∧ P.cohSar = A := by
  rw [hC.near_est] at h
  cases h
  exact ⟨funext fun m => funext fun k => funext fun j => hC.sdr m k j, funext fun m => funext fun j => hC.sar m j⟩

/-- An estimate without any component in the references is not coherent with one of them. -/
theorem sar_zero (hdir : o.direct) (hload : 0 ≤ o.load) {ref : Sig s r N} {est : Sig s e M} {S A}
    (h : sqCosPair torchBackend o ref est = .ok (S, A)) {m : BIdx s} {j : Fin e} (hA : A m j = 0) (k : Fin r) : S m k j = 0 := by
  obtain ⟨h1, -, -, -, h2⟩ := sqCosPair_range (Or.inl rfl) hdir hload ref est h m k j
  by_cases hc : o.filterLength ≠ 1 ∨ o.load = 0
  · have := h2 hc
    rw [hA] at this
    exact le_antisymm this h1
  push Not at hc
  obtain ⟨hL, hl⟩ := hc
  have hl : 0 < o.load := lt_of_le_of_ne hload (Ne.symm hl)
  by_cases hNM : M = N
  case neg => rw [sqCosPair_ne torchBackend hL hNM] at h; cases h
  subst hNM
  rw [sqCosPair_one hL] at h
  split at h
  · cases h
  cases h
  have hpd : (oneM o.load (prep o ref m)).PosDef := by
    have e1 : oneM o.load (prep o ref m) = (of fun k t => prep o ref m k t) * (of fun k t => prep o ref m k t)ᴴ + o.load • 1 := by
      ext a b
      simp only [oneM, Matrix.add_apply, Matrix.mul_apply, Matrix.conjTranspose_apply, of_apply, star_trivial, Matrix.smul_apply,
        Matrix.one_apply, smul_eq_mul, mul_ite, mul_one, mul_zero]
      rfl
    rw [e1]
    exact Matrix.PosDef.posSemidef_add (Matrix.posSemidef_self_mul_conjTranspose _) (Matrix.PosDef.one.smul hl)
  have hA : oneV (prep o ref m) (prep o est m j) ⬝ᵥ ((oneM o.load (prep o ref m))⁻¹ *ᵥ oneV (prep o ref m) (prep o est m j)) = 0 := hA
  have hz : oneV (prep o ref m) (prep o est m j) = 0 := by
    by_contra hne
    have := hpd.inv.dotProduct_mulVec_pos hne
    rw [star_trivial] at this
    exact this.ne' hA
  show dot (prep o ref m k) (prep o est m j) ^ 2 = 0
  have := congrFun hz k
  rw [show dot (prep o ref m k) (prep o est m j) = 0 from this]
  norm_num

/-! ### From the coherences to the values -/

/-- The coherence is not at a bound of the clamp, where the decibel value has no derivative. -/
def Inside (cl : Option ℝ) (v : ℝ) : Prop := (0 < cclamp cl v ∧ cclamp cl v < 1) ∧ v ≠ epsOf cl ∧ v ≠ 1 - epsOf cl

/-- The slope of one value, zero if the value is not used. -/
noncomputable def sl (cl : Option ℝ) (w : Option ℝ) (v : ℝ) : ℝ := w.elim 0 fun w => w * dbSlope cl v

/-- `y` is the sum of the values `v` with weights `w`, zero if the values are not used. -/
def Uses {ι : Type} [Fintype ι] (w : Option (ι → ℝ)) (v : ι → XR) (y : ℝ) : Prop :=
  match w with
  | none => y = 0
  | some w => ∃ x : ι → ℝ, (∀ i, v i = fin (x i)) ∧ y = ∑ i, w i * x i

/-- `y` is the sum of all used values. -/
def BaseUses {ι : Type} [Fintype ι] (W : BssWeights ι) (T : ι → XR × XR × XR) (y : ℝ) : Prop :=
  ∃ y1 y2 y3, Uses W.sdr (fun i => (T i).1) y1 ∧ Uses W.sir (fun i => (T i).2.1) y2 ∧ Uses W.sar (fun i => (T i).2.2) y3 ∧ y = y1 + y2 + y3

section total

variable {E : Type} [NormedAddCommGroup E] [NormedSpace ℝ E] {ι : Type} [Fintype ι] {x₀ : E} {cl : Option ℝ}

theorem metric_total {c : ι → E → ℝ} {c' : ι → E →L[ℝ] ℝ} (w : Option (ι → ℝ)) (hc : w ≠ none → ∀ i, HasFDerivAt (c i) (c' i) x₀)
    (h : w ≠ none → ∀ i, Inside cl (c i x₀)) :
    ∃ (F : E → ℝ) (F' : E →L[ℝ] ℝ), (∀ᶠ p in 𝓝 x₀, Uses w (fun i => coherenceToNegSdr cl (fin (c i p))) (F p)) ∧
      HasFDerivAt F F' x₀ ∧ ∀ v, F' v = ∑ i, sl cl (w.map (· i)) (c i x₀) * c' i v := by
  cases w with
  | none => exact ⟨fun _ => 0, 0, Eventually.of_forall fun _ => rfl, hasFDerivAt_const _ _, fun v => by simp [sl]⟩
  | some w =>
    have h := h (by simp)
    have hc := hc (by simp)
    choose φ h1 h2 using fun i => loss_hasDerivAt (h i).1.1 (h i).1.2 (h i).2
    refine ⟨fun p => ∑ i, w i * φ i (c i p), ∑ i, w i • dbSlope cl (c i x₀) • c' i, ?_, ?_, fun v => ?_⟩
    · have : ∀ᶠ p in 𝓝 x₀, ∀ i, coherenceToNegSdr cl (fin (c i p)) = fin (φ i (c i p)) := by
        rw [eventually_all]
        exact fun i => (hc i).continuousAt.eventually (h1 i)
      filter_upwards [this] with p hp
      exact ⟨fun i => φ i (c i p), hp, rfl⟩
    · exact HasFDerivAt.fun_sum fun i _ => ((h2 i).comp_hasFDerivAt x₀ (hc i)).const_mul (w i)
    · simp only [_root_.sum_apply, _root_.smul_apply, smul_eq_mul, Option.map_some, sl, Option.elim_some]
      exact Finset.sum_congr rfl fun i _ => by ring

/-- The gradient of the coherence with one reference. -/
noncomputable def gsR (cl : Option ℝ) (a b : ℝ) (wd wi : Option ℝ) : ℝ := sl cl wd a + sl cl wi (a / b) / b

/-- The gradient of the coherence with all references. -/
noncomputable def gaR (cl : Option ℝ) (a b : ℝ) (wi wa : Option ℝ) : ℝ := sl cl wa b + -(sl cl wi (a / b)) * (a / b / b)

/-- The used values of an element have a derivative. -/
structure Usable (cl : Option ℝ) (W : BssWeights ι) (a b : ι → ℝ) : Prop where
  sdr : W.sdr ≠ none → ∀ i, Inside cl (a i)
  sir : W.sir ≠ none → ∀ i, b i ≠ 0 ∧ Inside cl (a i / b i)
  sar : W.sar ≠ none → ∀ i, Inside cl (b i)

theorem div_fin {a b : ℝ} (h : b ≠ 0) : div (fin a) (fin b) = fin (a / b) := by
  show (if b = 0 then _ else _) = _
  rw [if_neg h]

/-- The used values of an element have a finite gradient. -/
structure Finite (cl : Option ℝ) (W : BssWeights ι) (a b : ι → ℝ) (i : ι) : Prop where
  sdr : W.sdr ≠ none → 0 < cclamp cl (a i) ∧ cclamp cl (a i) < 1
  sir : W.sir ≠ none → b i ≠ 0 ∧ 0 < cclamp cl (a i / b i) ∧ cclamp cl (a i / b i) < 1
  sar : W.sar ≠ none → 0 < cclamp cl (b i) ∧ cclamp cl (b i) < 1

theorem Usable.finite {W : BssWeights ι} {a b : ι → ℝ} (h : Usable cl W a b) (i : ι) : Finite cl W a b i :=
  ⟨fun hw => (h.sdr hw i).1, fun hw => ⟨(h.sir hw i).1, (h.sir hw i).2.1⟩, fun hw => (h.sar hw i).1⟩

theorem sirGrad_fin {a b : ℝ} (hb : b ≠ 0) (h : 0 < cclamp cl (a / b) ∧ cclamp cl (a / b) < 1) (w : ℝ) :
    sirGrad cl a b w = fin (sl cl (some w) (a / b)) := by
  unfold sirGrad
  rw [div_fin hb]
  exact decibelGrad_fin h.1 h.2 w

theorem baseGradSdr_fin {W : BssWeights ι} {a b : ι → ℝ} {i : ι} (h : Finite cl W a b i) :
    baseGradSdr cl (a i) (b i) (W.sdr.map (· i)) (W.sir.map (· i)) = fin (gsR cl (a i) (b i) (W.sdr.map (· i)) (W.sir.map (· i))) := by
  obtain ⟨h1, h2, h3⟩ := h
  unfold baseGradSdr gsR
  have e1 : (match W.sdr.map (· i) with
    | some w => decibelGrad cl (a i) (fin w)
    | none => fin 0) = fin (sl cl (W.sdr.map (· i)) (a i)) := by
    cases hw : W.sdr with
    | none => rfl
    | some w => exact decibelGrad_fin (h1 (by rw [hw]; simp)).1 (h1 (by rw [hw]; simp)).2 _
  have e2 : (match W.sir.map (· i) with
    | some w => div (sirGrad cl (a i) (b i) w) (fin (b i))
    | none => fin 0) = fin (sl cl (W.sir.map (· i)) (a i / b i) / b i) := by
    cases hw : W.sir with
    | none => simp [sl]
    | some w =>
      have h4 := h2 (by rw [hw]; simp)
      simp only [Option.map_some]
      rw [sirGrad_fin h4.1 h4.2, div_fin h4.1]
  exact congrArg₂ add e1 e2

theorem baseGradSar_fin {W : BssWeights ι} {a b : ι → ℝ} {i : ι} (h : Finite cl W a b i) :
    baseGradSar cl (a i) (b i) (W.sir.map (· i)) (W.sar.map (· i)) = fin (gaR cl (a i) (b i) (W.sir.map (· i)) (W.sar.map (· i))) := by
  obtain ⟨h1, h2, h3⟩ := h
  unfold baseGradSar gaR
  have e1 : (match W.sar.map (· i) with
    | some w => decibelGrad cl (b i) (fin w)
    | none => fin 0) = fin (sl cl (W.sar.map (· i)) (b i)) := by
    cases hw : W.sar with
    | none => rfl
    | some w => exact decibelGrad_fin (h3 (by rw [hw]; simp)).1 (h3 (by rw [hw]; simp)).2 _
  have e2 : (match W.sir.map (· i) with
    | some w => mul (neg (sirGrad cl (a i) (b i) w)) (div (div (fin (a i)) (fin (b i))) (fin (b i)))
    | none => fin 0) = fin (-(sl cl (W.sir.map (· i)) (a i / b i)) * (a i / b i / b i)) := by
    cases hw : W.sir with
    | none => simp [sl]
    | some w =>
      have h4 := h2 (by rw [hw]; simp)
      simp only [Option.map_some]
      rw [sirGrad_fin h4.1 h4.2, div_fin h4.1, div_fin h4.1]
      rfl
  exact congrArg₂ add e1 e2

theorem base_total {a b : ι → E → ℝ} {a' b' : ι → E →L[ℝ] ℝ} (ha : ∀ i, HasFDerivAt (a i) (a' i) x₀) (hb : ∀ i, HasFDerivAt (b i) (b' i) x₀)
    (W : BssWeights ι) (h : Usable cl W (fun i => a i x₀) fun i => b i x₀) :
    ∃ (F : E → ℝ) (F' : E →L[ℝ] ℝ), (∀ᶠ p in 𝓝 x₀, BaseUses W (fun i => baseMetrics cl (a i p) (b i p)) (F p)) ∧ HasFDerivAt F F' x₀ ∧
      ∀ v, F' v = ∑ i, (gsR cl (a i x₀) (b i x₀) (W.sdr.map (· i)) (W.sir.map (· i)) * a' i v +
        gaR cl (a i x₀) (b i x₀) (W.sir.map (· i)) (W.sar.map (· i)) * b' i v) := by
  obtain ⟨F1, F1', p1, q1, r1⟩ := metric_total (cl := cl) W.sdr (fun _ => ha) h.sdr
  obtain ⟨F3, F3', p3, q3, r3⟩ := metric_total (cl := cl) W.sar (fun _ => hb) h.sar
  have hd : W.sir ≠ none → ∀ i, HasFDerivAt (fun p => a i p / b i p)
      ((b i x₀)⁻¹ • a' i - (a i x₀ / b i x₀ / b i x₀) • b' i) x₀ := by
    intro hw i
    have hne := (h.sir hw i).1
    have := (ha i).mul ((hasDerivAt_inv hne).comp_hasFDerivAt x₀ (hb i))
    refine (this.congr_fderiv ?_)
    ext v
    simp only [_root_.add_apply, _root_.sub_apply, _root_.smul_apply, smul_eq_mul, Function.comp]
    field_simp
    ring
  obtain ⟨F2, F2', p2, q2, r2⟩ := metric_total (cl := cl) W.sir hd fun hw i => (h.sir hw i).2
  have hne : ∀ᶠ p in 𝓝 x₀, W.sir ≠ none → ∀ i, b i p ≠ 0 := by
    by_cases hw : W.sir = none
    · exact Eventually.of_forall fun _ h => absurd hw h
    · have : ∀ᶠ p in 𝓝 x₀, ∀ i, b i p ≠ 0 := by
        rw [eventually_all]
        exact fun i => (hb i).continuousAt.eventually_ne (h.sir hw i).1
      filter_upwards [this] with p hp _ using hp
  refine ⟨fun p => F1 p + F2 p + F3 p, F1' + F2' + F3', ?_, (q1.add q2).add q3, fun v => ?_⟩
  · filter_upwards [p1, p2, p3, hne] with p h1 h2 h3 h4
    refine ⟨_, _, _, h1, ?_, h3, rfl⟩
    by_cases hw : W.sir = none
    · rw [hw] at h2 ⊢
      exact h2
    · have : (fun i => (baseMetrics cl (a i p) (b i p)).2.1) = fun i => coherenceToNegSdr cl (fin (a i p / b i p)) := by
        funext i
        show coherenceToNegSdr cl (div (fin (a i p)) (fin (b i p))) = _
        rw [div_fin (h4 hw i)]
      rw [this]
      exact h2
  · simp only [_root_.add_apply, r1, r2, r3, ← Finset.sum_add_distrib, _root_.sub_apply, _root_.smul_apply, smul_eq_mul]
    refine Finset.sum_congr rfl fun i _ => ?_
    unfold gsR gaR
    rw [div_eq_mul_inv _ (b i x₀)]
    ring

end total

/-! ### From the values to the signals -/

section sig

variable {κ : Type} [Fintype κ] {CA : (Fin N → ℝ) → (Fin M → ℝ) → ℝ} {CB : (Fin r → Fin N → ℝ) → (Fin M → ℝ) → ℝ}

/-- One channel of one item of the batch. -/
noncomputable def sigCLM (s : List ℕ) (c N : ℕ) (m : BIdx s) (k : Fin c) : Sig s c N →L[ℝ] (Fin N → ℝ) :=
  ContinuousLinearMap.proj (R := ℝ) (φ := fun _ : Fin c => Fin N → ℝ) k ∘L
    ContinuousLinearMap.proj (R := ℝ) (φ := fun _ : BIdx s => Fin c → Fin N → ℝ) m

/-- All channels of one item, normalised. -/
theorem hasFDerivAt_item {zm : Bool} {x : Sig s r N} (hx : ∀ m k, sigNorm (centred zm (x m k)) ≠ 1e-6) (m : BIdx s) :
    ∃ D : Sig s r N →L[ℝ] (Fin r → Fin N → ℝ), HasFDerivAt (fun p : Sig s r N => fun k => preprocess zm (p m k)) D x ∧
      ∀ (γ : Fin r → Fin N → ℝ) (v : Sig s r N), ∑ k, ∑ t, γ k t * D v k t = ∑ k, ∑ t, prepR zm (x m k) (γ k) t * v m k t := by
  choose D hD hg using fun k => hasFDerivAt_preprocess (hx m k)
  refine ⟨ContinuousLinearMap.pi fun k => D k ∘L sigCLM s r N m k, ?_, fun γ v => ?_⟩
  · rw [hasFDerivAt_pi]
    exact fun k => HasFDerivAt.comp x (f := sigCLM s r N m k) (g := preprocess zm) (hD k) (sigCLM s r N m k).hasFDerivAt
  · exact Finset.sum_congr rfl fun k _ => hg k (γ k) (v m k)

/-- The gradients of the coherences collected at the pairs and estimates. -/
theorem collect (pr : κ → Fin r × Fin e) (gs ga : κ → ℝ) (A : Fin r → Fin e → ℝ) (B : Fin e → ℝ) :
    ∑ i, (gs i * A (pr i).1 (pr i).2 + ga i * B (pr i).2) =
      ∑ j, (∑ k, (∑ i, if pr i = (k, j) then gs i else 0) * A k j + (∑ i, if (pr i).2 = j then ga i else 0) * B j) := by
  rw [Finset.sum_add_distrib, Finset.sum_add_distrib]
  congr 1
  · simp only [Finset.sum_mul]
    have e1 : ∀ j, ∑ k, ∑ i, (if pr i = (k, j) then gs i else 0) * A k j = ∑ i, ∑ k, (if pr i = (k, j) then gs i else 0) * A k j :=
      fun j => Finset.sum_comm
    simp only [e1]
    rw [Finset.sum_comm]
    refine Finset.sum_congr rfl fun i _ => ?_
    rw [Finset.sum_eq_single (pr i).2, Finset.sum_eq_single (pr i).1, if_pos rfl]
    · intro k _ hk
      rw [if_neg (fun h => hk (by rw [h])), zero_mul]
    · exact fun h => absurd (Finset.mem_univ _) h
    · intro j _ hj
      refine Finset.sum_eq_zero fun k _ => ?_
      rw [if_neg (fun h => hj (by rw [h])), zero_mul]
    · exact fun h => absurd (Finset.mem_univ _) h
  · simp only [Finset.sum_mul]
    rw [Finset.sum_comm]
    refine Finset.sum_congr rfl fun i _ => ?_
    simp

/-- As `PassAt` for the estimates and the pairs in `U`. -/
def PassEst (U : Fin r → Fin e → Prop) (CA : (Fin N → ℝ) → (Fin M → ℝ) → ℝ) (CB : (Fin r → Fin N → ℝ) → (Fin M → ℝ) → ℝ)
    (x : Fin r → Fin N → ℝ) (y : Fin e → Fin M → ℝ) (est : Fin e → (Fin r → ℝ) → ℝ → Fin M → ℝ) : Prop :=
  ∀ j, ∃ (A' : Fin r → (Fin M → ℝ) →L[ℝ] ℝ) (B' : (Fin M → ℝ) →L[ℝ] ℝ),
    (∀ k, U k j → HasFDerivAt (CA (x k)) (A' k) (y j)) ∧ HasFDerivAt (CB x) B' (y j) ∧
      ∀ g h v, (∀ k, ¬U k j → g k = 0) → ∑ t, est j g h t * v t = ∑ k, g k * A' k v + h * B' v

/-- As `PassAt` for the references and the pairs in `U`. -/
def PassRef (U : Fin r → Fin e → Prop) (CA : (Fin N → ℝ) → (Fin M → ℝ) → ℝ) (CB : (Fin r → Fin N → ℝ) → (Fin M → ℝ) → ℝ)
    (x : Fin r → Fin N → ℝ) (y : Fin e → Fin M → ℝ) (ref : (Fin r → Fin e → ℝ) → (Fin e → ℝ) → Fin r → Fin N → ℝ) : Prop :=
  ∃ (A' : Fin r → Fin e → (Fin r → Fin N → ℝ) →L[ℝ] ℝ) (B' : Fin e → (Fin r → Fin N → ℝ) →L[ℝ] ℝ),
    (∀ k j, U k j → HasFDerivAt (fun x : Fin r → Fin N → ℝ => CA (x k) (y j)) (A' k j) x) ∧
      (∀ j, HasFDerivAt (fun x => CB x (y j)) (B' j) x) ∧
      ∀ g h v, (∀ k j, ¬U k j → g k j = 0) → ∑ k, ∑ t, ref g h k t * v k t = ∑ k, ∑ j, g k j * A' k j v + ∑ j, h j * B' j v

theorem PassAt.onEst {x : Fin r → Fin N → ℝ} {y : Fin e → Fin M → ℝ} {est ref} (h : PassAt CA CB x y est ref) (U : Fin r → Fin e → Prop) :
    PassEst U CA CB x y est := by
  intro j
  obtain ⟨A', B', h1, h2, h3⟩ := h.est_adj j
  exact ⟨A', B', fun k _ => h1 k, h2, fun g h v _ => h3 g h v⟩

theorem PassAt.onRef {x : Fin r → Fin N → ℝ} {y : Fin e → Fin M → ℝ} {est ref} (h : PassAt CA CB x y est ref) (U : Fin r → Fin e → Prop) :
    PassRef U CA CB x y ref := by
  obtain ⟨A', B', h1, h2, h3⟩ := h.ref_adj
  exact ⟨A', B', fun k j _ => h1 k j, h2, fun g h v _ => h3 g h v⟩

/-- The used pairs `pr`, with gradients `gs`, `ga` of their coherences. -/
theorem est_total_on {ref : Sig s r N} {est : Sig s e M} {P : BssPass s r e N M} {U : Fin r → Fin e → Prop}
    (hsdr : ∀ m k j, U k j → P.cohSdr m k j = CA (prep o ref m k) (prep o est m j))
    (hsar : ∀ m j, P.cohSar m j = CB (prep o ref m) (prep o est m j))
    (hpass : ∀ m, PassEst U CA CB (prep o ref m) (prep o est m) (P.est m))
    (hx : ∀ m j, sigNorm (centred o.zeroMean (est m j)) ≠ 1e-6) (pr : κ → Fin r × Fin e) (hpr : ∀ i, U (pr i).1 (pr i).2) (W : BssWeights (BIdx s × κ))
    (h : Usable o.clampDb W (fun i => P.cohSdr i.1 (pr i.2).1 (pr i.2).2) fun i => P.cohSar i.1 (pr i.2).2)
    {gs ga : BIdx s → κ → ℝ}
    (hgs : ∀ m i, baseGradSdr o.clampDb (P.cohSdr m (pr i).1 (pr i).2) (P.cohSar m (pr i).2) (W.sdr.map (· (m, i))) (W.sir.map (· (m, i))) =
      fin (gs m i))
    (hga : ∀ m i, baseGradSar o.clampDb (P.cohSdr m (pr i).1 (pr i).2) (P.cohSar m (pr i).2) (W.sir.map (· (m, i))) (W.sar.map (· (m, i))) =
      fin (ga m i)) :
    ∃ (F : Sig s e M → ℝ) (F' : Sig s e M →L[ℝ] ℝ), (∀ᶠ p in 𝓝 est, BaseUses W (fun i => baseMetrics o.clampDb
        (CA (prep o ref i.1 (pr i.2).1) (prep o p i.1 (pr i.2).2)) (CB (prep o ref i.1) (prep o p i.1 (pr i.2).2))) (F p)) ∧
      HasFDerivAt F F' est ∧ ∀ v, F' v = ∑ m, ∑ j, ∑ t, prepR o.zeroMean (est m j)
        (P.est m j (fun k => ∑ i, if pr i = (k, j) then gs m i else 0) (∑ i, if (pr i).2 = j then ga m i else 0)) t * v m j t := by
  choose A' B' a1 b1 c1 using fun m j => hpass m j
  choose D hD hg using fun m j => hasFDerivAt_preprocess (hx m j)
  have d1 : ∀ m j, HasFDerivAt (fun p : Sig s e M => prep o p m j) (D m j ∘L sigCLM s e M m j) est := fun m j =>
    HasFDerivAt.comp est (f := sigCLM s e M m j) (g := preprocess o.zeroMean) (hD m j) (sigCLM s e M m j).hasFDerivAt
  have h2 : Usable o.clampDb W (fun i => CA (prep o ref i.1 (pr i.2).1) (prep o est i.1 (pr i.2).2))
      fun i => CB (prep o ref i.1) (prep o est i.1 (pr i.2).2) := by
    simp only [hsar, hsdr _ _ _ (hpr _)] at h
    exact h
  obtain ⟨F, F', f1, f2, f3⟩ := base_total (x₀ := est) (cl := o.clampDb) (ι := BIdx s × κ)
    (a := fun i p => CA (prep o ref i.1 (pr i.2).1) (prep o p i.1 (pr i.2).2))
    (b := fun i p => CB (prep o ref i.1) (prep o p i.1 (pr i.2).2))
    (fun i => HasFDerivAt.comp est (f := fun p : Sig s e M => prep o p i.1 (pr i.2).2) (a1 i.1 (pr i.2).2 (pr i.2).1 (hpr i.2)) (d1 i.1 (pr i.2).2))
    (fun i => HasFDerivAt.comp est (f := fun p : Sig s e M => prep o p i.1 (pr i.2).2) (b1 i.1 (pr i.2).2) (d1 i.1 (pr i.2).2)) W h2
  refine ⟨F, F', f1, f2, fun v => ?_⟩
  · rw [f3, Fintype.sum_prod_type]
    refine Finset.sum_congr rfl fun m _ => ?_
    have e1 : ∀ i, gsR o.clampDb (CA (prep o ref m (pr i).1) (prep o est m (pr i).2)) (CB (prep o ref m) (prep o est m (pr i).2))
        (W.sdr.map (· (m, i))) (W.sir.map (· (m, i))) = gs m i := by
      intro i
      have := baseGradSdr_fin (h.finite (m, i))
      rw [hgs m i] at this
      rw [← hsdr _ _ _ (hpr i), ← hsar]
      exact (XR.fin.inj this).symm
    have e2 : ∀ i, gaR o.clampDb (CA (prep o ref m (pr i).1) (prep o est m (pr i).2)) (CB (prep o ref m) (prep o est m (pr i).2))
        (W.sir.map (· (m, i))) (W.sar.map (· (m, i))) = ga m i := by
      intro i
      have := baseGradSar_fin (h.finite (m, i))
      rw [hga m i] at this
      rw [← hsdr _ _ _ (hpr i), ← hsar]
      exact (XR.fin.inj this).symm
    simp only [e1, e2, ContinuousLinearMap.comp_apply]
    rw [collect pr (gs m) (ga m) (fun k j => A' m j k (D m j (sigCLM s e M m j v))) (fun j => B' m j (D m j (sigCLM s e M m j v)))]
    refine Finset.sum_congr rfl fun j _ => ?_
    rw [← hg, ← c1]
    · rfl
    · intro k hk
      refine Finset.sum_eq_zero fun i _ => if_neg fun h => hk ?_
      have := hpr i
      rwa [h] at this

/-- The same for the references. -/
theorem ref_total_on {ref : Sig s r N} {est : Sig s e M} {P : BssPass s r e N M} {U : Fin r → Fin e → Prop}
    (hsdr : ∀ m k j, U k j → P.cohSdr m k j = CA (prep o ref m k) (prep o est m j))
    (hsar : ∀ m j, P.cohSar m j = CB (prep o ref m) (prep o est m j))
    (hpass : ∀ m, PassRef U CA CB (prep o ref m) (prep o est m) (P.ref m))
    (hx : ∀ m k, sigNorm (centred o.zeroMean (ref m k)) ≠ 1e-6) (pr : κ → Fin r × Fin e) (hpr : ∀ i, U (pr i).1 (pr i).2) (W : BssWeights (BIdx s × κ))
    (h : Usable o.clampDb W (fun i => P.cohSdr i.1 (pr i.2).1 (pr i.2).2) fun i => P.cohSar i.1 (pr i.2).2)
    {gs ga : BIdx s → κ → ℝ}
    (hgs : ∀ m i, baseGradSdr o.clampDb (P.cohSdr m (pr i).1 (pr i).2) (P.cohSar m (pr i).2) (W.sdr.map (· (m, i))) (W.sir.map (· (m, i))) =
      fin (gs m i))
    (hga : ∀ m i, baseGradSar o.clampDb (P.cohSdr m (pr i).1 (pr i).2) (P.cohSar m (pr i).2) (W.sir.map (· (m, i))) (W.sar.map (· (m, i))) =
      fin (ga m i)) :
    ∃ (F : Sig s r N → ℝ) (F' : Sig s r N →L[ℝ] ℝ), (∀ᶠ p in 𝓝 ref, BaseUses W (fun i => baseMetrics o.clampDb
        (CA (prep o p i.1 (pr i.2).1) (prep o est i.1 (pr i.2).2)) (CB (prep o p i.1) (prep o est i.1 (pr i.2).2))) (F p)) ∧
      HasFDerivAt F F' ref ∧ ∀ v, F' v = ∑ m, ∑ k, ∑ t, prepR o.zeroMean (ref m k)
        (P.ref m (fun k j => ∑ i, if pr i = (k, j) then gs m i else 0) (fun j => ∑ i, if (pr i).2 = j then ga m i else 0) k) t * v m k t := by
  choose A' B' a1 b1 c1 using fun m => hpass m
  choose D hD hg using hasFDerivAt_item (zm := o.zeroMean) hx
  have h2 : Usable o.clampDb W (fun i => CA (prep o ref i.1 (pr i.2).1) (prep o est i.1 (pr i.2).2))
      fun i => CB (prep o ref i.1) (prep o est i.1 (pr i.2).2) := by
    simp only [hsar, hsdr _ _ _ (hpr _)] at h
    exact h
  obtain ⟨F, F', f1, f2, f3⟩ := base_total (x₀ := ref) (cl := o.clampDb) (ι := BIdx s × κ)
    (a := fun i p => CA (prep o p i.1 (pr i.2).1) (prep o est i.1 (pr i.2).2))
    (b := fun i p => CB (prep o p i.1) (prep o est i.1 (pr i.2).2))
    (fun i => HasFDerivAt.comp ref (f := fun p : Sig s r N => prep o p i.1)
      (g := fun x : Fin r → Fin N → ℝ => CA (x (pr i.2).1) (prep o est i.1 (pr i.2).2)) (a1 i.1 (pr i.2).1 (pr i.2).2 (hpr i.2)) (hD i.1))
    (fun i => HasFDerivAt.comp ref (f := fun p : Sig s r N => prep o p i.1)
      (g := fun x : Fin r → Fin N → ℝ => CB x (prep o est i.1 (pr i.2).2)) (b1 i.1 (pr i.2).2) (hD i.1)) W h2
  refine ⟨F, F', f1, f2, fun v => ?_⟩
  · rw [f3, Fintype.sum_prod_type]
    refine Finset.sum_congr rfl fun m _ => ?_
    have e1 : ∀ i, gsR o.clampDb (CA (prep o ref m (pr i).1) (prep o est m (pr i).2)) (CB (prep o ref m) (prep o est m (pr i).2))
        (W.sdr.map (· (m, i))) (W.sir.map (· (m, i))) = gs m i := by
      intro i
      have := baseGradSdr_fin (h.finite (m, i))
      rw [hgs m i] at this
      rw [← hsdr _ _ _ (hpr i), ← hsar]
      exact (XR.fin.inj this).symm
    have e2 : ∀ i, gaR o.clampDb (CA (prep o ref m (pr i).1) (prep o est m (pr i).2)) (CB (prep o ref m) (prep o est m (pr i).2))
        (W.sir.map (· (m, i))) (W.sar.map (· (m, i))) = ga m i := by
      intro i
      have := baseGradSar_fin (h.finite (m, i))
      rw [hga m i] at this
      rw [← hsdr _ _ _ (hpr i), ← hsar]
      exact (XR.fin.inj this).symm
    simp only [e1, e2, ContinuousLinearMap.comp_apply]
    rw [collect pr (gs m) (ga m) (fun k j => A' m k j (D m v)) (fun j => B' m j (D m v))]
    rw [← hg, c1, Finset.sum_add_distrib]
    · congr 1
      exact Finset.sum_comm
    · intro k j hk
      refine Finset.sum_eq_zero fun i _ => if_neg fun h => hk ?_
      have := hpr i
      rwa [h] at this

/-- The used pairs `pr`, for `square_cosine_metrics`. -/
theorem est_total_bss {ref : Sig s r N} {est : Sig s e M} {P : BssPass s r e N M} (hC : Covers o ref est P CA CB)
    (hx : ∀ m j, sigNorm (centred o.zeroMean (est m j)) ≠ 1e-6) (pr : κ → Fin r × Fin e) (W : BssWeights (BIdx s × κ))
    (h : Usable o.clampDb W (fun i => P.cohSdr i.1 (pr i.2).1 (pr i.2).2) fun i => P.cohSar i.1 (pr i.2).2)
    {gs ga : BIdx s → κ → ℝ}
    (hgs : ∀ m i, baseGradSdr o.clampDb (P.cohSdr m (pr i).1 (pr i).2) (P.cohSar m (pr i).2) (W.sdr.map (· (m, i))) (W.sir.map (· (m, i))) =
      fin (gs m i))
    (hga : ∀ m i, baseGradSar o.clampDb (P.cohSdr m (pr i).1 (pr i).2) (P.cohSar m (pr i).2) (W.sir.map (· (m, i))) (W.sar.map (· (m, i))) =
      fin (ga m i)) :
    ∃ (F : Sig s e M → ℝ) (F' : Sig s e M →L[ℝ] ℝ), (∀ᶠ p in 𝓝 est, ∃ S A, sqCosPair torchBackend o ref p = .ok (S, A) ∧
        BaseUses W (fun i => baseMetrics o.clampDb (S i.1 (pr i.2).1 (pr i.2).2) (A i.1 (pr i.2).2)) (F p)) ∧
      HasFDerivAt F F' est ∧ ∀ v, F' v = ∑ m, ∑ j, ∑ t, prepR o.zeroMean (est m j)
        (P.est m j (fun k => ∑ i, if pr i = (k, j) then gs m i else 0) (∑ i, if (pr i).2 = j then ga m i else 0)) t * v m j t := by
  obtain ⟨F, F', f1, f2, f3⟩ := est_total_on (U := fun _ _ => True) (fun m k j _ => hC.sdr m k j) hC.sar (fun m => (hC.pass m).onEst _) hx pr
    (fun _ => trivial) W h hgs hga
  exact ⟨F, F', f1.mono fun p hp => ⟨_, _, hC.near_est p, hp⟩, f2, f3⟩

/-- The same for the references. -/
theorem ref_total_bss {ref : Sig s r N} {est : Sig s e M} {P : BssPass s r e N M} (hC : Covers o ref est P CA CB)
    (hx : ∀ m k, sigNorm (centred o.zeroMean (ref m k)) ≠ 1e-6) (pr : κ → Fin r × Fin e) (W : BssWeights (BIdx s × κ))
    (h : Usable o.clampDb W (fun i => P.cohSdr i.1 (pr i.2).1 (pr i.2).2) fun i => P.cohSar i.1 (pr i.2).2)
    {gs ga : BIdx s → κ → ℝ}
    (hgs : ∀ m i, baseGradSdr o.clampDb (P.cohSdr m (pr i).1 (pr i).2) (P.cohSar m (pr i).2) (W.sdr.map (· (m, i))) (W.sir.map (· (m, i))) =
      fin (gs m i))
    (hga : ∀ m i, baseGradSar o.clampDb (P.cohSdr m (pr i).1 (pr i).2) (P.cohSar m (pr i).2) (W.sir.map (· (m, i))) (W.sar.map (· (m, i))) =
      fin (ga m i)) :
    ∃ (F : Sig s r N → ℝ) (F' : Sig s r N →L[ℝ] ℝ), (∀ᶠ p in 𝓝 ref, ∃ S A, sqCosPair torchBackend o p est = .ok (S, A) ∧
        BaseUses W (fun i => baseMetrics o.clampDb (S i.1 (pr i.2).1 (pr i.2).2) (A i.1 (pr i.2).2)) (F p)) ∧
      HasFDerivAt F F' ref ∧ ∀ v, F' v = ∑ m, ∑ k, ∑ t, prepR o.zeroMean (ref m k)
        (P.ref m (fun k j => ∑ i, if pr i = (k, j) then gs m i else 0) (fun j => ∑ i, if (pr i).2 = j then ga m i else 0) k) t * v m k t := by
  obtain ⟨F, F', f1, f2, f3⟩ := ref_total_on (U := fun _ _ => True) (fun m k j _ => hC.sdr m k j) hC.sar (fun m => (hC.pass m).onRef _) hx pr
    (fun _ => trivial) W h hgs hga
  refine ⟨F, F', ?_, f2, f3⟩
  filter_upwards [f1, hC.near_ref] with p hp hq
  exact ⟨_, _, hq, hp⟩

end sig

/-! ### A single coherence -/

theorem eq_of_sums {a b : Fin N → ℝ} (h : ∀ v : Fin N → ℝ, ∑ t, a t * v t = ∑ t, b t * v t) : a = b := by
  funext t
  have := h (Pi.single t 1)
  simpa [Pi.single_apply] using this

theorem PassAt.est_single {CA : (Fin N → ℝ) → (Fin M → ℝ) → ℝ} {CB : (Fin r → Fin N → ℝ) → (Fin M → ℝ) → ℝ} {x : Fin r → Fin N → ℝ}
    {y : Fin e → Fin M → ℝ} {est ref} (hP : PassAt CA CB x y est ref) {k : Fin r} {j : Fin e} {q' : (Fin M → ℝ) →L[ℝ] ℝ}
    (hq : HasFDerivAt (CA (x k)) q' (y j)) {g : ℝ} {γ : Fin M → ℝ} (hγ : ∀ v, ∑ t, γ t * v t = g * q' v) :
    est j (fun k' => if k' = k then g else 0) 0 = γ := by
  obtain ⟨A', B', h1, -, h3⟩ := hP.est_adj j
  refine eq_of_sums fun v => ?_
  rw [h3, hγ, hq.unique (h1 k)]
  simp

theorem PassAt.ref_single {CA : (Fin N → ℝ) → (Fin M → ℝ) → ℝ} {CB : (Fin r → Fin N → ℝ) → (Fin M → ℝ) → ℝ} {x : Fin r → Fin N → ℝ}
    {y : Fin e → Fin M → ℝ} {est ref} (hP : PassAt CA CB x y est ref) {k : Fin r} {j : Fin e} {q' : (Fin N → ℝ) →L[ℝ] ℝ}
    (hq : HasFDerivAt (fun x => CA x (y j)) q' (x k)) {g : ℝ} {γ : Fin N → ℝ} (hγ : ∀ v, ∑ t, γ t * v t = g * q' v) :
    ref (fun k' j' => if k' = k ∧ j' = j then g else 0) (fun _ => 0) k = γ := by
  obtain ⟨A', B', h1, -, h3⟩ := hP.ref_adj
  refine eq_of_sums fun v => ?_
  have h4 := h3 (fun k' j' => if k' = k ∧ j' = j then g else 0) (fun _ => 0) (Pi.single k v)
  have h5 : A' k j = q' ∘L chanCLM N k :=
    (h1 k j).unique (HasFDerivAt.comp x (f := chanCLM N k) (g := fun x => CA x (y j)) hq (chanCLM N k).hasFDerivAt)
  have h6 : ∀ (f : Fin r → Fin N → ℝ), ∑ k', ∑ t, f k' t * (Pi.single k v : Fin r → Fin N → ℝ) k' t = ∑ t, f k t * v t := by
    intro f
    rw [Finset.sum_eq_single k]
    · simp
    · intro k' _ hk
      simp [Pi.single_eq_of_ne hk]
    · exact fun h => absurd (Finset.mem_univ _) h
  rw [h6] at h4
  rw [h4, hγ]
  have h7 : (chanCLM N k) (Pi.single k v : Fin r → Fin N → ℝ) = v := by
    show (Pi.single k v : Fin r → Fin N → ℝ) k = v
    simp
  simp only [zero_mul, Finset.sum_const_zero, add_zero]
  rw [Finset.sum_eq_single k, Finset.sum_eq_single j, if_pos ⟨rfl, rfl⟩, h5, ContinuousLinearMap.comp_apply, h7]
  · intro j' _ hj
    rw [if_neg fun h => hj h.2, zero_mul]
  · exact fun h => absurd (Finset.mem_univ _) h
  · intro k' _ hk
    refine Finset.sum_eq_zero fun j' _ => ?_
    rw [if_neg fun h => hk h.1, zero_mul]
  · exact fun h => absurd (Finset.mem_univ _) h

/-! ### The gradients of the model -/

section grads

variable {P : BssPass s r e N M} {W : BssWeights (BIdx s × Fin r × Fin e)}

/-- The coherences of all pairs. -/
def pairA (P : BssPass s r e N M) (i : BIdx s × Fin r × Fin e) : ℝ := P.cohSdr i.1 i.2.1 i.2.2

/-- The coherences of all estimates, for every pair. -/
def pairB (P : BssPass s r e N M) (i : BIdx s × Fin r × Fin e) : ℝ := P.cohSar i.1 i.2.2

/-- The gradient of the coherence with one reference, all pairs. -/
noncomputable def pairGs (cl : Option ℝ) (P : BssPass s r e N M) (W : BssWeights (BIdx s × Fin r × Fin e)) (m : BIdx s) (i : Fin r × Fin e) : ℝ :=
  gsR cl (pairA P (m, i)) (pairB P (m, i)) (W.sdr.map (· (m, i))) (W.sir.map (· (m, i)))

/-- The gradient of the coherence with all references, all pairs. -/
noncomputable def pairGa (cl : Option ℝ) (P : BssPass s r e N M) (W : BssWeights (BIdx s × Fin r × Fin e)) (m : BIdx s) (i : Fin r × Fin e) : ℝ :=
  gaR cl (pairA P (m, i)) (pairB P (m, i)) (W.sir.map (· (m, i))) (W.sar.map (· (m, i)))

theorem sum_pair_eq (g : Fin r × Fin e → ℝ) (k : Fin r) (j : Fin e) : (∑ i, if i = (k, j) then g i else 0) = g (k, j) := by
  simp

theorem sum_pair_snd (g : Fin r × Fin e → ℝ) (j : Fin e) : (∑ i : Fin r × Fin e, if i.2 = j then g i else 0) = ∑ k, g (k, j) := by
  rw [Fintype.sum_prod_type]
  simp

theorem pairSar_fin {m : BIdx s} {j : Fin e} (h : ∀ k, Finite o.clampDb W (pairA P) (pairB P) (m, k, j)) :
    pairSar o P W m j = fin (∑ k, pairGa o.clampDb P W m (k, j)) := by
  unfold pairSar
  rw [← xsum_fin]
  congr 1
  funext k
  exact baseGradSar_fin (h k)

theorem gradEstBss_fin (est : Sig s e M) {m : BIdx s} {j : Fin e} (h : ∀ k, Finite o.clampDb W (pairA P) (pairB P) (m, k, j)) :
    gradEstBss o P est W m j = fun t => fin (prepR o.zeroMean (est m j)
      (P.est m j (fun k => ∑ i, if i = (k, j) then pairGs o.clampDb P W m i else 0)
        (∑ i : Fin r × Fin e, if i.2 = j then pairGa o.clampDb P W m i else 0)) t) := by
  unfold gradEstBss
  rw [lift_fin (γ := fun i : Option (Fin r) => match i with
    | some k => pairGs o.clampDb P W m (k, j)
    | none => ∑ k, pairGa o.clampDb P W m (k, j)), preprocessGrad_fin]
  · simp only [sum_pair_eq, sum_pair_snd]
  · rintro (_ | k)
    · exact pairSar_fin h
    · exact baseGradSdr_fin (h k)

theorem gradRefBss_loc {ref : Sig s r N} (hloc : ∀ m g g' h k, g k = g' k → P.ref m g h k = P.ref m g' h k) {m : BIdx s}
    (h : ∀ k j, Finite o.clampDb W (pairA P) (pairB P) (m, k, j)) (k : Fin r) :
    gradRefBss o P ref W m k = fun t => fin (prepR o.zeroMean (ref m k)
      (P.ref m (fun k j => ∑ i, if i = (k, j) then pairGs o.clampDb P W m i else 0)
        (fun j => ∑ i : Fin r × Fin e, if i.2 = j then pairGa o.clampDb P W m i else 0) k) t) := by
  unfold gradRefBss
  rw [lift_fin (γ := fun i : Fin e ⊕ Fin e => match i with
    | .inl j => pairGs o.clampDb P W m (k, j)
    | .inr j => ∑ k, pairGa o.clampDb P W m (k, j)), preprocessGrad_fin]
  · simp only [sum_pair_eq, sum_pair_snd]
    rw [hloc m _ (fun k j => pairGs o.clampDb P W m (k, j)) _ k (by simp)]
  · rintro (j | j)
    · exact baseGradSdr_fin (h k j)
    · exact pairSar_fin fun k => h k j

theorem gradRefBss_fin {CA CB} {ref : Sig s r N} {est : Sig s e M} (hC : Covers o ref est P CA CB) {m : BIdx s}
    (h : ∀ k j, Finite o.clampDb W (pairA P) (pairB P) (m, k, j)) (k : Fin r) :
    gradRefBss o P ref W m k = fun t => fin (prepR o.zeroMean (ref m k)
      (P.ref m (fun k j => ∑ i, if i = (k, j) then pairGs o.clampDb P W m i else 0)
        (fun j => ∑ i : Fin r × Fin e, if i.2 = j then pairGa o.clampDb P W m i else 0) k) t) :=
  gradRefBss_loc (fun m => (hC.pass m).ref_loc) h k

end grads

section gradsDiag

variable {P : BssPass s c c N M} {W : BssWeights (BIdx s × Fin c)}

/-- The coherences of the pairs `(k, k)`. -/
def diagA (P : BssPass s c c N M) (i : BIdx s × Fin c) : ℝ := P.cohSdr i.1 i.2 i.2

/-- The coherences of the estimates. -/
def diagB (P : BssPass s c c N M) (i : BIdx s × Fin c) : ℝ := P.cohSar i.1 i.2

/-- The gradient of the coherence with one reference. -/
noncomputable def diagGs (cl : Option ℝ) (P : BssPass s c c N M) (W : BssWeights (BIdx s × Fin c)) (m : BIdx s) (i : Fin c) : ℝ :=
  gsR cl (diagA P (m, i)) (diagB P (m, i)) (W.sdr.map (· (m, i))) (W.sir.map (· (m, i)))

/-- The gradient of the coherence with all references. -/
noncomputable def diagGa (cl : Option ℝ) (P : BssPass s c c N M) (W : BssWeights (BIdx s × Fin c)) (m : BIdx s) (i : Fin c) : ℝ :=
  gaR cl (diagA P (m, i)) (diagB P (m, i)) (W.sir.map (· (m, i))) (W.sar.map (· (m, i)))

theorem sum_diag_eq (g : Fin c → ℝ) (k j : Fin c) : (∑ i, if (i, i) = (k, j) then g i else 0) = if k = j then g j else 0 := by
  simp only [Prod.mk.injEq]
  by_cases h : k = j
  · subst h
    simp
  · rw [if_neg h]
    refine Finset.sum_eq_zero fun i _ => if_neg ?_
    rintro ⟨rfl, h2⟩
    exact h h2

theorem gradEstBssDiag_fin (est : Sig s c M) {m : BIdx s} {j : Fin c} (h : Finite o.clampDb W (diagA P) (diagB P) (m, j)) :
    gradEstBssDiag o P est W m j = fun t => fin (prepR o.zeroMean (est m j)
      (P.est m j (fun k => ∑ i, if (i, i) = (k, j) then diagGs o.clampDb P W m i else 0)
        (∑ i, if (i, i).2 = j then diagGa o.clampDb P W m i else 0)) t) := by
  unfold gradEstBssDiag
  rw [lift_fin (γ := fun i : Bool => match i with
    | true => diagGs o.clampDb P W m j
    | false => diagGa o.clampDb P W m j), preprocessGrad_fin]
  · simp only [sum_diag_eq, Finset.sum_ite_eq', Finset.mem_univ, if_true]
  · rintro (_ | _)
    · exact baseGradSar_fin h
    · exact baseGradSdr_fin h

theorem gradRefBssDiag_loc {ref : Sig s c N} (hloc : ∀ m g g' h k, g k = g' k → P.ref m g h k = P.ref m g' h k) {m : BIdx s}
    (h : ∀ k, Finite o.clampDb W (diagA P) (diagB P) (m, k)) (k : Fin c) :
    gradRefBssDiag o P ref W m k = fun t => fin (prepR o.zeroMean (ref m k)
      (P.ref m (fun k j => ∑ i, if (i, i) = (k, j) then diagGs o.clampDb P W m i else 0)
        (fun j => ∑ i, if (i, i).2 = j then diagGa o.clampDb P W m i else 0) k) t) := by
  unfold gradRefBssDiag
  rw [lift_fin (γ := fun i : Unit ⊕ Fin c => match i with
    | .inl _ => diagGs o.clampDb P W m k
    | .inr j => diagGa o.clampDb P W m j), preprocessGrad_fin]
  · simp only [sum_diag_eq, Finset.sum_ite_eq', Finset.mem_univ, if_true]
    rw [hloc m _ (fun k j => if k = j then diagGs o.clampDb P W m j else 0) _ k (by
      funext j
      by_cases hj : j = k
      · subst hj
        simp
      · rw [if_neg (fun h => hj h.2), if_neg (fun h => hj h.symm)])]
  · rintro (_ | j)
    · exact baseGradSdr_fin (h k)
    · exact baseGradSar_fin (h j)

theorem gradRefBssDiag_fin {CA CB} {ref : Sig s c N} {est : Sig s c M} (hC : Covers o ref est P CA CB) {m : BIdx s}
    (h : ∀ k, Finite o.clampDb W (diagA P) (diagB P) (m, k)) (k : Fin c) :
    gradRefBssDiag o P ref W m k = fun t => fin (prepR o.zeroMean (ref m k)
      (P.ref m (fun k j => ∑ i, if (i, i) = (k, j) then diagGs o.clampDb P W m i else 0)
        (fun j => ∑ i, if (i, i).2 = j then diagGa o.clampDb P W m i else 0) k) t) :=
  gradRefBssDiag_loc (fun m => (hC.pass m).ref_loc) h k

end gradsDiag

end FBE.Backward
