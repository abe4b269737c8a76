import Verif.Proofs.Signed
import Verif.Proofs.Norm
import Verif.Proofs.Diag
import Verif.Proofs.Success

/-!
# Calls whose inputs are related by signs and orders of channels and batch items

`Related` compares two calls through the correlations of their normalised signals only, so that it
also covers signals of different lengths.
-/

set_option linter.unusedSectionVars false

namespace FBE

open Spec Matrix

variable {s s' : List ℕ} {r r' e e' c c' N N' M M' : ℕ}

/-- The correlations of the second call are those of the first, up to signs and order. -/
structure Related (o : Opts) (ref : Sig s r N) (est : Sig s e M) (ref' : Sig s' r' N') (est' : Sig s' e' M')
    (μ : BIdx s' → BIdx s) (π : BIdx s' → Fin r' ≃ Fin r) (σ : BIdx s' → Fin e' → Fin e)
    (α : BIdx s' → Fin r' → ℝ) (β : BIdx s' → Fin e' → ℝ) : Prop where
  sq_ref : ∀ m k, α m k * α m k = 1
  sq_est : ∀ m j, β m j * β m j = 1
  dot_ref : ∀ m k l, dot (prep o ref' m k) (prep o ref' m l) =
    α m k * α m l * dot (prep o ref (μ m) (π m k)) (prep o ref (μ m) (π m l))
  dot_est : ∀ m k j, corr (prep o ref' m k) (prep o est' m j) 0 =
    α m k * β m j * corr (prep o ref (μ m) (π m k)) (prep o est (μ m) (σ m j)) 0
  len : M = N → M' = N'
  size : ∀ n, nFft N M = .ok n → ∃ n', nFft N' M' = .ok n' ∧ min o.filterLength n' = min o.filterLength n ∧
    (o.filterLength ≤ n → o.filterLength ≤ n')
  circ_ref : ∀ n n', nFft N M = .ok n → nFft N' M' = .ok n' → ∀ m k l t, t < min o.filterLength n →
    circ n' (prep o ref' m k) (prep o ref' m l) t =
      α m k * α m l * circ n (prep o ref (μ m) (π m k)) (prep o ref (μ m) (π m l)) t
  circ_est : ∀ n n', nFft N M = .ok n → nFft N' M' = .ok n' → ∀ m k j t, t < min o.filterLength n →
    circ n' (prep o ref' m k) (prep o est' m j) t =
      α m k * β m j * circ n (prep o ref (μ m) (π m k)) (prep o est (μ m) (σ m j)) t

theorem circ_smul (n : ℕ) (a b : ℝ) (x : Fin N → ℝ) (y : Fin M → ℝ) (t : ℕ) :
    circ n (fun u => a * x u) (fun u => b * y u) t = a * b * circ n x y t := by
  unfold circ
  rw [Finset.mul_sum]
  refine Finset.sum_congr rfl fun u _ => ?_
  rw [zpad_smul, zpad_smul]
  ring

theorem dot_smul (a b : ℝ) (x y : Fin N → ℝ) :
    dot (fun u => a * x u) (fun u => b * y u) = a * b * dot x y := by
  unfold dot
  rw [Finset.mul_sum]
  exact Finset.sum_congr rfl fun u _ => by ring

theorem corr_smul (a b : ℝ) (x : Fin N → ℝ) (y : Fin M → ℝ) (t : ℕ) :
    corr (fun u => a * x u) (fun u => b * y u) t = a * b * corr x y t := by
  unfold corr
  rw [Finset.mul_sum]
  refine Finset.sum_congr rfl fun u _ => ?_
  rw [zpad_smul]
  ring

theorem corr_zero (x y : Fin N → ℝ) : corr x y 0 = dot x y := by
  unfold corr dot
  exact Finset.sum_congr rfl fun u _ => by rw [Nat.add_zero, zpad_val]

/-- Normalised signals that agree up to signs and order. -/
theorem related_of_prep {o : Opts} {ref : Sig s r N} {est : Sig s e M} {ref' : Sig s' r' N} {est' : Sig s' e' M}
    {μ : BIdx s' → BIdx s} {π : BIdx s' → Fin r' ≃ Fin r} {σ : BIdx s' → Fin e' → Fin e}
    {α : BIdx s' → Fin r' → ℝ} {β : BIdx s' → Fin e' → ℝ}
    (hα : ∀ m k, α m k * α m k = 1) (hβ : ∀ m j, β m j * β m j = 1)
    (hr : ∀ m k, prep o ref' m k = fun t => α m k * prep o ref (μ m) (π m k) t)
    (he : ∀ m j, prep o est' m j = fun t => β m j * prep o est (μ m) (σ m j) t) :
    Related o ref est ref' est' μ π σ α β where
  sq_ref := hα
  sq_est := hβ
  dot_ref m k l := by rw [hr, hr, dot_smul]
  dot_est m k j := by rw [hr, he, corr_smul]
  len h := h
  size n hn := ⟨n, hn, rfl, id⟩
  circ_ref n n' hn hn' m k l t _ := by
    rw [hn] at hn'; cases hn'
    rw [hr, hr, circ_smul]
  circ_est n n' hn hn' m k j t _ := by
    rw [hn] at hn'; cases hn'
    rw [hr, he, circ_smul]

section lists

variable {o : Opts} {ref : Sig s r N} {est : Sig s e M} {ref' : Sig s' r' N'} {est' : Sig s' e' M'}
  {μ : BIdx s' → BIdx s} {π : BIdx s' → Fin r' ≃ Fin r} {σ : BIdx s' → Fin e' → Fin e}
  {α : BIdx s' → Fin r' → ℝ} {β : BIdx s' → Fin e' → ℝ} (h : Related o ref est ref' est' μ π σ α β)
  {n n' K : ℕ} (hn : nFft N M = .ok n) (hn' : nFft N' M' = .ok n') (hK : min o.filterLength n = K)
  (hK' : min o.filterLength n' = K) (hL : 2 ≤ o.filterLength)
include h hn hn' hK hK' hL

theorem related_acf (m : BIdx s') (k : Fin r') : sdrAcf o n' ref' m k = sdrAcf o n ref (μ m) (π m k) := by
  subst hK
  have F := fam_of_nFft (o := o) hn
  have F' := fam_of_nFft (o := o) hn'
  rw [hK'] at F'
  have l1 := length_sdrAcf F' hK' (by omega) ref' m k
  have l2 := length_sdrAcf F rfl (by omega) ref (μ m) (π m k)
  refine List.ext_getElem (by rw [l1, l2]) fun t ht ht' => ?_
  rw [← List.getD_eq_getElem _ 0 ht, ← List.getD_eq_getElem _ 0 ht']
  rw [l1] at ht
  rw [sdrAcf_get F' hK' (by omega) _ _ _ _ ht, sdrAcf_get F rfl (by omega) _ _ _ _ ht,
    h.circ_ref n n' hn hn' _ _ _ _ ht, h.sq_ref, one_mul]

theorem related_xcorr (m : BIdx s') (k : Fin r') (j : Fin e') : vec K (sdrXcorr o n' ref' est' m k j) =
    (α m k * β m j) • vec K (sdrXcorr o n ref est (μ m) (π m k) (σ m j)) := by
  have := nFft_ne hn
  have := nFft_ne hn'
  funext t
  rw [Pi.smul_apply, smul_eq_mul]
  unfold vec sdrXcorr
  rw [xcorr1_get n _ (by omega) _ _ _ (by omega) (by omega),
    xcorr1_get n' _ (by omega) _ _ _ (by omega) (by omega), h.circ_est n n' hn hn' _ _ _ _ (by omega)]

theorem related_bssAcf (hLn : o.filterLength ≤ n) (m : BIdx s') :
    SignedLists K (α m) (π m) (bssAcf o n' ref' m) (bssAcf o n ref (μ m)) := by
  subst hK
  have F := fam_of_nFft (o := o) hn
  have F' := fam_of_nFft (o := o) hn'
  rw [hK'] at F'
  refine ⟨fun k l => length_bssAcf F' hK' (by omega) ref' m k l,
    fun k l => length_bssAcf F rfl (by omega) ref (μ m) k l, fun k l t ht => ?_, fun k l t h0 ht => ?_⟩
  · rw [bssAcf_get F' hK' (by omega) _ _ _ _ _ ht, bssAcf_get F rfl (by omega) _ _ _ _ _ ht,
      h.circ_ref n n' hn hn' _ _ _ _ ht]
    simp only [EmbeddingLike.apply_eq_iff_eq]
    split
    · rename_i hkl
      rw [hkl.2]
      linear_combination (-o.load) * h.sq_ref m l
    · ring
  · rw [bssAcf_get_neg F' hK' (by omega) (by omega) _ _ _ _ _ h0 ht,
      bssAcf_get_neg F rfl (by omega) (by omega) _ _ _ _ _ h0 ht, h.circ_ref n n' hn hn' _ _ _ _ ht]

theorem related_flat (m : BIdx s') (j : Fin e') : xcorrFlat o n' K ref' est' m j =
    signed (fun p => α m p.2 * β m j) (chan K (π m)) (xcorrFlat o n K ref est (μ m) (σ m j)) := by
  funext p
  show vec K (sdrXcorr o n' ref' est' m p.2 j) p.1 = _
  rw [related_xcorr h hn hn' hK hK' hL]
  rfl

theorem related_cohSar {B : Backend} (hB : Covered B) (hLn : o.filterLength ≤ n)
    {x0 : BIdx s → Fin e → Fin K × Fin r → ℝ} {x0' : BIdx s' → Fin e' → Fin K × Fin r' → ℝ}
    (h0 : ∀ i j, x0' i j = signed (fun p => α i p.2 * β i j) (chan K (π i)) (x0 (μ i) (σ i j))) {sar}
    (hs : cohSar B o n K ref est x0 = .ok sar) :
    cohSar B o n' K ref' est' x0' = .ok fun m j => sar (μ m) (σ m j) := by
  have hu : ∀ {s r e N M} (n : ℕ) (ref : Sig s r N) (est : Sig s e M) (x0 : BIdx s → Fin e → Fin K × Fin r → ℝ),
      cohSar B o n K ref est x0 = match solAll B o.useCgIter K (bssAcf o n ref) (xcorrFlat o n K ref est) x0 with
        | .error err => .error err
        | .ok sol => .ok fun m j => ∑ p, xcorrFlat o n K ref est m j p * sol m j p := by
    intro s r e N M n ref est x0
    unfold cohSar solAll
    cases o.useCgIter with
    | none =>
      dsimp only
      cases blockToeplitz B K (bssAcf o n ref) with
      | error err => rfl
      | ok R =>
        dsimp only
        cases solveStack R (xcorrFlat o n K ref est) <;> rfl
    | some it =>
      dsimp only
      cases blockCg B K (bssAcf o n ref) (xcorrFlat o n K ref est) x0 it <;> rfl
  rw [hu] at hs ⊢
  have F := fam_of_nFft (o := o) hn
  cases hsol : solAll B o.useCgIter K (bssAcf o n ref) (xcorrFlat o n K ref est) x0 with
  | error err => rw [hsol] at hs; cases hs
  | ok sol =>
    rw [hsol] at hs
    cases hs
    rw [solAll_map hB o.useCgIter (by omega) h.sq_ref h.sq_est (related_bssAcf h hn hn' hK hK' hL hLn)
      (fun i k l => by subst hK; exact length_bssAcf F rfl (by omega) ref i k l) (related_flat h hn hn' hK hK' hL)
      (fun _ => h0) hsol]
    simp only
    congr 1
    funext m j
    rw [related_flat h hn hn' hK hK' hL]
    exact signed_dot (fun p => by linear_combination β m j * β m j * h.sq_ref m p.2 + h.sq_est m j) (chan K (π m)) _ _

end lists

section coh

variable {B : Backend} (hB : Covered B) {o : Opts} {ref : Sig s r N} {est : Sig s e M} {ref' : Sig s' r' N'}
  {est' : Sig s' e' M'} {μ : BIdx s' → BIdx s} {π : BIdx s' → Fin r' ≃ Fin r} {σ : BIdx s' → Fin e' → Fin e}
  {α : BIdx s' → Fin r' → ℝ} {β : BIdx s' → Fin e' → ℝ} (h : Related o ref est ref' est' μ π σ α β)

theorem related_sum {K : ℕ} {a b : ℝ} (ha : a * a = 1) (hb : b * b = 1) (v w : Fin K → ℝ) :
    ∑ l, ((a * b) • v) l * ((a * b) • w) l = ∑ l, v l * w l := by
  refine Finset.sum_congr rfl fun l _ => ?_
  simp only [Pi.smul_apply, smul_eq_mul]
  linear_combination v l * w l * (b * b * ha + hb)

section
variable {ref : Sig s r N} {est : Sig s e N} {ref' : Sig s' r' N'} {est' : Sig s' e' N'}
  (hd : Related o ref est ref' est' μ π σ α β)

include hd in
theorem related_dot (m k j) : dot (prep o ref' m k) (prep o est' m j) =
    α m k * β m j * dot (prep o ref (μ m) (π m k)) (prep o est (μ m) (σ m j)) := by
  rw [← corr_zero, ← corr_zero, hd.dot_est]

include hd in
theorem related_one : cohSdrOnePair o ref' est' = fun m k j => cohSdrOnePair o ref est (μ m) (π m k) (σ m j) := by
  funext m k j
  unfold cohSdrOnePair
  rw [related_dot hd, mul_pow, show (α m k * β m j) ^ 2 = 1 by
    linear_combination β m j * β m j * hd.sq_ref m k + hd.sq_est m j, one_mul]

include hd in
theorem related_sarOne {sar} (hs : cohSarOne o ref est = .ok sar) :
    cohSarOne o ref' est' = .ok fun m j => sar (μ m) (σ m j) := by
  have hG : ∀ {s r N} (D : ℕ) (hD : N ≤ D) (ref : Sig s r N) (m : BIdx s) (k l : Fin r),
      gramD (oneFam D (prep o ref m)) o.load k l = dot (prep o ref m k) (prep o ref m l) + if k = l then o.load else 0 := by
    intro s r N D hD ref m k l
    unfold gramD
    rw [Matrix.add_apply, Matrix.smul_apply, Matrix.one_apply, gram_apply]
    unfold oneFam
    rw [inner_shift_zero D hD]
    split <;> simp
  have hb : ∀ {s r e N} (D : ℕ) (hD : N ≤ D) (ref : Sig s r N) (est : Sig s e N) (m : BIdx s) (j : Fin e),
      coeffs (oneFam D (prep o ref m)) (shift D (prep o est m j) 0) =
      fun k => dot (prep o ref m k) (prep o est m j) := by
    intro s r e N D hD ref est m j
    funext k
    exact inner_shift_zero D hD _ _
  rw [cohSarOne_eq N le_rfl] at hs
  rw [cohSarOne_eq N' le_rfl]
  split at hs
  · cases hs
  · rename_i hs1
    cases hs
    have key : ∀ m k l, gramD (oneFam N' (prep o ref' m)) o.load k l =
        α m k * α m l * gramD (oneFam N (prep o ref (μ m))) o.load (π m k) (π m l) := by
      intro m k l
      rw [hG N' le_rfl, hG N le_rfl, hd.dot_ref]
      simp only [EmbeddingLike.apply_eq_iff_eq]
      split
      · rename_i hkl
        rw [hkl]
        linear_combination (-o.load) * hd.sq_ref m l
      · ring
    rw [if_neg]
    · congr 1
      funext m j
      unfold quad
      beta_reduce
      rw [hb N' le_rfl, hb N le_rfl]
      have e1 : (fun k => dot (prep o ref' m k) (prep o est' m j)) =
          fun k => α m k * (β m j * dot (prep o ref (μ m) (π m k)) (prep o est (μ m) (σ m j))) := by
        funext k
        rw [related_dot hd]
        ring
      rw [e1]
      unfold dotProduct
      rw [← Equiv.sum_comp (π m)]
      refine Finset.sum_congr rfl fun k _ => ?_
      rw [signed_mulVec (R := ℝ) (a := α m) (hd.sq_ref m) (π m)
        (signed_inv (R := ℝ) (a := α m) (hd.sq_ref m) (π m) (key m))
        (fun k => β m j * dot (prep o ref (μ m) k) (prep o est (μ m) (σ m j))) k]
      rw [show (fun k => β m j * dot (prep o ref (μ m) k) (prep o est (μ m) (σ m j))) =
        β m j • fun k => dot (prep o ref (μ m) k) (prep o est (μ m) (σ m j)) from rfl, mulVec_smul, Pi.smul_apply,
        smul_eq_mul]
      generalize ((gramD (oneFam N (prep o ref (μ m))) o.load)⁻¹ *ᵥ
        fun k => dot (prep o ref (μ m) k) (prep o est (μ m) (σ m j))) (π m k) = z
      linear_combination dot (prep o ref (μ m) (π m k)) (prep o est (μ m) (σ m j)) * z *
        (β m j * β m j * hd.sq_ref m k + hd.sq_est m j)
    · rintro ⟨m, hm⟩
      rw [signed_det (R := ℝ) (a := α m) (hd.sq_ref m) (π m) (key m)] at hm
      exact hs1 ⟨μ m, hm⟩

end

include hB h

theorem sdrCohPair_related {coh} (hc : sdrCohPair B o ref est = .ok coh) :
    sdrCohPair B o ref' est' = .ok fun m k j => coh (μ m) (π m k) (σ m j) := by
  by_cases h0 : o.filterLength = 0
  · rw [sdrCohPair_zero B h0] at hc; cases hc
  by_cases h1 : o.filterLength = 1
  · by_cases hNM : M = N
    case neg => rw [sdrCohPair_ne B h1 hNM] at hc; cases hc
    obtain rfl := h.len hNM
    subst hNM
    simp only [sdrCohPair_def] at hc ⊢
    rw [if_neg h0, if_pos h1] at hc ⊢
    cases hc
    rw [related_one h]
  obtain ⟨n, hn⟩ : ∃ n, nFft N M = .ok n := by
    rw [sdrCohPair_gen B (by omega)] at hc; unfold sdrCohPairGen at hc
    cases hn : nFft N M with
    | error err => rw [hn] at hc; cases hc
    | ok n => exact ⟨n, rfl⟩
  obtain ⟨n', hn', hK', -⟩ := h.size n hn
  obtain ⟨K, hK⟩ : ∃ K, min o.filterLength n = K := ⟨_, rfl⟩
  rw [hK] at hK'
  have hL : 2 ≤ o.filterLength := by omega
  have := nFft_ne hn
  have F := fam_of_nFft (o := o) hn
  rw [hK] at F
  have hu : ∀ {s r e N M n} (_ : nFft N M = .ok n) (_ : min o.filterLength n = K) (ref : Sig s r N) (est : Sig s e M),
      sdrCohPair B o ref est = match solOne B o.useCgIter K (sdrAcf o n ref)
          (fun m k j => vec K (sdrXcorr o n ref est m k j)) with
        | .error err => .error err
        | .ok sol => .ok fun m k j => ∑ l, vec K (sdrXcorr o n ref est m k j) l * sol (m, k) j l := by
    intro s r e N M n hn hK ref est
    rw [sdrCohPair_unfold hn hK hL]
    unfold solOne
    cases o.useCgIter with
    | none =>
      dsimp only
      cases solveStack (fun i : BIdx s × Fin r => toeplitz B K (sdrAcf o n ref i.1 i.2))
        (fun i j => vec K (sdrXcorr o n ref est i.1 i.2 j)) <;> rfl
    | some it => rfl
  rw [hu hn hK] at hc
  rw [hu hn' hK']
  cases hsol : solOne B o.useCgIter K (sdrAcf o n ref) (fun m k j => vec K (sdrXcorr o n ref est m k j)) with
  | error err => rw [hsol] at hc; cases hc
  | ok sol =>
    rw [hsol] at hc
    cases hc
    rw [solOne_map hB o.useCgIter (by omega) (length_sdrAcf F hK (by omega) ref)
      (μ := μ) (π := fun m => π m) (σ := σ) (ε := fun m k j => α m k * β m j)
      (fun m k j => by linear_combination β m j * β m j * h.sq_ref m k + h.sq_est m j)
      (related_acf h hn hn' hK hK' hL) (related_xcorr h hn hn' hK hK' hL) hsol]
    simp only
    congr 1
    funext m k j
    rw [related_xcorr h hn hn' hK hK' hL, related_sum (h.sq_ref m k) (h.sq_est m j)]

theorem sqCosPair_related {coh} (hc : sqCosPair B o ref est = .ok coh) :
    sqCosPair B o ref' est' =
      .ok (fun m k j => coh.1 (μ m) (π m k) (σ m j), fun m j => coh.2 (μ m) (σ m j)) := by
  by_cases h0 : o.filterLength = 0
  · rw [sqCosPair_zero B h0] at hc; cases hc
  by_cases h1 : o.filterLength = 1
  · by_cases hNM : M = N
    case neg => rw [sqCosPair_ne B h1 hNM] at hc; cases hc
    obtain rfl := h.len hNM
    subst hNM
    simp only [sqCosPair_def] at hc ⊢
    rw [if_neg h0, if_pos h1] at hc ⊢
    cases hs : cohSarOne o ref est with
    | error err => rw [hs] at hc; cases hc
    | ok sar =>
      rw [hs] at hc
      cases hc
      rw [related_sarOne h hs, related_one h]
  obtain ⟨n, hn⟩ : ∃ n, nFft N M = .ok n := by
    rw [sqCosPair_gen B (by omega)] at hc; unfold sqCosPairGen at hc
    cases hn : nFft N M with
    | error err => rw [hn] at hc; cases hc
    | ok n => exact ⟨n, rfl⟩
  have hLn : o.filterLength ≤ n := by
    by_contra hLn
    rw [sqCosPair_too_long h1 hn (by omega)] at hc
    cases hc
  obtain ⟨n', hn', hK', hLn'⟩ := h.size n hn
  have hLn' := hLn' hLn
  obtain ⟨K, hK⟩ : ∃ K, min o.filterLength n = K := ⟨_, rfl⟩
  rw [hK] at hK'
  have hL : 2 ≤ o.filterLength := by omega
  have := nFft_ne hn
  have hu : ∀ {s r e N M n} (_ : nFft N M = .ok n) (_ : min o.filterLength n = K) (_ : o.filterLength ≤ n)
      (ref : Sig s r N) (est : Sig s e M),
      sqCosPair B o ref est = match solOne B o.useCgIter K (sdrAcf o n ref)
          (fun m k j => vec K (sdrXcorr o n ref est m k j)) with
        | .error err => .error err
        | .ok sol => match cohSar B o n K ref est (fun m j p => sol (m, p.2) j p.1) with
          | .error err => .error err
          | .ok sar => .ok (fun m k j => ∑ l, vec K (sdrXcorr o n ref est m k j) l * sol (m, k) j l, sar) := by
    intro s r e N M n hn hK hLn ref est
    rw [sqCosPair_unfold hn hK hL hLn]
    have F := fam_of_nFft (o := o) hn
    rw [hK] at F
    have ea : bssAcfSdr o n ref = sdrAcf o n ref := by
      funext m k
      exact bssAcfSdr_eq_sdrAcf F hK (by omega) hLn ref m k
    rw [ea]
    unfold solOne
    cases o.useCgIter with
    | none =>
      dsimp only
      cases solveStack (fun i : BIdx s × Fin r => toeplitz B K (sdrAcf o n ref i.1 i.2))
        (fun i j => vec K (sdrXcorr o n ref est i.1 i.2 j)) <;> rfl
    | some it => rfl
  have F := fam_of_nFft (o := o) hn
  rw [hK] at F
  rw [hu hn hK hLn] at hc
  rw [hu hn' hK' hLn']
  cases hsol : solOne B o.useCgIter K (sdrAcf o n ref) (fun m k j => vec K (sdrXcorr o n ref est m k j)) with
  | error err => rw [hsol] at hc; cases hc
  | ok sol =>
    rw [hsol] at hc
    simp only at hc
    rw [solOne_map hB o.useCgIter (by omega) (length_sdrAcf F hK (by omega) ref)
      (μ := μ) (π := fun m => π m) (σ := σ) (ε := fun m k j => α m k * β m j)
      (fun m k j => by linear_combination β m j * β m j * h.sq_ref m k + h.sq_est m j)
      (related_acf h hn hn' hK hK' hL) (related_xcorr h hn hn' hK hK' hL) hsol]
    simp only
    cases hs : cohSar B o n K ref est (fun m j p => sol (m, p.2) j p.1) with
    | error err => rw [hs] at hc; cases hc
    | ok sar =>
      rw [hs] at hc
      cases hc
      rw [related_cohSar h hn hn' hK hK' hL hB hLn
        (x0' := fun m j p => ((α m p.2 * β m j) • sol (μ m, (π m) p.2) (σ m j)) p.1) (fun m j => rfl) hs]
      simp only
      congr 2
      funext m k j
      rw [related_xcorr h hn hn' hK hK' hL, related_sum (h.sq_ref m k) (h.sq_est m j)]

end coh

section diag

variable {B : Backend} (hB : Covered B) {o : Opts} {ref : Sig s c N} {est : Sig s c M} {ref' : Sig s' c' N'}
  {est' : Sig s' c' M'}
  {μ : BIdx s' → BIdx s} {π : BIdx s' → Fin c' ≃ Fin c}
  {α β : BIdx s' → Fin c' → ℝ} (h : Related o ref est ref' est' μ π (fun m => π m) α β)

theorem solveVecs_not_ok {ι : Type} {n : ℕ} (hsv : B.stackedVectors ≠ true) (A : ι → Matrix (Fin n) (Fin n) ℝ)
    (b : ι → Fin n → ℝ) (sol) : solveVecs B c A b ≠ .ok sol := by
  unfold solveVecs
  rw [if_neg hsv]
  split <;> exact nofun

include hB h

theorem sdrCohDiag_related {coh} (hc : sdrCohDiag B o ref est = .ok coh) :
    sdrCohDiag B o ref' est' = .ok fun m k => coh (μ m) (π m k) := by
  have hcase : o.filterLength = 1 ∨ o.useCgIter ≠ none ∨ B.stackedVectors = true := by
    by_contra hne
    push Not at hne
    obtain ⟨h1, hcg, hsv⟩ := hne
    by_cases h0 : o.filterLength = 0
    · rw [sdrCohDiag_zero B h0] at hc; cases hc
    · rw [sdrCohDiag_gen B (by omega)] at hc; unfold sdrCohDiagGen at hc
      cases hn : nFft N M with
      | error err => rw [hn] at hc; cases hc
      | ok n =>
        rw [hn, hcg] at hc
        simp only at hc
        split at hc
        · cases hc
        · rename_i hsol
          exact solveVecs_not_ok hsv _ _ _ hsol
  rw [sdrCohDiag_eq B o hcase] at hc ⊢
  cases hp : sdrCohPair B o ref est with
  | error err => rw [hp] at hc; cases hc
  | ok coh' =>
    rw [hp] at hc
    cases hc
    rw [sdrCohPair_related hB h hp]
    rfl

theorem sqCosDiag_related {coh} (hc : sqCosDiag B o ref est = .ok coh) :
    sqCosDiag B o ref' est' = .ok (fun m k => coh.1 (μ m) (π m k), fun m k => coh.2 (μ m) (π m k)) := by
  by_cases hcase : o.filterLength = 1 ∨ (o.useCgIter = none ∧ B.stackedVectors = true)
  · rw [sqCosDiag_eq B o hcase] at hc ⊢
    cases hp : sqCosPair B o ref est with
    | error err => rw [hp] at hc; cases hc
    | ok coh' =>
      rw [hp] at hc
      cases hc
      rw [sqCosPair_related hB h hp]
      rfl
  obtain ⟨h1, hcase⟩ := not_or.1 hcase
  have h0 : o.filterLength ≠ 0 := by
    intro h0
    rw [sqCosDiag_zero B h0] at hc
    cases hc
  obtain ⟨n, hn⟩ : ∃ n, nFft N M = .ok n := by
    rw [sqCosDiag_gen B (by omega)] at hc; unfold sqCosDiagGen at hc
    cases hn : nFft N M with
    | error err => rw [hn] at hc; cases hc
    | ok n => exact ⟨n, rfl⟩
  have hLn : o.filterLength ≤ n := by
    by_contra hLn
    have := nFft_ne hn
    rw [sqCosDiag_gen B (by omega)] at hc; unfold sqCosDiagGen at hc
    rw [hn] at hc
    simp only at hc
    rw [if_pos (by omega)] at hc
    cases hc
  obtain ⟨n', hn', hK', hLn'⟩ := h.size n hn
  have hLn' := hLn' hLn
  obtain ⟨K, hK⟩ : ∃ K, min o.filterLength n = K := ⟨_, rfl⟩
  rw [hK] at hK'
  have hL : 2 ≤ o.filterLength := by omega
  have := nFft_ne hn
  have F := fam_of_nFft (o := o) hn
  have F' := fam_of_nFft (o := o) hn'
  rw [hK] at F
  rw [hK'] at F'
  rw [sqCosDiag_unfold hn hK hL hLn] at hc
  rw [sqCosDiag_unfold hn' hK' hL hLn']
  cases hcg : o.useCgIter with
  | none =>
    rw [hcg] at hc
    simp only at hc
    split at hc
    · cases hc
    · rename_i hsol
      exact absurd hsol (solveVecs_not_ok (fun hsv => hcase ⟨hcg, hsv⟩) _ _ _)
  | some it =>
    rw [hcg] at hc
    simp only at hc ⊢
    cases hs : cohSar B o n K ref est (fun _ _ _ => 0) with
    | error err => rw [hs] at hc; cases hc
    | ok sar =>
      rw [hs] at hc
      cases hc
      rw [related_cohSar h hn hn' hK hK' hL hB hLn (x0' := fun _ _ _ => 0)
        (fun m j => by funext p; exact (mul_zero _).symm) hs]
      simp only
      congr 2
      funext m k
      rw [related_xcorr h hn hn' hK hK' hL, bssAcfSdr_eq_sdrAcf F' hK' (by omega) hLn',
        bssAcfSdr_eq_sdrAcf F hK (by omega) hLn, related_acf h hn hn' hK hK' hL,
        toeplitzCg_sign hB (length_sdrAcf F hK (by omega) ref _ _) (by omega)
          (by linear_combination β m k * β m k * h.sq_ref m k + h.sq_est m k),
        related_sum (h.sq_ref m k) (h.sq_est m k)]

end diag

end FBE
