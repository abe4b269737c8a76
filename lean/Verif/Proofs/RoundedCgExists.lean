import Verif.Proofs.RoundedFine
import Verif.Proofs.RoundedBssDoc

/-!
# The iterative solver: there are executions
-/

namespace FBE.Rounded

open Spec Filter Topology XR Matrix

variable {p p' N K r e n : ℕ}

theorem Op.exact {u : ℝ} (hu : 0 ≤ u) (x : ℝ) : Op u x x := by
  unfold Op
  rw [sub_self, abs_zero]
  positivity

theorem exists_rfft (A : Accuracy) (n : ℕ) (x : Fin N → ℝ) : ∃ X, IsRfft A n x X := by
  refine ⟨fun f => (rfft n (List.ofFn x)).getD f 0, ?_⟩
  have hfft := A.fft_nonneg
  unfold IsRfft
  simp only [sub_self, norm_zero]
  simp only [ne_eq, OfNat.ofNat_ne_zero, not_false_eq_true, zero_pow, Finset.sum_const_zero]
  positivity

theorem exists_irfft (A : Accuracy) (n : ℕ) (Z : ℕ → ℂ) : ∃ z, IsIrfft A n Z z := by
  refine ⟨fun t => (irfft n ((List.range (n / 2 + 1)).map Z)).getD t 0, fun t _ => ?_⟩
  have hfft := A.fft_nonneg
  simp only [sub_self, abs_zero]
  positivity

theorem exists_dot {u : ℝ} (hu : 0 ≤ u) {k : ℕ} (hn : 0 < n) (hk : n ≤ k) (a b : Fin n → ℝ) : ∃ c, IsDot u a b k Finset.univ c := by
  obtain ⟨c, hc⟩ := exists_isDot hu a b Finset.univ ⟨⟨0, hn⟩, Finset.mem_univ _⟩
  rw [Finset.card_univ, Fintype.card_fin] at hc
  exact ⟨c, hc.mono hk⟩

section loop

variable {J : Type} {u : ℝ} (hu : 0 ≤ u) {k : ℕ} (hn : 0 < n) (hk : n ≤ k) (σ : Fin n ≃ J) {fwd pre : (J → ℝ) → (J → ℝ) → Prop}
  (hf : ∀ v, ∃ z, fwd v z) (hp : ∀ v, ∃ z, pre v z)
include hu hn hk hf hp

theorem exists_cgInit (b x0 : J → ℝ) : ∃ st, IsCgInit u k σ fwd pre b x0 st := by
  obtain ⟨a, ha⟩ := hf x0
  obtain ⟨z, hz⟩ := hp fun i => b i - a i
  obtain ⟨c, hc⟩ := exists_dot hu hn hk (fun i => b (σ i) - a (σ i)) (fun i => z (σ i))
  exact ⟨⟨x0, fun i => b i - a i, z, c⟩, rfl, ⟨a, ha, fun i => Op.exact hu _⟩, hz, hc⟩

theorem exists_cgBody (b : J → ℝ) (epoch : ℕ) (st : CgState J) : ∃ st', IsCgBody u k σ fwd pre b epoch st st' := by
  obtain ⟨Ap, hAp⟩ := hf st.p
  obtain ⟨pAp, hpAp⟩ := exists_dot hu hn hk (fun i => st.p (σ i)) (fun i => Ap (σ i))
  let alpha := st.rsold / max pAp 1e-6
  let x' : J → ℝ := fun i => st.x i + alpha * st.p i
  obtain ⟨a, ha⟩ := hf x'
  let r' : J → ℝ := if epoch + 1 % 5 = 0 then fun i => b i - a i else fun i => st.r i - alpha * Ap i
  obtain ⟨z, hz⟩ := hp r'
  obtain ⟨c, hc⟩ := exists_dot hu hn hk (fun i => r' (σ i)) (fun i => z (σ i))
  refine ⟨⟨x', r', fun i => z i + c / max st.rsold 1e-6 * st.p i, c⟩, Ap, pAp, 1e-6, alpha, z, 1e-6, c / max st.rsold 1e-6, hAp, hpAp,
    Op.exact hu _, Op.exact hu _, fun i => ⟨_, Op.exact hu _, Op.exact hu _⟩, ?_, hz, hc, Op.exact hu _, Op.exact hu _,
    fun i => ⟨_, Op.exact hu _, Op.exact hu _⟩⟩
  by_cases h : epoch + 1 % 5 = 0
  · rw [if_pos h]
    refine ⟨a, ha, fun i => ?_⟩
    simp only [r', if_pos h]
    exact Op.exact hu _
  · rw [if_neg h]
    refine fun i => ⟨_, Op.exact hu _, ?_⟩
    simp only [r', if_neg h]
    exact Op.exact hu _

theorem exists_cg (b x0 : J → ℝ) (it : ℕ) : ∃ x, IsCg u k σ fwd pre b x0 it x := by
  obtain ⟨st0, h0⟩ := exists_cgInit hu hn hk σ hf hp b x0
  choose next hnext using exists_cgBody hu hn hk σ hf hp b
  exact ⟨_, fun m => Nat.rec st0 (fun epoch st => next epoch st) m, h0, fun epoch _ => hnext epoch _, rfl⟩

end loop

/-- The exact weights. -/
theorem exact_weights {ω : ℝ} (hω : 0 ≤ ω) (K : ℕ) : IsWeights ω K (fun t => t / K) fun t => 1 - t / K := fun t _ _ => by
  simpa using hω

theorem exists_symForward {u : ℝ} (hu : 0 ≤ u) (A : Accuracy) (C : ℕ → ℂ) (v : Fin K → ℝ) : ∃ z, IsSymForward u A K C v z := by
  obtain ⟨Y, hY⟩ := exists_rfft A (2 * K) v
  obtain ⟨y, hy⟩ := exists_irfft A (2 * K) fun f => Y f * C f
  exact ⟨fun i => y i, Y, _, y, hY, fun f => by rw [sub_self, norm_zero]; positivity, hy, fun i => rfl⟩

theorem exists_circPrecond {u : ℝ} (hu : 0 ≤ u) (A : Accuracy) (P : ℕ → ℂ) (v : Fin K → ℝ) : ∃ z, IsCircPrecond u A K P v z := by
  obtain ⟨Y, hY⟩ := exists_rfft A K v
  obtain ⟨y, hy⟩ := exists_irfft A K fun f => P f * Y f
  exact ⟨fun i => y i, Y, _, y, hY, fun f => by rw [sub_self, norm_zero]; positivity, hy, fun i => rfl⟩

theorem exists_toeplitzCg {u : ℝ} (hu : 0 ≤ u) (A : Accuracy) {ω : ℝ} (hω : 0 ≤ ω) (hK : 0 < K) (hKk : K ≤ A.k) (col : ℕ → ℝ)
    (b : Fin K → ℝ) (it : ℕ) : ∃ x, IsToeplitzCg u A ω K col b it x := by
  let m : ℕ → ℝ := fun i => col (i + 1) * ((K - 1 - i : ℕ) / K)
  let c : Fin K → ℝ := fun t => if t.val = 0 then col 0 else m (t - 1) + m (K - 1 - t)
  obtain ⟨S, hS⟩ := exists_rfft A K c
  obtain ⟨C, hC⟩ := exists_rfft A (2 * K) (flSymCirc K col)
  let P : ℕ → ℂ := fun f => (starRingEnd ℂ) (S f) / (max ((S f).re ^ 2 + (S f).im ^ 2) 1e-6 : ℝ)
  obtain ⟨x, hx⟩ := exists_cg hu hK hKk (Equiv.refl (Fin K)) (exists_symForward hu A C) (exists_circPrecond hu A P) b (fun _ => 0) it
  refine ⟨x, _, _, c, S, P, C, exact_weights hω K, ⟨m, fun i _ => Op.exact hu _, fun t => ?_⟩, hS, 
    fun f => ⟨(S f).re ^ 2 + (S f).im ^ 2, 1e-6, ?_, Op.exact hu _, ?_⟩,
    hC, hx⟩
  · by_cases h : t.val = 0
    · simp only [c, if_pos h]
    · simp only [c, if_neg h]
      exact Op.exact hu _
  · rw [sub_self, abs_zero]; positivity
  · rw [sub_self, norm_zero]; positivity

section preprocessing

variable (E : Machine p) {A : Accuracy} (hN0 : 0 < N) (hN : N ≤ A.k)
include hN0 hN

theorem exists_normalized (a : Fin N → ℝ) : ∃ a', IsNormalized E A.k a a' := by
  obtain ⟨q, hq⟩ := exists_dot (u := 2 ^ (-p : ℤ)) (by positivity) hN0 hN a a
  exact ⟨_, q, √q, hq, by rw [sub_self, abs_zero]; positivity, fun t => rfl⟩

theorem exists_centred (zm : Bool) (a : Fin N → ℝ) : ∃ a', IsCentred E A.k zm a a' := by
  cases zm with
  | false => exact ⟨a, by unfold IsCentred; rw [if_neg (by simp)]⟩
  | true =>
    obtain ⟨q, hq⟩ := exists_dot (u := 2 ^ (-p : ℤ)) (by positivity) hN0 hN a fun _ => 1
    refine ⟨fun t => E.fl (a t - q / N), ?_⟩
    unfold IsCentred
    rw [if_pos rfl]
    exact ⟨q, q / N, hq, by rw [sub_self, abs_zero]; positivity, fun t => rfl⟩

end preprocessing

theorem exists_stats (p : ℕ) (A : Accuracy) (n : ℕ) (x y : Fin N → ℝ) : ∃ acf xcorr, IsStats p A n x y acf xcorr := by
  obtain ⟨X, hX⟩ := exists_rfft A n x
  obtain ⟨Y, hY⟩ := exists_rfft A n y
  obtain ⟨a, ha⟩ := exists_irfft A n fun f => (starRingEnd ℂ) (X f) * X f
  obtain ⟨c, hc⟩ := exists_irfft A n fun f => (starRingEnd ℂ) (X f) * Y f
  exact ⟨a, c, X, Y, hX, hY, ⟨_, fun f => by rw [sub_self, norm_zero]; positivity, ha⟩,
    ⟨_, fun f => by rw [sub_self, norm_zero]; positivity, hc⟩⟩

/-- `sdr_loss` with `use_cg_iter` has an outcome for all signals. -/
theorem exists_sdrLossCg (E : Machine p) (E' : Machine p') {A : Accuracy} {ω : ℝ} (hω : 0 ≤ ω) (hN0 : 0 < N) (hN : N ≤ A.k) (hK : 1 ≤ K)
    (hKk : K ≤ A.k) (zm : Bool) (load cd : Option ℝ) (it : ℕ) (y x : Fin N → ℝ) :
    ∃ v, IsSdrLossCg E E' A ω K zm load cd it y x v := by
  obtain ⟨xc, hxc⟩ := exists_centred E hN0 hN zm x
  obtain ⟨yc, hyc⟩ := exists_centred E hN0 hN zm y
  obtain ⟨x', hx⟩ := exists_normalized E hN0 hN xc
  obtain ⟨y', hy⟩ := exists_normalized E hN0 hN yc
  have hu : (0 : ℝ) ≤ 2 ^ (-p : ℤ) := by positivity
  by_cases h : K = 1
  · obtain ⟨c, hc⟩ := exists_dot hu hN0 hN x' y'
    exact ⟨_, _, ⟨xc, yc, x', y', hxc, hyc, hx, hy, by rw [if_pos h]; exact ⟨c, hc, rfl⟩⟩, rfl⟩
  · obtain ⟨acf, xcorr, hst⟩ := exists_stats p A (fftSize N) x' y'
    obtain ⟨s, hs⟩ := exists_toeplitzCg hu A hω hK hKk (loaded E load acf) (fun i => xcorr i) it
    obtain ⟨c, hc⟩ := exists_dot hu hK hKk (fun i : Fin K => xcorr i) s
    exact ⟨_, c, ⟨xc, yc, x', y', hxc, hyc, hx, hy, by rw [if_neg h]; exact ⟨acf, xcorr, s, hst, hs, hc⟩⟩, rfl⟩

/-! ### the block system -/

theorem exists_blockApply {u : ℝ} (hu : 0 ≤ u) (A : Accuracy) (n : ℕ) (P : Fin r → Fin r → ℕ → ℂ) (v : Fin K × Fin r → ℝ) :
    ∃ z, IsBlockApply u A n K P v z := by
  choose Y hY using fun d => exists_rfft A n fun l : Fin K => v (l, d)
  choose y hy using fun c => exists_irfft A n fun f => ∑ d, P c d f * Y d f
  exact ⟨fun a => y a.2 a.1, Y, _, y, hY, fun c f => by
    rw [sub_self, norm_zero]
    exact mul_nonneg (by positivity) (Finset.sum_nonneg fun d _ => by positivity), hy, fun a => rfl⟩

theorem exists_inverse (A : Accuracy) {M : Matrix (Fin r) (Fin r) ℂ} (h : M.det ≠ 0) : IsInverse A M M⁻¹ := fun j => by
  refine ⟨0, ?_, fun B hB a b => ?_⟩
  · have h1 : M * M⁻¹ = 1 := Matrix.mul_nonsing_inv _ (isUnit_iff_ne_zero.2 h)
    rw [add_zero]
    funext i
    have := congrFun (congrFun h1 i) j
    rw [Matrix.mul_apply] at this
    rw [Matrix.mulVec, dotProduct, this, Matrix.one_apply, Pi.single_apply]
  · rw [Matrix.zero_apply, norm_zero]
    exact mul_nonneg A.solve_nonneg ((norm_nonneg _).trans (hB a b))

/-- A possible spectrum of the block preconditioner. -/
def IsBlockSpec (u : ℝ) (A : Accuracy) (ω : ℝ) (n K : ℕ) (acf : Fin r → Fin r → ℕ → ℝ) (S : Fin r → Fin r → ℕ → ℂ) : Prop :=
  ∃ (w w' : ℕ → ℝ) (col : Fin r → Fin r → Fin K → ℝ), IsWeights ω K w w' ∧
    (∀ c d, IsNonsymColumn u n K w w' (acf c d) (col c d)) ∧ ∀ c d, IsRfft A K (col c d) (S c d)

theorem exists_blockSpec {u : ℝ} (hu : 0 ≤ u) (A : Accuracy) {ω : ℝ} (hω : 0 ≤ ω) (n K : ℕ) (acf : Fin r → Fin r → ℕ → ℝ) :
    ∃ S, IsBlockSpec u A ω n K acf S := by
  let col : Fin r → Fin r → Fin K → ℝ := fun c d t => if t.val = 0 then acf c d 0 else
    (t : ℝ) / K * acf c d (K - t) + (1 - (t : ℝ) / K) * acf c d (n - t)
  choose S hS using fun c d => exists_rfft A K (col c d)
  refine ⟨S, _, _, col, exact_weights hω K, fun c d t => ?_, hS⟩
  by_cases h : t.val = 0
  · simp only [col, if_pos h]
  · simp only [col, if_neg h]
    exact ⟨_, _, Op.exact hu _, Op.exact hu _, Op.exact hu _⟩

theorem exists_blockCg {u : ℝ} (hu : 0 ≤ u) {A : Accuracy} {ω : ℝ} (hK : 0 < K) (hr : 0 < r) (hKk : K * r ≤ A.k)
    {acf : Fin r → Fin r → ℕ → ℝ} {S : Fin r → Fin r → ℕ → ℂ} (hS : IsBlockSpec u A ω n K acf S)
    (hdet : ∀ f ≤ K / 2, (Matrix.of fun c d => S c d f).det ≠ 0) (b x0 : Fin K × Fin r → ℝ) (it : ℕ) :
    ∃ x, IsBlockCg u A ω n K acf b x0 it x := by
  obtain ⟨w, w', col, h1, h2, h3⟩ := hS
  choose C hC using fun c d => exists_rfft A (blockNfft K) (flBlockCirc n K (acf c d))
  let P : Fin r → Fin r → ℕ → ℂ := fun c d f => (Matrix.of fun c d => S c d f)⁻¹ c d
  obtain ⟨x, hx⟩ := exists_cg hu (Nat.mul_pos hK hr) hKk (finProdFinEquiv.symm : Fin (K * r) ≃ Fin K × Fin r)
    (exists_blockApply hu A (blockNfft K) C) (exists_blockApply hu A K P) b x0 it
  exact ⟨x, w, w', col, S, P, C, h1, h2, h3, fun f hf => exists_inverse A (hdet f hf), hC, hx⟩

/-- The spectra of the preconditioner tend to the exact ones. -/
theorem blockSpec_tends {ι : Type} {l : Filter ι} {u : ι → ℝ} {A : ι → Accuracy} {ω : ι → ℝ} (hS : Small l u A ω) {B : Backend}
    (hB : Covered B) (hK : 2 ≤ K) {acf : ι → Fin r → Fin r → ℕ → ℝ} {acf0 : Fin r → Fin r → List ℝ}
    (hlen : ∀ c d, (acf0 c d).length = K + K) (hpos : ∀ c d, ∀ t < K, Tendsto (fun m => acf m c d t) l (𝓝 ((acf0 c d).getD t 0)))
    (hneg : ∀ c d t, 0 < t → t < K → Tendsto (fun m => acf m c d (n - t)) l (𝓝 ((acf0 c d).getD (K + K - t) 0)))
    {S : ι → Fin r → Fin r → ℕ → ℂ} (h : ∀ m, IsBlockSpec (u m) (A m) (ω m) n K (acf m) (S m)) {f : ℕ} (hf : f ≤ K / 2) (a b : Fin r) :
    Tendsto (fun m => S m a b f) l (𝓝 (blockPrecondSpec B acf0 f a b)) := by
  choose w w' col hw hcol hR using h
  have h1 := rfft_tendsto hS (fun m => hR m a b) (nonsymColumn_tends hS hB hK hlen hpos hneg hw fun m => hcol m a b) hf (by omega)
  rw [dft_zpad_fin fun t => (nonsymPrecondCol B (acf0 a b)).getD t 0] at h1
  rw [blockPrecondSpec_eq hB hK hlen hf]
  exact h1

/-- `bss_eval_sources` with `use_cg_iter` has an outcome if the arithmetic is fine enough. -/
theorem exists_bssLossesCg {B : Backend} (hB : Covered B) {o : Opts} {s : List ℕ} {ref : Sig s r N} {est : Sig s e N}
    (hL : 2 ≤ o.filterLength) (hn : nFft N = .ok n) (hLn : o.filterLength ≤ n) (b : BIdx s)
    (hdet : ∀ f ≤ o.filterLength / 2, (blockPrecondSpec B (bssAcf o n ref b) f).det ≠ 0) :
    ∃ η > 0, ∀ (p p' : ℕ) (E : Machine p) (E' : Machine p') (A : Accuracy) (ω : ℝ), Fine η p A ω → 0 ≤ ω → 0 < r → 0 < N → N ≤ A.k →
      o.filterLength * r ≤ A.k → ∀ pairwise cd it, ∃ sdr sir sar,
        IsBssLossesCg E E' A ω o.filterLength pairwise o.zeroMean o.loadDiag cd it (ref b) (est b) sdr sir sar := by
  have hnf : n = fftSize N := by rw [(nFft_ok hn).2, fftSize, two_mul]
  subst hnf
  have F := fam_of_nFft (o := o) hn
  have hK : min o.filterLength (fftSize N) = o.filterLength := min_eq_left hLn
  rw [hK] at F
  have hlen := length_bssAcf F hK (by omega) ref
  set K := o.filterLength with hKd
  have hfine : ∀ f : Fin (K / 2 + 1), ∃ η > 0, ∀ (p : ℕ) (E : Machine p) (A : Accuracy) (ω : ℝ), Fine η p A ω →
      ∀ S : Fin r → Fin r → ℕ → ℂ, (∃ (xc x' : Fin r → Fin N → ℝ) (yc y' : Fin e → Fin N → ℝ) (acf : Fin r → Fin r → ℕ → ℝ)
        (xcorr : Fin r → Fin e → ℕ → ℝ),
        (∀ c, IsCentred E A.k o.zeroMean (ref b c) (xc c)) ∧ (∀ j, IsCentred E A.k o.zeroMean (est b j) (yc j)) ∧
        (∀ c, IsNormalized E A.k (xc c) (x' c)) ∧ (∀ j, IsNormalized E A.k (yc j) (y' j)) ∧
        IsStats2 p A (fftSize N) x' y' acf xcorr ∧ IsBlockSpec (2 ^ (-p : ℤ)) A ω (fftSize N) K (loadedDiag E o.loadDiag acf) S) →
      (Matrix.of fun c d => S c d f).det ≠ 0 := fun f => by
    have hd0 := hdet f (by omega)
    obtain ⟨η, hη, H⟩ := fine_of_tends (X := Fin r → Fin r → ℕ → ℂ) (g := fun S => (Matrix.of fun c d => S c d f).det)
      (c := (blockPrecondSpec B (bssAcf o (fftSize N) ref b) f).det)
      (R := fun {p} E A ω S => ∃ (xc x' : Fin r → Fin N → ℝ) (yc y' : Fin e → Fin N → ℝ) (acf : Fin r → Fin r → ℕ → ℝ)
        (xcorr : Fin r → Fin e → ℕ → ℝ),
        (∀ c, IsCentred E A.k o.zeroMean (ref b c) (xc c)) ∧ (∀ j, IsCentred E A.k o.zeroMean (est b j) (yc j)) ∧
        (∀ c, IsNormalized E A.k (xc c) (x' c)) ∧ (∀ j, IsNormalized E A.k (yc j) (y' j)) ∧
        IsStats2 p A (fftSize N) x' y' acf xcorr ∧ IsBlockSpec (2 ^ (-p : ℤ)) A ω (fftSize N) K (loadedDiag E o.loadDiag acf) S)
      (fun {ι l p E A ω S} hS h => by
        choose xc x' yc y' acf xcorr h1 h2 h3 h4 h5 h6 using h
        have hx := fun k => preprocess_tends hS (fun m => h1 m k) fun m => h3 m k
        have hy := fun j => preprocess_tends hS (fun m => h2 m j) fun m => h4 m j
        obtain ⟨hpos, hneg, -⟩ := stats2_tends (E := E) (o := o) (ref := ref) (est := est) hS hn hL hLn b hx hy h5
        have ht : Tendsto (fun m => (Matrix.of fun c d => S m c d f : Matrix (Fin r) (Fin r) ℂ)) l
            (𝓝 (blockPrecondSpec B (bssAcf o (fftSize N) ref b) f)) :=
          tendsto_pi_nhds.2 fun a => tendsto_pi_nhds.2 fun c =>
            blockSpec_tends hS hB hL (hlen b) hpos hneg h6 (by omega) a c
        exact (Continuous.matrix_det continuous_id).continuousAt.tendsto.comp ht)
      (show 0 < ‖(blockPrecondSpec B (bssAcf o (fftSize N) ref b) f).det‖ / 2 by positivity)
    refine ⟨η, hη, fun p E A ω hF S hS h0 => ?_⟩
    have := H p E A ω hF S hS
    rw [h0, dist_comm, dist_zero_right] at this
    have h1 : 0 < ‖(blockPrecondSpec B (bssAcf o (fftSize N) ref b) f).det‖ := norm_pos_iff.2 hd0
    linarith
  obtain ⟨η, hη, H⟩ := uniform_eta (fun f η η' hle hP p E A ω hF => hP p E A ω (hF.mono hle)) hfine
  refine ⟨η, hη, fun p p' E E' A ω hF hω hr hN0 hN hKr pairwise cd it => ?_⟩
  have hu : (0 : ℝ) ≤ 2 ^ (-p : ℤ) := by positivity
  choose xc hxc using fun c => exists_centred E hN0 hN o.zeroMean (ref b c)
  choose yc hyc using fun j => exists_centred E hN0 hN o.zeroMean (est b j)
  choose x' hx using fun c => exists_normalized E hN0 hN (xc c)
  choose y' hy using fun j => exists_normalized E hN0 hN (yc j)
  obtain ⟨acf, xcorr, hst⟩ := exists_stats2 p A (fftSize N) x' y'
  obtain ⟨S, hS⟩ := exists_blockSpec hu A hω (fftSize N) K (loadedDiag E o.loadDiag acf)
  have hSd : ∀ f ≤ K / 2, (Matrix.of fun c d => S c d f).det ≠ 0 := fun f hf =>
    H ⟨f, by omega⟩ p E A ω hF S ⟨xc, x', yc, y', acf, xcorr, hxc, hyc, hx, hy, hst, hS⟩
  have hKk : K ≤ A.k := (Nat.le_mul_of_pos_right _ hr).trans hKr
  choose s1 hs1 using fun c j => exists_toeplitzCg hu A hω (by omega) hKk (loadedDiag E o.loadDiag acf c c) (fun i => xcorr c j i) it
  choose d1 hd1 using fun c j => exists_dot hu (by omega) hKk (fun i : Fin K => xcorr c j i) (s1 c j)
  choose s2 hs2 using fun j => exists_blockCg hu (by omega) hr hKr hS hSd (fun a => xcorr a.2 j a.1)
    (fun a => if pairwise then s1 a.2 j a.1 else 0) it
  choose d2 hd2 using fun j => exists_dot hu (Nat.mul_pos (by omega) hr) hKr
    (fun a : Fin (K * r) => xcorr (finProdFinEquiv.symm a).2 j (finProdFinEquiv.symm a).1) (fun a => s2 j (finProdFinEquiv.symm a))
  exact ⟨_, _, _, d1, d2, ⟨xc, yc, x', y', hxc, hyc, hx, hy, by
    rw [if_neg (by omega)]; exact ⟨acf, xcorr, s1, s2, hst, hs1, hd1, hs2, hd2⟩⟩, fun _ _ => rfl, fun _ _ => rfl, fun _ _ => rfl⟩

/-- The exact spectra are invertible whenever the call succeeds, `pairwise=True`. -/
theorem spec_of_pair {B : Backend} {o : Opts} {s : List ℕ} {ref : Sig s r N} {est : Sig s e N} {it : ℕ} (hcg : o.useCgIter = some it)
    (hL : 2 ≤ o.filterLength) {sd0 sa0} (h0 : sqCosPair B o ref est = .ok (sd0, sa0)) :
    nFft N = .ok (fftSize N) ∧ o.filterLength ≤ fftSize N ∧
      ∀ b, ∀ f ≤ o.filterLength / 2, (blockPrecondSpec B (bssAcf o (fftSize N) ref b) f).det ≠ 0 := by
  obtain ⟨n, hn⟩ := nFft_of_coh hL (sqCosPair_sdr _ _ h0)
  obtain rfl : n = fftSize N := by rw [(nFft_ok hn).2, fftSize, two_mul]
  have hLn : o.filterLength ≤ fftSize N := by
    by_contra hlt
    rw [sqCosPair_too_long (by omega) hn (by omega)] at h0
    cases h0
  refine ⟨hn, hLn, fun b => ?_⟩
  have hK : min o.filterLength (fftSize N) = o.filterLength := min_eq_left hLn
  rw [sqCosPair_unfold hn hK hL hLn, hcg] at h0
  simp only at h0
  split at h0
  · cases h0
  rename_i hsar
  exact (cohSar_ok_cg (ι := ℕ) (l := ⊥) (p := fun _ => 0) (A := fun _ => ⟨0, 0, 0, le_rfl, le_rfl⟩) (ω := fun _ => 0)
    ⟨fun _ => by positivity, tendsto_bot, tendsto_bot, tendsto_bot, tendsto_bot, tendsto_bot⟩ hcg hsar b).1

/-- The same with `pairwise=False`. -/
theorem spec_of_diag {B : Backend} {o : Opts} {s : List ℕ} {ref est : Sig s r N} {it : ℕ} (hcg : o.useCgIter = some it)
    (hL : 2 ≤ o.filterLength) {sd0 sa0} (h0 : sqCosDiag B o ref est = .ok (sd0, sa0)) :
    nFft N = .ok (fftSize N) ∧ o.filterLength ≤ fftSize N ∧
      ∀ b, ∀ f ≤ o.filterLength / 2, (blockPrecondSpec B (bssAcf o (fftSize N) ref b) f).det ≠ 0 := by
  cases hn : nFft N with
  | error err =>
    rw [sqCosDiag_gen B hL] at h0
    unfold sqCosDiagGen at h0
    rw [hn] at h0
    cases h0
  | ok n =>
  obtain rfl : n = fftSize N := by rw [(nFft_ok hn).2, fftSize, two_mul]
  have hLn : o.filterLength ≤ fftSize N := by
    by_contra hlt
    have F := fam_of_nFft (o := o) hn
    have hn0 := F.n_ne
    rw [sqCosDiag_gen B hL] at h0
    unfold sqCosDiagGen at h0
    rw [hn] at h0
    simp only at h0
    rw [if_pos (by rw [min_eq_right (by omega : fftSize N ≤ o.filterLength)]; omega)] at h0
    cases h0
  refine ⟨rfl, hLn, fun b => ?_⟩
  have hK : min o.filterLength (fftSize N) = o.filterLength := min_eq_left hLn
  rw [sqCosDiag_unfold hn hK hL hLn, hcg] at h0
  simp only at h0
  split at h0
  · cases h0
  rename_i hsar
  exact (cohSar_ok_cg (ι := ℕ) (l := ⊥) (p := fun _ => 0) (A := fun _ => ⟨0, 0, 0, le_rfl, le_rfl⟩) (ω := fun _ => 0)
    ⟨fun _ => by positivity, tendsto_bot, tendsto_bot, tendsto_bot, tendsto_bot, tendsto_bot⟩ hcg hsar b).1

/-- There is arithmetic as fine as wanted. -/
theorem exists_fine {η : ℝ} (hη : 0 < η) (k : ℕ) : ∃ (p : ℕ) (_ : Machine p) (A : Accuracy), Fine η p A 0 ∧ A.k = k := by
  obtain ⟨m, hm⟩ := exists_pow_lt_of_lt_one (show 0 < η / (k + 1) by positivity) (show (1 / 2 : ℝ) < 1 by norm_num)
  have h1 : ((k : ℝ) + 1) * 2 ^ (-((m + 1 : ℕ) : ℤ)) ≤ η := by
    have h2 : (2 : ℝ) ^ (-((m + 1 : ℕ) : ℤ)) ≤ (1 / 2) ^ m := by
      rw [_root_.zpow_neg, _root_.zpow_natCast, one_div, inv_pow]
      gcongr
      · norm_num
      · omega
    have h3 := (lt_div_iff₀ (by positivity)).1 (lt_of_le_of_lt h2 hm)
    linarith
  have h0 : (0 : ℝ) ≤ 2 ^ (-((m + 1 : ℕ) : ℤ)) := by positivity
  have hk : (0 : ℝ) ≤ k := by positivity
  obtain ⟨E, -⟩ := exists_machine (p := m + 1) (by omega)
  refine ⟨m + 1, E, ⟨k, 0, 0, le_rfl, le_rfl⟩, ⟨?_, ?_, hη.le, hη.le, by rw [abs_zero]; exact hη.le⟩, rfl⟩
  · nlinarith
  · change (k : ℝ) * _ ≤ η
    nlinarith

end FBE.Rounded
