import Verif.Proofs.RoundedCg
import Verif.Proofs.Norm
import Verif.Proofs.Equal
import Verif.Proofs.CgSolve

/-!
# From the samples to the coherences: executions whose errors tend to zero

Every coherence tends to the one of exact arithmetic, for the direct and for the iterative solver.
-/

set_option linter.unusedSectionVars false

namespace FBE.Rounded

open Spec Matrix Filter Topology

local notation "conj" => starRingEnd ℂ

variable {ι : Type*} {l : Filter ι} {p : ι → ℕ} {n K r e N : ℕ} {E : ∀ m, Machine (p m)} {A : ι → Accuracy} {ω : ι → ℝ}
  (hS : Small l (fun m => (2 : ℝ) ^ (-(p m) : ℤ)) A ω)
include hS

/-! ### preprocessing -/

theorem fl_tends {x : ι → ℝ} {x0 : ℝ} (hx : Tendsto x l (𝓝 x0)) : Tendsto (fun m => (E m).fl (x m)) l (𝓝 x0) :=
  op_tendsto hS.unit (fun m => (E m).fl_nearest.rel (x m)) hx

theorem centred_tends {zm : Bool} {x : Fin N → ℝ} {x' : ι → Fin N → ℝ} (h : ∀ m, IsCentred (E m) (A m).k zm x (x' m)) :
    Tendsto x' l (𝓝 (if zm then removeMean x else x)) := by
  cases zm
  · simp only [IsCentred, Bool.false_eq_true, if_false] at h
    rw [show x' = fun _ => x from funext h]
    simp only [Bool.false_eq_true, if_false]
    exact tendsto_const_nhds
  · simp only [IsCentred, if_true] at h
    choose q a h1 h2 h3 using h
    have hq := isDot_tendsto hS.nonneg hS.sums h1 tendsto_const_nhds tendsto_const_nhds
    simp only [mul_one] at hq
    have h4 : Tendsto (fun m => 2 * (2 : ℝ) ^ (-(p m) : ℤ)) l (𝓝 0) := by simpa using hS.unit.const_mul 2
    have ha : Tendsto a l (𝓝 ((∑ t, x t) / N)) :=
      tendsto_of_close h2 (tendsto_zero_mul h4 (hq.div_const _).abs) (hq.div_const _)
    refine tendsto_pi_nhds.2 fun t => ?_
    simp only [h3, if_true]
    exact fl_tends hS (ha.const_sub _)

theorem normalized_tends {x x' : ι → Fin N → ℝ} {x0 : Fin N → ℝ} (hx : Tendsto x l (𝓝 x0))
    (h : ∀ m, IsNormalized (E m) (A m).k (x m) (x' m)) : Tendsto x' l (𝓝 (normalize x0)) := by
  choose q v h1 h2 h3 using h
  have hq := isDot_tendsto hS.nonneg hS.sums h1 hx hx
  have hv : Tendsto v l (𝓝 √(∑ t, x0 t * x0 t)) := tendsto_of_close h2 (tendsto_zero_mul hS.unit hq.sqrt) hq.sqrt
  have hm : Tendsto (fun m => (E m).fl 1e-6) l (𝓝 1e-6) := fl_tends hS tendsto_const_nhds
  refine tendsto_pi_nhds.2 fun t => ?_
  simp only [h3]
  refine fl_tends hS ?_
  unfold normalize
  simp only [sq]
  exact (tendsto_pi_nhds.1 hx t).div (hv.max hm) (lt_max_of_lt_right (by norm_num)).ne'

theorem preprocess_tends {zm : Bool} {x : Fin N → ℝ} {xc x' : ι → Fin N → ℝ} (h : ∀ m, IsCentred (E m) (A m).k zm x (xc m))
    (h' : ∀ m, IsNormalized (E m) (A m).k (xc m) (x' m)) : Tendsto x' l (𝓝 (preprocess zm x)) :=
  normalized_tends hS (centred_tends hS h) h'

/-! ### correlations -/

theorem corr_tends (hn : n ≠ 0) {x y : ι → Fin N → ℝ} {x0 y0 : Fin N → ℝ} {X Y Z : ι → ℕ → ℂ} {z : ι → ℕ → ℝ}
    (hx : Tendsto x l (𝓝 x0)) (hy : Tendsto y l (𝓝 y0)) (hX : ∀ m, IsRfft (A m) n (x m) (X m))
    (hY : ∀ m, IsRfft (A m) n (y m) (Y m)) (hZ : ∀ m, IsProducts (2 ^ (-(p m) : ℤ)) (X m) (Y m) (Z m))
    (hz : ∀ m, IsIrfft (A m) n (Z m) (z m)) {t : ℕ} (ht : t < n) : Tendsto (fun m => z m t) l (𝓝 (circ n x0 y0 t)) := by
  have h4 : Tendsto (fun m => 4 * (2 : ℝ) ^ (-(p m) : ℤ)) l (𝓝 0) := by simpa using hS.unit.const_mul 4
  have hZ' : ∀ f ≤ n / 2, Tendsto (fun m => Z m f) l (𝓝 (conj (dft n (zpad x0) f) * dft n (zpad y0) f)) := fun f hf => by
    have h1 := rfft_tendsto hS hX hx hf hn
    have h2 := rfft_tendsto hS hY hy hf hn
    exact tendsto_of_close (fun m => hZ m f) (tendsto_zero_mul h4 (h1.norm.mul h2.norm))
      (((Complex.continuous_conj.tendsto _).comp h1).mul h2)
  have h := irfft_tendsto hS hz hZ' ht
  rw [irfft_spec ((herm_dft _).conj.mul (herm_dft _)) ht, corr_spec hn] at h
  exact h

theorem loaded_tends {load : Option ℝ} {acf : ι → ℕ → ℝ} {a0 : ℝ} {t : ℕ} (h : Tendsto (fun m => acf m t) l (𝓝 a0)) :
    Tendsto (fun m => loaded (E m) load (acf m) t) l (𝓝 (a0 + if t = 0 then load.getD 0 else 0)) := by
  cases load with
  | none => simpa [loaded] using h
  | some d =>
    by_cases ht : t = 0
    · subst ht
      simp only [loaded, if_true, Option.getD_some]
      exact fl_tends hS (h.add (fl_tends hS tendsto_const_nhds))
    · simpa [loaded, ht] using h

/-! ### the direct solver -/

theorem solve_tends {J : Type} [Fintype J] [DecidableEq J] {M : ι → Matrix J J ℝ} {M0 : Matrix J J ℝ} {b s : ι → J → ℝ} {b0 : J → ℝ}
    (h : ∀ m, IsSolve (A m) (M m) (b m) (s m)) (hM : Tendsto M l (𝓝 M0)) (hb : Tendsto b l (𝓝 b0)) (hdet : M0.det ≠ 0) :
    Tendsto s l (𝓝 (M0⁻¹ *ᵥ b0)) := by
  choose D h1 h2 using h
  have hM' : ∀ a b, Tendsto (fun m => M m a b) l (𝓝 (M0 a b)) := fun a b => tendsto_pi_nhds.1 (tendsto_pi_nhds.1 hM a) b
  have hD : ∀ a b, Tendsto (fun m => D m a b) l (𝓝 0) := fun a b => by
    have hb : Tendsto (fun m => ∑ q : J × J, |M m q.1 q.2|) l (𝓝 (∑ q : J × J, |M0 q.1 q.2|)) :=
      tendsto_finsetSum _ fun q _ => (hM' q.1 q.2).abs
    refine squeeze_zero_norm (fun m => h2 m _ (fun a b => ?_) a b) (tendsto_zero_mul hS.solve hb)
    exact Finset.single_le_sum (f := fun q : J × J => |M m q.1 q.2|) (fun _ _ => abs_nonneg _) (Finset.mem_univ (a, b))
  have hMD : Tendsto (fun m => M m + D m) l (𝓝 M0) :=
    tendsto_pi_nhds.2 fun a => tendsto_pi_nhds.2 fun b => by simpa using (hM' a b).add (hD a b)
  have hdets : Tendsto (fun m => (M m + D m).det) l (𝓝 M0.det) := (continuous_id.matrix_det.tendsto M0).comp hMD
  have hinv : Tendsto (fun m => (M m + D m)⁻¹) l (𝓝 M0⁻¹) := by
    simp only [Matrix.inv_def, Ring.inverse_eq_inv']
    exact (hdets.inv₀ hdet).smul ((continuous_id.matrix_adjugate.tendsto M0).comp hMD)
  have key : Tendsto (fun m => (M m + D m)⁻¹ *ᵥ b m) l (𝓝 (M0⁻¹ *ᵥ b0)) := by
    refine tendsto_pi_nhds.2 fun i => ?_
    simp only [mulVec, dotProduct]
    exact tendsto_finsetSum _ fun j _ => (tendsto_pi_nhds.1 (tendsto_pi_nhds.1 hinv i) j).mul (tendsto_pi_nhds.1 hb j)
  refine key.congr' ?_
  filter_upwards [hdets.eventually_ne hdet] with m hm
  rw [← h1, mulVec_mulVec, nonsing_inv_mul _ (isUnit_iff_ne_zero.2 hm), one_mulVec]

/-! ### `sdr_loss` -/

section sdr

variable {B : Backend} (hB : Covered B) {o : Opts} {s : List ℕ} {ref : Sig s r N} {est : Sig s e N}

theorem oneTap_tends {x y : ι → Fin N → ℝ} {x0 y0 : Fin N → ℝ} (hx : Tendsto x l (𝓝 x0)) (hy : Tendsto y l (𝓝 y0)) {coh : ι → ℝ}
    (h : ∀ m, IsOneTapCoherence (E m) (A m) (x m) (y m) (coh m)) : Tendsto coh l (𝓝 (dot x0 y0 ^ 2)) := by
  choose c h1 h2 using h
  have hc := isDot_tendsto hS.nonneg hS.sums h1 hx hy
  rw [show coh = fun m => (E m).fl (c m * c m) from funext h2, sq]
  exact fl_tends hS (hc.mul hc)

/-- The statistics of one reference and one estimate. -/
theorem stats_tends (hn : nFft N = .ok n) (hL : 1 ≤ o.filterLength) (hLn : o.filterLength ≤ n) (b : BIdx s) (k : Fin r) (j : Fin e)
    {x y : ι → Fin N → ℝ} (hx : Tendsto x l (𝓝 (prep o ref b k))) (hy : Tendsto y l (𝓝 (prep o est b j)))
    {acf xcorr : ι → ℕ → ℝ} (h : ∀ m, IsStats (p m) (A m) n (x m) (y m) (acf m) (xcorr m)) :
    (∀ t < o.filterLength, Tendsto (fun m => loaded (E m) o.loadDiag (acf m) t) l (𝓝 ((sdrAcf o n ref b k).getD t 0))) ∧
      Tendsto (fun m => fun i : Fin o.filterLength => xcorr m i) l (𝓝 (vec o.filterLength (sdrXcorr o n ref est b k j))) := by
  have F := fam_of_nFft (o := o) hn
  have hK : min o.filterLength n = o.filterLength := min_eq_left hLn
  rw [hK] at F
  choose X Y h1 h2 h3 h4 using h
  choose Z h3 h3' using h3
  choose Z' h4 h4' using h4
  refine ⟨fun t ht => ?_, tendsto_pi_nhds.2 fun t => ?_⟩
  · rw [sdrAcf_get F hK hL ref b k t ht]
    exact loaded_tends hS (corr_tends hS F.n_ne hx hx h1 h1 h3 h3' (by omega))
  · have ht := t.isLt
    unfold vec sdrXcorr
    rw [xcorr1_get n _ F.n_ne _ _ _ (by omega) (by omega)]
    exact corr_tends hS F.n_ne hx hy h1 h2 h4 h4' (by omega)

include hB

theorem flToeplitz_tends {col : ι → ℕ → ℝ} {col0 : List ℝ} (hlen : col0.length = K)
    (hcol : ∀ t < K, Tendsto (fun m => col m t) l (𝓝 (col0.getD t 0))) :
    Tendsto (fun m => flToeplitz K (col m)) l (𝓝 (toeplitz B K col0)) := by
  refine tendsto_pi_nhds.2 fun i => tendsto_pi_nhds.2 fun j => ?_
  have hi := i.isLt
  have hj := j.isLt
  rw [toeplitz_apply hB hlen]
  unfold flToeplitz
  by_cases hij : i ≤ j
  · have hij' : i.val ≤ j.val := hij
    simp only [if_pos hij]
    rw [max_eq_right hij', min_eq_left hij']
    exact hcol _ (by omega)
  · have hij' : j.val ≤ i.val := by rw [Fin.le_def] at hij; omega
    simp only [if_neg hij]
    rw [max_eq_left hij', min_eq_right hij']
    exact hcol _ (by omega)

/-- The direct solver. -/
theorem firCoherence_tends (hcg : o.useCgIter = none) (hL : 2 ≤ o.filterLength) (hLn : o.filterLength ≤ fftSize N) {coh0}
    (h0 : sdrCohPair B o ref est = .ok coh0) (b : BIdx s) (k : Fin r) (j : Fin e) {x y : ι → Fin N → ℝ}
    (hx : Tendsto x l (𝓝 (prep o ref b k))) (hy : Tendsto y l (𝓝 (prep o est b j))) {coh : ι → ℝ}
    (h : ∀ m, IsFirCoherence (E m) (A m) o.filterLength o.loadDiag (x m) (y m) (coh m)) : Tendsto coh l (𝓝 (coh0 b k j)) := by
  obtain ⟨n, hn⟩ := nFft_of_coh hL h0
  obtain rfl : n = fftSize N := by rw [(nFft_ok hn).2, fftSize, two_mul]
  have hK : min o.filterLength (fftSize N) = o.filterLength := min_eq_left hLn
  have F := fam_of_nFft (o := o) hn
  rw [hK] at F
  choose acf xcorr sol h1 h2 h3 using h
  obtain ⟨ha, hxc⟩ := stats_tends (E := E) hS hn (by omega) hLn b k j hx hy h1
  rw [sdrCohPair_unfold hn hK hL, hcg] at h0
  simp only [solveStack] at h0
  split at h0
  · cases h0
  rename_i hsol
  split at hsol
  · cases hsol
  rename_i hdet
  cases hsol
  cases h0
  push Not at hdet
  exact isDot_tendsto hS.nonneg hS.sums h3 hxc
    (solve_tends hS h2 (flToeplitz_tends hS hB (length_sdrAcf F hK (by omega) ref b k) ha) hxc (hdet (b, k)))

/-- The iterative solver. -/
theorem cgCoherence_tends {it : ℕ} (hcg : o.useCgIter = some it) (hL : 2 ≤ o.filterLength) (hLn : o.filterLength ≤ fftSize N) {coh0}
    (h0 : sdrCohPair B o ref est = .ok coh0) (b : BIdx s) (k : Fin r) (j : Fin e) {x y : ι → Fin N → ℝ}
    (hx : Tendsto x l (𝓝 (prep o ref b k))) (hy : Tendsto y l (𝓝 (prep o est b j))) {coh : ι → ℝ}
    (h : ∀ m, IsCgCoherence (E m) (A m) (ω m) o.filterLength o.loadDiag it (x m) (y m) (coh m)) :
    Tendsto coh l (𝓝 (coh0 b k j)) := by
  obtain ⟨n, hn⟩ := nFft_of_coh hL h0
  obtain rfl : n = fftSize N := by rw [(nFft_ok hn).2, fftSize, two_mul]
  have hK : min o.filterLength (fftSize N) = o.filterLength := min_eq_left hLn
  have F := fam_of_nFft (o := o) hn
  rw [hK] at F
  choose acf xcorr sol h1 h2 h3 using h
  obtain ⟨ha, hxc⟩ := stats_tends (E := E) hS hn (by omega) hLn b k j hx hy h1
  rw [sdrCohPair_unfold hn hK hL, hcg] at h0
  cases h0
  exact isDot_tendsto hS.nonneg hS.sums h3 hxc
    (toeplitzCg_tends hS hB (by omega) (length_sdrAcf F hK (by omega) ref b k) ha hxc h2)

theorem sdrCohPair_one (hL : o.filterLength = 1) {coh0} (h0 : sdrCohPair B o ref est = .ok coh0) (b : BIdx s) (k : Fin r) (j : Fin e) :
    coh0 b k j = dot (prep o ref b k) (prep o est b j) ^ 2 := by
  rw [sdrCohPair_def, if_neg (by omega), if_pos hL] at h0
  cases h0
  rfl

/-- The coherences of `sdr_loss`, direct solver. -/
theorem sdrCoherence_tends (hcg : o.useCgIter = none) (hLn : o.filterLength ≤ fftSize N) {coh0}
    (h0 : sdrCohPair B o ref est = .ok coh0) (b : BIdx s) (k : Fin r) (j : Fin e) {coh : ι → ℝ}
    (h : ∀ m, IsSdrCoherence (E m) (A m) o.filterLength o.zeroMean o.loadDiag (ref b k) (est b j) (coh m)) :
    Tendsto coh l (𝓝 (coh0 b k j)) := by
  choose xc yc x y h1 h2 h3 h4 h5 using h
  have hx := preprocess_tends hS h1 h3
  have hy := preprocess_tends hS h2 h4
  have hL0 : o.filterLength ≠ 0 := fun h => by
    rw [sdrCohPair_def, if_pos h] at h0
    cases h0
  by_cases hL : o.filterLength = 1
  · simp only [if_pos hL] at h5
    rw [sdrCohPair_one hS hB hL h0]
    exact oneTap_tends hS hx hy h5
  · simp only [if_neg hL] at h5
    exact firCoherence_tends hS hB hcg (by omega) hLn h0 b k j hx hy h5

/-- The coherences of `sdr_loss`, iterative solver. -/
theorem sdrCoherenceCg_tends {it : ℕ} (hcg : o.useCgIter = some it) (hLn : o.filterLength ≤ fftSize N) {coh0}
    (h0 : sdrCohPair B o ref est = .ok coh0) (b : BIdx s) (k : Fin r) (j : Fin e) {coh : ι → ℝ}
    (h : ∀ m, IsSdrCoherenceCg (E m) (A m) (ω m) o.filterLength o.zeroMean o.loadDiag it (ref b k) (est b j) (coh m)) :
    Tendsto coh l (𝓝 (coh0 b k j)) := by
  choose xc yc x y h1 h2 h3 h4 h5 using h
  have hx := preprocess_tends hS h1 h3
  have hy := preprocess_tends hS h2 h4
  have hL0 : o.filterLength ≠ 0 := fun h => by
    rw [sdrCohPair_def, if_pos h] at h0
    cases h0
  by_cases hL : o.filterLength = 1
  · simp only [if_pos hL] at h5
    rw [sdrCohPair_one hS hB hL h0]
    exact oneTap_tends hS hx hy h5
  · simp only [if_neg hL] at h5
    exact cgCoherence_tends hS hB hcg (by omega) hLn h0 b k j hx hy h5

end sdr

/-! ### `bss_eval_sources` -/

section bss

variable {B : Backend} (hB : Covered B) {o : Opts} {s : List ℕ} {ref : Sig s r N} {est : Sig s e N}

/-- The statistics of all references and all estimates. -/
theorem stats2_tends (hn : nFft N = .ok n) (hL : 2 ≤ o.filterLength) (hLn : o.filterLength ≤ n) (b : BIdx s)
    {x : ι → Fin r → Fin N → ℝ} {y : ι → Fin e → Fin N → ℝ} (hx : ∀ k, Tendsto (fun m => x m k) l (𝓝 (prep o ref b k)))
    (hy : ∀ j, Tendsto (fun m => y m j) l (𝓝 (prep o est b j)))
    {acf : ι → Fin r → Fin r → ℕ → ℝ} {xcorr : ι → Fin r → Fin e → ℕ → ℝ}
    (h : ∀ m, IsStats2 (p m) (A m) n (x m) (y m) (acf m) (xcorr m)) :
    (∀ c d, ∀ t < o.filterLength, Tendsto (fun m => loadedDiag (E m) o.loadDiag (acf m) c d t) l
      (𝓝 ((bssAcf o n ref b c d).getD t 0))) ∧
    (∀ c d t, 0 < t → t < o.filterLength → Tendsto (fun m => loadedDiag (E m) o.loadDiag (acf m) c d (n - t)) l
      (𝓝 ((bssAcf o n ref b c d).getD (o.filterLength + o.filterLength - t) 0))) ∧
    ∀ c j, Tendsto (fun m => fun i : Fin o.filterLength => xcorr m c j i) l (𝓝 (vec o.filterLength (sdrXcorr o n ref est b c j))) := by
  have F := fam_of_nFft (o := o) hn
  have hK : min o.filterLength n = o.filterLength := min_eq_left hLn
  rw [hK] at F
  choose X Y h1 h2 h3 h4 using h
  choose Z h3 h3' using h3
  choose Z' h4 h4' using h4
  have hacf : ∀ c d, ∀ t < n, Tendsto (fun m => acf m c d t) l (𝓝 (circ n (prep o ref b d) (prep o ref b c) t)) := fun c d t ht =>
    corr_tends hS F.n_ne (hx d) (hx c) (fun m => h1 m d) (fun m => h1 m c) (fun m => h3 m c d) (fun m => h3' m c d) ht
  refine ⟨fun c d t ht => ?_, fun c d t h0 ht => ?_, fun c j => tendsto_pi_nhds.2 fun t => ?_⟩
  · rw [bssAcf_get F hK (by omega) ref b c d t ht]
    by_cases hcd : c = d
    · simp only [loadedDiag, if_pos hcd, and_iff_left hcd]
      exact loaded_tends hS (hacf c d t (by omega))
    · simp only [loadedDiag, and_false, if_false, add_zero, hcd]
      exact hacf c d t (by omega)
  · rw [bssAcf_get_neg F hK (by omega) hLn ref b c d t h0 ht, ← circ_swap n _ _ t (by omega)]
    have := hacf c d (n - t) (by omega)
    by_cases hcd : c = d
    · simp only [loadedDiag, if_pos hcd]
      have h5 := loaded_tends (E := E) (load := o.loadDiag) hS this
      rwa [if_neg (by omega), add_zero] at h5
    · simp only [loadedDiag, if_neg hcd]
      exact this
  · have ht := t.isLt
    unfold vec sdrXcorr
    rw [xcorr1_get n _ F.n_ne _ _ _ (by omega) (by omega)]
    exact corr_tends hS F.n_ne (hx c) (hy j) (fun m => h1 m c) (fun m => h2 m j) (fun m => h4 m c j) (fun m => h4' m c j) (by omega)

theorem flBlockToeplitz_tends {acf : ι → Fin r → Fin r → ℕ → ℝ} {acf0 : Fin r → Fin r → List ℝ}
    (hlen : ∀ c d, (acf0 c d).length = K + K) (hpos : ∀ c d, ∀ t < K, Tendsto (fun m => acf m c d t) l (𝓝 ((acf0 c d).getD t 0)))
    (hneg : ∀ c d t, 0 < t → t < K → Tendsto (fun m => acf m c d (n - t)) l (𝓝 ((acf0 c d).getD (K + K - t) 0))) :
    Tendsto (fun m => flBlockToeplitz n K (acf m)) l (𝓝 (lagMatrix K acf0)) := by
  refine tendsto_pi_nhds.2 fun a => tendsto_pi_nhds.2 fun b => ?_
  have ha := a.1.isLt
  have hb := b.1.isLt
  unfold lagMatrix lagAt flBlockToeplitz
  by_cases hab : a.1 ≤ b.1
  · have hab' : a.1.val ≤ b.1.val := hab
    simp only [if_pos hab, if_pos hab']
    exact hpos _ _ _ (by omega)
  · have hab' : ¬ a.1.val ≤ b.1.val := hab
    simp only [if_neg hab, if_neg hab', hlen]
    exact hneg _ _ _ (by omega) (by omega)

/-- `einsum` over the lags of all references. -/
theorem isDot_block_tends {xc s' : ι → Fin K × Fin r → ℝ} {xc0 s0 : Fin K × Fin r → ℝ} {c : ι → ℝ} (hx : Tendsto xc l (𝓝 xc0))
    (hs : Tendsto s' l (𝓝 s0))
    (h : ∀ m, IsDot (2 ^ (-(p m) : ℤ)) (fun a : Fin (K * r) => xc m (finProdFinEquiv.symm a)) (fun a => s' m (finProdFinEquiv.symm a))
      (A m).k Finset.univ (c m)) : Tendsto c l (𝓝 (∑ a, xc0 a * s0 a)) := by
  have h1 := isDot_tendsto hS.nonneg hS.sums h (a0 := fun a => xc0 (finProdFinEquiv.symm a)) (b0 := fun a => s0 (finProdFinEquiv.symm a))
    (tendsto_pi_nhds.2 fun a => tendsto_pi_nhds.1 hx _) (tendsto_pi_nhds.2 fun a => tendsto_pi_nhds.1 hs _)
  rwa [Equiv.sum_comp (finProdFinEquiv.symm : Fin (K * r) ≃ Fin K × Fin r) fun a => xc0 a * s0 a] at h1

theorem loadedDiag_self (E : ∀ m, Machine (p m)) (load : Option ℝ) (acf : ι → Fin r → Fin r → ℕ → ℝ) (m : ι) (c : Fin r) :
    loadedDiag (E m) load (acf m) c c = loaded (E m) load (acf m c c) := by
  simp [loadedDiag]

theorem cohSar_ok_direct (hcg : o.useCgIter = none) (hK : 2 ≤ K) (hlen : ∀ m k k', (bssAcf o n ref m k k').length = K + K)
    {x0 : BIdx s → Fin e → Fin K × Fin r → ℝ} {sa0} (h : cohSar B o n K ref est x0 = .ok sa0) (b : BIdx s) :
    (lagMatrix K (bssAcf o n ref b)).det ≠ 0 ∧ ∀ j, sa0 b j = ∑ a, xcorrFlat o n K ref est b j a *
      ((lagMatrix K (bssAcf o n ref b))⁻¹ *ᵥ xcorrFlat o n K ref est b j) a := by
  unfold cohSar at h
  rw [hcg] at h
  simp only at h
  rw [blockToeplitz_ok hK _ fun m k l => by rw [hlen]; omega] at h
  simp only [solveStack] at h
  split at h
  · cases h
  rename_i hsol
  split at hsol
  · cases hsol
  rename_i hdet
  cases hsol
  cases h
  push Not at hdet
  exact ⟨hdet b, fun j => rfl⟩

theorem cohSar_ok_cg {it : ℕ} (hcg : o.useCgIter = some it) {x0 : BIdx s → Fin e → Fin K × Fin r → ℝ} {sa0}
    (h : cohSar B o n K ref est x0 = .ok sa0) (b : BIdx s) :
    (∀ f ≤ K / 2, (blockPrecondSpec B (bssAcf o n ref b) f).det ≠ 0) ∧ ∀ j, sa0 b j = ∑ a, xcorrFlat o n K ref est b j a *
      conjugateGradient (blockToeplitzOp B K (bssAcf o n ref b)) (blockPrecond B K (bssAcf o n ref b)) (xcorrFlat o n K ref est b j)
        (x0 b j) it a := by
  unfold cohSar at h
  rw [hcg] at h
  simp only [blockCg] at h
  split at h
  · cases h
  rename_i hsol
  split at hsol
  · cases hsol
  rename_i hdet
  cases hsol
  cases h
  push Not at hdet
  exact ⟨fun f hf => hdet b f hf, fun j => rfl⟩

include hB

/-- The direct solver. -/
theorem firCoherences_tends (hcg : o.useCgIter = none) (hL : 2 ≤ o.filterLength) {sd0 sa0}
    (h0 : sqCosPair B o ref est = .ok (sd0, sa0)) (b : BIdx s) {x : ι → Fin r → Fin N → ℝ} {y : ι → Fin e → Fin N → ℝ}
    (hx : ∀ k, Tendsto (fun m => x m k) l (𝓝 (prep o ref b k))) (hy : ∀ j, Tendsto (fun m => y m j) l (𝓝 (prep o est b j)))
    {sd : ι → Fin r → Fin e → ℝ} {sa : ι → Fin e → ℝ}
    (h : ∀ m, IsFirCoherences (E m) (A m) o.filterLength o.loadDiag (x m) (y m) (sd m) (sa m)) :
    (∀ k j, Tendsto (fun m => sd m k j) l (𝓝 (sd0 b k j))) ∧ ∀ j, Tendsto (fun m => sa m j) l (𝓝 (sa0 b j)) := by
  obtain ⟨n, hn⟩ := nFft_of_coh hL (sqCosPair_sdr _ _ h0)
  obtain rfl : n = fftSize N := by rw [(nFft_ok hn).2, fftSize, two_mul]
  have hLn : o.filterLength ≤ fftSize N := by
    by_contra hlt
    rw [sqCosPair_too_long (by omega) hn (by omega)] at h0
    cases h0
  have hK : min o.filterLength (fftSize N) = o.filterLength := min_eq_left hLn
  have F := fam_of_nFft (o := o) hn
  rw [hK] at F
  choose acf xcorr h1 h2 h3 using h
  choose s1 h2 h2' using h2
  choose s2 h3 h3' using h3
  obtain ⟨hpos, hneg, hxc⟩ := stats2_tends (E := E) hS hn hL hLn b hx hy h1
  have hlen := length_bssAcf F hK (by omega) ref
  rw [sqCosPair_unfold hn hK hL hLn, hcg] at h0
  simp only [solveStack] at h0
  split at h0
  · cases h0
  rename_i hsol
  split at hsol
  · cases hsol
  rename_i hdet
  push Not at hdet
  cases hsol
  split at h0
  · cases h0
  rename_i hsar
  cases h0
  obtain ⟨hdet', hsa⟩ := cohSar_ok_direct hS hcg hL hlen hsar b
  refine ⟨fun k j => ?_, fun j => ?_⟩
  · refine isDot_tendsto hS.nonneg hS.sums (fun m => h2' m k j) (hxc k j) (solve_tends hS (fun m => h2 m k j)
      (flToeplitz_tends hS hB ?_ ?_) (hxc k j) (hdet (b, k)))
    · rw [bssAcfSdr_eq_sdrAcf F hK (by omega) hLn]
      exact length_sdrAcf F hK (by omega) ref b k
    · intro t ht
      rw [bssAcfSdr_eq_sdrAcf F hK (by omega) hLn, sdrAcf_get F hK (by omega) ref b k t ht]
      have := hpos k k t ht
      rw [bssAcf_get F hK (by omega) ref b k k t ht] at this
      simpa only [and_true] using this
  · have hxf : Tendsto (fun m => fun a : Fin o.filterLength × Fin r => xcorr m a.2 j a.1) l
        (𝓝 (xcorrFlat o (fftSize N) o.filterLength ref est b j)) :=
      tendsto_pi_nhds.2 fun a => tendsto_pi_nhds.1 (hxc a.2 j) a.1
    rw [hsa]
    exact isDot_block_tends hS hxf (solve_tends hS (fun m => h3 m j)
      (flBlockToeplitz_tends hS (hlen b) hpos hneg) hxf hdet') (fun m => h3' m j)

/-- The iterative solver with `pairwise=True`. -/
theorem cgCoherences_tends {it : ℕ} (hcg : o.useCgIter = some it) (hL : 2 ≤ o.filterLength) {sd0 sa0}
    (h0 : sqCosPair B o ref est = .ok (sd0, sa0)) (b : BIdx s) {x : ι → Fin r → Fin N → ℝ} {y : ι → Fin e → Fin N → ℝ}
    (hx : ∀ k, Tendsto (fun m => x m k) l (𝓝 (prep o ref b k))) (hy : ∀ j, Tendsto (fun m => y m j) l (𝓝 (prep o est b j)))
    {sd : ι → Fin r → Fin e → ℝ} {sa : ι → Fin e → ℝ}
    (h : ∀ m, IsCgCoherences (E m) (A m) (ω m) o.filterLength true o.loadDiag it (x m) (y m) (sd m) (sa m)) :
    (∀ k j, Tendsto (fun m => sd m k j) l (𝓝 (sd0 b k j))) ∧ ∀ j, Tendsto (fun m => sa m j) l (𝓝 (sa0 b j)) := by
  obtain ⟨n, hn⟩ := nFft_of_coh hL (sqCosPair_sdr _ _ h0)
  obtain rfl : n = fftSize N := by rw [(nFft_ok hn).2, fftSize, two_mul]
  have hLn : o.filterLength ≤ fftSize N := by
    by_contra hlt
    rw [sqCosPair_too_long (by omega) hn (by omega)] at h0
    cases h0
  have hK : min o.filterLength (fftSize N) = o.filterLength := min_eq_left hLn
  have F := fam_of_nFft (o := o) hn
  rw [hK] at F
  choose acf xcorr s1 s2 h1 h2 h2' h3 h3' using h
  obtain ⟨hpos, hneg, hxc⟩ := stats2_tends (E := E) hS hn hL hLn b hx hy h1
  have hlen := length_bssAcf F hK (by omega) ref
  rw [sqCosPair_unfold hn hK hL hLn, hcg] at h0
  simp only at h0
  split at h0
  · cases h0
  rename_i hsar
  cases h0
  obtain ⟨hdet', hsa⟩ := cohSar_ok_cg hS hcg hsar b
  have hsol : ∀ k j, Tendsto (fun m => s1 m k j) l (𝓝 (toeplitzCg B o.filterLength (bssAcfSdr o (fftSize N) ref b k)
      (vec o.filterLength (sdrXcorr o (fftSize N) ref est b k j)) it)) := fun k j => by
    refine toeplitzCg_tends hS hB (by omega) ?_ ?_ (hxc k j) (fun m => h2 m k j)
    · rw [bssAcfSdr_eq_sdrAcf F hK (by omega) hLn]
      exact length_sdrAcf F hK (by omega) ref b k
    · intro t ht
      rw [bssAcfSdr_eq_sdrAcf F hK (by omega) hLn, sdrAcf_get F hK (by omega) ref b k t ht]
      have := hpos k k t ht
      rw [bssAcf_get F hK (by omega) ref b k k t ht] at this
      simpa only [and_true] using this
  refine ⟨fun k j => isDot_tendsto hS.nonneg hS.sums (fun m => h2' m k j) (hxc k j) (hsol k j), fun j => ?_⟩
  have hxf : Tendsto (fun m => fun a : Fin o.filterLength × Fin r => xcorr m a.2 j a.1) l
      (𝓝 (xcorrFlat o (fftSize N) o.filterLength ref est b j)) :=
    tendsto_pi_nhds.2 fun a => tendsto_pi_nhds.1 (hxc a.2 j) a.1
  rw [hsa]
  refine isDot_block_tends hS hxf (blockCg_tends hS hB hL (hlen b) hpos hneg hdet' hxf ?_ fun m => h3 m j) (fun m => h3' m j)
  simp only [if_true]
  exact tendsto_pi_nhds.2 fun a => tendsto_pi_nhds.1 (hsol a.2 j) a.1

/-- The iterative solver with `pairwise=False`. -/
theorem cgCoherences_tends_diag {c it : ℕ} {ref est : Sig s c N} (hcg : o.useCgIter = some it) (hL : 2 ≤ o.filterLength) {sd0 sa0}
    (h0 : sqCosDiag B o ref est = .ok (sd0, sa0)) (b : BIdx s) {x y : ι → Fin c → Fin N → ℝ}
    (hx : ∀ k, Tendsto (fun m => x m k) l (𝓝 (prep o ref b k))) (hy : ∀ j, Tendsto (fun m => y m j) l (𝓝 (prep o est b j)))
    {sd : ι → Fin c → Fin c → ℝ} {sa : ι → Fin c → ℝ}
    (h : ∀ m, IsCgCoherences (E m) (A m) (ω m) o.filterLength false o.loadDiag it (x m) (y m) (sd m) (sa m)) :
    (∀ k, Tendsto (fun m => sd m k k) l (𝓝 (sd0 b k))) ∧ ∀ j, Tendsto (fun m => sa m j) l (𝓝 (sa0 b j)) := by
  cases hn : nFft N with
  | error err =>
    rw [sqCosDiag_gen B hL] at h0
    unfold sqCosDiagGen at h0
    rw [hn] at h0
    cases h0
  | ok n =>
  obtain rfl : n = fftSize N := by rw [(nFft_ok hn).2, fftSize, two_mul]
  have hLn : o.filterLength ≤ fftSize N := by
    by_contra hlt
    have F := fam_of_nFft (o := o) hn
    have hn0 := F.n_ne
    rw [sqCosDiag_gen B hL] at h0
    unfold sqCosDiagGen at h0
    rw [hn] at h0
    simp only at h0
    rw [if_pos (by rw [min_eq_right (by omega : fftSize N ≤ o.filterLength)]; omega)] at h0
    cases h0
  have hK : min o.filterLength (fftSize N) = o.filterLength := min_eq_left hLn
  have F := fam_of_nFft (o := o) hn
  rw [hK] at F
  choose acf xcorr s1 s2 h1 h2 h2' h3 h3' using h
  obtain ⟨hpos, hneg, hxc⟩ := stats2_tends (E := E) hS hn hL hLn b hx hy h1
  have hlen := length_bssAcf F hK (by omega) ref
  rw [sqCosDiag_unfold hn hK hL hLn, hcg] at h0
  simp only at h0
  split at h0
  · cases h0
  rename_i hsar
  cases h0
  obtain ⟨hdet', hsa⟩ := cohSar_ok_cg hS hcg hsar b
  refine ⟨fun k => isDot_tendsto hS.nonneg hS.sums (fun m => h2' m k k) (hxc k k)
    (toeplitzCg_tends hS hB (by omega) ?_ ?_ (hxc k k) (fun m => h2 m k k)), fun j => ?_⟩
  · rw [bssAcfSdr_eq_sdrAcf F hK (by omega) hLn]
    exact length_sdrAcf F hK (by omega) ref b k
  · intro t ht
    rw [bssAcfSdr_eq_sdrAcf F hK (by omega) hLn, sdrAcf_get F hK (by omega) ref b k t ht]
    have := hpos k k t ht
    rw [bssAcf_get F hK (by omega) ref b k k t ht] at this
    simpa only [and_true] using this
  have hxf : Tendsto (fun m => fun a : Fin o.filterLength × Fin c => xcorr m a.2 j a.1) l
      (𝓝 (xcorrFlat o (fftSize N) o.filterLength ref est b j)) :=
    tendsto_pi_nhds.2 fun a => tendsto_pi_nhds.1 (hxc a.2 j) a.1
  rw [hsa]
  refine isDot_block_tends hS hxf (blockCg_tends hS hB hL (hlen b) hpos hneg hdet' hxf ?_ fun m => h3 m j) (fun m => h3' m j)
  simp only [Bool.false_eq_true, if_false]
  exact tendsto_const_nhds

omit hB in
/-- Filters of one tap. -/
theorem oneTapCoherences_tends (hload : o.loadDiag = none) {sa0} (h0 : cohSarOne o ref est = .ok sa0) (b : BIdx s)
    {x : ι → Fin r → Fin N → ℝ} {y : ι → Fin e → Fin N → ℝ} (hx : ∀ k, Tendsto (fun m => x m k) l (𝓝 (prep o ref b k)))
    (hy : ∀ j, Tendsto (fun m => y m j) l (𝓝 (prep o est b j))) {sd : ι → Fin r → Fin e → ℝ} {sa : ι → Fin e → ℝ}
    (h : ∀ m, IsOneTapCoherences (E m) (A m) (x m) (y m) (sd m) (sa m)) :
    (∀ k j, Tendsto (fun m => sd m k j) l (𝓝 (cohSdrOnePair o ref est b k j))) ∧ ∀ j, Tendsto (fun m => sa m j) l (𝓝 (sa0 b j)) := by
  choose h1 acm xcorr h2 h3 s1 h4 h5 using h
  refine ⟨fun k j => oneTap_tends hS (hx k) (hy j) fun m => h1 m k j, fun j => ?_⟩
  unfold cohSarOne at h0
  simp only [hload, solveStack] at h0
  split at h0
  · cases h0
  rename_i hsol
  split at hsol
  · cases hsol
  rename_i hdet
  push Not at hdet
  cases hsol
  cases h0
  have hxc : Tendsto (fun m => fun k => xcorr m k j) l (𝓝 fun k => dot (prep o ref b k) (prep o est b j)) :=
    tendsto_pi_nhds.2 fun k => isDot_tendsto hS.nonneg hS.sums (fun m => h3 m k j) (hx k) (hy j)
  have hacm : Tendsto acm l (𝓝 fun k k' => dot (prep o ref b k) (prep o ref b k')) :=
    tendsto_pi_nhds.2 fun k => tendsto_pi_nhds.2 fun k' => isDot_tendsto hS.nonneg hS.sums (fun m => h2 m k k') (hx k) (hx k')
  exact isDot_tendsto hS.nonneg hS.sums (fun m => h5 m j) hxc (solve_tends hS (fun m => h4 m j) hacm hxc (hdet b))

/-- The coherences of `bss_eval_sources`, direct solver. -/
theorem coherences_tends (hcg : o.useCgIter = none) {sd0 sa0} (h0 : sqCosPair B o ref est = .ok (sd0, sa0)) (b : BIdx s)
    {sd : ι → Fin r → Fin e → ℝ} {sa : ι → Fin e → ℝ}
    (h : ∀ m, IsCoherences (E m) (A m) o.filterLength o.zeroMean o.loadDiag (ref b) (est b) (sd m) (sa m)) :
    (∀ k j, Tendsto (fun m => sd m k j) l (𝓝 (sd0 b k j))) ∧ ∀ j, Tendsto (fun m => sa m j) l (𝓝 (sa0 b j)) := by
  choose xc yc x y h1 h2 h3 h4 h5 using h
  have hx := fun k => preprocess_tends hS (fun m => h1 m k) fun m => h3 m k
  have hy := fun j => preprocess_tends hS (fun m => h2 m j) fun m => h4 m j
  have hL0 : o.filterLength ≠ 0 := fun h => by
    rw [sqCosPair_def, if_pos h] at h0
    cases h0
  by_cases hL : o.filterLength = 1
  · simp only [if_pos hL] at h5
    rw [sqCosPair_def, if_neg (by omega), if_pos hL] at h0
    split at h0
    · cases h0
    rename_i hsar
    cases h0
    rcases isEmpty_or_nonempty ι with hι | ⟨⟨m⟩⟩
    · simp [Subsingleton.elim l ⊥]
    exact oneTapCoherences_tends hS (h5 m).1 hsar b hx hy fun m => (h5 m).2
  · simp only [if_neg hL] at h5
    exact firCoherences_tends hS hB hcg (by omega) h0 b hx hy h5

/-- The coherences of `bss_eval_sources`, iterative solver with `pairwise=True`. -/
theorem coherencesCg_tends {it : ℕ} (hcg : o.useCgIter = some it) {sd0 sa0} (h0 : sqCosPair B o ref est = .ok (sd0, sa0)) (b : BIdx s)
    {sd : ι → Fin r → Fin e → ℝ} {sa : ι → Fin e → ℝ}
    (h : ∀ m, IsCoherencesCg (E m) (A m) (ω m) o.filterLength true o.zeroMean o.loadDiag it (ref b) (est b) (sd m) (sa m)) :
    (∀ k j, Tendsto (fun m => sd m k j) l (𝓝 (sd0 b k j))) ∧ ∀ j, Tendsto (fun m => sa m j) l (𝓝 (sa0 b j)) := by
  choose xc yc x y h1 h2 h3 h4 h5 using h
  have hx := fun k => preprocess_tends hS (fun m => h1 m k) fun m => h3 m k
  have hy := fun j => preprocess_tends hS (fun m => h2 m j) fun m => h4 m j
  have hL0 : o.filterLength ≠ 0 := fun h => by
    rw [sqCosPair_def, if_pos h] at h0
    cases h0
  by_cases hL : o.filterLength = 1
  · simp only [if_pos hL] at h5
    rw [sqCosPair_def, if_neg (by omega), if_pos hL] at h0
    split at h0
    · cases h0
    rename_i hsar
    cases h0
    rcases isEmpty_or_nonempty ι with hι | ⟨⟨m⟩⟩
    · simp [Subsingleton.elim l ⊥]
    exact oneTapCoherences_tends hS (h5 m).1 hsar b hx hy fun m => (h5 m).2
  · simp only [if_neg hL] at h5
    exact cgCoherences_tends hS hB hcg (by omega) h0 b hx hy h5

/-- The coherences of `bss_eval_sources`, iterative solver with `pairwise=False`. -/
theorem coherencesCg_tends_diag {c it : ℕ} {ref est : Sig s c N} (hcg : o.useCgIter = some it) {sd0 sa0}
    (h0 : sqCosDiag B o ref est = .ok (sd0, sa0)) (b : BIdx s) {sd : ι → Fin c → Fin c → ℝ} {sa : ι → Fin c → ℝ}
    (h : ∀ m, IsCoherencesCg (E m) (A m) (ω m) o.filterLength false o.zeroMean o.loadDiag it (ref b) (est b) (sd m) (sa m)) :
    (∀ k, Tendsto (fun m => sd m k k) l (𝓝 (sd0 b k))) ∧ ∀ j, Tendsto (fun m => sa m j) l (𝓝 (sa0 b j)) := by
  choose xc yc x y h1 h2 h3 h4 h5 using h
  have hx := fun k => preprocess_tends hS (fun m => h1 m k) fun m => h3 m k
  have hy := fun j => preprocess_tends hS (fun m => h2 m j) fun m => h4 m j
  have hL0 : o.filterLength ≠ 0 := fun h => by
    rw [sqCosDiag_def, if_pos h] at h0
    cases h0
  by_cases hL : o.filterLength = 1
  · simp only [if_pos hL] at h5
    rw [sqCosDiag_def, if_neg (by omega), if_pos hL] at h0
    split at h0
    · cases h0
    rename_i hsar
    cases h0
    rcases isEmpty_or_nonempty ι with hι | ⟨⟨m⟩⟩
    · simp [Subsingleton.elim l ⊥]
    obtain ⟨k1, k2⟩ := oneTapCoherences_tends hS (h5 m).1 hsar b hx hy fun m => (h5 m).2
    exact ⟨fun k => k1 k k, k2⟩
  · simp only [if_neg hL] at h5
    exact cgCoherences_tends_diag hS hB hcg (by omega) h0 b hx hy h5

end bss

end FBE.Rounded
