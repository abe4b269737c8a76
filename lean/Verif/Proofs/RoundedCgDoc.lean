import Verif.Proofs.RoundedFine
import Verif.Proofs.RoundedBssDoc

/-!
# The iterative solver: the computed coherences against the documented quantities
-/

namespace FBE.Rounded

open Spec Filter Topology XR

variable {N K r e c : ℕ} {x : Fin r → Fin N → ℝ} {y : Fin e → Fin N → ℝ} {zm : Bool} {load : Option ℝ} {l : ℝ}

/-- The options for which the exact value is computed. -/
def docOpts (K : ℕ) (zm : Bool) (load : Option ℝ) (it : Option ℕ) : Opts :=
  { filterLength := K, useCgIter := it, zeroMean := zm, clampDb := none, loadDiag := load }

theorem length_pos {z : Fin N → ℝ} (h : 1e-6 ≤ sigNorm (centred zm z)) : 0 < N := by
  rcases Nat.eq_zero_or_pos N with h0 | h0
  · subst h0
    simp [sigNorm] at h
    norm_num at h
  · exact h0

theorem abs_close {a b q δ : ℝ} (h1 : |a - b| ≤ δ / 2) (h2 : |b - q| ≤ δ / 2) : |a - q| ≤ δ :=
  (abs_sub_le a b q).trans (by linarith)

/-- The coherences of `sdr_loss`. -/
theorem sdrCg_doc (hK : 2 ≤ K) (hfit : FilterFits N K) (hload : 0 ≤ load.getD 0)
    (hx : ∀ i, 1e-6 ≤ sigNorm (centred zm (x i))) (hy : ∀ j, 1e-6 ≤ sigNorm (centred zm (y j))) (hl : 0 < l)
    (hco : ∀ i, Conditioned K (load.getD 0) l (centred zm (x i))) {δ : ℝ} (hδ : 0 < δ) :
    ∃ it₀, ∀ it ≥ it₀, ∃ η > 0, ∀ (p : ℕ) (E : Machine p) (A : Accuracy) (ω : ℝ), Fine η p A ω → ∀ i j coh,
      IsSdrCoherenceCg E A ω K zm load it (x i) (y j) coh → ∃ q, |coh - q| ≤ δ ∧ 0 ≤ q ∧ q ≤ 1 ∧
        leastResidual K (load.getD 0) (centred zm (x i)) (centred zm (y j)) = 1 - q := by
  rcases Nat.eq_zero_or_pos N with hN | hN
  · refine ⟨0, fun it _ => ⟨1, one_pos, fun p E A ω _ i => ?_⟩⟩
    exact absurd (length_pos (hx i)) (by omega)
  let ref : Sig [] r N := fun _ => x
  let est : Sig [] e N := fun _ => y
  have hB : Covered torchBackend := Or.inl rfl
  obtain ⟨coh0, h0, hq⟩ := sdrCoh_doc hB (o := docOpts K zm load none) rfl hK hN hfit (ref := ref) (est := est) (fun _ => hx)
    (fun _ => hy) hl fun _ => hco
  obtain ⟨coh', h1, h2⟩ := sdrCohPair_tendsto (o := docOpts K zm load none) hB hload h0
  have hev : ∀ᶠ it in atTop, ∀ i j, |coh' it () i j - coh0 () i j| ≤ δ / 2 := by
    rw [eventually_all]
    intro i
    rw [eventually_all]
    intro j
    filter_upwards [(Metric.tendsto_nhds.1 (h2 () i j)) (δ / 2) (by positivity)] with it hit
    rw [← Real.dist_eq]
    exact hit.le
  obtain ⟨it₀, hit₀⟩ := eventually_atTop.1 hev
  refine ⟨it₀, fun it hit => ?_⟩
  have hLn : K ≤ fftSize N := by
    unfold FilterFits at hfit
    unfold fftSize
    omega
  obtain ⟨η, hη, H⟩ := uniform_eta (Y := Fin r × Fin e)
    (P := fun t η => ∀ (p : ℕ) (E : Machine p) (A : Accuracy) (ω : ℝ), Fine η p A ω → ∀ coh,
      IsSdrCoherenceCg E A ω K zm load it (x t.1) (y t.2) coh → |coh - coh' it () t.1 t.2| ≤ δ / 2)
    (fun t η η' hle hP p E A ω hF => hP p E A ω (hF.mono hle)) (fun ⟨i, j⟩ => by
      obtain ⟨η, hη, H⟩ := fine_of_tends (X := ℝ) (g := fun a => a) (c := coh' it () i j)
        (R := fun E A ω a => IsSdrCoherenceCg E A ω K zm load it (x i) (y j) a)
        (fun hS ha => sdrCoherenceCg_tends (o := docOpts K zm load (some it)) hS hB rfl hLn (h1 it) () i j ha)
        (show 0 < δ / 2 by positivity)
      exact ⟨η, hη, H⟩)
  refine ⟨η, hη, fun p E A ω hF i j coh hcoh => ⟨coh0 () i j, abs_close (H (i, j) p E A ω hF coh hcoh) (hit₀ it hit i j), ?_⟩⟩
  have hK1 : 1 ≤ K := by omega
  have hSy : 0 < sigNorm (centred zm (y j)) := lt_of_lt_of_le (by norm_num) (hy j)
  rw [show coh0 () i j = _ from hq () i j]
  obtain ⟨m1, m2⟩ := quad_mem (y := centred zm (y j)) hload hl hK1 (hco i) hSy
  exact ⟨m1, m2, (quad_least hload hl hK1 (hco i) hSy).csInf_eq⟩

/-- The coherences of `bss_eval_sources` for pairs. -/
theorem bssCg_doc (hK : 2 ≤ K) (hfit : FilterFits N K) (hload : 0 ≤ load.getD 0)
    (hx : ∀ i, 1e-6 ≤ sigNorm (centred zm (x i))) (hy : ∀ j, 1e-6 ≤ sigNorm (centred zm (y j))) (hl : 0 < l)
    (hco : ConditionedAll K (load.getD 0) l fun i => centred zm (x i)) {δ : ℝ} (hδ : 0 < δ) :
    ∃ it₀, ∀ it ≥ it₀, ∃ η > 0, ∀ (p : ℕ) (E : Machine p) (A : Accuracy) (ω : ℝ), Fine η p A ω → ∀ sd sa,
      IsCoherencesCg E A ω K true zm load it x y sd sa → ∀ i j, ∃ q s, |sd i j - q| ≤ δ ∧ |sa j - s| ≤ δ ∧ 0 ≤ q ∧ q ≤ s ∧ s ≤ 1 ∧
        leastResidual K (load.getD 0) (centred zm (x i)) (centred zm (y j)) = 1 - q ∧
        leastResidualAll K (load.getD 0) (fun i => centred zm (x i)) (centred zm (y j)) = 1 - s := by
  rcases Nat.eq_zero_or_pos N with hN | hN
  · refine ⟨0, fun it _ => ⟨1, one_pos, fun p E A ω _ sd sa _ i => ?_⟩⟩
    exact absurd (length_pos (hx i)) (by omega)
  let ref : Sig [] r N := fun _ => x
  let est : Sig [] e N := fun _ => y
  have hB : Covered torchBackend := Or.inl rfl
  obtain ⟨sd0, sa0, h0, hq, hs⟩ := bssCoh_doc hB (o := docOpts K zm load none) rfl hK hN hfit (ref := ref) (est := est) (fun _ => hx)
    (fun _ => hy) hl fun _ => hco
  obtain ⟨sd', sa', h1, h2, h3⟩ := sqCosPair_tendsto (o := docOpts K zm load none) hB hload h0
  have hev : ∀ᶠ it in atTop, ∀ i j, |sd' it () i j - sd0 () i j| ≤ δ / 2 ∧ |sa' it () j - sa0 () j| ≤ δ / 2 := by
    rw [eventually_all]
    intro i
    rw [eventually_all]
    intro j
    filter_upwards [(Metric.tendsto_nhds.1 (h2 () i j)) (δ / 2) (by positivity),
      (Metric.tendsto_nhds.1 (h3 () j)) (δ / 2) (by positivity)] with it hit hit'
    rw [← Real.dist_eq, ← Real.dist_eq]
    exact ⟨hit.le, hit'.le⟩
  obtain ⟨it₀, hit₀⟩ := eventually_atTop.1 hev
  refine ⟨it₀, fun it hit => ?_⟩
  obtain ⟨η, hη, H⟩ := fine_of_tends (X := (Fin r → Fin e → ℝ) × (Fin e → ℝ)) (g := fun a => a) (c := (sd' it (), sa' it ()))
    (R := fun E A ω a => IsCoherencesCg E A ω K true zm load it x y a.1 a.2)
    (fun hS ha => by
      obtain ⟨t1, t2⟩ := coherencesCg_tends (o := docOpts K zm load (some it)) hS hB rfl (h1 it) () ha
      exact (tendsto_pi_nhds.2 fun i => tendsto_pi_nhds.2 fun j => t1 i j).prodMk_nhds (tendsto_pi_nhds.2 t2))
    (show 0 < δ / 2 by positivity)
  refine ⟨η, hη, fun p E A ω hF sd sa hcoh i j => ⟨sd0 () i j, sa0 () j, ?_⟩⟩
  have hd := H p E A ω hF (sd, sa) hcoh
  rw [Prod.dist_eq, max_le_iff] at hd
  have d1 : |sd i j - sd' it () i j| ≤ δ / 2 := by
    rw [← Real.dist_eq]
    exact ((dist_le_pi_dist (sd i) (sd' it () i) j).trans (dist_le_pi_dist sd (sd' it ()) i)).trans hd.1
  have d2 : |sa j - sa' it () j| ≤ δ / 2 := by
    rw [← Real.dist_eq]
    exact (dist_le_pi_dist sa (sa' it ()) j).trans hd.2
  have hK1 : 1 ≤ K := by omega
  have hSy : 0 < sigNorm (centred zm (y j)) := lt_of_lt_of_le (by norm_num) (hy j)
  have hc1 := conditionedAll_one hco i
  refine ⟨abs_close d1 (hit₀ it hit i j).1, abs_close d2 (hit₀ it hit i j).2, ?_⟩
  rw [show sd0 () i j = _ from hq () i j, show sa0 () j = _ from hs () j]
  exact ⟨(quad_mem (y := centred zm (y j)) hload hl hK1 hc1 hSy).1, quad_le_all hload hl hK1 hco hSy i,
    quad_all_le hload hl hK1 hco hSy, (quad_least hload hl hK1 hc1 hSy).csInf_eq,
    (quad_least_all hload hl hK1 hco hSy).csInf_eq⟩

/-- The coherences of `bss_eval_sources` for estimates in the order of the references. -/
theorem bssCg_doc_diag {x y : Fin c → Fin N → ℝ} (hK : 2 ≤ K) (hfit : FilterFits N K) (hload : 0 ≤ load.getD 0)
    (hx : ∀ i, 1e-6 ≤ sigNorm (centred zm (x i))) (hy : ∀ j, 1e-6 ≤ sigNorm (centred zm (y j))) (hl : 0 < l)
    (hco : ConditionedAll K (load.getD 0) l fun i => centred zm (x i)) {δ : ℝ} (hδ : 0 < δ) :
    ∃ it₀, ∀ it ≥ it₀, ∃ η > 0, ∀ (p : ℕ) (E : Machine p) (A : Accuracy) (ω : ℝ), Fine η p A ω → ∀ sd sa,
      IsCoherencesCg E A ω K false zm load it x y sd sa → ∀ j, ∃ q s, |sd j j - q| ≤ δ ∧ |sa j - s| ≤ δ ∧ 0 ≤ q ∧ q ≤ s ∧ s ≤ 1 ∧
        leastResidual K (load.getD 0) (centred zm (x j)) (centred zm (y j)) = 1 - q ∧
        leastResidualAll K (load.getD 0) (fun i => centred zm (x i)) (centred zm (y j)) = 1 - s := by
  rcases Nat.eq_zero_or_pos N with hN | hN
  · refine ⟨0, fun it _ => ⟨1, one_pos, fun p E A ω _ sd sa _ i => ?_⟩⟩
    exact absurd (length_pos (hx i)) (by omega)
  let ref : Sig [] c N := fun _ => x
  let est : Sig [] c N := fun _ => y
  have hB : Covered torchBackend := Or.inl rfl
  obtain ⟨sd0, sa0, h0, hq, hs⟩ := bssCoh_doc hB (o := docOpts K zm load none) rfl hK hN hfit (ref := ref) (est := est) (fun _ => hx)
    (fun _ => hy) hl fun _ => hco
  have h0' := sqCosDiag_of_pair torchBackend (docOpts K zm load none) (Or.inr ⟨rfl, rfl⟩) h0
  obtain ⟨sd', sa', h1, h2, h3⟩ := sqCosDiag_tendsto (o := docOpts K zm load none) hB hload rfl h0'
  have hev : ∀ᶠ it in atTop, ∀ j, |sd' it () j - sd0 () j j| ≤ δ / 2 ∧ |sa' it () j - sa0 () j| ≤ δ / 2 := by
    rw [eventually_all]
    intro j
    filter_upwards [(Metric.tendsto_nhds.1 (h2 () j)) (δ / 2) (by positivity),
      (Metric.tendsto_nhds.1 (h3 () j)) (δ / 2) (by positivity)] with it hit hit'
    rw [← Real.dist_eq, ← Real.dist_eq]
    exact ⟨hit.le, hit'.le⟩
  obtain ⟨it₀, hit₀⟩ := eventually_atTop.1 hev
  refine ⟨it₀, fun it hit => ?_⟩
  obtain ⟨η, hη, H⟩ := fine_of_tends (X := (Fin c → Fin c → ℝ) × (Fin c → ℝ)) (g := fun a => (fun j => a.1 j j, a.2))
    (c := (sd' it (), sa' it ())) (R := fun E A ω a => IsCoherencesCg E A ω K false zm load it x y a.1 a.2)
    (fun hS ha => by
      obtain ⟨t1, t2⟩ := coherencesCg_tends_diag (o := docOpts K zm load (some it)) hS hB rfl (h1 it) () ha
      exact (tendsto_pi_nhds.2 fun i => t1 i).prodMk_nhds (tendsto_pi_nhds.2 t2))
    (show 0 < δ / 2 by positivity)
  refine ⟨η, hη, fun p E A ω hF sd sa hcoh j => ⟨sd0 () j j, sa0 () j, ?_⟩⟩
  have hd := H p E A ω hF (sd, sa) hcoh
  rw [Prod.dist_eq, max_le_iff] at hd
  have d1 : |sd j j - sd' it () j| ≤ δ / 2 := by
    rw [← Real.dist_eq]
    exact (dist_le_pi_dist (fun j => sd j j) (sd' it ()) j).trans hd.1
  have d2 : |sa j - sa' it () j| ≤ δ / 2 := by
    rw [← Real.dist_eq]
    exact (dist_le_pi_dist sa (sa' it ()) j).trans hd.2
  have hK1 : 1 ≤ K := by omega
  have hSy : 0 < sigNorm (centred zm (y j)) := lt_of_lt_of_le (by norm_num) (hy j)
  have hc1 := conditionedAll_one hco j
  refine ⟨abs_close d1 (hit₀ it hit j).1, abs_close d2 (hit₀ it hit j).2, ?_⟩
  rw [show sd0 () j j = _ from hq () j j, show sa0 () j = _ from hs () j]
  exact ⟨(quad_mem (y := centred zm (y j)) hload hl hK1 hc1 hSy).1, quad_le_all hload hl hK1 hco hSy j,
    quad_all_le hload hl hK1 hco hSy, (quad_least hload hl hK1 hc1 hSy).csInf_eq,
    (quad_least_all hload hl hK1 hco hSy).csInf_eq⟩

end FBE.Rounded
