import Verif.Proofs.PermLimit
import Verif.Proofs.Diag
import Verif.Proofs.CgLimit
import Mathlib.Analysis.Calculus.ContDiff.Operations
import Mathlib.Analysis.SpecialFunctions.Sqrt
import Mathlib.Analysis.SpecialFunctions.Log.Deriv

/-!
# The coherences as functions of the signals
-/

set_option linter.unusedSectionVars false

namespace FBE

open Spec Matrix XR Filter Topology

section quad

variable {X : Type*} [NormedAddCommGroup X] [NormedSpace ℝ X] {x0 : X} {ν : WithTop ℕ∞} {J : Type} [Fintype J] [DecidableEq J]

theorem contDiffAt_det {A : X → Matrix J J ℝ} (h : ∀ i j, ContDiffAt ℝ ν (fun x => A x i j) x0) :
    ContDiffAt ℝ ν (fun x => (A x).det) x0 := by
  simp only [det_apply]
  refine ContDiffAt.sum fun σ _ => ?_
  refine ContDiffAt.const_smul _ ?_
  exact contDiffAt_prod fun i _ => h _ _

theorem contDiffAt_inv {A : X → Matrix J J ℝ} (h : ∀ i j, ContDiffAt ℝ ν (fun x => A x i j) x0) (hd : (A x0).det ≠ 0) (i j) :
    ContDiffAt ℝ ν (fun x => (A x)⁻¹ i j) x0 := by
  simp only [Matrix.inv_def, Matrix.smul_apply, Ring.inverse_eq_inv', adjugate_apply, smul_eq_mul]
  refine ((contDiffAt_det h).inv hd).mul (contDiffAt_det fun k l => ?_)
  simp only [updateRow_apply]
  split
  · exact contDiffAt_const
  · exact h _ _

variable {D : ℕ} {v : X → J → Space D} {y : X → Space D} {d : ℝ}

theorem contDiffAt_gramD (hv : ∀ i, ContDiffAt ℝ ν (fun x => v x i) x0) (i j) :
    ContDiffAt ℝ ν (fun x => gramD (v x) d i j) x0 := by
  show ContDiffAt ℝ ν (fun x => inner ℝ (v x i) (v x j) + d * (1 : Matrix J J ℝ) i j) x0
  exact ((hv i).inner ℝ (hv j)).add contDiffAt_const

theorem contDiffAt_quad (hv : ∀ i, ContDiffAt ℝ ν (fun x => v x i) x0) (hy : ContDiffAt ℝ ν y x0)
    (hd : (gramD (v x0) d).det ≠ 0) : ContDiffAt ℝ ν (fun x => quad (v x) d (y x)) x0 := by
  unfold quad coeffs dotProduct mulVec dotProduct
  refine ContDiffAt.sum fun i _ => ((hv i).inner ℝ hy).mul (ContDiffAt.sum fun j _ => ?_)
  exact (contDiffAt_inv (contDiffAt_gramD hv) hd i j).mul ((hv j).inner ℝ hy)

theorem eventually_gramD (hv : ∀ i, ContDiffAt ℝ ν (fun x => v x i) x0) (hd : (gramD (v x0) d).det ≠ 0) :
    ∀ᶠ x in 𝓝 x0, (gramD (v x) d).det ≠ 0 :=
  (contDiffAt_det (contDiffAt_gramD hv)).continuousAt.eventually_ne hd

end quad

variable {s : List ℕ} {r e c N n : ℕ} {B : Backend} {o : Opts} {ν : WithTop ℕ∞}

theorem contDiff_zpad (u : ℕ) : ContDiff ℝ ν fun x : Fin N → ℝ => zpad x u := by
  unfold zpad
  split
  · exact contDiff_apply _ _ _
  · exact contDiff_const

theorem contDiff_cshift (l : ℕ) : ContDiff ℝ ν fun x : Fin N → ℝ => cshift n x l := by
  rw [contDiff_euclidean]
  exact fun t => contDiff_zpad _

theorem contDiff_shift (D l : ℕ) : ContDiff ℝ ν fun x : Fin N → ℝ => shift D x l := by
  rw [contDiff_euclidean]
  intro t
  show ContDiff ℝ ν fun x : Fin N → ℝ => if l ≤ t.val then zpad x (t.val - l) else 0
  split
  · exact contDiff_zpad _
  · exact contDiff_const

theorem contDiff_centred (zm : Bool) : ContDiff ℝ ν (centred zm : (Fin N → ℝ) → Fin N → ℝ) := by
  rw [contDiff_pi]
  intro t
  unfold centred
  cases zm
  · exact contDiff_apply _ _ _
  · simp only [if_true]
    exact (contDiff_apply _ _ _).sub ((ContDiff.sum fun u _ => contDiff_apply _ _ _).div_const _)

theorem continuous_sigNorm : Continuous (sigNorm : (Fin N → ℝ) → ℝ) := by
  unfold sigNorm
  fun_prop

theorem contDiffAt_sigNorm {x : Fin N → ℝ} (hx : sigNorm x ≠ 0) : ContDiffAt ℝ ν sigNorm x := by
  unfold sigNorm at hx ⊢
  refine ContDiffAt.sqrt ?_ fun h => hx (by rw [h, Real.sqrt_zero])
  exact ContDiffAt.sum fun t _ => (contDiff_apply ℝ ℝ t).contDiffAt.pow 2

/-- Preprocessing is continuous. -/
theorem continuous_prep : Continuous (prep o : Sig s c N → Sig s c N) := by
  refine continuous_pi fun m => continuous_pi fun k => continuous_pi fun t => ?_
  simp only [prep_eq]
  have h1 : Continuous fun x : Sig s c N => centred o.zeroMean (x m k) :=
    (contDiff_centred (ν := 0) o.zeroMean).continuous.comp (by fun_prop)
  refine Continuous.mul (Continuous.inv₀ ((continuous_sigNorm.comp h1).max continuous_const) fun x => ?_)
    ((continuous_apply t).comp h1)
  exact (lt_max_of_lt_right (by norm_num)).ne'

/-- ... and smooth, except where the norm of a signal is the threshold of the normalisation. -/
theorem contDiffAt_prep {x : Sig s c N} (hx : ∀ m k, sigNorm (centred o.zeroMean (x m k)) ≠ 1e-6) :
    ContDiffAt ℝ ν (prep o) x := by
  refine contDiffAt_pi.2 fun m => contDiffAt_pi.2 fun k => contDiffAt_pi.2 fun t => ?_
  simp only [prep_eq]
  have h0 : ContDiffAt ℝ ν (fun x : Sig s c N => x m k) x :=
    ((contDiff_apply ℝ _ k).comp (contDiff_apply ℝ _ m)).contDiffAt
  have h1 : ContDiffAt ℝ ν (fun x : Sig s c N => centred o.zeroMean (x m k)) x :=
    (contDiff_centred o.zeroMean).contDiffAt.comp x h0
  have h2 : ContDiffAt ℝ ν (fun x : Sig s c N => centred o.zeroMean (x m k) t) x :=
    (contDiff_apply ℝ ℝ t).contDiffAt.comp x h1
  refine ContDiffAt.mul ?_ h2
  have hc : ContinuousAt (fun x : Sig s c N => sigNorm (centred o.zeroMean (x m k))) x :=
    continuous_sigNorm.continuousAt.comp ((contDiff_centred (ν := 0) o.zeroMean).continuous.comp
      ((continuous_apply k).comp (continuous_apply m))).continuousAt
  rcases lt_or_gt_of_ne (hx m k) with h | h
  · refine (contDiffAt_const (c := (1e-6 : ℝ)⁻¹)).congr_of_eventuallyEq ?_
    filter_upwards [hc.eventually_lt continuousAt_const h] with x hx
    unfold gain
    rw [max_eq_right hx.le]
  · have h3 : ContDiffAt ℝ ν (fun x : Sig s c N => (sigNorm (centred o.zeroMean (x m k)))⁻¹) x := by
      have hne : sigNorm (centred o.zeroMean (x m k)) ≠ 0 := fun h0 => by
        rw [h0] at h; norm_num at h
      have h4 : ContDiffAt ℝ ν (fun x : Sig s c N => sigNorm (centred o.zeroMean (x m k))) x :=
        ContDiffAt.comp (g := sigNorm) (f := fun x : Sig s c N => centred o.zeroMean (x m k)) x (contDiffAt_sigNorm hne) h1
      exact h4.inv hne
    refine h3.congr_of_eventuallyEq ?_
    filter_upwards [continuousAt_const.eventually_lt hc h] with x hx
    unfold gain
    rw [max_eq_left hx.le]

/-- The coherences of `sdr_loss` near signals for which the direct solver returns. -/
theorem sdrCohPair_smooth (hB : Covered B) (hdir : o.direct) {ref : Sig s r N} {est : Sig s e N} {coh}
    (h : sdrCohPair B o ref est = .ok coh) (hr : ContDiffAt ℝ ν (prep o) ref) (he : ContDiffAt ℝ ν (prep o) est) :
    ∃ G : Sig s r N × Sig s e N → BIdx s → Fin r → Fin e → ℝ, G (ref, est) = coh ∧
      (∀ᶠ p in 𝓝 (ref, est), sdrCohPair B o p.1 p.2 = .ok (G p)) ∧
      ∀ m k j, ContDiffAt ℝ ν (fun p => G p m k j) (ref, est) := by
  have hr' : ContDiffAt ℝ ν (fun p : Sig s r N × Sig s e N => prep o p.1) (ref, est) :=
    ContDiffAt.comp (g := prep o) (f := Prod.fst) (ref, est) hr contDiffAt_fst
  have he' : ContDiffAt ℝ ν (fun p : Sig s r N × Sig s e N => prep o p.2) (ref, est) :=
    ContDiffAt.comp (g := prep o) (f := Prod.snd) (ref, est) he contDiffAt_snd
  have hr2 : ∀ m k, ContDiffAt ℝ ν (fun p : Sig s r N × Sig s e N => prep o p.1 m k) (ref, est) := fun m k =>
    contDiffAt_pi.1 (contDiffAt_pi.1 hr' m) k
  have he2 : ∀ m k, ContDiffAt ℝ ν (fun p : Sig s r N × Sig s e N => prep o p.2 m k) (ref, est) := fun m k =>
    contDiffAt_pi.1 (contDiffAt_pi.1 he' m) k
  by_cases h0 : o.filterLength = 0
  · simp only [sdrCohPair_def] at h
    rw [if_pos h0] at h
    cases h
  by_cases h1 : o.filterLength = 1
  · refine ⟨fun p => cohSdrOnePair o p.1 p.2, ?_, Eventually.of_forall fun p => ?_, fun m k j => ?_⟩
    · simp only [sdrCohPair_def] at h
      rw [if_neg h0, if_pos h1] at h
      exact Except.ok.inj h
    · simp only [sdrCohPair_def]
      rw [if_neg h0, if_pos h1]
    · unfold cohSdrOnePair dot
      exact (ContDiffAt.sum fun t _ => (contDiffAt_pi.1 (hr2 m k) t).mul (contDiffAt_pi.1 (he2 m j) t)).pow 2
  · have hL : 2 ≤ o.filterLength := by omega
    have hcg := hdir.resolve_left h1
    obtain ⟨n, hn⟩ := nFft_of_coh hL h
    have F := fam_of_nFft (o := o) hn
    have hd := sdrCohPair_direct (o := o) (s := s) (r := r) (e := e) hn rfl hL F hB hcg
    rw [hd] at h
    split at h
    · cases h
    rename_i hns
    push Not at hns
    have hv : ∀ m k i, ContDiffAt ℝ ν (fun p : Sig s r N × Sig s e N =>
        refFam (fun x i => cshift n x i) (min o.filterLength n) (prep o p.1 m k) i) (ref, est) := fun m k i =>
      (contDiff_cshift i.val).contDiffAt.comp (ref, est) (hr2 m k)
    refine ⟨fun p m k j => quad (refFam (fun x i => cshift n x i) (min o.filterLength n) (prep o p.1 m k)) o.load
      (cshift n (prep o p.2 m j) 0), Except.ok.inj h, ?_, fun m k j => ?_⟩
    · have hev : ∀ᶠ p : Sig s r N × Sig s e N in 𝓝 (ref, est), ∀ i : BIdx s × Fin r,
          ¬ SingularOne (fun x i => cshift n x i) (min o.filterLength n) o.load (prep o p.1 i.1 i.2) := by
        rw [eventually_all]
        exact fun i => eventually_gramD (hv i.1 i.2) (hns i)
      filter_upwards [hev] with p hp
      rw [hd, if_neg]
      push Not
      exact hp
    · exact contDiffAt_quad (hv m k) ((contDiff_cshift 0).contDiffAt.comp (ref, est) (he2 m j)) (hns (m, k))

/-- All coherences of `bss_eval_sources` near signals for which the direct solver returns. -/
theorem sqCosPair_smooth (hB : Covered B) (hdir : o.direct) {ref : Sig s r N} {est : Sig s e N} {sd sa}
    (h : sqCosPair B o ref est = .ok (sd, sa)) (hr : ContDiffAt ℝ ν (prep o) ref) (he : ContDiffAt ℝ ν (prep o) est) :
    ∃ (G : Sig s r N × Sig s e N → BIdx s → Fin r → Fin e → ℝ) (H : Sig s r N × Sig s e N → BIdx s → Fin e → ℝ),
      G (ref, est) = sd ∧ H (ref, est) = sa ∧
      (∀ᶠ p in 𝓝 (ref, est), sqCosPair B o p.1 p.2 = .ok (G p, H p)) ∧
      (∀ m k j, ContDiffAt ℝ ν (fun p => G p m k j) (ref, est)) ∧
      ∀ m j, ContDiffAt ℝ ν (fun p => H p m j) (ref, est) := by
  have hr' : ContDiffAt ℝ ν (fun p : Sig s r N × Sig s e N => prep o p.1) (ref, est) :=
    ContDiffAt.comp (g := prep o) (f := Prod.fst) (ref, est) hr contDiffAt_fst
  have he' : ContDiffAt ℝ ν (fun p : Sig s r N × Sig s e N => prep o p.2) (ref, est) :=
    ContDiffAt.comp (g := prep o) (f := Prod.snd) (ref, est) he contDiffAt_snd
  have hr2 : ∀ m k, ContDiffAt ℝ ν (fun p : Sig s r N × Sig s e N => prep o p.1 m k) (ref, est) := fun m k =>
    contDiffAt_pi.1 (contDiffAt_pi.1 hr' m) k
  have he2 : ∀ m k, ContDiffAt ℝ ν (fun p : Sig s r N × Sig s e N => prep o p.2 m k) (ref, est) := fun m k =>
    contDiffAt_pi.1 (contDiffAt_pi.1 he' m) k
  by_cases h0 : o.filterLength = 0
  · simp only [sqCosPair_def] at h
    rw [if_pos h0] at h
    cases h
  by_cases h1 : o.filterLength = 1
  · simp only [sqCosPair_def] at h
    rw [if_neg h0, if_pos h1, cohSarOne_eq N le_rfl] at h
    by_cases hs : ∃ m : BIdx s, (gramD (oneFam N (prep o ref m)) o.load).det = 0
    · rw [if_pos hs] at h
      cases h
    rw [if_neg hs] at h
    cases h
    push Not at hs
    have hv : ∀ m i, ContDiffAt ℝ ν (fun p : Sig s r N × Sig s e N => oneFam N (prep o p.1 m) i) (ref, est) := fun m i =>
      (contDiff_shift N 0).contDiffAt.comp (ref, est) (hr2 m i)
    refine ⟨fun p => cohSdrOnePair o p.1 p.2, fun p m j => quad (oneFam N (prep o p.1 m)) o.load (shift N (prep o p.2 m j) 0),
      rfl, rfl, ?_, fun m k j => ?_, fun m j => ?_⟩
    · have hev : ∀ᶠ p : Sig s r N × Sig s e N in 𝓝 (ref, est), ∀ m : BIdx s,
          (gramD (oneFam N (prep o p.1 m)) o.load).det ≠ 0 := by
        rw [eventually_all]
        exact fun m => eventually_gramD (hv m) (hs m)
      filter_upwards [hev] with p hp
      simp only [sqCosPair_def]
      rw [if_neg h0, if_pos h1, cohSarOne_eq N le_rfl, if_neg (by push Not; exact hp)]
    · unfold cohSdrOnePair dot
      exact (ContDiffAt.sum fun t _ => (contDiffAt_pi.1 (hr2 m k) t).mul (contDiffAt_pi.1 (he2 m j) t)).pow 2
    · exact contDiffAt_quad (hv m) ((contDiff_shift N 0).contDiffAt.comp (ref, est) (he2 m j)) (hs m)
  · have hL : 2 ≤ o.filterLength := by omega
    have hcg := hdir.resolve_left h1
    obtain ⟨n, hn⟩ := nFft_of_coh hL (sqCosPair_sdr _ _ h)
    have F := fam_of_nFft (o := o) hn
    by_cases hLn : o.filterLength ≤ n
    swap
    · rw [sqCosPair_too_long (by omega) hn (by omega)] at h
      cases h
    have hd := sqCosPair_direct (o := o) (s := s) (r := r) (e := e) hn rfl hL F hLn hB hcg
    rw [hd] at h
    split at h
    · cases h
    rename_i hns
    push Not at hns
    have hv : ∀ m k i, ContDiffAt ℝ ν (fun p : Sig s r N × Sig s e N =>
        refFam (fun x i => cshift n x i) (min o.filterLength n) (prep o p.1 m k) i) (ref, est) := fun m k i =>
      (contDiff_cshift i.val).contDiffAt.comp (ref, est) (hr2 m k)
    have hw : ∀ m i, ContDiffAt ℝ ν (fun p : Sig s r N × Sig s e N =>
        allFam (fun x i => cshift n x i) (min o.filterLength n) (prep o p.1 m) i) (ref, est) := fun m i =>
      (contDiff_cshift i.1.val).contDiffAt.comp (ref, est) (hr2 m i.2)
    have h2 := Prod.mk.inj (Except.ok.inj h)
    refine ⟨fun p m k j => quad (refFam (fun x i => cshift n x i) (min o.filterLength n) (prep o p.1 m k)) o.load
      (cshift n (prep o p.2 m j) 0), fun p m j => quad (allFam (fun x i => cshift n x i) (min o.filterLength n)
        (prep o p.1 m)) o.load (cshift n (prep o p.2 m j) 0), h2.1, h2.2, ?_, fun m k j => ?_, fun m j => ?_⟩
    · have hev : ∀ᶠ p : Sig s r N × Sig s e N in 𝓝 (ref, est), ∀ i : BIdx s × Fin r,
          ¬ SingularOne (fun x i => cshift n x i) (min o.filterLength n) o.load (prep o p.1 i.1 i.2) := by
        rw [eventually_all]
        exact fun i => eventually_gramD (hv i.1 i.2) (hns.1 i)
      have hev2 : ∀ᶠ p : Sig s r N × Sig s e N in 𝓝 (ref, est), ∀ m : BIdx s,
          ¬ SingularAll (fun x i => cshift n x i) (min o.filterLength n) o.load (prep o p.1 m) := by
        rw [eventually_all]
        exact fun m => eventually_gramD (hw m) (hns.2 m)
      filter_upwards [hev, hev2] with p hp hp2
      rw [hd, if_neg]
      push Not
      exact ⟨hp, hp2⟩
    · exact contDiffAt_quad (hv m k) ((contDiff_cshift 0).contDiffAt.comp (ref, est) (he2 m j)) (hns.1 (m, k))
    · exact contDiffAt_quad (hw m) ((contDiff_cshift 0).contDiffAt.comp (ref, est) (he2 m j)) (hns.2 m)

end FBE
