import Verif.Proofs.Ratio

/-!
# When the direct solver succeeds
-/

set_option linter.unusedSectionVars false

namespace FBE

open Spec XR Matrix

variable {s : List ℕ} {r e c N M : ℕ} {B : Backend} {o : Opts}

theorem linearIndependent_gain {J : Type*} {D : ℕ} (g : J → ℝ) (hg : ∀ i, g i ≠ 0) (v : J → Space D) :
    LinearIndependent ℝ (fun i => g i • v i) ↔ LinearIndependent ℝ v := by
  constructor
  · intro h
    have := h.units_smul fun i => (Units.mk0 (g i) (hg i))⁻¹
    convert this using 1
    funext i
    show v i = ((Units.mk0 (g i) (hg i))⁻¹ : ℝˣ) • (g i • v i)
    rw [Units.smul_def, Units.val_inv_eq_inv_val, Units.val_mk0, smul_smul, inv_mul_cancel₀ (hg i),
      one_smul]
  · intro h
    exact h.units_smul fun i => Units.mk0 (g i) (hg i)

theorem singular_iff {J : Type} [Fintype J] [DecidableEq J] {D : ℕ} (v : J → Space D) :
    (gramD v 0).det = 0 ↔ ¬ LinearIndependent ℝ v := by
  rw [gramD_zero, ← Matrix.det_gram_ne_zero_iff_linearIndependent (𝕜 := ℝ), not_not]

theorem singularOne_iff {D L : ℕ} (hD : N + L ≤ D + 1) (hL : 0 < L) (o : Opts) (x : Sig s c N)
    (m : BIdx s) (k : Fin c) :
    SingularOne (fun x i => shift D x i) L 0 (prep o x m k) ↔ cen o x m k = 0 := by
  unfold SingularOne
  rw [singular_iff]
  have h1 : refFam (fun x i => shift D x i) L (prep o x m k) =
      fun l : Fin L => gain (cen o x m k) • shift D (cen o x m k) l := by
    funext l
    exact shift_prep D o x m k l
  rw [h1, linearIndependent_gain _ (fun _ => (gain_pos _).ne')]
  constructor
  · intro h
    by_contra hx
    exact h (shift_linearIndependent D L hD hx)
  · intro hx h
    refine h.ne_zero ⟨0, hL⟩ ?_
    rw [hx]
    ext t
    simp [shift_apply, zpad]

theorem singularAll_iff {D L : ℕ} (o : Opts) (x : Sig s c N) (m : BIdx s) :
    SingularAll (fun x i => shift D x i) L 0 (prep o x m) ↔
      ¬ LinearIndependent ℝ fun p : Fin L × Fin c => shift D (cen o x m p.2) p.1 := by
  unfold SingularAll
  rw [singular_iff]
  have h1 : allFam (fun x i => shift D x i) L (prep o x m) =
      fun p : Fin L × Fin c => gain (cen o x m p.2) • shift D (cen o x m p.2) p.1 := by
    funext p
    exact shift_prep D o x m p.2 p.1
  rw [h1, linearIndependent_gain (fun p : Fin L × Fin c => gain (cen o x m p.2))
    (fun _ => (gain_pos _).ne')]

theorem singularOne_one_iff {D : ℕ} (o : Opts) (x : Sig s c N) (m : BIdx s) :
    (gramD (oneFam D (prep o x m)) 0).det = 0 ↔
      ¬ LinearIndependent ℝ fun p : Fin 1 × Fin c => shift D (cen o x m p.2) p.1 := by
  rw [singular_iff]
  have h1 : oneFam D (prep o x m) = fun k => gain (cen o x m k) • shift D (cen o x m k) 0 := by
    funext k
    exact shift_prep D o x m k 0
  rw [h1, linearIndependent_gain (fun k => gain (cen o x m k)) (fun _ => (gain_pos _).ne'),
    ← linearIndependent_equiv (Equiv.uniqueProd (Fin c) (Fin 1))]
  have : (fun k => shift D (cen o x m k) 0) ∘ ⇑(Equiv.uniqueProd (Fin c) (Fin 1)) =
      fun p : Fin 1 × Fin c => shift D (cen o x m p.2) p.1 := by
    funext p
    obtain ⟨l, k⟩ := p
    have : l = 0 := Subsingleton.elim _ _
    subst this
    rfl
  rw [this]

theorem Spec.IndependentShifts.ne_zero {L : ℕ} (hL : 0 < L) {x : Fin r → Fin N → ℝ}
    (h : IndependentShifts L x) (k : Fin r) : x k ≠ 0 := by
  intro hx
  refine LinearIndependent.ne_zero (⟨0, hL⟩, k) h ?_
  ext t
  simp [hx, shift_apply, zpad]

theorem nFft_pos (hN : 0 < N) : ∃ n, nFft N = .ok n := by
  simp only [nFft_def]
  rw [if_neg (by omega)]
  exact ⟨_, rfl⟩

open Classical in
/-- `sdr_loss` without loading, filters of at least two taps. -/
theorem sdrCohPair_success (hB : Covered B) (hcg : o.useCgIter = none) (hL : 2 ≤ o.filterLength)
    (hload : o.load = 0) (hN : 0 < N) (hfit : FilterFits N o.filterLength) (ref : Sig s r N)
    (est : Sig s e N) :
    (∃ coh, sdrCohPair B o ref est = .ok coh) ∧ (∀ m k, cen o ref m k ≠ 0) ∨
    sdrCohPair B o ref est = .error .linAlgError ∧ ∃ m k, cen o ref m k = 0 := by
  obtain ⟨n, hn⟩ := nFft_pos hN
  have hb := fits_bounds hn hfit
  have hD : N + o.filterLength ≤ (N + o.filterLength - 1) + 1 := by omega
  have F := fam_fits hD hn hfit hL
  rw [sdrCohPair_direct hn (by omega) hL F hB hcg, hload]
  simp only [singularOne_iff hD (by omega : 0 < o.filterLength)]
  by_cases h : ∃ i : BIdx s × Fin r, cen o ref i.1 i.2 = 0
  · rw [if_pos h]
    exact Or.inr ⟨rfl, h.elim fun i hi => ⟨i.1, i.2, hi⟩⟩
  · rw [if_neg h]
    exact Or.inl ⟨⟨_, rfl⟩, fun m k hmk => h ⟨(m, k), hmk⟩⟩

open Classical in
/-- `bss_eval_sources` without loading. -/
theorem sqCosPair_success (hB : Covered B) (hdir : o.direct) (hL : 1 ≤ o.filterLength)
    (hload : o.load = 0) (hN : 0 < N) (hfit : FilterFits N o.filterLength) (ref : Sig s r N)
    (est : Sig s e N) :
    (∃ p, sqCosPair B o ref est = .ok p) ∧ (∀ m, IndependentShifts o.filterLength (cen o ref m)) ∨
    sqCosPair B o ref est = .error .linAlgError ∧
      ∃ m, ¬ IndependentShifts o.filterLength (cen o ref m) := by
  have hD : N + o.filterLength ≤ (N + o.filterLength - 1) + 1 := by omega
  by_cases h1 : o.filterLength = 1
  · simp only [sqCosPair_def]
    rw [if_neg (by omega), if_pos h1, cohSarOne_eq (N + o.filterLength - 1) (by omega), hload]
    simp only [singularOne_one_iff]
    unfold IndependentShifts
    rw [h1]
    by_cases h : ∃ m : BIdx s, ¬ LinearIndependent ℝ fun p : Fin 1 × Fin r =>
        shift (N + 1 - 1) (cen o ref m p.2) p.1
    · rw [if_pos h]; exact Or.inr ⟨rfl, h⟩
    · rw [if_neg h]; push Not at h; exact Or.inl ⟨⟨_, rfl⟩, h⟩
  have hcg := hdir.resolve_left h1
  obtain ⟨n, hn⟩ := nFft_pos hN
  have hb := fits_bounds hn hfit
  have F := fam_fits hD hn hfit (by omega)
  rw [sqCosPair_direct hn (by omega) (by omega) F (by omega) hB hcg, hload]
  have hs : ∀ m, SingularAll (fun x i => shift (N + o.filterLength - 1) x i) o.filterLength 0
      (prep o ref m) ↔ ¬ IndependentShifts o.filterLength (cen o ref m) :=
    fun m => singularAll_iff o ref m
  simp only [singularOne_iff hD (by omega : 0 < o.filterLength), hs]
  by_cases h : ∃ m, ¬ IndependentShifts o.filterLength (cen o ref m)
  · rw [if_pos (Or.inr h)]
    exact Or.inr ⟨rfl, h⟩
  · have h' := h
    push Not at h'
    rw [if_neg]
    · exact Or.inl ⟨⟨_, rfl⟩, h'⟩
    · rintro (⟨i, hi⟩ | h2)
      · exact (h' i.1).ne_zero (by omega) i.2 hi
      · exact h h2

/-- With positive loading `sdr_loss` always succeeds. -/
theorem sdrCohPair_loaded (hB : Covered B) (hdir : o.direct) (hL : 1 ≤ o.filterLength)
    (hload : 0 < o.load) (hN : 0 < N) (h : o.filterLength = 1 → M = N) (ref : Sig s r N) (est : Sig s e M) :
    ∃ coh, sdrCohPair B o ref est = .ok coh := by
  by_cases h1 : o.filterLength = 1
  · obtain rfl := h h1
    simp only [sdrCohPair_def]
    rw [if_neg (by omega), if_pos h1]
    exact ⟨_, rfl⟩
  have hcg := hdir.resolve_left h1
  obtain ⟨n, hn⟩ : ∃ n, nFft N M = .ok n := by
    unfold nFft
    by_cases hNM : N + max N M ≤ 1
    · omega
    · rw [if_neg hNM]; exact ⟨_, rfl⟩
  have F := fam_of_nFft (o := o) hn
  rw [sdrCohPair_direct hn rfl (by omega) F hB hcg, if_neg]
  · exact ⟨_, rfl⟩
  · rintro ⟨i, hi⟩
    exact gramD_det_ne_zero _ hload hi

/-- With positive loading `bss_eval_sources` fails only if the filters are longer than the FFT. -/
theorem sqCosPair_loaded (hB : Covered B) (hdir : o.direct) (hL : 1 ≤ o.filterLength)
    (hload : 0 < o.load) {n : ℕ} (hn : nFft N M = .ok n) (hLn : o.filterLength ≤ n)
    (h : o.filterLength = 1 → M = N) (ref : Sig s r N) (est : Sig s e M) :
    ∃ p, sqCosPair B o ref est = .ok p := by
  by_cases h1 : o.filterLength = 1
  · obtain rfl := h h1
    simp only [sqCosPair_def]
    rw [if_neg (by omega), if_pos h1, cohSarOne_eq M le_rfl, if_neg]
    · exact ⟨_, rfl⟩
    · rintro ⟨m, hm⟩
      exact gramD_det_ne_zero _ hload hm
  have hcg := hdir.resolve_left h1
  have F := fam_of_nFft (o := o) hn
  rw [sqCosPair_direct hn rfl (by omega) F hLn hB hcg, if_neg]
  · exact ⟨_, rfl⟩
  · rintro (⟨i, hi⟩ | ⟨m, hm⟩)
    · exact gramD_det_ne_zero _ hload hi
    · exact gramD_det_ne_zero _ hload hm

/-- `bss_eval_sources` with filters longer than the FFT: sizes do not match. -/
theorem sqCosPair_too_long (_h1 : o.filterLength ≠ 1) {n : ℕ} (hn : nFft N M = .ok n)
    (hLn : n < o.filterLength) (ref : Sig s r N) (est : Sig s e M) :
    sqCosPair B o ref est = .error (sizeErr B o.useCgIter) := by
  have hne := nFft_ne hn
  rw [sqCosPair_gen B (by omega)]; unfold sqCosPairGen
  rw [hn]
  simp only
  rw [if_pos (by omega)]

end FBE
