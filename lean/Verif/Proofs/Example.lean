import Verif.Proofs.Success

/-!
# A concrete case

Two references and two estimates of three samples, filters of two taps.  Used to show that the
hypotheses of the theorems are met.
-/

set_option linter.unusedSectionVars false

namespace FBE.Ex

open Spec XR Matrix

noncomputable def ref : Sig [] 2 3 := fun _ => ![![1, 0, 0], ![0, 0, 1]]
noncomputable def est : Sig [] 2 3 := fun _ => ![![2, 0, 1], ![1, 0, 2]]

/-- Filters of two taps, everything else by default. -/
noncomputable def opts : Opts := { filterLength := 2 }

theorem fits : FilterFits 3 opts.filterLength := by
  show 2 + 3 ≤ 2 ^ Nat.clog 2 5 + 1
  decide

theorem direct : opts.direct := Or.inr rfl
theorem load : opts.load = 0 := rfl
theorem clampOk : opts.clampOk := fun d h => by cases h
theorem covered : Covered torchBackend := Or.inl rfl

theorem cen_eq {c N : ℕ} (x : Sig [] c N) (m : BIdx []) (k : Fin c) : cen opts x m k = x m k := by
  show centred false _ = _
  simp [centred]

theorem audible {N : ℕ} (x : Fin N → ℝ) (t : Fin N) (h : 1 ≤ x t) : Audible x := by
  have h1 : 1 ≤ ∑ t, x t ^ 2 := by
    have := Finset.single_le_sum (f := fun t => x t ^ 2) (fun t _ => sq_nonneg _) (Finset.mem_univ t)
    nlinarith
  have : (1 : ℝ) ≤ sigNorm x := Real.one_le_sqrt.2 h1
  exact le_trans (by norm_num) this

theorem est_audible (m : BIdx []) (j : Fin 2) : Audible (centred opts.zeroMean (est m j)) := by
  show Audible (cen opts est m j)
  rw [cen_eq]
  fin_cases j
  · exact audible _ 0 (by simp [est])
  · exact audible _ 0 (by simp [est])

theorem independent (m : BIdx []) : IndependentShifts opts.filterLength (cen opts ref m) := by
  show LinearIndependent ℝ fun p : Fin 2 × Fin 2 => shift 4 (cen opts ref m p.2) p.1
  simp only [cen_eq]
  rw [Fintype.linearIndependent_iff]
  intro g hg
  have key : ∀ t : Fin 4, ∑ p : Fin 2 × Fin 2, g p * shift 4 (ref m p.2) p.1 t = 0 := by
    intro t
    have := congrArg (fun v : Space 4 => v t) hg
    simpa using this
  simp only [Fintype.sum_prod_type, Fin.sum_univ_two, shift_apply] at key
  have h0 := key 0
  have h1 := key 1
  have h2 := key 2
  have h3 := key 3
  simp [zpad, ref] at h0 h1 h2 h3
  rintro ⟨i, j⟩
  fin_cases i <;> fin_cases j <;> simp_all

theorem ref_ne_zero (m : BIdx []) (k : Fin 2) : cen opts ref m k ≠ 0 :=
  (independent m).ne_zero (by decide) k

/-- `sdr_loss` returns. -/
theorem sdrCohPair_ok : ∃ coh, sdrCohPair torchBackend opts ref est = .ok coh := by
  rcases sdrCohPair_success covered rfl (by decide) load (by decide) fits ref est with h | ⟨-, m, k, h⟩
  · exact h.1
  · exact absurd h (ref_ne_zero m k)

theorem sdrLossPair_ok : ∃ L, sdrLossPair torchBackend opts est ref = .ok L := by
  obtain ⟨coh, h⟩ := sdrCohPair_ok
  exact ⟨_, by unfold sdrLossPair; rw [h]⟩

theorem sdrLossDiag_ok : ∃ L, sdrLossDiag torchBackend opts est ref = .ok L := by
  obtain ⟨coh, h⟩ := sdrCohPair_ok
  unfold sdrLossDiag
  rw [sdrCohDiag_eq _ _ (Or.inr (Or.inr rfl)), h]
  exact ⟨_, rfl⟩

/-- `square_cosine_metrics` returns. -/
theorem sqCosPair_ok : ∃ p, sqCosPair torchBackend opts ref est = .ok p := by
  rcases sqCosPair_success covered direct (by decide) load (by decide) fits ref est with h | ⟨-, m, h⟩
  · exact h.1
  · exact absurd (independent m) h

/-- The energy of a projection on all references is positive if the estimate is correlated with one. -/
theorem energy_pos {D L r N : ℕ} {x : Fin r → Fin N → ℝ} {y : Fin N → ℝ} (k : Fin r) (hL : 0 < L)
    (h : inner ℝ (shift D (x k) 0) (shift D y 0) ≠ 0) :
    0 < energy ((spanAll D L x).starProjection (shift D y 0)) := by
  refine lt_of_le_of_ne (energy_nonneg _) fun h0 => h ?_
  have h0' : (spanAll D L x).starProjection (shift D y 0) = 0 := by
    unfold energy at h0
    exact norm_eq_zero.1 (pow_eq_zero_iff (two_ne_zero) |>.1 h0.symm)
  have hm : shift D (x k) 0 ∈ spanAll D L x := Submodule.subset_span ⟨(⟨0, hL⟩, k), rfl⟩
  rw [← inner_proj_eq hm, h0', inner_zero_right]

/-- With `clamp_db`, `bss_eval_sources` returns on these signals. -/
theorem bssEval_ok {d : ℝ} : ∃ out, bssEvalSources torchBackend { opts with clampDb := some d } true ref est =
    .ok out := by
  obtain ⟨⟨sd, sa⟩, h⟩ := sqCosPair_ok
  have h' : sqCosPair torchBackend { opts with clampDb := some d } ref est = .ok (sd, sa) := h
  have hsol : ∀ m, Solvable (negSir { opts with clampDb := some d } sd sa m) := by
    intro m
    refine solvable_of_finite fun k j => coherenceToNegSdr_finite d ?_
    have hp := (sqCosPair_proj covered direct load fits (D := 4) (by decide) ref est h m k j).2
    have hpos : sa m j ≠ 0 := by
      rw [hp]
      have hg := gain_pos (cen opts est m j)
      refine (mul_pos (pow_pos hg 2) (energy_pos 0 (by decide) ?_)).ne'
      rw [cen_eq, cen_eq, inner_shift_zero 4 (by decide)]
      unfold dot
      fin_cases j <;> simp [Fin.sum_univ_three, ref, est]
    show XR.div (fin (sd m k j)) (fin (sa m j)) ≠ nan
    simp [XR.div, hpos]
  obtain ⟨p, hp⟩ := (solvePermutation_ok_iff torchBackend covered.lsa
    (negSir { opts with clampDb := some d } sd sa) (nArgs := 2)
    ![negSdr { opts with clampDb := some d } sd sa, negSar { opts with clampDb := some d } sd sa]).2 hsol
  exact ⟨_, bssEvalPerm_of_ok h' hp⟩

/-- Without permutation. -/
theorem bssEvalNoPerm_ok : ∃ out, bssEvalSources torchBackend opts false ref est = .ok out := by
  obtain ⟨⟨sd, sa⟩, h⟩ := sqCosPair_ok
  unfold bssEvalSources bssEvalNoPerm
  rw [if_neg (by simp), if_neg (by simp)]
  have h' : sqCosPair torchBackend opts (fun m (k : Fin (min 2 2)) => ref m (k.castLE (min_le_left 2 2)))
      (fun m (k : Fin (min 2 2)) => est m (k.castLE (min_le_right 2 2))) = .ok (sd, sa) := h
  rw [sqCosDiag_of_pair _ _ (Or.inr ⟨rfl, rfl⟩) h']
  exact ⟨_, rfl⟩

end FBE.Ex
