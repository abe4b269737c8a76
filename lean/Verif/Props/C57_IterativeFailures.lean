import Verif.Proofs.CgFailure
import Verif.Props.C32_C34_Failures

/-!
# C57: failures of the iterative solver

`use_cg_iter` replaces the linear systems by an iteration.  `sdr_loss` then never fails, whatever the
references; `bss_eval_sources` still inverts the matrices of its preconditioner and fails exactly for linearly
dependent references, whatever their delayed copies.
-/

set_option linter.unusedSectionVars false

namespace FBE.Props

open Spec XR Matrix

variable {s : List ℕ} {r e c N M : ℕ} {B : Backend} {o : Opts} {it : ℕ}

/-! ### `sdr_loss` -/

/-- **C57.**  With `use_cg_iter` and filters of at least two taps, `sdr_loss` returns for all signals (of any
lengths, as long as there are samples): also for silent or repeated references, where the direct solver fails. -/
theorem C57_sdr_loss_returns (hcg : o.useCgIter = some it) (hL : 2 ≤ o.filterLength) (hNM : 1 < N + max N M)
    (est : Sig s e M) (ref : Sig s r N) (est' : Sig s c M) (ref' : Sig s c N) :
    (∃ L, sdrLossPair B o est ref = .ok L) ∧ ∃ L, sdrLossDiag B o est' ref' = .ok L := by
  have hn : nFft N M = .ok (2 ^ Nat.clog 2 (N + max N M - 1)) := by
    unfold nFft
    rw [if_neg (by omega)]
  constructor
  · unfold sdrLossPair sdrCohPair sdrCohPairGen
    rw [if_neg (by omega), if_neg (by omega), hn]
    simp only [hcg]
    exact ⟨_, rfl⟩
  · unfold sdrLossDiag sdrCohDiag sdrCohDiagGen
    rw [if_neg (by omega), if_neg (by omega), hn]
    simp only [hcg]
    exact ⟨_, rfl⟩

example : (∃ L, sdrLossPair torchBackend { Ex.opts with useCgIter := some 10 } Ex.est (fun _ _ _ => 0 : Sig [] 2 3) = .ok L) ∧
    sdrLossPair torchBackend Ex.opts Ex.est (fun _ _ _ => 0 : Sig [] 2 3) = .error .linAlgError := by
  refine ⟨(C57_sdr_loss_returns (o := { Ex.opts with useCgIter := some 10 }) rfl le_rfl (by norm_num) Ex.est _
    (fun _ _ _ => 0 : Sig [] 2 3) (fun _ _ _ => 0)).1, ?_⟩
  refine (C34_sdr_loss Ex.covered rfl (by show 2 ≤ 2; exact le_rfl) Ex.load (by norm_num) Ex.fits Ex.est _).1.2 ⟨(), 0, ?_⟩
  exact Ex.cen_eq (fun _ _ _ => 0 : Sig [] 2 3) () 0

theorem vec_silent_ref {n : ℕ} (hn : nFft N = .ok n) (hL : 2 ≤ o.filterLength) {ref : Sig s r N} {est : Sig s e N}
    {m : BIdx s} {k : Fin r} (h : centred o.zeroMean (ref m k) = 0) (j : Fin e) :
    vec (min o.filterLength n) (sdrXcorr o n ref est m k j) = 0 := by
  have F := fam_of_nFft (o := o) hn
  rw [vec_sdrXcorr F rfl (by omega), prep_silent h]
  funext l
  show inner ℝ _ _ = (0 : ℝ)
  rw [show refFam (fun x i => cshift n x i) (min o.filterLength n) (fun _ : Fin N => (0 : ℝ) * 0) l = 0 from by
    ext t
    simp [refFam, cshift, zpad]]
  exact inner_zero_left _

/-- **C57.**  A silent reference then gets an SDR of `-inf` (`-clamp_db` with clamping) with every estimate. -/
theorem C57_silent_reference (hcl : o.clampOk) (hcg : o.useCgIter = some it) (hL : 2 ≤ o.filterLength) {est : Sig s e N}
    {ref : Sig s r N} {L} (h : sdrLossPair B o est ref = .ok L) {m : BIdx s} {k : Fin r}
    (hk : centred o.zeroMean (ref m k) = 0) (j : Fin e) : L m k j = (report o.clampDb ninf).neg := by
  obtain ⟨coh, hc, rfl⟩ := sdrLossPair_entry h
  beta_reduce
  have h0 : coh m k j = 0 := by
    cases hn : nFft N with
    | error err =>
      simp only [sdrCohPair_def] at hc; unfold sdrCohPairGen at hc
      rw [if_neg (by omega), if_neg (by omega), hn] at hc; cases hc
    | ok n =>
      rw [sdrCohPair_unfold hn rfl (by omega)] at hc
      simp only [hcg] at hc
      cases hc
      simp only [vec_silent_ref hn hL hk j]
      simp
  rw [h0, loss_zero hcl]

example : ∃ L, sdrLossPair torchBackend { Ex.opts with useCgIter := some 10 } Ex.est (fun _ _ _ => 0 : Sig [] 2 3) = .ok L ∧
    L () 0 1 = pinf := by
  obtain ⟨L, h⟩ := (C57_sdr_loss_returns (B := torchBackend) (o := { Ex.opts with useCgIter := some 10 }) rfl le_rfl
    (by norm_num) Ex.est (fun _ _ _ => 0 : Sig [] 2 3) (fun _ _ _ => 0 : Sig [] 2 3) (fun _ _ _ => 0)).1
  exact ⟨L, h, C57_silent_reference (fun d h => by cases h) rfl le_rfl h (by simp [centred]; rfl) 1⟩

/-! ### `bss_eval_sources` -/

theorem sqCosPair_cg_cases (hB : Covered B) (hcg : o.useCgIter = some it) (hL : 2 ≤ o.filterLength) (hload : o.load = 0)
    (hN : 0 < N) (hfit : FilterFits N o.filterLength) (ref : Sig s r N) (est : Sig s e N) :
    (∃ p, sqCosPair B o ref est = .ok p) ∧ (∀ m, LinearIndependent ℝ fun k => centred o.zeroMean (ref m k)) ∨
    sqCosPair B o ref est = .error .linAlgError ∧ ∃ m, ¬ LinearIndependent ℝ fun k => centred o.zeroMean (ref m k) := by
  obtain ⟨n, hn⟩ := nFft_pos hN
  have hb := fits_bounds hn hfit
  have hmin : min o.filterLength n = o.filterLength := by omega
  rw [sqCosPair_unfold hn hmin hL (by omega)]
  simp only [hcg]
  unfold cohSar blockCg
  simp only [hcg]
  by_cases h : ∃ m, ¬ LinearIndependent ℝ fun k => centred o.zeroMean (ref m k)
  · obtain ⟨m, hm⟩ := h
    rw [if_pos ⟨m, 0, by omega, (precond_singular hB hL hload hn hfit ref m (by omega)).2 hm⟩]
    exact Or.inr ⟨rfl, m, hm⟩
  · rw [if_neg]
    · push Not at h
      exact Or.inl ⟨⟨_, rfl⟩, h⟩
    · rintro ⟨m, k, hk, h0⟩
      exact h ⟨m, (precond_singular hB hL hload hn hfit ref m hk).1 h0⟩

theorem sqCosDiag_cg_cases (hB : Covered B) (hcg : o.useCgIter = some it) (hL : 2 ≤ o.filterLength) (hload : o.load = 0)
    (hN : 0 < N) (hfit : FilterFits N o.filterLength) (ref est : Sig s c N) :
    (∃ p, sqCosDiag B o ref est = .ok p) ∧ (∀ m, LinearIndependent ℝ fun k => centred o.zeroMean (ref m k)) ∨
    sqCosDiag B o ref est = .error .linAlgError ∧ ∃ m, ¬ LinearIndependent ℝ fun k => centred o.zeroMean (ref m k) := by
  obtain ⟨n, hn⟩ := nFft_pos hN
  have hb := fits_bounds hn hfit
  have hmin : min o.filterLength n = o.filterLength := by omega
  rw [sqCosDiag_unfold hn hmin hL (by omega)]
  simp only [hcg]
  unfold cohSar blockCg
  simp only [hcg]
  by_cases h : ∃ m, ¬ LinearIndependent ℝ fun k => centred o.zeroMean (ref m k)
  · obtain ⟨m, hm⟩ := h
    rw [if_pos ⟨m, 0, by omega, (precond_singular hB hL hload hn hfit ref m (by omega)).2 hm⟩]
    exact Or.inr ⟨rfl, m, hm⟩
  · rw [if_neg]
    · push Not at h
      exact Or.inl ⟨⟨_, rfl⟩, h⟩
    · rintro ⟨m, k, hk, h0⟩
      exact h ⟨m, (precond_singular hB hL hload hn hfit ref m hk).1 h0⟩

/-- **C57.**  Iterative solver, filters of at least two taps that fit, no loading: `bss_eval_sources` raises
`LinAlgError` exactly when the references of some batch item are linearly dependent.  (Their delayed copies, which
matter for the direct solver, see C34, do not matter.) -/
theorem C57_bss_eval (hB : Covered B) (hcg : o.useCgIter = some it) (hL : 2 ≤ o.filterLength) (hload : o.load = 0)
    (hN : 0 < N) (hfit : FilterFits N o.filterLength) (ref : Sig s r N) (est : Sig s e N) :
    bssEvalSources B o true ref est = .error .linAlgError ↔
      ∃ m, ¬ LinearIndependent ℝ fun k => centred o.zeroMean (ref m k) := by
  unfold bssEvalSources
  rw [if_pos rfl]
  unfold bssEvalPerm
  rcases sqCosPair_cg_cases hB hcg hL hload hN hfit ref est with ⟨⟨⟨sd, sa⟩, h⟩, h2⟩ | ⟨h, h2⟩
  · rw [h]
    refine iff_of_false (fun hc => ?_) (fun ⟨m, hm⟩ => hm (h2 m))
    simp only at hc
    split at hc
    · rename_i err herr
      cases hc
      exact solvePermutation_not_linAlg hB _ _ herr
    · cases hc
  · rw [h]
    exact iff_of_true rfl h2

-- the same reference twice
example : bssEvalSources torchBackend { Ex.opts with useCgIter := some 10 } true (fun _ _ => ![1, 2, 3] : Sig [] 2 3) Ex.est =
    .error .linAlgError := by
  refine (C57_bss_eval (o := { Ex.opts with useCgIter := some 10 }) Ex.covered rfl le_rfl rfl (by norm_num) Ex.fits
    (fun _ _ => ![1, 2, 3] : Sig [] 2 3) Ex.est).2 ⟨(), fun h => ?_⟩
  have := h.injective (a₁ := 0) (a₂ := 1) rfl
  exact absurd this (by decide)

example : bssEvalSources torchBackend { Ex.opts with useCgIter := some 10 } true Ex.ref Ex.est ≠ .error .linAlgError := by
  intro h
  obtain ⟨m, hm⟩ := (C57_bss_eval (o := { Ex.opts with useCgIter := some 10 }) Ex.covered rfl le_rfl rfl (by norm_num) Ex.fits
    Ex.ref Ex.est).1 h
  refine hm ?_
  rw [Fintype.linearIndependent_iff]
  intro g hg
  have h0 := congrFun hg 0
  have h2 := congrFun hg 2
  simp [Fin.sum_univ_two, centred, Ex.opts, Ex.ref] at h0 h2
  intro i
  fin_cases i <;> simp_all

/-- **C57.**  The same without permutation solving, where nothing else can fail (also with numpy 2, where the
direct solver does not work, see C43). -/
theorem C57_bss_eval_no_permutation (hB : Covered B) (hcg : o.useCgIter = some it) (hL : 2 ≤ o.filterLength)
    (hload : o.load = 0) (hN : 0 < N) (hfit : FilterFits N o.filterLength) (ref est : Sig s c N) :
    (bssEvalNoPerm B o ref est = .error .linAlgError ↔
      ∃ m, ¬ LinearIndependent ℝ fun k => centred o.zeroMean (ref m k)) ∧
    ((∃ out, bssEvalNoPerm B o ref est = .ok out) ↔
      ∀ m, LinearIndependent ℝ fun k => centred o.zeroMean (ref m k)) := by
  unfold bssEvalNoPerm
  rcases sqCosDiag_cg_cases hB hcg hL hload hN hfit ref est with ⟨⟨⟨sd, sa⟩, h⟩, h2⟩ | ⟨h, m, h2⟩
  · rw [h]
    exact ⟨iff_of_false (by simp) (fun ⟨m, hm⟩ => hm (h2 m)), iff_of_true ⟨_, rfl⟩ h2⟩
  · rw [h]
    exact ⟨iff_of_true rfl ⟨m, h2⟩, iff_of_false (by rintro ⟨L, h⟩; cases h) fun h => h2 (h m)⟩

/-- A reference and its copy delayed by one sample: independent, but with shared shifts. -/
theorem delayed_independent : LinearIndependent ℝ (fun k => (![![1, 0, 0], ![0, 1, 0]] : Fin 2 → Fin 3 → ℝ) k) := by
  rw [Fintype.linearIndependent_iff]
  intro g hg
  have h0 := congrFun hg 0
  have h1 := congrFun hg 1
  simp [Fin.sum_univ_two] at h0 h1
  intro i
  fin_cases i
  · exact h0
  · exact h1

/-- Here the direct solver raises `LinAlgError`, the iterative solver returns values. -/
example : bssEvalNoPerm torchBackend Ex.opts (fun _ => ![![1, 0, 0], ![0, 1, 0]] : Sig [] 2 3) Ex.est = .error .linAlgError ∧
    ∃ out, bssEvalNoPerm torchBackend { Ex.opts with useCgIter := some 10 }
      (fun _ => ![![1, 0, 0], ![0, 1, 0]] : Sig [] 2 3) Ex.est = .ok out := by
  constructor
  · refine (C34_bss_eval_no_permutation Ex.covered Ex.direct (by show 1 ≤ 2; norm_num) (Or.inr rfl) Ex.load
      (by norm_num) Ex.fits _ _).1.2 ⟨(), fun hi => ?_⟩
    have e : (fun k => centred Ex.opts.zeroMean ((fun _ => ![![1, 0, 0], ![0, 1, 0]] : Sig [] 2 3) () k)) =
        ![![1, 0, 0], ![0, 1, 0]] := by
      funext k
      exact Ex.cen_eq (fun _ => ![![1, 0, 0], ![0, 1, 0]] : Sig [] 2 3) () k
    rw [e] at hi
    have hne : ((1 : Fin 2), (0 : Fin 2)) ≠ (0, 1) := by decide
    refine hne (LinearIndependent.injective hi ?_)
    show shift 4 (![![1, 0, 0], ![0, 1, 0]] 0 : Fin 3 → ℝ) 1 = shift 4 (![![1, 0, 0], ![0, 1, 0]] 1) 0
    ext t
    rw [shift_apply, shift_apply]
    fin_cases t <;> simp [zpad]
  · refine (C57_bss_eval_no_permutation (o := { Ex.opts with useCgIter := some 10 }) Ex.covered rfl (by show 2 ≤ 2; norm_num) rfl (by norm_num) Ex.fits
      _ _).2.2 fun m => ?_
    have e : (fun k => centred Ex.opts.zeroMean ((fun _ => ![![1, 0, 0], ![0, 1, 0]] : Sig [] 2 3) () k)) =
        ![![1, 0, 0], ![0, 1, 0]] := by
      funext k
      exact Ex.cen_eq (fun _ => ![![1, 0, 0], ![0, 1, 0]] : Sig [] 2 3) () k
    exact e ▸ delayed_independent

/-- **C57.**  With `load_diag > 0` (and filters not longer than the FFT) the iterative solver never fails. -/
theorem C57_loaded_bss_eval (hB : Covered B) (hcg : o.useCgIter = some it) (hL : 2 ≤ o.filterLength)
    (hload : 0 < o.load) (hN : 0 < N) (hfft : o.filterLength ≤ 2 ^ Nat.clog 2 (N + N - 1)) (ref : Sig s r N)
    (est : Sig s e N) (ref' est' : Sig s c N) :
    bssEvalSources B o true ref est ≠ .error .linAlgError ∧ ∃ out, bssEvalNoPerm B o ref' est' = .ok out := by
  have hn : nFft N = .ok (2 ^ Nat.clog 2 (N + N - 1)) := by
    simp only [nFft_def]; rw [if_neg (by omega)]
  generalize 2 ^ Nat.clog 2 (N + N - 1) = n at hn hfft
  have F := fam_of_nFft (o := o) hn
  have hmin : min o.filterLength n = o.filterLength := by omega
  have key : ∀ {c : ℕ} (ref : Sig s c N), ¬ ∃ m, ∃ k ≤ o.filterLength / 2,
      (blockPrecondSpec B (bssAcf o n ref m) k).det = 0 := by
    rintro c ref ⟨m, k, hk, h0⟩
    have hT := lagMatrix_bssAcf hB hload.le hL hn hfft ref m
    have hlen : ∀ a b, (bssAcf o n ref m a b).length = min o.filterLength n + min o.filterLength n := fun a b =>
      length_bssAcf F rfl (by omega) ref m a b
    rw [hmin] at hT hlen
    refine blockPrecondSpec_det hB hL hlen ?_ hk h0
    rw [hT]
    exact gramD_posDef hload.le (gramD_det_ne_zero _ hload)
  constructor
  · unfold bssEvalSources bssEvalPerm
    rw [if_pos rfl, sqCosPair_unfold hn hmin hL hfft]
    simp only [hcg]
    unfold cohSar blockCg
    simp only [hcg]
    rw [if_neg (key ref)]
    intro hc
    simp only at hc
    split at hc
    · rename_i err herr
      cases hc
      exact solvePermutation_not_linAlg hB _ _ herr
    · cases hc
  · unfold bssEvalNoPerm
    rw [sqCosDiag_unfold hn hmin hL hfft]
    simp only [hcg]
    unfold cohSar blockCg
    simp only [hcg]
    rw [if_neg (key ref')]
    exact ⟨_, rfl⟩

example (o : Opts) (ho : o = { Ex.opts with useCgIter := some 10, loadDiag := some 1 }) :
    ∃ out, bssEvalNoPerm torchBackend o (fun _ _ _ => 0 : Sig [] 2 3) Ex.est = .ok out := by
  subst ho
  exact (C57_loaded_bss_eval (s := []) (r := 2) (e := 2) Ex.covered rfl le_rfl (by show (0 : ℝ) < 1; norm_num) (by norm_num) (by decide)
    (fun _ _ _ => 0) (fun _ _ _ => 0) _ _).2

end FBE.Props
