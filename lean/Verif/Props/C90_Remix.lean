import Verif.Proofs.Remix
import Verif.Props.C11_C17_Permutation
import Verif.Props.C32_C34_Failures
import Verif.Proofs.ExampleRuns

/-!
# C90 — remixed references
-/

namespace FBE.Props

open Spec XR

variable {s : List ℕ} {r e c N : ℕ} {B : Backend} {o : Opts}

/-- The SAR of `compute_permutation=False`. -/
theorem sar_false_value (hB : Covered B) (hdir : o.direct) (hsv : o.filterLength = 1 ∨ B.stackedVectors = true)
    (hload : o.load = 0) (hfit : FilterFits N o.filterLength) {ref est : Sig s c N} {out}
    (h : bssEvalSources B o false ref est = .ok out) (m : BIdx s) (k : Fin (min c c)) :
    out.sar m k = (coherenceToNegSdr o.clampDb (fin (gain (cen o est m (k.castLE (min_le_right c c))) ^ 2 *
      energy ((spanAll (N + o.filterLength - 1) o.filterLength (cen o ref m)).starProjection
        (shift (N + o.filterLength - 1) (cen o est m (k.castLE (min_le_right c c))) 0))))).neg := by
  obtain ⟨sd, sa, hs, rfl⟩ := bssEvalSources_false h
  have hsv' : o.filterLength = 1 ∨ (o.useCgIter = none ∧ B.stackedVectors = true) := by
    rcases hsv with h | h
    · exact Or.inl h
    · rcases hdir with h' | h'
      · exact Or.inl h'
      · exact Or.inr ⟨h', h⟩
  rw [sqCosDiag_eq B o hsv'] at hs
  cases hp : sqCosPair B o (fun m (k : Fin (min c c)) => ref m (k.castLE (min_le_left c c)))
        (fun m (k : Fin (min c c)) => est m (k.castLE (min_le_right c c))) with
  | error err => rw [hp] at hs; cases hs
  | ok p =>
    obtain ⟨sd', sa'⟩ := p
    rw [hp] at hs
    cases hs
    have hL : 1 ≤ o.filterLength := by
      refine Nat.one_le_iff_ne_zero.2 fun h0 => ?_
      simp only [sqCosPair_def] at hp; rw [if_pos h0] at hp; cases hp
    show (coherenceToNegSdr o.clampDb (fin (sa' m k))).neg = _
    rw [(sqCosPair_proj hB hdir hload hfit (D := N + o.filterLength - 1) (by omega) _ _ hp m k k).2]
    rw [← spanAll_surj _ _ (cen o ref m) _ (castLE_surj c)]

theorem independent_cast {n L : ℕ} (hn : n = r) (x : Fin r → Fin N → ℝ) :
    IndependentShifts L (fun k : Fin n => x (k.cast hn)) ↔ IndependentShifts L x := by
  subst hn
  exact Iff.rfl

theorem bss_false_returns (hB : Covered B) (hdir : o.direct) (hL : 1 ≤ o.filterLength)
    (hsv : o.filterLength = 1 ∨ B.stackedVectors = true) (hload : o.load = 0) (hN : 0 < N) (hfit : FilterFits N o.filterLength)
    (ref est : Sig s c N) :
    (∃ out, bssEvalSources B o false ref est = .ok out) ↔ ∀ m, IndependentShifts o.filterLength (cen o ref m) := by
  unfold bssEvalSources
  rw [if_neg Bool.false_ne_true, if_neg (by simp), (C34_bss_eval_no_permutation hB hdir hL hsv hload hN hfit _ _).2]
  exact forall_congr' fun m => independent_cast (min_self c) (cen o ref m)

/-- **C90.**  `bss_eval_sources(…, compute_permutation=False)`: the call with remixed references returns exactly if the call with
the references themselves does and all mixing matrices are invertible … -/
theorem C90_returns_iff (hB : Covered B) (hdir : o.direct) (hL : 1 ≤ o.filterLength)
    (hsv : o.filterLength = 1 ∨ B.stackedVectors = true) (hload : o.load = 0) (hN : 0 < N) (hfit : FilterFits N o.filterLength)
    (ref est : Sig s c N) (A : BIdx s → Matrix (Fin c) (Fin c) ℝ) :
    (∃ out', bssEvalSources B o false (remixed A ref) est = .ok out') ↔
      (∃ out, bssEvalSources B o false ref est = .ok out) ∧ ∀ m, (A m).det ≠ 0 := by
  rw [bss_false_returns hB hdir hL hsv hload hN hfit, bss_false_returns hB hdir hL hsv hload hN hfit, ← forall_and]
  refine forall_congr' fun m => ?_
  rw [← independent_mixed hL, cen_remixed]

/-- **C90.**  … and then the SARs are the same. -/
theorem C90_sar_aligned (hB : Covered B) (hdir : o.direct) (hsv : o.filterLength = 1 ∨ B.stackedVectors = true)
    (hload : o.load = 0) (hfit : FilterFits N o.filterLength) {ref est : Sig s c N} {A : BIdx s → Matrix (Fin c) (Fin c) ℝ}
    (hA : ∀ m, (A m).det ≠ 0) {out out'} (h : bssEvalSources B o false ref est = .ok out)
    (h' : bssEvalSources B o false (remixed A ref) est = .ok out') : out'.sar = out.sar := by
  funext m k
  rw [sar_false_value hB hdir hsv hload hfit h m k, sar_false_value hB hdir hsv hload hfit h' m k, cen_remixed, spanAll_mixed (hA m)]

/-- **C90.**  With permutation solving: each estimate has one SAR, whatever the mixing matrices. -/
theorem C90_sar_per_estimate (hB : Covered B) (hdir : o.direct) (hload : o.load = 0)
    (hfit : FilterFits N o.filterLength) (ref : Sig s r N) (est : Sig s e N) :
    ∃ S : BIdx s → Fin e → XR, ∀ (A : BIdx s → Matrix (Fin r) (Fin r) ℝ), (∀ m, (A m).det ≠ 0) → ∀ {out'},
      bssEvalSources B o true (remixed A ref) est = .ok out' →
        ∃ perm, out'.perm = some perm ∧ ∀ m, ∃ P : Pairing r e, Describes (perm m) P ∧ ∀ k, out'.sar m k = S m (P.est k) := by
  refine ⟨fun m j => (coherenceToNegSdr o.clampDb (fin (gain (cen o est m j) ^ 2 *
    energy ((spanAll (N + o.filterLength - 1) o.filterLength (cen o ref m)).starProjection
      (shift (N + o.filterLength - 1) (cen o est m j) 0))))).neg, fun A hA {out'} h => ?_⟩
  obtain ⟨sd, sa, perm, hs, hp, hm⟩ := C12_bss_eval_best_pairing hB h
  have hL : 1 ≤ o.filterLength := by
    refine Nat.one_le_iff_ne_zero.2 fun h0 => ?_
    simp only [sqCosPair_def] at hs; rw [if_pos h0] at hs; cases hs
  refine ⟨perm, hp, fun m => ?_⟩
  obtain ⟨P, h1, -, h3, -⟩ := hm m
  refine ⟨P, h1, fun k => ?_⟩
  rw [(h3 k).2.2]
  show (coherenceToNegSdr o.clampDb (fin (sa m (P.est k)))).neg = _
  rw [(sqCosPair_proj hB hdir hload hfit (D := N + o.filterLength - 1) (by omega) _ est hs m (P.ref k) (P.est k)).2, cen_remixed, spanAll_mixed (hA m)]

/-- **C90.**  A singular mixing matrix: `LinAlgError`. -/
theorem C90_singular (hB : Covered B) (hdir : o.direct) (hL : 1 ≤ o.filterLength)
    (hload : o.load = 0) (hN : 0 < N) (hfit : FilterFits N o.filterLength)
    (ref : Sig s r N) (est : Sig s e N) {A : BIdx s → Matrix (Fin r) (Fin r) ℝ} {m : BIdx s} (hA : (A m).det = 0) :
    bssEvalSources B o true (remixed A ref) est = .error .linAlgError := by
  refine (C34_bss_eval hB hdir hL hload hN hfit _ est).2 ⟨m, ?_⟩
  have : (fun k => centred o.zeroMean (remixed A ref m k)) = mixed (A m) (cen o ref m) := cen_remixed o A ref m
  rw [this]
  exact not_independent_of_singular hL hA _

/-- **C90.**  The same with `compute_permutation=False`. -/
theorem C90_singular_aligned (hB : Covered B) (hdir : o.direct) (hL : 1 ≤ o.filterLength)
    (hsv : o.filterLength = 1 ∨ B.stackedVectors = true) (hload : o.load = 0) (hN : 0 < N) (hfit : FilterFits N o.filterLength)
    (ref est : Sig s c N) {A : BIdx s → Matrix (Fin c) (Fin c) ℝ} {m : BIdx s} (hA : (A m).det = 0) :
    bssEvalSources B o false (remixed A ref) est = .error .linAlgError := by
  unfold bssEvalSources
  rw [if_neg Bool.false_ne_true, if_neg (by simp), (C34_bss_eval_no_permutation hB hdir hL hsv hload hN hfit _ _).1]
  refine ⟨m, fun h => not_independent_of_singular hL hA (cen o ref m) ?_⟩
  rw [← cen_remixed]
  exact (independent_cast (min_self c) (cen o (remixed A ref) m)).1 h

/-! Sum and difference of two references. -/

noncomputable def exMixer : BIdx [] → Matrix (Fin 2) (Fin 2) ℝ := fun _ => !![1, 1; 1, -1]

theorem exMixer_det (m : BIdx []) : (exMixer m).det ≠ 0 := by
  unfold exMixer
  rw [Matrix.det_fin_two_of]
  norm_num

example : ∃ out out', bssEvalSources torchBackend Ex.opts false Ex.ref Ex.est = .ok out ∧
    bssEvalSources torchBackend Ex.opts false (remixed exMixer Ex.ref) Ex.est = .ok out' ∧ out'.sar = out.sar := by
  obtain ⟨out, h⟩ := Ex.bssEvalNoPerm_ok
  obtain ⟨out', h'⟩ := (C90_returns_iff (o := Ex.opts) Ex.covered Ex.direct (by decide) (Or.inr rfl) Ex.load (by decide) Ex.fits Ex.ref Ex.est exMixer).2
    ⟨⟨out, h⟩, exMixer_det⟩
  exact ⟨out, out', h, h', C90_sar_aligned Ex.covered Ex.direct (Or.inr rfl) Ex.load Ex.fits exMixer_det h h'⟩

-- the references of the example are the sum and the difference of others
example : ∃ (ref : Sig [] 2 3) (S : BIdx [] → Fin 2 → XR) (out' : BssOut [] (min 2 2)) (perm : BIdx [] → Fin (min 2 2) → ℕ),
    bssEvalSources torchBackend Ex.opts true (remixed exMixer ref) Ex.est = .ok out' ∧
    ∀ m, ∃ P : Pairing 2 2, Describes (perm m) P ∧ ∀ k, out'.sar m k = S m (P.est k) := by
  obtain ⟨out, h⟩ := Ex.bss_cl none true
  have hr : remixed exMixer (fun _ => ![![1 / 2, 0, 1 / 2], ![1 / 2, 0, -1 / 2]]) = Ex.ref := by
    funext m k t
    fin_cases k <;> fin_cases t <;> simp [remixed, mixed, exMixer, Ex.ref] <;> norm_num
  obtain ⟨S, hS⟩ := C90_sar_per_estimate (o := Ex.opts) Ex.covered Ex.direct Ex.load Ex.fits (fun _ => ![![1 / 2, 0, 1 / 2], ![1 / 2, 0, -1 / 2]]) Ex.est
  have h' : bssEvalSources torchBackend Ex.opts true (remixed exMixer fun _ => ![![1 / 2, 0, 1 / 2], ![1 / 2, 0, -1 / 2]]) Ex.est = .ok out := by
    rw [hr]
    exact h
  obtain ⟨perm, -, hm⟩ := hS exMixer exMixer_det h'
  exact ⟨_, S, out, perm, h', hm⟩

example : bssEvalSources torchBackend Ex.opts true (remixed (fun _ => !![1, 1; 2, 2]) Ex.ref) Ex.est = .error .linAlgError :=
  C90_singular Ex.covered Ex.direct (by decide) Ex.load (by decide) Ex.fits Ex.ref Ex.est (m := ())
    (by rw [Matrix.det_fin_two_of]; norm_num)

example : bssEvalSources torchBackend Ex.opts false (remixed (fun _ => !![1, 1; 2, 2]) Ex.ref) Ex.est = .error .linAlgError :=
  C90_singular_aligned Ex.covered Ex.direct (by decide) (Or.inr rfl) Ex.load (by decide) Ex.fits Ex.ref Ex.est (m := ())
    (by rw [Matrix.det_fin_two_of]; norm_num)

end FBE.Props
