import Verif.Props.C01_C04_Documented
import Verif.Props.C32_C34_Failures
import Verif.Proofs.ExampleRuns
import Verif.Proofs.Parts

/-!
# C92 — an estimate made of known parts is scored by their energies

The parts are defined in Spec/Parts.lean: plain sums over samples, no projections.
-/

namespace FBE.Props

open Spec XR

variable {s : List ℕ} {r e c N : ℕ} {B : Backend} {o : Opts}

/-- **C92.**  There is one and only one way to divide an estimate into a target, an interference and an artefact. -/
theorem C92_parts {L : ℕ} (hL : 1 ≤ L) (x : Fin r → Fin N → ℝ) (k : Fin r) (y : Fin N → ℝ) :
    ∃! p : (ℕ → ℝ) × (ℕ → ℝ) × (ℕ → ℝ), Parts L x k y p.1 p.2.1 p.2.2 := by
  obtain ⟨t, i, a, h⟩ := exists_parts hL x k y
  refine ⟨(t, i, a), h, fun p hp => ?_⟩
  obtain ⟨h1, h2, h3⟩ := parts_unique hL hp h
  exact Prod.ext h1 (Prod.ext h2 h3)

/-- **C92.**  `sdr_loss` of an estimate made of parts: the energy of the target against that of all the rest. -/
theorem C92_sdr_loss (hB : Covered B) (hdir : o.direct) (hload : o.load = 0) (hcl : o.clampOk)
    (hfit : FilterFits N o.filterLength) {est : Sig s e N} {ref : Sig s r N} {L} (h : sdrLossPair B o est ref = .ok L)
    (m : BIdx s) (k : Fin r) (j : Fin e) (hest : Audible (centred o.zeroMean (est m j)))
    (href : o.filterLength = 1 → Normalisable (centred o.zeroMean (ref m k))) {t i a : ℕ → ℝ}
    (hp : Parts o.filterLength (fun k => centred o.zeroMean (ref m k)) k (centred o.zeroMean (est m j)) t i a) :
    L m k j = (report o.clampDb (dbRatio (energyTo (N + o.filterLength - 1) t)
      (energyTo (N + o.filterLength - 1) fun τ => i τ + a τ))).neg := by
  rw [C01_sdr_loss_pairwise hB hdir hload hcl hfit h m k j hest href, parts_docSdr hp]

/-- **C92.**  `bss_eval_sources` of an estimate made of parts: SDR, SIR and SAR are the ratios of the energies of the parts. -/
theorem C92_bss_eval (hB : Covered B) (hdir : o.direct) (hsv : o.filterLength = 1 ∨ B.stackedVectors = true)
    (hload : o.load = 0) (hcl : o.clampOk) (hfit : FilterFits N o.filterLength) {ref est : Sig s c N} {out}
    (h : bssEvalSources B o false ref est = .ok out) (m : BIdx s) (k : Fin c)
    (hest : Audible (centred o.zeroMean (est m k)))
    (href : o.filterLength = 1 → Normalisable (centred o.zeroMean (ref m k))) {t i a : ℕ → ℝ}
    (hp : Parts o.filterLength (fun k => centred o.zeroMean (ref m k)) k (centred o.zeroMean (est m k)) t i a) :
    let k' := k.cast (min_self c).symm
    let E := energyTo (N + o.filterLength - 1)
    out.sdr m k' = report o.clampDb (dbRatio (E t) (E fun τ => i τ + a τ)) ∧
    out.sir m k' = report o.clampDb (dbRatio (E t) (E i)) ∧
    out.sar m k' = report o.clampDb (dbRatio (E fun τ => t τ + i τ) (E a)) := by
  intro k' E
  obtain ⟨h1, h2, h3⟩ := C02_bss_eval hB hdir hsv hload hcl hfit h m k hest href
  exact ⟨h1.trans (by rw [parts_docSdr hp]), h2.trans (by rw [parts_docSir hp]), h3.trans (by rw [parts_docSar hp])⟩

/-- **C92.**  The same with permutation solving, for the pairs described by the permutation. -/
theorem C92_bss_eval_permutation (hB : Covered B) (hdir : o.direct) (hload : o.load = 0) (hcl : o.clampOk)
    (hfit : FilterFits N o.filterLength) {ref : Sig s r N} {est : Sig s e N} {out}
    (h : bssEvalSources B o true ref est = .ok out) (m : BIdx s) (hest : ∀ j, Audible (centred o.zeroMean (est m j)))
    (href : o.filterLength = 1 → ∀ k, Normalisable (centred o.zeroMean (ref m k))) {t i a : Fin r → Fin e → ℕ → ℝ}
    (hp : ∀ k j, Parts o.filterLength (fun k => centred o.zeroMean (ref m k)) k (centred o.zeroMean (est m j))
      (t k j) (i k j) (a k j)) :
    let E := energyTo (N + o.filterLength - 1)
    ∃ (P : Pairing r e) (perm : BIdx s → Fin (min r e) → ℕ), out.perm = some perm ∧ Describes (perm m) P ∧
      (∀ k, out.sdr m k = report o.clampDb (dbRatio (E (t (P.ref k) (P.est k)))
          (E fun τ => i (P.ref k) (P.est k) τ + a (P.ref k) (P.est k) τ)) ∧
        out.sir m k = report o.clampDb (dbRatio (E (t (P.ref k) (P.est k))) (E (i (P.ref k) (P.est k)))) ∧
        out.sar m k = report o.clampDb (dbRatio (E fun τ => t (P.ref k) (P.est k) τ + i (P.ref k) (P.est k) τ)
          (E (a (P.ref k) (P.est k))))) ∧
      ∀ P' : Pairing r e, eTotal (P'.values fun k j => report o.clampDb (dbRatio (E (t k j)) (E (i k j)))) ≤
        eTotal (out.sir m) := by
  intro E
  obtain ⟨P, perm, h1, h2, h3, h4⟩ := C12_bss_eval_documented hB hdir hload hcl hfit h m hest href
  refine ⟨P, perm, h1, h2, fun k => ?_, fun P' => ?_⟩
  · obtain ⟨a1, a2, a3⟩ := h3 k
    exact ⟨a1.trans (by rw [parts_docSdr (hp _ _)]), a2.trans (by rw [parts_docSir (hp _ _)]),
      a3.trans (by rw [parts_docSar (hp (P.ref k) _)])⟩
  · have hv : (fun k j => report o.clampDb (docSir o.filterLength (fun k => centred o.zeroMean (ref m k)) k
        (centred o.zeroMean (est m j)))) = fun k j => report o.clampDb (dbRatio (E (t k j)) (E (i k j))) := by
      funext k j
      rw [parts_docSir (hp k j)]
    have := h4 P'
    rwa [hv] at this

/-- **C92.**  Uncorrelated sources: if no two references correlate, an estimate that is a sum of the references, each passed through
some filter, and of noise that correlates with none of them, gets the energy ratios that its maker would expect. -/
theorem C92_uncorrelated_sources (hB : Covered B) (hdir : o.direct) (hsv : o.filterLength = 1 ∨ B.stackedVectors = true)
    (hload : o.load = 0) (hcl : o.clampOk) (hfit : FilterFits N o.filterLength) {ref est : Sig s c N} {out}
    (h : bssEvalSources B o false ref est = .ok out) (m : BIdx s) (k : Fin c)
    (hest : Audible (centred o.zeroMean (est m k)))
    (href : o.filterLength = 1 → Normalisable (centred o.zeroMean (ref m k)))
    (hx : UncorrelatedSources o.filterLength fun k => centred o.zeroMean (ref m k))
    {f : Fin c → Fin o.filterLength → ℝ} {noise : ℕ → ℝ}
    (hy : ∀ t, zpad (centred o.zeroMean (est m k)) t = ∑ k', filtered (f k') (centred o.zeroMean (ref m k')) t + noise t)
    (hn : ∀ k', UncorrelatedTo o.filterLength (centred o.zeroMean (ref m k')) noise) :
    let k₀ := k.cast (min_self c).symm
    let E := fun k' => energyTo (N + o.filterLength - 1) (filtered (f k') (centred o.zeroMean (ref m k')))
    let En := energyTo (N + o.filterLength - 1) noise
    out.sdr m k₀ = report o.clampDb (dbRatio (E k) (∑ k' ∈ Finset.univ.erase k, E k' + En)) ∧
    out.sir m k₀ = report o.clampDb (dbRatio (E k) (∑ k' ∈ Finset.univ.erase k, E k')) ∧
    out.sar m k₀ = report o.clampDb (dbRatio (∑ k', E k') En) := by
  intro k₀ E En
  have hD : N + o.filterLength ≤ N + o.filterLength - 1 + 1 := by omega
  obtain ⟨h1, h2, h3⟩ := C92_bss_eval hB hdir hsv hload hcl hfit h m k hest href (parts_of_sources hx hy hn k)
  rw [energy_rest hD hn, energy_sources hD hx] at h1
  rw [energy_sources hD hx] at h2
  have hs : (fun τ => filtered (f k) (centred o.zeroMean (ref m k)) τ +
      ∑ k' ∈ Finset.univ.erase k, filtered (f k') (centred o.zeroMean (ref m k')) τ) =
      fun τ => ∑ k', filtered (f k') (centred o.zeroMean (ref m k')) τ :=
    funext fun τ => Finset.add_sum_erase _ (fun k' => filtered (f k') (centred o.zeroMean (ref m k')) τ) (Finset.mem_univ k)
  rw [hs, energy_sources hD hx] at h3
  exact ⟨h1, h2, h3⟩

/-- **C92.**  `sdr_loss` for a filtered reference plus noise that does not correlate with the delayed reference: the
signal-to-noise ratio.  Nothing is asked of the other references. -/
theorem C92_noise (hB : Covered B) (hdir : o.direct) (hload : o.load = 0) (hcl : o.clampOk)
    (hfit : FilterFits N o.filterLength) {est : Sig s e N} {ref : Sig s r N} {L} (h : sdrLossPair B o est ref = .ok L)
    (m : BIdx s) (k : Fin r) (j : Fin e) (hest : Audible (centred o.zeroMean (est m j)))
    (href : o.filterLength = 1 → Normalisable (centred o.zeroMean (ref m k))) {f : Fin o.filterLength → ℝ} {noise : ℕ → ℝ}
    (hy : ∀ t, zpad (centred o.zeroMean (est m j)) t = filtered f (centred o.zeroMean (ref m k)) t + noise t)
    (hn : UncorrelatedTo o.filterLength (centred o.zeroMean (ref m k)) noise) :
    L m k j = (report o.clampDb (dbRatio (energyTo (N + o.filterLength - 1) (filtered f (centred o.zeroMean (ref m k))))
      (energyTo (N + o.filterLength - 1) noise))).neg := by
  rw [C01_sdr_loss_pairwise hB hdir hload hcl hfit h m k j hest href,
    docSdr_noise (x := fun k => centred o.zeroMean (ref m k)) hy hn]

/-- **C92.**  The plainest case: a scaled reference plus noise.  The length of the filter does not matter. -/
theorem C92_plain_noise (hB : Covered B) (hdir : o.direct) (hload : o.load = 0) (hcl : o.clampOk)
    (hfit : FilterFits N o.filterLength) {est : Sig s e N} {ref : Sig s r N} {L} (h : sdrLossPair B o est ref = .ok L)
    (m : BIdx s) (k : Fin r) (j : Fin e) (hest : Audible (centred o.zeroMean (est m j)))
    (href : o.filterLength = 1 → Normalisable (centred o.zeroMean (ref m k))) {g : ℝ} {noise : Fin N → ℝ}
    (hy : ∀ t, centred o.zeroMean (est m j) t = g * centred o.zeroMean (ref m k) t + noise t)
    (hn : Uncorrelated o.filterLength (centred o.zeroMean (ref m k)) noise) :
    L m k j = (report o.clampDb (dbRatio (g ^ 2 * power (centred o.zeroMean (ref m k))) (power noise))).neg := by
  have hL : o.filterLength ≠ 0 := by
    obtain ⟨coh, hcoh, rfl⟩ := sdrLossPair_entry h
    intro h0; simp only [sdrCohPair_def] at hcoh; rw [if_pos h0] at hcoh; cases hcoh
  rw [C92_noise (f := fun l => if l.val = 0 then g else 0) (noise := zpad noise) hB hdir hload hcl hfit h m k j hest href ?_ hn,
    show filtered (fun l : Fin o.filterLength => if l.val = 0 then g else 0) (centred o.zeroMean (ref m k)) =
      fun τ => g * zpad (centred o.zeroMean (ref m k)) τ from funext (filtered_scale hL g _),
    energyTo_scale, energyTo_zpad (by omega), energyTo_zpad (by omega)]
  intro t
  rw [filtered_scale hL]
  unfold zpad
  split_ifs with ht
  · exact hy ⟨t, ht⟩
  · rw [mul_zero, zero_add]

/-! Two pulses, far enough from each other for filters of two taps, and estimates in which they are mixed, with a third pulse in
between as noise. -/

namespace C92Ex

noncomputable def ref : Sig [] 2 5 := fun _ => ![![1, 0, 0, 0, 0], ![0, 0, 0, 0, 1]]
noncomputable def est : Sig [] 2 5 := fun _ => ![![2, 0, 3, 0, 1], ![1, 0, 0, 0, 2]]

theorem fits : FilterFits 5 Ex.opts.filterLength := by
  show 2 + 5 ≤ 2 ^ Nat.clog 2 9 + 1
  decide

theorem cen_eq (x : Sig [] 2 5) (m : BIdx []) (k : Fin 2) : centred Ex.opts.zeroMean (x m k) = x m k := Ex.cen_eq x m k

theorem independent (m : BIdx []) : IndependentShifts Ex.opts.filterLength fun k => centred Ex.opts.zeroMean (ref m k) := by
  show LinearIndependent ℝ fun p : Fin 2 × Fin 2 => shift 6 (centred Ex.opts.zeroMean (ref m p.2)) p.1
  simp only [cen_eq]
  rw [Fintype.linearIndependent_iff]
  intro g hg
  have key : ∀ t : Fin 6, ∑ p : Fin 2 × Fin 2, g p * shift 6 (ref m p.2) p.1 t = 0 := by
    intro t
    have := congrArg (fun v : Space 6 => v t) hg
    simpa using this
  simp only [Fintype.sum_prod_type, Fin.sum_univ_two, shift_apply] at key
  have h0 := key 0
  have h1 := key 1
  have h4 := key 4
  have h5 := key 5
  simp [zpad, ref] at h0 h1 h4 h5
  rintro ⟨i, j⟩
  fin_cases i <;> fin_cases j <;> simp_all

theorem bss_ok : ∃ out, bssEvalSources torchBackend Ex.opts false ref est = .ok out := by
  unfold bssEvalSources
  rw [if_neg Bool.false_ne_true, if_neg (by simp)]
  exact (C34_bss_eval_no_permutation Ex.covered Ex.direct (by decide) (Or.inr rfl) Ex.load (by decide) fits _ _).2.2
    fun m => independent m

theorem audible (m : BIdx []) : Audible (centred Ex.opts.zeroMean (est m 0)) := by
  rw [cen_eq]
  exact Ex.audible _ 0 (by simp [est])

theorem uncorrelated (m : BIdx []) : UncorrelatedSources Ex.opts.filterLength fun k => centred Ex.opts.zeroMean (ref m k) := by
  simp only [cen_eq]
  intro k k' hk l hl
  have hl : l < 2 := hl
  interval_cases l <;> fin_cases k <;> fin_cases k' <;> first | exact absurd rfl hk | simp [Fin.sum_univ_five, zpad, ref]

/-- The noise. -/
noncomputable def noise : ℕ → ℝ := fun t => if t = 2 then 3 else 0

theorem noise_uncorrelated (m : BIdx []) (k : Fin 2) :
    UncorrelatedTo Ex.opts.filterLength (centred Ex.opts.zeroMean (ref m k)) noise := by
  rw [cen_eq]
  intro l hl
  have hl : l < 2 := hl
  interval_cases l <;> fin_cases k <;> simp [Fin.sum_univ_five, noise, ref]

theorem mixture (m : BIdx []) (t : ℕ) : zpad (centred Ex.opts.zeroMean (est m 0)) t =
    ∑ k, filtered (![![2, 0], ![1, 0]] k : Fin Ex.opts.filterLength → ℝ) (centred Ex.opts.zeroMean (ref m k)) t + noise t := by
  simp only [cen_eq]
  have h : ∀ (k : Fin 2), filtered (![![2, 0], ![1, 0]] k : Fin Ex.opts.filterLength → ℝ) (ref m k) t = ![2, 1] k * zpad (ref m k) t := by
    intro k
    show ∑ l : Fin 2, _ = _
    rw [Fin.sum_univ_two]
    fin_cases k <;> simp
  rw [Finset.sum_congr rfl fun k _ => h k, Fin.sum_univ_two]
  by_cases ht : t < 5
  · interval_cases t <;> simp [zpad, est, ref, noise]
  · simp [zpad, ht, noise, show t ≠ 2 by omega]

end C92Ex

-- the SIR of the first estimate is 2² against 1², the SAR 2² + 1² against 3²
example : ∃ out, bssEvalSources torchBackend Ex.opts false C92Ex.ref C92Ex.est = .ok out ∧
    out.sir () ⟨0, by decide⟩ = report none (dbRatio
      (energyTo 6 (filtered (![2, 0] : Fin 2 → ℝ) (centred false (C92Ex.ref () 0))))
      (∑ k' ∈ Finset.univ.erase (0 : Fin 2), energyTo 6 (filtered (![![2, 0], ![1, 0]] k' : Fin 2 → ℝ) (centred false (C92Ex.ref () k'))))) := by
  obtain ⟨out, h⟩ := C92Ex.bss_ok
  exact ⟨out, h, (C92_uncorrelated_sources Ex.covered Ex.direct (Or.inr rfl) Ex.load Ex.clampOk C92Ex.fits h () 0 (C92Ex.audible ())
    (fun h => absurd h (by decide)) (C92Ex.uncorrelated ()) (C92Ex.mixture ()) (C92Ex.noise_uncorrelated ())).2.1⟩

example : ∃ (out : BssOut [] (min 2 2)) (t i a : ℕ → ℝ), bssEvalSources torchBackend Ex.opts false C92Ex.ref C92Ex.est = .ok out ∧
    out.sar () ⟨0, by decide⟩ = report none (dbRatio (energyTo 6 fun τ => t τ + i τ) (energyTo 6 a)) := by
  obtain ⟨out, h⟩ := C92Ex.bss_ok
  exact ⟨out, _, _, _, h, (C92_bss_eval Ex.covered Ex.direct (Or.inr rfl) Ex.load Ex.clampOk C92Ex.fits h () 0 (C92Ex.audible ())
    (fun h => absurd h (by decide)) (parts_of_sources (C92Ex.uncorrelated ()) (C92Ex.mixture ()) (C92Ex.noise_uncorrelated ()) 0)).2.2⟩

example : ∃ (out : BssOut [] (min 2 2)) (P : Pairing 2 2) (t i : Fin 2 → Fin 2 → ℕ → ℝ), bssEvalSources torchBackend Ex.opts true Ex.ref Ex.est = .ok out ∧
    ∀ k, out.sir () k = report none (dbRatio (energyTo 4 (t (P.ref k) (P.est k))) (energyTo 4 (i (P.ref k) (P.est k)))) := by
  obtain ⟨out, h⟩ := Ex.bss_cl none true
  choose t i a hp using fun k j => exists_parts (L := 2) (by decide) (fun k => centred Ex.opts.zeroMean (Ex.ref () k)) k
    (centred Ex.opts.zeroMean (Ex.est () j))
  obtain ⟨P, perm, -, -, h3, -⟩ := C92_bss_eval_permutation (o := Ex.opts) Ex.covered Ex.direct Ex.load Ex.clampOk Ex.fits h ()
    (Ex.est_audible ()) (fun h => absurd h (by decide)) hp
  exact ⟨out, P, t, i, h, fun k => (h3 k).2.1⟩

-- the first estimate of the example is twice the first reference plus the noise (0, 0, 1): 4 against 1
example : ∃ L, sdrLossPair torchBackend Ex.opts Ex.est Ex.ref = .ok L ∧
    L () 0 0 = (dbRatio (2 ^ 2 * power (centred false (Ex.ref () 0))) (power (![0, 0, 1] : Fin 3 → ℝ))).neg := by
  obtain ⟨L, h⟩ := Ex.sdrLossPair_ok
  refine ⟨L, h, C92_plain_noise (g := 2) Ex.covered Ex.direct Ex.load Ex.clampOk Ex.fits h () 0 0 (Ex.est_audible () 0)
    (fun h => absurd h (by decide)) (fun t => ?_) fun l hl => ?_⟩
  · show centred false _ t = 2 * centred false _ t + _
    simp only [centred, Bool.false_eq_true, if_false]
    fin_cases t <;> simp [Ex.est, Ex.ref]
  · have hl : l < 2 := hl
    show corr (centred false (Ex.ref () 0)) _ l = 0
    simp only [centred, Bool.false_eq_true, if_false]
    interval_cases l <;> simp [corr, Fin.sum_univ_three, Ex.ref, zpad]

end FBE.Props
