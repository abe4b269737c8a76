import Verif.Props.C66_LeastSquares
import Verif.Props.C09_C10_Filters
import Verif.Proofs.Late
import Verif.Props.C32_C34_Failures

/-!
# C94 — longer filters make up for reverberant references and for late estimates
-/

namespace FBE.Props

open Spec XR

variable {s : List ℕ} {r e c N : ℕ} {B : Backend} {o : Opts}

theorem fits_shorter {L L' : ℕ} (h : L ≤ L') (hf : FilterFits N L') : FilterFits N L := by
  unfold FilterFits at *
  omega

theorem power_audible {y : Fin N → ℝ} (h : Audible y) : 0 < power y := by
  rw [power_eq le_rfl]
  exact (gain_sq_energy le_rfl h).2

theorem audible_late {d : ℕ} {y y' : Fin N → ℝ} (hy : IsLate d y y') (h : Audible y) : Audible y' := by
  have e : sigNorm y' = sigNorm y := congrArg Real.sqrt (power_late hy)
  unfold Audible at *
  rwa [e]

/-- Less left by the best filter, a smaller loss. -/
theorem neg_report_mono (hcl : o.clampOk) {E a b : ℝ} (hE : 0 < E) (ha : 0 ≤ a) (hab : a ≤ b) (hb : b ≤ E) :
    toEReal (report o.clampDb (dbRatio (E - a) a)).neg ≤ toEReal (report o.clampDb (dbRatio (E - b) b)).neg := by
  have key : ∀ c, 0 ≤ c → c ≤ E →
      (report o.clampDb (dbRatio (E - c) c)).neg = coherenceToNegSdr o.clampDb (fin (1 - c / E)) := fun c h0 h1 =>
    (loss_eq hcl hE (a := E - c) (b := c) (sub_nonneg.2 ((div_le_one hE).2 h1))
      (sub_le_self _ (by positivity)) (by field_simp) (by field_simp; ring)).symm
  rw [key a ha (hab.trans hb), key b (ha.trans hab) hb]
  exact coherenceToNegSdr_anti _ (by gcongr)

/-! ### references that are filtered sources -/

/-- **C94.**  Direct solver, no loading.  The references `wet` are the references `dry` passed through filters
of `K` taps, with nothing cut off: an SDR with filters of `L` taps against `wet` is never better than with
filters of `L + K - 1` taps against `dry`. -/
theorem C94_reverberation (hB : Covered B) (hdir : o.useCgIter = none) (hload : o.load = 0) (hcl : o.clampOk) {L K : ℕ} (hL : 1 ≤ L)
    (hK : 1 ≤ K) (hfit : FilterFits N (L + K - 1)) {est : Sig s e N} {dry wet : Sig s r N} {M M'}
    (h : sdrLossPair B { o with filterLength := L } est wet = .ok M)
    (h' : sdrLossPair B { o with filterLength := L + K - 1 } est dry = .ok M') (m : BIdx s) (k : Fin r) (j : Fin e)
    (hest : Audible (centred o.zeroMean (est m j)))
    (hwet : L = 1 → Normalisable (centred o.zeroMean (wet m k)))
    (hdry : L = 1 → K = 1 → Normalisable (centred o.zeroMean (dry m k)))
    (hw : IsFiltered K (centred o.zeroMean (dry m k)) (centred o.zeroMean (wet m k))) :
    toEReal (M' m k j) ≤ toEReal (M m k j) := by
  obtain ⟨f, hf⟩ := exists_bestFilter L (centred o.zeroMean (wet m k)) (centred o.zeroMean (est m j))
  obtain ⟨f', hf'⟩ := exists_bestFilter (L + K - 1) (centred o.zeroMean (dry m k)) (centred o.zeroMean (est m j))
  obtain ⟨g, hg⟩ := exists_dry hL hK hw f (y := centred o.zeroMean (est m j))
  have e := C66_sdr_loss (o := { o with filterLength := L }) hB (Or.inr hdir) hload hcl (fits_shorter (show L ≤ L + K - 1 by omega) hfit) h m k j hest hwet hf
  have e' := C66_sdr_loss (o := { o with filterLength := L + K - 1 }) hB (Or.inr hdir) hload hcl hfit h' m k j hest
    (fun h1 => hdry (by simp only at h1; omega) (by simp only at h1; omega)) hf'
  rw [e, e']
  exact neg_report_mono hcl (power_audible hest) (residualOne_nonneg _ _ _) ((hf' g).trans_eq hg) (best_le_power hL hf)

/-- **C94.**  The same for `bss_eval_sources` without permutation.  For the SAR, the references may also be
filtered sums of the `dry` references. -/
theorem C94_reverberation_bss_eval (hB : Covered B) (hdir : o.useCgIter = none) (hload : o.load = 0) (hcl : o.clampOk)
    {L K : ℕ} (hL : 1 ≤ L) (hK : 1 ≤ K) (hsv : L + K = 2 ∨ B.stackedVectors = true) (hfit : FilterFits N (L + K - 1))
    {est dry wet : Sig s c N} {out out'}
    (h : bssEvalSources B { o with filterLength := L } false wet est = .ok out)
    (h' : bssEvalSources B { o with filterLength := L + K - 1 } false dry est = .ok out') (m : BIdx s) (k : Fin c)
    (hest : Audible (centred o.zeroMean (est m k)))
    (hwet : L = 1 → Normalisable (centred o.zeroMean (wet m k)))
    (hdry : L = 1 → K = 1 → Normalisable (centred o.zeroMean (dry m k))) :
    let k' := k.cast (min_self c).symm
    (IsFiltered K (centred o.zeroMean (dry m k)) (centred o.zeroMean (wet m k)) →
      toEReal (out.sdr m k') ≤ toEReal (out'.sdr m k')) ∧
    ((∀ q, IsRemix K (fun q => centred o.zeroMean (dry m q)) (centred o.zeroMean (wet m q))) →
      toEReal (out.sar m k') ≤ toEReal (out'.sar m k')) := by
  obtain ⟨f, hf⟩ := exists_bestFilter L (centred o.zeroMean (wet m k)) (centred o.zeroMean (est m k))
  obtain ⟨f', hf'⟩ := exists_bestFilter (L + K - 1) (centred o.zeroMean (dry m k)) (centred o.zeroMean (est m k))
  obtain ⟨a, ha⟩ := exists_bestFilters L (fun q => centred o.zeroMean (wet m q)) (centred o.zeroMean (est m k))
  obtain ⟨a', ha'⟩ := exists_bestFilters (L + K - 1) (fun q => centred o.zeroMean (dry m q)) (centred o.zeroMean (est m k))
  obtain ⟨e1, -, e3⟩ := C66_bss_eval (o := { o with filterLength := L }) hB (Or.inr hdir)
    (hsv.imp (fun h => show L = 1 by omega) id) hload hcl (fits_shorter (show L ≤ L + K - 1 by omega) hfit) h m k hest hwet hf ha
  obtain ⟨e1', -, e3'⟩ := C66_bss_eval (o := { o with filterLength := L + K - 1 }) hB (Or.inr hdir)
    (hsv.imp (fun h => show L + K - 1 = 1 by omega) id) hload hcl hfit h' m k hest
    (fun h1 => hdry (by simp only at h1; omega) (by simp only at h1; omega)) hf' ha'
  refine ⟨fun hw => ?_, fun hw => ?_⟩
  · rw [e1, e1']
    obtain ⟨g, hg⟩ := exists_dry hL hK hw f (y := centred o.zeroMean (est m k))
    exact report_residual_mono hcl (power_audible hest) (residualOne_nonneg _ _ _) ((hf' g).trans_eq hg) (best_le_power hL hf)
  · rw [e3, e3']
    obtain ⟨g, hg⟩ := exists_dry_all hL hK hw a (y := centred o.zeroMean (est m k))
    exact report_residual_mono hcl (power_audible hest) (residualAll_nonneg _ _ _) ((ha' g).trans_eq hg) (bestAll_le_power hL ha)

/-! ### late estimates -/

/-- **C94.**  Direct solver, no loading.  An estimate that comes `d` samples later (with nothing cut off) has,
with `d` more filter taps, an SDR at least as good. -/
theorem C94_latency (hB : Covered B) (hdir : o.useCgIter = none) (hload : o.load = 0) (hcl : o.clampOk) {L d : ℕ} (hL : 1 ≤ L)
    (hfit : FilterFits N (L + d)) {ref : Sig s r N} {est late : Sig s e N} {M M'}
    (h : sdrLossPair B { o with filterLength := L } est ref = .ok M)
    (h' : sdrLossPair B { o with filterLength := L + d } late ref = .ok M') (m : BIdx s) (k : Fin r) (j : Fin e)
    (hest : Audible (centred o.zeroMean (est m j)))
    (href : L = 1 → Normalisable (centred o.zeroMean (ref m k)))
    (hd : IsLate d (centred o.zeroMean (est m j)) (centred o.zeroMean (late m j))) :
    toEReal (M' m k j) ≤ toEReal (M m k j) := by
  obtain ⟨f, hf⟩ := exists_bestFilter L (centred o.zeroMean (ref m k)) (centred o.zeroMean (est m j))
  obtain ⟨f', hf'⟩ := exists_bestFilter (L + d) (centred o.zeroMean (ref m k)) (centred o.zeroMean (late m j))
  have e := C66_sdr_loss (o := { o with filterLength := L }) hB (Or.inr hdir) hload hcl
    (fits_shorter (show L ≤ L + d by omega) hfit) h m k j hest href hf
  have e' := C66_sdr_loss (o := { o with filterLength := L + d }) hB (Or.inr hdir) hload hcl hfit h' m k j
    (audible_late hd hest) (fun h1 => href (by simp only at h1; omega)) hf'
  rw [e, e']
  dsimp only
  rw [power_late hd]
  exact neg_report_mono hcl (power_audible hest) (residualOne_nonneg _ _ _) ((hf' _).trans_eq (residual_later hL hd f))
    (best_le_power hL hf)

/-- **C94.**  The same for SDR and SAR of `bss_eval_sources` without permutation. -/
theorem C94_latency_bss_eval (hB : Covered B) (hdir : o.useCgIter = none) (hload : o.load = 0) (hcl : o.clampOk)
    {L d : ℕ} (hL : 1 ≤ L) (hsv : L + d = 1 ∨ B.stackedVectors = true) (hfit : FilterFits N (L + d))
    {ref est late : Sig s c N} {out out'}
    (h : bssEvalSources B { o with filterLength := L } false ref est = .ok out)
    (h' : bssEvalSources B { o with filterLength := L + d } false ref late = .ok out') (m : BIdx s) (k : Fin c)
    (hest : Audible (centred o.zeroMean (est m k)))
    (href : L = 1 → Normalisable (centred o.zeroMean (ref m k)))
    (hd : IsLate d (centred o.zeroMean (est m k)) (centred o.zeroMean (late m k))) :
    let k' := k.cast (min_self c).symm
    toEReal (out.sdr m k') ≤ toEReal (out'.sdr m k') ∧ toEReal (out.sar m k') ≤ toEReal (out'.sar m k') := by
  obtain ⟨f, hf⟩ := exists_bestFilter L (centred o.zeroMean (ref m k)) (centred o.zeroMean (est m k))
  obtain ⟨f', hf'⟩ := exists_bestFilter (L + d) (centred o.zeroMean (ref m k)) (centred o.zeroMean (late m k))
  obtain ⟨a, ha⟩ := exists_bestFilters L (fun q => centred o.zeroMean (ref m q)) (centred o.zeroMean (est m k))
  obtain ⟨a', ha'⟩ := exists_bestFilters (L + d) (fun q => centred o.zeroMean (ref m q)) (centred o.zeroMean (late m k))
  obtain ⟨e1, -, e3⟩ := C66_bss_eval (o := { o with filterLength := L }) hB (Or.inr hdir)
    (hsv.imp (fun h => show L = 1 by omega) id) hload hcl (fits_shorter (show L ≤ L + d by omega) hfit) h m k hest href hf ha
  obtain ⟨e1', -, e3'⟩ := C66_bss_eval (o := { o with filterLength := L + d }) hB (Or.inr hdir)
    (hsv.imp (fun h => show L + d = 1 by omega) id) hload hcl hfit h' m k (audible_late hd hest)
    (fun h1 => href (by simp only at h1; omega)) hf' ha'
  dsimp only at e1' e3'
  rw [power_late hd] at e1' e3'
  refine ⟨?_, ?_⟩
  · rw [e1, e1']
    exact report_residual_mono hcl (power_audible hest) (residualOne_nonneg _ _ _) ((hf' _).trans_eq (residual_later hL hd f))
      (best_le_power hL hf)
  · rw [e3, e3']
    exact report_residual_mono hcl (power_audible hest) (residualAll_nonneg _ _ _)
      ((ha' _).trans_eq (residual_later_all hL hd a)) (bestAll_le_power hL ha)

/-! ### the hypotheses can be met -/

namespace ExLate

def dry : Sig [] 1 3 := fun _ _ => ![1, 2, 0]
def wet : Sig [] 1 3 := fun _ _ => ![1, 3, 2]
def late : Sig [] 1 3 := fun _ _ => ![0, 1, 2]
def est : Sig [] 1 3 := fun _ _ => ![1, 0, 1]

theorem one_independent {L : ℕ} (x : Fin 1 → Fin N → ℝ) (hL : 1 ≤ L) (hx : x 0 ≠ 0) : IndependentShifts L x := by
  have h := shift_linearIndependent (N + L - 1) L (by omega) hx
  have h2 := h.comp (fun p : Fin L × Fin 1 => p.1) fun p q hpq => Prod.ext hpq (Subsingleton.elim _ _)
  unfold IndependentShifts
  convert h2 using 2 with p
  rw [Subsingleton.elim p.2 0]
  rfl

theorem cen (x : Fin 3 → ℝ) : centred Ex.opts.zeroMean x = x := by
  show centred false x = x
  simp [centred]

theorem ne_zero (x : Fin 3 → ℝ) (t : Fin 3) (h : x t = 1) : centred Ex.opts.zeroMean x ≠ 0 := fun h0 => by
  rw [cen] at h0
  rw [h0] at h
  exact zero_ne_one h

theorem audible (x : Fin 3 → ℝ) (t : Fin 3) (h : x t = 1) : Audible (centred Ex.opts.zeroMean x) := by
  rw [cen]
  exact Ex.audible x t h.ge

theorem normalisable (x : Fin 3 → ℝ) (t : Fin 3) (h : x t = 1) : Normalisable (centred Ex.opts.zeroMean x) :=
  Or.inl (audible x t h)

theorem filtered_wet (m : BIdx []) (k : Fin 1) :
    IsFiltered 2 (centred Ex.opts.zeroMean (dry m k)) (centred Ex.opts.zeroMean (wet m k)) := by
  rw [cen, cen]
  have e : wet m k = convolve (L := 2) ![1, 1] (dry m k) := by
    ext t
    fin_cases t <;> (simp [convolve, zpad, wet, dry]; try norm_num)
  rw [e]
  exact C10_convolution _ _ fun t ht => by fin_cases t <;> simp_all [dry]

theorem remix_wet (m : BIdx []) (k : Fin 1) :
    IsRemix 2 (fun q => centred Ex.opts.zeroMean (dry m q)) (centred Ex.opts.zeroMean (wet m k)) := by
  obtain ⟨h, hh⟩ := filtered_wet m k
  refine ⟨fun _ => h, fun t => ?_⟩
  rw [Fin.sum_univ_one, hh t]
  rfl

theorem is_late (m : BIdx []) (k : Fin 1) :
    IsLate 1 (centred Ex.opts.zeroMean (dry m k)) (centred Ex.opts.zeroMean (late m k)) := by
  rw [cen, cen]
  intro t
  match t with
  | 0 => simp [late, zpad]
  | 1 => simp [late, dry, zpad]
  | 2 => simp [late, dry, zpad]
  | t + 3 =>
    rw [zpad_of_le _ (by omega), if_pos (by omega)]
    by_cases h : t = 0
    · subst h; simp [dry, zpad]
    · rw [zpad_of_le _ (by omega)]

theorem runs_ok (o : Opts) (ho : o.filterLength = 1 ∨ o.filterLength = 2) (hc : o.useCgIter = none) (hz : o.zeroMean = false)
    (hl : o.load = 0) (ref est : Sig [] 1 3) (t : Fin 3) (hr : ref () 0 t = 1) :
    (∃ M, sdrLossPair torchBackend o est ref = .ok M) ∧ ∃ out, bssEvalSources torchBackend o false ref est = .ok out := by
  have hf : FilterFits 3 o.filterLength := by
    rcases ho with h | h <;> rw [h]
    · exact fits_shorter (L' := 2) (by norm_num) Ex.fits
    · exact Ex.fits
  have hn : ∀ (m : BIdx []) (k : Fin 1), centred o.zeroMean (ref m k) ≠ 0 := fun m k => by
    rw [Subsingleton.elim k 0, hz]
    exact ne_zero _ t hr
  refine ⟨?_, ?_⟩
  · rcases ho with h | h
    · exact C34_sdr_loss_length_one h _ _
    · exact (C34_sdr_loss Ex.covered hc h.ge hl (by norm_num) hf _ _).2.2 hn
  · obtain ⟨out, h⟩ := (C34_bss_eval_no_permutation Ex.covered (o := o) (Or.inr hc) (by omega) (Or.inr rfl) hl (by norm_num) hf ref est).2.2
      fun m => one_independent _ (by omega) (hn m 0)
    exact ⟨out, h⟩

end ExLate

open ExLate in
/-- One tap against the reverberant reference, two taps against the dry one. -/
example : ∃ M M', sdrLossPair torchBackend { Ex.opts with filterLength := 1 } est wet = .ok M ∧
    sdrLossPair torchBackend { Ex.opts with filterLength := 2 } est dry = .ok M' ∧
    toEReal (M' () 0 0) ≤ toEReal (M () 0 0) := by
  obtain ⟨⟨M, h⟩, -⟩ := runs_ok { Ex.opts with filterLength := 1 } (Or.inl rfl) rfl rfl rfl wet est 0 rfl
  obtain ⟨⟨M', h'⟩, -⟩ := runs_ok { Ex.opts with filterLength := 2 } (Or.inr rfl) rfl rfl rfl dry est 0 rfl
  exact ⟨M, M', h, h', C94_reverberation (o := Ex.opts) (L := 1) (K := 2) Ex.covered rfl Ex.load Ex.clampOk le_rfl
    (by norm_num) Ex.fits h h' () 0 0 (audible _ 0 rfl) (fun _ => normalisable _ 0 rfl) (fun _ h => absurd h (by norm_num))
    (filtered_wet () 0)⟩

open ExLate in
example : ∃ out out', bssEvalSources torchBackend { Ex.opts with filterLength := 1 } false wet est = .ok out ∧
    bssEvalSources torchBackend { Ex.opts with filterLength := 2 } false dry est = .ok out' ∧
    toEReal (out.sdr () ⟨0, by decide⟩) ≤ toEReal (out'.sdr () ⟨0, by decide⟩) ∧
    toEReal (out.sar () ⟨0, by decide⟩) ≤ toEReal (out'.sar () ⟨0, by decide⟩) := by
  obtain ⟨-, out, h⟩ := runs_ok { Ex.opts with filterLength := 1 } (Or.inl rfl) rfl rfl rfl wet est 0 rfl
  obtain ⟨-, out', h'⟩ := runs_ok { Ex.opts with filterLength := 2 } (Or.inr rfl) rfl rfl rfl dry est 0 rfl
  have hc := C94_reverberation_bss_eval (o := Ex.opts) (L := 1) (K := 2) Ex.covered rfl Ex.load Ex.clampOk le_rfl
    (by norm_num) (Or.inr rfl) Ex.fits h h' () 0 (audible _ 0 rfl) (fun _ => normalisable _ 0 rfl)
    (fun _ h => absurd h (by norm_num))
  exact ⟨out, out', h, h', hc.1 (filtered_wet () 0), hc.2 (remix_wet ())⟩

open ExLate in
/-- An estimate one sample late. -/
example : ∃ M M', sdrLossPair torchBackend { Ex.opts with filterLength := 1 } dry est = .ok M ∧
    sdrLossPair torchBackend { Ex.opts with filterLength := 2 } late est = .ok M' ∧
    toEReal (M' () 0 0) ≤ toEReal (M () 0 0) := by
  obtain ⟨⟨M, h⟩, -⟩ := runs_ok { Ex.opts with filterLength := 1 } (Or.inl rfl) rfl rfl rfl est dry 0 rfl
  obtain ⟨⟨M', h'⟩, -⟩ := runs_ok { Ex.opts with filterLength := 2 } (Or.inr rfl) rfl rfl rfl est late 0 rfl
  exact ⟨M, M', h, h', C94_latency (o := Ex.opts) (L := 1) (d := 1) Ex.covered rfl Ex.load Ex.clampOk le_rfl
    Ex.fits h h' () 0 0 (audible _ 0 rfl) (fun _ => normalisable _ 0 rfl) (is_late () 0)⟩

open ExLate in
example : ∃ out out', bssEvalSources torchBackend { Ex.opts with filterLength := 1 } false est dry = .ok out ∧
    bssEvalSources torchBackend { Ex.opts with filterLength := 2 } false est late = .ok out' ∧
    toEReal (out.sdr () ⟨0, by decide⟩) ≤ toEReal (out'.sdr () ⟨0, by decide⟩) ∧
    toEReal (out.sar () ⟨0, by decide⟩) ≤ toEReal (out'.sar () ⟨0, by decide⟩) := by
  obtain ⟨-, out, h⟩ := runs_ok { Ex.opts with filterLength := 1 } (Or.inl rfl) rfl rfl rfl est dry 0 rfl
  obtain ⟨-, out', h'⟩ := runs_ok { Ex.opts with filterLength := 2 } (Or.inr rfl) rfl rfl rfl est late 0 rfl
  exact ⟨out, out', h, h', C94_latency_bss_eval (o := Ex.opts) (L := 1) (d := 1) Ex.covered rfl Ex.load Ex.clampOk le_rfl
    (Or.inr rfl) Ex.fits h h' () 0 (audible _ 0 rfl) (fun _ => normalisable _ 0 rfl) (is_late () 0)⟩

end FBE.Props
