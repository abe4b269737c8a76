import Verif.Proofs.Tags

/-!
# C70: data types and devices of the results
-/

namespace FBE.Props

open Spec Tags

variable {D d d' : Device} {T t u : DType} {b pw cp : Bool} {o : Opt}

/-- C70, torch: `sdr_loss`, `sdr` (hence `sdr_pit_loss` and the scale-invariant functions) return tensors on the
device and with the data type (32 or 64 bit) of the signals, and raise no exception because of devices or data
types.  The default device does not matter; the default data type must not exceed that of the signals where the
iterative solver is used. -/
theorem C70_torch_sdr (ht : t = .f32 ∨ t = .f64) (hT : o.filterLength ≠ 1 → o.useCgIter ≠ none → Fits T t) :
    sdrLoss (.torch D T) o pw ⟨d, t⟩ ⟨d, t⟩ = .ok ⟨d, t⟩ ∧
    sdr (.torch D T) o ⟨d, t⟩ ⟨d, t⟩ = .ok (⟨d, t⟩, ⟨d, .int⟩) := by
  refine ⟨t_sdrLoss ht hT, ?_⟩
  unfold sdr
  rw [t_sdrLoss ht hT]
  rfl

example : sdr (.torch .cpu .f32) ⟨512, some 10, true, true⟩ ⟨.other 0, .f32⟩ ⟨.other 0, .f32⟩ =
    .ok (⟨.other 0, .f32⟩, ⟨.other 0, .int⟩) :=
  (C70_torch_sdr (pw := true) (Or.inl rfl) fun _ _ => ⟨Or.inl rfl, fun _ => rfl⟩).2

/-- C70, torch: the same for SDR, SIR, SAR and the permutation of `bss_eval_sources` with filters of more than one
tap. -/
theorem C70_torch_bss (ht : t = .f32 ∨ t = .f64) (h1 : o.filterLength ≠ 1) (hT : o.useCgIter ≠ none → Fits T t) :
    bssEval (.torch D T) o cp ⟨d, t⟩ ⟨d, t⟩ =
      .ok ⟨⟨d, t⟩, ⟨d, t⟩, ⟨d, t⟩, if cp then some ⟨d, .int⟩ else none⟩ :=
  t_bss_of_cosine ht (t_squareCosine ht h1 hT)

example : bssEval (.torch .cpu .f32) ⟨512, none, false, true⟩ true ⟨.other 1, .f64⟩ ⟨.other 1, .f64⟩ =
    .ok ⟨⟨.other 1, .f64⟩, ⟨.other 1, .f64⟩, ⟨.other 1, .f64⟩, some ⟨.other 1, .int⟩⟩ :=
  C70_torch_bss (Or.inr rfl) (by decide) fun h => absurd rfl h

/-- C70, torch: `si_bss_eval_sources`, and `bss_eval_sources` with one tap.  Without `load_diag` as above.  With
`load_diag` the call fails with `RuntimeError` on every device but the default one, and also if the default data
type exceeds that of the signals. -/
theorem C70_torch_bss_length_one (ht : t = .f32 ∨ t = .f64) (hT : T = .f32 ∨ T = .f64) (h1 : o.filterLength = 1) :
    (o.loadDiag = false ∨ (D = d ∧ (t = .f32 → T = .f32)) →
      bssEval (.torch D T) o cp ⟨d, t⟩ ⟨d, t⟩ =
        .ok ⟨⟨d, t⟩, ⟨d, t⟩, ⟨d, t⟩, if cp then some ⟨d, .int⟩ else none⟩) ∧
    (o.loadDiag = true ∧ ¬ (D = d ∧ (t = .f32 → T = .f32)) →
      bssEval (.torch D T) o cp ⟨d, t⟩ ⟨d, t⟩ = .error .runtimeError) := by
  constructor
  · intro h
    apply t_bss_of_cosine ht
    unfold squareCosine lengthOne
    rw [if_pos h1]
    rcases h with h | ⟨rfl, h⟩
    · cases cp <;>
        simp only [t_prepare ht, t_einsum, t_scal ht, t_solve, h, ok_bind', pure_ok, if_true, if_false,
          Bool.false_eq_true, Option.getD_some]
    · cases hl : o.loadDiag
      · cases cp <;>
          simp only [t_prepare ht, t_einsum, t_scal ht, t_solve, ok_bind', pure_ok, if_true, if_false,
            Bool.false_eq_true, Option.getD_some]
      · have : binop (.torch D T) ⟨D, t⟩ (scal (.torch D T) (eye (.torch D T))) = .ok ⟨D, t⟩ := by
          rcases ht with rfl | rfl
          · cases h rfl
            simp [eye, scal, binop, promote]
          · rcases hT with rfl | rfl <;> simp [eye, scal, binop, promote]
        cases cp <;>
          simp only [t_prepare ht, t_einsum, t_scal ht, t_solve, this, ok_bind', pure_ok, if_true, if_false,
            Bool.false_eq_true, Option.getD_some]
  · rintro ⟨hl, h⟩
    unfold bssEval squareCosine lengthOne
    rw [if_pos h1]
    by_cases hD : D = d
    · subst hD
      have ht' : t = .f32 := by
        by_contra hc
        exact h ⟨rfl, fun h' => absurd h' hc⟩
      subst ht'
      have hT' : T = .f64 := by
        rcases hT with rfl | rfl
        · exact absurd ⟨rfl, fun _ => rfl⟩ h
        · rfl
      subst hT'
      have : binop (.torch D .f64) ⟨D, .f32⟩ (scal (.torch D .f64) (eye (.torch D .f64))) = .ok ⟨D, .f64⟩ := by
        simp [eye, scal, binop, promote]
      have hs : solve (.torch D .f64) ⟨D, .f64⟩ ⟨D, .f32⟩ = .error .runtimeError := by simp [solve]
      cases cp <;>
        simp only [t_prepare ht, t_einsum, t_scal ht, hs, this, hl, ok_bind', error_bind', pure_ok, if_true, if_false,
          Bool.false_eq_true]
    · have : binop (.torch D T) ⟨d, t⟩ (scal (.torch D T) (eye (.torch D T))) = .error .runtimeError := by
        rcases hT with rfl | rfl <;> simp [eye, scal, binop, Ne.symm hD]
      cases cp <;>
        simp only [t_prepare ht, t_einsum, this, hl, ok_bind', error_bind', pure_ok, if_true, if_false,
          Bool.false_eq_true]

example : bssEval (.torch .cpu .f32) ⟨1, none, false, true⟩ true ⟨.other 0, .f32⟩ ⟨.other 0, .f32⟩ =
    .error .runtimeError :=
  (C70_torch_bss_length_one (Or.inl rfl) (Or.inl rfl) rfl).2 ⟨rfl, by simp⟩

example : bssEval (.torch (.other 0) .f32) ⟨1, none, false, true⟩ false ⟨.other 0, .f32⟩ ⟨.other 0, .f32⟩ =
    .ok ⟨⟨.other 0, .f32⟩, ⟨.other 0, .f32⟩, ⟨.other 0, .f32⟩, none⟩ :=
  (C70_torch_bss_length_one (Or.inl rfl) (Or.inl rfl) rfl).1 (Or.inr ⟨rfl, fun _ => rfl⟩)

/-- C70, torch: references and estimates on different devices, or signals of integers, are rejected with
`RuntimeError` by all functions. -/
theorem C70_torch_rejects :
    (d ≠ d' → (t = .f32 ∨ t = .f64) → (u = .f32 ∨ u = .f64) →
      sdrLoss (.torch D T) o pw ⟨d', u⟩ ⟨d, t⟩ = .error .runtimeError ∧
      sdr (.torch D T) o ⟨d, t⟩ ⟨d', u⟩ = .error .runtimeError ∧
      bssEval (.torch D T) o cp ⟨d, t⟩ ⟨d', u⟩ = .error .runtimeError) ∧
    sdrLoss (.torch D T) o pw ⟨d, .int⟩ ⟨d, .int⟩ = .error .runtimeError ∧
    sdr (.torch D T) o ⟨d, .int⟩ ⟨d, .int⟩ = .error .runtimeError ∧
    bssEval (.torch D T) o cp ⟨d, .int⟩ ⟨d, .int⟩ = .error .runtimeError := by
  have hi : ∀ pw, sdrLoss (.torch D T) o pw ⟨d, .int⟩ ⟨d, .int⟩ = .error .runtimeError := fun pw => by
    unfold sdrLoss lengthOne
    split <;> simp only [t_prepare_int, error_bind']
  constructor
  · intro hd ht hu
    have hl : ∀ pw, sdrLoss (.torch D T) o pw ⟨d', u⟩ ⟨d, t⟩ = .error .runtimeError := fun pw => by
      unfold sdrLoss
      split
      · rw [x_lengthOne hd ht hu, error_bind']
      · simp only [t_prepare ht, t_prepare hu, x_computeStats hd ht hu, ok_bind', error_bind']
    refine ⟨hl pw, ?_, ?_⟩
    · unfold sdr
      rw [hl, error_bind']
    · unfold bssEval squareCosine
      split
      · rw [x_lengthOne hd ht hu, error_bind', error_bind']
      · simp only [t_prepare ht, t_prepare hu, x_computeStats2 hd ht hu, ok_bind', error_bind']
  · refine ⟨hi pw, ?_, ?_⟩
    · unfold sdr
      rw [hi, error_bind']
    · unfold bssEval squareCosine lengthOne
      split <;> simp only [t_prepare_int, error_bind']

example : sdr (.torch .cpu .f32) ⟨512, none, false, false⟩ ⟨.cpu, .f32⟩ ⟨.other 0, .f32⟩ = .error .runtimeError :=
  ((C70_torch_rejects (pw := true) (cp := true)).1 (by decide) (Or.inl rfl) (Or.inl rfl)).2.1

/-- C70, numpy: the precision of `sdr_loss` and `sdr`.  Any combination of integers, half, single and double
precision is accepted.  The result has the larger precision of the two signals (integers count as double) for
filters of one tap, at least single precision for longer filters, and always double precision if the iterative
solver runs at least once. -/
theorem C70_numpy_sdr (ht : IsSignalType t) (hu : IsSignalType u) :
    sdrLoss (.numpy b) o pw (arr u) (arr t) = .ok (arr (floatOfBits (numpyBits o t u))) ∧
    sdr (.numpy b) o (arr t) (arr u) = .ok (arr (floatOfBits (numpyBits o t u)), arr .int) := by
  refine ⟨n_sdrLoss ht hu, ?_⟩
  unfold sdr
  rw [n_sdrLoss ht hu]
  rfl

example : sdr (.numpy true) ⟨512, none, false, false⟩ (arr .f32) (arr .f32) = .ok (arr .f32, arr .int) :=
  (C70_numpy_sdr (pw := true) (Or.inr (Or.inr (Or.inl rfl))) (Or.inr (Or.inr (Or.inl rfl)))).2

example : sdr (.numpy true) ⟨512, some 10, false, false⟩ (arr .f32) (arr .f32) = .ok (arr .f64, arr .int) :=
  (C70_numpy_sdr (pw := true) (Or.inr (Or.inr (Or.inl rfl))) (Or.inr (Or.inr (Or.inl rfl)))).2

/-- C70, numpy: `bss_eval_sources` with filters of more than one tap: the same precision for all three metrics. -/
theorem C70_numpy_bss (ht : IsSignalType t) (hu : IsSignalType u) (h1 : o.filterLength ≠ 1) :
    let r := arr (floatOfBits (numpyBits o t u))
    bssEval (.numpy b) o cp (arr t) (arr u) = .ok ⟨r, r, r, if cp then some (arr .int) else none⟩ := by
  intro r
  have hr : r = arr (solType o t u) := by rw [solType_bits h1]
  rw [hr]
  unfold bssEval
  rw [n_squareCosine ht hu h1]
  simp only [n_self (Or.inr solType_single), n_cohToNegSdr (Or.inr solType_single), ok_bind', pure_ok]
  rfl

example : bssEval (.numpy false) ⟨512, none, false, true⟩ true (arr .int) (arr .f32) =
    .ok ⟨arr .f64, arr .f64, arr .f64, some (arr .int)⟩ :=
  C70_numpy_bss (Or.inl rfl) (Or.inr (Or.inr (Or.inl rfl))) (by decide)

/-- C70, numpy: `si_bss_eval_sources`, and `bss_eval_sources` with one tap.  `TypeError` if both
signals have half precision, or if the references have it and `load_diag` is not given.  Otherwise the SDR has the precision of the signals; SIR and SAR too, but double precision with `load_diag`. -/
theorem C70_numpy_bss_length_one (ht : IsSignalType t) (hu : IsSignalType u) (h1 : o.filterLength = 1) :
    let half := (bits t = 16 ∧ bits u = 16) ∨ (bits t = 16 ∧ o.loadDiag = false)
    let r := arr (floatOfBits (max (bits t) (bits u)))
    let r' := if o.loadDiag then arr .f64 else r
    (half → bssEval (.numpy b) o cp (arr t) (arr u) = .error .typeError) ∧
    (¬ half → bssEval (.numpy b) o cp (arr t) (arr u) =
      .ok ⟨r, r', r', if cp then some (arr .int) else none⟩) := by
  obtain ⟨L, cg, zm, ld⟩ := o
  dsimp only at h1 ⊢
  subst h1
  unfold bssEval squareCosine lengthOne
  simp only [n_prepare ht, n_prepare hu, ok_bind', if_true]
  rcases ht with rfl | rfl | rfl | rfl <;> rcases hu with rfl | rfl | rfl | rfl <;> cases ld <;> cases cp <;>
    cases b <;> constructor <;> intro h <;> first | rfl | (exfalso; revert h; simp [bits])

example : bssEval (.numpy true) ⟨1, none, false, true⟩ false (arr .f32) (arr .f32) =
    .ok ⟨arr .f32, arr .f64, arr .f64, none⟩ :=
  (C70_numpy_bss_length_one (Or.inr (Or.inr (Or.inl rfl))) (Or.inr (Or.inr (Or.inl rfl))) rfl).2 (by simp [bits])

example : bssEval (.numpy true) ⟨1, none, false, false⟩ true (arr .f16) (arr .f64) = .error .typeError :=
  (C70_numpy_bss_length_one (Or.inr (Or.inl rfl)) (Or.inr (Or.inr (Or.inr rfl))) rfl).1 (by simp [bits])

end FBE.Props
