import Verif.Proofs.ArrayLength
import Verif.Props.C61_Arrays

/-!
# C64 — `filter_length` and `use_cg_iter` that are zero or negative

Shapes are listed from the last axis to the first; `N` and `M` are the numbers of samples.  Negative lengths have
the meaning of Python slices relative to the size of the transform.
-/

namespace FBE.Props

open Spec Arrays Tensor

variable {b bx by' : List ℕ} {r e c N M k : ℕ} {A : Api} {o : AOpts} {ref est : Tensor ℝ}

theorem C64_size (hN : 0 < N) (M : ℕ) : nFft N M = .ok (transformSize N M) := by
  obtain ⟨n, hn⟩ := nFft_exists hN M
  rw [transformSize_eq hn, hn]

/-- **C64.**  `filter_length=0` is rejected by `sdr_loss`, whatever the other options. -/
theorem C64_zero_sdr_loss (hA : Installed A) (href : ref.shape = N :: r :: bx) (hest : est.shape = M :: e :: by')
    (pw : Bool) : ∃ err, sdrLoss A { o with filterLength := some 0 } pw est ref = .error err := by
  cases pw with
  | true => exact sdrLoss_zero_pair hA href hest
  | false => exact sdrLoss_zero_diag hA href hest

/-- **C64.**  `filter_length=0` is rejected by `sdr` and `sdr_pit_loss`. -/
theorem C64_zero_sdr (hA : Installed A) (href : ref.shape = N :: r :: bx) (hest : est.shape = M :: e :: by')
    (rp cs : Bool) : ∃ err, Arrays.sdr A { o with filterLength := some 0 } rp cs ref est = .error err := by
  obtain ⟨err, h⟩ := C64_zero_sdr_loss (o := o) hA href hest true
  exact ⟨err, sdr_bc h rp cs⟩

/-- **C64.**  `filter_length=0` is rejected by `bss_eval_sources`. -/
theorem C64_zero_bss_eval (hA : Installed A) (href : ref.shape = N :: r :: bx) (hest : est.shape = M :: e :: by')
    (cp : Bool) : ∃ err, Arrays.bssEvalSources A { o with filterLength := some 0 } cp ref est = .error err := by
  cases cp with
  | true =>
    obtain ⟨err, h⟩ := squareCosine_zero (o := o) hA href hest (.inl rfl)
    exact ⟨err, bssEval_of_cosine href hest (.inl rfl) h⟩
  | false =>
    by_cases hre : r = e
    · obtain ⟨err, h⟩ := squareCosine_zero (o := o) (pw := false) hA href hest (.inr hre)
      exact ⟨err, bssEval_of_cosine href hest (.inr hre) h⟩
    · exact ⟨_, bssEval_assert href hest hre⟩

/-- **C64.**  `sdr_loss` with `filter_length=-k` is `sdr_loss` with `k` taps less than the size of the transform:
the negative number is not rejected, the filter gets very long. -/
theorem C64_negative_sdr_loss (hA : Installed A) (href : ref.shape = N :: r :: bx) (hest : est.shape = M :: e :: by')
    (hN : 0 < N) (hk : 0 < k) (h1 : transformSize N M - k ≠ 1) (pw : Bool) :
    sdrLoss A { o with filterLength := some (-(k : ℤ)) } pw est ref =
      sdrLoss A { o with filterLength := some ((transformSize N M - k : ℕ) : ℤ) } pw est ref := by
  cases pw with
  | true => exact sdrLoss_neg_pair hA.lawful href hest hN (C64_size hN M) hk h1
  | false => exact sdrLoss_neg_diag hA.lawful href hest hN (C64_size hN M) hk h1

/-- **C64.**  The same for `sdr` and `sdr_pit_loss`. -/
theorem C64_negative_sdr (hA : Installed A) (href : ref.shape = N :: r :: bx) (hest : est.shape = M :: e :: by')
    (hN : 0 < N) (hk : 0 < k) (h1 : transformSize N M - k ≠ 1) (rp cs : Bool) :
    Arrays.sdr A { o with filterLength := some (-(k : ℤ)) } rp cs ref est =
      Arrays.sdr A { o with filterLength := some ((transformSize N M - k : ℕ) : ℤ) } rp cs ref est := by
  simp only [Arrays.sdr, C64_negative_sdr_loss hA href hest hN hk h1]

/-- **C64.**  From the size of the transform on a negative length leaves no tap and is rejected. -/
theorem C64_very_negative_sdr_loss (hA : Installed A) (href : ref.shape = N :: r :: bx)
    (hest : est.shape = M :: e :: by') (hN : 0 < N) (hk : transformSize N M ≤ k) (pw : Bool) :
    ∃ err, sdrLoss A { o with filterLength := some (-(k : ℤ)) } pw est ref = .error err := by
  have h0 := nFft_pos' (C64_size hN M)
  rw [C64_negative_sdr_loss hA href hest hN (by omega) (by omega), Nat.sub_eq_zero_of_le hk]
  exact C64_zero_sdr_loss hA href hest pw

/-- **C64.**  `bss_eval_sources` rejects a negative length, unless it is half the size of the transform. -/
theorem C64_negative_bss_eval (hA : Installed A) (href : ref.shape = N :: r :: bx) (hest : est.shape = M :: e :: by')
    (hN : 0 < N) (hk : 0 < k) (h2 : transformSize N M ≠ 2 * k) :
    ∃ err, Arrays.bssEvalSources A { o with filterLength := some (-(k : ℤ)) } true ref est = .error err := by
  obtain ⟨err, h⟩ := squareCosine_neg (o := o) hA href hest (C64_size hN M) hk h2 (.inl rfl)
  exact ⟨err, bssEval_of_cosine href hest (.inl rfl) h⟩

/-- **C64.**  Half the size of the transform: the same with and without the sign. -/
theorem C64_half_bss_eval (hA : Installed A) (href : ref.shape = N :: r :: bx) (hest : est.shape = M :: e :: by')
    (hN : 0 < N) (h1 : k ≠ 1) (h2 : transformSize N M = 2 * k) (cp : Bool) :
    Arrays.bssEvalSources A { o with filterLength := some (-(k : ℤ)) } cp ref est =
      Arrays.bssEvalSources A { o with filterLength := some (k : ℤ) } cp ref est := by
  have hn := C64_size hN M
  rw [h2] at hn
  simp only [Arrays.bssEvalSources, squareCosine_half hA href hest hn h1]

/-- **C64.**  Without permutation, a length that leaves no tap is rejected. -/
theorem C64_very_negative_bss_eval (hA : Installed A) (href : ref.shape = N :: r :: bx)
    (hest : est.shape = M :: e :: by') (hN : 0 < N) (hk : 2 * transformSize N M ≤ 3 * k) :
    ∃ err, Arrays.bssEvalSources A { o with filterLength := some (-(k : ℤ)) } false ref est = .error err := by
  have h0 := nFft_pos' (C64_size hN M)
  by_cases hre : r = e
  · obtain ⟨err, h⟩ := squareCosine_neg (o := o) (pw := false) hA href hest (C64_size hN M) (by omega) (by omega)
      (.inr ⟨hre, hk⟩)
    exact ⟨err, bssEval_of_cosine href hest (.inr hre) h⟩
  · exact ⟨_, bssEval_assert href hest hre⟩

/-- **C64.**  A negative `use_cg_iter` is `use_cg_iter=0`. -/
theorem C64_negative_iterations {it : ℤ} (h : it ≤ 0) (pw rp cs : Bool) :
    sdrLoss A { o with useCgIter := some it } pw est ref = sdrLoss A { o with useCgIter := some 0 } pw est ref ∧
    Arrays.sdr A { o with useCgIter := some it } rp cs ref est =
      Arrays.sdr A { o with useCgIter := some 0 } rp cs ref est ∧
    Arrays.bssEvalSources A { o with useCgIter := some it } pw ref est =
      Arrays.bssEvalSources A { o with useCgIter := some 0 } pw ref est := by
  refine ⟨sdrLoss_iter h pw, ?_, ?_⟩
  · simp only [Arrays.sdr, sdrLoss_iter h]
  · simp only [Arrays.bssEvalSources, squareCosine_iter h]

variable {p : Opts}

/-- What `sdr_loss` returns for a zero filter. -/
def worstLoss : Option ℝ → XR
  | none => .pinf
  | some d => .fin d

/-- **C64.**  Without iterations every loss is `+inf`, or `clamp_db`, whatever the signals. -/
theorem C64_no_iterations_sdr_loss (hA : Installed A) (href : ref.shape = N :: r :: bx)
    (hest : est.shape = M :: e :: by') (hb : bcShape bx by' = some b) (hbx : bx.length = b.length) (hN : 0 < N)
    (hL : 1 < p.filterLength) (hcg : p.useCgIter = some 0) (hd : ∀ d ∈ p.clampDb, 0 ≤ d) :
    ∃ T, sdrLoss A p.args true est ref = .ok T ∧ T.shape = e :: r :: b ∧
      ∀ i, InRange T.shape i → T.get i = worstLoss p.clampDb := by
  obtain ⟨s, rfl⟩ : ∃ s : List ℕ, b = s.reverse := ⟨b.reverse, by simp⟩
  have h := sdrLoss_pair_agrees (o := p) hA.lawful hA.covered href hest hb ⟨by omega, by omega⟩
    (.inr (.inr (by simpa using hbx)))
  rw [show FBE.sdrLossPair A.B p (signals est by' s e M) (signals ref bx s r N) =
    .ok fun _ _ _ => coherenceToNegSdr p.clampDb (.fin 0) by
      unfold sdrLossPair; rw [sdrCohPair_iter (by omega) (by omega) hcg hN]] at h
  obtain ⟨T, hT, hs, hv⟩ := h
  refine ⟨T, hT, hs, fun i hi => ?_⟩
  rw [hs] at hi
  obtain ⟨j, i, rfl, hj, hi⟩ := inRange_cons_inv hi
  obtain ⟨l, i, rfl, hl, hi⟩ := inRange_cons_inv hi
  obtain ⟨m, rfl⟩ := exists_pos hi
  rw [hv m ⟨l, hl⟩ ⟨j, hj⟩]
  cases hcl : p.clampDb with
  | none => exact loss_zero_none
  | some d => exact loss_zero_some (hd d hcl)

/-- **C64.**  Without iterations `sdr` raises, unless `clamp_db` is given. -/
theorem C64_no_iterations_sdr (hA : Installed A) (href : ref.shape = N :: r :: bx)
    (hest : est.shape = N :: e :: by') (hb : bcShape bx by' = some b) (hbx : bx.length = b.length) (hN : 0 < N)
    (hL : 1 < p.filterLength) (hcg : p.useCgIter = some 0) (hd : p.clampDb = none)
    (hpos : 0 < e * r * b.prod) (rp cs : Bool) :
    ∃ err, Arrays.sdr A p.args rp cs ref est = .error err := by
  obtain ⟨s, rfl⟩ : ∃ s : List ℕ, b = s.reverse := ⟨b.reverse, by simp⟩
  have h := sdr_agrees (o := p) hA.lawful hA.covered href hest hb ⟨by omega, by omega⟩
    (.inr (.inr (by simpa using hbx))) rp cs
  cases hs : FBE.sdr A.B p rp cs (signals ref bx s r N) (signals est by' s e N) with
  | error err => rw [hs] at h; exact ⟨err, h⟩
  | ok out =>
    exfalso
    obtain ⟨L, hL', hsol⟩ := (C17_sdr_returns_iff hA.covered rp cs).1 ⟨out, hs⟩
    unfold pairwiseSdrLoss sdrLossPair at hL'
    rw [sdrCohPair_iter (by omega) (by omega) hcg hN] at hL'
    cases hL'
    have he : 0 < e := Nat.pos_of_ne_zero (by rintro rfl; simp at hpos)
    have hr : 0 < r := Nat.pos_of_ne_zero (by rintro rfl; simp at hpos)
    obtain ⟨m⟩ : Nonempty (BIdx s) := nonempty_of_prod (by
      have := Nat.pos_of_mul_pos_left hpos; simpa using this)
    have hv : coherenceToNegSdr p.clampDb (.fin 0) = .pinf := by rw [hd]; exact loss_zero_none
    obtain ⟨i, j, x, hx⟩ := (hsol m).some_finite ⟨⟨0, hr⟩, ⟨0, he⟩, .inl hv⟩
    exact absurd (hv.symm.trans hx) (by simp)

/-- **C64.**  Without iterations `bss_eval_sources` raises. -/
theorem C64_no_iterations_bss_eval (hA : Installed A) (href : ref.shape = N :: r :: bx)
    (hest : est.shape = N :: e :: by') (hb : bcShape bx by' = some b) (hbx : bx.length = b.length) (hN : 0 < N)
    (hL : 1 < p.filterLength) (hcg : p.useCgIter = some 0) (hpos : 0 < e * r * b.prod) :
    ∃ err, Arrays.bssEvalSources A p.args true ref est = .error err := by
  obtain ⟨s, rfl⟩ : ∃ s : List ℕ, b = s.reverse := ⟨b.reverse, by simp⟩
  have h := bssEval_perm_agrees (o := p) hA.lawful hA.covered href hest hb ⟨by omega, by omega⟩ (.inr hpos)
    (.inr (.inr (by simpa using hbx)))
  cases hs : FBE.bssEvalSources A.B p true (signals ref bx s r N) (signals est by' s e N) with
  | error err => rw [hs] at h; exact ⟨err, h⟩
  | ok out =>
    exfalso
    obtain ⟨sd, sa, hL', hsol⟩ := (C17_bss_eval_returns_iff hA.covered).1 ⟨out, hs⟩
    have hz := sqCosPair_iter (by omega) (by omega) hcg hN _ _ hL'
    cases hz
    have he : 0 < e := Nat.pos_of_ne_zero (by rintro rfl; simp at hpos)
    have hr : 0 < r := Nat.pos_of_ne_zero (by rintro rfl; simp at hpos)
    obtain ⟨m⟩ : Nonempty (BIdx s) := nonempty_of_prod (by
      have := Nat.pos_of_mul_pos_left hpos; simpa using this)
    refine (hsol m).no_nan ⟨0, hr⟩ ⟨0, he⟩ ?_
    simp [FBE.baseMetrics, XR.div, XR.signInf, coherenceToNegSdr_nan]

/-! Cases: two references and three estimates of two samples, where the transform has four points. -/

/-- Options with a filter of two taps and the iterative solver. -/
noncomputable def fewIterations : Opts :=
  { filterLength := 2, useCgIter := some 0, zeroMean := true, clampDb := some 30, loadDiag := none }

theorem transformSize_two : transformSize 2 2 = 4 := by
  have : Nat.clog 2 3 = 2 := by decide
  simp [transformSize, this]

example : ∃ err, Arrays.sdr torchApi { fewIterations.args with filterLength := some 0 } true false
    (tab [2, 2] fun i => i.getD 0 0) (tab [2, 3] fun _ => 1) = .error err :=
  C64_zero_sdr (.inl rfl) (bx := []) (by' := []) rfl rfl true false

example (cp : Bool) : ∃ err, Arrays.bssEvalSources torchApi { fewIterations.args with filterLength := some 0 } cp
    (tab [2, 2] fun i => i.getD 0 0) (tab [2, 3] fun _ => 1) = .error err :=
  C64_zero_bss_eval (.inl rfl) (bx := []) (by' := []) rfl rfl cp

example : Arrays.sdr torchApi { fewIterations.args with filterLength := some (-1) } true false
    (tab [2, 2] fun i => i.getD 0 0) (tab [2, 3] fun _ => 1) =
    Arrays.sdr torchApi { fewIterations.args with filterLength := some 3 } true false
    (tab [2, 2] fun i => i.getD 0 0) (tab [2, 3] fun _ => 1) := by
  have := C64_negative_sdr (o := fewIterations.args) (A := torchApi) (.inl rfl) (bx := []) (by' := []) (k := 1)
    (N := 2) (M := 2) (ref := tab [2, 2] fun i => i.getD 0 0) (est := tab [2, 3] fun _ => 1)
    rfl rfl (by norm_num) (by norm_num) (by rw [transformSize_two]; norm_num) true false
  rw [transformSize_two] at this
  exact this

example (pw : Bool) : ∃ err, sdrLoss torchApi { fewIterations.args with filterLength := some (-4) } pw
    (tab [2, 3] fun _ => 1) (tab [2, 2] fun i => i.getD 0 0) = .error err :=
  C64_very_negative_sdr_loss (.inl rfl) (bx := []) (by' := []) (k := 4) (N := 2) (M := 2) rfl rfl (by norm_num)
    (by rw [transformSize_two]) pw

example : ∃ err, Arrays.bssEvalSources torchApi { fewIterations.args with filterLength := some (-3) } false
    (tab [2, 2] fun i => i.getD 0 0) (tab [2, 2] fun _ => 1) = .error err :=
  C64_very_negative_bss_eval (.inl rfl) (bx := []) (by' := []) (k := 3) (N := 2) (M := 2) rfl rfl (by norm_num)
    (by rw [transformSize_two]; norm_num)

example : Arrays.sdr torchApi { fewIterations.args with useCgIter := some (-5) } true false
    (tab [2, 2] fun i => i.getD 0 0) (tab [2, 3] fun _ => 1) =
    Arrays.sdr torchApi { fewIterations.args with useCgIter := some 0 } true false
    (tab [2, 2] fun i => i.getD 0 0) (tab [2, 3] fun _ => 1) :=
  (C64_negative_iterations (by norm_num) true true false).2.1

example : ∃ err, sdrLoss torchApi { fewIterations.args with filterLength := some 0 } true
    (tab [2, 3] fun _ => 1) (tab [2, 2] fun i => i.getD 0 0) = .error err :=
  C64_zero_sdr_loss (.inl rfl) (bx := []) (by' := []) rfl rfl true

example : sdrLoss torchApi { fewIterations.args with filterLength := some (-1) } true
    (tab [2, 3] fun _ => 1) (tab [2, 2] fun i => i.getD 0 0) =
    sdrLoss torchApi { fewIterations.args with filterLength := some 3 } true
    (tab [2, 3] fun _ => 1) (tab [2, 2] fun i => i.getD 0 0) := by
  have := C64_negative_sdr_loss (o := fewIterations.args) (A := torchApi) (.inl rfl) (bx := []) (by' := []) (k := 1)
    (N := 2) (M := 2) (ref := tab [2, 2] fun i => i.getD 0 0) (est := tab [2, 3] fun _ => 1)
    rfl rfl (by norm_num) (by norm_num) (by rw [transformSize_two]; norm_num) true
  rw [transformSize_two] at this
  exact this

example : ∃ err, Arrays.bssEvalSources oldTorchApi { fewIterations.args with filterLength := some (-1) } true
    (tab [2, 2] fun i => i.getD 0 0) (tab [2, 3] fun _ => 1) = .error err :=
  C64_negative_bss_eval (N := 2) (M := 2) (k := 1) (.inr (.inl rfl)) (bx := []) (by' := []) rfl rfl
    (by norm_num) (by norm_num) (by rw [transformSize_two]; norm_num)

example (cp : Bool) : Arrays.bssEvalSources torchApi { fewIterations.args with filterLength := some (-2) } cp
    (tab [2, 2] fun i => i.getD 0 0) (tab [2, 3] fun _ => 1) =
    Arrays.bssEvalSources torchApi { fewIterations.args with filterLength := some 2 } cp
    (tab [2, 2] fun i => i.getD 0 0) (tab [2, 3] fun _ => 1) :=
  C64_half_bss_eval (N := 2) (M := 2) (k := 2) (.inl rfl) (bx := []) (by' := []) rfl rfl
    (by norm_num) (by norm_num) (by rw [transformSize_two]) cp

example : ∃ T, sdrLoss torchApi fewIterations.args true (tab [2, 3] fun _ => 1) (tab [2, 2] fun i => i.getD 0 0) = .ok T ∧
    T.shape = [3, 2] ∧ ∀ i, InRange T.shape i → T.get i = .fin 30 :=
  C64_no_iterations_sdr_loss (p := fewIterations) (.inl rfl) (N := 2) (M := 2) (bx := []) (by' := []) rfl rfl
    rfl rfl (by norm_num) (by simp [fewIterations]) rfl (by simp [fewIterations])

example : ∃ err, Arrays.sdr torchApi { fewIterations with clampDb := none }.args true false
    (tab [2, 2] fun i => i.getD 0 0) (tab [2, 3] fun _ => 1) = .error err :=
  C64_no_iterations_sdr (p := { fewIterations with clampDb := none }) (.inl rfl) (N := 2) (bx := []) (by' := [])
    rfl rfl rfl rfl (by norm_num) (by simp [fewIterations]) rfl rfl (by norm_num) _ _

example : ∃ err, Arrays.bssEvalSources torchApi fewIterations.args true
    (tab [2, 2] fun i => i.getD 0 0) (tab [2, 3] fun _ => 1) = .error err :=
  C64_no_iterations_bss_eval (p := fewIterations) (.inl rfl) (N := 2) (bx := []) (by' := [])
    rfl rfl rfl rfl (by norm_num) (by simp [fewIterations]) rfl (by norm_num)

end FBE.Props
