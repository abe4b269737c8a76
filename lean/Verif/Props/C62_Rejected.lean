import Verif.Proofs.ArrayReject
import Verif.Props.C61_Arrays

/-!
# C62 — arrays that do not fit are rejected, never silently combined

Shapes are listed from the last axis to the first; `N` and `M` are the numbers of samples.
-/

namespace FBE.Props

open Spec Arrays Tensor

variable {b bx by' : List ℕ} {r e c N M : ℕ} {A : Api} {o : Opts} {ref est : Tensor ℝ}

/-- The exception for shapes is the one of the installation. -/
theorem C62_shape_error {α : Type} {x : Except PyErr α} (h : x = .error A.err) : ShapeError A x := by
  refine ⟨?_, ?_⟩
  · rintro (rfl | rfl) <;> exact h
  · rintro lsa n2 rfl
    exact h

theorem C62_length (h : UsualLengths o N M) : o.args.filterLength = some 1 → N = M ∨ N ≠ 1 ∧ M ≠ 1 :=
  fun h1 => h.2 (by simpa [Opts.args] using h1)

/-- C62: leading axes that cannot be broadcast, `sdr_loss(pairwise=True)`. -/
theorem C62_sdr_loss (hA : Installed A) (href : ref.shape = N :: r :: bx) (hest : est.shape = M :: e :: by')
    (hb : bcShape bx by' = none) (hN : 0 < N) (hl : UsualLengths o N M) :
    ShapeError A (sdrLoss A o.args true est ref) :=
  C62_shape_error (sdrLoss_pair_bc hA.lawful href hest hb hN (C62_length hl))

example (x y : List ℕ → ℝ) : sdrLoss torchApi Ex.opts.args true ⟨[100, 3, 3], y⟩ ⟨[100, 2, 2], x⟩ = .error .runtimeError :=
  (C62_sdr_loss (o := Ex.opts) (N := 100) (M := 100) (A := torchApi) (.inl rfl) rfl rfl (by decide) (by decide)
    (C61_usual (by decide) 100)).1 (.inl rfl)

/-- C62: `sdr_loss(pairwise=False)`; here the channels must fit too. -/
theorem C62_sdr_loss_aligned (hA : Installed A) (href : ref.shape = N :: bx) (hest : est.shape = M :: by')
    (hb : bcShape bx by' = none) (hN : 0 < N) (hl : UsualLengths o N M) :
    ShapeError A (sdrLoss A o.args false est ref) :=
  C62_shape_error (sdrLoss_diag_bc hA.lawful href hest hb hN (C62_length hl))

-- three estimates for two references
example (x y : List ℕ → ℝ) : sdrLoss torchApi Ex.opts.args false ⟨[100, 3], y⟩ ⟨[100, 2], x⟩ = .error .runtimeError :=
  (C62_sdr_loss_aligned (o := Ex.opts) (N := 100) (M := 100) (A := torchApi) (.inl rfl) rfl rfl (by decide) (by decide)
    (C61_usual (by decide) 100)).1 (.inl rfl)

/-- C62: `sdr` (and `sdr_pit_loss`). -/
theorem C62_sdr (hA : Installed A) (href : ref.shape = N :: r :: bx) (hest : est.shape = M :: e :: by')
    (hb : bcShape bx by' = none) (hN : 0 < N) (hl : UsualLengths o N M) (rp cs : Bool) :
    ShapeError A (Arrays.sdr A o.args rp cs ref est) :=
  C62_shape_error (sdr_bc (sdrLoss_pair_bc hA.lawful href hest hb hN (C62_length hl)) rp cs)

/-- C62: `bss_eval_sources`. -/
theorem C62_bss_eval (hA : Installed A) (href : ref.shape = N :: r :: bx) (hest : est.shape = M :: e :: by')
    (hb : bcShape bx by' = none) (hN : 0 < N) (hl : UsualLengths o N M) :
    ShapeError A (Arrays.bssEvalSources A o.args true ref est) :=
  C62_shape_error (bssEval_of_cosine href hest (.inl rfl)
    (squareCosine_bc hA.lawful hl.1 rfl href hest hb hN (C62_length hl) true))

example (x y : List ℕ → ℝ) : Arrays.bssEvalSources torchApi Ex.opts.args true ⟨[100, 2, 2], x⟩ ⟨[100, 3, 3], y⟩ =
    .error .runtimeError :=
  (C62_bss_eval (o := Ex.opts) (N := 100) (M := 100) (A := torchApi) (.inl rfl) rfl rfl (by decide) (by decide)
    (C61_usual (by decide) 100)).1 (.inl rfl)

/-- C62: `bss_eval_sources(compute_permutation=False)`. -/
theorem C62_bss_eval_aligned (hA : Installed A) (href : ref.shape = N :: r :: bx) (hest : est.shape = M :: e :: by')
    (hb : bcShape bx by' = none) (hN : 0 < N) (hl : UsualLengths o N M) :
    if r = e then ShapeError A (Arrays.bssEvalSources A o.args false ref est)
    else Arrays.bssEvalSources A o.args false ref est = .error .assertionError := by
  split_ifs with h
  · exact C62_shape_error (bssEval_of_cosine href hest (.inr h)
      (squareCosine_bc hA.lawful hl.1 rfl href hest hb hN (C62_length hl) false))
  · exact bssEval_assert href hest h

example (x y : List ℕ → ℝ) : Arrays.bssEvalSources torchApi Ex.opts.args false ⟨[100, 2, 2], x⟩ ⟨[100, 3, 3], y⟩ =
    .error .assertionError :=
  C62_bss_eval_aligned (o := Ex.opts) (N := 100) (M := 100) (A := torchApi) (r := 2) (e := 3) (.inl rfl) rfl rfl (by decide)
    (by decide) (C61_usual (by decide) 100)

/-- C62: the iterative solver takes no references with fewer leading axes than the result. -/
theorem C62_iterative_sdr_loss (hA : Installed A) (href : ref.shape = N :: r :: bx) (hest : est.shape = M :: e :: by')
    (hb : bcShape bx by' = some b) (hN : 0 < N) (hL : 0 < o.filterLength) (h1 : o.filterLength ≠ 1)
    (hcg : o.useCgIter ≠ none) (hbx : bx.length < b.length) :
    sdrLoss A o.args true est ref = .error .assertionError :=
  sdrLoss_pair_fewer hA.lawful hA.covered href hest hb hN hL (.inl rfl) (by simpa using h1) hcg hbx

example (x y : List ℕ → ℝ) :
    sdrLoss torchApi { Ex.opts with useCgIter := some 10 }.args true ⟨[100, 2, 3], y⟩ ⟨[100, 2], x⟩ = .error .assertionError :=
  C62_iterative_sdr_loss (o := { Ex.opts with useCgIter := some 10 }) (N := 100) (M := 100) (b := [3]) (.inl rfl) rfl rfl rfl
    (by decide) (by decide) (by decide) (by simp) (by decide)

/-- C62: the same for `sdr`. -/
theorem C62_iterative_sdr (hA : Installed A) (href : ref.shape = N :: r :: bx) (hest : est.shape = M :: e :: by')
    (hb : bcShape bx by' = some b) (hN : 0 < N) (hL : 0 < o.filterLength) (h1 : o.filterLength ≠ 1)
    (hcg : o.useCgIter ≠ none) (hbx : bx.length < b.length) (rp cs : Bool) :
    Arrays.sdr A o.args rp cs ref est = .error .assertionError :=
  sdr_bc (C62_iterative_sdr_loss hA href hest hb hN hL h1 hcg hbx) rp cs

/-- C62: the same for `bss_eval_sources`. -/
theorem C62_iterative_bss_eval (hA : Installed A) (href : ref.shape = N :: r :: bx) (hest : est.shape = M :: e :: by')
    (hb : bcShape bx by' = some b) (hN : 0 < N) (hL : 0 < o.filterLength) (h1 : o.filterLength ≠ 1)
    (hcg : o.useCgIter ≠ none) (hbx : bx.length < b.length) :
    Arrays.bssEvalSources A o.args true ref est = .error .assertionError :=
  bssEval_of_cosine href hest (.inl rfl)
    (squareCosine_pair_fewer hA.lawful hA.covered href hest hb hN hL h1 hcg hbx)

example (x y : List ℕ → ℝ) :
    Arrays.bssEvalSources torchApi { Ex.opts with useCgIter := some 10 }.args true ⟨[100, 2], x⟩ ⟨[100, 2, 3], y⟩ =
      .error .assertionError :=
  C62_iterative_bss_eval (o := { Ex.opts with useCgIter := some 10 }) (N := 100) (M := 100) (b := [3]) (.inl rfl) rfl rfl rfl
    (by decide) (by decide) (by decide) (by simp) (by decide)

/-- C62: channel by channel, references with fewer leading axes than the result are rejected by both solvers,
unless the number of channels is the number of taps.  (With the direct solver the exception is the one for
shapes, with the iterative one `AssertionError`.) -/
theorem C62_fewer_sdr_loss (hA : Installed A) (href : ref.shape = N :: c :: bx) (hest : est.shape = M :: c :: by')
    (hb : bcShape bx by' = some b) (hN : 0 < N) (hL : 0 < o.filterLength) (h1 : o.filterLength ≠ 1)
    (hbx : bx.length < b.length) (hc : c ≠ min o.filterLength (transformSize N M)) :
    if o.useCgIter = none then ShapeError A (sdrLoss A o.args false est ref)
    else sdrLoss A o.args false est ref = .error .assertionError := by
  obtain ⟨n, hn⟩ := nFft_exists hN M
  rw [transformSize_eq hn] at hc
  have hb' : bcShape (c :: bx) (c :: by') = some (c :: b) := by simp [bcShape, hb]
  have h := sdrLoss_diag_fewer (o := o) (len := some (o.filterLength : ℤ)) hA.lawful hA.covered href hest hb' hn hL
    (.inl rfl) (by simpa using h1) hbx hc
  split_ifs with hcg
  · refine C62_shape_error (h.trans ?_)
    rw [hcg]
    rfl
  · obtain ⟨it, hit⟩ := Option.ne_none_iff_exists'.1 hcg
    refine h.trans ?_
    rw [hit]
    rfl

/-- C62: the same for `bss_eval_sources(compute_permutation=False)`. -/
theorem C62_fewer_bss_eval (hA : Installed A) (href : ref.shape = N :: c :: bx) (hest : est.shape = M :: c :: by')
    (hb : bcShape bx by' = some b) (hN : 0 < N) (hL : 0 < o.filterLength) (h1 : o.filterLength ≠ 1)
    (hfit : o.filterLength ≤ transformSize N M) (hbx : bx.length < b.length) (hc : c ≠ o.filterLength) :
    if o.useCgIter = none then ShapeError A (Arrays.bssEvalSources A o.args false ref est)
    else Arrays.bssEvalSources A o.args false ref est = .error .assertionError := by
  obtain ⟨n, hn⟩ := nFft_exists hN M
  rw [transformSize_eq hn] at hfit
  have h := bssEval_of_cosine (pw := false) href hest (.inr rfl)
    (squareCosine_diag_fewer (o := o) hA.lawful hA.covered href hest hb hn hL h1 hbx (by omega))
  split_ifs with hcg
  · refine C62_shape_error (h.trans ?_)
    rw [hcg]
    rfl
  · obtain ⟨it, hit⟩ := Option.ne_none_iff_exists'.1 hcg
    refine h.trans ?_
    rw [hit]
    rfl

example (x y : List ℕ → ℝ) (lsa : Lsa) (h : LsaCorrect lsa) :
    ShapeError (numpyApi lsa false) (Arrays.bssEvalSources (numpyApi lsa false) Ex.opts.args false ⟨[3, 7], x⟩ ⟨[3, 7, 3], y⟩) :=
  C62_fewer_bss_eval (o := Ex.opts) (A := numpyApi lsa false) (N := 3) (M := 3) (c := 7) (b := [3]) (.inr (.inr ⟨lsa, false, h, rfl⟩))
    rfl rfl rfl (by decide) (by decide) (by decide) (by decide) (by decide) (by decide)

/-- C62: current torch rejects, channel by channel and with the direct solver, also references that would be
expanded along an axis of size one. -/
theorem C62_torch_expanded (href : ref.shape = N :: c :: bx) (hest : est.shape = M :: c :: by')
    (hb : bcShape bx by' = some b) (hN : 0 < N) (hL : 0 < o.filterLength) (h1 : o.filterLength ≠ 1)
    (hcg : o.useCgIter = none) (hbx : b ≠ bx) (hc : c ≠ min o.filterLength (transformSize N M)) :
    sdrLoss torchApi o.args false est ref = .error .runtimeError := by
  obtain ⟨n, hn⟩ := nFft_exists hN M
  rw [transformSize_eq hn] at hc
  have hb' : bcShape (c :: bx) (c :: by') = some (c :: b) := by simp [bcShape, hb]
  exact sdrLoss_diag_torch (o := o) (len := some (o.filterLength : ℤ)) href hest hb' hn hL
    (.inl rfl) (by simpa using h1) hcg hbx hc

/-- C62: `bss_eval_sources` returns nothing for no estimates or an empty batch, except with one tap. -/
theorem C62_empty_bss_eval (hA : Installed A) (href : ref.shape = N :: r :: bx) (hest : est.shape = M :: e :: by')
    (hb : bcShape bx by' = some b) (hL : 0 < o.filterLength) (h1 : o.filterLength ≠ 1) (h : e * b.prod = 0)
    (cp : Bool) : ∃ err, Arrays.bssEvalSources A o.args cp ref est = .error err := by
  by_cases hcp : cp = true ∨ r = e
  · obtain ⟨err, herr⟩ := squareCosine_empty (o := o) hA.lawful href hest hb hL h1 h cp
    exact ⟨err, bssEval_of_cosine href hest hcp herr⟩
  · push Not at hcp
    obtain rfl : cp = false := by simpa using hcp.1
    exact ⟨_, bssEval_assert href hest hcp.2⟩

/-! Two references in a batch of two, three estimates in a batch of three: rejected.  Without leading axes on the
references and with a batch of three estimates: rejected by the iterative solver. -/

example (x y : List ℕ → ℝ) (lsa : Lsa) (h : LsaCorrect lsa) :
    Arrays.sdr (numpyApi lsa false) Ex.opts.args true false ⟨[100, 2, 2], x⟩ ⟨[100, 3, 3], y⟩ = .error .valueError :=
  (C62_sdr (o := Ex.opts) (N := 100) (M := 100) (.inr (.inr ⟨lsa, false, h, rfl⟩)) rfl rfl (by decide) (by decide)
    (C61_usual (by decide) 100) true false).2 lsa false rfl

example (x y : List ℕ → ℝ) :
    Arrays.sdr torchApi { Ex.opts with useCgIter := some 10 }.args true false ⟨[100, 2], x⟩ ⟨[100, 2, 3], y⟩ =
      .error .assertionError :=
  C62_iterative_sdr (o := { Ex.opts with useCgIter := some 10 }) (N := 100) (M := 100) (b := [3]) (.inl rfl) rfl rfl rfl
    (by decide) (by decide) (by decide) (by simp) (by decide) true false

/-! Seven references in a batch of size one, three times seven estimates. -/

example (x y : List ℕ → ℝ) :
    sdrLoss torchApi Ex.opts.args false ⟨[100, 7, 3], y⟩ ⟨[100, 7, 1], x⟩ = .error .runtimeError :=
  C62_torch_expanded (o := Ex.opts) (N := 100) (M := 100) (b := [3]) rfl rfl rfl (by decide) (by decide)
    (by decide) rfl (by decide) (by
      have : min Ex.opts.filterLength (transformSize 100 100) ≤ Ex.opts.filterLength := min_le_left _ _
      have : Ex.opts.filterLength < 7 := by decide
      omega)

/-! The same without the axis of size one, on numpy, and with the iterative solver. -/

example (x y : List ℕ → ℝ) (lsa : Lsa) (h : LsaCorrect lsa) (n2 : Bool) :
    ShapeError (numpyApi lsa n2) (sdrLoss (numpyApi lsa n2) Ex.opts.args false ⟨[100, 7, 3], y⟩ ⟨[100, 7], x⟩) := by
  have := C62_fewer_sdr_loss (o := Ex.opts) (A := numpyApi lsa n2) (ref := ⟨[100, 7], x⟩) (est := ⟨[100, 7, 3], y⟩)
    (N := 100) (M := 100) (b := [3]) (.inr (.inr ⟨lsa, n2, h, rfl⟩)) rfl rfl rfl (by decide) (by decide)
    (by decide) (by decide) (by
      have : min Ex.opts.filterLength (transformSize 100 100) ≤ Ex.opts.filterLength := min_le_left _ _
      have : Ex.opts.filterLength < 7 := by decide
      omega)
  rwa [if_pos (show Ex.opts.useCgIter = none from rfl)] at this

/-! No batch item. -/

example (x y : List ℕ → ℝ) : ∃ err, Arrays.bssEvalSources oldTorchApi Ex.opts.args true ⟨[100, 2, 0], x⟩ ⟨[100, 2, 0], y⟩ =
    .error err :=
  C62_empty_bss_eval (o := Ex.opts) (N := 100) (M := 100) (b := [0]) (.inr (.inl rfl)) rfl rfl rfl (by decide) (by decide)
    rfl true

end FBE.Props
