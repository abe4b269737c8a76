import Verif.Proofs.ArraySingle
import Verif.Props.C62_Rejected
import Verif.Props.C23_C24_Consistency

/-!
# C68 — signals without a channel axis

One reference and one estimate given as arrays with a single axis.  Shapes and indices are listed from the last
axis to the first.
-/

namespace FBE.Props

open Spec Arrays Tensor

variable {bx by' : List ℕ} {N M : ℕ} {A : Api} {o : Opts} {ref est ref1 est1 : Tensor ℝ}

/-- The second array is the first one with a channel axis of size one, `x[None, :]`. -/
def C68_OneChannel (n : ℕ) (x y : Tensor ℝ) : Prop :=
  x.shape = [n] ∧ y.shape = [n, 1] ∧ ∀ t < n, y.get [t, 0] = x.get [t]

theorem C68_signals {n : ℕ} {x y : Tensor ℝ} (h : C68_OneChannel n x y) : signals y [] [] 1 n = oneSignal x n := by
  funext m k t
  obtain rfl : k = 0 := Subsingleton.elim _ _
  exact h.2.2 t t.isLt

/-- C68: `sdr_loss(est, ref)` of single signals is a number, the one entry of the matrix that
`sdr_loss(est[None, :], ref[None, :], pairwise=True)` returns; one of the calls raises an exception if and only if
the other one does, and it is the same exception. -/
theorem C68_sdr_loss (hA : Installed A) (href : C68_OneChannel N ref ref1) (hest : C68_OneChannel M est est1)
    (hL : UsualLengths o N M) :
    SameResult (fun T T1 => T.shape = [] ∧ T1.shape = [1, 1] ∧ T.get [] = T1.get [0, 0])
      (sdrLoss A o.args false est ref) (sdrLoss A o.args true est1 ref1) := by
  have h1 := (sdrLoss_single (o := o) hA href.1 hest.1).agrees (sdrLossPair_ne hA.covered hL _ _)
  have h2 := sdrLoss_pair_agrees (o := o) (s := []) hA.lawful hA.covered href.2.1 hest.2.1 rfl hL (.inr (.inr rfl))
  rw [C68_signals href, C68_signals hest] at h2
  revert h1 h2
  cases FBE.sdrLossPair A.B o (oneSignal est M) (oneSignal ref N) with
  | error err => exact fun h1 h2 => .inl ⟨err, h1, h2⟩
  | ok v =>
    rintro ⟨T, hT, hs, hv⟩ ⟨T1, hT1, hs1, hv1⟩
    exact .inr ⟨T, T1, hT, hT1, hs, hs1, hv.trans (hv1 () 0 0).symm⟩

/-- C68: the same for the call with a channel axis that is not pairwise, where this call is available (not on
numpy >= 2 with the direct solver, C43). -/
theorem C68_sdr_loss_aligned (hA : Installed A) (href : C68_OneChannel N ref ref1) (hest : C68_OneChannel M est est1)
    (hL : UsualLengths o N M) (hv : TakesVectors A.B o) :
    SameResult (fun T T1 => T.shape = [] ∧ T1.shape = [1] ∧ T.get [] = T1.get [0])
      (sdrLoss A o.args false est ref) (sdrLoss A o.args false est1 ref1) := by
  have h1 := (sdrLoss_single (o := o) hA href.1 hest.1).agrees (sdrLossPair_ne hA.covered hL _ _)
  have h2 := sdrLoss_diag_agrees (o := o) (s := []) (c := 1) (b := [1]) hA.lawful hA.covered href.2.1 hest.2.1 rfl hL hv
  rw [channels_signals (b := []), show signals ref1 [].reverse [] 1 N = _ from C68_signals href, C68_signals hest,
    C23_diagonal hv] at h2
  revert h1 h2
  cases FBE.sdrLossPair A.B o (oneSignal est M) (oneSignal ref N) with
  | error err => exact fun h1 h2 => .inl ⟨err, h1, h2⟩
  | ok v =>
    rintro ⟨T, hT, hs, hv⟩ ⟨T1, hT1, hs1, hv1⟩
    exact .inr ⟨T, T1, hT, hT1, hs, hs1, hv.trans (hv1 () 0).symm⟩

/-- C68: the pairwise calls reject a single signal, as reference or as estimate. -/
theorem C68_pairwise (hA : Installed A) (href : ref.shape = N :: bx) (hest : est.shape = M :: by')
    (h : bx = [] ∨ by' = []) (hN : 0 < N) : ShapeError A (sdrLoss A o.args true est ref) :=
  C62_shape_error (sdrLoss_few hA.lawful href hest h hN)

example (x y : List ℕ → ℝ) : sdrLoss torchApi Ex.opts.args true ⟨[100], y⟩ ⟨[100, 2], x⟩ = .error .runtimeError :=
  (C68_pairwise (o := Ex.opts) (N := 100) (M := 100) (A := torchApi) (.inl rfl) rfl rfl (.inr rfl) (by decide)).1 (.inl rfl)

/-- C68: so do `sdr` and `sdr_pit_loss`. -/
theorem C68_sdr (hA : Installed A) (href : ref.shape = N :: bx) (hest : est.shape = M :: by')
    (h : bx = [] ∨ by' = []) (hN : 0 < N) (rp cs : Bool) : ShapeError A (Arrays.sdr A o.args rp cs ref est) :=
  C62_shape_error (sdr_few hA.lawful href hest h hN rp cs)

example (x y : List ℕ → ℝ) (lsa : Lsa) (h : LsaCorrect lsa) :
    Arrays.sdr (numpyApi lsa true) Ex.opts.args false false ⟨[100], x⟩ ⟨[100], y⟩ = .error .valueError :=
  (C68_sdr (o := Ex.opts) (N := 100) (M := 100) (.inr (.inr ⟨lsa, true, h, rfl⟩)) rfl rfl (.inr rfl) (by decide)
    false false).2 lsa true rfl

/-- C68: so does `bss_eval_sources`; without permutation the exception is `IndexError`. -/
theorem C68_bss_eval (hA : Installed A) (href : ref.shape = N :: bx) (hest : est.shape = M :: by')
    (h : bx = [] ∨ by' = []) (hN : 0 < N) (hL : 0 < o.filterLength) :
    ShapeError A (Arrays.bssEvalSources A o.args true ref est) ∧
      Arrays.bssEvalSources A o.args false ref est = .error .indexError :=
  ⟨C62_shape_error (bssEval_few_true hA.lawful hL rfl href hest h hN), bssEval_few_false href hest h⟩

example (x y : List ℕ → ℝ) : Arrays.bssEvalSources oldTorchApi Ex.opts.args true ⟨[100], x⟩ ⟨[100, 3], y⟩ =
      .error .runtimeError ∧
    Arrays.bssEvalSources oldTorchApi Ex.opts.args false ⟨[100], x⟩ ⟨[100, 3], y⟩ = .error .indexError := by
  obtain ⟨h1, h2⟩ := C68_bss_eval (o := Ex.opts) (N := 100) (M := 100) (A := oldTorchApi) (ref := ⟨[100], x⟩)
    (est := ⟨[100, 3], y⟩) (.inr (.inl rfl)) rfl rfl (.inl rfl) (by decide) (by decide)
  exact ⟨h1.1 (.inr rfl), h2⟩

/-! One reference and one estimate of three samples, numpy >= 2: the call on the single signals returns a number,
though the call with a channel axis raises `ValueError` (C43). -/

/-- A reference of three samples. -/
noncomputable def C68_ref : Tensor ℝ := ⟨[3], fun i => if i.getD 0 0 = 0 then 1 else 0⟩

/-- An estimate of three samples. -/
noncomputable def C68_est : Tensor ℝ := ⟨[3], fun i => if i.getD 0 0 = 2 then 0 else 1⟩

theorem C68_row {n : ℕ} {x : Tensor ℝ} (hx : x.shape = [n]) : C68_OneChannel n x (x.unsqueeze 1) := by
  refine ⟨hx, by unfold unsqueeze; rw [hx]; rfl, fun t ht => ?_⟩
  unfold unsqueeze
  rw [hx]
  exact tab_get (s := [n, 1]) (i := [t, 0]) ⟨ht, Nat.one_pos, trivial⟩

theorem C68_cen : ∀ m k, cen Ex.opts (oneSignal C68_ref 3) m k ≠ 0 := fun m k h => by
  have h0 : cen Ex.opts (oneSignal C68_ref 3) m k 0 = 0 := by rw [h]; rfl
  exact one_ne_zero (α := ℝ) h0

example (lsa : Lsa) (h : LsaCorrect lsa) :
    (∃ T, sdrLoss (numpyApi lsa true) Ex.opts.args false C68_est C68_ref = .ok T ∧ T.shape = [] ∧
      ∃ T1, sdrLoss (numpyApi lsa true) Ex.opts.args true (C68_est.unsqueeze 1) (C68_ref.unsqueeze 1) = .ok T1 ∧
        T.get [] = T1.get [0, 0]) ∧
    sdrLoss (numpyApi lsa true) Ex.opts.args false (C68_est.unsqueeze 1) (C68_ref.unsqueeze 1) = .error .valueError := by
  have hA : Installed (numpyApi lsa true) := .inr (.inr ⟨lsa, true, h, rfl⟩)
  constructor
  · rcases C68_sdr_loss (o := Ex.opts) hA (C68_row (n := 3) (x := C68_ref) rfl) (C68_row (n := 3) (x := C68_est) rfl)
      (C61_usual (by decide) 3) with ⟨err, hx, -⟩ | ⟨T, T1, hT, hT1, hs, -, hv⟩
    · exfalso
      have h1 := sdrLoss_single (o := Ex.opts) hA (ref := C68_ref) (est := C68_est) (N := 3) (M := 3) rfl rfl
      rcases sdrCohPair_success hA.covered rfl (by decide) Ex.load (by decide) Ex.fits (oneSignal C68_ref 3)
        (oneSignal C68_est 3) with h | ⟨-, m, k, h⟩
      · obtain ⟨coh, hc⟩ := h.1
        unfold sdrLossPair at h1
        rw [hc] at h1
        obtain ⟨t, ht, -⟩ := h1
        rw [ht] at hx
        cases hx
      · exact C68_cen m k h
    · exact ⟨T, hT, hs, T1, hT1, hv⟩
  · have h2 := sdrLoss_diag (o := Ex.opts) (s := []) (c := 1) (b := [1]) hA.lawful hA.covered
      (C68_row (n := 3) (x := C68_ref) rfl).2.1 (C68_row (n := 3) (x := C68_est) rfl).2.1 rfl
    rw [show (numpyApi lsa true).B = numpyBackend lsa true from rfl,
      (C43_numpy2 (o := Ex.opts) (s := []) (c := 1) lsa rfl (by decide) (by decide) _ _ (by decide) Ex.fits).1] at h2
    exact h2.resolve_left (by decide)

/-- The same signals on torch, where the call with a channel axis is available. -/
example : SameResult (fun T T1 => T.shape = [] ∧ T1.shape = [1] ∧ T.get [] = T1.get [0])
    (sdrLoss torchApi Ex.opts.args false C68_est C68_ref)
    (sdrLoss torchApi Ex.opts.args false (C68_est.unsqueeze 1) (C68_ref.unsqueeze 1)) :=
  C68_sdr_loss_aligned (o := Ex.opts) (.inl rfl) (C68_row rfl) (C68_row rfl) (C61_usual (by decide) 3) (.inr (.inr rfl))

end FBE.Props
