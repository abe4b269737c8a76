import Verif.Proofs.ArrayExpand
import Verif.Props.C62_Rejected

/-!
# C74 — `sdr_loss(pairwise=False)` with one reference for several estimates, or one estimate for several references

Shapes are listed from the last axis to the first; `N` and `M` are the numbers of samples, `a` and `b` the other
axes of the references and of the estimates, `c :: f` those of the result.
-/

namespace FBE.Props

open Spec Arrays Tensor

variable {a b bx by' f : List ℕ} {c N M : ℕ} {A : Api} {o : Opts} {ref est : Tensor ℝ}

/-- The calls that broadcast: filters of one tap; the iterative solver, if the references have all axes of the
result; the direct solver of torch < 1.8 and of numpy < 2, under the same condition; the direct solver of the other
versions of torch, if only estimates are repeated. -/
def C74_Fits (A : Api) (o : Opts) (a f : List ℕ) : Prop :=
  o.filterLength = 1 ∨ (o.useCgIter ≠ none ∨ ExpandsMatrices A) ∧ a.length = f.length ∨ A.B.stackedVectors = true ∧ a = f

theorem C74_vectors (h : C74_Fits A o a f) : TakesVectors A.B o := by
  obtain h | ⟨h | h, -⟩ | ⟨h, -⟩ := h
  · exact .inl h
  · exact .inr (.inl h)
  · exact .inr (.inr (expands_vectors h))
  · exact .inr (.inr h)

/-- C74: all axes except time are broadcast, channels included: the result is the one for arrays that have
been repeated before the call. -/
theorem C74_repeated (hA : Installed A) (href : ref.shape = N :: a) (hest : est.shape = M :: b)
    (hb : bcShape a b = some (c :: f)) (hl : UsualLengths o N M) (hx : C74_Fits A o a (c :: f)) :
    SameResult SameArray (sdrLoss A o.args false est ref)
      (sdrLoss A o.args false (repeated est b (c :: f) M) (repeated ref a (c :: f) N)) := by
  obtain ⟨s, rfl⟩ : ∃ s : List ℕ, f = s.reverse := ⟨f.reverse, by simp⟩
  have hv := C74_vectors hx
  have h2 := sdrLoss_diag_agrees (o := o) (s := s) (ref := repeated ref a (c :: s.reverse) N)
    (est := repeated est b (c :: s.reverse) M) hA.lawful hA.covered rfl rfl (bcShape_self _) hl hv
  rw [channels_signals, signals_repeated, signals_repeated] at h2
  have h1 : Agrees Holds1 (sdrLoss A o.args false est ref)
      (FBE.sdrLossDiag A.B o (channels est b s c M) (channels ref a s c N)) := by
    refine Matches.agrees ?_ (sdrLossDiag_ne hA.covered hl hv _ _)
    by_cases ha : a = c :: s.reverse
    · subst ha
      rw [channels_signals]
      exact sdrLoss_diag hA.lawful hA.covered href hest hb
    · refine sdrLoss_expand hA.lawful hA.covered href hest hb ?_
      obtain h | ⟨h, h'⟩ | ⟨-, h⟩ := hx
      · exact .inl h
      · exact .inr ⟨by simpa using h', h⟩
      · exact absurd h ha
  exact same_of_agrees h1 h2 fun h h' => holds1_same h h'

-- one reference, four estimates: one tap, the iterative solver, the direct solver of numpy < 2
example (x y : List ℕ → ℝ) : SameResult SameArray
    (sdrLoss torchApi { Ex.opts with filterLength := 1 }.args false ⟨[100, 4, 3], y⟩ ⟨[100, 1], x⟩)
    (sdrLoss torchApi { Ex.opts with filterLength := 1 }.args false (repeated ⟨[100, 4, 3], y⟩ [4, 3] [4, 3] 100)
      (repeated ⟨[100, 1], x⟩ [1] [4, 3] 100)) :=
  C74_repeated (o := { Ex.opts with filterLength := 1 }) (.inl rfl) rfl rfl rfl ⟨by decide, fun _ => .inl rfl⟩ (.inl rfl)

example (x y : List ℕ → ℝ) : SameResult SameArray
    (sdrLoss torchApi { Ex.opts with useCgIter := some 10 }.args false ⟨[100, 4], y⟩ ⟨[100, 1], x⟩)
    (sdrLoss torchApi { Ex.opts with useCgIter := some 10 }.args false (repeated ⟨[100, 4], y⟩ [4] [4] 100)
      (repeated ⟨[100, 1], x⟩ [1] [4] 100)) :=
  C74_repeated (o := { Ex.opts with useCgIter := some 10 }) (.inl rfl) rfl rfl rfl (C61_usual (by decide) 100)
    (.inr (.inl ⟨.inl (by simp), rfl⟩))

example (x y : List ℕ → ℝ) (lsa : Lsa) (h : LsaCorrect lsa) : SameResult SameArray
    (sdrLoss (numpyApi lsa false) Ex.opts.args false ⟨[100, 4, 3], y⟩ ⟨[100, 1, 3], x⟩)
    (sdrLoss (numpyApi lsa false) Ex.opts.args false (repeated ⟨[100, 4, 3], y⟩ [4, 3] [4, 3] 100)
      (repeated ⟨[100, 1, 3], x⟩ [1, 3] [4, 3] 100)) :=
  C74_repeated (o := Ex.opts) (.inr (.inr ⟨lsa, false, h, rfl⟩)) rfl rfl rfl (C61_usual (by decide) 100)
    (.inr (.inl ⟨.inr (.inr ⟨lsa, h, rfl⟩), rfl⟩))

-- one estimate, four references, with the direct solver of torch
example (x y : List ℕ → ℝ) : SameResult SameArray
    (sdrLoss torchApi Ex.opts.args false ⟨[100, 1], y⟩ ⟨[100, 4], x⟩)
    (sdrLoss torchApi Ex.opts.args false (repeated ⟨[100, 1], y⟩ [1] [4] 100) (repeated ⟨[100, 4], x⟩ [4] [4] 100)) :=
  C74_repeated (o := Ex.opts) (.inl rfl) rfl rfl rfl (C61_usual (by decide) 100) (.inr (.inr ⟨rfl, rfl⟩))

/-- C74: one reference for several estimates: the result is the only row of the one with `pairwise=True`. -/
theorem C74_one_reference (hA : Installed A) (href : ref.shape = N :: 1 :: bx) (hest : est.shape = M :: c :: by')
    (hb : bcShape bx by' = some f) (hc : 0 < c) (hl : UsualLengths o N M)
    (hx : o.filterLength = 1 ∨ (o.useCgIter ≠ none ∨ ExpandsMatrices A) ∧ bx.length = f.length) :
    SameResult (fun T P => T.shape = c :: f ∧ P.shape = c :: 1 :: f ∧
        ∀ k i, k < c → InRange f i → T.get (k :: i) = P.get (k :: 0 :: i))
      (sdrLoss A o.args false est ref) (sdrLoss A o.args true est ref) := by
  obtain ⟨s, rfl⟩ : ∃ s : List ℕ, f = s.reverse := ⟨f.reverse, by simp⟩
  have hb' : bcShape (1 :: bx) (c :: by') = some (c :: s.reverse) := by
    by_cases h1 : 1 = c
    · subst h1; simp [bcShape, hb]
    · simp [bcShape, hb, h1]
  have hv : TakesVectors A.B o := by
    obtain h | ⟨h | h, -⟩ := hx
    · exact .inl h
    · exact .inr (.inl h)
    · exact .inr (.inr (expands_vectors h))
  have h1 : Agrees Holds1 (sdrLoss A o.args false est ref)
      (FBE.sdrLossDiag A.B o (channels est (c :: by') s c M) (channels ref (1 :: bx) s c N)) :=
    (sdrLoss_expand hA.lawful hA.covered href hest hb' (hx.imp id fun h => ⟨by simpa using h.2, h.1⟩)).agrees
      (sdrLossDiag_ne hA.covered hl hv _ _)
  have hr : channels ref (1 :: bx) s c N = fun m _ => signals ref bx s 1 N m 0 := by
    funext m k t
    show ref.get (t.val :: bcIdx (1 :: bx) (k.val :: pos m)) = ref.get (t.val :: 0 :: bcIdx bx (pos m))
    rw [bcIdx_one]
  rw [hr, channels_signals, sdrLossDiag_one hc hv] at h1
  have h2 := sdrLoss_pair_agrees (o := o) hA.lawful hA.covered href hest hb hl (by
    obtain h | ⟨h | h, h'⟩ := hx
    · exact .inr (.inl h)
    · exact .inr (.inr (by simpa using h'))
    · exact .inr (.inr (by simpa using h')))
  cases hp : FBE.sdrLossPair A.B o (signals est by' s c M) (signals ref bx s 1 N) with
  | error err =>
    rw [hp] at h1 h2
    exact .inl ⟨err, h1, h2⟩
  | ok V =>
    rw [hp] at h1 h2
    obtain ⟨T, hT, hT'⟩ := h1
    obtain ⟨P, hP, hP'⟩ := h2
    refine .inr ⟨T, P, hT, hP, hT'.1, hP'.1, fun k i hk hi => ?_⟩
    obtain ⟨m, rfl⟩ := exists_pos hi
    exact (hT'.2 m ⟨k, hk⟩).trans (hP'.2 m 0 ⟨k, hk⟩).symm

example (x y : List ℕ → ℝ) : SameResult (fun T P => T.shape = [4] ∧ P.shape = [4, 1] ∧
      ∀ k i, k < 4 → InRange [] i → T.get (k :: i) = P.get (k :: 0 :: i))
    (sdrLoss oldTorchApi Ex.opts.args false ⟨[100, 4], y⟩ ⟨[100, 1], x⟩)
    (sdrLoss oldTorchApi Ex.opts.args true ⟨[100, 4], y⟩ ⟨[100, 1], x⟩) :=
  C74_one_reference (o := Ex.opts) (bx := []) (by' := []) (f := []) (.inr (.inl rfl)) rfl rfl rfl (by decide)
    (C61_usual (by decide) 100) (.inr ⟨.inr (.inl rfl), rfl⟩)

/-- C74: current torch raises `RuntimeError` with the direct solver if references would be repeated, unless the
number of channels is the number of taps. -/
theorem C74_torch (href : ref.shape = N :: a) (hest : est.shape = M :: b) (hb : bcShape a b = some (c :: f))
    (hN : 0 < N) (hL : 0 < o.filterLength) (h1 : o.filterLength ≠ 1) (hcg : o.useCgIter = none) (ha : a ≠ c :: f)
    (hc : c ≠ min o.filterLength (transformSize N M)) :
    sdrLoss torchApi o.args false est ref = .error .runtimeError := by
  obtain ⟨n, hn⟩ := nFft_exists hN M
  rw [transformSize_eq hn] at hc
  exact sdrLoss_expand_torch (o := o) (len := some (o.filterLength : ℤ)) href hest hb hn hL (.inl rfl)
    (by simpa using h1) hcg ha hc

theorem C74_taps {c N M : ℕ} (h : 2 < c) : c ≠ min Ex.opts.filterLength (transformSize N M) := by
  have : min Ex.opts.filterLength (transformSize N M) ≤ Ex.opts.filterLength := min_le_left _ _
  have : Ex.opts.filterLength = 2 := rfl
  omega

example (x y : List ℕ → ℝ) :
    sdrLoss torchApi Ex.opts.args false ⟨[100, 4], y⟩ ⟨[100, 1], x⟩ = .error .runtimeError :=
  C74_torch (o := Ex.opts) (N := 100) (M := 100) (c := 4) (f := []) rfl rfl rfl (by decide) (by decide) (by decide) rfl
    (by decide) (C74_taps (by decide))

/-- C74: numpy >= 2 raises `ValueError` with the direct solver, whatever is repeated, unless the number of
channels is the number of taps. -/
theorem C74_numpy2 {lsa : Lsa} (hlsa : LsaCorrect lsa) (href : ref.shape = N :: a) (hest : est.shape = M :: b)
    (hb : bcShape a b = some (c :: f)) (hN : 0 < N) (hL : 0 < o.filterLength) (h1 : o.filterLength ≠ 1)
    (hcg : o.useCgIter = none) (hc : c ≠ min o.filterLength (transformSize N M)) :
    sdrLoss (numpyApi lsa true) o.args false est ref = .error .valueError := by
  obtain ⟨n, hn⟩ := nFft_exists hN M
  rw [transformSize_eq hn] at hc
  exact sdrLoss_expand_numpy2 (o := o) (len := some (o.filterLength : ℤ)) hlsa href hest hb hn hL (.inl rfl)
    (by simpa using h1) hcg hc

example (x y : List ℕ → ℝ) (lsa : Lsa) (h : LsaCorrect lsa) :
    sdrLoss (numpyApi lsa true) Ex.opts.args false ⟨[100, 1], y⟩ ⟨[100, 4], x⟩ = .error .valueError :=
  C74_numpy2 (o := Ex.opts) (N := 100) (M := 100) (c := 4) (f := []) h rfl rfl rfl (by decide) (by decide) (by decide) rfl
    (C74_taps (by decide))

/-- C74: with as many estimates as taps, the call on current torch is not rejected: whenever the call with
`pairwise=True` returns, so does this one, with one axis more than without the mistake. -/
theorem C74_as_many_as_taps (href : ref.shape = [N, 1]) (hest : est.shape = [M, c]) (hN : 0 < N)
    (hL : 0 < o.filterLength) (hc1 : c ≠ 1) (h1 : o.filterLength ≠ 1) (hcg : o.useCgIter = none)
    (hc : c = min o.filterLength (transformSize N M)) {P : Tensor XR}
    (hP : sdrLoss torchApi o.args true est ref = .ok P) :
    ∃ T, sdrLoss torchApi o.args false est ref = .ok T ∧ T.shape = [c, 1] := by
  obtain ⟨n, hn⟩ := nFft_exists hN M
  rw [transformSize_eq hn] at hc
  have hI : Installed torchApi := .inl rfl
  have h2 := sdrLoss_pair_agrees (o := o) (s := []) (bx := []) (by' := []) hI.lawful hI.covered href hest rfl
    ⟨hL, fun h => absurd h h1⟩ (.inl hcg)
  cases hp : FBE.sdrLossPair torchBackend o (signals est [] [] c M) (signals ref [] [] 1 N) with
  | error err =>
    rw [show torchApi.B = torchBackend from rfl, hp] at h2
    rw [show sdrLoss torchApi o.args true est ref = .error err from h2] at hP
    cases hP
  | ok V => exact sdrLoss_confused href hest hn hL hc1 h1 hcg hc hp

-- one reference and two estimates, two taps: the result has shape `(1, 2)`
example : ∃ T, sdrLoss torchApi Ex.opts.args false (ofSig Ex.est) (ofSig (s := []) (c := 1) fun m _ => Ex.ref m 0) = .ok T ∧
    T.shape = [2, 1] := by
  have hI : Installed torchApi := .inl rfl
  have hP : ∃ P, sdrLoss torchApi Ex.opts.args true (ofSig Ex.est) (ofSig (s := []) (c := 1) fun m _ => Ex.ref m 0) = .ok P := by
    have h2 := sdrLoss_pair_agrees (o := Ex.opts) (s := []) (bx := []) (by' := []) (N := 3) (M := 3) (r := 1) (e := 2)
      (ref := ofSig (s := []) (c := 1) fun m _ => Ex.ref m 0) (est := ofSig Ex.est)
      hI.lawful hI.covered rfl rfl rfl (C61_usual (by decide) 3) (.inl rfl)
    rw [show signals (ofSig Ex.est) [] [] 2 3 = _ from signals_ofSig Ex.est,
      show signals (ofSig (s := []) (c := 1) fun m _ => Ex.ref m 0) [] [] 1 3 = _ from signals_ofSig _] at h2
    rcases sdrCohPair_success Ex.covered rfl (by decide) Ex.load (by decide) Ex.fits
      (fun (m : BIdx []) (_ : Fin 1) => Ex.ref m 0) Ex.est with h | ⟨-, m, k, h⟩
    · obtain ⟨coh, hc⟩ := h.1
      unfold sdrLossPair at h2
      rw [show torchApi.B = torchBackend from rfl, hc] at h2
      obtain ⟨t, ht, -⟩ := h2
      exact ⟨t, ht⟩
    · exact absurd h (Ex.ref_ne_zero m 0)
  obtain ⟨P, hP⟩ := hP
  exact C74_as_many_as_taps (N := 3) (M := 3) (c := 2) rfl rfl (by decide) (by decide) (by decide) (by decide) rfl
    (by decide) hP

end FBE.Props
