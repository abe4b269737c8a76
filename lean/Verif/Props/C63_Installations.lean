import Verif.Proofs.ArrayItem
import Verif.Props.C21_Backends
import Verif.Proofs.Example

/-!
# C63 — the installations agree on arrays

torch >= 1.8, older versions of torch (through the wrappers of `torch/compatibility.py`), numpy.
-/

namespace FBE.Props

open Spec Arrays Tensor

variable {b bx by' : List ℕ} {r e c N M : ℕ} {A A' : Api} {o : Opts} {ref est : Tensor ℝ}

/-! ### Older versions of torch -/

section torch

theorem C63_old : Installed oldTorchApi := .inr (.inl rfl)
theorem C63_new : Installed torchApi := .inl rfl

/-- C63, `sdr_loss(pairwise=True)`. -/
theorem C63_torch_sdr_loss (href : ref.shape = N :: r :: bx) (hest : est.shape = M :: e :: by')
    (hb : bcShape bx by' = some b) (hL : UsualLengths o N M)
    (hcg : o.useCgIter = none ∨ o.filterLength = 1 ∨ bx.length = b.length) :
    SameResult SameArray (sdrLoss oldTorchApi o.args true est ref) (sdrLoss torchApi o.args true est ref) := by
  obtain ⟨s, rfl⟩ : ∃ s : List ℕ, b = s.reverse := ⟨b.reverse, by simp⟩
  have hcg : o.useCgIter = none ∨ o.filterLength = 1 ∨ bx.length = s.length := by simpa using hcg
  exact same_of_agrees (sdrLoss_pair_agrees C63_old.lawful C63_old.covered href hest hb hL hcg)
    (sdrLoss_pair_agrees C63_new.lawful C63_new.covered href hest hb hL hcg) holds2_same

/-- C63, `sdr_loss(filter_length=None, pairwise=True)`. -/
theorem C63_torch_sdr_loss_none (href : ref.shape = N :: r :: bx) (hest : est.shape = M :: e :: by')
    (hb : bcShape bx by' = some b) (hN : 0 < N) (hcg : o.useCgIter = none ∨ bx.length = b.length) :
    SameResult SameArray (sdrLoss oldTorchApi { o.args with filterLength := none } true est ref)
      (sdrLoss torchApi { o.args with filterLength := none } true est ref) := by
  obtain ⟨s, rfl⟩ : ∃ s : List ℕ, b = s.reverse := ⟨b.reverse, by simp⟩
  have hcg : o.useCgIter = none ∨ bx.length = s.length := by simpa using hcg
  exact same_of_agrees (sdrLoss_pair_none_agrees C63_old.lawful C63_old.covered href hest hb hN hcg)
    (sdrLoss_pair_none_agrees C63_new.lawful C63_new.covered href hest hb hN hcg) holds2_same

example (x y : List ℕ → ℝ) : SameResult SameArray
    (sdrLoss oldTorchApi { Ex.opts.args with filterLength := none } true ⟨[90, 3, 3], y⟩ ⟨[100, 2], x⟩)
    (sdrLoss torchApi { Ex.opts.args with filterLength := none } true ⟨[90, 3, 3], y⟩ ⟨[100, 2], x⟩) :=
  C63_torch_sdr_loss_none (o := Ex.opts) (N := 100) (M := 90) (b := [3]) rfl rfl rfl (by decide) (.inl rfl)

/-- C63, `sdr_loss(pairwise=False)`. -/
theorem C63_torch_sdr_loss_aligned (href : ref.shape = N :: c :: b) (hest : est.shape = M :: by')
    (hb : bcShape (c :: b) by' = some (c :: b)) (hL : UsualLengths o N M) :
    SameResult SameArray (sdrLoss oldTorchApi o.args false est ref) (sdrLoss torchApi o.args false est ref) := by
  obtain ⟨s, rfl⟩ : ∃ s : List ℕ, b = s.reverse := ⟨b.reverse, by simp⟩
  exact same_of_agrees (sdrLoss_diag_agrees C63_old.lawful C63_old.covered href hest hb hL (.inr (.inr rfl)))
    (sdrLoss_diag_agrees C63_new.lawful C63_new.covered href hest hb hL (.inr (.inr rfl))) holds1_same

example (x y : List ℕ → ℝ) : SameResult SameArray
    (sdrLoss oldTorchApi Ex.opts.args false ⟨[90, 2], y⟩ ⟨[100, 2, 3], x⟩)
    (sdrLoss torchApi Ex.opts.args false ⟨[90, 2], y⟩ ⟨[100, 2, 3], x⟩) :=
  C63_torch_sdr_loss_aligned (o := Ex.opts) (N := 100) (M := 90) (b := [3]) rfl rfl rfl
    ⟨by decide, fun h => absurd h (by decide)⟩

/-- C63, `sdr_loss(filter_length=None, pairwise=False)`. -/
theorem C63_torch_sdr_loss_none_aligned (href : ref.shape = N :: c :: b) (hest : est.shape = M :: by')
    (hb : bcShape (c :: b) by' = some (c :: b)) (hN : 0 < N) :
    SameResult SameArray (sdrLoss oldTorchApi { o.args with filterLength := none } false est ref)
      (sdrLoss torchApi { o.args with filterLength := none } false est ref) := by
  obtain ⟨s, rfl⟩ : ∃ s : List ℕ, b = s.reverse := ⟨b.reverse, by simp⟩
  exact same_of_agrees (sdrLoss_diag_none_agrees C63_old.lawful C63_old.covered href hest hb hN (.inr rfl))
    (sdrLoss_diag_none_agrees C63_new.lawful C63_new.covered href hest hb hN (.inr rfl)) holds1_same

example (x y : List ℕ → ℝ) : SameResult SameArray
    (sdrLoss oldTorchApi { Ex.opts.args with filterLength := none } false ⟨[90, 2], y⟩ ⟨[100, 2, 3], x⟩)
    (sdrLoss torchApi { Ex.opts.args with filterLength := none } false ⟨[90, 2], y⟩ ⟨[100, 2, 3], x⟩) :=
  C63_torch_sdr_loss_none_aligned (o := Ex.opts) (N := 100) (M := 90) (b := [3]) rfl rfl rfl (by decide)

/-- C63, `sdr` (and `sdr_pit_loss`). -/
theorem C63_torch_sdr (href : ref.shape = N :: r :: bx) (hest : est.shape = M :: e :: by')
    (hb : bcShape bx by' = some b) (hL : UsualLengths o N M)
    (hcg : o.useCgIter = none ∨ o.filterLength = 1 ∨ bx.length = b.length) (rp cs : Bool) :
    SameResult SameSdrArrays (Arrays.sdr oldTorchApi o.args rp cs ref est) (Arrays.sdr torchApi o.args rp cs ref est) := by
  obtain ⟨s, rfl⟩ : ∃ s : List ℕ, b = s.reverse := ⟨b.reverse, by simp⟩
  have hcg : o.useCgIter = none ∨ o.filterLength = 1 ∨ bx.length = s.length := by simpa using hcg
  exact same_of_agrees (sdr_agrees C63_old.lawful C63_old.covered href hest hb hL hcg rp cs)
    (sdr_agrees C63_new.lawful C63_new.covered href hest hb hL hcg rp cs) holdsSdr_same

example (x y : List ℕ → ℝ) : SameResult SameSdrArrays
    (Arrays.sdr oldTorchApi Ex.opts.args true false ⟨[100, 2], x⟩ ⟨[90, 3, 3], y⟩)
    (Arrays.sdr torchApi Ex.opts.args true false ⟨[100, 2], x⟩ ⟨[90, 3, 3], y⟩) :=
  C63_torch_sdr (o := Ex.opts) (N := 100) (M := 90) (b := [3]) rfl rfl rfl ⟨by decide, fun h => absurd h (by decide)⟩
    (.inl rfl) true false

/-- C63, `bss_eval_sources`. -/
theorem C63_torch_bss_eval (href : ref.shape = N :: r :: bx) (hest : est.shape = M :: e :: by')
    (hb : bcShape bx by' = some b) (hL : UsualLengths o N M) (hpos : o.filterLength = 1 ∨ 0 < e * r * b.prod)
    (hcg : o.useCgIter = none ∨ o.filterLength = 1 ∨ bx.length = b.length) :
    SameResult SameBssArrays (Arrays.bssEvalSources oldTorchApi o.args true ref est)
      (Arrays.bssEvalSources torchApi o.args true ref est) := by
  obtain ⟨s, rfl⟩ : ∃ s : List ℕ, b = s.reverse := ⟨b.reverse, by simp⟩
  have hcg : o.useCgIter = none ∨ o.filterLength = 1 ∨ bx.length = s.length := by simpa using hcg
  exact same_of_agrees (bssEval_perm_agrees C63_old.lawful C63_old.covered href hest hb hL hpos hcg)
    (bssEval_perm_agrees C63_new.lawful C63_new.covered href hest hb hL hpos hcg) holdsBss_same

example (x y : List ℕ → ℝ) : SameResult SameBssArrays
    (Arrays.bssEvalSources oldTorchApi Ex.opts.args true ⟨[100, 2], x⟩ ⟨[90, 3, 3], y⟩)
    (Arrays.bssEvalSources torchApi Ex.opts.args true ⟨[100, 2], x⟩ ⟨[90, 3, 3], y⟩) :=
  C63_torch_bss_eval (o := Ex.opts) (N := 100) (M := 90) (b := [3]) rfl rfl rfl
    ⟨by decide, fun h => absurd h (by decide)⟩ (.inr (by decide)) (.inl rfl)

/-- C63, `bss_eval_sources(compute_permutation=False)`. -/
theorem C63_torch_bss_eval_aligned (href : ref.shape = N :: r :: b) (hest : est.shape = M :: e :: by')
    (hb : bcShape b by' = some b) (hL : UsualLengths o N M) (hpos : o.filterLength = 1 ∨ 0 < e * r * b.prod)
    (hn : o.filterLength = 1 ∨ o.useCgIter ≠ none ∨ o.filterLength ≤ transformSize N M) :
    SameResult SameBssArrays (Arrays.bssEvalSources oldTorchApi o.args false ref est)
      (Arrays.bssEvalSources torchApi o.args false ref est) := by
  obtain ⟨s, rfl⟩ : ∃ s : List ℕ, b = s.reverse := ⟨b.reverse, by simp⟩
  exact same_of_agrees (bssEval_noPerm_agrees C63_old.lawful C63_old.covered href hest hb hL hpos (.inr (.inr rfl)) hn)
    (bssEval_noPerm_agrees C63_new.lawful C63_new.covered href hest hb hL hpos (.inr (.inr rfl)) hn) holdsBss_same

example (x y : List ℕ → ℝ) : SameResult SameBssArrays
    (Arrays.bssEvalSources oldTorchApi Ex.opts.args false ⟨[3, 2, 3], x⟩ ⟨[3, 2], y⟩)
    (Arrays.bssEvalSources torchApi Ex.opts.args false ⟨[3, 2, 3], x⟩ ⟨[3, 2], y⟩) :=
  C63_torch_bss_eval_aligned (o := Ex.opts) (N := 3) (M := 3) (b := [3]) rfl rfl rfl
    ⟨by decide, fun h => absurd h (by decide)⟩ (.inr (by decide)) (.inr (.inr (by decide)))

end torch

/-! ### Any two installations -/

/-- C63, `sdr_loss(pairwise=True)`. -/
theorem C63_sdr_loss (hA : Installed A) (hA' : Installed A') (href : ref.shape = N :: r :: bx)
    (hest : est.shape = M :: e :: by') (hb : bcShape bx by' = some b) (hL : UsualLengths o N M)
    (hcg : o.useCgIter = none ∨ o.filterLength = 1 ∨ bx.length = b.length) :
    SameReturn SameArray (sdrLoss A o.args true est ref) (sdrLoss A' o.args true est ref) := by
  obtain ⟨s, rfl⟩ : ∃ s : List ℕ, b = s.reverse := ⟨b.reverse, by simp⟩
  have hcg : o.useCgIter = none ∨ o.filterLength = 1 ∨ bx.length = s.length := by simpa using hcg
  exact same_of_agrees' (sdrLoss_pair_agrees hA.lawful hA.covered href hest hb hL hcg)
    (sdrLoss_pair_agrees hA'.lawful hA'.covered href hest hb hL hcg)
    (fun L => C21_pairwise hA.covered hA'.covered _ _ L) holds2_same

-- torch and numpy, estimates shorter than references
example (x y : List ℕ → ℝ) (lsa : Lsa) (h : LsaCorrect lsa) : SameReturn SameArray
    (sdrLoss torchApi Ex.opts.args true ⟨[80, 3, 3], y⟩ ⟨[100, 2], x⟩)
    (sdrLoss (numpyApi lsa true) Ex.opts.args true ⟨[80, 3, 3], y⟩ ⟨[100, 2], x⟩) :=
  C63_sdr_loss (o := Ex.opts) (N := 100) (b := [3]) C63_new (.inr (.inr ⟨lsa, true, h, rfl⟩)) rfl rfl rfl
    ⟨by decide, fun h => absurd h (by decide)⟩ (.inl rfl)

/-- C63, `sdr_loss(pairwise=False)` (numpy older than 2, or not the direct solver, see C43). -/
theorem C63_sdr_loss_aligned (hA : Installed A) (hA' : Installed A') (href : ref.shape = N :: c :: b)
    (hest : est.shape = M :: by') (hb : bcShape (c :: b) by' = some (c :: b)) (hL : UsualLengths o N M)
    (hv : TakesVectors A.B o) (hv' : TakesVectors A'.B o) :
    SameReturn SameArray (sdrLoss A o.args false est ref) (sdrLoss A' o.args false est ref) := by
  obtain ⟨s, rfl⟩ : ∃ s : List ℕ, b = s.reverse := ⟨b.reverse, by simp⟩
  exact same_of_agrees' (sdrLoss_diag_agrees hA.lawful hA.covered href hest hb hL hv)
    (sdrLoss_diag_agrees hA'.lawful hA'.covered href hest hb hL hv')
    (fun L => C21_aligned hA.covered hA'.covered (by
      rcases hv with h | h | h
      · exact .inl h
      · exact .inr (.inl h)
      · rcases hv' with h' | h' | h'
        · exact .inl h'
        · exact .inr (.inl h')
        · exact .inr (.inr (h.trans h'.symm))) _ _ L) holds1_same

example (x y : List ℕ → ℝ) (lsa : Lsa) (h : LsaCorrect lsa) : SameReturn SameArray
    (sdrLoss torchApi Ex.opts.args false ⟨[100, 2], y⟩ ⟨[100, 2, 3], x⟩)
    (sdrLoss (numpyApi lsa false) Ex.opts.args false ⟨[100, 2], y⟩ ⟨[100, 2, 3], x⟩) :=
  C63_sdr_loss_aligned (o := Ex.opts) (N := 100) (b := [3]) C63_new (.inr (.inr ⟨lsa, false, h, rfl⟩)) rfl rfl rfl
    ⟨by decide, fun h => absurd h (by decide)⟩ (.inr (.inr rfl)) (.inr (.inr rfl))

/-- C63, `bss_eval_sources(compute_permutation=False)`. -/
theorem C63_bss_eval_aligned (hA : Installed A) (hA' : Installed A') (href : ref.shape = N :: r :: b)
    (hest : est.shape = M :: e :: by') (hb : bcShape b by' = some b) (hL : UsualLengths o N M)
    (hpos : o.filterLength = 1 ∨ 0 < e * r * b.prod) (hv : TakesVectors A.B o) (hv' : TakesVectors A'.B o)
    (hn : o.filterLength = 1 ∨ o.useCgIter ≠ none ∨ o.filterLength ≤ transformSize N M) :
    SameReturn SameBssArrays (Arrays.bssEvalSources A o.args false ref est)
      (Arrays.bssEvalSources A' o.args false ref est) := by
  obtain ⟨s, rfl⟩ : ∃ s : List ℕ, b = s.reverse := ⟨b.reverse, by simp⟩
  exact same_of_agrees' (bssEval_noPerm_agrees hA.lawful hA.covered href hest hb hL hpos hv hn)
    (bssEval_noPerm_agrees hA'.lawful hA'.covered href hest hb hL hpos hv' hn)
    (fun out => C21_bss_eval_aligned hA.covered hA'.covered (by
      rcases hv with h | h | h
      · exact .inl h
      · exact .inr (.inl h)
      · rcases hv' with h' | h' | h'
        · exact .inl h'
        · exact .inr (.inl h')
        · exact .inr (.inr (h.trans h'.symm))) _ _ out) holdsBss_same

example (x y : List ℕ → ℝ) (lsa : Lsa) (h : LsaCorrect lsa) : SameReturn SameBssArrays
    (Arrays.bssEvalSources torchApi Ex.opts.args false ⟨[3, 2, 3], x⟩ ⟨[3, 2], y⟩)
    (Arrays.bssEvalSources (numpyApi lsa false) Ex.opts.args false ⟨[3, 2, 3], x⟩ ⟨[3, 2], y⟩) :=
  C63_bss_eval_aligned (o := Ex.opts) (N := 3) (b := [3]) C63_new (.inr (.inr ⟨lsa, false, h, rfl⟩)) rfl rfl rfl
    ⟨by decide, fun h => absurd h (by decide)⟩ (.inr (by decide)) (.inr (.inr rfl)) (.inr (.inr rfl)) (.inr (.inr (by decide)))

/-! ### `einsum_complex` -/

theorem C63_sum_re (size : Char → ℕ) : ∀ (ls : List Char) (env : Char → ℕ) (f : (Char → ℕ) → ℂ),
    (sumLabels size ls env f).re = sumLabels size ls env fun v => (f v).re
  | [], _, _ => rfl
  | l :: ls, env, f => by
    simp only [sumLabels, Complex.re_sum]
    exact Finset.sum_congr rfl fun t _ => C63_sum_re size ls _ f

theorem C63_sum_im (size : Char → ℕ) : ∀ (ls : List Char) (env : Char → ℕ) (f : (Char → ℕ) → ℂ),
    (sumLabels size ls env f).im = sumLabels size ls env fun v => (f v).im
  | [], _, _ => rfl
  | l :: ls, env, f => by
    simp only [sumLabels, Complex.im_sum]
    exact Finset.sum_congr rfl fun t _ => C63_sum_im size ls _ f

theorem C63_sum_sub (size : Char → ℕ) : ∀ (ls : List Char) (env : Char → ℕ) (f g : (Char → ℕ) → ℝ),
    (sumLabels size ls env fun v => f v - g v) = sumLabels size ls env f - sumLabels size ls env g
  | [], _, _, _ => rfl
  | l :: ls, env, f, g => by
    simp only [sumLabels, ← Finset.sum_sub_distrib]
    exact Finset.sum_congr rfl fun t _ => C63_sum_sub size ls _ f g

theorem C63_sum_add (size : Char → ℕ) : ∀ (ls : List Char) (env : Char → ℕ) (f g : (Char → ℕ) → ℝ),
    (sumLabels size ls env fun v => f v + g v) = sumLabels size ls env f + sumLabels size ls env g
  | [], _, _, _ => rfl
  | l :: ls, env, f, g => by
    simp only [sumLabels, ← Finset.sum_add_distrib]
    exact Finset.sum_congr rfl fun t _ => C63_sum_add size ls _ f g

open Classical in
theorem C63_map_get {x : Tensor ℂ} (f : ℂ → ℝ) (h0 : f 0 = 0) (hx : ∀ i, ¬ InRange x.shape i → x.get i = 0)
    (i : List ℕ) : (x.map f).get i = f (x.get i) := by
  show (if InRange x.shape i then f (x.get i) else 0) = _
  split_ifs with h
  · rfl
  · rw [hx i h, h0]

/-- C63: `einsum_complex` is the complex `einsum` (arrays are zero outside of their range, as all arrays of the
model). -/
theorem C63_einsum_complex (la lb lo : List Char) {x y : Tensor ℂ} (hx : ∀ i, ¬ InRange x.shape i → x.get i = 0)
    (hy : ∀ i, ¬ InRange y.shape i → y.get i = 0) :
    einsumComplex la lb lo x y = Tensor.einsum .runtimeError la lb lo x y := by
  unfold einsumComplex Tensor.einsum
  simp only [show ∀ f : ℂ → ℝ, (x.map f).shape = x.shape from fun _ => rfl,
    show ∀ f : ℂ → ℝ, (y.map f).shape = y.shape from fun _ => rfl,
    C63_map_get Complex.re rfl hx, C63_map_get Complex.im rfl hx, C63_map_get Complex.re rfl hy,
    C63_map_get Complex.im rfl hy]
  split_ifs with h1 h2
  · rfl
  · rfl
  · cases h : bcShape (x.shape.drop la.reverse.length) (y.shape.drop lb.reverse.length) with
    | none => rfl
    | some s =>
      dsimp only
      rw [ok_bind, ok_bind, ok_bind, ok_bind, zip_same, ok_bind, zip_same, ok_bind, complexTensor]
      simp only [tab_shape, if_true]
      refine congrArg Except.ok (tab_congr fun i hi => ?_)
      rw [tab_get (show InRange _ i from hi), tab_get (show InRange _ i from hi)]
      apply Complex.ext
      · rw [C63_sum_re, ← C63_sum_sub]
        simp only [Complex.mul_re]
      · rw [C63_sum_im, ← C63_sum_add]
        simp only [Complex.mul_im]

-- the product of two matrices
example (f g : List ℕ → ℂ) :
    einsumComplex ['i', 'j'] ['j', 'k'] ['i', 'k'] (tab [2, 3] f) (tab [4, 2] g) =
      Tensor.einsum .runtimeError ['i', 'j'] ['j', 'k'] ['i', 'k'] (tab [2, 3] f) (tab [4, 2] g) :=
  C63_einsum_complex _ _ _ (fun _ hi => if_neg hi) fun _ hi => if_neg hi

/-! On the signals of the example the functions return, on both versions of torch. -/

example : ∃ x y, sdrLoss oldTorchApi Ex.opts.args true (ofSig Ex.est) (ofSig Ex.ref) = .ok x ∧
    sdrLoss torchApi Ex.opts.args true (ofSig Ex.est) (ofSig Ex.ref) = .ok y ∧ SameArray x y := by
  rcases C63_torch_sdr_loss (o := Ex.opts) (ref := ofSig Ex.ref) (est := ofSig Ex.est) (b := []) rfl rfl rfl
    ⟨by decide, fun _ => .inl rfl⟩ (.inl rfl) with ⟨err, h, -⟩ | h
  · exfalso
    have ho := sdrLoss_pair_agrees (o := Ex.opts) (s := []) C63_old.lawful C63_old.covered (ref := ofSig Ex.ref)
      (est := ofSig Ex.est) rfl rfl rfl ⟨by decide, fun _ => .inl rfl⟩ (.inl rfl)
    rw [signals_ofSig, signals_ofSig, h] at ho
    obtain ⟨L, hL⟩ := Ex.sdrLossPair_ok
    rw [show oldTorchApi.B = torchBackend from rfl, hL] at ho
    obtain ⟨t, ht, -⟩ := ho
    cases ht
  · exact h

end FBE.Props
