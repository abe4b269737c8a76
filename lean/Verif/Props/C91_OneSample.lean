import Verif.Proofs.ArrayOneSample
import Verif.Proofs.ArrayAgree
import Verif.Props.C11_C17_Permutation

/-!
# C91 — one sample against several, `filter_length=1`

With one tap (and so in all `si_` functions) the sums over time are taken directly: a signal of one sample is
broadcast along the other one.  Shapes and indices are listed from the last axis to the first.
-/

namespace FBE.Props

open Spec Arrays Tensor

variable {s bx by' b : List ℕ} {r e c n : ℕ} {A : Api} {o : Opts} {ref ref' est : Tensor ℝ}

/-- The dot product with a stretched signal of one sample. -/
theorem C91_dot {x : Fin 1 → ℝ} {y : Fin n → ℝ} :
    dot (stretched n x) y = ∑ t, x 0 * y t := rfl

theorem C91_dot' {x : Fin n → ℝ} {y : Fin 1 → ℝ} :
    dot x (stretched n y) = ∑ t, y 0 * x t := Finset.sum_congr rfl fun _ _ => mul_comm _ _

theorem C91_prep (hz : o.zeroMean = false) {N : ℕ} (x : Sig s c N) (m : BIdx s) (k : Fin c) :
    prep o x m k = preprocess false (x m k) := by
  show preprocess o.zeroMean (x m k) = _
  rw [hz]

theorem C91_prep_zero (hz : o.zeroMean = true) (x : Sig s c 1) (m : BIdx s) (k : Fin c) : prep o x m k = 0 := by
  show preprocess o.zeroMean (x m k) = _
  rw [hz, preprocess_one_centred]

/-- **C91.**  `sdr_loss(est, ref, filter_length=1, pairwise=True)` accepts references of one sample with estimates of
any number of samples.  For a reference of absolute value at least `1e-6` (and an audible estimate) the value of the
reference does not matter: the SDR is the ratio of the square of the sum of the samples and the rest of the energy. -/
theorem C91_reference (hL : o.filterLength = 1) (hz : o.zeroMean = false) (hcl : o.clampOk)
    (href : ref.shape = 1 :: r :: bx) (hest : est.shape = n :: e :: by') (hb : bcShape bx by' = some s.reverse) :
    ∃ T, sdrLoss A o.args true est ref = .ok T ∧ T.shape = e :: r :: s.reverse ∧
      ∀ (m : BIdx s) (k : Fin r) (j : Fin e), 1e-6 ≤ |signals ref bx s r 1 m k 0| → Audible (signals est by' s e n m j) →
        T.get (j.val :: k.val :: pos m) = (report o.clampDb (sumRatio (signals est by' s e n m j))).neg := by
  obtain ⟨T, hT, hs, hv⟩ := one_ref_pair (A := A) hL href hest hb
  refine ⟨T, hT, hs, fun m k j hx hy => ?_⟩
  simp only [hv]
  rw [C91_dot, C91_prep hz, C91_prep hz]
  exact loss_sumRatio hcl (preprocess_one hx) hy

/-- Two references 1 and 2 of one sample; estimates (1, 1, 1) and (1, 2, -3). -/
noncomputable def C91_ref : Tensor ℝ := ⟨[1, 2], fun i => 1 + (i.getD 1 0 : ℕ)⟩

noncomputable def C91_est : Tensor ℝ := ⟨[3, 2], fun i => if i.getD 1 0 = 0 then 1 else ![1, 2, -3] (Fin.ofNat 3 (i.getD 0 0))⟩

-- the first estimate gets the perfect score from both references, the second one the worst
example : ∃ T, sdrLoss A (siOpts false none none).args true C91_est C91_ref = .ok T ∧
    T.get [0, 0] = .ninf ∧ T.get [0, 1] = .ninf ∧ T.get [1, 0] = .pinf := by
  obtain ⟨T, hT, _, hv⟩ := C91_reference (A := A) (s := []) (o := siOpts false none none) (ref := C91_ref) (est := C91_est)
    (bx := []) (by' := []) (r := 2) (e := 2) (n := 3) rfl rfl (fun d h => by cases h) rfl rfl rfl
  have hy0 : ∀ t : Fin 3, signals C91_est [] [] 2 3 () 0 t = 1 := fun t => rfl
  have hy1 : signals C91_est [] [] 2 3 () 1 = ![1, 2, -3] := by
    funext t
    fin_cases t <;> rfl
  have ha0 : Audible (signals C91_est [] [] 2 3 () 0) := by
    show (1e-6 : ℝ) ≤ √(∑ t, _ ^ 2)
    refine Real.le_sqrt_of_sq_le ?_
    simp only [hy0, Fin.sum_univ_three]
    norm_num
  have ha1 : Audible (signals C91_est [] [] 2 3 () 1) := by
    show (1e-6 : ℝ) ≤ √(∑ t, _ ^ 2)
    refine Real.le_sqrt_of_sq_le ?_
    rw [hy1, Fin.sum_univ_three, show (![1, 2, -3] : Fin 3 → ℝ) 2 = -3 from rfl]
    norm_num
  have hr : ∀ k : Fin 2, 1e-6 ≤ |signals C91_ref [] [] 2 1 () k 0| := by
    intro k
    show (1e-6 : ℝ) ≤ |1 + ((k.val : ℕ) : ℝ)|
    rw [abs_of_nonneg (by positivity)]
    have : (0 : ℝ) ≤ ((k.val : ℕ) : ℝ) := Nat.cast_nonneg _
    linarith
  have h0 : sumRatio (signals C91_est [] [] 2 3 () 0) = .pinf := by
    unfold sumRatio
    simp only [hy0, Fin.sum_univ_three, dbRatio]
    norm_num
  have h1 : sumRatio (signals C91_est [] [] 2 3 () 1) = .ninf := by
    unfold sumRatio
    rw [hy1]
    simp only [Fin.sum_univ_three, dbRatio, show (![1, 2, -3] : Fin 3 → ℝ) 2 = -3 from rfl]
    norm_num
  refine ⟨T, hT, ?_, ?_, ?_⟩
  · exact (hv () 0 0 (hr 0) ha0).trans (by rw [h0]; rfl)
  · exact (hv () 1 0 (hr 1) ha0).trans (by rw [h0]; rfl)
  · exact (hv () 0 1 (hr 0) ha1).trans (by rw [h1]; rfl)

/-- **C91.**  The same for estimates of one sample: the value is that of the reference. -/
theorem C91_estimate (hL : o.filterLength = 1) (hz : o.zeroMean = false) (hcl : o.clampOk)
    (href : ref.shape = n :: r :: bx) (hest : est.shape = 1 :: e :: by') (hb : bcShape bx by' = some s.reverse) :
    ∃ T, sdrLoss A o.args true est ref = .ok T ∧ T.shape = e :: r :: s.reverse ∧
      ∀ (m : BIdx s) (k : Fin r) (j : Fin e), Audible (signals ref bx s r n m k) → 1e-6 ≤ |signals est by' s e 1 m j 0| →
        T.get (j.val :: k.val :: pos m) = (report o.clampDb (sumRatio (signals ref bx s r n m k))).neg := by
  obtain ⟨T, hT, hs, hv⟩ := one_est_pair (A := A) hL href hest hb
  refine ⟨T, hT, hs, fun m k j hx hy => ?_⟩
  simp only [hv]
  rw [C91_dot', C91_prep hz, C91_prep hz]
  exact loss_sumRatio hcl (preprocess_one hy) hx

-- an estimate of one sample, channel by channel: only the reference matters
example (x y : List ℕ → ℝ) (hx : Audible fun t : Fin 100 => x [t.val, 1]) (hy : 1e-6 ≤ |y [0, 1]|) :
    ∃ T, sdrLoss A (siOpts false none none).args true ⟨[1, 2], y⟩ ⟨[100, 2], x⟩ = .ok T ∧
      T.get [1, 1] = (sumRatio fun t : Fin 100 => x [t.val, 1]).neg := by
  obtain ⟨T, hT, _, hv⟩ := C91_estimate (A := A) (s := []) (o := siOpts false none none) (ref := ⟨[100, 2], x⟩)
    (est := ⟨[1, 2], y⟩) (bx := []) (by' := []) (r := 2) (e := 2) (n := 100) rfl rfl (fun d h => by cases h) rfl rfl rfl
  exact ⟨T, hT, hv () 1 1 hx hy⟩

/-- **C91.**  `pairwise=False`, references of one sample. -/
theorem C91_reference_aligned (hL : o.filterLength = 1) (hz : o.zeroMean = false) (hcl : o.clampOk)
    (href : ref.shape = 1 :: c :: s.reverse) (hest : est.shape = n :: b)
    (hb : bcShape (c :: s.reverse) b = some (c :: s.reverse)) :
    ∃ T, sdrLoss A o.args false est ref = .ok T ∧ T.shape = c :: s.reverse ∧
      ∀ (m : BIdx s) (k : Fin c), 1e-6 ≤ |signals ref s.reverse s c 1 m k 0| → Audible (channels est b s c n m k) →
        T.get (k.val :: pos m) = (report o.clampDb (sumRatio (channels est b s c n m k))).neg := by
  obtain ⟨T, hT, hs, hv⟩ := one_ref_diag (A := A) hL href hest hb
  refine ⟨T, hT, hs, fun m k hx hy => ?_⟩
  simp only [hv]
  rw [C91_dot, C91_prep hz, C91_prep hz]
  exact loss_sumRatio hcl (preprocess_one hx) hy

/-- **C91.**  `pairwise=False`, estimates of one sample. -/
theorem C91_estimate_aligned (hL : o.filterLength = 1) (hz : o.zeroMean = false) (hcl : o.clampOk)
    (href : ref.shape = n :: c :: s.reverse) (hest : est.shape = 1 :: b)
    (hb : bcShape (c :: s.reverse) b = some (c :: s.reverse)) :
    ∃ T, sdrLoss A o.args false est ref = .ok T ∧ T.shape = c :: s.reverse ∧
      ∀ (m : BIdx s) (k : Fin c), Audible (signals ref s.reverse s c n m k) → 1e-6 ≤ |channels est b s c 1 m k 0| →
        T.get (k.val :: pos m) = (report o.clampDb (sumRatio (signals ref s.reverse s c n m k))).neg := by
  obtain ⟨T, hT, hs, hv⟩ := one_est_diag (A := A) hL href hest hb
  refine ⟨T, hT, hs, fun m k hx hy => ?_⟩
  simp only [hv]
  rw [C91_dot', C91_prep hz, C91_prep hz]
  exact loss_sumRatio hcl (preprocess_one hy) hx

example (x y : List ℕ → ℝ) (hx : 1e-6 ≤ |x [0, 1]|) (hy : Audible fun t : Fin 100 => y [t.val, 1]) :
    ∃ T, sdrLoss A (siOpts false none none).args false ⟨[100, 2], y⟩ ⟨[1, 2], x⟩ = .ok T ∧
      T.get [1] = (sumRatio fun t : Fin 100 => y [t.val, 1]).neg := by
  obtain ⟨T, hT, _, hv⟩ := C91_reference_aligned (A := A) (s := []) (o := siOpts false none none) (ref := ⟨[1, 2], x⟩)
    (est := ⟨[100, 2], y⟩) (b := [2]) (c := 2) (n := 100) rfl rfl (fun d h => by cases h) rfl rfl rfl
  exact ⟨T, hT, hv () 1 hx hy⟩

/-- **C91.**  With `zero_mean` a signal of one sample is silent: every loss is that of silence (`+inf`, or
`clamp_db`). -/
theorem C91_zero_mean (hL : o.filterLength = 1) (hz : o.zeroMean = true) (hcl : o.clampOk)
    (h : ref.shape = 1 :: r :: bx ∧ est.shape = n :: e :: by' ∨ ref.shape = n :: r :: bx ∧ est.shape = 1 :: e :: by')
    (hb : bcShape bx by' = some s.reverse) :
    ∃ T, sdrLoss A o.args true est ref = .ok T ∧ T.shape = e :: r :: s.reverse ∧
      ∀ (m : BIdx s) (k : Fin r) (j : Fin e), T.get (j.val :: k.val :: pos m) = report o.clampDb .pinf := by
  have h0 : coherenceToNegSdr o.clampDb (.fin (0 ^ 2)) = report o.clampDb .pinf := by
    cases hd : o.clampDb with
    | none => rw [zero_pow two_ne_zero, loss_zero_none]; rfl
    | some d => rw [zero_pow two_ne_zero, loss_zero_some (hcl d hd)]; rfl
  rcases h with ⟨href, hest⟩ | ⟨href, hest⟩
  · obtain ⟨T, hT, hs, hv⟩ := one_ref_pair (A := A) hL href hest hb
    refine ⟨T, hT, hs, fun m k j => ?_⟩
    simp only [hv]
    rw [C91_dot, C91_prep_zero hz, ← h0]
    simp
  · obtain ⟨T, hT, hs, hv⟩ := one_est_pair (A := A) hL href hest hb
    refine ⟨T, hT, hs, fun m k j => ?_⟩
    simp only [hv]
    rw [C91_dot', C91_prep_zero hz, ← h0]
    simp

/-- The same samples, one and repeated: normalisation leaves the single sample larger. -/
theorem C91_repeated (zm : Bool) (x : Fin 1 → ℝ) (y : Fin n → ℝ) :
    dot (preprocess zm (stretched n x)) y ^ 2 ≤ dot (stretched n (preprocess zm x)) y ^ 2 := by
  have key : ∃ a b : ℝ, preprocess zm (stretched n x) = (fun _ => a) ∧ preprocess zm x 0 = b ∧ (0 < n → a ^ 2 ≤ b ^ 2) := by
    cases zm with
    | true =>
      refine ⟨0, _, ?_, rfl, fun _ => by rw [zero_pow two_ne_zero]; exact sq_nonneg _⟩
      rw [preprocess_eq]
      funext t
      have hn : (n : ℝ) ≠ 0 := by exact_mod_cast t.pos.ne'
      simp [centred, stretched, hn]
    | false =>
      refine ⟨x 0 / max (√(∑ _u : Fin n, x 0 ^ 2)) 1e-6, _, rfl, rfl, fun hn => ?_⟩
      show (x 0 / max (√(∑ _u : Fin n, x 0 ^ 2)) 1e-6) ^ 2 ≤ (x 0 / max (√(∑ u : Fin 1, x u ^ 2)) 1e-6) ^ 2
      have h1 : √(∑ u : Fin 1, x u ^ 2) ≤ √(∑ _u : Fin n, x 0 ^ 2) := by
        refine Real.sqrt_le_sqrt ?_
        rw [Fin.sum_univ_one, Finset.sum_const, Finset.card_univ, Fintype.card_fin, nsmul_eq_mul]
        have : (1 : ℝ) ≤ n := by exact_mod_cast hn
        nlinarith [sq_nonneg (x 0)]
      rw [div_pow, div_pow]
      have h2 : (0 : ℝ) < max (√(∑ u : Fin 1, x u ^ 2)) 1e-6 := lt_max_of_lt_right (by norm_num)
      exact div_le_div_of_nonneg_left (sq_nonneg _) (by positivity) (pow_le_pow_left₀ h2.le (max_le_max_right _ h1) 2)
  obtain ⟨a, b, h1, h2, h3⟩ := key
  rw [h1, C91_dot, h2]
  show (∑ t, a * y t) ^ 2 ≤ _
  rw [← Finset.mul_sum, ← Finset.mul_sum, mul_pow, mul_pow]
  rcases Nat.eq_zero_or_pos n with rfl | hn
  · simp
  · exact mul_le_mul_of_nonneg_right (h3 hn) (sq_nonneg _)

/-- **C91.**  No loss is larger than with the sample repeated: the broadcast reference never looks worse. -/
theorem C91_flattered (hA : Installed A) (hL : o.filterLength = 1) (hst : Stretches n ref ref')
    (href : ref.shape = 1 :: r :: bx) (hest : est.shape = n :: e :: by') (hb : bcShape bx by' = some s.reverse) :
    ∃ T T', sdrLoss A o.args true est ref = .ok T ∧ sdrLoss A o.args true est ref' = .ok T' ∧
      ∀ (m : BIdx s) (k : Fin r) (j : Fin e),
        toEReal (T.get (j.val :: k.val :: pos m)) ≤ toEReal (T'.get (j.val :: k.val :: pos m)) := by
  obtain ⟨c, b, h1, h2, h3⟩ := hst
  obtain ⟨rfl, rfl⟩ : r = c ∧ bx = b := by
    rw [href] at h1
    simpa using h1
  obtain ⟨T, hT, -, hv⟩ := one_ref_pair (A := A) hL href hest hb
  have hm := sdrLoss_pair (o := o) hA.lawful hA.covered h2 hest hb (.inr (.inl hL))
  have h0 : FBE.sdrLossPair A.B o (signals est by' s e n) (signals ref' bx s r n) = .ok fun m k j =>
      coherenceToNegSdr o.clampDb (.fin (dot (prep o (signals ref' bx s r n) m k) (prep o (signals est by' s e n) m j) ^ 2)) := by
    rw [sdrLossPair_eq_map]
    unfold sdrCohPair
    rw [if_neg (by omega), if_pos hL, sameLength, dif_pos rfl]
    rfl
  rw [h0] at hm
  obtain ⟨T', hT', -, hv'⟩ := hm
  refine ⟨T, T', hT, hT', fun m k j => ?_⟩
  simp only [hv, hv']
  refine coherenceToNegSdr_anti _ ?_
  have : signals ref' bx s r n m k = stretched n (signals ref bx s r 1 m k) := funext fun t => h3 t t.isLt _
  have h5 := C91_repeated o.zeroMean (signals ref bx s r 1 m k) (prep o (signals est by' s e n) m j)
  rw [← this] at h5
  exact h5

/-- One sample on one side, any number on the other one. -/
def C91_OneSample (ref est : Tensor ℝ) (r e : ℕ) (bx by' : List ℕ) : Prop :=
  ∃ n, ref.shape = 1 :: r :: bx ∧ est.shape = n :: e :: by' ∨ ref.shape = n :: r :: bx ∧ est.shape = 1 :: e :: by'

/-- The matrix of losses, all from coherences that are numbers. -/
theorem C91_table (hL : o.filterLength = 1) (h : C91_OneSample ref est r e bx by') (hb : bcShape bx by' = some s.reverse) :
    ∃ v : BIdx s → Fin r → Fin e → ℝ, Agrees Holds2 (sdrLoss A o.args true est ref)
      (.ok fun m k j => coherenceToNegSdr o.clampDb (.fin (v m k j))) := by
  obtain ⟨n, ⟨href, hest⟩ | ⟨href, hest⟩⟩ := h
  · exact ⟨_, one_ref_pair (A := A) hL href hest hb⟩
  · exact ⟨_, one_est_pair (A := A) hL href hest hb⟩

/-- **C91.**  `sdr` on such signals: the best pairing for this matrix. -/
theorem C91_sdr (hA : Installed A) (hL : o.filterLength = 1) (h1 : C91_OneSample ref est r e bx by')
    (hb : bcShape bx by' = some s.reverse) {out} (h : Arrays.sdr A o.args true false ref est = .ok out) :
    ∃ T perm, sdrLoss A o.args true est ref = .ok T ∧ out.2 = some perm ∧ ∀ m : BIdx s, ∃ P : Pairing r e,
      BestPairing (fun k j => T.get (j.val :: k.val :: pos m)) P ∧
      Describes (fun k : Fin (min r e) => perm.get (k.val :: pos m)) P ∧
      ∀ k : Fin (min r e), out.1.get (k.val :: pos m) = (T.get ((P.est k).val :: (P.ref k).val :: pos m)).neg := by
  obtain ⟨v, hag⟩ := C91_table (A := A) hL h1 hb
  have h2 := sdr_agrees_of hag true false
  obtain ⟨T, hT, hs, hv⟩ := hag
  dsimp only at h2
  split at h2
  · rw [show Arrays.sdr A o.args true false ref est = _ from h2] at h
    cases h
  · rename_i p hp
    obtain ⟨t, ht, h3, h4⟩ := h2
    rw [h] at ht
    obtain rfl := Except.ok.inj ht
    obtain ⟨o1, o2⟩ := out
    cases o2 with
    | none => exact h4.elim
    | some perm =>
      refine ⟨T, perm, hT, rfl, fun m => ?_⟩
      obtain ⟨_, P, hP⟩ := solvePermutation_spec A.B hA.covered.lsa _ _ hp m
      refine ⟨P, ?_, ?_, fun k => ?_⟩
      · simp only [hv]
        exact hP.best
      · rw [show (fun k : Fin (min r e) => perm.get (k.val :: pos m)) = p.perm m from funext fun k => h4.2 m k]
        exact hP.describes
      · rw [show o1.get (k.val :: pos m) = (p.loss m k).neg from h3.2 m k, hP.loss_eq]
        simp only [hv]

/-- **C91.**  With `clamp_db` it returns. -/
theorem C91_sdr_returns (hA : Installed A) (hL : o.filterLength = 1) (h1 : C91_OneSample ref est r e bx by')
    (hb : bcShape bx by' = some s.reverse) {d : ℝ} (hd : o.clampDb = some d) (hd0 : 0 ≤ d) (rp cs : Bool) :
    ∃ out, Arrays.sdr A o.args rp cs ref est = .ok out := by
  obtain ⟨v, hag⟩ := C91_table (A := A) hL h1 hb
  have h2 := sdr_agrees_of hag rp cs
  have hf : ∀ m k j, ∃ x, coherenceToNegSdr o.clampDb (.fin (v m k j)) = .fin x := by
    intro m k j
    rw [hd, coherenceToNegSdr_clip hd0]
    have hn : coherenceToNegSdr none (.fin (v m k j)) ≠ .nan := fun h => by
      rw [coherenceToNegSdr_eq_nan] at h
      cases h
    revert hn
    cases coherenceToNegSdr none (.fin (v m k j)) with
    | nan => exact fun h => absurd rfl h
    | _ => exact fun _ => ⟨_, rfl⟩
  obtain ⟨p, hp, -⟩ := solvePermutation_ok A.B hA.covered.lsa (nArgs := 0)
    (fun m k j => coherenceToNegSdr o.clampDb (.fin (v m k j))) (fun i => i.elim0) fun m =>
      ⟨(fun k j h => by obtain ⟨x, hx⟩ := hf m k j; rw [hx] at h; exact XR.noConfusion h),
        (fun ⟨⟨k, j, h⟩, _⟩ => by obtain ⟨x, hx⟩ := hf m k j; rw [hx] at h; exact XR.noConfusion h),
        fun ⟨k, j, _⟩ => ⟨k, j, hf m k j⟩⟩
  dsimp only at h2
  rw [hp] at h2
  obtain ⟨t, ht, -⟩ := h2
  exact ⟨t, ht⟩

example (x y : List ℕ → ℝ) :
    ∃ out T perm, Arrays.sdr torchApi (siOpts false (some 30) none).args true false ⟨[1, 2], x⟩ ⟨[100, 2], y⟩ = .ok out ∧
      sdrLoss torchApi (siOpts false (some 30) none).args true ⟨[100, 2], y⟩ ⟨[1, 2], x⟩ = .ok T ∧ out.2 = some perm ∧
      ∃ P : Pairing 2 2, BestPairing (fun k j => T.get [j.val, k.val]) P := by
  have h1 : C91_OneSample ⟨[1, 2], x⟩ ⟨[100, 2], y⟩ 2 2 [] [] := ⟨100, .inl ⟨rfl, rfl⟩⟩
  obtain ⟨out, h⟩ := C91_sdr_returns (A := torchApi) (s := []) (o := siOpts false (some 30) none) (.inl rfl) rfl h1 rfl rfl
    (by norm_num) true false
  obtain ⟨T, perm, hT, hp, hm⟩ := C91_sdr (s := []) (.inl rfl) rfl h1 rfl h
  obtain ⟨P, hP, _⟩ := hm ()
  exact ⟨out, T, perm, h, hT, hp, P, hP⟩

-- a reference of one sample and its repetition meet the hypothesis
example (x : ℕ → ℝ) : Stretches 100 ⟨[1, 2], fun i => x (i.getD 1 0)⟩ ⟨[100, 2], fun i => x (i.getD 1 0)⟩ :=
  ⟨2, [], rfl, rfl, fun _ _ _ => rfl⟩

/-- **C91.**  `bss_eval_sources(filter_length=1)` without loading raises `LinAlgError` for two or more references of one
sample (with `zero_mean` for one reference too). -/
theorem C91_bss_eval (hA : Installed A) (hL : o.filterLength = 1) (hload : o.load = 0) (href : ref.shape = 1 :: r :: bx)
    (hest : est.shape = n :: e :: by') (hb : bcShape bx by' = some b) (hpos : 0 < b.prod)
    (hr : 2 ≤ r ∨ 1 ≤ r ∧ o.zeroMean = true) :
    Arrays.bssEvalSources A o.args true ref est = .error .linAlgError ∧
      (r = e → Arrays.bssEvalSources A o.args false ref est = .error .linAlgError) := by
  constructor
  · simp only [Arrays.bssEvalSources, if_true, ok_bind, ne_eq, not_true_eq_false, if_false]
    rw [squareCosine_one hA.lawful hL hload href hest hb hpos hr true (by simp)]
    rfl
  · rintro rfl
    simp only [Arrays.bssEvalSources, Bool.false_eq_true, if_false, size_two href, size_two hest, ok_bind, ne_eq,
      not_true_eq_false]
    rw [squareCosine_one hA.lawful hL hload href hest hb hpos hr false (by simp)]
    rfl

example (x y : List ℕ → ℝ) :
    Arrays.bssEvalSources torchApi (siOpts false none none).args true ⟨[1, 2], x⟩ ⟨[100, 2], y⟩ = .error .linAlgError :=
  (C91_bss_eval (o := siOpts false none none) (.inl rfl) rfl rfl rfl rfl (b := []) rfl (by decide) (.inl le_rfl)).1

-- with `zero_mean`
example (x y : List ℕ → ℝ) : ∃ T, sdrLoss torchApi (siOpts true none none).args true ⟨[1, 2], y⟩ ⟨[100, 2], x⟩ = .ok T ∧
    T.get [0, 1] = .pinf := by
  obtain ⟨T, hT, _, hv⟩ := C91_zero_mean (A := torchApi) (s := []) (o := siOpts true none none) (ref := ⟨[100, 2], x⟩)
    (est := ⟨[1, 2], y⟩) (bx := []) (by' := []) (r := 2) (e := 2) (n := 100) rfl rfl (fun d h => by cases h) (.inr ⟨rfl, rfl⟩) rfl
  exact ⟨T, hT, hv () 1 0⟩

end FBE.Props
