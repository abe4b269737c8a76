import Verif.Proofs.Run
import Verif.Props.C98_Steepness
import Verif.Props.C96_Training

/-!
# C99: runs of gradient descent

How loud the estimates become when the samples are trained by gradient descent.
-/

namespace FBE.Props

open Classical FBE.Spec FBE.Backward FBE.Steepness XR

variable {s : List ℕ} {r e c N T K : ℕ} {o : Opts} {zm : Bool} {η : ℕ → ℝ}

/-- The gradients of the estimates that torch computes for a loss made of the values of one of the functions, with any weights: with
one tap, the direct solver or `use_cg_iter`, with all pairs, channel by channel or the best permutation. -/
inductive LossGradient (zm : Bool) {s : List ℕ} {e T : ℕ} : (Sig s e T → Except PyErr (BIdx s → Fin e → Fin T → XR)) → Prop
  | si {o : Opts} (hz : o.zeroMean = zm) (ref : Sig s e T) (w) : LossGradient zm fun p => .ok (gradEstDiag o ref p w)
  | si_pairwise {r : ℕ} {o : Opts} (hz : o.zeroMean = zm) (ref : Sig s r T) (w) : LossGradient zm fun p => .ok (gradEst o ref p w)
  | si_pit {r : ℕ} {o : Opts} (hz : o.zeroMean = zm) (cs : Bool) (ref : Sig s r T) (v) : LossGradient zm fun p => gradEstPit o cs ref p v
  | sdr {N : ℕ} {o : Opts} (hz : o.zeroMean = zm) (ref : Sig s e N) (w) : LossGradient zm fun p => gradEstFirDiag o ref p w
  | sdr_pairwise {N r : ℕ} {o : Opts} (hz : o.zeroMean = zm) (ref : Sig s r N) (w) : LossGradient zm fun p => gradEstFir o ref p w
  | sdr_pit {N r : ℕ} {o : Opts} (hz : o.zeroMean = zm) (cs : Bool) (ref : Sig s r N) (v) :
      LossGradient zm fun p => gradEstFirPit o cs ref p v
  | iterative {N : ℕ} {o : Opts} (hz : o.zeroMean = zm) (it : ℕ) (ref : Sig s e N) (w) :
      LossGradient zm fun p => gradEstCgDiag o it ref p w
  | iterative_pairwise {N r : ℕ} {o : Opts} (hz : o.zeroMean = zm) (it : ℕ) (ref : Sig s r N) (w) :
      LossGradient zm fun p => gradEstCg o it ref p w
  | iterative_pit {N r : ℕ} {o : Opts} (hz : o.zeroMean = zm) (it : ℕ) (cs : Bool) (ref : Sig s r N) (v) :
      LossGradient zm fun p => gradEstCgPit o it cs ref p v
  | bss_eval {N : ℕ} {o : Opts} (hz : o.zeroMean = zm) (ref : Sig s e N) (v) :
      LossGradient zm fun p => (bssBackwardDiag o ref p v).map (·.1)
  | bss_eval_perm {N r : ℕ} {o : Opts} (hz : o.zeroMean = zm) (ref : Sig s r N) (v) :
      LossGradient zm fun p => (bssBackward o ref p v).map (·.1)
  | bss_eval_iterative {N : ℕ} {o : Opts} (hz : o.zeroMean = zm) (it : ℕ) (ref : Sig s e N) (v) :
      LossGradient zm fun p => (bssBackwardCgDiag o it ref p v).map (·.1)
  | bss_eval_perm_iterative {N r : ℕ} {o : Opts} (hz : o.zeroMean = zm) (it : ℕ) (ref : Sig s r N) (v) :
      LossGradient zm fun p => (bssBackwardCg o it ref p v).map (·.1)

theorem map_ok {α β : Type} {f : α → β} {x : Except PyErr α} {y : β} (h : x.map f = .ok y) : ∃ a, x = .ok a ∧ f a = y := by
  cases x with
  | error err => cases h
  | ok a => exact ⟨a, rfl, Except.ok.inj h⟩

theorem fir_normalised {ref : Sig s r N} {p : Sig s e T} {w g} (h : gradEstFir o ref p w = .ok g) (m : BIdx s) (j : Fin e) :
    ∃ h, g m j = preprocessGrad o.zeroMean (p m j) h := by
  unfold gradEstFir at h
  split at h
  · cases h
  · cases h
    exact ⟨_, rfl⟩

theorem cg_normalised {it : ℕ} {ref : Sig s r N} {p : Sig s e T} {w g} (h : gradEstCg o it ref p w = .ok g) (m : BIdx s) (j : Fin e) :
    ∃ h, g m j = preprocessGrad o.zeroMean (p m j) h := by
  unfold gradEstCg at h
  split at h
  · cases h
  · cases h
    exact ⟨_, rfl⟩

theorem LossGradient.normalised {f : Sig s e T → Except PyErr (BIdx s → Fin e → Fin T → XR)} (L : LossGradient zm f) {p : Sig s e T} {g}
    (h : f p = .ok g) (m : BIdx s) (j : Fin e) : ∃ h, g m j = preprocessGrad zm (p m j) h := by
  cases L with
  | si hz ref w =>
    cases h
    cases hz
    exact ⟨_, rfl⟩
  | si_pairwise hz ref w =>
    cases h
    cases hz
    exact ⟨_, rfl⟩
  | si_pit hz cs ref v =>
    cases hz
    dsimp only at h
    unfold gradEstPit at h
    split at h
    · cases h
    · cases h
      exact ⟨_, rfl⟩
  | sdr hz ref w =>
    cases hz
    dsimp only at h
    unfold gradEstFirDiag at h
    split at h
    · cases h
    · cases h
      exact ⟨_, rfl⟩
  | sdr_pairwise hz ref w =>
    cases hz
    exact fir_normalised h m j
  | sdr_pit hz cs ref v =>
    cases hz
    dsimp only at h
    unfold gradEstFirPit at h
    split at h
    · cases h
    · exact fir_normalised h m j
  | iterative hz it ref w =>
    cases hz
    dsimp only at h
    unfold gradEstCgDiag at h
    split at h
    · cases h
    · cases h
      exact ⟨_, rfl⟩
  | iterative_pairwise hz it ref w =>
    cases hz
    exact cg_normalised h m j
  | iterative_pit hz it cs ref v =>
    cases hz
    dsimp only at h
    unfold gradEstCgPit at h
    split at h
    · cases h
    · exact cg_normalised h m j
  | bss_eval hz ref v =>
    cases hz
    obtain ⟨a, ha, rfl⟩ := map_ok h
    clear h
    unfold bssBackwardDiag at ha
    split at ha
    · cases ha
    · cases ha
      exact ⟨_, rfl⟩
  | bss_eval_perm hz ref v =>
    cases hz
    obtain ⟨a, ha, rfl⟩ := map_ok h
    clear h
    unfold bssBackward at ha
    split at ha
    · cases ha
    · dsimp only at ha
      split at ha
      · cases ha
      · cases ha
        exact ⟨_, rfl⟩
  | bss_eval_iterative hz it ref v =>
    cases hz
    obtain ⟨a, ha, rfl⟩ := map_ok h
    clear h
    unfold bssBackwardCgDiag at ha
    split at ha
    · cases ha
    · cases ha
      exact ⟨_, rfl⟩
  | bss_eval_perm_iterative hz it ref v =>
    cases hz
    obtain ⟨a, ha, rfl⟩ := map_ok h
    clear h
    unfold bssBackwardCg at ha
    split at ha
    · cases ha
    · dsimp only at ha
      split at ha
      · cases ha
      · cases ha
        exact ⟨_, rfl⟩

/-- The steps of one channel of a run. -/
theorem run_steps {grad : ℕ → Sig s e T → Except PyErr (BIdx s → Fin e → Fin T → XR)} {est : ℕ → Sig s e T} (R : Run grad η K est)
    (L : ∀ i < K, LossGradient zm (grad i)) {m : BIdx s} {j : Fin e} (h0 : 1e-6 ≤ sigNorm (centred zm (est 0 m j))) :
    ∃ γ, Steps zm K η (fun i => est i m j) γ ∧ ∀ i < K, ∃ g, grad i (est i) = .ok g ∧ ∀ t, g m j t = fin (γ i t) := by
  choose! g γ hg hγ hs using R
  refine ⟨fun i => γ i m j, ⟨h0, fun i hi => ?_, fun i hi => ?_⟩, fun i hi => ⟨g i, hg i hi, hγ i hi m j⟩⟩
  · rw [hs i hi]
    rfl
  · obtain ⟨h, hh⟩ := (L i hi).normalised (hg i hi) m j
    refine prepR_of_fin (g := h) fun t => ?_
    rw [← hh]
    exact hγ i hi m j t

/-- **C99.**  Gradient descent with any learning rates never makes an estimate quieter, and with `zero_mean` it never changes its mean.  The
losses may be any of the functions, and may change from step to step. -/
theorem C99_never_quieter {grad : ℕ → Sig s e T → Except PyErr (BIdx s → Fin e → Fin T → XR)} {est : ℕ → Sig s e T} (R : Run grad η K est)
    (L : ∀ i < K, LossGradient zm (grad i)) {m : BIdx s} {j : Fin e} (h0 : 1e-6 ≤ sigNorm (centred zm (est 0 m j))) :
    NeverQuieter zm K est m j := by
  obtain ⟨γ, S, -⟩ := run_steps R L h0
  exact ⟨fun i hi => S.mono hi, fun hz i hi => S.mean hz hi⟩

/-! ### the scale-invariant loss -/

theorem inside_of_chan {cl : Option ℝ} {R : Fin r → Fin N → ℝ} {x : Fin N → ℝ} {w : Fin r → ℝ} {γ : Fin N → ℝ}
    (h : 1e-6 ≤ sigNorm (centred zm x)) (hR : ∀ k, ∑ t, R k t ^ 2 ≤ 1) (hγ : ∀ t, chanGrad cl zm R w x t = fin (γ t)) (k : Fin r) :
    FiniteUnlessClamped cl (coherenceToNegSdr none (fin (dot (R k) (preprocess zm x) ^ 2))) := by
  rintro rfl
  obtain ⟨h0, h1⟩ := dot_range (preprocess_sq h).le (hR k)
  have hN : 0 < N := by
    rcases Nat.eq_zero_or_pos N with rfl | hN
    · have : sigNorm (centred zm x) = 0 := by
        unfold sigNorm
        simp
      rw [this] at h
      norm_num at h
    · exact hN
  have hn : ¬ (dot (R k) (preprocess zm x) ^ 2 = 0 ∨ dot (R k) (preprocess zm x) ^ 2 = 1) := fun hv => by
    have := hγ ⟨0, hN⟩
    rw [chanGrad_nan hv] at this
    cases this
  push Not at hn
  have he : epsOf none = 0 := rfl
  exact ⟨_, loss_inside (by rw [he]; exact lt_of_le_of_ne h0 (Ne.symm hn.1)) (by
    rw [he, sub_zero]
    exact lt_of_le_of_ne h1 hn.2)⟩

/-- **C99**, how loud the estimates of `si_sdr_loss`, and `sdr_loss` with `filter_length=1`, become: each step adds the square of the learning
rate times the length of the gradient (C98). -/
theorem C99_si (h1 : o.filterLength = 1) {ref : Sig s c N} {w : BIdx s → Fin c → ℝ} {est : ℕ → Sig s c N}
    (R : Run (fun _ p => .ok (gradEstDiag o ref p w)) η K est) {m : BIdx s} {k : Fin c}
    (h0 : 1e-6 ≤ sigNorm (centred o.zeroMean (est 0 m k))) (hr : 1e-6 ≤ sigNorm (centred o.zeroMean (ref m k))) {i : ℕ} (hi : i < K) :
    ∃ V, sdrLossDiag torchBackend { o with clampDb := none } (est i) ref = .ok V ∧
      sigNorm (centred o.zeroMean (est (i + 1) m k)) ^ 2 = sigNorm (centred o.zeroMean (est i m k)) ^ 2 +
        (η i * (|w m k| * steepAt o.clampDb (V m k) / sigNorm (centred o.zeroMean (est i m k)))) ^ 2 := by
  obtain ⟨γ, S, hg⟩ := run_steps R (fun _ _ => LossGradient.si rfl ref w) h0
  refine ⟨_, lossDiag_one (o := { o with clampDb := none }) h1 _ _, ?_⟩
  obtain ⟨g, hg, hγ⟩ := hg i hi
  cases hg
  have hf : FiniteUnlessClamped o.clampDb (coherenceToNegSdr none (fin (dot (prep o ref m k) (prep o (est i) m k) ^ 2))) := by
    refine inside_of_chan (r := 1) (R := fun _ => prep o ref m k) (S.aud hi.le) (fun _ => prep_sq_le o ref m k) (fun t => ?_) 0
      (w := fun _ => w m k) (γ := γ i)
    rw [← gradEstDiag_eq]
    exact hγ t
  obtain ⟨γ', h2, h3⟩ := (C98_si (o := o) h1 (lossDiag_one (o := { o with clampDb := none }) h1 ref (est i)) hf (S.aud hi.le) hr w).1
  have hγ' : γ i = γ' := funext fun t => XR.fin.inj ((hγ t).symm.trans (h2 t))
  rw [← h3]
  refine (S.pythagoras hi).trans ?_
  rw [hγ']
  rfl

/-- **C99**, constant learning rates: as long as the losses stay within the limits of `clamp_db` (always, without it) the fourth power of the
loudness grows at least linearly in the number of steps. -/
theorem C99_si_grows (h1 : o.filterLength = 1) {ref : Sig s c N} {w : BIdx s → Fin c → ℝ} {est : ℕ → Sig s c N}
    (R : Run (fun _ p => .ok (gradEstDiag o ref p w)) η K est) {m : BIdx s} {k : Fin c}
    (h0 : 1e-6 ≤ sigNorm (centred o.zeroMean (est 0 m k))) (hr : 1e-6 ≤ sigNorm (centred o.zeroMean (ref m k)))
    (hin : ∀ i < K, ∀ d, o.clampDb = some d → ∀ V, sdrLossDiag torchBackend { o with clampDb := none } (est i) ref = .ok V →
      ∃ y, V m k = fin y ∧ |y| ≤ d) :
    sigNorm (centred o.zeroMean (est 0 m k)) ^ 4 + 2 * (|w m k| * (40 / Real.log 10)) ^ 2 * ∑ i ∈ Finset.range K, η i ^ 2 ≤
      sigNorm (centred o.zeroMean (est K m k)) ^ 4 := by
  obtain ⟨γ, S, hg⟩ := run_steps R (fun _ _ => LossGradient.si rfl ref w) h0
  refine S.lower (mul_nonneg (abs_nonneg _) (div_nonneg (by norm_num) log_ten.le)) fun i hi => ?_
  obtain ⟨g, hg, hγ⟩ := hg i hi
  cases hg
  have hf : FiniteUnlessClamped o.clampDb (coherenceToNegSdr none (fin (dot (prep o ref m k) (prep o (est i) m k) ^ 2))) := by
    refine inside_of_chan (r := 1) (R := fun _ => prep o ref m k) (S.aud hi.le) (fun _ => prep_sq_le o ref m k) (fun t => ?_) 0
      (w := fun _ => w m k) (γ := γ i)
    rw [← gradEstDiag_eq]
    exact hγ t
  have hV := lossDiag_one (o := { o with clampDb := none }) h1 ref (est i)
  obtain ⟨y, hy, hyd⟩ : ∃ y, coherenceToNegSdr none (fin (dot (prep o ref m k) (prep o (est i) m k) ^ 2)) = fin y ∧
      ∀ d, o.clampDb = some d → |y| ≤ d := by
    cases hcl : o.clampDb with
    | none =>
      obtain ⟨y, hy⟩ := hf hcl
      exact ⟨y, hy, fun d hd => absurd hd.symm (Option.some_ne_none d)⟩
    | some d =>
      obtain ⟨y, hy, hd⟩ := hin i hi d hcl _ hV
      exact ⟨y, hy, fun d' hd' => by rwa [← Option.some.inj hd']⟩
  obtain ⟨a, ⟨γ', h2, h3⟩, h4⟩ := C98_si_least (o := o) h1 hV (m := m) (k := k) hy hyd (S.aud hi.le) hr w
  have hγ' : γ i = γ' := funext fun t => XR.fin.inj ((hγ t).symm.trans (h2 t))
  rw [hγ']
  exact h4.trans (le_of_eq h3.symm)

/-! ### `clamp_db` -/

/-- Losses with `clamp_db=d`, the weights of each estimate adding up to `W` at most: one tap, or longer filters with the direct solver. -/
inductive ClampedGradient (zm : Bool) (d W : ℝ) {s : List ℕ} {e T : ℕ} :
    (Sig s e T → Except PyErr (BIdx s → Fin e → Fin T → XR)) → Prop
  | si {o : Opts} (hz : o.zeroMean = zm) (hcl : o.clampDb = some d) (ref : Sig s e T) (w) (hw : ∀ m k, |w m k| ≤ W) :
      ClampedGradient zm d W fun p => .ok (gradEstDiag o ref p w)
  | si_pairwise {r : ℕ} {o : Opts} (hz : o.zeroMean = zm) (hcl : o.clampDb = some d) (ref : Sig s r T) (w)
      (hw : ∀ m j, ∑ k, |w m k j| ≤ W) : ClampedGradient zm d W fun p => .ok (gradEst o ref p w)
  | si_pit {r : ℕ} {o : Opts} (hz : o.zeroMean = zm) (hcl : o.clampDb = some d) (h1 : o.filterLength = 1) (cs : Bool) (ref : Sig s r T) (v)
      (hv : ∀ m i, |v m i| ≤ W) : ClampedGradient zm d W fun p => gradEstPit o cs ref p v
  | sdr {N : ℕ} {o : Opts} (hz : o.zeroMean = zm) (hcl : o.clampDb = some d) (hN : 0 < N) (hL : 2 ≤ o.filterLength)
      (hload : 0 ≤ o.load) (ref : Sig s e N) (w) (hw : ∀ m k, |w m k| ≤ W) : ClampedGradient zm d W fun p => gradEstFirDiag o ref p w
  | sdr_pairwise {N r : ℕ} {o : Opts} (hz : o.zeroMean = zm) (hcl : o.clampDb = some d) (hN : 0 < N) (hL : 2 ≤ o.filterLength)
      (hload : 0 ≤ o.load) (ref : Sig s r N) (w) (hw : ∀ m j, ∑ k, |w m k j| ≤ W) : ClampedGradient zm d W fun p => gradEstFir o ref p w
  | sdr_pit {N r : ℕ} {o : Opts} (hz : o.zeroMean = zm) (hcl : o.clampDb = some d) (hN : 0 < N) (hL : 2 ≤ o.filterLength)
      (hload : 0 ≤ o.load) (cs : Bool) (ref : Sig s r N) (v) (hv : ∀ m i, |v m i| ≤ W) : ClampedGradient zm d W fun p => gradEstFirPit o cs ref p v

theorem ClampedGradient.loss {d W : ℝ} {f : Sig s e T → Except PyErr (BIdx s → Fin e → Fin T → XR)} (C : ClampedGradient zm d W f) :
    LossGradient zm f := by
  cases C with
  | si hz _ ref w => exact .si hz ref w
  | si_pairwise hz _ ref w => exact .si_pairwise hz ref w
  | si_pit hz _ _ cs ref v => exact .si_pit hz cs ref v
  | sdr hz _ _ _ _ ref w => exact .sdr hz ref w
  | sdr_pairwise hz _ _ _ _ ref w => exact .sdr_pairwise hz ref w
  | sdr_pit hz _ _ _ _ cs ref v => exact .sdr_pit hz cs ref v

theorem pitWeights_sum {cs : Bool} {ref : Sig s r N} {p : Sig s e T} {v : BIdx s → Fin (min r e) → ℝ} {w} {W : ℝ}
    (h : pitWeights o cs ref p v = .ok w) (hv : ∀ m i, |v m i| ≤ W) (h0 : 0 ≤ W) (m : BIdx s) (j : Fin e) : ∑ k, |w m k j| ≤ W := by
  unfold pitWeights at h
  split at h
  · cases h
  · split at h
    · cases h
    · rename_i hp
      cases h
      obtain ⟨-, P, hP⟩ := solvePermutation_spec torchBackend torchLsa_correct _ _ hp m
      have hD := hP.describes
      by_cases hj : ∃ i, P.est i = j
      · obtain ⟨i, rfl⟩ := hj
        rw [Finset.sum_eq_single (P.ref i) (fun k _ hk => by
          rw [permGrad_est hD _ fun i' hi hki => hk (by rw [← hki, P.est_inj hi]), abs_zero])
          fun h => absurd (Finset.mem_univ _) h, permGrad_pair hD]
        split
        · exact hv m i
        · rw [abs_neg]
          exact hv m i
      · push Not at hj
        rw [Finset.sum_eq_zero fun k _ => by rw [permGrad_est hD _ fun i hi => absurd hi (hj i), abs_zero]]
        exact h0

theorem steep_sum {κ : Type} [Fintype κ] {d W n : ℝ} (hn : 0 < n) {w : κ → ℝ} (x : κ → XR) (hw : ∑ k, |w k| ≤ W) :
    (∑ k, |w k| * steepAt (some d) (x k)) / n ≤ W * steepness d / n := by
  refine div_le_div_of_nonneg_right ?_ hn.le
  calc ∑ k, |w k| * steepAt (some d) (x k) ≤ ∑ k, |w k| * steepness d :=
        Finset.sum_le_sum fun k _ => mul_le_mul_of_nonneg_left (steepAt_clamped d _) (abs_nonneg _)
    _ = (∑ k, |w k|) * steepness d := by rw [Finset.sum_mul]
    _ ≤ W * steepness d := mul_le_mul_of_nonneg_right hw (steepness_nonneg d)

theorem chan_clamped {d W : ℝ} {R : Fin r → Fin N → ℝ} {x : Fin N → ℝ} {w : Fin r → ℝ} (h : 1e-6 ≤ sigNorm (centred zm x))
    (hR : ∀ k, ∑ t, R k t ^ 2 ≤ 1) (hw : ∑ k, |w k| ≤ W) :
    LengthAtMost (chanGrad (some d) zm R w x) (W * steepness d / sigNorm (centred zm x)) := by
  rw [chanGrad_fin fun k => cclamp_some_inside d _]
  exact ⟨_, fun t => rfl, (chan_len_le h hR w).trans (steep_sum (lt_of_lt_of_le (by norm_num) h) _ hw)⟩

theorem fir_clamped {d W : ℝ} (hN : 0 < N) (hcl : o.clampDb = some d) (hL : 2 ≤ o.filterLength) (hload : 0 ≤ o.load) {ref : Sig s r N} {p : Sig s e T}
    {w : BIdx s → Fin r → Fin e → ℝ} {g} (hg : gradEstFir o ref p w = .ok g) {m : BIdx s} {j : Fin e}
    (h : 1e-6 ≤ sigNorm (centred o.zeroMean (p m j))) (hw : ∑ k, |w m k j| ≤ W) :
    LengthAtMost (g m j) (W * steepness d / sigNorm (centred o.zeroMean (p m j))) := by
  have hg0 := hg
  unfold gradEstFir forward at hg0
  cases hn : nFft N T with
  | error err =>
    rw [hn] at hg0
    cases hg0
  | ok n =>
    have hd : ∀ m k, (acfM n (min o.filterLength n) o.load (prep o ref m k)).det ≠ 0 := by
      by_contra hd
      push Not at hd
      obtain ⟨m, k, hd⟩ := hd
      unfold gradEstFir at hg
      rw [forward_eq hn (by omega), if_pos ⟨(m, k), hd⟩] at hg
      cases hg
    rw [gradEstFir_eq hL hn hd] at hg
    cases hg
    dsimp only
    rw [finite_of (cl := o.clampDb) (v := fun k => firCoh n (min o.filterLength n) o.load (prep o ref m k) (prep o p m j))
      (w := fun k => w m k j) fun k => by
        rw [hcl]
        exact cclamp_some_inside d _]
    have hb := nFft_bounds hn
    refine ⟨_, fun t => rfl, (fir_len_le (fftSize_ne hn) (min_le_right _ _) ?_ hload (hd m) h _).trans ?_⟩
    · omega
    · rw [hcl]
      exact steep_sum (lt_of_lt_of_le (by norm_num) h) _ hw

theorem firDiag_clamped {d W : ℝ} (hN : 0 < N) (hcl : o.clampDb = some d) (hL : 2 ≤ o.filterLength) (hload : 0 ≤ o.load) {ref : Sig s c N}
    {p : Sig s c T} {w : BIdx s → Fin c → ℝ} {g} (hg : gradEstFirDiag o ref p w = .ok g) {m : BIdx s} {k : Fin c}
    (h : 1e-6 ≤ sigNorm (centred o.zeroMean (p m k))) (hw : |w m k| ≤ W) :
    LengthAtMost (g m k) (W * steepness d / sigNorm (centred o.zeroMean (p m k))) := by
  have hg0 := hg
  unfold gradEstFirDiag forwardDiag at hg0
  cases hn : nFft N T with
  | error err =>
    rw [hn] at hg0
    cases hg0
  | ok n =>
    have hd : ∀ m k, (acfM n (min o.filterLength n) o.load (prep o ref m k)).det ≠ 0 := by
      by_contra hd
      push Not at hd
      obtain ⟨m, k, hd⟩ := hd
      unfold gradEstFirDiag at hg
      rw [forwardDiag_eq hn (by omega), if_pos ⟨(m, k), hd⟩] at hg
      cases hg
    rw [gradEstFirDiag_eq hL hn hd] at hg
    cases hg
    dsimp only
    rw [finite_of (κ := Fin 1) (cl := o.clampDb) (v := fun _ => firCoh n (min o.filterLength n) o.load (prep o ref m k) (prep o p m k))
      (w := fun _ => w m k) fun _ => by
        rw [hcl]
        exact cclamp_some_inside d _]
    have hb := nFft_bounds hn
    refine ⟨_, fun t => rfl, (fir_len_le (r := 1) (x := fun _ => prep o ref m k) (fftSize_ne hn) (min_le_right _ _) (by omega) hload
      (fun _ => hd m k) h _).trans ?_⟩
    rw [hcl]
    refine steep_sum (lt_of_lt_of_le (by norm_num) h) _ ?_
    rw [Fin.sum_univ_one]
    exact hw

theorem ClampedGradient.short {d W : ℝ} {f : Sig s e T → Except PyErr (BIdx s → Fin e → Fin T → XR)} (C : ClampedGradient zm d W f)
    (h0 : 0 ≤ W) {p : Sig s e T} {g} (h : f p = .ok g) {m : BIdx s} {j : Fin e} (hp : 1e-6 ≤ sigNorm (centred zm (p m j))) :
    LengthAtMost (g m j) (W * steepness d / sigNorm (centred zm (p m j))) := by
  cases C with
  | si hz hcl ref w hw =>
    cases h
    cases hz
    rw [gradEstDiag_eq, hcl]
    refine chan_clamped hp (fun _ => prep_sq_le _ ref m j) ?_
    rw [Fin.sum_univ_one]
    exact hw m j
  | si_pairwise hz hcl ref w hw =>
    cases h
    cases hz
    rw [gradEst_eq, hcl]
    exact chan_clamped hp (fun k => prep_sq_le _ ref m k) (hw m j)
  | si_pit hz hcl h1 cs ref v hv =>
    cases hz
    dsimp only at h
    unfold gradEstPit at h
    split at h
    · cases h
    · rename_i w hw
      cases h
      rw [gradEst_eq, hcl]
      exact chan_clamped hp (fun k => prep_sq_le _ ref m k) (pitWeights_sum hw hv h0 m j)
  | sdr hz hcl hN hL hload ref w hw =>
    cases hz
    exact firDiag_clamped hN hcl hL hload h hp (hw m j)
  | sdr_pairwise hz hcl hN hL hload ref w hw =>
    cases hz
    exact fir_clamped hN hcl hL hload h hp (hw m j)
  | sdr_pit hz hcl hN hL hload cs ref v hv =>
    cases hz
    dsimp only at h
    unfold gradEstFirPit at h
    split at h
    · cases h
    · rename_i w hw
      exact fir_clamped hN hcl hL hload h hp (pitWeights_sum hw hv h0 m j)

/-- **C99**, with `clamp_db=d` the estimates do not run away: the fourth power of the loudness grows at most linearly in the number of steps of
a constant learning rate, whatever the references, which may change from step to step. -/
theorem C99_clamped {d W : ℝ} (h0W : 0 ≤ W) {grad : ℕ → Sig s e T → Except PyErr (BIdx s → Fin e → Fin T → XR)} {est : ℕ → Sig s e T}
    (R : Run grad η K est) (C : ∀ i < K, ClampedGradient zm d W (grad i)) {m : BIdx s} {j : Fin e}
    (h0 : 1e-6 ≤ sigNorm (centred zm (est 0 m j))) :
    sigNorm (centred zm (est K m j)) ^ 4 ≤ loudnessBound (sigNorm (centred zm (est 0 m j))) (W * steepness d) η K := by
  obtain ⟨γ, S, hg⟩ := run_steps R (fun i hi => (C i hi).loss) h0
  refine S.upper fun i hi => ?_
  obtain ⟨g, hg, hγ⟩ := hg i hi
  obtain ⟨γ', h2, h3⟩ := (C i hi).short h0W hg (S.aud hi.le)
  have hγ' : γ i = γ' := funext fun t => XR.fin.inj ((hγ t).symm.trans (h2 t))
  rw [hγ']
  exact h3

/-! ### examples -/

/-- Where all gradients are finite there is a run from any estimates. -/
theorem run_exists {grad : Sig s e T → Except PyErr (BIdx s → Fin e → Fin T → XR)}
    (h : ∀ p, ∃ g γ, grad p = .ok g ∧ FiniteValues g γ) (η : ℕ → ℝ) (p : Sig s e T) :
    ∃ est : ℕ → Sig s e T, est 0 = p ∧ ∀ K, Run (fun _ => grad) η K est := by
  choose g γ hg hγ using h
  refine ⟨fun i => Nat.rec p (fun i q => descend (η i) (γ q) q) i, rfl, fun K i _ => ⟨_, _, hg _, hγ _, rfl⟩⟩

theorem one_finite (p : Sig [] 1 3) : ∃ g γ, Except.ok (ε := PyErr) (gradEstDiag optsOne refOne p fun _ _ => 1) = .ok g ∧ FiniteValues g γ := by
  have hf : ∀ (m : BIdx []) (k : Fin 1) (t : Fin 3), ∃ y, gradEstDiag optsOne refOne p (fun _ _ => 1) m k t = fin y := fun m k =>
    (C71_clamped_finite_diag (o := optsOne) rfl refOne p (fun _ _ => 1) m k).1
  choose γ hγ using hf
  exact ⟨_, γ, rfl, hγ⟩

/-- Any number of steps with `clamp_db=30` and any learning rates. -/
example (η : ℕ → ℝ) (K : ℕ) (m : BIdx []) : ∃ est : ℕ → Sig [] 1 3, est 0 = estOne ∧
    Run (fun _ p => .ok (gradEstDiag optsOne refOne p fun _ _ => 1)) η K est ∧ NeverQuieter true K est m 0 ∧
    sigNorm (centred true (est K m 0)) ^ 4 ≤ loudnessBound (sigNorm (centred true (estOne m 0))) (1 * steepness 30) η K ∧
    ∀ i < K, ∃ V, sdrLossDiag torchBackend optsNone (est i) refOne = .ok V ∧
      sigNorm (centred true (est (i + 1) m 0)) ^ 2 = sigNorm (centred true (est i m 0)) ^ 2 +
        (η i * (|(1 : ℝ)| * steepAt (some 30) (V m 0) / sigNorm (centred true (est i m 0)))) ^ 2 := by
  obtain ⟨est, h0, R⟩ := run_exists one_finite η estOne
  have ha : 1e-6 ≤ sigNorm (centred true (est 0 m 0)) := by
    rw [h0]
    exact (one_audible m 0).1
  refine ⟨est, h0, R K, C99_never_quieter (R K) (fun _ _ => .si rfl refOne _) ha, ?_, fun i hi => ?_⟩
  · rw [← h0]
    exact C99_clamped zero_le_one (R K) (fun _ _ => .si rfl rfl refOne _ fun _ _ => abs_one.le) ha
  · exact C99_si (o := optsOne) rfl (R K) ha (one_audible m 0).2 hi

/-- A step without `clamp_db`. -/
example (η : ℝ) (m : BIdx []) : ∃ est : ℕ → Sig [] 1 3, est 0 = estOne ∧
    sigNorm (centred true (estOne m 0)) ^ 4 + 2 * (|(1 : ℝ)| * (40 / Real.log 10)) ^ 2 * ∑ _ ∈ Finset.range 1, η ^ 2 ≤
      sigNorm (centred true (est 1 m 0)) ^ 4 := by
  have hf : ∀ (m : BIdx []) (k : Fin 1) (t : Fin 3), ∃ y, gradEstDiag optsNone refOne estOne (fun _ _ => 1) m k t = fin y := fun m k t => by
    rw [Subsingleton.elim k 0, gradEstDiag_eq, chanGrad_fin fun _ => by
      have hv : dot (prep optsNone refOne m 0) (preprocess optsNone.zeroMean (estOne m 0)) ^ 2 = 3 / 4 := one_loss m
      rw [hv]
      exact inside_of (one_fine none)]
    exact ⟨_, rfl⟩
  choose γ hγ using hf
  let est : ℕ → Sig [] 1 3 := fun i => if i = 0 then estOne else descend η γ estOne
  have R : Run (fun _ p => .ok (gradEstDiag optsNone refOne p fun _ _ => 1)) (fun _ => η) 1 est := by
    intro i hi
    obtain rfl : i = 0 := by omega
    exact ⟨_, γ, rfl, hγ, rfl⟩
  exact ⟨est, rfl, C99_si_grows (o := optsNone) (m := m) (k := 0) rfl R (one_audible m 0).1 (one_audible m 0).2
    fun _ _ d hd => absurd hd.symm (Option.some_ne_none d)⟩

/-- Filters of two taps and the best permutation. -/
example (η : ℕ → ℝ) (est : ℕ → Sig [] 2 3) (h0 : est 0 = Ex.est) {K : ℕ}
    (R : Run (fun i p => if i % 2 = 0 then gradEstFirPit (Ex.clamped (some 30)) true Ex.ref p (fun _ _ => 1)
      else gradEstCgPit (Ex.clamped (some 30)) 10 true Ex.ref p (fun _ _ => 1)) η K est) (m : BIdx []) (j : Fin 2) :
    NeverQuieter false K est m j := by
  refine C99_never_quieter R (fun i _ => ?_) ?_
  · by_cases hi : i % 2 = 0
    · simp only [hi, if_true]
      exact LossGradient.sdr_pit (o := Ex.clamped (some 30)) rfl true Ex.ref _
    · simp only [hi, if_false]
      exact LossGradient.iterative_pit (o := Ex.clamped (some 30)) rfl 10 true Ex.ref _
  · rw [h0]
    exact le_trans (by norm_num) (ex_loud m j).1

end FBE.Props
