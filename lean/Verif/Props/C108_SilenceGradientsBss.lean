import Verif.Props.C108_SilenceGradients
import Verif.Props.C105_PolarityBss

/-!
# C108: gradients through `bss_eval_sources` of signals with trailing silence
-/

namespace FBE.Props

open Classical FBE.Spec FBE.Backward XR Matrix

variable {s : List ℕ} {r e c N M it z : ℕ} {o : Opts}

section back

variable {K n n' : ℕ} (hn : n ≠ 0) (hN : N ≤ n) (hK : K + N ≤ n + 1) (h : n ≤ n') (h' : N + z ≤ n')
include hN hK h

theorem circ_lag_padded (hK0 : K ≤ n) (x y : Fin N → ℝ) (a b : Fin K) :
    circ n' (fun t : Fin (N + z) => zpad x t) (fun t : Fin (N + z) => zpad y t) (lagOf n' a b) = circ n x y (lagOf n a b) := by
  unfold lagOf
  split_ifs with hab
  · exact circ_padded _ _ hN (by omega) h
  · rw [circ_swap n' _ _ (a.val - b) (by omega), circ_swap n _ _ (a.val - b) (by omega)]
    exact circ_padded _ _ hN (by omega) h

include hn h'

theorem refBackAll_padded (hK0 : K ≤ n) (x : Fin r → Fin N → ℝ) (y : Fin e → Fin N → ℝ) (gxc : Fin r → Fin e → Fin K → ℝ)
    (gR : Fin r → Matrix (Fin K) (Fin K) ℝ) (gB : Matrix (Fin K × Fin r) (Fin K × Fin r) ℝ) (k : Fin r) (t : Fin N) :
    refBackAll n' (fun k (t : Fin (N + z)) => zpad (x k) t) (fun j (t : Fin (N + z)) => zpad (y j) t) gxc (acfGrad gR gB) k (Fin.castAdd z t) =
      refBackAll n x y gxc (acfGrad gR gB) k t := by
  have hs : ∀ k' : Fin r, (fun u : Fin (N + z) => zpad ((Pi.single k (Pi.single t (1 : ℝ)) : Fin r → Fin N → ℝ) k') u) =
      (Pi.single k (Pi.single (Fin.castAdd z t) (1 : ℝ)) : Fin r → Fin (N + z) → ℝ) k' := by
    intro k'
    by_cases hk : k' = k
    · subst hk
      rw [Pi.single_eq_same, Pi.single_eq_same, single_padded]
    · rw [Pi.single_eq_of_ne hk, Pi.single_eq_of_ne hk]
      funext u
      unfold zpad
      split_ifs <;> rfl
  have hv : ∀ (T : ℕ) (u : Fin T) (f : Fin r → Fin T → ℝ), ∑ k', ∑ t', f k' t' * (Pi.single k (Pi.single u (1 : ℝ)) : Fin r → Fin T → ℝ) k' t' = f k u := by
    intro T u f
    rw [Finset.sum_eq_single k, Finset.sum_eq_single u]
    · rw [Pi.single_eq_same, Pi.single_eq_same, mul_one]
    · intro b _ hb
      rw [Pi.single_eq_same, Pi.single_eq_of_ne hb, mul_zero]
    · intro hb; exact absurd (Finset.mem_univ _) hb
    · intro b _ hb
      refine Finset.sum_eq_zero fun t' _ => ?_
      rw [Pi.single_eq_of_ne hb]
      exact mul_zero _
    · intro hb; exact absurd (Finset.mem_univ _) hb
  have a := refBackAll_adjoint hn hK0 hN x y gxc (acfGrad gR gB) (Pi.single k (Pi.single t 1))
  have a' := refBackAll_adjoint (n := n') (by omega) (by omega) h' (fun k (t : Fin (N + z)) => zpad (x k) t)
    (fun j (t : Fin (N + z)) => zpad (y j) t) gxc (acfGrad gR gB) (Pi.single k (Pi.single (Fin.castAdd z t) 1))
  rw [hv] at a a'
  rw [a, a']
  refine congrArg₂ (· + ·) (Finset.sum_congr rfl fun k' _ => Finset.sum_congr rfl fun j _ => Finset.sum_congr rfl fun l _ => ?_)
    (Finset.sum_congr rfl fun k' _ => Finset.sum_congr rfl fun l _ => ?_)
  · rw [← hs, circ_padded _ _ hN (by omega) h]
  · rw [← hs, ← hs]
    have c1 := acfGrad_adjoint (n := n') (by omega) gR gB k' l fun t' =>
      circ n' (fun t : Fin (N + z) => zpad (x l) t) (fun u : Fin (N + z) => zpad ((Pi.single k (Pi.single t (1 : ℝ)) : Fin r → Fin N → ℝ) k') u) t' +
      circ n' (fun u : Fin (N + z) => zpad ((Pi.single k (Pi.single t (1 : ℝ)) : Fin r → Fin N → ℝ) l) u) (fun t : Fin (N + z) => zpad (x k') t) t'
    have c2 := acfGrad_adjoint (n := n) hK0 gR gB k' l fun t' =>
      circ n (x l) ((Pi.single k (Pi.single t (1 : ℝ)) : Fin r → Fin N → ℝ) k') t' +
      circ n ((Pi.single k (Pi.single t (1 : ℝ)) : Fin r → Fin N → ℝ) l) (x k') t'
    refine c1.trans (Eq.trans ?_ c2.symm)
    have c3 : ∀ (p q : Fin N → ℝ) (i j : Fin K), circ n' (fun t : Fin (N + z) => zpad p t) (fun t : Fin (N + z) => zpad q t) (max i.val j - min i.val j) =
        circ n p q (max i.val j - min i.val j) := fun p q i j => circ_padded _ _ hN (by omega) h
    simp only [circ_lag_padded hN hK h hK0, c3]

end back

/-- The same pass for the samples before the silence. -/
structure PassPadded (P : BssPass s r e N N) (P' : BssPass s r e (N + z) (N + z)) : Prop where
  sdr : P'.cohSdr = P.cohSdr
  sar : P'.cohSar = P.cohSar
  est : ∀ m j g h t, P'.est m j g h (Fin.castAdd z t) = P.est m j g h t
  ref : ∀ m g h k t, P'.ref m g h k (Fin.castAdd z t) = P.ref m g h k t

section grads

variable (hz : o.zeroMean = false) {P : BssPass s r e N N} {P' : BssPass s r e (N + z) (N + z)} (hP : PassPadded P P')
include hz hP

theorem gradBss_padded (ref : Sig s r N) (est : Sig s e N) (W : BssWeights (BIdx s × Fin r × Fin e)) :
    beforeSilence z (gradEstBss o P' (padded z est) W) = gradEstBss o P est W ∧
      beforeSilence z (gradRefBss o P' (padded z ref) W) = gradRefBss o P ref W := by
  have h1 : pairSdr o P' W = pairSdr o P W := by
    funext m k j
    unfold pairSdr
    rw [hP.sdr, hP.sar]
  have h2 : pairSar o P' W = pairSar o P W := by
    funext m j
    unfold pairSar
    rw [hP.sdr, hP.sar]
  constructor
  · funext m j t
    unfold beforeSilence gradEstBss
    rw [h1, h2]
    exact preprocessGrad_padded hz est m j _ (fun g t => hP.est _ _ _ _ t) t
  · funext m k t
    unfold beforeSilence gradRefBss
    rw [h1, h2]
    exact preprocessGrad_padded hz ref m k _ (fun g t => hP.ref _ _ _ _ t) t

end grads

theorem gradBssDiag_padded (hz : o.zeroMean = false) {P : BssPass s c c N N} {P' : BssPass s c c (N + z) (N + z)} (hP : PassPadded P P')
    (ref est : Sig s c N) (W : BssWeights (BIdx s × Fin c)) :
    beforeSilence z (gradEstBssDiag o P' (padded z est) W) = gradEstBssDiag o P est W ∧
      beforeSilence z (gradRefBssDiag o P' (padded z ref) W) = gradRefBssDiag o P ref W := by
  have h1 : diagSdr o P' W = diagSdr o P W := by
    funext m k
    unfold diagSdr
    rw [hP.sdr, hP.sar]
  have h2 : diagSar o P' W = diagSar o P W := by
    funext m j
    unfold diagSar
    rw [hP.sdr, hP.sar]
  constructor
  · funext m j t
    unfold beforeSilence gradEstBssDiag
    rw [h1, h2]
    exact preprocessGrad_padded hz est m j _ (fun g t => hP.est _ _ _ _ t) t
  · funext m k t
    unfold beforeSilence gradRefBssDiag
    rw [h1, h2]
    exact preprocessGrad_padded hz ref m k _ (fun g t => hP.ref _ _ _ _ t) t

/-! ### the forward pass -/

theorem passOne_padded (hz : o.zeroMean = false) {ref : Sig s r N} {est : Sig s e N} {P} (h : passOne o ref est = .ok P) :
    ∃ P', passOne o (padded z ref) (padded z est) = .ok P' ∧ PassPadded P P' := by
  rw [passOne_eq] at h ⊢
  rw [prep_padded hz, prep_padded hz]
  have hA : loadedGram o (padded z (prep o ref)) = loadedGram o (prep o ref) := by
    unfold loadedGram
    have : ∀ m k l, dot (padded z (prep o ref) m k) (padded z (prep o ref) m l) = dot (prep o ref m k) (prep o ref m l) :=
      fun m k l => dot_padded z _ _
    simp only [this]
  have hx : ∀ m k j, dot (padded z (prep o ref) m k) (padded z (prep o est) m j) = dot (prep o ref m k) (prep o est m j) :=
    fun m k j => dot_padded z _ _
  rw [hA]
  generalize loadedGram o (prep o ref) = acm at h ⊢
  unfold passOneOf at h ⊢
  simp only [hx]
  split at h
  · cases h
  · rename_i sol hs
    cases h
    refine ⟨_, rfl, rfl, rfl, fun m j g h t => ?_, fun m g h k t => ?_⟩
    · show estBackOne _ _ _ = _
      unfold estBackOne
      simp only [padded, Fin.val_castAdd, zpad_val]
    · dsimp only
      unfold refBackOne
      simp only [padded, Fin.val_castAdd, zpad_val]

/-- `passFir` with the number of taps as an argument. -/
theorem passFir_unfold {n K : ℕ} (hn : nFft N M = .ok n) (hK : min o.filterLength n = K) (ref : Sig s r N) (est : Sig s e M) :
    passFir o ref est =
      if min o.filterLength (K + K) ≠ K then .error torchBackend.shapeErr else
      let R : BIdx s → Fin r → Matrix (Fin K) (Fin K) ℝ := fun m k => toeplitz torchBackend K (bssAcfSdr o n ref m k)
      let xc : BIdx s → Fin r → Fin e → Fin K → ℝ := fun m k j => vec K (sdrXcorr o n ref est m k j)
      match solveStack (fun i : BIdx s × Fin r => R i.1 i.2) (fun i j => xc i.1 i.2 j) with
      | .error err => .error err
      | .ok sol =>
        match blockToeplitz torchBackend K (bssAcf o n ref) with
        | .error err => .error err
        | .ok RB =>
          let xb := xcorrFlat o n K ref est
          match solveStack RB xb with
          | .error err => .error err
          | .ok solB => .ok
            { cohSdr := fun m k j => ∑ l, xc m k j l * sol (m, k) j l
              cohSar := fun m j => ∑ p, xb m j p * solB m j p
              est := fun m j g h => estBack n (prep o ref m) fun k l =>
                xcorrGrad (R m k) (xc m k j) (sol (m, k) j) (g k) l + rhsGrad (RB m) (xb m j) (solB m j) h (l, k)
              ref := fun m g h => refBackAll n (prep o ref m) (prep o est m)
                (fun k j l => xcorrGrad (R m k) (xc m k j) (sol (m, k) j) (g k j) l + rhsGrad (RB m) (xb m j) (solB m j) (h j) (l, k))
                (acfGrad (fun k => matGrad (R m k) (xc m k) (sol (m, k)) (g k)) (lhsGrad (RB m) (xb m) (solB m) h)) } := by
  subst hK
  unfold passFir
  rw [hn]
  dsimp only
  refine if_congr Iff.rfl rfl ?_
  cases solveStack (fun i : BIdx s × Fin r => toeplitz torchBackend (min o.filterLength n) (bssAcfSdr o n ref i.1 i.2))
    (fun i j => vec (min o.filterLength n) (sdrXcorr o n ref est i.1 i.2 j)) with
  | error err => rfl
  | ok sol =>
    dsimp only
    cases blockToeplitz torchBackend (min o.filterLength n) (bssAcf o n ref) with
    | error err => rfl
    | ok RB =>
      dsimp only
      cases solveStack RB (xcorrFlat o n (min o.filterLength n) ref est) <;> rfl

section pass

variable (hL : 2 ≤ o.filterLength) (hN : 0 < N) (hf : FilterFits N o.filterLength) (hz : o.zeroMean = false)
include hL hN hf hz

/-- The lists of lags of the references. -/
theorem lists_padded (ref : Sig s r N) {n n' : ℕ} (hn : nFft N = .ok n) (hn' : nFft (N + z) = .ok n') :
    (∀ m k, bssAcfSdr o n' (padded z ref) m k = bssAcfSdr o n ref m k) ∧
      ∀ m, SignedLists o.filterLength (fun _ => 1) (Equiv.refl _) (bssAcf o n' (padded z ref) m) (bssAcf o n ref m) := by
  obtain ⟨m, m', a1, a2, -, a3, a4, a5, -, a6, a7⟩ := sizes_padded hN hf z
  rw [hn] at a1; cases a1
  rw [hn'] at a2; cases a2
  have hR := related_padded hN hf hz (z := z) ref ref
  refine ⟨fun m k => ?_, fun m => related_bssAcf hR hn hn' a6 a7 hL (by omega) m⟩
  have F := fam_of_nFft (o := o) hn
  have F' := fam_of_nFft (o := o) hn'
  rw [bssAcfSdr_eq_sdrAcf F rfl (by omega) (by omega), bssAcfSdr_eq_sdrAcf F' rfl (by omega) (by omega)]
  exact related_acf hR hn hn' a6 a7 hL m k

theorem passFir_padded {ref : Sig s r N} {est : Sig s e N} {P} (h : passFir o ref est = .ok P) :
    ∃ P', passFir o (padded z ref) (padded z est) = .ok P' ∧ PassPadded P P' := by
  obtain ⟨n, n', hn, hn', h0, h1, h2, h3, h4, h5, h6⟩ := sizes_padded hN hf z
  obtain ⟨-, hx⟩ := stats_padded (z := z) hN hf hz hL ref est hn hn'
  obtain ⟨ha, hB⟩ := lists_padded (z := z) hL hN hf hz ref hn hn'
  have hxb : xcorrFlat o n' o.filterLength (padded z ref) (padded z est) = xcorrFlat o n o.filterLength ref est := by
    funext m j p
    exact congrFun (hx m p.2 j) p.1
  have hRB : blockToeplitz torchBackend o.filterLength (bssAcf o n' (padded z ref)) = blockToeplitz torchBackend o.filterLength (bssAcf o n ref) := by
    rw [blockToeplitz_ok (by omega) _ fun m k l => by rw [(hB m).1 k l]; omega,
      blockToeplitz_ok (by omega) _ fun m k l => by rw [(hB m).2 k l]; omega]
    refine congrArg Except.ok (funext fun m => funext fun p => funext fun q => ?_)
    refine (lagAt_signed (Equiv.refl _) (hB m) p.2 q.2 p.1.isLt q.1.isLt).trans ?_
    rw [one_mul, one_mul]
    rfl
  rw [passFir_unfold hn h5] at h
  rw [passFir_unfold hn' h6, hRB, hxb, prep_padded hz, prep_padded hz]
  simp only [ha, hx]
  dsimp only at h
  split_ifs at h ⊢
  split at h
  · cases h
  · rename_i sol hs
    split at h
    · cases h
    · rename_i RB hb
      split at h
      · cases h
      · rename_i solB hsB
        cases h
        refine ⟨_, rfl, rfl, rfl, fun m j g h t => ?_, fun m g h k t => ?_⟩
        · dsimp only
          exact estBack_padded h0 h1 h2 h3 h4 (prep o ref m) _ t
        · dsimp only
          clear hs hb hsB hRB hxb hB ha hx
          generalize bssAcfSdr o n ref = ac
          generalize xcorrFlat o n o.filterLength ref est = xb
          generalize sdrXcorr o n ref est = xc
          exact refBackAll_padded h0 h1 h2 h3 h4 (by omega) (prep o ref m) (prep o est m) _ _ _ k t

end pass

section whole

variable (hN : 0 < N) (hf : FilterFits N o.filterLength) (hz : o.zeroMean = false)
include hN hf hz

theorem bssPass_padded {ref : Sig s r N} {est : Sig s e N} {P} (h : bssPass o ref est = .ok P) :
    ∃ P', bssPass o (padded z ref) (padded z est) = .ok P' ∧ PassPadded P P' := by
  unfold bssPass at h ⊢
  by_cases h0 : o.filterLength = 0
  · rw [if_pos h0] at h
    cases h
  · by_cases h1 : o.filterLength = 1
    · rw [if_neg h0, if_pos h1, dif_pos rfl] at h ⊢
      exact passOne_padded hz h
    · rw [if_neg h0, if_neg h1] at h ⊢
      exact passFir_padded (by omega) hN hf hz h

/-- **C108**, losses made of the values of `bss_eval_sources`, direct solver and any filter length. -/
theorem C108_bss_eval_perm {ref : Sig s r N} {est : Sig s e N} {v : BssWeights (BIdx s × Fin (min r e))} {g}
    (h : bssBackward o ref est v = .ok g) :
    ∃ g', bssBackward o (padded z ref) (padded z est) v = .ok g' ∧ beforeSilence z g'.1 = g.1 ∧ beforeSilence z g'.2 = g.2 := by
  unfold bssBackward at h ⊢
  cases hP : bssPass o ref est with
  | error err => rw [hP] at h; cases h
  | ok P =>
    rw [hP] at h
    obtain ⟨P', hP', hp⟩ := bssPass_padded (z := z) hN hf hz hP
    rw [hP']
    dsimp only at h ⊢
    rw [hp.sdr, hp.sar]
    split at h
    · cases h
    · cases h
      exact ⟨_, rfl, gradBss_padded hz hp ref est _⟩

/-- **C108**, losses made of the values of `bss_eval_sources(compute_permutation=False)`, direct solver and any filter length. -/
theorem C108_bss_eval {ref est : Sig s c N} {v : BssWeights (BIdx s × Fin c)} {g} (h : bssBackwardDiag o ref est v = .ok g) :
    ∃ g', bssBackwardDiag o (padded z ref) (padded z est) v = .ok g' ∧ beforeSilence z g'.1 = g.1 ∧ beforeSilence z g'.2 = g.2 := by
  unfold bssBackwardDiag at h ⊢
  cases hP : bssPass o ref est with
  | error err => rw [hP] at h; cases h
  | ok P =>
    rw [hP] at h
    obtain ⟨P', hP', hp⟩ := bssPass_padded (z := z) hN hf hz hP
    rw [hP']
    cases h
    exact ⟨_, rfl, gradBssDiag_padded hz hp ref est _⟩

end whole

/-! ### examples -/

/-- Two sources, filters of two taps, a loss made of SDR and SIR; ten silent samples appended. -/
example (w w' : ℝ) : ∃ gE gR g',
    bssBackward (Ex.clamped none) Ex.ref Ex.est ⟨some fun _ => w, some fun _ => w', none⟩ = .ok (gE, gR) ∧
    bssBackward (Ex.clamped none) (padded 10 Ex.ref) (padded 10 Ex.est) ⟨some fun _ => w, some fun _ => w', none⟩ = .ok g' ∧
    ∀ m j t, g'.1 m j (Fin.castAdd 10 t) = gE m j t := by
  obtain ⟨gE, gR, h1, -⟩ := C85_gradient_perm (o := Ex.clamped none) (by norm_num) (Or.inr rfl) le_rfl Ex.sqCosPair_value
    ⟨some fun _ => w, some fun _ => w', none⟩ (fun _ _ k j => fifth_off none (Or.inl rfl) (k = j))
    (fun _ k j => by rw [(ex_base none _).2.1]; exact ex_fin none (Or.inl rfl) (k = j)) (fun h => absurd rfl h)
    (fun m => by simp only [(ex_base _ _).2.1]; exact Ex.unique_loss)
  have hf : FilterFits 3 (Ex.clamped none).filterLength := by
    show 2 + 3 ≤ 2 ^ Nat.clog 2 (2 * 3 - 1) + 1
    have := Nat.le_pow_clog (b := 2) (by norm_num) (2 * 3 - 1)
    omega
  obtain ⟨g', h2, h3, -⟩ := C108_bss_eval_perm (z := 10) (o := Ex.clamped none) (by norm_num) hf rfl h1
  exact ⟨gE, gR, g', h1, h2, fun m j t => congrFun (congrFun (congrFun h3 m) j) t⟩

end FBE.Props
