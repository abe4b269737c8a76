import Verif.Props.C108_SilenceGradientsBss
import Verif.Props.C105_PolarityBssCg

/-!
# C108: gradients through `bss_eval_sources` with `use_cg_iter` of signals with trailing silence
-/

namespace FBE.Props

open Classical FBE.Spec FBE.Backward XR

variable {s : List ℕ} {r e c N M it z : ℕ} {o : Opts}

/-- The gradient of a reference at one sample. -/
theorem refBackAll_single {K n : ℕ} (hn : n ≠ 0) (hK : K ≤ n) (hN : N ≤ n) (x : Fin r → Fin N → ℝ) (y : Fin e → Fin M → ℝ)
    (gxc : Fin r → Fin e → Fin K → ℝ) (gacf : Fin r → Fin r → ℕ → ℝ) (k : Fin r) (t : Fin N) :
    refBackAll n x y gxc gacf k t =
      ∑ k', ∑ j, ∑ l, gxc k' j l * circ n ((Pi.single k (Pi.single t (1 : ℝ)) : Fin r → Fin N → ℝ) k') (y j) l +
        ∑ k', ∑ l, ∑ p : Fin K, (gacf k' l p * (circ n (x l) ((Pi.single k (Pi.single t (1 : ℝ)) : Fin r → Fin N → ℝ) k') p +
            circ n ((Pi.single k (Pi.single t (1 : ℝ)) : Fin r → Fin N → ℝ) l) (x k') p) +
          gacf k' l (K + p) * (circ n (x l) ((Pi.single k (Pi.single t (1 : ℝ)) : Fin r → Fin N → ℝ) k') (n - K + p) +
            circ n ((Pi.single k (Pi.single t (1 : ℝ)) : Fin r → Fin N → ℝ) l) (x k') (n - K + p))) := by
  have a := refBackAll_adjoint hn hK hN x y gxc gacf (Pi.single k (Pi.single t 1))
  have hv : ∀ f : Fin r → Fin N → ℝ, ∑ k', ∑ t', f k' t' * (Pi.single k (Pi.single t (1 : ℝ)) : Fin r → Fin N → ℝ) k' t' = f k t := by
    intro f
    rw [Finset.sum_eq_single k, Finset.sum_eq_single t]
    · rw [Pi.single_eq_same, Pi.single_eq_same, mul_one]
    · intro b _ hb
      rw [Pi.single_eq_same, Pi.single_eq_of_ne hb, mul_zero]
    · intro hb; exact absurd (Finset.mem_univ _) hb
    · intro b _ hb
      refine Finset.sum_eq_zero fun t' _ => ?_
      rw [Pi.single_eq_of_ne hb]
      exact mul_zero _
    · intro hb; exact absurd (Finset.mem_univ _) hb
  rw [hv] at a
  rw [a]
  refine congrArg₂ (· + ·) rfl (Finset.sum_congr rfl fun k' _ => Finset.sum_congr rfl fun l _ => ?_)
  exact sum_acf2 hK (gacf k' l) fun t' => circ n (x l) ((Pi.single k (Pi.single t (1 : ℝ)) : Fin r → Fin N → ℝ) k') t' +
    circ n ((Pi.single k (Pi.single t (1 : ℝ)) : Fin r → Fin N → ℝ) l) (x k') t'

theorem refBackAll_padded' {K n n' : ℕ} (hn : n ≠ 0) (hN : N ≤ n) (hK : K + N ≤ n + 1) (h : n ≤ n') (h' : N + z ≤ n') (hK0 : K ≤ n)
    (x : Fin r → Fin N → ℝ) (y : Fin e → Fin N → ℝ) (gxc : Fin r → Fin e → Fin K → ℝ) {gacf : Fin r → Fin r → ℕ → ℝ}
    (hg : ∀ k l, gacf k l K = 0) (k : Fin r) (t : Fin N) :
    refBackAll n' (fun k (t : Fin (N + z)) => zpad (x k) t) (fun j (t : Fin (N + z)) => zpad (y j) t) gxc gacf k (Fin.castAdd z t) =
      refBackAll n x y gxc gacf k t := by
  have hs : ∀ k' : Fin r, (Pi.single k (Pi.single (Fin.castAdd z t) (1 : ℝ)) : Fin r → Fin (N + z) → ℝ) k' =
      fun u : Fin (N + z) => zpad ((Pi.single k (Pi.single t (1 : ℝ)) : Fin r → Fin N → ℝ) k') u := by
    intro k'
    by_cases hk : k' = k
    · subst hk
      rw [Pi.single_eq_same, Pi.single_eq_same, single_padded]
    · rw [Pi.single_eq_of_ne hk, Pi.single_eq_of_ne hk]
      funext u
      unfold zpad
      split_ifs <;> rfl
  rw [refBackAll_single hn hK0 hN, refBackAll_single (by omega) (by omega) h']
  simp only [hs]
  have hc : ∀ (p q : Fin N → ℝ) (l : Fin K), circ n' (fun t : Fin (N + z) => zpad p t) (fun t : Fin (N + z) => zpad q t) l = circ n p q l :=
    fun p q l => circ_padded _ _ hN (by omega) h
  have hc' : ∀ (p q : Fin N → ℝ) (l : Fin K), l.val ≠ 0 → circ n' (fun t : Fin (N + z) => zpad p t) (fun t : Fin (N + z) => zpad q t) (n' - K + l) =
      circ n p q (n - K + l) := by
    intro p q l hl
    have e1 : n' - K + l = n' - (K - l) := by omega
    have e2 : n - K + l = n - (K - l) := by omega
    rw [e1, e2, circ_swap n' _ _ (K - l) (by omega), circ_swap n _ _ (K - l) (by omega)]
    exact circ_padded _ _ hN (by omega) h
  simp only [hc]
  refine congrArg₂ (· + ·) rfl (Finset.sum_congr rfl fun k' _ => Finset.sum_congr rfl fun l _ => Finset.sum_congr rfl fun p _ => ?_)
  refine congrArg₂ (· + ·) rfl ?_
  by_cases hp : p.val = 0
  · rw [hp, Nat.add_zero, hg, zero_mul, zero_mul]
  · rw [hc' _ _ p hp, hc' _ _ p hp]

theorem cgPass_acf_mid {K : ℕ} (hK : 2 ≤ K) (warm : Bool) (acfS : Fin r → List ℝ) (acf : Fin r → Fin r → List ℝ) (xc : Fin r → Fin e → Fin K → ℝ)
    (g : Fin r → Fin e → ℝ) (h : Fin e → ℝ) (k l : Fin r) : (cgPass warm K it acfS acf xc).acf g h k l K = 0 := by
  unfold cgPass
  dsimp only
  unfold acfGradCg blkAcfGrad blkToepCol blkPrecCol
  rw [dif_neg fun h => absurd h.1 (lt_irrefl _)]
  simp [show K ≠ 0 by omega]

theorem passCg_unfold {n K : ℕ} (hn : nFft N M = .ok n) (hK : min o.filterLength n = K) (warm : Bool) (ref : Sig s r N) (est : Sig s e M) :
    passCg warm o it ref est =
      if min o.filterLength (K + K) ≠ K then .error .assertionError else
      if ∃ m, ∃ f ≤ K / 2, (blockPrecondSpec torchBackend (bssAcf o n ref m) f).det = 0 then .error .linAlgError else
      let P : BIdx s → CgPass r e K := fun m => cgPass warm K it (bssAcfSdr o n ref m) (bssAcf o n ref m)
        fun k j => vec K (sdrXcorr o n ref est m k j)
      .ok
        { cohSdr := fun m => (P m).cohSdr
          cohSar := fun m => (P m).cohSar
          est := fun m j g h => estBack n (prep o ref m) fun k => (P m).xcorr (fun k _ => g k) (fun _ => h) k j
          ref := fun m g h => refBackAll n (prep o ref m) (prep o est m) ((P m).xcorr g h) ((P m).acf g h) } := by
  subst hK
  unfold passCg
  rw [hn]

section pass

variable (hL : 2 ≤ o.filterLength) (hN : 0 < N) (hf : FilterFits N o.filterLength) (hz : o.zeroMean = false)
include hL hN hf hz

theorem passCg_padded {warm : Bool} {ref : Sig s r N} {est : Sig s e N} {P} (h : passCg warm o it ref est = .ok P) :
    ∃ P', passCg warm o it (padded z ref) (padded z est) = .ok P' ∧ PassPadded P P' := by
  obtain ⟨n, n', hn, hn', h0, h1, h2, h3, h4, h5, h6⟩ := sizes_padded hN hf z
  obtain ⟨-, hx⟩ := stats_padded (z := z) hN hf hz hL ref est hn hn'
  obtain ⟨ha, hB⟩ := lists_padded (z := z) hL hN hf hz ref hn hn'
  have hl : ∀ m k, (bssAcfSdr o n ref m k).length = o.filterLength := by
    intro m k
    have F := fam_of_nFft (o := o) hn
    rw [bssAcfSdr_eq_sdrAcf F rfl (by omega) (by omega)]
    exact (length_sdrAcf F rfl (by omega) ref m k).trans h5
  have ha' : ∀ m, bssAcfSdr o n' (padded z ref) m = bssAcfSdr o n ref m := fun m => funext fun k => ha m k
  have e5 : ∀ m, cgPass warm o.filterLength it (bssAcfSdr o n ref m) (bssAcf o n' (padded z ref) m)
      (fun k j => vec o.filterLength (sdrXcorr o n ref est m k j)) = cgPass warm o.filterLength it (bssAcfSdr o n ref m) (bssAcf o n ref m)
      (fun k j => vec o.filterLength (sdrXcorr o n ref est m k j)) := by
    intro m
    have := cgPass_sgn warm (fun k j => vec o.filterLength (sdrXcorr o n ref est m k j)) (α := fun _ => 1) (fun _ => one_mul 1)
      (β := fun _ => 1) (fun _ => one_mul 1) (hl m) (hB m) hL it
    simp only [one_mul] at this
    exact this
  rw [passCg_unfold hn h5] at h
  rw [passCg_unfold hn' h6, prep_padded hz, prep_padded hz]
  simp only [ha', hx, e5]
  dsimp only at h
  split_ifs at h with hK hd
  have hd' : ¬∃ m, ∃ f ≤ o.filterLength / 2, (blockPrecondSpec torchBackend (bssAcf o n' (padded z ref) m) f).det = 0 := by
    rintro ⟨m, f, hf, h0⟩
    rw [blockPrecondSpec_signed (fun _ => one_mul 1) (Equiv.refl _) (hB m) (Or.inl rfl) hL hf] at h0
    exact hd ⟨m, f, hf, h0⟩
  rw [if_neg hK, if_neg hd']
  cases h
  refine ⟨_, rfl, rfl, rfl, fun m j g h t => ?_, fun m g h k t => ?_⟩
  · dsimp only
    exact estBack_padded h0 h1 h2 h3 h4 (prep o ref m) _ t
  · dsimp only
    exact refBackAll_padded' h0 h1 h2 h3 h4 (by omega) (prep o ref m) (prep o est m) _ (cgPass_acf_mid hL _ _ _ _ g h) k t

/-- **C108**, losses made of the values of `bss_eval_sources`, with `use_cg_iter`. -/
theorem C108_bss_eval_perm_iterative {ref : Sig s r N} {est : Sig s e N} {v : BssWeights (BIdx s × Fin (min r e))} {g}
    (h : bssBackwardCg o it ref est v = .ok g) :
    ∃ g', bssBackwardCg o it (padded z ref) (padded z est) v = .ok g' ∧ beforeSilence z g'.1 = g.1 ∧ beforeSilence z g'.2 = g.2 := by
  unfold bssBackwardCg at h ⊢
  cases hP : passCg true o it ref est with
  | error err => rw [hP] at h; cases h
  | ok P =>
    rw [hP] at h
    obtain ⟨P', hP', hp⟩ := passCg_padded (z := z) hL hN hf hz hP
    rw [hP']
    dsimp only at h ⊢
    rw [hp.sdr, hp.sar]
    split at h
    · cases h
    · cases h
      exact ⟨_, rfl, gradBss_padded hz hp ref est _⟩

/-- **C108**, losses made of the values of `bss_eval_sources(compute_permutation=False)`, with `use_cg_iter`. -/
theorem C108_bss_eval_iterative {ref est : Sig s c N} {v : BssWeights (BIdx s × Fin c)} {g} (h : bssBackwardCgDiag o it ref est v = .ok g) :
    ∃ g', bssBackwardCgDiag o it (padded z ref) (padded z est) v = .ok g' ∧ beforeSilence z g'.1 = g.1 ∧ beforeSilence z g'.2 = g.2 := by
  unfold bssBackwardCgDiag at h ⊢
  cases hP : passCg false o it ref est with
  | error err => rw [hP] at h; cases h
  | ok P =>
    rw [hP] at h
    obtain ⟨P', hP', hp⟩ := passCg_padded (z := z) hL hN hf hz hP
    rw [hP']
    cases h
    exact ⟨_, rfl, gradBssDiag_padded hz hp ref est _⟩

end pass

/-- Two sources, filters of two taps, four iterations, a loss made of SDR and SIR; ten silent samples appended. -/
example (w w' : ℝ) : ∃ gE gR g',
    bssBackwardCg (exCg4 none) 4 Ex.ref Ex.est ⟨some fun _ => w, some fun _ => w', none⟩ = .ok (gE, gR) ∧
    bssBackwardCg (exCg4 none) 4 (padded 10 Ex.ref) (padded 10 Ex.est) ⟨some fun _ => w, some fun _ => w', none⟩ = .ok g' ∧
    ∀ m j t, g'.1 m j (Fin.castAdd 10 t) = gE m j t := by
  have hu : ∀ m : BIdx [], UniqueBest fun k j : Fin 2 => (baseMetrics none (if k = j then 4 / 5 else 1 / 5 : ℝ) 1).2.1 :=
    fun m => by simp only [(ex_base _ _).2.1]; exact Ex.unique_loss
  obtain ⟨gE, gR, h1, -⟩ := C88_gradient_perm (o := exCg4 none) (by norm_num) le_rfl rfl (ex4_pair none)
    ⟨some fun _ => w, some fun _ => w', none⟩ (fun _ _ k j => fifth_off none (Or.inl rfl) (k = j))
    (fun _ k j => by
      refine ⟨one_ne_zero, ?_⟩
      rw [div_one]
      exact fifth_off none (Or.inl rfl) (k = j)) (fun h => absurd rfl h)
    hu (ex4_smooth none) (ex4_block none true)
  have hf : FilterFits 3 (exCg4 none).filterLength := by
    show 2 + 3 ≤ 2 ^ Nat.clog 2 (2 * 3 - 1) + 1
    have := Nat.le_pow_clog (b := 2) (by norm_num) (2 * 3 - 1)
    omega
  obtain ⟨g', h2, h3, -⟩ := C108_bss_eval_perm_iterative (z := 10) (o := exCg4 none) le_rfl (by norm_num) hf rfl h1
  exact ⟨gE, gR, g', h1, h2, fun m j t => congrFun (congrFun (congrFun h3 m) j) t⟩

end FBE.Props
