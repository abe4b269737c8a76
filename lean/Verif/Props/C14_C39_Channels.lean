import Verif.Proofs.Reorder
import Verif.Spec.Unique
import Verif.Props.C07_C08_C40_Invariance
import Verif.Props.C11_C17_Permutation
import Verif.Proofs.ExampleRuns

/-!
# C14, C39 — order of the channels; SAR
-/

namespace FBE.Props

open Spec XR Matrix

variable {s : List ℕ} {r e c N M : ℕ} {B : Backend} {o : Opts}

/-! ### C14 -/

/-- `pairwise_sdr_loss` of reordered channels is the reordered matrix. -/
theorem C14_pairwise_reordered (hB : Covered B) {ref : Sig s r N} {est : Sig s e M} {L}
    (h : pairwiseSdrLoss B o est ref = .ok L) (π : BIdx s → Equiv.Perm (Fin r)) (σ : BIdx s → Equiv.Perm (Fin e)) :
    pairwiseSdrLoss B o (fun m j => est m (σ m j)) (fun m k => ref m (π m k)) =
      .ok fun m k j => L m (π m k) (σ m j) := by
  obtain ⟨coh, hc, rfl⟩ := sdrLossPair_entry h
  unfold pairwiseSdrLoss sdrLossPair
  rw [sdrCohPair_related hB (related_reorder o ref est π σ) hc]

example : ∃ L, pairwiseSdrLoss torchBackend Ex.opts Ex.est Ex.ref = .ok L ∧
    pairwiseSdrLoss torchBackend Ex.opts (fun m j => Ex.est m (1 - j)) Ex.ref = .ok fun m k j => L m k (1 - j) :=
  ⟨_, Ex.sdrLossPair_cl none, C14_pairwise_reordered (o := Ex.opts) Ex.covered (Ex.sdrLossPair_cl none)
    (fun _ => Equiv.refl _) (fun _ => Equiv.subLeft 1)⟩

/-- What `sdr` returns for reordered channels, in terms of the original ones. -/
theorem sdr_reordered (hB : Covered B) (rp cs : Bool) {ref : Sig s r N} {est : Sig s e M} {out}
    (h : sdr B o rp cs ref est = .ok out) (π : BIdx s → Equiv.Perm (Fin r)) (σ : BIdx s → Equiv.Perm (Fin e)) :
    ∃ out' L, sdr B o rp cs (fun m k => ref m (π m k)) (fun m j => est m (σ m j)) = .ok out' ∧
      pairwiseSdrLoss B o est ref = .ok L ∧ ∀ m, Solvable (L m) ∧ ∃ P P' : Pairing r e,
        BestPairing (L m) P ∧ BestPairing (L m) (P'.map (π m) (σ m)) ∧
        (∀ p, out.perm = some p → Describes (p m) P) ∧ (∀ p, out'.perm = some p → Describes (p m) P') ∧
        out.sdr m = P.values (fun k j => if cs then L m k j else (L m k j).neg) ∧
        out'.sdr m = (P'.map (π m) (σ m)).values (fun k j => if cs then L m k j else (L m k j).neg) := by
  obtain ⟨L, p, hL, hp, e1, e2⟩ := sdr_ok h
  have hL' := C14_pairwise_reordered hB hL π σ
  have hsol : ∀ m, Solvable (L m) := (solvePermutation_ok_iff B hB.lsa _ _).1 ⟨p, hp⟩
  obtain ⟨p', hp'⟩ := (solvePermutation_ok_iff B hB.lsa (fun m k j => L m (π m k) (σ m j)) (nArgs := 0)
    (fun i => i.elim0)).2 fun m => solvable_reorder (π m) (σ m) (hsol m)
  refine ⟨_, L, sdr_of_ok rp cs hL' hp', hL, fun m => ⟨hsol m, ?_⟩⟩
  obtain ⟨-, P, hP⟩ := solvePermutation_spec B hB.lsa _ _ hp m
  obtain ⟨-, P', hP'⟩ := solvePermutation_spec B hB.lsa _ _ hp' m
  refine ⟨P, P', hP.best, bestPairing_map hP'.best, fun q hq => ?_, fun q hq => ?_, ?_, ?_⟩
  · rw [e2] at hq
    cases rp <;> cases hq
    exact hP.describes
  · cases rp <;> cases hq
    exact hP'.describes
  · rw [e1]
    funext k
    cases cs
    · exact congrArg XR.neg (hP.loss_eq k)
    · exact hP.loss_eq k
  · funext k
    cases cs
    · exact congrArg XR.neg (hP'.loss_eq k)
    · exact hP'.loss_eq k

/-- C14: `sdr` (and `sdr_pit_loss`, `si_sdr`, …) of reordered channels has the same total. -/
theorem C14_sdr_total (hB : Covered B) (rp cs : Bool) {ref : Sig s r N} {est : Sig s e M} {out}
    (h : sdr B o rp cs ref est = .ok out) (π : BIdx s → Equiv.Perm (Fin r)) (σ : BIdx s → Equiv.Perm (Fin e)) :
    ∃ out', sdr B o rp cs (fun m k => ref m (π m k)) (fun m j => est m (σ m j)) = .ok out' ∧
      ∀ m, eTotal (out'.sdr m) = eTotal (out.sdr m) := by
  obtain ⟨out', L, h', -, hm⟩ := sdr_reordered hB rp cs h π σ
  refine ⟨out', h', fun m => ?_⟩
  obtain ⟨hs, P, P', hP, hP', -, -, e1, e2⟩ := hm m
  rw [e1, e2]
  cases cs
  · simp only [Bool.false_eq_true, if_false]
    rw [hs.eTotal_neg, hs.eTotal_neg, hP.eTotal_eq hs hP']
  · exact hP'.eTotal_eq hs hP

/-- C14, stronger: if the best pairing of an item is unique, reordering the channels just reorders the
result: channels paired before are paired after, with the same value. -/
theorem C14_sdr_follows (hB : Covered B) (rp cs : Bool) {ref : Sig s r N} {est : Sig s e M} {out L}
    (h : sdr B o rp cs ref est = .ok out) (hL : pairwiseSdrLoss B o est ref = .ok L)
    (π : BIdx s → Equiv.Perm (Fin r)) (σ : BIdx s → Equiv.Perm (Fin e)) :
    ∃ out', sdr B o rp cs (fun m k => ref m (π m k)) (fun m j => est m (σ m j)) = .ok out' ∧
      ∀ m, UniqueBest (L m) → ∃ P P' : Pairing r e,
        (∀ p, out.perm = some p → Describes (p m) P) ∧ (∀ p, out'.perm = some p → Describes (p m) P') ∧
        ∀ i, ∃ i', π m (P'.ref i') = P.ref i ∧ σ m (P'.est i') = P.est i ∧ out'.sdr m i' = out.sdr m i := by
  obtain ⟨out', L', h', hL', hm⟩ := sdr_reordered hB rp cs h π σ
  rw [hL] at hL'
  cases hL'
  refine ⟨out', h', fun m hu => ?_⟩
  obtain ⟨hs, P, P', hP, hP', d1, d2, e1, e2⟩ := hm m
  refine ⟨P, P', d1, d2, fun i => ?_⟩
  obtain ⟨i', h1, h2⟩ := (hu _ _ hP hP' (P.ref i) (P.est i)).1 ⟨i, rfl, rfl⟩
  refine ⟨i', h1, h2, ?_⟩
  rw [e1, e2]
  unfold Pairing.values
  rw [h1, h2]

-- the matrix of the losses has a unique best pairing
example : ∃ out out', sdr torchBackend Ex.opts true false Ex.ref Ex.est = .ok out ∧
    sdr torchBackend Ex.opts true false Ex.ref (fun m j => Ex.est m (1 - j)) = .ok out' ∧
    ∀ m, ∃ P P' : Pairing 2 2, (∀ p, out.perm = some p → Describes (p m) P) ∧
      (∀ p, out'.perm = some p → Describes (p m) P') ∧
      ∀ i, ∃ i', P'.ref i' = P.ref i ∧ 1 - P'.est i' = P.est i ∧ out'.sdr m i' = out.sdr m i := by
  obtain ⟨out, h⟩ := Ex.sdr_cl none true false
  obtain ⟨out', h', hm⟩ := C14_sdr_follows (o := Ex.opts) Ex.covered true false h (Ex.sdrLossPair_cl none)
    (fun _ => Equiv.refl _) (fun _ => Equiv.subLeft 1)
  refine ⟨out, out', h, h', fun m => hm m ?_⟩
  exact Ex.unique_loss

/-- The matrix of SIRs found by `bss_eval_sources`, reordered. -/
theorem bss_reordered (hB : Covered B) {ref : Sig s r N} {est : Sig s e M} {out}
    (h : bssEvalSources B o true ref est = .ok out) {ref' : Sig s r N} {est' : Sig s e M}
    {π : BIdx s → Equiv.Perm (Fin r)} {σ : BIdx s → Equiv.Perm (Fin e)} {α β}
    (hrel : Related o ref est ref' est' (fun m => m) π (fun m j => σ m j) α β) :
    ∃ sd sa out', sqCosPair B o ref est = .ok (sd, sa) ∧ bssEvalSources B o true ref' est' = .ok out' ∧
      ∀ m, Solvable (negSir o sd sa m) ∧
      ∃ P P' : Pairing r e, BestPairing (negSir o sd sa m) P ∧ BestPairing (negSir o sd sa m) (P'.map (π m) (σ m)) ∧
        (∃ p, out.perm = some p ∧ Describes (p m) P) ∧ (∃ p, out'.perm = some p ∧ Describes (p m) P') ∧
        out.sir m = P.values (fun k j => (negSir o sd sa m k j).neg) ∧
        out'.sir m = (P'.map (π m) (σ m)).values (fun k j => (negSir o sd sa m k j).neg) ∧
        out.sar m = P.values (fun k j => (negSar o sd sa m k j).neg) ∧
        out'.sar m = (P'.map (π m) (σ m)).values (fun k j => (negSar o sd sa m k j).neg) := by
  unfold bssEvalSources at h ⊢
  rw [if_pos rfl] at h ⊢
  obtain ⟨sd, sa, p, hc, hp, rfl⟩ := bssEvalPerm_ok h
  have hc' := sqCosPair_related hB hrel hc
  have hsol : ∀ m, Solvable (negSir o sd sa m) := (solvePermutation_ok_iff B hB.lsa _ _).1 ⟨p, hp⟩
  obtain ⟨p', hp'⟩ := (solvePermutation_ok_iff B hB.lsa
    (negSir o (fun m k j => sd m (π m k) (σ m j)) (fun m j => sa m (σ m j))) (nArgs := 2)
    ![negSdr o (fun m k j => sd m (π m k) (σ m j)) (fun m j => sa m (σ m j)),
      negSar o (fun m k j => sd m (π m k) (σ m j)) (fun m j => sa m (σ m j))]).2
    fun m => solvable_reorder (π m) (σ m) (hsol m)
  refine ⟨sd, sa, _, hc, bssEvalPerm_of_ok hc' hp', fun m => ⟨hsol m, ?_⟩⟩
  obtain ⟨-, P, hP⟩ := solvePermutation_spec B hB.lsa _ _ hp m
  obtain ⟨-, P', hP'⟩ := solvePermutation_spec B hB.lsa _ _ hp' m
  refine ⟨P, P', hP.best, bestPairing_map (M := negSir o sd sa m) hP'.best, ⟨_, rfl, hP.describes⟩,
    ⟨_, rfl, hP'.describes⟩, ?_, ?_, ?_, ?_⟩
  · funext k; exact congrArg XR.neg (hP.loss_eq k)
  · funext k; exact congrArg XR.neg (hP'.loss_eq k)
  · funext k; exact congrArg XR.neg (hP.args_eq 1 k)
  · funext k; exact congrArg XR.neg (hP'.args_eq 1 k)

/-- C14: the SIRs of `bss_eval_sources` of reordered channels have the same total. -/
theorem C14_bss_eval_sir_total (hB : Covered B) {ref : Sig s r N} {est : Sig s e M} {out}
    (h : bssEvalSources B o true ref est = .ok out) (π : BIdx s → Equiv.Perm (Fin r))
    (σ : BIdx s → Equiv.Perm (Fin e)) :
    ∃ out', bssEvalSources B o true (fun m k => ref m (π m k)) (fun m j => est m (σ m j)) = .ok out' ∧
      ∀ m, eTotal (out'.sir m) = eTotal (out.sir m) := by
  obtain ⟨sd, sa, out', -, h', hm⟩ := bss_reordered hB h (related_reorder o ref est π σ)
  refine ⟨out', h', fun m => ?_⟩
  obtain ⟨hs, P, P', hP, hP', -, -, e1, e2, -, -⟩ := hm m
  rw [e1, e2, hs.eTotal_neg, hs.eTotal_neg, hP.eTotal_eq hs hP']

/-- C14 without permutation: exchanging references and estimates together exchanges the results. -/
theorem C14_aligned (hB : Covered B) {ref : Sig s c N} {est : Sig s c M} {L} (h : sdrLossDiag B o est ref = .ok L)
    (π : BIdx s → Equiv.Perm (Fin c)) :
    sdrLossDiag B o (fun m k => est m (π m k)) (fun m k => ref m (π m k)) = .ok fun m k => L m (π m k) := by
  obtain ⟨coh, hc, rfl⟩ := sdrLossDiag_entry h
  unfold sdrLossDiag
  rw [sdrCohDiag_related hB (related_reorder o ref est π π) hc]

example : ∃ L, sdrLossDiag torchBackend Ex.opts Ex.est Ex.ref = .ok L ∧
    sdrLossDiag torchBackend Ex.opts (fun m k => Ex.est m (1 - k)) (fun m k => Ex.ref m (1 - k)) =
      .ok fun m k => L m (1 - k) :=
  ⟨_, Ex.sdrLossDiag_cl none, C14_aligned (o := Ex.opts) Ex.covered (Ex.sdrLossDiag_cl none)
    (fun _ => Equiv.subLeft 1)⟩

example : ∃ out out', sdr torchBackend exOpts true false exRef exEst = .ok out ∧
    sdr torchBackend exOpts true false (fun m k => exRef m (1 - k)) (fun m j => exEst m (2 - j)) = .ok out' ∧
      eTotal (out'.sdr ()) = eTotal (out.sdr ()) := by
  obtain ⟨out, h⟩ := ex_sdr
  obtain ⟨out', h', ht⟩ := C14_sdr_total (Or.inl rfl) true false h (fun _ => Equiv.subLeft 1) (fun _ => Equiv.subLeft 2)
  exact ⟨out, out', h, h', ht ()⟩

example : ∃ out out', bssEvalSources torchBackend { Ex.opts with clampDb := some 30 } true Ex.ref Ex.est = .ok out ∧
    bssEvalSources torchBackend { Ex.opts with clampDb := some 30 } true Ex.ref (fun m j => Ex.est m (1 - j)) =
      .ok out' ∧ eTotal (out'.sir ()) = eTotal (out.sir ()) := by
  obtain ⟨out, h⟩ := Ex.bssEval_ok (d := 30)
  obtain ⟨out', h', ht⟩ := C14_bss_eval_sir_total (o := { Ex.opts with clampDb := some 30 }) (Or.inl rfl) h
    (fun _ => Equiv.refl _) (fun _ => Equiv.subLeft 1)
  exact ⟨out, out', h, h', ht ()⟩

/-! ### C39 -/

/-- References reordered and rescaled. -/
theorem related_refs {a : BIdx s → Fin r → ℝ} (ha : ∀ m k, a m k ≠ 0) {ref : Sig s r N} (est : Sig s e M)
    (hr : ∀ m k, Normalisable (centred o.zeroMean (ref m k))) (π : BIdx s → Equiv.Perm (Fin r))
    (hr' : ∀ m k, Normalisable (centred o.zeroMean fun t => a m k * ref m (π m k) t)) :
    Related o ref est (fun m k t => a m k * ref m (π m k) t) est (fun m => m) π (fun _ j => j)
      (fun m k => sgn (a m k)) (fun _ _ => 1) :=
  related_of_prep (fun m k => sgn_sq (ha m k)) (fun _ _ => one_mul 1)
    (fun m k => prep_scale (x := fun m k => ref m (π m k)) ha (fun m k => hr m (π m k)) hr' m k)
    (fun _ _ => by simp only [one_mul])

/-- C39: each estimate has one SAR, whatever reference it is paired with, and whatever the order and
the scale of the references: if `bss_eval_sources` returns, there is a table `S` of SARs, one for each
estimate, from which the SARs of all calls with reordered and rescaled references are taken. -/
theorem C39_sar_per_estimate (hB : Covered B) {ref : Sig s r N} {est : Sig s e M} {out}
    (hr : ∀ m k, Normalisable (centred o.zeroMean (ref m k)))
    (h : bssEvalSources B o true ref est = .ok out) : ∃ S : BIdx s → Fin e → XR,
      ∀ (a : BIdx s → Fin r → ℝ) (π : BIdx s → Equiv.Perm (Fin r)), (∀ m k, a m k ≠ 0) →
        (∀ m k, Normalisable (centred o.zeroMean fun t => a m k * ref m (π m k) t)) →
        ∃ out' perm, bssEvalSources B o true (fun m k t => a m k * ref m (π m k) t) est = .ok out' ∧
          out'.perm = some perm ∧
          ∀ m, ∃ P : Pairing r e, Describes (perm m) P ∧ ∀ k, out'.sar m k = S m (P.est k) := by
  have hc0 : ∃ sd sa, sqCosPair B o ref est = .ok (sd, sa) := by
    unfold bssEvalSources at h
    rw [if_pos rfl] at h
    obtain ⟨sd, sa, -, hc, -⟩ := bssEvalPerm_ok h
    exact ⟨sd, sa, hc⟩
  obtain ⟨sd0, sa0, hc0⟩ := hc0
  refine ⟨fun m j => (coherenceToNegSdr o.clampDb (fin (sa0 m j))).neg, fun a π ha hr' => ?_⟩
  obtain ⟨sd, sa, out', hc, h', hm⟩ := bss_reordered hB h (σ := fun _ => Equiv.refl _) (related_refs ha est hr π hr')
  rw [hc0] at hc
  cases hc
  obtain ⟨perm, hperm⟩ : ∃ perm, out'.perm = some perm := by
    unfold bssEvalSources at h'
    rw [if_pos rfl] at h'
    obtain ⟨_, _, _, _, _, rfl⟩ := bssEvalPerm_ok h'
    exact ⟨_, rfl⟩
  refine ⟨out', perm, h', hperm, fun m => ?_⟩
  obtain ⟨-, P, P', -, -, -, ⟨p, hp, hd⟩, -, -, -, e2⟩ := hm m
  rw [hperm] at hp
  cases hp
  exact ⟨P', hd, fun k => by rw [e2]; rfl⟩

example : ∃ out out' S perm, bssEvalSources torchBackend Ex.opts true Ex.ref Ex.est = .ok out ∧
    bssEvalSources torchBackend Ex.opts true (fun m k t => 3 * Ex.ref m (1 - k) t) Ex.est = .ok out' ∧
    out'.perm = some perm ∧ ∀ m, ∃ P : Pairing 2 2, Describes (perm m) P ∧
      ∀ k, out'.sar m k = (S : BIdx [] → Fin 2 → XR) m (P.est k) := by
  have hc : ∀ x : Fin 3 → ℝ, centred Ex.opts.zeroMean x = x := fun x => by
    show centred false x = x
    simp [centred]
  obtain ⟨out, h⟩ := Ex.bss_cl none true
  obtain ⟨S, hS⟩ := C39_sar_per_estimate (o := Ex.opts) Ex.covered (fun m k => by
    rw [hc]
    fin_cases k
    · exact Or.inl (Ex.audible _ 0 (by simp [Ex.ref]))
    · exact Or.inl (Ex.audible _ 2 (by simp [Ex.ref]))) h
  obtain ⟨out', perm, h', hp, hm⟩ := hS (fun _ _ => 3) (fun _ => Equiv.subLeft 1) (fun _ _ => by norm_num)
    (fun m k => by
      rw [hc]
      fin_cases k
      · exact Or.inl (Ex.audible _ 2 (by simp [Ex.ref, Equiv.subLeft]))
      · exact Or.inl (Ex.audible _ 0 (by simp [Ex.ref, Equiv.subLeft])))
  exact ⟨out, out', S, perm, h, h', hp, hm⟩

/-- C39 with `compute_permutation=False`: reordering and rescaling the references leaves the SARs. -/
theorem C39_sar_aligned (hB : Covered B) {ref : Sig s r N} {est : Sig s e M} {out}
    (hr : ∀ m k, Normalisable (centred o.zeroMean (ref m k)))
    (h : bssEvalSources B o false ref est = .ok out) {a : BIdx s → Fin r → ℝ} {π : BIdx s → Equiv.Perm (Fin r)}
    (ha : ∀ m k, a m k ≠ 0) (hr' : ∀ m k, Normalisable (centred o.zeroMean fun t => a m k * ref m (π m k) t)) :
    ∃ out', bssEvalSources B o false (fun m k t => a m k * ref m (π m k) t) est = .ok out' ∧ out'.sar = out.sar := by
  unfold bssEvalSources at h ⊢
  rw [if_neg Bool.false_ne_true] at h ⊢
  by_cases hre : r ≠ e
  · rw [if_pos hre] at h; cases h
  rw [if_neg hre] at h ⊢
  push Not at hre
  subst hre
  unfold bssEvalNoPerm at h ⊢
  split at h
  · cases h
  · rename_i sd sa hc
    cases h
    have hmin : min r r = r := min_self r
    have hrel : Related o (fun m (k : Fin (min r r)) => ref m (k.castLE (min_le_left r r)))
        (fun m (k : Fin (min r r)) => est m (k.castLE (min_le_right r r)))
        (fun m k t => a m (k.castLE (min_le_left r r)) * ref m (π m (k.castLE (min_le_left r r))) t)
        (fun m (k : Fin (min r r)) => est m (k.castLE (min_le_right r r)))
        (fun m => m) (fun m => ((finCongr hmin).trans (π m)).trans (finCongr hmin.symm)) (fun _ j => j)
        (fun m k => sgn (a m (k.castLE (min_le_left r r)))) (fun _ _ => 1) := by
      refine related_of_prep (fun m k => sgn_sq (ha m _)) (fun _ _ => one_mul 1) (fun m k => ?_)
        (fun _ _ => by simp only [one_mul])
      exact prep_scale (x := fun m k => ref m (π m k)) ha (fun m k => hr m (π m k)) hr' m (k.castLE (min_le_left r r))
    obtain ⟨sd', hc'⟩ := sqCosDiag_sar_related hB hrel hc
    rw [hc']
    exact ⟨_, rfl, rfl⟩

example : ∃ out out', bssEvalSources torchBackend Ex.opts false Ex.ref Ex.est = .ok out ∧
    bssEvalSources torchBackend Ex.opts false (fun m k t => 3 * Ex.ref m (1 - k) t) Ex.est = .ok out' ∧
    out'.sar = out.sar := by
  have hc : ∀ x : Fin 3 → ℝ, centred Ex.opts.zeroMean x = x := fun x => by
    show centred false x = x
    simp [centred]
  obtain ⟨out, h⟩ := Ex.bssEvalNoPerm_ok
  obtain ⟨out', h', ht⟩ := C39_sar_aligned (o := Ex.opts) Ex.covered (a := fun _ _ => 3) (π := fun _ => Equiv.subLeft 1)
    (fun m k => by
      rw [hc]
      fin_cases k
      · exact Or.inl (Ex.audible _ 0 (by simp [Ex.ref]))
      · exact Or.inl (Ex.audible _ 2 (by simp [Ex.ref]))) h (fun _ _ => by norm_num)
    (fun m k => by
      rw [hc]
      fin_cases k
      · exact Or.inl (Ex.audible _ 2 (by simp [Ex.ref, Equiv.subLeft]))
      · exact Or.inl (Ex.audible _ 0 (by simp [Ex.ref, Equiv.subLeft])))
  exact ⟨out, out', h, h', ht⟩

end FBE.Props
