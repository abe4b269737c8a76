import Verif.Proofs.Backends
import Verif.Proofs.PermLimit
import Verif.Proofs.Example
import Verif.Props.C11_C17_Permutation
import Verif.Proofs.ExampleRuns

/-!
# C21 — numpy and torch agree

`B` and `B'` are any two of: the torch package, the numpy package with any correct assignment routine
(older or newer than numpy 2).
-/

namespace FBE.Props

open Spec XR Matrix

variable {s : List ℕ} {r e c N M : ℕ} {B B' : Backend} {o : Opts}

theorem loss_ok_of {ref : Sig s r N} {est : Sig s e M} {L}
    (h : ∀ q, sdrCohPair B o ref est = .ok q → sdrCohPair B' o ref est = .ok q) (hL : sdrLossPair B o est ref = .ok L) :
    sdrLossPair B' o est ref = .ok L := by
  unfold sdrLossPair at hL ⊢
  cases hq : sdrCohPair B o ref est with
  | error err => rw [hq] at hL; cases hL
  | ok q => rw [hq] at hL; rw [h q hq]; exact hL

theorem loss_aligned_ok_of {ref : Sig s c N} {est : Sig s c M} {L}
    (h : ∀ q, sdrCohDiag B o ref est = .ok q → sdrCohDiag B' o ref est = .ok q) (hL : sdrLossDiag B o est ref = .ok L) :
    sdrLossDiag B' o est ref = .ok L := by
  unfold sdrLossDiag at hL ⊢
  cases hq : sdrCohDiag B o ref est with
  | error err => rw [hq] at hL; cases hL
  | ok q => rw [hq] at hL; rw [h q hq]; exact hL

/-- C21: the same matrices of losses, or no result for both. -/
theorem C21_pairwise (hB : Covered B) (hB' : Covered B') (est : Sig s e M) (ref : Sig s r N) (L) :
    pairwiseSdrLoss B o est ref = .ok L ↔ pairwiseSdrLoss B' o est ref = .ok L := by
  unfold pairwiseSdrLoss
  exact ⟨loss_ok_of fun q => (sdrCohPair_backend hB hB' _ _ q).1, loss_ok_of fun q => (sdrCohPair_backend hB hB' _ _ q).2⟩

example {lsa : Lsa} (hl : LsaCorrect @lsa) (n2 : Bool) : ∃ L, pairwiseSdrLoss (numpyBackend @lsa n2) Ex.opts Ex.est Ex.ref = .ok L :=
  ⟨_, (C21_pairwise Ex.covered (Or.inr ⟨_, n2, hl, rfl⟩) Ex.est Ex.ref _).1 (Ex.sdrLossPair_cl none)⟩

/-- C21: the same aligned losses (numpy older than 2, or solver not the direct one, see C43). -/
theorem C21_aligned (hB : Covered B) (hB' : Covered B')
    (h : o.filterLength = 1 ∨ o.useCgIter ≠ none ∨ B.stackedVectors = B'.stackedVectors) (est : Sig s c M)
    (ref : Sig s c N) (L) :
    sdrLossDiag B o est ref = .ok L ↔ sdrLossDiag B' o est ref = .ok L := by
  exact ⟨loss_aligned_ok_of fun q => (sdrCohDiag_backend hB hB' h _ _ q).1,
    loss_aligned_ok_of fun q => (sdrCohDiag_backend hB hB' h _ _ q).2⟩

example {lsa : Lsa} (hl : LsaCorrect @lsa) : ∃ L, sdrLossDiag (numpyBackend @lsa false) Ex.opts Ex.est Ex.ref = .ok L :=
  ⟨_, (C21_aligned Ex.covered (Or.inr ⟨_, false, hl, rfl⟩) (Or.inr (Or.inr rfl)) Ex.est Ex.ref _).1
    (Ex.sdrLossDiag_cl none)⟩

theorem noPerm_ok_of {ref : Sig s c N} {est : Sig s c M} {out}
    (h : ∀ q, sqCosDiag B o ref est = .ok q → sqCosDiag B' o ref est = .ok q) (ho : bssEvalNoPerm B o ref est = .ok out) :
    bssEvalNoPerm B' o ref est = .ok out := by
  unfold bssEvalNoPerm at ho ⊢
  cases hq : sqCosDiag B o ref est with
  | error err => rw [hq] at ho; cases ho
  | ok q => rw [hq] at ho; rw [h q hq]; exact ho

/-- C21: `bss_eval_sources` without permutation returns the same. -/
theorem C21_bss_eval_aligned (hB : Covered B) (hB' : Covered B')
    (h : o.filterLength = 1 ∨ o.useCgIter ≠ none ∨ B.stackedVectors = B'.stackedVectors) (ref : Sig s r N)
    (est : Sig s e M) (out) :
    bssEvalSources B o false ref est = .ok out ↔ bssEvalSources B' o false ref est = .ok out := by
  unfold bssEvalSources
  rw [if_neg Bool.false_ne_true, if_neg Bool.false_ne_true]
  by_cases hre : r ≠ e
  · rw [if_pos hre, if_pos hre]
  · rw [if_neg hre, if_neg hre]
    constructor
    · exact noPerm_ok_of fun q hq => (sqCosDiag_backend hB hB' h _ _ q).1 hq
    · exact noPerm_ok_of fun q hq => (sqCosDiag_backend hB hB' h _ _ q).2 hq

example {lsa : Lsa} (hl : LsaCorrect @lsa) :
    ∃ out, bssEvalSources (numpyBackend @lsa false) Ex.opts false Ex.ref Ex.est = .ok out :=
  (Ex.bss_cl none false).elim fun _ h =>
    ⟨_, (C21_bss_eval_aligned Ex.covered (Or.inr ⟨_, false, hl, rfl⟩) (Or.inr (Or.inr rfl)) Ex.ref Ex.est _).1 h⟩

/-- C21: `sdr` returns for both or for none, with the same total, and with the same values and
permutation wherever the best pairing is unique. -/
theorem C21_sdr (hB : Covered B) (hB' : Covered B') (rp cs : Bool) {ref : Sig s r N} {est : Sig s e M} {out}
    (h : sdr B o rp cs ref est = .ok out) : ∃ out' L, sdr B' o rp cs ref est = .ok out' ∧
      pairwiseSdrLoss B o est ref = .ok L ∧ ∀ m, eTotal (out'.sdr m) = eTotal (out.sdr m) ∧
        (UniqueBest (L m) → out'.sdr m = out.sdr m ∧ (out'.perm.map fun p => p m) = out.perm.map fun p => p m) := by
  obtain ⟨L, p, hL, hp, e1, e2⟩ := sdr_ok h
  have hL' : sdrLossPair B' o est ref = .ok L := (C21_pairwise hB hB' est ref L).1 hL
  have hsol : ∀ m, Solvable (L m) := (solvePermutation_ok_iff B hB.lsa _ _).1 ⟨p, hp⟩
  obtain ⟨p', hp'⟩ := (solvePermutation_ok_iff B' hB'.lsa L (nArgs := 0) (fun i => i.elim0)).2 hsol
  refine ⟨_, L, sdr_of_ok rp cs hL' hp', hL, fun m => ?_⟩
  obtain ⟨-, P, hP⟩ := solvePermutation_spec B hB.lsa _ _ hp m
  obtain ⟨-, P', hP'⟩ := solvePermutation_spec B' hB'.lsa _ _ hp' m
  have v : p.loss m = P.values (L m) := funext hP.loss_eq
  have v' : p'.loss m = P'.values (L m) := funext hP'.loss_eq
  have ht := hP'.best.eTotal_eq (hsol m) hP.best
  constructor
  · rw [e1]
    cases cs
    · simp only [Bool.false_eq_true, if_false]
      rw [v, v']
      have a := (hsol m).eTotal_neg P
      have b := (hsol m).eTotal_neg P'
      unfold Pairing.values at a b ht ⊢
      rw [a, b, ht]
    · simp only [if_true]
      rw [v, v', ht]
  · intro hu
    obtain ⟨k1, k2⟩ := describes_unique hP'.describes hP.describes (hu _ _ hP'.best hP.best)
    have hv : p'.loss m = p.loss m := by
      rw [v, v']
      funext i
      unfold Pairing.values
      rw [(k1 i).1, (k1 i).2]
    rw [e1, e2]
    constructor
    · cases cs
      · simp only [Bool.false_eq_true, if_false, hv]
      · simp only [if_true, hv]
    · cases rp
      · rfl
      · exact congrArg some k2

/-- C21: `bss_eval_sources` with permutation.  The losses of the permutation are the negative SIRs, the
elements of `_base_metrics_bss_eval` computed from the coherences of `square_cosine_metrics`. -/
theorem C21_bss_eval (hB : Covered B) (hB' : Covered B') {ref : Sig s r N} {est : Sig s e M} {out}
    (h : bssEvalSources B o true ref est = .ok out) : ∃ out' sd sa, bssEvalSources B' o true ref est = .ok out' ∧
      sqCosPair B o ref est = .ok (sd, sa) ∧ ∀ m, eTotal (out'.sir m) = eTotal (out.sir m) ∧
        (UniqueBest (fun k j => (baseMetrics o.clampDb (sd m k j) (sa m j)).2.1) →
          out'.sdr m = out.sdr m ∧ out'.sir m = out.sir m ∧ out'.sar m = out.sar m ∧
          (out'.perm.map fun p => p m) = out.perm.map fun p => p m) := by
  unfold bssEvalSources at h ⊢
  rw [if_pos rfl] at h ⊢
  obtain ⟨sd, sa, p, hc, hp, rfl⟩ := bssEvalPerm_ok h
  have hc' := hc
  rw [sqCosPair_backend hB hB'] at hc'
  have hsol : ∀ m, Solvable (negSir o sd sa m) := (solvePermutation_ok_iff B hB.lsa _ _).1 ⟨p, hp⟩
  obtain ⟨p', hp'⟩ := (solvePermutation_ok_iff B' hB'.lsa (negSir o sd sa) (nArgs := 2)
    ![negSdr o sd sa, negSar o sd sa]).2 hsol
  refine ⟨_, sd, sa, bssEvalPerm_of_ok hc' hp', hc, fun m => ?_⟩
  obtain ⟨-, P, hP⟩ := solvePermutation_spec B hB.lsa _ _ hp m
  obtain ⟨-, P', hP'⟩ := solvePermutation_spec B' hB'.lsa _ _ hp' m
  have v : p.loss m = P.values (negSir o sd sa m) := funext hP.loss_eq
  have v' : p'.loss m = P'.values (negSir o sd sa m) := funext hP'.loss_eq
  have ht := hP'.best.eTotal_eq (hsol m) hP.best
  constructor
  · show eTotal (fun k => (p'.loss m k).neg) = eTotal (fun k => (p.loss m k).neg)
    rw [v, v']
    have a := (hsol m).eTotal_neg P
    have b := (hsol m).eTotal_neg P'
    unfold Pairing.values at a b ht ⊢
    rw [a, b, ht]
  · intro hu
    obtain ⟨k1, k2⟩ := describes_unique hP'.describes hP.describes (hu _ _ hP'.best hP.best)
    refine ⟨funext fun i => ?_, funext fun i => ?_, funext fun i => ?_, congrArg some k2⟩
    · show (p'.args 0 m i).neg = (p.args 0 m i).neg
      rw [hP.args_eq, hP'.args_eq, (k1 i).1, (k1 i).2]
    · show (p'.loss m i).neg = (p.loss m i).neg
      rw [hP.loss_eq, hP'.loss_eq, (k1 i).1, (k1 i).2]
    · show (p'.args 1 m i).neg = (p.args 1 m i).neg
      rw [hP.args_eq, hP'.args_eq, (k1 i).1, (k1 i).2]

/-! The theorems apply to torch and to numpy with any correct `scipy.optimize.linear_sum_assignment`. -/

example {lsa : Lsa} (hl : LsaCorrect @lsa) (n2 : Bool) : ∃ out out',
    sdr torchBackend exOpts true false exRef exEst = .ok out ∧
    sdr (numpyBackend @lsa n2) exOpts true false exRef exEst = .ok out' ∧ eTotal (out'.sdr ()) = eTotal (out.sdr ()) := by
  obtain ⟨out, h⟩ := ex_sdr
  obtain ⟨out', L, h', -, hm⟩ := C21_sdr (Or.inl rfl) (Or.inr ⟨_, n2, hl, rfl⟩) true false h
  exact ⟨out, out', h, h', (hm ()).1⟩

example {lsa : Lsa} (hl : LsaCorrect @lsa) (n2 : Bool) : ∃ out out',
    bssEvalSources torchBackend { Ex.opts with clampDb := some 30 } true Ex.ref Ex.est = .ok out ∧
    bssEvalSources (numpyBackend @lsa n2) { Ex.opts with clampDb := some 30 } true Ex.ref Ex.est = .ok out' ∧
      eTotal (out'.sir ()) = eTotal (out.sir ()) := by
  obtain ⟨out, h⟩ := Ex.bssEval_ok (d := 30)
  obtain ⟨out', sd, sa, h', -, hm⟩ := C21_bss_eval (o := { Ex.opts with clampDb := some 30 }) (Or.inl rfl)
    (Or.inr ⟨_, n2, hl, rfl⟩) h
  exact ⟨out, out', h, h', (hm ()).1⟩

/-- A matrix with a unique best pairing. -/
example : UniqueBest (![![fin 0, fin 1], ![fin 1, fin 0]] : Fin 2 → Fin 2 → XR) := by
  have key : ∀ P : Pairing 2 2, BestPairing (![![fin 0, fin 1], ![fin 1, fin 0]] : Fin 2 → Fin 2 → XR) P →
      ∀ i, P.ref i = P.est i := by
    intro P hP
    by_contra hne
    push Not at hne
    obtain ⟨i, hi⟩ := hne
    let Q : Pairing 2 2 := ⟨fun i => i, fun i => i, fun _ _ h => h, fun _ _ h => h⟩
    have hv : ∀ (P : Pairing 2 2) i, P.values (![![fin 0, fin 1], ![fin 1, fin 0]] : Fin 2 → Fin 2 → XR) i =
        fin (if P.ref i = P.est i then 0 else 1) := by
      intro P i
      unfold Pairing.values
      generalize P.ref i = a
      generalize P.est i = b
      fin_cases a <;> fin_cases b <;> simp
    have h0 : ∀ P : Pairing 2 2, nPos (P.values (![![fin 0, fin 1], ![fin 1, fin 0]] : Fin 2 → Fin 2 → XR)) = 0 :=
      fun P => nPos_eq_zero_iff.2 fun k hk => by rw [hv] at hk; cases hk
    have h1 : ∀ P : Pairing 2 2, nNeg (P.values (![![fin 0, fin 1], ![fin 1, fin 0]] : Fin 2 → Fin 2 → XR)) = 0 :=
      fun P => nNeg_eq_zero_iff.2 fun k hk => by rw [hv] at hk; cases hk
    have := hP.fin Q (by rw [h0, h0]) (by rw [h1, h1])
    unfold finSum at this
    simp only [hv, toReal?, Option.getD_some] at this
    rw [show (∑ k, if Q.ref k = Q.est k then (0 : ℝ) else 1) = 0 from Finset.sum_eq_zero fun k _ => if_pos rfl] at this
    have h2 : (1 : ℝ) ≤ ∑ k, if P.ref k = P.est k then (0 : ℝ) else 1 := by
      refine le_trans ?_ (Finset.single_le_sum (f := fun k => if P.ref k = P.est k then (0 : ℝ) else 1)
        (fun k _ => by split <;> norm_num) (Finset.mem_univ i))
      simp [hi]
    linarith
  have all : ∀ P : Pairing 2 2, ∀ k, ∃ i, P.ref i = k := fun P k =>
    (Finite.surjective_of_injective P.ref_inj : Function.Surjective P.ref) k
  intro P P' hP hP' k j
  constructor
  · rintro ⟨i, rfl, rfl⟩
    obtain ⟨i', hi'⟩ := all P' (P.ref i)
    exact ⟨i', hi', by rw [← key P' hP', hi', key P hP]⟩
  · rintro ⟨i, rfl, rfl⟩
    obtain ⟨i', hi'⟩ := all P (P'.ref i)
    exact ⟨i', hi', by rw [← key P hP, hi', key P' hP']⟩

end FBE.Props
