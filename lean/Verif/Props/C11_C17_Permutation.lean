import Verif.Proofs.Api
import Verif.Proofs.ExampleRuns

/-!
# C11–C13, C15–C17, C20, C25 — permutation solving in the public functions

`pairwise_sdr_loss` (`pairwiseSdrLoss`) gives the matrix of negative SDRs of all (reference,
estimate) pairs; `sdr`, `sdr_pit_loss` and `bss_eval_sources` choose a pairing.  `Covered B`: the
torch back end, or the numpy back end with a `scipy.optimize.linear_sum_assignment` that is correct
on finite matrices.
-/

namespace FBE.Props

open Spec XR

variable {s : List ℕ} {r e N M : ℕ} {B : Backend} {o : Opts} {ref : Sig s r N} {est : Sig s e M}

/-- **C11, C13, C15, C16.**  Whenever `sdr(ref, est, return_perm=True)` returns, for every batch item
the permutation describes a pairing of references with estimates, every reported SDR is the entry of
the pairwise matrix at that pairing (infinities included), no pairing has a larger total SDR, and the
pairing is best in the refined sense (number of infinities first, then the finite rest). -/
theorem C11_sdr_best_pairing (hB : Covered B) {out} (h : sdr B o true false ref est = .ok out) :
    ∃ L perm, pairwiseSdrLoss B o est ref = .ok L ∧ out.perm = some perm ∧
      ∀ m, ∃ P : Pairing r e, Describes (perm m) P ∧ BestPairing (L m) P ∧
        (∀ k, out.sdr m k = (L m (P.ref k) (P.est k)).neg) ∧
        ∀ P' : Pairing r e, eTotal (P'.values fun k j => (L m k j).neg) ≤ eTotal (out.sdr m) := by
  obtain ⟨L, p, hL, hp, h1, h2⟩ := sdr_ok h
  refine ⟨L, p.perm, hL, h2, fun m => ?_⟩
  obtain ⟨hsol, P, hP⟩ := solvePermutation_spec B hB.lsa L _ hp m
  have hv : ∀ k, out.sdr m k = (L m (P.ref k) (P.est k)).neg := by
    intro k
    rw [h1]
    show (p.loss m k).neg = _
    rw [hP.loss_eq]
  refine ⟨P, hP.describes, hP.best, hv, fun P' => ?_⟩
  have : out.sdr m = P.values fun k j => (L m k j).neg := funext hv
  rw [this, hsol.eTotal_neg, hsol.eTotal_neg]
  exact EReal.neg_le_neg_iff.2 (hP.best.eTotal_le hsol P')

example : ∃ out L perm, sdr torchBackend Ex.opts true false Ex.ref Ex.est = .ok out ∧
    pairwiseSdrLoss torchBackend Ex.opts Ex.est Ex.ref = .ok L ∧ out.perm = some perm ∧
    ∀ m, ∃ P : Pairing 2 2, Describes (perm m) P ∧ ∀ k, out.sdr m k = (L m (P.ref k) (P.est k)).neg := by
  obtain ⟨out, h⟩ := Ex.sdr_cl none true false
  obtain ⟨L, perm, hL, hp, hm⟩ := C11_sdr_best_pairing Ex.covered h
  exact ⟨out, L, perm, h, hL, hp, fun m => (hm m).imp fun P hP => ⟨hP.1, hP.2.2.1⟩⟩

/-- **C11.**  `sdr_pit_loss` is the least total loss over all pairings. -/
theorem C11_sdr_pit_loss_minimum (hB : Covered B) {out} (h : sdrPitLoss B o est ref = .ok out) :
    ∃ L, pairwiseSdrLoss B o est ref = .ok L ∧
      ∀ m, IsLeast (Set.range fun P : Pairing r e => eTotal (P.values (L m))) (eTotal (out.sdr m)) := by
  obtain ⟨L, p, hL, hp, h1, h2⟩ := sdr_ok h
  refine ⟨L, hL, fun m => ?_⟩
  obtain ⟨hsol, P, hP⟩ := solvePermutation_spec B hB.lsa L _ hp m
  have : out.sdr m = P.values (L m) := by
    funext k
    rw [h1]
    exact hP.loss_eq k
  rw [this]
  exact ⟨⟨P, rfl⟩, fun t ⟨P', hP'⟩ => hP' ▸ hP.best.eTotal_le hsol P'⟩

example : ∃ out L, sdrPitLoss torchBackend Ex.opts Ex.est Ex.ref = .ok out ∧
    pairwiseSdrLoss torchBackend Ex.opts Ex.est Ex.ref = .ok L ∧
    ∀ m, IsLeast (Set.range fun P : Pairing 2 2 => eTotal (P.values (L m))) (eTotal (out.sdr m)) := by
  obtain ⟨out, h⟩ := Ex.sdr_cl none false true
  obtain ⟨L, hL, hm⟩ := C11_sdr_pit_loss_minimum (o := Ex.opts) Ex.covered h
  exact ⟨out, L, h, hL, hm⟩

/-- **C12, C13, C15.**  Whenever `bss_eval_sources` (with permutation) returns, for every batch item
one pairing explains all outputs: `perm` describes it, SDR, SIR and SAR are the metrics of the pairs,
and no pairing has a larger total SIR; infinite SIRs are ranked as described in `BestPairing`. -/
theorem C12_bss_eval_best_pairing (hB : Covered B) {out}
    (h : bssEvalSources B o true ref est = .ok out) :
    ∃ cohSdr cohSar perm, sqCosPair B o ref est = .ok (cohSdr, cohSar) ∧ out.perm = some perm ∧
      ∀ m, ∃ P : Pairing r e, Describes (perm m) P ∧
        BestPairing (fun k j => (baseMetrics o.clampDb (cohSdr m k j) (cohSar m j)).2.1) P ∧
        (∀ k, out.sdr m k = (baseMetrics o.clampDb (cohSdr m (P.ref k) (P.est k)) (cohSar m (P.est k))).1.neg ∧
          out.sir m k = (baseMetrics o.clampDb (cohSdr m (P.ref k) (P.est k)) (cohSar m (P.est k))).2.1.neg ∧
          out.sar m k = (baseMetrics o.clampDb (cohSdr m (P.ref k) (P.est k)) (cohSar m (P.est k))).2.2.neg) ∧
        ∀ P' : Pairing r e,
          eTotal (P'.values fun k j => (baseMetrics o.clampDb (cohSdr m k j) (cohSar m j)).2.1.neg) ≤
            eTotal (out.sir m) := by
  unfold bssEvalSources at h
  rw [if_pos rfl] at h
  obtain ⟨sd, sa, p, hL, hp, rfl⟩ := bssEvalPerm_ok h
  refine ⟨sd, sa, p.perm, hL, rfl, fun m => ?_⟩
  obtain ⟨hsol, P, hP⟩ := solvePermutation_spec B hB.lsa _ _ hp m
  have hv : ∀ k, (p.loss m k).neg = (negSir o sd sa m (P.ref k) (P.est k)).neg := fun k => by
    rw [hP.loss_eq]
  refine ⟨P, hP.describes, hP.best, fun k => ⟨?_, hv k, ?_⟩, fun P' => ?_⟩
  · show (p.args 0 m k).neg = _
    rw [hP.args_eq 0 k]; rfl
  · show (p.args 1 m k).neg = _
    rw [hP.args_eq 1 k]; rfl
  · have : (fun k => (p.loss m k).neg) = P.values fun k j => (negSir o sd sa m k j).neg := funext hv
    show _ ≤ eTotal fun k => (p.loss m k).neg
    rw [this, hsol.eTotal_neg]
    refine (le_of_eq (hsol.eTotal_neg P')).trans ?_
    exact EReal.neg_le_neg_iff.2 (hP.best.eTotal_le hsol P')

example : ∃ out sd sa perm, bssEvalSources torchBackend Ex.opts true Ex.ref Ex.est = .ok out ∧
    sqCosPair torchBackend Ex.opts Ex.ref Ex.est = .ok (sd, sa) ∧ out.perm = some perm ∧
    ∀ m, ∃ P : Pairing 2 2, Describes (perm m) P ∧
      BestPairing (fun k j => (baseMetrics none (sd m k j) (sa m j)).2.1) P := by
  obtain ⟨out, h⟩ := Ex.bss_cl none true
  obtain ⟨sd, sa, perm, hs, hp, hm⟩ := C12_bss_eval_best_pairing (o := Ex.opts) Ex.covered h
  exact ⟨out, sd, sa, perm, h, hs, hp, fun m => (hm m).imp fun P hP => ⟨hP.1, hP.2.1⟩⟩

/-- **C13.**  The permutation has no repeated entry and its entries are estimate indices if there
are at most as many references as estimates, reference indices otherwise. -/
theorem C13_permutation_valid (hB : Covered B) {out}
    (h : bssEvalSources B o true ref est = .ok out ∨
      ∃ cs out', sdr B o true cs ref est = .ok out' ∧ out'.perm = out.perm) :
    ∃ perm, out.perm = some perm ∧ ∀ m, Function.Injective (perm m) ∧
      ∀ k, perm m k < (if r ≤ e then e else r) := by
  have key : ∀ (perm : Fin (min r e) → ℕ) (P : Pairing r e), Describes perm P →
      Function.Injective perm ∧ ∀ k, perm k < (if r ≤ e then e else r) := by
    intro perm P hP
    by_cases hre : r ≤ e
    · rw [if_pos hre]
      refine ⟨fun a b hab => P.est_inj (Fin.ext ?_), fun k => ?_⟩
      · rw [← (hP.est hre a).2, ← (hP.est hre b).2, hab]
      · rw [(hP.est hre k).2]; exact (P.est k).isLt
    · rw [if_neg hre]
      push Not at hre
      refine ⟨fun a b hab => P.ref_inj (Fin.ext ?_), fun k => ?_⟩
      · rw [← (hP.ref hre a).2, ← (hP.ref hre b).2, hab]
      · rw [(hP.ref hre k).2]; exact (P.ref k).isLt
  rcases h with h | ⟨cs, out', h, ho⟩
  · obtain ⟨sd, sa, perm, h1, h2, h3⟩ := C12_bss_eval_best_pairing hB h
    exact ⟨perm, h2, fun m => (h3 m).elim fun P hP => key _ P hP.1⟩
  · obtain ⟨L, p, hL, hp, h1, h2⟩ := sdr_ok h
    refine ⟨p.perm, ho ▸ h2, fun m => ?_⟩
    obtain ⟨-, P, hP⟩ := solvePermutation_spec B hB.lsa L _ hp m
    exact key _ P hP.describes

/-- **C17.**  `sdr` and `sdr_pit_loss` return exactly when the pairwise losses can be computed and no
batch item contains a NaN, both infinities, or only infinities. -/
theorem C17_sdr_returns_iff (hB : Covered B) (returnPerm changeSign : Bool) :
    (∃ out, sdr B o returnPerm changeSign ref est = .ok out) ↔
      ∃ L, pairwiseSdrLoss B o est ref = .ok L ∧ ∀ m, Solvable (L m) := by
  constructor
  · rintro ⟨out, h⟩
    obtain ⟨L, p, hL, hp, -⟩ := sdr_ok h
    exact ⟨L, hL, (solvePermutation_ok_iff B hB.lsa L _).1 ⟨p, hp⟩⟩
  · rintro ⟨L, hL, hs⟩
    obtain ⟨p, hp⟩ := (solvePermutation_ok_iff B hB.lsa L (nArgs := 0) fun i => i.elim0).2 hs
    exact ⟨_, sdr_of_ok _ _ hL hp⟩

example : ∃ L, pairwiseSdrLoss torchBackend Ex.opts Ex.est Ex.ref = .ok L ∧ ∀ m, Solvable (L m) :=
  (C17_sdr_returns_iff Ex.covered true false).1 (Ex.sdr_cl none true false)

/-- **C17.**  `bss_eval_sources` with permutation returns exactly when the coherences can be computed
and the negative SIRs contain no NaN, not both infinities, and not only infinities. -/
theorem C17_bss_eval_returns_iff (hB : Covered B) :
    (∃ out, bssEvalSources B o true ref est = .ok out) ↔
      ∃ cohSdr cohSar, sqCosPair B o ref est = .ok (cohSdr, cohSar) ∧
        ∀ m, Solvable fun k j => (baseMetrics o.clampDb (cohSdr m k j) (cohSar m j)).2.1 := by
  unfold bssEvalSources
  rw [if_pos rfl]
  constructor
  · rintro ⟨out, h⟩
    obtain ⟨sd, sa, p, hL, hp, -⟩ := bssEvalPerm_ok h
    exact ⟨sd, sa, hL, (solvePermutation_ok_iff B hB.lsa _ _).1 ⟨p, hp⟩⟩
  · rintro ⟨sd, sa, hL, hs⟩
    obtain ⟨p, hp⟩ := (solvePermutation_ok_iff B hB.lsa (negSir o sd sa)
      (nArgs := 2) ![negSdr o sd sa, negSar o sd sa]).2 hs
    exact ⟨_, bssEvalPerm_of_ok hL hp⟩

example : ∃ sd sa, sqCosPair torchBackend Ex.opts Ex.ref Ex.est = .ok (sd, sa) ∧
    ∀ m, Solvable fun k j => (baseMetrics none (sd m k j) (sa m j)).2.1 :=
  (C17_bss_eval_returns_iff (o := Ex.opts) Ex.covered).1 (Ex.bss_cl none true)

/-- **C17.**  With `clamp_db`, `sdr` never fails in permutation solving. -/
theorem C17_sdr_clamped_never_fails (hB : Covered B) (returnPerm changeSign : Bool) {d : ℝ}
    (hd : o.clampDb = some d) {L} (hL : pairwiseSdrLoss B o est ref = .ok L) :
    ∃ out, sdr B o returnPerm changeSign ref est = .ok out := by
  refine (C17_sdr_returns_iff hB _ _).2 ⟨L, hL, fun m => solvable_of_finite fun k j => ?_⟩
  obtain ⟨coh, -, rfl⟩ := sdrLossPair_entry hL
  rw [hd]
  exact coherenceToNegSdr_finite d (by simp)

open Classical in
/-- **C20, C17.**  The exception when the losses cannot be assigned: that of the first offending batch
item; `ValueError` for a NaN or for infinities of both signs.  (For a matrix with only infinities of
one sign numpy raises `ValueError` and torch `RuntimeError`.) -/
theorem C20_unsolvable_raises (hB : Covered B) (returnPerm changeSign : Bool) {L}
    (hL : pairwiseSdrLoss B o est ref = .ok L) (hbad : ∃ m, ¬ Solvable (L m)) :
    ∃ m, ¬ Solvable (L m) ∧ sdr B o returnPerm changeSign ref est =
      .error (if (∀ k j, L m k j = pinf) ∨ (∀ k j, L m k j = ninf) then B.shapeErr else .valueError) := by
  obtain ⟨pre, m, post, h1, h2, h3⟩ := exists_first (fun m => Solvable (L m)) (ndindex s)
    (hbad.elim fun m hm => ⟨m, mem_ndindex m, hm⟩)
  have := solvePermutation_err B hB.lsa L (nArgs := 0) (fun i => i.elim0) pre m post h1 h2 h3
  refine ⟨m, h3, ?_⟩
  unfold sdr
  have hL' : sdrLossPair B o est ref = .ok L := hL
  rw [hL']
  simp only
  rw [this]
  rfl

-- a perfect estimate of a single source: `-inf` only
example : sdr torchBackend { filterLength := 1 } true false (fun _ _ _ => 1 : Sig [] 1 1)
    (fun _ _ _ => 1 : Sig [] 1 1) = .error .runtimeError := by
  obtain ⟨m, -, h⟩ := C20_unsolvable_raises Ex.covered true false (Ex.perfect_loss torchBackend)
    ⟨(), fun hs => by
      obtain ⟨i, j, x, hx⟩ := hs.some_finite ⟨0, 0, Or.inr rfl⟩
      cases hx⟩
  rw [h, if_pos (Or.inr fun _ _ => rfl)]
  rfl

/-- **C20.**  A NaN in a loss matrix gives `ValueError`, for every permutation-solving function: it
never hangs and never returns a permutation.  (With the torch package, provided no other batch item
consists of infinities of one sign only; those raise `RuntimeError` if they come first.) -/
theorem C20_nan_raises_valueError (hB : Covered B) {nArgs : ℕ} (loss : BIdx s → Fin r → Fin e → XR)
    (args : Fin nArgs → BIdx s → Fin r → Fin e → XR) {m : BIdx s} {k : Fin r} {j : Fin e}
    (hnan : loss m k j = nan) (hinf : B ≠ torchBackend ∨
      ∀ m', ¬ ((∀ k j, loss m' k j = pinf) ∨ (∀ k j, loss m' k j = ninf))) :
    solvePermutation B loss args = .error .valueError := by
  have hm : ¬ Solvable (loss m) := fun h => h.no_nan k j hnan
  obtain ⟨pre, m', post, h1, h2, h3⟩ := exists_first (fun m => Solvable (loss m)) (ndindex s)
    ⟨m, mem_ndindex m, hm⟩
  rw [solvePermutation_err B hB.lsa loss args pre m' post h1 h2 h3]
  unfold itemErr
  split
  · rename_i h
    rcases hB with rfl | ⟨lsa, n2, -, rfl⟩
    · exact absurd h (hinf.resolve_left (fun h => h rfl) m')
    · rfl
  · rfl

/-- **C20.**  A NaN anywhere in a batch: an exception, never a result. -/
theorem C20_nan_never_returns (hB : Covered B) {nArgs : ℕ} (loss : BIdx s → Fin r → Fin e → XR)
    (args : Fin nArgs → BIdx s → Fin r → Fin e → XR) {m : BIdx s} {k : Fin r} {j : Fin e}
    (hnan : loss m k j = nan) : ∃ err, solvePermutation B loss args = .error err ∧
      (err = .valueError ∨ err = .runtimeError) := by
  have hm : ¬ Solvable (loss m) := fun h => h.no_nan k j hnan
  obtain ⟨pre, m', post, h1, h2, h3⟩ := exists_first (fun m => Solvable (loss m)) (ndindex s)
    ⟨m, mem_ndindex m, hm⟩
  refine ⟨_, solvePermutation_err B hB.lsa loss args pre m' post h1 h2 h3, ?_⟩
  unfold itemErr
  split
  · rcases hB with rfl | ⟨lsa, n2, h, rfl⟩
    · exact Or.inr rfl
    · exact Or.inl rfl
  · exact Or.inl rfl

example : ∃ err, solvePermutation torchBackend (s := []) (nArgs := 0) (r := 2) (e := 2)
    (fun _ => ![![fin 1, pinf], ![nan, pinf]]) (fun i => i.elim0) = .error err ∧
    (err = .valueError ∨ err = .runtimeError) :=
  C20_nan_never_returns (m := ()) (k := 1) (j := 0) Ex.covered _ _ rfl

/-- **C25.**  `sdr_pit_loss(est, ref) = -sdr(ref, est)`; `change_sign` flips the sign only;
`return_perm` changes nothing else; all of them succeed or fail together, with the same exception. -/
theorem C25_variants (rp cs : Bool) :
    sdr B o rp cs ref est = (match sdr B o true false ref est with
      | .error err => .error err
      | .ok out => .ok ⟨if cs then fun m k => (out.sdr m k).neg else out.sdr,
          if rp then out.perm else none⟩) ∧
    sdrPitLoss B o est ref = (match sdr B o true false ref est with
      | .error err => .error err
      | .ok out => .ok ⟨fun m k => (out.sdr m k).neg, none⟩) ∧
    pairwiseSdrLoss B o est ref = sdrLossPair B o est ref := by
  have hneg : ∀ x : XR, x.neg.neg = x := fun x => by cases x <;> simp [neg]
  have key : ∀ rp cs, sdr B o rp cs ref est = (match sdr B o true false ref est with
      | .error err => .error err
      | .ok out => .ok ⟨if cs then fun m k => (out.sdr m k).neg else out.sdr,
          if rp then out.perm else none⟩) := by
    intro rp cs
    unfold sdr
    cases sdrLossPair B o est ref with
    | error err => rfl
    | ok L =>
      simp only
      cases solvePermutation B L (nArgs := 0) (fun i => i.elim0) with
      | error err => rfl
      | ok p => cases cs <;> cases rp <;> simp [hneg]
  refine ⟨key rp cs, ?_, rfl⟩
  unfold sdrPitLoss
  rw [key false true]
  rfl

example : ∃ out out', sdr torchBackend Ex.opts true false Ex.ref Ex.est = .ok out ∧
    sdrPitLoss torchBackend Ex.opts Ex.est Ex.ref = .ok out' ∧ ∀ m k, out'.sdr m k = (out.sdr m k).neg := by
  obtain ⟨out, h⟩ := Ex.sdr_cl none true false
  have h' : sdr torchBackend Ex.opts true false Ex.ref Ex.est = .ok out := h
  have hv := (C25_variants (B := torchBackend) (o := Ex.opts) (ref := Ex.ref) (est := Ex.est) true false).2.1
  rw [h'] at hv
  exact ⟨out, _, h', hv, fun _ _ => rfl⟩

/-! ### concrete instances -/

/-- Any correct assignment routine, to instantiate the numpy back end. -/
example : Covered (numpyBackend @torchLsa true) := Or.inr ⟨_, _, torchLsa_correct, rfl⟩

section examples

/-- Two references, three estimates of two samples. -/
noncomputable def exRef : Sig [] 2 2 := fun _ => ![![1, 0], ![1, 1]]
noncomputable def exEst : Sig [] 3 2 := fun _ => ![![1, 2], ![3, -1], ![2, 2]]
noncomputable def exOpts : Opts := { filterLength := 1, clampDb := some 30 }

theorem ex_loss (B : Backend) : ∃ L, pairwiseSdrLoss B exOpts exEst exRef = .ok L :=
  ⟨_, rfl⟩

-- `sdr` returns on these signals, so the hypotheses of C11, C13, C25 are met
theorem ex_sdr : ∃ out, sdr torchBackend exOpts true false exRef exEst = .ok out :=
  (ex_loss torchBackend).elim fun _ h => C17_sdr_clamped_never_fails (Or.inl rfl) _ _ rfl h

example : ∃ out perm, sdr torchBackend exOpts true false exRef exEst = .ok out ∧
    out.perm = some perm ∧ Function.Injective (perm ()) ∧ ∀ k, perm () k < 3 := by
  obtain ⟨out, h⟩ := ex_sdr
  obtain ⟨perm, h1, h2⟩ := C13_permutation_valid (B := torchBackend) (o := exOpts) (ref := exRef)
    (est := exEst) (Or.inl rfl) (out := ⟨out.sdr, out.sdr, out.sdr, out.perm⟩)
    (Or.inr ⟨false, out, h, rfl⟩)
  exact ⟨out, perm, h, h1, (h2 ()).1, (h2 ()).2⟩

-- the hypotheses of the NaN theorems
example : solvePermutation torchBackend (s := []) (nArgs := 0) (r := 1) (e := 2)
    (fun _ _ => ![fin 1, nan]) (fun i => i.elim0) = .error .valueError :=
  C20_nan_raises_valueError (m := ()) (k := 0) (j := 1) (Or.inl rfl) _ _ rfl (Or.inr fun _ h => by
    rcases h with h | h <;> exact absurd (h 0 0) (by simp))

-- `Solvable` separates: infinities of one sign next to finite entries are fine, both signs are not
example : Solvable (![![pinf, fin 1], ![fin 2, fin 3]] : Fin 2 → Fin 2 → XR) where
  no_nan := by intro i j; fin_cases i <;> fin_cases j <;> simp
  one_sign := by
    rintro ⟨-, i, j, h⟩
    revert h
    fin_cases i <;> fin_cases j <;> simp
  some_finite := fun _ => ⟨0, 1, 1, rfl⟩

example : ¬ Solvable (![![pinf, ninf]] : Fin 1 → Fin 2 → XR) :=
  fun h => h.one_sign ⟨⟨0, 0, rfl⟩, 0, 1, rfl⟩

example : ¬ Solvable (![![pinf, pinf]] : Fin 1 → Fin 2 → XR) := fun h => by
  obtain ⟨i, j, x, hx⟩ := h.some_finite ⟨0, 0, Or.inl rfl⟩
  revert hx
  fin_cases i; fin_cases j <;> simp

end examples

end FBE.Props
