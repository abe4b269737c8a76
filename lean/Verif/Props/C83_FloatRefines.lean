import Verif.Proofs.RoundedCgExists
import Verif.Proofs.Diag

/-!
# C83 — the computed values tend to those of exact arithmetic, for both solvers

Whenever the call succeeds in exact arithmetic, the value computed in floating point arithmetic, limited to any range of decibels, is as
close as wanted to the exact one if the arithmetic is fine enough.  No hypothesis on the conditioning, the levels or the lengths of the
signals, and for `use_cg_iter=it` with any number of iterations.
-/

namespace FBE.Props

open Spec XR Rounded

variable {N r e c : ℕ} {s : List ℕ} {B : Backend} {o : Opts}

/-- **C83.**  `sdr_loss` for pairs, direct solver. -/
theorem C83_sdr (hB : Covered B) (hcg : o.useCgIter = none) (hcl : o.clampDb = none)
    (hLn : o.filterLength ≤ 2 ^ Nat.clog 2 (2 * N - 1)) {ref : Sig s r N} {est : Sig s e N} {L : BIdx s → Fin r → Fin e → XR}
    (h : sdrLossPair B o est ref = .ok L) {d ε : ℝ} (hd : 0 ≤ d) (hε : 0 < ε) :
    ∃ η > 0, ∀ (p : ℕ) (E : Machine p) (A : Accuracy), Fine η p A 0 → ∀ m k j v,
      IsSdrLoss E A o.filterLength o.zeroMean o.loadDiag none (est m j) (ref m k) v → CloseIn d ε v.neg (L m k j).neg := by
  unfold sdrLossPair at h
  split at h
  · cases h
  rename_i coh0 h0
  cases h
  obtain ⟨η, hη, H⟩ := uniform_eta (Y := BIdx s × Fin r × Fin e)
    (P := fun y η => ∀ (p : ℕ) (E : Machine p) (A : Accuracy), Fine η p A 0 → ∀ v,
      IsSdrLoss E A o.filterLength o.zeroMean o.loadDiag none (est y.1 y.2.2) (ref y.1 y.2.1) v →
        CloseIn d ε v.neg (FBE.coherenceToNegSdr o.clampDb (fin (coh0 y.1 y.2.1 y.2.2))).neg)
    (fun y η η' hle hP p E A hF => hP p E A (hF.mono hle)) (fun ⟨m, k, j⟩ => by
      obtain ⟨η, hη, H⟩ := metric_fine (X := ℝ) (Y := Unit) (g := fun x _ => x) (c := fun _ => coh0 m k j)
        (R := fun E A _ x => IsSdrCoherence E A o.filterLength o.zeroMean o.loadDiag (ref m k) (est m j) x)
        (fun hS hx _ => sdrCoherence_tends hS hB hcg hLn h0 m k j hx) hd hε
      refine ⟨η, hη, fun p E A hF v hv => ?_⟩
      obtain ⟨coh, hcoh, rfl⟩ := hv
      rw [hcl]
      exact H p p E E A 0 hF hF.unit coh hcoh ())
  exact ⟨η, hη, fun p E A hF m k j v hv => H (m, k, j) p E A hF v hv⟩

/-- **C83.**  `sdr_loss` for pairs, `use_cg_iter=it`. -/
theorem C83_sdr_cg (hB : Covered B) {it : ℕ} (hcg : o.useCgIter = some it) (hcl : o.clampDb = none)
    (hLn : o.filterLength ≤ 2 ^ Nat.clog 2 (2 * N - 1)) {ref : Sig s r N} {est : Sig s e N} {L : BIdx s → Fin r → Fin e → XR}
    (h : sdrLossPair B o est ref = .ok L) {d ε : ℝ} (hd : 0 ≤ d) (hε : 0 < ε) :
    ∃ η > 0, ∀ (p p' : ℕ) (E : Machine p) (E' : Machine p') (A : Accuracy) (ω : ℝ), Fine η p A ω → (2 : ℝ) ^ (-p' : ℤ) ≤ η →
      ∀ m k j v, IsSdrLossCg E E' A ω o.filterLength o.zeroMean o.loadDiag none it (est m j) (ref m k) v →
        CloseIn d ε v.neg (L m k j).neg := by
  unfold sdrLossPair at h
  split at h
  · cases h
  rename_i coh0 h0
  cases h
  obtain ⟨η, hη, H⟩ := uniform_eta (Y := BIdx s × Fin r × Fin e)
    (P := fun y η => ∀ (p p' : ℕ) (E : Machine p) (E' : Machine p') (A : Accuracy) (ω : ℝ), Fine η p A ω → (2 : ℝ) ^ (-p' : ℤ) ≤ η →
      ∀ v, IsSdrLossCg E E' A ω o.filterLength o.zeroMean o.loadDiag none it (est y.1 y.2.2) (ref y.1 y.2.1) v →
        CloseIn d ε v.neg (FBE.coherenceToNegSdr o.clampDb (fin (coh0 y.1 y.2.1 y.2.2))).neg)
    (fun y η η' hle hP p p' E E' A ω hF hp => hP p p' E E' A ω (hF.mono hle) (hp.trans hle)) (fun ⟨m, k, j⟩ => by
      obtain ⟨η, hη, H⟩ := metric_fine (X := ℝ) (Y := Unit) (g := fun x _ => x) (c := fun _ => coh0 m k j)
        (R := fun E A ω x => IsSdrCoherenceCg E A ω o.filterLength o.zeroMean o.loadDiag it (ref m k) (est m j) x)
        (fun hS hx _ => sdrCoherenceCg_tends hS hB hcg hLn h0 m k j hx) hd hε
      refine ⟨η, hη, fun p p' E E' A ω hF hp v hv => ?_⟩
      obtain ⟨coh, hcoh, rfl⟩ := hv
      rw [hcl]
      exact H p p' E E' A ω hF hp coh hcoh ())
  exact ⟨η, hη, fun p p' E E' A ω hF hp m k j v hv => H (m, k, j) p p' E E' A ω hF hp v hv⟩

theorem lossDiag_of_pair (hb : o.filterLength = 1 ∨ o.useCgIter ≠ none ∨ B.stackedVectors = true) {ref est : Sig s c N}
    {L : BIdx s → Fin c → XR} (h : sdrLossDiag B o est ref = .ok L) :
    ∃ L', sdrLossPair B o est ref = .ok L' ∧ ∀ m k, L m k = L' m k k := by
  unfold sdrLossDiag at h
  rw [sdrCohDiag_eq B o hb] at h
  unfold sdrLossPair
  cases hp : sdrCohPair B o ref est with
  | error err =>
    rw [hp] at h
    cases h
  | ok coh =>
    rw [hp] at h
    cases h
    exact ⟨_, rfl, fun m k => rfl⟩

/-- **C83.**  `sdr_loss` for references and estimates in the same order, direct solver, with an installation whose
`numpy.linalg.solve` accepts stacks of vectors (C43). -/
theorem C83_sdr_diag (hB : Covered B) (hb : o.filterLength = 1 ∨ B.stackedVectors = true) (hcg : o.useCgIter = none)
    (hcl : o.clampDb = none) (hLn : o.filterLength ≤ 2 ^ Nat.clog 2 (2 * N - 1)) {ref est : Sig s c N} {L : BIdx s → Fin c → XR}
    (h : sdrLossDiag B o est ref = .ok L) {d ε : ℝ} (hd : 0 ≤ d) (hε : 0 < ε) :
    ∃ η > 0, ∀ (p : ℕ) (E : Machine p) (A : Accuracy), Fine η p A 0 → ∀ m k v,
      IsSdrLoss E A o.filterLength o.zeroMean o.loadDiag none (est m k) (ref m k) v → CloseIn d ε v.neg (L m k).neg := by
  obtain ⟨L', h', hL⟩ := lossDiag_of_pair (hb.imp_right Or.inr) h
  obtain ⟨η, hη, H⟩ := C83_sdr hB hcg hcl hLn h' hd hε
  exact ⟨η, hη, fun p E A hF m k v hv => by rw [hL]; exact H p E A hF m k k v hv⟩

/-- **C83.**  `sdr_loss` for references and estimates in the same order, `use_cg_iter=it`. -/
theorem C83_sdr_cg_diag (hB : Covered B) {it : ℕ} (hcg : o.useCgIter = some it) (hcl : o.clampDb = none)
    (hLn : o.filterLength ≤ 2 ^ Nat.clog 2 (2 * N - 1)) {ref est : Sig s c N} {L : BIdx s → Fin c → XR}
    (h : sdrLossDiag B o est ref = .ok L) {d ε : ℝ} (hd : 0 ≤ d) (hε : 0 < ε) :
    ∃ η > 0, ∀ (p p' : ℕ) (E : Machine p) (E' : Machine p') (A : Accuracy) (ω : ℝ), Fine η p A ω → (2 : ℝ) ^ (-p' : ℤ) ≤ η →
      ∀ m k v, IsSdrLossCg E E' A ω o.filterLength o.zeroMean o.loadDiag none it (est m k) (ref m k) v →
        CloseIn d ε v.neg (L m k).neg := by
  obtain ⟨L', h', hL⟩ := lossDiag_of_pair (Or.inr (Or.inl (by rw [hcg]; simp))) h
  obtain ⟨η, hη, H⟩ := C83_sdr_cg hB hcg hcl hLn h' hd hε
  exact ⟨η, hη, fun p p' E E' A ω hF hp m k v hv => by rw [hL]; exact H p p' E E' A ω hF hp m k k v hv⟩

/-- **C83.**  `bss_eval_sources(..., compute_permutation=False)`, direct solver, with such an installation.  The SIR if the SAR is not
`-inf`. -/
theorem C83_bss (hB : Covered B) (hb : o.filterLength = 1 ∨ B.stackedVectors = true) (hcg : o.useCgIter = none)
    (hcl : o.clampDb = none) {ref est : Sig s c N} {out : BssOut s c}
    (h : bssEvalNoPerm B o ref est = .ok out) {d ε : ℝ} (hd : 0 ≤ d) (hε : 0 < ε) :
    ∃ η > 0, ∀ (p : ℕ) (E : Machine p) (A : Accuracy), Fine η p A 0 → ∀ m sdr sir sar,
      IsBssLosses E A o.filterLength o.zeroMean o.loadDiag none (ref m) (est m) sdr sir sar →
        ∀ k, CloseIn d ε (sdr k k).neg (out.sdr m k) ∧ (out.sar m k ≠ ninf → CloseIn d ε (sir k k).neg (out.sir m k)) ∧
          CloseIn d ε (sar k k).neg (out.sar m k) := by
  unfold bssEvalNoPerm at h
  split at h
  · cases h
  rename_i sd sa h0
  cases h
  rw [sqCosDiag_eq B o (hb.imp_right fun hb => ⟨hcg, hb⟩)] at h0
  cases hp : sqCosPair B o ref est with
  | error err =>
    rw [hp] at h0
    cases h0
  | ok q =>
  obtain ⟨sd0, sa0⟩ := q
  rw [hp] at h0
  cases h0
  simp only [hcl]
  obtain ⟨η, hη, H⟩ := uniform_eta (Y := BIdx s × Fin c)
    (P := fun y η => ∀ (p : ℕ) (E : Machine p) (A : Accuracy), Fine η p A 0 → ∀ sdr sir sar,
      IsBssLosses E A o.filterLength o.zeroMean o.loadDiag none (ref y.1) (est y.1) sdr sir sar →
        CloseIn d ε (sdr y.2 y.2).neg (FBE.baseMetrics none (sd0 y.1 y.2 y.2) (sa0 y.1 y.2)).1.neg ∧
        (0 < sa0 y.1 y.2 → CloseIn d ε (sir y.2 y.2).neg (FBE.baseMetrics none (sd0 y.1 y.2 y.2) (sa0 y.1 y.2)).2.1.neg) ∧
        CloseIn d ε (sar y.2 y.2).neg (FBE.baseMetrics none (sd0 y.1 y.2 y.2) (sa0 y.1 y.2)).2.2.neg)
    (fun y η η' hle hP p E A hF => hP p E A (hF.mono hle)) (fun ⟨m, k⟩ => by
      obtain ⟨η, hη, H⟩ := bss_fine (X := (Fin c → Fin c → ℝ) × (Fin c → ℝ)) (g := fun x => x.1 k k) (g' := fun x => x.2 k)
        (q := sd0 m k k) (s := sa0 m k)
        (R := fun E A _ x => IsCoherences E A o.filterLength o.zeroMean o.loadDiag (ref m) (est m) x.1 x.2)
        (fun hS hx => by
          obtain ⟨t1, t2⟩ := coherences_tends hS hB hcg hp m hx
          exact ⟨t1 k k, t2 k⟩) hd hε
      refine ⟨η, hη, fun p E A hF sdr sir sar hv => ?_⟩
      obtain ⟨c1, c2, hcoh, h1, h2, h3⟩ := hv
      rw [h1, h2, h3]
      exact H p p E E A 0 hF hF.unit (c1, c2) hcoh)
  refine ⟨η, hη, fun p E A hF m sdr sir sar hv k => ?_⟩
  obtain ⟨k1, k2, k3⟩ := H (m, k) p E A hF sdr sir sar hv
  exact ⟨k1, fun hs => k2 (pos_of_sar hs), k3⟩

/-- **C83.**  `bss_eval_sources(..., compute_permutation=False, use_cg_iter=it)`. -/
theorem C83_bss_cg (hB : Covered B) {it : ℕ} (hcg : o.useCgIter = some it) (hcl : o.clampDb = none) {ref est : Sig s c N}
    {out : BssOut s c} (h : bssEvalNoPerm B o ref est = .ok out) {d ε : ℝ} (hd : 0 ≤ d) (hε : 0 < ε) :
    ∃ η > 0, ∀ (p p' : ℕ) (E : Machine p) (E' : Machine p') (A : Accuracy) (ω : ℝ), Fine η p A ω → (2 : ℝ) ^ (-p' : ℤ) ≤ η →
      ∀ m sdr sir sar, IsBssLossesCg E E' A ω o.filterLength false o.zeroMean o.loadDiag none it (ref m) (est m) sdr sir sar →
        ∀ k, CloseIn d ε (sdr k k).neg (out.sdr m k) ∧ (out.sar m k ≠ ninf → CloseIn d ε (sir k k).neg (out.sir m k)) ∧
          CloseIn d ε (sar k k).neg (out.sar m k) := by
  unfold bssEvalNoPerm at h
  split at h
  · cases h
  rename_i sd0 sa0 h0
  cases h
  simp only [hcl]
  obtain ⟨η, hη, H⟩ := uniform_eta (Y := BIdx s × Fin c)
    (P := fun y η => ∀ (p p' : ℕ) (E : Machine p) (E' : Machine p') (A : Accuracy) (ω : ℝ), Fine η p A ω → (2 : ℝ) ^ (-p' : ℤ) ≤ η →
      ∀ sdr sir sar, IsBssLossesCg E E' A ω o.filterLength false o.zeroMean o.loadDiag none it (ref y.1) (est y.1) sdr sir sar →
        CloseIn d ε (sdr y.2 y.2).neg (FBE.baseMetrics none (sd0 y.1 y.2) (sa0 y.1 y.2)).1.neg ∧
        (0 < sa0 y.1 y.2 → CloseIn d ε (sir y.2 y.2).neg (FBE.baseMetrics none (sd0 y.1 y.2) (sa0 y.1 y.2)).2.1.neg) ∧
        CloseIn d ε (sar y.2 y.2).neg (FBE.baseMetrics none (sd0 y.1 y.2) (sa0 y.1 y.2)).2.2.neg)
    (fun y η η' hle hP p p' E E' A ω hF hp => hP p p' E E' A ω (hF.mono hle) (hp.trans hle)) (fun ⟨m, k⟩ => by
      obtain ⟨η, hη, H⟩ := bss_fine (X := (Fin c → Fin c → ℝ) × (Fin c → ℝ)) (g := fun x => x.1 k k) (g' := fun x => x.2 k)
        (q := sd0 m k) (s := sa0 m k)
        (R := fun E A ω x => IsCoherencesCg E A ω o.filterLength false o.zeroMean o.loadDiag it (ref m) (est m) x.1 x.2)
        (fun hS hx => by
          obtain ⟨t1, t2⟩ := coherencesCg_tends_diag hS hB hcg h0 m hx
          exact ⟨t1 k, t2 k⟩) hd hε
      refine ⟨η, hη, fun p p' E E' A ω hF hp sdr sir sar hv => ?_⟩
      obtain ⟨c1, c2, hcoh, h1, h2, h3⟩ := hv
      rw [h1, h2, h3]
      exact H p p' E E' A ω hF hp (c1, c2) hcoh)
  refine ⟨η, hη, fun p p' E E' A ω hF hp m sdr sir sar hv k => ?_⟩
  obtain ⟨k1, k2, k3⟩ := H (m, k) p p' E E' A ω hF hp sdr sir sar hv
  exact ⟨k1, fun hs => k2 (pos_of_sar hs), k3⟩

/-- **C83.**  `sdr_loss` with `use_cg_iter` has an outcome, whatever the arithmetic. -/
theorem C83_sdr_cg_outcome {p p' K : ℕ} (E : Machine p) (E' : Machine p') {A : Accuracy} {ω : ℝ} (hω : 0 ≤ ω) (hN : 0 < N)
    (hNk : N ≤ A.k) (hK : 1 ≤ K) (hKk : K ≤ A.k) (zm : Bool) (load clampDb : Option ℝ) (it : ℕ) (y x : Fin N → ℝ) :
    ∃ v, IsSdrLossCg E E' A ω K zm load clampDb it y x v := exists_sdrLossCg E E' hω hN hNk hK hKk zm load clampDb it y x

/-- **C83.**  `bss_eval_sources(..., use_cg_iter=it)` has an outcome if it has one in exact arithmetic and the arithmetic is fine
enough. -/
theorem C83_bss_cg_outcome (hB : Covered B) {it : ℕ} (hcg : o.useCgIter = some it) (hL : 2 ≤ o.filterLength) {ref est : Sig s c N}
    {out : BssOut s c} (h : bssEvalNoPerm B o ref est = .ok out) (m : BIdx s) :
    ∃ η > 0, ∀ (p p' : ℕ) (E : Machine p) (E' : Machine p') (A : Accuracy) (ω : ℝ), Fine η p A ω → 0 ≤ ω → 0 < c → 0 < N → N ≤ A.k →
      o.filterLength * c ≤ A.k → ∃ sdr sir sar,
        IsBssLossesCg E E' A ω o.filterLength false o.zeroMean o.loadDiag o.clampDb it (ref m) (est m) sdr sir sar := by
  unfold bssEvalNoPerm at h
  split at h
  · cases h
  rename_i sd0 sa0 h0
  cases h
  obtain ⟨hn, hLn, hdet⟩ := spec_of_diag hcg hL h0
  obtain ⟨η, hη, H⟩ := exists_bssLossesCg hB (est := est) hL hn hLn m (hdet m)
  exact ⟨η, hη, fun p p' E E' A ω hF hω hc hN hNk hKk => H p p' E E' A ω hF hω hc hN hNk hKk false o.clampDb it⟩

/-! ### the hypotheses can be met -/

section examples

private def exRef : Sig [] 2 4 := fun _ => ![![1, 0, 0, 0], ![0, 0, 1, 0]]
private def exEst : Sig [] 2 4 := fun _ => ![![1, 1, 1, 1], ![0, 2, 1, 1]]
private def exOpts (it : Option ℕ) : Opts := { filterLength := 2, useCgIter := it, zeroMean := false, clampDb := none, loadDiag := none }

private theorem ex_norm (z : Fin 4 → ℝ) (hz : 1 ≤ ∑ t, z t ^ 2) : 1e-6 ≤ sigNorm z :=
  le_trans (by norm_num : (1e-6 : ℝ) ≤ 1) (by rw [sigNorm, Real.one_le_sqrt]; exact hz)

private theorem ex_pair : ∃ sd sa, sqCosPair torchBackend (exOpts none) exRef exEst = .ok (sd, sa) := by
  have hu : ∀ m k, unitSig (centred false (exRef m k)) = exRef m k := fun m k => by
    have hs : sigNorm (centred false (exRef m k)) = 1 := by
      fin_cases k <;> norm_num [sigNorm, Fin.sum_univ_succ, centred, exRef]
    funext t; unfold unitSig; rw [hs, div_one]; rfl
  have hx : ∀ (m : BIdx []) k, 1e-6 ≤ sigNorm (centred false (exRef m k)) := fun m k =>
    ex_norm _ (by fin_cases k <;> norm_num [Fin.sum_univ_succ, centred, exRef])
  have hy : ∀ (m : BIdx []) k, 1e-6 ≤ sigNorm (centred false (exEst m k)) := fun m k =>
    ex_norm _ (by fin_cases k <;> norm_num [Fin.sum_univ_succ, centred, exEst])
  have hco : ∀ m : BIdx [], ConditionedAll 2 0 0.01 fun k => centred false (exRef m k) := fun m h => by
    simp only [hu]
    norm_num [exRef, filtered, Finset.sum_range_succ, Fin.sum_univ_two, zpad]
    nlinarith [sq_nonneg (h 0 0), sq_nonneg (h 0 1), sq_nonneg (h 1 0), sq_nonneg (h 1 1)]
  obtain ⟨sd, sa, h, -⟩ := bssCoh_doc (B := torchBackend) (Or.inl rfl) (o := exOpts none) rfl le_rfl (by norm_num)
    (show 2 + 4 ≤ 2 ^ Nat.clog 2 7 + 1 by decide) (ref := exRef) (est := exEst) hx hy (l := 0.01) (by norm_num) hco
  exact ⟨sd, sa, h⟩

private theorem ex_diag (it : ℕ) : ∃ out, bssEvalNoPerm torchBackend (exOpts (some it)) exRef exEst = .ok out := by
  obtain ⟨sd, sa, h⟩ := ex_pair
  have h0 := sqCosDiag_of_pair torchBackend (exOpts none) (Or.inr ⟨rfl, rfl⟩) h
  obtain ⟨sd', sa', h1, -, -⟩ := sqCosDiag_tendsto (o := exOpts none) (B := torchBackend) (Or.inl rfl) (show (0 : ℝ) ≤ 0 from le_rfl) rfl h0
  have h2 : sqCosDiag torchBackend (exOpts (some it)) exRef exEst = .ok (sd' it, sa' it) := h1 it
  unfold bssEvalNoPerm
  rw [h2]
  exact ⟨_, rfl⟩

private theorem ex_sdr (it : ℕ) : ∃ L, sdrLossPair torchBackend (exOpts (some it)) exEst exRef = .ok L := by
  obtain ⟨sd, sa, h⟩ := ex_pair
  obtain ⟨sd', h1, -⟩ := sdrCohPair_tendsto (o := exOpts none) (B := torchBackend) (Or.inl rfl) (show (0 : ℝ) ≤ 0 from le_rfl)
    (sqCosPair_sdr _ _ h)
  have h2 : sdrCohPair torchBackend (exOpts (some it)) exRef exEst = .ok (sd' it) := h1 it
  unfold sdrLossPair
  rw [h2]
  exact ⟨_, rfl⟩

/-- `sdr_loss` with ten iterations: an execution whose value is within 0.01 of the exact one. -/
example : ∃ (L : _) (p : ℕ) (E : Machine p) (A : Accuracy) (v : XR),
    sdrLossPair torchBackend (exOpts (some 10)) exEst exRef = .ok L ∧
    IsSdrLossCg E E A 0 2 false none none 10 (exEst () 1) (exRef () 0) v ∧ CloseIn 50 0.01 v.neg (L () 0 1).neg := by
  obtain ⟨L, hL⟩ := ex_sdr 10
  obtain ⟨η, hη, H⟩ := C83_sdr_cg (N := 4) (B := torchBackend) (Or.inl rfl) (o := exOpts (some 10)) rfl rfl
    (show 2 ≤ 2 ^ Nat.clog 2 7 by decide) hL (d := 50) (ε := 0.01) (by norm_num) (by norm_num)
  obtain ⟨p, E, A, hF, hk⟩ := exists_fine hη 4
  obtain ⟨v, hv⟩ := C83_sdr_cg_outcome E E (A := A) le_rfl (N := 4) (K := 2) (by norm_num) hk.ge (by norm_num) (by omega) false none none 10
    (exEst () 1) (exRef () 0)
  exact ⟨L, p, E, A, v, hL, hv, H p p E E A 0 hF hF.unit () 0 1 v hv⟩

/-- `bss_eval_sources` with ten iterations. -/
example : ∃ (out : _) (p : ℕ) (E : Machine p) (A : Accuracy) (sdr sir sar : _),
    bssEvalNoPerm torchBackend (exOpts (some 10)) exRef exEst = .ok out ∧
    IsBssLossesCg E E A 0 2 false false none none 10 (exRef ()) (exEst ()) sdr sir sar ∧
    ∀ k, CloseIn 50 0.01 (sdr k k).neg (out.sdr () k) := by
  obtain ⟨out, hout⟩ := ex_diag 10
  obtain ⟨η, hη, H⟩ := C83_bss_cg (B := torchBackend) (Or.inl rfl) (o := exOpts (some 10)) rfl rfl hout (d := 50) (ε := 0.01)
    (by norm_num) (by norm_num)
  obtain ⟨η', hη', H'⟩ := C83_bss_cg_outcome (B := torchBackend) (Or.inl rfl) (o := exOpts (some 10)) rfl le_rfl hout ()
  obtain ⟨p, E, A, hF, hk⟩ := exists_fine (lt_min hη hη') 4
  obtain ⟨sdr, sir, sar, hv⟩ := H' p p E E A 0 (hF.mono (min_le_right _ _)) le_rfl (by norm_num) (by norm_num) hk.ge (by rw [hk]; decide)
  exact ⟨out, p, E, A, sdr, sir, sar, hout, hv,
    fun k => (H p p E E A 0 (hF.mono (min_le_left _ _)) (hF.unit.trans (min_le_left _ _)) () sdr sir sar hv k).1⟩

end examples

end FBE.Props
