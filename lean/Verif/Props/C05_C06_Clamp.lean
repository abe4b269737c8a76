import Verif.Props.C11_C17_Permutation
import Verif.Proofs.ExampleRuns

/-!
# C05, C06 — `clamp_db`
-/

namespace FBE.Props

open Spec XR

variable {s : List ℕ} {r e c N M : ℕ} {B : Backend} {o : Opts}

/-- A finite decibel value in `[-d, d]`. -/
def InDb (d : ℝ) (x : XR) : Prop := ∃ y, x = fin y ∧ -d ≤ y ∧ y ≤ d

theorem InDb.neg {d : ℝ} {x : XR} (h : InDb d x) : InDb d x.neg := by
  obtain ⟨y, rfl, h1, h2⟩ := h
  exact ⟨-y, rfl, by linarith, by linarith⟩

theorem inDb_loss {d : ℝ} (hd : 0 ≤ d) {x : XR} (hx : x ≠ nan) :
    InDb d (coherenceToNegSdr (some d) x) := by
  rw [coherenceToNegSdr_clip hd]
  exact clip_bounds hd fun h => hx (coherenceToNegSdr_eq_nan.1 h)

/-- **C05.**  `sdr_loss`, `pairwise=True`. -/
theorem C05_sdr_loss_pairwise {d : ℝ} (hd : 0 ≤ d) (ho : o.clampDb = some d) {est : Sig s e M}
    {ref : Sig s r N} {L} (h : sdrLossPair B o est ref = .ok L) (m k j) : InDb d (L m k j) := by
  obtain ⟨coh, -, rfl⟩ := sdrLossPair_entry h
  rw [ho]
  exact inDb_loss hd (by simp)

example (m k j) : ∃ L, sdrLossPair torchBackend (Ex.clamped (some 3)) Ex.est Ex.ref = .ok L ∧ InDb 3 (L m k j) :=
  ⟨_, Ex.sdrLossPair_cl _, C05_sdr_loss_pairwise (by norm_num) rfl (Ex.sdrLossPair_cl _) m k j⟩

/-- **C05.**  `sdr_loss`, `pairwise=False`. -/
theorem C05_sdr_loss {d : ℝ} (hd : 0 ≤ d) (ho : o.clampDb = some d) {est : Sig s c M} {ref : Sig s c N}
    {L} (h : sdrLossDiag B o est ref = .ok L) (m k) : InDb d (L m k) := by
  obtain ⟨coh, -, rfl⟩ := sdrLossDiag_entry h
  rw [ho]
  exact inDb_loss hd (by simp)

example (m k) : ∃ L, sdrLossDiag torchBackend (Ex.clamped (some 3)) Ex.est Ex.ref = .ok L ∧ InDb 3 (L m k) :=
  ⟨_, Ex.sdrLossDiag_cl _, C05_sdr_loss (by norm_num) rfl (Ex.sdrLossDiag_cl _) m k⟩

/-- **C05.**  `sdr` and `sdr_pit_loss`. -/
theorem C05_sdr (hB : Covered B) {d : ℝ} (hd : 0 ≤ d) (ho : o.clampDb = some d) (rp cs : Bool)
    {ref : Sig s r N} {est : Sig s e M} {out} (h : sdr B o rp cs ref est = .ok out) (m k) :
    InDb d (out.sdr m k) := by
  obtain ⟨L, p, hL, hp, h1, -⟩ := sdr_ok h
  obtain ⟨-, P, hP⟩ := solvePermutation_spec B hB.lsa L _ hp m
  have := C05_sdr_loss_pairwise hd ho hL m (P.ref k) (P.est k)
  rw [← hP.loss_eq] at this
  rw [h1]
  cases cs
  · exact this.neg
  · exact this

theorem bssEvalNoPerm_ok {ref : Sig s c N} {est : Sig s c M} {out} (h : bssEvalNoPerm B o ref est = .ok out) :
    ∃ sd sa, sqCosDiag B o ref est = .ok (sd, sa) ∧
      out = ⟨fun m k => (baseMetrics o.clampDb (sd m k) (sa m k)).1.neg,
        fun m k => (baseMetrics o.clampDb (sd m k) (sa m k)).2.1.neg,
        fun m k => (baseMetrics o.clampDb (sd m k) (sa m k)).2.2.neg, none⟩ := by
  unfold bssEvalNoPerm at h
  split at h
  · cases h
  · rename_i sd sa hs
    cases h
    exact ⟨sd, sa, hs, rfl⟩

/-- **C05.**  `bss_eval_sources`: SDR and SAR are in `[-d, d]`, the SIR too unless it is NaN, which
can only happen without permutation solving. -/
theorem C05_bss_eval (hB : Covered B) {d : ℝ} (hd : 0 ≤ d) (ho : o.clampDb = some d) (cp : Bool)
    {ref : Sig s r N} {est : Sig s e M} {out} (h : bssEvalSources B o cp ref est = .ok out) (m k) :
    InDb d (out.sdr m k) ∧ InDb d (out.sar m k) ∧
      (InDb d (out.sir m k) ∨ (cp = false ∧ out.sir m k = nan)) := by
  have base : ∀ a b, InDb d (baseMetrics o.clampDb a b).1 ∧ InDb d (baseMetrics o.clampDb a b).2.2 ∧
      (InDb d (baseMetrics o.clampDb a b).2.1 ∨ (baseMetrics o.clampDb a b).2.1 = nan) := by
    intro a b
    unfold baseMetrics
    rw [ho]
    refine ⟨inDb_loss hd (by simp), inDb_loss hd (by simp), ?_⟩
    by_cases hn : XR.div (fin a) (fin b) = nan
    · right
      show coherenceToNegSdr (some d) (XR.div (fin a) (fin b)) = nan
      exact coherenceToNegSdr_eq_nan.2 hn
    · exact Or.inl (inDb_loss hd hn)
  cases cp with
  | true =>
    unfold bssEvalSources at h
    rw [if_pos rfl] at h
    obtain ⟨sd, sa, p, hL, hp, rfl⟩ := bssEvalPerm_ok h
    obtain ⟨hsol, P, hP⟩ := solvePermutation_spec B hB.lsa _ _ hp m
    have hb := base (sd m (P.ref k) (P.est k)) (sa m (P.est k))
    refine ⟨?_, ?_, Or.inl ?_⟩
    · show InDb d (p.args 0 m k).neg
      rw [hP.args_eq 0 k]; exact hb.1.neg
    · show InDb d (p.args 1 m k).neg
      rw [hP.args_eq 1 k]; exact hb.2.1.neg
    · show InDb d (p.loss m k).neg
      rw [hP.loss_eq k]
      exact (hb.2.2.resolve_right (hsol.no_nan _ _)).neg
  | false =>
    unfold bssEvalSources at h
    rw [if_neg (by simp)] at h
    split at h
    · cases h
    · obtain ⟨sd, sa, -, rfl⟩ := bssEvalNoPerm_ok h
      have hb := base (sd m k) (sa m k)
      exact ⟨hb.1.neg, hb.2.1.neg, hb.2.2.imp InDb.neg fun h => ⟨rfl, neg_eq_nan.2 h⟩⟩

example (cp : Bool) (m k) : ∃ out, bssEvalSources torchBackend (Ex.clamped (some 3)) cp Ex.ref Ex.est = .ok out ∧
    InDb 3 (out.sdr m k) ∧ InDb 3 (out.sar m k) ∧ (InDb 3 (out.sir m k) ∨ (cp = false ∧ out.sir m k = nan)) :=
  (Ex.bss_cl (some 3) cp).elim fun _ h => ⟨_, h, C05_bss_eval Ex.covered (by norm_num) rfl cp h m k⟩

/-! ### C06 -/

/-- The same options with another `clamp_db`. -/
def withClamp (o : Opts) (cl : Option ℝ) : Opts := { o with clampDb := cl }

/-- **C06.**  `sdr_loss`, `pairwise=True`: clamping is clipping of every entry; success does not
depend on it. -/
theorem C06_sdr_loss_pairwise {d : ℝ} (hd : 0 ≤ d) (est : Sig s e M) (ref : Sig s r N) :
    sdrLossPair B (withClamp o (some d)) est ref =
      (sdrLossPair B (withClamp o none) est ref).map fun L m k j => clip d (L m k j) := by
  have h : sdrCohPair B (withClamp o (some d)) ref est = sdrCohPair B (withClamp o none) ref est := rfl
  unfold sdrLossPair
  rw [h]
  cases sdrCohPair B (withClamp o none) ref est with
  | error err => rfl
  | ok coh =>
    show Except.ok _ = Except.ok _
    congr 1
    funext m k j
    exact coherenceToNegSdr_clip hd _

example (m k j) : ∃ L L', sdrLossPair torchBackend (withClamp Ex.opts none) Ex.est Ex.ref = .ok L ∧
    sdrLossPair torchBackend (withClamp Ex.opts (some 3)) Ex.est Ex.ref = .ok L' ∧ L' m k j = clip 3 (L m k j) := by
  have h := C06_sdr_loss_pairwise (B := torchBackend) (o := Ex.opts) (d := 3) (by norm_num) Ex.est Ex.ref
  have h0 : sdrLossPair torchBackend (withClamp Ex.opts none) Ex.est Ex.ref = _ := Ex.sdrLossPair_cl none
  rw [h0] at h
  exact ⟨_, _, h0, h, rfl⟩

/-- **C06.**  `sdr_loss`, `pairwise=False`. -/
theorem C06_sdr_loss {d : ℝ} (hd : 0 ≤ d) (est : Sig s c M) (ref : Sig s c N) :
    sdrLossDiag B (withClamp o (some d)) est ref =
      (sdrLossDiag B (withClamp o none) est ref).map fun L m k => clip d (L m k) := by
  have h : sdrCohDiag B (withClamp o (some d)) ref est = sdrCohDiag B (withClamp o none) ref est := rfl
  unfold sdrLossDiag
  rw [h]
  cases sdrCohDiag B (withClamp o none) ref est with
  | error err => rfl
  | ok coh =>
    show Except.ok _ = Except.ok _
    congr 1
    funext m k
    exact coherenceToNegSdr_clip hd _

example (m k) : ∃ L L', sdrLossDiag torchBackend (withClamp Ex.opts none) Ex.est Ex.ref = .ok L ∧
    sdrLossDiag torchBackend (withClamp Ex.opts (some 3)) Ex.est Ex.ref = .ok L' ∧ L' m k = clip 3 (L m k) := by
  have h := C06_sdr_loss (B := torchBackend) (o := Ex.opts) (d := 3) (by norm_num) Ex.est Ex.ref
  have h0 : sdrLossDiag torchBackend (withClamp Ex.opts none) Ex.est Ex.ref = _ := Ex.sdrLossDiag_cl none
  rw [h0] at h
  exact ⟨_, _, h0, h, rfl⟩

/-- **C06.**  `bss_eval_sources` without permutation: SDR, SIR and SAR are clipped. -/
theorem C06_bss_eval {d : ℝ} (hd : 0 ≤ d) (ref : Sig s r N) (est : Sig s e M) :
    bssEvalSources B (withClamp o (some d)) false ref est =
      (bssEvalSources B (withClamp o none) false ref est).map fun out =>
        { sdr := fun m k => clip d (out.sdr m k), sir := fun m k => clip d (out.sir m k),
          sar := fun m k => clip d (out.sar m k), perm := out.perm } := by
  unfold bssEvalSources
  simp only [Bool.false_eq_true, if_false]
  by_cases hre : r ≠ e
  · rw [if_pos hre, if_pos hre]; rfl
  rw [if_neg hre, if_neg hre]
  generalize (fun (m : BIdx s) (k : Fin (min r e)) => ref m (k.castLE (min_le_left r e))) = ref'
  generalize (fun (m : BIdx s) (k : Fin (min r e)) => est m (k.castLE (min_le_right r e))) = est'
  have h : sqCosDiag B (withClamp o (some d)) ref' est' = sqCosDiag B (withClamp o none) ref' est' := rfl
  unfold bssEvalNoPerm
  rw [h]
  cases sqCosDiag B (withClamp o none) ref' est' with
  | error err => rfl
  | ok p =>
    obtain ⟨sd, sa⟩ := p
    have key : ∀ x : XR, (coherenceToNegSdr (some d) x).neg = clip d (coherenceToNegSdr none x).neg :=
      fun x => by rw [coherenceToNegSdr_clip hd, clip_neg hd]
    show Except.ok _ = Except.ok _
    congr 1
    unfold baseMetrics
    have e1 : (withClamp o (some d)).clampDb = some d := rfl
    have e2 : (withClamp o none).clampDb = none := rfl
    simp only [e1, e2, key]

example (m k) : ∃ out out', bssEvalSources torchBackend (withClamp Ex.opts none) false Ex.ref Ex.est = .ok out ∧
    bssEvalSources torchBackend (withClamp Ex.opts (some 3)) false Ex.ref Ex.est = .ok out' ∧
    out'.sir m k = clip 3 (out.sir m k) := by
  have h := C06_bss_eval (B := torchBackend) (o := Ex.opts) (d := 3) (by norm_num) Ex.ref Ex.est
  obtain ⟨out, h0⟩ := Ex.bss_cl none false
  have h0' : bssEvalSources torchBackend (withClamp Ex.opts none) false Ex.ref Ex.est = _ := h0
  rw [h0'] at h
  exact ⟨_, _, h0', h, rfl⟩

/-- **C06.**  `sdr` with clamping: every reported value is the clipped unclamped SDR of the pair
chosen (the choice itself may differ from the choice without clamping, because clipped totals are
compared). -/
theorem C06_sdr (hB : Covered B) {d : ℝ} (hd : 0 ≤ d) (ref : Sig s r N) (est : Sig s e M) {out}
    (h : sdr B (withClamp o (some d)) true false ref est = .ok out) :
    ∃ L perm, pairwiseSdrLoss B (withClamp o none) est ref = .ok L ∧ out.perm = some perm ∧
      ∀ m, ∃ P : Pairing r e, Describes (perm m) P ∧
        ∀ k, out.sdr m k = clip d (L m (P.ref k) (P.est k)).neg := by
  obtain ⟨L', perm, hL', h1, h2⟩ := C11_sdr_best_pairing hB h
  have := C06_sdr_loss_pairwise (B := B) (o := o) hd est ref
  have hL'' : sdrLossPair B (withClamp o (some d)) est ref = .ok L' := hL'
  rw [hL''] at this
  cases hL : sdrLossPair B (withClamp o none) est ref with
  | error err => rw [hL] at this; cases this
  | ok L =>
    rw [hL] at this
    have hLL : L' = fun m k j => clip d (L m k j) := Except.ok.inj this
    refine ⟨L, perm, hL, h1, fun m => ?_⟩
    obtain ⟨P, hP1, -, hP2, -⟩ := h2 m
    refine ⟨P, hP1, fun k => ?_⟩
    rw [hP2 k, hLL, ← clip_neg hd]

example : ∃ out L perm, sdr torchBackend (withClamp Ex.opts (some 3)) true false Ex.ref Ex.est = .ok out ∧
    pairwiseSdrLoss torchBackend (withClamp Ex.opts none) Ex.est Ex.ref = .ok L ∧ out.perm = some perm ∧
    ∀ m, ∃ P : Pairing 2 2, Describes (perm m) P ∧ ∀ k, out.sdr m k = clip 3 (L m (P.ref k) (P.est k)).neg := by
  obtain ⟨out, h⟩ := Ex.sdr_cl (some 3) true false
  obtain ⟨L, perm, hL⟩ := C06_sdr (o := Ex.opts) Ex.covered (by norm_num) Ex.ref Ex.est h
  exact ⟨out, L, perm, h, hL⟩

/-! ### concrete instances -/

-- a clamped run that returns: three estimates for two references
example : ∃ out, sdr torchBackend exOpts true false exRef exEst = .ok out ∧
    ∀ k, InDb 30 (out.sdr () k) := by
  obtain ⟨out, h⟩ := ex_sdr
  exact ⟨out, h, fun k => C05_sdr (Or.inl rfl) (by norm_num) rfl _ _ h () k⟩

-- clipping is not the identity
example : clip 30 pinf = fin 30 ∧ clip 30 (fin (-45)) = fin (-30) ∧ clip 30 (fin 7) = fin 7 := by
  refine ⟨rfl, ?_, ?_⟩ <;> simp only [clip] <;> norm_num

end FBE.Props
