import Verif.Props.C05_C06_Clamp
import Verif.Props.C23_C24_Consistency

/-!
# C06, C24, C41 — `bss_eval_sources` pair by pair
-/

namespace FBE.Props

open Spec XR

variable {s : List ℕ} {r e c N T : ℕ} {B : Backend} {o : Opts}

/-- **C06.**  `bss_eval_sources` with permutation and clamping: SDR, SIR and SAR of the pairs chosen are
the clipped unclamped metrics of these pairs (the choice itself may differ from the choice without
clamping, because clipped totals are compared). -/
theorem C06_bss_eval_permutation (hB : Covered B) {d : ℝ} (hd : 0 ≤ d) (ref : Sig s r N) (est : Sig s e T) {out}
    (h : bssEvalSources B (withClamp o (some d)) true ref est = .ok out) :
    ∃ sd sa perm, sqCosPair B (withClamp o none) ref est = .ok (sd, sa) ∧ out.perm = some perm ∧
      ∀ m, ∃ P : Pairing r e, Describes (perm m) P ∧ ∀ k,
        out.sdr m k = clip d (baseMetrics none (sd m (P.ref k) (P.est k)) (sa m (P.est k))).1.neg ∧
        out.sir m k = clip d (baseMetrics none (sd m (P.ref k) (P.est k)) (sa m (P.est k))).2.1.neg ∧
        out.sar m k = clip d (baseMetrics none (sd m (P.ref k) (P.est k)) (sa m (P.est k))).2.2.neg := by
  obtain ⟨sd, sa, perm, h1, h2, h3⟩ := C12_bss_eval_best_pairing hB h
  refine ⟨sd, sa, perm, h1, h2, fun m => ?_⟩
  obtain ⟨P, hP, -, hv, -⟩ := h3 m
  refine ⟨P, hP, fun k => ?_⟩
  have key : ∀ x : XR, (coherenceToNegSdr (some d) x).neg = clip d (coherenceToNegSdr none x).neg :=
    fun x => by rw [coherenceToNegSdr_clip hd, clip_neg hd]
  have hb : ∀ a b : ℝ, (baseMetrics (some d) a b).1.neg = clip d (baseMetrics none a b).1.neg ∧
      (baseMetrics (some d) a b).2.1.neg = clip d (baseMetrics none a b).2.1.neg ∧
      (baseMetrics (some d) a b).2.2.neg = clip d (baseMetrics none a b).2.2.neg := fun a b => by
    unfold baseMetrics
    simp only [key, and_self]
  obtain ⟨v1, v2, v3⟩ := hv k
  obtain ⟨b1, b2, b3⟩ := hb (sd m (P.ref k) (P.est k)) (sa m (P.est k))
  exact ⟨v1.trans b1, v2.trans b2, v3.trans b3⟩

example : ∃ out sd sa perm, bssEvalSources torchBackend (withClamp Ex.opts (some 3)) true Ex.ref Ex.est = .ok out ∧
    sqCosPair torchBackend (withClamp Ex.opts none) Ex.ref Ex.est = .ok (sd, sa) ∧ out.perm = some perm ∧
    ∀ m, ∃ P : Pairing 2 2, Describes (perm m) P ∧ ∀ k,
      out.sir m k = clip 3 (baseMetrics none (sd m (P.ref k) (P.est k)) (sa m (P.est k))).2.1.neg := by
  obtain ⟨out, h⟩ := Ex.bss_cl (some 3) true
  obtain ⟨sd, sa, perm, h1, h2, h3⟩ := C06_bss_eval_permutation (o := Ex.opts) Ex.covered (by norm_num) Ex.ref Ex.est h
  exact ⟨out, sd, sa, perm, h, h1, h2, fun m => (h3 m).imp fun P hP => ⟨hP.1, fun k => (hP.2 k).2.1⟩⟩

/-- The pairwise quantities exist whenever the call without permutation returns. -/
theorem sqCosPair_of_noPerm (hdir : o.useCgIter = none) (hsv : o.filterLength = 1 ∨ B.stackedVectors = true)
    {ref : Sig s c N} {est : Sig s c T} {out} (h : bssEvalSources B o false ref est = .ok out) :
    ∃ sd sa, sqCosPair B o ref est = .ok (sd, sa) := by
  cases hp : sqCosPair B o ref est with
  | ok p => exact ⟨p.1, p.2, rfl⟩
  | error err =>
    exfalso
    have key : ∀ {n : ℕ} (hn : n = c) (ref' : Sig s n N) (est' : Sig s n T)
        (_ : ∀ m k, ref' m k = ref m (k.cast hn)) (_ : ∀ m k, est' m k = est m (k.cast hn)),
        ∃ err', sqCosDiag B o ref' est' = .error err' := by
      intro n hn ref' est' h1 h2
      subst hn
      obtain rfl : ref' = ref := funext fun m => funext fun k => h1 m k
      obtain rfl : est' = est := funext fun m => funext fun k => h2 m k
      exact sqCosDiag_of_pair_error B o (hsv.imp id fun h => ⟨hdir, h⟩) hp
    obtain ⟨err', he⟩ := key (min_self c) (fun m k => ref m (k.castLE (min_le_left c c)))
      (fun m k => est m (k.castLE (min_le_right c c))) (fun m k => rfl) (fun m k => rfl)
    unfold bssEvalSources bssEvalNoPerm at h
    rw [if_neg (by simp), if_neg (by simp), he] at h
    cases h

/-- **C24.**  With the direct solver, SDR, SIR and SAR of `bss_eval_sources(compute_permutation=False)`
are the entries `(k, k)` of the pairwise metrics among which the call with permutation chooses. -/
theorem C24_diagonal (hdir : o.useCgIter = none) (hsv : o.filterLength = 1 ∨ B.stackedVectors = true)
    {ref : Sig s c N} {est : Sig s c T} {out} (h : bssEvalSources B o false ref est = .ok out) :
    ∃ sd sa, sqCosPair B o ref est = .ok (sd, sa) ∧ out.perm = none ∧ ∀ m (k : Fin c),
      out.sdr m (k.cast (min_self c).symm) = (baseMetrics o.clampDb (sd m k k) (sa m k)).1.neg ∧
      out.sir m (k.cast (min_self c).symm) = (baseMetrics o.clampDb (sd m k k) (sa m k)).2.1.neg ∧
      out.sar m (k.cast (min_self c).symm) = (baseMetrics o.clampDb (sd m k k) (sa m k)).2.2.neg := by
  obtain ⟨sd, sa, hp⟩ := sqCosPair_of_noPerm hdir hsv h
  obtain ⟨out', h', hv⟩ := bssEvalSources_false_of hdir hsv hp
  obtain rfl := Except.ok.inj (h'.symm.trans h)
  exact ⟨sd, sa, hp, hv⟩

example : ∃ out sd sa, bssEvalSources torchBackend Ex.opts false Ex.ref Ex.est = .ok out ∧
    sqCosPair torchBackend Ex.opts Ex.ref Ex.est = .ok (sd, sa) ∧
    ∀ m k, out.sir m k = (baseMetrics none (sd m k k) (sa m k)).2.1.neg := by
  obtain ⟨out, h⟩ := Ex.bss_cl none false
  obtain ⟨sd, sa, h1, -, h2⟩ := C24_diagonal (o := Ex.opts) rfl (Or.inr rfl) h
  exact ⟨out, sd, sa, h, h1, fun m k => (h2 m k).2.1⟩

/-- **C24.**  A consequence that does not mention the pairwise metrics: exchanging the other estimates
changes neither whether the call without permutation returns nor the metrics of channel `k`. -/
theorem C24_other_estimates (hdir : o.useCgIter = none) (hsv : o.filterLength = 1 ∨ B.stackedVectors = true)
    (ref : Sig s c N) (est est' : Sig s c T) {out} (h : bssEvalSources B o false ref est = .ok out) :
    ∃ out', bssEvalSources B o false ref est' = .ok out' ∧ ∀ m (k : Fin c), est m k = est' m k →
      out'.sdr m (k.cast (min_self c).symm) = out.sdr m (k.cast (min_self c).symm) ∧
      out'.sir m (k.cast (min_self c).symm) = out.sir m (k.cast (min_self c).symm) ∧
      out'.sar m (k.cast (min_self c).symm) = out.sar m (k.cast (min_self c).symm) := by
  obtain ⟨sd, sa, hp, -, hv⟩ := C24_diagonal hdir hsv h
  -- both stacks of estimates are selected from their concatenation
  let both : Sig s (c + c) T := fun m => Fin.append (est m) (est' m)
  have e1 : est = pick (fun _ k => Fin.castAdd c k) both := by
    funext m k; exact (Fin.append_left _ _ _).symm
  have e2 : est' = pick (fun _ k => Fin.natAdd c k) both := by
    funext m k; exact (Fin.append_right _ _ _).symm
  rw [e1, sqCosPair_pick] at hp
  cases hb : sqCosPair B o ref both with
  | error err => rw [hb] at hp; cases hp
  | ok pb =>
    rw [hb] at hp
    obtain ⟨rfl, rfl⟩ := Prod.mk.inj (Except.ok.inj hp)
    have h2 : sqCosPair B o ref est' =
        .ok (fun m k j => pb.1 m k (Fin.natAdd c j), fun m j => pb.2 m (Fin.natAdd c j)) := by
      rw [e2, sqCosPair_pick, hb]; rfl
    obtain ⟨out', h', -, hv'⟩ := bssEvalSources_false_of hdir hsv h2
    refine ⟨out', h', fun m k hk => ?_⟩
    have h3 : sqCosPair B o ref (pick (fun _ _ => Fin.castAdd c k) both : Sig s 1 T) =
        .ok (fun m i _ => pb.1 m i (Fin.castAdd c k), fun m _ => pb.2 m (Fin.castAdd c k)) := by
      rw [sqCosPair_pick, hb]; rfl
    have h4 : sqCosPair B o ref (pick (fun m' _ => if m' = m then Fin.natAdd c k else Fin.castAdd c k)
        both : Sig s 1 T) =
        .ok (fun m' i _ => pb.1 m' i (if m' = m then Fin.natAdd c k else Fin.castAdd c k),
          fun m' _ => pb.2 m' (if m' = m then Fin.natAdd c k else Fin.castAdd c k)) := by
      rw [sqCosPair_pick, hb]; rfl
    have e3 : (pick (fun m' _ => if m' = m then Fin.natAdd c k else Fin.castAdd c k) both : Sig s 1 T) =
        pick (fun _ _ => Fin.castAdd c k) both := by
      funext m' j
      show both m' (if m' = m then Fin.natAdd c k else Fin.castAdd c k) = both m' (Fin.castAdd c k)
      by_cases hm : m' = m
      · subst hm
        rw [if_pos rfl]
        show Fin.append (est m') (est' m') _ = Fin.append (est m') (est' m') _
        rw [Fin.append_left, Fin.append_right, hk]
      · rw [if_neg hm]
    rw [e3, h3] at h4
    obtain ⟨q1, q2⟩ := Prod.mk.inj (Except.ok.inj h4)
    have q1 := congrFun (congrFun (congrFun q1 m) k) 0
    have q2 := congrFun (congrFun q2 m) 0
    rw [if_pos rfl] at q1 q2
    obtain ⟨v1, v2, v3⟩ := hv m k
    obtain ⟨w1, w2, w3⟩ := hv' m k
    rw [← q1, ← q2] at w1 w2 w3
    exact ⟨w1.trans v1.symm, w2.trans v2.symm, w3.trans v3.symm⟩

-- the second estimate is exchanged for silence; the metrics of the first channel stay
example : ∃ out out', bssEvalSources torchBackend Ex.opts false Ex.ref Ex.est = .ok out ∧
    bssEvalSources torchBackend Ex.opts false Ex.ref (fun m k => if k = 0 then Ex.est m k else 0) = .ok out' ∧
    out'.sir () ⟨0, by decide⟩ = out.sir () ⟨0, by decide⟩ := by
  obtain ⟨out, h⟩ := Ex.bss_cl none false
  obtain ⟨out', h', h2⟩ := C24_other_estimates (o := Ex.opts) rfl (Or.inr rfl) Ex.ref Ex.est
    (fun m k => if k = 0 then Ex.est m k else 0) h
  exact ⟨out, out', h, h', (h2 () 0 (if_pos rfl).symm).2.1⟩

/-- **C41.**  With `filter_length=1` and permutation the SDRs of `bss_eval_sources` come, at the pairing
chosen, from the table of `sdr_loss`, in which `load_diag` does not occur. -/
theorem C41_load_ignored_permutation (hB : Covered B) (hL : o.filterLength = 1) (d : Option ℝ)
    {ref : Sig s r N} {est : Sig s e T} {out}
    (h : bssEvalSources B { o with loadDiag := d } true ref est = .ok out) :
    ∃ L perm, sdrLossPair B o est ref = .ok L ∧ out.perm = some perm ∧
      ∀ m, ∃ P : Pairing r e, Describes (perm m) P ∧ ∀ k, out.sdr m k = (L m (P.ref k) (P.est k)).neg := by
  obtain ⟨sd, sa, perm, h1, h2, h3⟩ := C12_bss_eval_best_pairing hB h
  have hl : sdrLossPair B { o with loadDiag := d } est ref =
      .ok fun m k j => coherenceToNegSdr o.clampDb (fin (sd m k j)) := by
    unfold sdrLossPair
    rw [sqCosPair_sdr ref est h1]
  rw [(C41_load_ignored (s := s) (c := 0) (N := N) (T := T) (B := B) hL d true true).2.1 ref est] at hl
  refine ⟨_, perm, hl, h2, fun m => ?_⟩
  obtain ⟨P, hP, -, hv, -⟩ := h3 m
  exact ⟨P, hP, fun k => (hv k).1⟩

example : ∃ out L, bssEvalSources torchBackend { Ex.opts with filterLength := 1, loadDiag := some 5, clampDb := some 30 }
      true Ex.ref Ex.est = .ok out ∧
    sdrLossPair torchBackend { Ex.opts with filterLength := 1, clampDb := some 30 } Ex.est Ex.ref = .ok L ∧
    ∀ m, ∃ P : Pairing 2 2, ∀ k, out.sdr m k = (L m (P.ref k) (P.est k)).neg := by
  obtain ⟨⟨sd, sa⟩, h⟩ := sqCosPair_loaded
    (o := { Ex.opts with filterLength := 1, loadDiag := some 5, clampDb := some 30 })
    Ex.covered (Or.inl rfl) le_rfl (by norm_num [Opts.load]) Ex.nFft_three (by decide) (fun _ => rfl) Ex.ref Ex.est
  have hsd : ∀ m k j, sd m k j ≠ 0 := by
    have h1 := sqCosPair_sdr Ex.ref Ex.est h
    rw [sdrCohPair_def, if_neg (by show (1 : ℕ) ≠ 0; decide), if_pos rfl] at h1
    intro m k j
    rw [← Except.ok.inj h1]
    refine pow_ne_zero 2 ?_
    rw [prep_eq, prep_eq]
    have g1 := (gain_pos (Ex.ref m k)).ne'
    have g2 := (gain_pos (Ex.est m j)).ne'
    have : dot (Ex.ref m k) (Ex.est m j) ≠ 0 := by
      unfold dot
      fin_cases k <;> fin_cases j <;> simp [Fin.sum_univ_three, Ex.ref, Ex.est]
    have hd : dot (fun t => gain (centred false (Ex.ref m k)) * centred false (Ex.ref m k) t)
        (fun t => gain (centred false (Ex.est m j)) * centred false (Ex.est m j) t) =
        gain (Ex.ref m k) * gain (Ex.est m j) * dot (Ex.ref m k) (Ex.est m j) := by
      unfold dot
      rw [Finset.mul_sum]
      exact Finset.sum_congr rfl fun t _ => by
        show gain (Ex.ref m k) * Ex.ref m k t * (gain (Ex.est m j) * Ex.est m j t) = _
        ring
    exact hd ▸ mul_ne_zero (mul_ne_zero g1 g2) this
  obtain ⟨p, hp⟩ := (solvePermutation_ok_iff torchBackend Ex.covered.lsa
    (negSir { Ex.opts with filterLength := 1, loadDiag := some 5, clampDb := some 30 } sd sa) (nArgs := 2)
    ![negSdr { Ex.opts with filterLength := 1, loadDiag := some 5, clampDb := some 30 } sd sa,
      negSar { Ex.opts with filterLength := 1, loadDiag := some 5, clampDb := some 30 } sd sa]).2 fun m =>
    solvable_of_finite fun k j => coherenceToNegSdr_finite 30 (by
      show XR.div (fin (sd m k j)) (fin (sa m j)) ≠ nan
      have := hsd m k j
      show (if sa m j = 0 then signInf (sd m k j) else fin (sd m k j / sa m j)) ≠ nan
      unfold signInf
      split_ifs with h1 h2 h3
      · simp
      · simp
      · exact absurd (le_antisymm (not_lt.1 h2) (not_lt.1 h3)) this
      · simp)
  have hb := bssEvalPerm_of_ok h hp
  obtain ⟨L, perm, h1, -, h2⟩ := C41_load_ignored_permutation
    (o := { Ex.opts with filterLength := 1, clampDb := some 30 }) Ex.covered rfl (some 5) hb
  exact ⟨_, L, hb, h1, fun m => (h2 m).imp fun P hP => hP.2⟩

end FBE.Props
