import Verif.Props.C09_C10_Filters
import Verif.Props.C23_C24_Consistency
import Verif.Proofs.ExampleRuns

/-!
# C51: adding sources
-/

set_option linter.unusedSectionVars false

namespace FBE.Props

open Spec XR Matrix

variable {B : Backend} {s : List ℕ} {r r' e e' c c' N T : ℕ} {o : Opts}

/-- A subfamily of a family with invertible Gram matrix has an invertible Gram matrix. -/
theorem gramD_sub {J J' : Type} [Fintype J] [DecidableEq J] [Fintype J'] [DecidableEq J'] {D : ℕ} (v : J → Space D)
    (f : J' → J) (hf : Function.Injective f) {d : ℝ} (hd : 0 ≤ d) (h : (gramD v d).det ≠ 0) :
    (gramD (v ∘ f) d).det ≠ 0 := by
  rcases hd.eq_or_lt with rfl | hd
  · rw [gramD_zero, det_gram_ne_zero_iff_linearIndependent (𝕜 := ℝ)] at h ⊢
    exact h.comp f hf
  · exact gramD_det_ne_zero _ hd

/-- Square cosines for some of the references and estimates: the ones of single references are the same,
the ones of all references get smaller. -/
theorem sqCosPair_sub (hB : Covered B) (hdir : o.direct) (hload : 0 ≤ o.load) {ref : Sig s r' N} {est : Sig s e' T}
    {sd sa} (h : sqCosPair B o ref est = .ok (sd, sa)) {φ : Fin r → Fin r'} (hφ : Function.Injective φ)
    (ψ : Fin e → Fin e') : ∃ sa', sqCosPair B o (fun m k => ref m (φ k)) (fun m j => est m (ψ j)) =
      .ok (fun m k j => sd m (φ k) (ψ j), sa') ∧ ∀ m j, sa' m j ≤ sa m (ψ j) := by
  have hpick := sqCosPair_pick (B := B) (o := o) (fun (_ : BIdx s) => ψ) ref est
  rw [h] at hpick
  have hp : sqCosPair B o ref (fun m j => est m (ψ j)) = .ok (fun m k j => sd m k (ψ j), fun m j => sa m (ψ j)) := hpick
  suffices H : ∀ {est : Sig s e T} {sd sa}, sqCosPair B o ref est = .ok (sd, sa) → ∃ sa',
      sqCosPair B o (fun m k => ref m (φ k)) est = .ok (fun m k j => sd m (φ k) j, sa') ∧ ∀ m j, sa' m j ≤ sa m j from
    H hp
  clear hp hpick h
  intro est sd sa h
  by_cases hl0 : o.filterLength = 0
  · rw [sqCosPair_zero B hl0] at h; cases h
  by_cases hl1 : o.filterLength = 1
  · by_cases hT : T = N
    case neg => rw [sqCosPair_ne B hl1 hT] at h; cases h
    subst hT
    simp only [sqCosPair_def] at h ⊢
    rw [if_neg hl0, if_pos hl1, cohSarOne_eq T le_rfl] at h ⊢
    by_cases hs : ∃ m : BIdx s, (gramD (oneFam T (prep o ref m)) o.load).det = 0
    · rw [if_pos hs] at h; cases h
    rw [if_neg hs] at h
    cases h
    push Not at hs
    have hs' : ∀ m : BIdx s, (gramD (oneFam T (prep o (fun m k => ref m (φ k)) m)) o.load).det ≠ 0 := fun m =>
      gramD_sub (oneFam T (prep o ref m)) φ hφ hload (hs m)
    rw [if_neg (by push Not; exact hs')]
    exact ⟨_, rfl, fun m j => quad_mono (oneFam T (prep o ref m)) (shift T (prep o est m j) 0) φ hφ hload (hs m) (hs' m)⟩
  have hcg := hdir.resolve_left hl1
  cases hn : nFft N T with
  | error err =>
    rw [sqCosPair_gen B (by omega)] at h; unfold sqCosPairGen at h
    rw [hn] at h; cases h
  | ok n =>
    by_cases hLn : o.filterLength ≤ n
    · have F := fam_of_nFft (o := o) hn
      rw [sqCosPair_direct hn rfl (by omega) F hLn hB hcg] at h ⊢
      split at h
      · cases h
      rename_i hs
      push Not at hs
      cases h
      have hinj : Function.Injective (Prod.map id φ : Fin (min o.filterLength n) × Fin r → _) :=
        Function.injective_id.prodMap hφ
      have h2 : ∀ m : BIdx s, (gramD (allFam (fun x i => cshift n x i) (min o.filterLength n)
          (prep o (fun m k => ref m (φ k)) m)) o.load).det ≠ 0 := fun m =>
        gramD_sub (allFam (fun x i => cshift n x i) (min o.filterLength n) (prep o ref m)) (Prod.map id φ) hinj hload
          (hs.2 m)
      rw [if_neg]
      · exact ⟨_, rfl, fun m j => quad_mono (allFam (fun x i => cshift n x i) (min o.filterLength n) (prep o ref m))
          (cshift n (prep o est m j) 0) (Prod.map id φ) hinj hload (hs.2 m) (h2 m)⟩
      · push Not
        exact ⟨fun i => hs.1 (i.1, φ i.2), h2⟩
    · rw [sqCosPair_too_long hl1 hn (by omega)] at h
      cases h

theorem sqCosPair_of_false (hdir : o.direct) (hsv : o.filterLength = 1 ∨ B.stackedVectors = true) {ref : Sig s c N} {est : Sig s c T}
    {out} (h : bssEvalSources B o false ref est = .ok out) : ∃ sd sa, sqCosPair B o ref est = .ok (sd, sa) ∧
      ∀ m (k : Fin c),
      out.sdr m (k.cast (min_self c).symm) = (baseMetrics o.clampDb (sd m k k) (sa m k)).1.neg ∧
      out.sir m (k.cast (min_self c).symm) = (baseMetrics o.clampDb (sd m k k) (sa m k)).2.1.neg ∧
      out.sar m (k.cast (min_self c).symm) = (baseMetrics o.clampDb (sd m k k) (sa m k)).2.2.neg := by
  have hcase : o.filterLength = 1 ∨ (o.useCgIter = none ∧ B.stackedVectors = true) := by
    rcases hsv with h1 | h1
    · exact Or.inl h1
    · rcases hdir with h2 | h2
      · exact Or.inl h2
      · exact Or.inr ⟨h2, h1⟩
  have key : ∀ {n : ℕ} (hn : n = c) (ref' : Sig s n N) (est' : Sig s n T) {out : BssOut s n}
      (_ : ∀ m k, ref' m k = ref m (k.cast hn)) (_ : ∀ m k, est' m k = est m (k.cast hn)),
      bssEvalNoPerm B o ref' est' = .ok out → ∃ sd sa, sqCosPair B o ref est = .ok (sd, sa) ∧ ∀ m (k : Fin c),
      out.sdr m (k.cast hn.symm) = (baseMetrics o.clampDb (sd m k k) (sa m k)).1.neg ∧
      out.sir m (k.cast hn.symm) = (baseMetrics o.clampDb (sd m k k) (sa m k)).2.1.neg ∧
      out.sar m (k.cast hn.symm) = (baseMetrics o.clampDb (sd m k k) (sa m k)).2.2.neg := by
    intro n hn ref' est' out h1 h2 h3
    subst hn
    obtain rfl : ref' = ref := funext fun m => funext fun k => h1 m k
    obtain rfl : est' = est := funext fun m => funext fun k => h2 m k
    unfold bssEvalNoPerm at h3
    cases hp : sqCosPair B o ref' est' with
    | error err =>
      obtain ⟨err', he⟩ := sqCosDiag_of_pair_error B o hcase hp
      rw [he] at h3; cases h3
    | ok p =>
      rw [sqCosDiag_of_pair B o hcase hp] at h3
      cases h3
      exact ⟨p.1, p.2, rfl, fun m k => ⟨rfl, rfl, rfl⟩⟩
  unfold bssEvalSources at h
  rw [if_neg (by simp), if_neg (by simp)] at h
  exact key (min_self c) _ _ (fun m k => rfl) (fun m k => rfl) h

theorem false_of_sqCosPair (hdir : o.direct) (hsv : o.filterLength = 1 ∨ B.stackedVectors = true) {ref : Sig s c N} {est : Sig s c T}
    {p} (h : sqCosPair B o ref est = .ok p) : ∃ out, bssEvalSources B o false ref est = .ok out := by
  have hcase : o.filterLength = 1 ∨ (o.useCgIter = none ∧ B.stackedVectors = true) := by
    rcases hsv with h1 | h1
    · exact Or.inl h1
    · rcases hdir with h2 | h2
      · exact Or.inl h2
      · exact Or.inr ⟨h2, h1⟩
  have key : ∀ {n : ℕ} (hn : n = c) (ref' : Sig s n N) (est' : Sig s n T)
      (_ : ∀ m k, ref' m k = ref m (k.cast hn)) (_ : ∀ m k, est' m k = est m (k.cast hn)),
      ∃ out, bssEvalNoPerm B o ref' est' = .ok out := by
    intro n hn ref' est' h1 h2
    subst hn
    obtain rfl : ref' = ref := funext fun m => funext fun k => h1 m k
    obtain rfl : est' = est := funext fun m => funext fun k => h2 m k
    unfold bssEvalNoPerm
    rw [sqCosDiag_of_pair B o hcase h]
    exact ⟨_, rfl⟩
  unfold bssEvalSources
  rw [if_neg (by simp), if_neg (by simp)]
  exact key (min_self c) _ _ (fun m k => rfl) (fun m k => rfl)

/-- **C51.**  Direct solver, `load_diag` absent or not negative, no permutation: if `bss_eval_sources`
returns for some sources, it returns for any selection `φ` of them.  The SDR of a source does not depend
on the other sources; its SAR can only grow and its SIR can only shrink when sources are added. -/
theorem C51_more_sources (hB : Covered B) (hdir : o.direct) (hsv : o.filterLength = 1 ∨ B.stackedVectors = true)
    (hload : 0 ≤ o.load) (hone : o.filterLength ≠ 1 ∨ o.load = 0)
    {ref : Sig s c' N} {est : Sig s c' T} {out'}
    (h : bssEvalSources B o false ref est = .ok out') {φ : Fin c → Fin c'} (hφ : Function.Injective φ) :
    ∃ out, bssEvalSources B o false (fun m k => ref m (φ k)) (fun m k => est m (φ k)) = .ok out ∧ ∀ m (k : Fin c),
      let i := k.cast (min_self c).symm
      let i' := (φ k).cast (min_self c').symm
      out'.sdr m i' = out.sdr m i ∧ toEReal (out.sar m i) ≤ toEReal (out'.sar m i') ∧
      (out.sir m i ≠ nan → out'.sir m i' ≠ nan ∧ toEReal (out'.sir m i') ≤ toEReal (out.sir m i)) := by
  obtain ⟨sd, sa, hp, hout'⟩ := sqCosPair_of_false hdir hsv h
  obtain ⟨sa', hp', hle⟩ := sqCosPair_sub hB hdir hload hp hφ φ
  have hex : ∃ out, bssEvalSources B o false (fun m k => ref m (φ k)) (fun m k => est m (φ k)) = .ok out :=
    false_of_sqCosPair hdir hsv hp'
  obtain ⟨out, hout⟩ := hex
  refine ⟨out, hout, fun m k => ?_⟩
  obtain ⟨sd2, sa2, hp2, h2⟩ := sqCosPair_of_false hdir hsv hout
  rw [hp'] at hp2
  cases hp2
  obtain ⟨a1, a2, a3⟩ := hout' m (φ k)
  obtain ⟨b1, b2, b3⟩ := h2 m k
  obtain ⟨r1, -, -, r4, r5⟩ := sqCosPair_range hB hdir hload _ _ hp m (φ k) (φ k)
  obtain ⟨-, -, q3, q4, q5⟩ := sqCosPair_range hB hdir hload _ _ hp' m k k
  have hsle := hle m k
  have hab := q5 hone
  show out'.sdr m ((φ k).cast _) = out.sdr m (k.cast _) ∧ toEReal (out.sar m (k.cast _)) ≤ toEReal (out'.sar m ((φ k).cast _)) ∧
    (out.sir m (k.cast _) ≠ nan → out'.sir m ((φ k).cast _) ≠ nan ∧ toEReal (out'.sir m ((φ k).cast _)) ≤ toEReal (out.sir m (k.cast _)))
  rw [a1, a2, a3, b1, b2, b3]
  unfold baseMetrics
  have hn : ∀ v, coherenceToNegSdr o.clampDb (fin v) ≠ nan := fun v h => by
    simpa using coherenceToNegSdr_eq_nan.1 h
  have hmono : ∀ {v w : ℝ}, v ≤ w → toEReal (coherenceToNegSdr o.clampDb (fin v)).neg ≤
      toEReal (coherenceToNegSdr o.clampDb (fin w)).neg := fun {v w} h => by
    rw [toEReal_neg (hn _), toEReal_neg (hn _)]
    exact EReal.neg_le_neg_iff.2 (coherenceToNegSdr_anti _ h)
  refine ⟨rfl, hmono hsle, fun hne => ?_⟩
  have hb0 : sa' m k ≠ 0 := by
    intro h0
    apply hne
    have ha0 : sd m (φ k) (φ k) = 0 := by linarith
    simp only [h0, ha0]
    show (coherenceToNegSdr _ (XR.div (fin 0) (fin 0))).neg = nan
    simp [XR.div, signInf, coherenceToNegSdr_nan, XR.neg]
  have hbp : 0 < sa' m k := lt_of_le_of_ne q3 (Ne.symm hb0)
  have hbp' : 0 < sa m (φ k) := lt_of_lt_of_le hbp hsle
  have d1 : XR.div (fin (sd m (φ k) (φ k))) (fin (sa m (φ k))) = fin (sd m (φ k) (φ k) / sa m (φ k)) := if_neg hbp'.ne'
  have d2 : XR.div (fin (sd m (φ k) (φ k))) (fin (sa' m k)) = fin (sd m (φ k) (φ k) / sa' m k) := if_neg hbp.ne'
  simp only [d1, d2]
  exact ⟨fun h => hn _ (neg_eq_nan.1 h), hmono (div_le_div_of_nonneg_left r1 hbp hsle)⟩

/-- The case of two sources, one of which is left out. -/
example : ∃ out' out, bssEvalSources torchBackend Ex.opts false Ex.ref Ex.est = .ok out' ∧
    bssEvalSources torchBackend Ex.opts false (fun m (_ : Fin 1) => Ex.ref m 1) (fun m (_ : Fin 1) => Ex.est m 1) =
      .ok out ∧ ∀ m, out'.sdr m (1 : Fin 2) = out.sdr m (0 : Fin 1) ∧
      toEReal (out.sar m (0 : Fin 1)) ≤ toEReal (out'.sar m (1 : Fin 2)) := by
  obtain ⟨p, hp⟩ := Ex.sqCosPair_ok
  obtain ⟨out', h'⟩ := false_of_sqCosPair Ex.direct (Or.inr rfl) hp
  obtain ⟨out, h, H⟩ := C51_more_sources Ex.covered Ex.direct (Or.inr rfl) Ex.load.ge (Or.inl (by decide)) h'
    (φ := fun _ : Fin 1 => 1) (fun a b _ => Subsingleton.elim a b)
  exact ⟨out', out, h', h, fun m => ⟨(H m 0).1, (H m 0).2.1⟩⟩

/-! ### more candidates -/

/-- The pairwise coherences of selected references. -/
theorem sdrCohPair_ref {ref : Sig s r' N} {est : Sig s e T} {coh} (h : sdrCohPair B o ref est = .ok coh)
    (φ : BIdx s → Fin r → Fin r') :
    sdrCohPair B o (fun m k => ref m (φ m k)) est = .ok fun m k j => coh m (φ m k) j := by
  by_cases h0 : o.filterLength = 0
  · rw [sdrCohPair_zero B h0] at h; cases h
  by_cases h1 : o.filterLength = 1
  · by_cases hT : T = N
    case neg => rw [sdrCohPair_ne B h1 hT] at h; cases h
    subst hT
    rw [sdrCohPair_def, if_neg h0, if_pos h1] at h ⊢; cases h; rfl
  rw [sdrCohPair_gen B (by omega)] at h ⊢
  unfold sdrCohPairGen at h ⊢
  cases hn : nFft N T with
  | error err => rw [hn] at h; cases h
  | ok n =>
    rw [hn] at h
    have ea : sdrAcf o n (fun m k => ref m (φ m k)) = fun m k => sdrAcf o n ref m (φ m k) := rfl
    have ex : sdrXcorr o n (fun m k => ref m (φ m k)) est = fun m k => sdrXcorr o n ref est m (φ m k) := rfl
    simp only [ea, ex] at h ⊢
    cases hcg : o.useCgIter with
    | some it => rw [hcg] at h; cases h; rfl
    | none =>
      rw [hcg] at h
      simp only [solveStack] at h ⊢
      by_cases hs : ∃ i : BIdx s × Fin r', (toeplitz B (min o.filterLength n) (sdrAcf o n ref i.1 i.2)).det = 0
      · rw [if_pos hs] at h; cases h
      · rw [if_neg hs] at h
        rw [if_neg (fun ⟨i, hi⟩ => hs ⟨(i.1, φ i.1 i.2), hi⟩)]
        cases h
        rfl

/-- **C51.**  The pairwise SDRs of some of the references and estimates are the entries of the matrix for
all of them, whatever the options. -/
theorem C51_pairwise {ref : Sig s r' N} {est : Sig s e' T} {L} (h : pairwiseSdrLoss B o est ref = .ok L)
    (φ : Fin r → Fin r') (ψ : Fin e → Fin e') :
    pairwiseSdrLoss B o (fun m j => est m (ψ j)) (fun m k => ref m (φ k)) = .ok fun m k j => L m (φ k) (ψ j) := by
  unfold pairwiseSdrLoss sdrLossPair at h ⊢
  cases hc : sdrCohPair B o ref est with
  | error err => rw [hc] at h; cases h
  | ok coh =>
    rw [hc] at h
    cases h
    have h1 := sdrCohPair_pick (B := B) (o := o) (fun (_ : BIdx s) => ψ) ref est
    rw [hc] at h1
    have h2 := sdrCohPair_ref (B := B) (o := o) (est := fun m j => est m (ψ j)) h1 (fun _ => φ)
    rw [h2]

/-- A pairing of selected channels as a pairing of all channels. -/
def pairingSub (hmin : min r e = min r' e') {φ : Fin r → Fin r'} (hφ : Function.Injective φ) {ψ : Fin e → Fin e'}
    (hψ : Function.Injective ψ) (P : Pairing r e) : Pairing r' e' where
  ref k := φ (P.ref (k.cast hmin.symm))
  est k := ψ (P.est (k.cast hmin.symm))
  ref_inj := hφ.comp (P.ref_inj.comp (Fin.cast_injective _))
  est_inj := hψ.comp (P.est_inj.comp (Fin.cast_injective _))

theorem eTotal_cast {n n' : ℕ} (h : n = n') (v : Fin n → XR) : eTotal (fun k : Fin n' => v (k.cast h.symm)) = eTotal v := by
  subst h; rfl

/-- **C51.**  More candidates, with as many pairs to be formed (for instance more estimates than
references): the total SDR of `sdr` does not get worse. -/
theorem C51_more_candidates (hB : Covered B) (hmin : min r e = min r' e') {ref : Sig s r' N} {est : Sig s e' T}
    {φ : Fin r → Fin r'} (hφ : Function.Injective φ) {ψ : Fin e → Fin e'} (hψ : Function.Injective ψ) {rp rp' out out'}
    (h : sdr B o rp false (fun m k => ref m (φ k)) (fun m j => est m (ψ j)) = .ok out)
    (h' : sdr B o rp' false ref est = .ok out') (m : BIdx s) : eTotal (out.sdr m) ≤ eTotal (out'.sdr m) := by
  obtain ⟨L', p', hL', hp', a1, -⟩ := sdr_ok h'
  obtain ⟨L, p, hL, hp, b1, -⟩ := sdr_ok h
  have e1 := Except.ok.inj (hL.symm.trans (C51_pairwise hL' φ ψ))
  obtain ⟨L2, _, hL2, -, hC⟩ := C11_sdr_best_pairing hB (sdr_of_ok true false hL hp)
  obtain rfl := Except.ok.inj (hL.symm.trans hL2)
  obtain ⟨L3, _, hL3, -, hC'⟩ := C11_sdr_best_pairing hB (sdr_of_ok true false hL' hp')
  obtain rfl := Except.ok.inj (hL'.symm.trans hL3)
  obtain ⟨P, -, -, hv, -⟩ := hC m
  obtain ⟨-, -, -, -, hmax⟩ := hC' m
  have := hmax (pairingSub hmin hφ hψ P)
  have e2 : (pairingSub hmin hφ hψ P).values (fun k j => (L' m k j).neg) = fun k => out.sdr m (k.cast hmin.symm) := by
    funext k
    have := hv (k.cast hmin.symm)
    rw [b1]
    exact (this.trans (by rw [e1]; rfl)).symm
  rw [e2, eTotal_cast hmin] at this
  rw [a1]
  exact this

/-- **C51.**  The same for the total SIR of `bss_eval_sources` when estimates are added. -/
theorem C51_more_estimates (hB : Covered B) (hre : r ≤ e) {ref : Sig s r N} {est : Sig s e' T}
    {ψ : Fin e → Fin e'} (hψ : Function.Injective ψ) {out out'}
    (h : bssEvalSources B o true ref (fun m j => est m (ψ j)) = .ok out)
    (h' : bssEvalSources B o true ref est = .ok out') (m : BIdx s) : eTotal (out.sir m) ≤ eTotal (out'.sir m) := by
  have hee : e ≤ e' := by simpa using Fintype.card_le_of_injective ψ hψ
  have hmin : min r e = min r e' := by rw [min_eq_left hre, min_eq_left (hre.trans hee)]
  obtain ⟨sd, sa, perm, h1, -, h3⟩ := C12_bss_eval_best_pairing hB h
  obtain ⟨sd', sa', perm', h1', -, h3'⟩ := C12_bss_eval_best_pairing hB h'
  have hpick := sqCosPair_pick (B := B) (o := o) (fun (_ : BIdx s) => ψ) ref est
  rw [h1'] at hpick
  have e1 := Except.ok.inj (h1.symm.trans hpick)
  obtain ⟨P, -, -, hv, -⟩ := h3 m
  obtain ⟨-, -, -, -, hmax⟩ := h3' m
  have := hmax (pairingSub hmin Function.injective_id hψ P)
  have e2 : (pairingSub hmin Function.injective_id hψ P).values
      (fun k j => (baseMetrics o.clampDb (sd' m k j) (sa' m j)).2.1.neg) = fun k => out.sir m (k.cast hmin.symm) := by
    funext k
    rw [(hv (k.cast hmin.symm)).2.1]
    cases e1
    rfl
  rw [e2, eTotal_cast hmin] at this
  exact this

-- two references, a third estimate is added (a copy of the first one)
example : ∃ out out', bssEvalSources torchBackend Ex.opts true Ex.ref Ex.est = .ok out ∧
    bssEvalSources torchBackend Ex.opts true Ex.ref (fun m (j : Fin 3) => Ex.est m (![0, 1, 0] j)) = .ok out' ∧
    ∀ m, eTotal (out.sir m) ≤ eTotal (out'.sir m) := by
  have hb : sqCosPair torchBackend Ex.opts Ex.ref (fun m (j : Fin 3) => Ex.est m (![0, 1, 0] j)) = _ :=
    sqCosPair_related Ex.covered (related_of_prep (fun _ _ => one_mul 1) (fun _ _ => one_mul 1)
      (fun _ _ => funext fun _ => (one_mul _).symm) (fun _ _ => funext fun _ => (one_mul _).symm) :
      Related Ex.opts Ex.ref Ex.est Ex.ref (fun m (j : Fin 3) => Ex.est m (![0, 1, 0] j)) id
        (fun _ => Equiv.refl _) (fun _ => ![0, 1, 0]) (fun _ _ => 1) (fun _ _ => 1)) Ex.sqCosPair_value
  obtain ⟨out, h0⟩ := Ex.bssPerm_cl none
  have h : bssEvalSources torchBackend Ex.opts true Ex.ref (fun m j => (fun m (j : Fin 3) => Ex.est m (![0, 1, 0] j)) m
      (![0, 1] j)) = .ok out := by
    rw [← h0]
    show bssEvalSources torchBackend Ex.opts true _ _ = bssEvalSources torchBackend Ex.opts true _ _
    congr 1
    funext m j
    fin_cases j <;> rfl
  obtain ⟨p, hp⟩ := (solvePermutation_ok_iff torchBackend Ex.covered.lsa (negSir Ex.opts _ _) (nArgs := 2)
    ![negSdr Ex.opts _ _, negSar Ex.opts _ _]).2 fun m => solvable_of_finite fun k j => by
      show ∃ y, coherenceToNegSdr none (XR.div (fin (if k = (![0, 1, 0] : Fin 3 → Fin 2) j then 4 / 5 else 1 / 5)) (fin 1)) = fin y
      have : ∀ a : ℝ, XR.div (fin a) (fin 1) = fin a := fun a => by simp [XR.div]
      rw [this]
      split <;> exact Ex.loss_finite none (by norm_num) (by norm_num)
  have h' := bssEvalPerm_of_ok hb hp
  exact ⟨out, _, h0, h', C51_more_estimates Ex.covered le_rfl (ψ := ![0, 1]) (by decide) h h'⟩

/-- One reference, the second estimate is a new candidate. -/
example : ∃ out out', sdr torchBackend { Ex.opts with clampDb := some 30 } false false
      (fun m (_ : Fin 1) => Ex.ref m 0) (fun m (_ : Fin 1) => Ex.est m 0) = .ok out ∧
    sdr torchBackend { Ex.opts with clampDb := some 30 } false false (fun m (_ : Fin 1) => Ex.ref m 0) Ex.est = .ok out' ∧
    ∀ m, eTotal (out.sdr m) ≤ eTotal (out'.sdr m) := by
  obtain ⟨coh, hc⟩ := Ex.sdrCohPair_ok
  have hc' : sdrCohPair torchBackend { Ex.opts with clampDb := some 30 } Ex.ref Ex.est = .ok coh := hc
  have hL : pairwiseSdrLoss torchBackend { Ex.opts with clampDb := some 30 } Ex.est Ex.ref =
      .ok fun m k j => coherenceToNegSdr (some 30) (fin (coh m k j)) := by
    unfold pairwiseSdrLoss sdrLossPair; rw [hc']
  obtain ⟨out, h⟩ := C17_sdr_clamped_never_fails (o := { Ex.opts with clampDb := some 30 }) Ex.covered
    false false rfl (C51_pairwise hL (fun _ : Fin 1 => 0) (fun _ : Fin 1 => 0))
  obtain ⟨out', h'⟩ := C17_sdr_clamped_never_fails (o := { Ex.opts with clampDb := some 30 }) Ex.covered
    false false rfl (C51_pairwise hL (fun _ : Fin 1 => 0) id)
  exact ⟨out, out', h, h', C51_more_candidates (ref := fun m (_ : Fin 1) => Ex.ref m 0) (φ := id) (ψ := fun _ : Fin 1 => 0)
    Ex.covered (by decide) Function.injective_id (fun a b _ => Subsingleton.elim a b) h h'⟩

end FBE.Props
