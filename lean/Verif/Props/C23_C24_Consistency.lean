import Verif.Proofs.Example
import Verif.Proofs.Local
import Verif.Props.C01_C04_Documented
import Verif.Props.C11_C17_Permutation
import Verif.Props.C31_C37_Statistics
import Verif.Proofs.ExampleRuns

/-!
# C23, C24, C38, C41, C42, C43 — the functions agree with each other
-/

namespace FBE.Props

open Spec XR Matrix

variable {s : List ℕ} {r e c N T : ℕ} {B : Backend} {o : Opts}

/-! ### C23 -/

/-- **C23.**  `sdr_loss(pairwise=False)` is the diagonal of `sdr_loss(pairwise=True)`: the same
exception or the same values, for the direct and for the iterative solver.  (numpy >= 2 with the direct
solver is excluded: see C43.) -/
theorem C23_diagonal (h : o.filterLength = 1 ∨ o.useCgIter ≠ none ∨ B.stackedVectors = true)
    (ref : Sig s c N) (est : Sig s c T) :
    sdrLossDiag B o est ref = (sdrLossPair B o est ref).map fun M m k => M m k k := by
  unfold sdrLossDiag sdrLossPair
  rw [sdrCohDiag_eq B o h]
  cases sdrCohPair B o ref est <;> rfl

example : ∃ L, sdrLossPair torchBackend Ex.opts Ex.est Ex.ref = .ok L ∧
    sdrLossDiag torchBackend Ex.opts Ex.est Ex.ref = .ok fun m k => L m k k := by
  have h := C23_diagonal (B := torchBackend) (o := Ex.opts) (Or.inr (Or.inr rfl)) Ex.ref Ex.est
  have h0 : sdrLossPair torchBackend Ex.opts Ex.est Ex.ref = _ := Ex.sdrLossPair_cl none
  rw [h0] at h
  exact ⟨_, h0, h⟩

/-- A consequence that does not mention the pairwise call: the value for channel `k` depends on the
estimate of that channel only. -/
theorem C23_other_estimates (h : o.filterLength = 1 ∨ o.useCgIter ≠ none ∨ B.stackedVectors = true)
    (ref : Sig s c N) (est est' : Sig s c T) {M} (hM : sdrLossDiag B o est ref = .ok M) :
    ∃ M', sdrLossDiag B o est' ref = .ok M' ∧ ∀ m k, est m k = est' m k → M m k = M' m k := by
  rw [C23_diagonal h] at hM
  cases hp : sdrLossPair B o est ref with
  | error err => rw [hp] at hM; cases hM
  | ok P =>
    rw [hp] at hM
    cases hM
    -- both stacks of estimates are selected from their concatenation
    let both : Sig s (c + c) T := fun m => Fin.append (est m) (est' m)
    have e1 : est = pick (fun _ k => Fin.castAdd c k) both := by
      funext m k; exact (Fin.append_left _ _ _).symm
    have e2 : est' = pick (fun _ k => Fin.natAdd c k) both := by
      funext m k; exact (Fin.append_right _ _ _).symm
    obtain ⟨coh, hc, rfl⟩ := sdrLossPair_entry hp
    rw [e1, sdrCohPair_pick] at hc
    cases hb : sdrCohPair B o ref both with
    | error err => rw [hb] at hc; cases hc
    | ok cb =>
      rw [hb] at hc
      cases hc
      have h2 : sdrCohPair B o ref est' = .ok fun m k j => cb m k (Fin.natAdd c j) := by
        rw [e2, sdrCohPair_pick, hb]; rfl
      refine ⟨_, by rw [C23_diagonal h]; unfold sdrLossPair; rw [h2]; rfl, fun m k hk => ?_⟩
      -- selecting the estimate `k` of the second stack for one batch item
      have h3 : sdrCohPair B o ref (pick (fun _ _ => Fin.castAdd c k) both : Sig s 1 T) =
          .ok fun m i _ => cb m i (Fin.castAdd c k) := by rw [sdrCohPair_pick, hb]; rfl
      have h4 : sdrCohPair B o ref (pick (fun m' _ => if m' = m then Fin.natAdd c k else Fin.castAdd c k)
          both : Sig s 1 T) = .ok fun m' i _ => cb m' i (if m' = m then Fin.natAdd c k else Fin.castAdd c k) := by
        rw [sdrCohPair_pick, hb]; rfl
      have e3 : (pick (fun m' _ => if m' = m then Fin.natAdd c k else Fin.castAdd c k) both : Sig s 1 T) =
          pick (fun _ _ => Fin.castAdd c k) both := by
        funext m' j
        show both m' (if m' = m then Fin.natAdd c k else Fin.castAdd c k) = both m' (Fin.castAdd c k)
        by_cases hm : m' = m
        · subst hm
          rw [if_pos rfl]
          show Fin.append (est m') (est' m') _ = Fin.append (est m') (est' m') _
          rw [Fin.append_left, Fin.append_right, hk]
        · rw [if_neg hm]
      rw [e3, h3] at h4
      have h5 := congrFun (congrFun (congrFun (Except.ok.inj h4) m) k) 0
      rw [if_pos rfl] at h5
      show coherenceToNegSdr _ (fin (cb m k (Fin.castAdd c k))) = coherenceToNegSdr _ _
      rw [h5]

/-! ### C24 -/

/-- The reported values of `bss_eval_sources(compute_permutation=False)` from the pairwise ones. -/
theorem bssEvalSources_false_of (hdir : o.useCgIter = none)
    (hsv : o.filterLength = 1 ∨ B.stackedVectors = true) {ref : Sig s c N} {est : Sig s c T} {sd sa}
    (h : sqCosPair B o ref est = .ok (sd, sa)) :
    ∃ out, bssEvalSources B o false ref est = .ok out ∧ out.perm = none ∧ ∀ m (k : Fin c),
      out.sdr m (k.cast (min_self c).symm) = (baseMetrics o.clampDb (sd m k k) (sa m k)).1.neg ∧
      out.sir m (k.cast (min_self c).symm) = (baseMetrics o.clampDb (sd m k k) (sa m k)).2.1.neg ∧
      out.sar m (k.cast (min_self c).symm) = (baseMetrics o.clampDb (sd m k k) (sa m k)).2.2.neg := by
  have key : ∀ {n : ℕ} (hn : n = c) (ref' : Sig s n N) (est' : Sig s n T)
      (_ : ∀ m k, ref' m k = ref m (k.cast hn)) (_ : ∀ m k, est' m k = est m (k.cast hn)),
      ∃ out, bssEvalNoPerm B o ref' est' = .ok out ∧ out.perm = none ∧ ∀ m (k : Fin c),
      out.sdr m (k.cast hn.symm) = (baseMetrics o.clampDb (sd m k k) (sa m k)).1.neg ∧
      out.sir m (k.cast hn.symm) = (baseMetrics o.clampDb (sd m k k) (sa m k)).2.1.neg ∧
      out.sar m (k.cast hn.symm) = (baseMetrics o.clampDb (sd m k k) (sa m k)).2.2.neg := by
    intro n hn ref' est' h1 h2
    subst hn
    obtain rfl : ref' = ref := funext fun m => funext fun k => h1 m k
    obtain rfl : est' = est := funext fun m => funext fun k => h2 m k
    unfold bssEvalNoPerm
    rw [sqCosDiag_of_pair B o (hsv.imp id fun h => ⟨hdir, h⟩) h]
    exact ⟨_, rfl, rfl, fun m k => ⟨rfl, rfl, rfl⟩⟩
  obtain ⟨out, h1, h2⟩ := key (min_self c) (fun m k => ref m (k.castLE (min_le_left c c)))
    (fun m k => est m (k.castLE (min_le_right c c))) (fun m k => rfl) (fun m k => rfl)
  refine ⟨out, ?_, h2⟩
  unfold bssEvalSources
  rw [if_neg (by simp), if_neg (by simp)]
  exact h1

/-- **C24.**  Direct solver, at least as many estimates as references: if the estimates are selected
and reordered by the permutation returned by `bss_eval_sources` (`est[perm]`), evaluating them without
permutation gives the same SDR, SIR and SAR. -/
theorem C24_reevaluation (hB : Covered B) (hdir : o.useCgIter = none)
    (hsv : o.filterLength = 1 ∨ B.stackedVectors = true) (hre : r ≤ e) {ref : Sig s r N} {est : Sig s e T}
    {out} (h : bssEvalSources B o true ref est = .ok out) :
    ∃ (perm : BIdx s → Fin (min r e) → ℕ) (hp : ∀ m k, perm m k < e), out.perm = some perm ∧
      ∃ out', bssEvalSources B o false ref
        (fun m (k : Fin r) => est m ⟨perm m (k.cast (min_eq_left hre).symm), hp _ _⟩) = .ok out' ∧
      ∀ m (k : Fin r),
        out'.sdr m (k.cast (min_self r).symm) = out.sdr m (k.cast (min_eq_left hre).symm) ∧
        out'.sir m (k.cast (min_self r).symm) = out.sir m (k.cast (min_eq_left hre).symm) ∧
        out'.sar m (k.cast (min_self r).symm) = out.sar m (k.cast (min_eq_left hre).symm) := by
  obtain ⟨sd, sa, perm, h1, h2, h3⟩ := C12_bss_eval_best_pairing hB h
  have hp : ∀ m k, perm m k < e := fun m k => by
    obtain ⟨P, hP, -⟩ := h3 m
    rw [(hP.est hre k).2]
    exact (P.est k).isLt
  refine ⟨perm, hp, h2, ?_⟩
  have hs : sqCosPair B o ref (fun m (k : Fin r) => est m ⟨perm m (k.cast (min_eq_left hre).symm), hp _ _⟩) =
      .ok (fun m k j => sd m k ⟨perm m (j.cast (min_eq_left hre).symm), hp _ _⟩,
        fun m j => sa m ⟨perm m (j.cast (min_eq_left hre).symm), hp _ _⟩) := by
    have := sqCosPair_pick (B := B) (o := o)
      (fun m (k : Fin r) => (⟨perm m (k.cast (min_eq_left hre).symm), hp _ _⟩ : Fin e)) ref est
    rw [h1] at this
    exact this
  obtain ⟨out', h4, -, h5⟩ := bssEvalSources_false_of hdir hsv hs
  refine ⟨out', h4, fun m k => ?_⟩
  obtain ⟨P, hP, -, hv, -⟩ := h3 m
  obtain ⟨v1, v2, v3⟩ := hv (k.cast (min_eq_left hre).symm)
  obtain ⟨w1, w2, w3⟩ := h5 m k
  have hr : P.ref (k.cast (min_eq_left hre).symm) = k := Fin.ext (hP.est hre _).1
  have he : (⟨perm m (k.cast (min_eq_left hre).symm), hp _ _⟩ : Fin e) =
      P.est (k.cast (min_eq_left hre).symm) := Fin.ext (hP.est hre _).2
  rw [hr, ← he] at v1 v2 v3
  exact ⟨w1.trans v1.symm, w2.trans v2.symm, w3.trans v3.symm⟩

example : ∃ (out : BssOut [] 2) (perm : BIdx [] → Fin 2 → ℕ) (hp : ∀ m k, perm m k < 2) (out' : BssOut [] 2),
    bssEvalSources torchBackend Ex.opts true Ex.ref Ex.est = .ok out ∧
    out.perm = some perm ∧ bssEvalSources torchBackend Ex.opts false Ex.ref
      (fun m (k : Fin 2) => Ex.est m ⟨perm m k, hp m k⟩) = .ok out' ∧ ∀ m k, out'.sir m k = out.sir m k := by
  obtain ⟨out, h⟩ := Ex.bss_cl none true
  obtain ⟨perm, hp, h1, out', h2, h3⟩ := C24_reevaluation (o := Ex.opts) Ex.covered rfl (Or.inr rfl) le_rfl h
  exact ⟨out, perm, hp, out', h, h1, h2, fun m k => (h3 m k).2.1⟩

/-- **C24.**  If the permutation is the identity, the calls with and without permutation agree. -/
theorem C24_identity (hB : Covered B) (hdir : o.useCgIter = none)
    (hsv : o.filterLength = 1 ∨ B.stackedVectors = true) {ref : Sig s c N} {est : Sig s c T} {out}
    (h : bssEvalSources B o true ref est = .ok out) (hid : out.perm = some fun _ k => k.val) :
    bssEvalSources B o false ref est = .ok { out with perm := none } := by
  obtain ⟨perm, hp, h1, out', h2, h3⟩ := C24_reevaluation hB hdir hsv le_rfl h
  rw [hid] at h1
  cases h1
  have e1 : (fun m (k : Fin c) => est m ⟨(k.cast (min_eq_left (le_refl c)).symm).val, hp m _⟩) = est := rfl
  rw [e1] at h2
  rw [h2]
  have hperm : out'.perm = none := by
    obtain ⟨_, _, _, rfl⟩ := bssEvalSources_false h2
    rfl
  have hs : ∀ m k, out'.sdr m k = out.sdr m k := fun m k => (h3 m (k.cast (min_self c))).1
  have hi : ∀ m k, out'.sir m k = out.sir m k := fun m k => (h3 m (k.cast (min_self c))).2.1
  have ha : ∀ m k, out'.sar m k = out.sar m k := fun m k => (h3 m (k.cast (min_self c))).2.2
  obtain ⟨a, b, c', d⟩ := out'
  obtain ⟨a', b', c'', d'⟩ := out
  simp only at hs hi ha hperm
  obtain rfl : a = a' := funext fun m => funext (hs m)
  obtain rfl : b = b' := funext fun m => funext (hi m)
  obtain rfl : c' = c'' := funext fun m => funext (ha m)
  subst hperm
  rfl

example : ∃ out, bssEvalSources torchBackend Ex.opts true Ex.ref Ex.est = .ok out ∧
    bssEvalSources torchBackend Ex.opts false Ex.ref Ex.est = .ok { out with perm := none } := by
  obtain ⟨out, h, hid⟩ := Ex.bss_identity
  exact ⟨out, h, C24_identity (o := Ex.opts) Ex.covered rfl (Or.inr rfl) h hid⟩

/-! ### C38 -/

/-- **C38.**  For the same options (any solver) the total SDR of `sdr` is at least that of the SDRs
reported by `bss_eval_sources` with permutation, for every batch item. -/
theorem C38_total_sdr (hB : Covered B) {ref : Sig s r N} {est : Sig s e T} {rp : Bool} {out out'}
    (h : sdr B o rp false ref est = .ok out) (h' : bssEvalSources B o true ref est = .ok out') (m : BIdx s) :
    eTotal (out'.sdr m) ≤ eTotal (out.sdr m) := by
  obtain ⟨L, p, hL, hp, h1, -⟩ := sdr_ok h
  obtain ⟨sd, sa, perm, h2, -, h3⟩ := C12_bss_eval_best_pairing hB h'
  obtain ⟨P, -, -, hv, -⟩ := h3 m
  obtain ⟨L', p', hL', -, hC⟩ := C11_sdr_best_pairing hB (sdr_of_ok true false hL hp)
  have hLe : sdrLossPair B o est ref = .ok fun m k j => coherenceToNegSdr o.clampDb (fin (sd m k j)) := by
    unfold sdrLossPair
    rw [sqCosPair_sdr ref est h2]
  have e1 : L = fun m k j => coherenceToNegSdr o.clampDb (fin (sd m k j)) :=
    Except.ok.inj (hL.symm.trans hLe)
  have e2 := Except.ok.inj (hL.symm.trans hL')
  obtain ⟨-, -, -, -, hmax⟩ := hC m
  have := hmax P
  rw [← e2, e1] at this
  have e3 : out'.sdr m = P.values fun k j => (coherenceToNegSdr o.clampDb (fin (sd m k j))).neg :=
    funext fun k => (hv k).1
  rw [e3]
  refine this.trans (le_of_eq ?_)
  rw [h1]

/-- **C38.**  The same without permutation: `sdr` scores at least the identity alignment. -/
theorem C38_total_sdr_no_permutation (hB : Covered B)
    (hsv : o.filterLength = 1 ∨ o.useCgIter ≠ none ∨ B.stackedVectors = true) {ref : Sig s c N} {est : Sig s c T}
    {rp : Bool} {out M} (h : sdr B o rp false ref est = .ok out) (h' : sdrLossDiag B o est ref = .ok M)
    (m : BIdx s) : eTotal (fun k => (M m k).neg) ≤ eTotal (out.sdr m) := by
  obtain ⟨L, p, hL, hp, h1, -⟩ := sdr_ok h
  obtain ⟨L', p', hL', -, hC⟩ := C11_sdr_best_pairing hB (sdr_of_ok true false hL hp)
  have e2 := Except.ok.inj (hL.symm.trans hL')
  obtain ⟨-, -, -, -, hmax⟩ := hC m
  rw [C23_diagonal hsv, hL] at h'
  cases h'
  let P : Pairing c c := ⟨Fin.cast (min_self c), Fin.cast (min_self c), Fin.cast_injective _,
    Fin.cast_injective _⟩
  have := hmax P
  rw [← e2] at this
  have e3 : eTotal (fun k => (L m k k).neg) = eTotal (P.values fun k j => (L m k j).neg) := by
    unfold eTotal
    exact (Fintype.sum_equiv (finCongr (min_self c)) _ _ fun k => rfl).symm
  rw [e3]
  refine this.trans (le_of_eq ?_)
  rw [h1]

example : ∃ out M, sdr torchBackend Ex.opts true false Ex.ref Ex.est = .ok out ∧
    sdrLossDiag torchBackend Ex.opts Ex.est Ex.ref = .ok M ∧
    ∀ m, eTotal (fun k => (M m k).neg) ≤ eTotal (out.sdr m) := by
  obtain ⟨out, h⟩ := Ex.sdr_cl none true false
  exact ⟨out, _, h, Ex.sdrLossDiag_cl none, C38_total_sdr_no_permutation (o := Ex.opts) Ex.covered
    (Or.inr (Or.inr rfl)) h (Ex.sdrLossDiag_cl none)⟩

/-! ### C41 -/

/-- **C41.**  With `filter_length=1`, `load_diag` has no effect on `sdr_loss` and `sdr`. -/
theorem C41_load_ignored (hL : o.filterLength = 1) (d : Option ℝ) (rp cs : Bool) :
    (∀ (ref : Sig s c N) (est : Sig s c T), sdrLossDiag B { o with loadDiag := d } est ref = sdrLossDiag B o est ref) ∧
    (∀ (ref : Sig s r N) (est : Sig s e T),
      sdrLossPair B { o with loadDiag := d } est ref = sdrLossPair B o est ref) ∧
    ∀ (ref : Sig s r N) (est : Sig s e T),
      sdr B { o with loadDiag := d } rp cs ref est = sdr B o rp cs ref est := by
  have key : ∀ (ref : Sig s r N) (est : Sig s e T),
      sdrLossPair B { o with loadDiag := d } est ref = sdrLossPair B o est ref := by
    intro ref est
    unfold sdrLossPair
    by_cases hT : T = N
    case neg => rw [sdrCohPair_ne B (by exact hL) hT, sdrCohPair_ne B hL hT]
    subst hT
    simp only [sdrCohPair_def]
    rw [if_neg (by show o.filterLength ≠ 0; omega), if_pos (by exact hL), if_neg (by omega), if_pos hL]
    rfl
  refine ⟨fun ref est => ?_, key, fun ref est => ?_⟩
  · unfold sdrLossDiag
    by_cases hT : T = N
    case neg => rw [sdrCohDiag_ne B (by exact hL) hT, sdrCohDiag_ne B hL hT]
    subst hT
    simp only [sdrCohDiag_def]
    rw [if_neg (by show o.filterLength ≠ 0; omega), if_pos (by exact hL), if_neg (by omega), if_pos hL]
    rfl
  · unfold sdr
    rw [key]

example : sdrLossPair torchBackend { Ex.opts with filterLength := 1, loadDiag := some 5 } Ex.est Ex.ref =
    sdrLossPair torchBackend { Ex.opts with filterLength := 1 } Ex.est Ex.ref :=
  (C41_load_ignored (s := []) (r := 2) (e := 2) (c := 2) (o := { Ex.opts with filterLength := 1 }) rfl (some 5)
    true false).2.1 Ex.ref Ex.est

/-- **C41.**  With `filter_length=1` the SDRs of `bss_eval_sources` without permutation do not depend
on `load_diag` either.  (The SAR does: `C04_fails_loaded_length_one`.) -/
theorem C41_load_ignored_bss_eval (hL : o.filterLength = 1) (d : Option ℝ) {ref : Sig s c N} {est : Sig s c T} {out out'}
    (h : bssEvalSources B { o with loadDiag := d } false ref est = .ok out)
    (h' : bssEvalSources B o false ref est = .ok out') : out.sdr = out'.sdr := by
  obtain ⟨sd, sa, h1, rfl⟩ := bssEvalSources_false h
  obtain ⟨sd', sa', h2, rfl⟩ := bssEvalSources_false h'
  by_cases hT : T = N
  case neg => rw [sqCosDiag_ne B hL hT] at h2; cases h2
  subst hT
  simp only [sqCosDiag_def] at h1 h2
  rw [if_neg (by show o.filterLength ≠ 0; omega), if_pos (by exact hL)] at h1
  rw [if_neg (by omega), if_pos hL] at h2
  split at h1
  · cases h1
  split at h2
  · cases h2
  cases h1
  cases h2
  rfl

example : ∃ out out', bssEvalSources torchBackend { Ex.opts with filterLength := 1, loadDiag := some 5 } false
      Ex.ref Ex.est = .ok out ∧
    bssEvalSources torchBackend { Ex.opts with filterLength := 1 } false Ex.ref Ex.est = .ok out' ∧
    out.sdr = out'.sdr := by
  have key : ∀ d : Option ℝ, (∃ p, sqCosPair torchBackend { Ex.opts with filterLength := 1, loadDiag := d } Ex.ref
      Ex.est = .ok p) → ∃ out, bssEvalSources torchBackend { Ex.opts with filterLength := 1, loadDiag := d } false
      Ex.ref Ex.est = .ok out := by
    rintro d ⟨⟨sd, sa⟩, h⟩
    have h' : sqCosPair torchBackend { Ex.opts with filterLength := 1, loadDiag := d }
      (fun m (k : Fin (min 2 2)) => Ex.ref m (k.castLE (min_le_left 2 2)))
      (fun m (k : Fin (min 2 2)) => Ex.est m (k.castLE (min_le_right 2 2))) = .ok (sd, sa) := h
    unfold bssEvalSources bssEvalNoPerm
    rw [if_neg (by simp), if_neg (by simp), sqCosDiag_of_pair _ _ (Or.inl rfl) h']
    exact ⟨_, rfl⟩
  obtain ⟨out, h⟩ := key (some 5) (sqCosPair_loaded (o := { Ex.opts with filterLength := 1, loadDiag := some 5 })
    Ex.covered (Or.inl rfl) le_rfl (by norm_num [Opts.load]) Ex.nFft_three (by decide) (fun _ => rfl) _ _)
  obtain ⟨out', h'⟩ := key none ((Ex.si_sqCosPair none).elim fun _ h => h.elim fun _ h => ⟨_, h.1⟩)
  exact ⟨out, out', h, h', C41_load_ignored_bss_eval (o := { Ex.opts with filterLength := 1 }) rfl (some 5) h h'⟩

/-! ### C42 -/

theorem refFam_one (x : Fin N → ℝ) :
    refFam (fun x i => shift N x i) 1 x = fun _ => shift N x 0 := by
  funext i
  rw [Subsingleton.elim i 0]
  rfl

theorem gramD_one (hload : o.load = 0) {n : ℕ} (hNn : N ≤ n) {ref : Sig s r N}
    (F : Fam N N 1 n (fun x i => shift N x i) (fun y => shift N y 0))
    (ha : ∀ m k, Audible (centred o.zeroMean (ref m k))) (m : BIdx s) (k : Fin r) :
    gramD (refFam (fun x i => shift N x i) 1 (prep o ref m k)) o.load = 1 := by
  have hsq : ‖shift N (prep o ref m k) 0‖ ^ 2 = 1 := by
    rw [F.g_sq hNn]
    exact prep_sq_eq o ref m k (ha m k)
  ext i j
  rw [refFam_one, hload]
  unfold gramD
  rw [Subsingleton.elim i 0, Subsingleton.elim j 0]
  simp [hsq]

theorem det_one (hload : o.load = 0) {n : ℕ} (hNn : N ≤ n) {ref : Sig s r N}
    (F : Fam N N 1 n (fun x i => shift N x i) (fun y => shift N y 0))
    (ha : ∀ m k, Audible (centred o.zeroMean (ref m k))) (m : BIdx s) (k : Fin r) :
    (gramD (refFam (fun x i => shift N x i) 1 (prep o ref m k)) o.load).det = 1 := by
  rw [gramD_one hload hNn F ha, Matrix.det_one]

/-- **C42.**  Direct solver, no loading, references of norm at least `1e-6`, at least one sample: for
`filter_length=1` the general code of `sdr_loss` (correlations by FFT, linear systems) would give the
values of the shortcut. -/
theorem C42_shortcut (hB : Covered B) (hdir : o.useCgIter = none) (hload : o.load = 0)
    (hL : o.filterLength = 1) (hN : 0 < N) (ref : Sig s r N) (est : Sig s e N)
    (ha : ∀ m k, Audible (centred o.zeroMean (ref m k))) :
    sdrCohPairGen B o ref est = sdrCohPair B o ref est := by
  obtain ⟨n, hn⟩ : ∃ n, nFft N = .ok n := by
    simp only [nFft_def]
    rw [if_neg (by omega)]
    exact ⟨_, rfl⟩
  have hge := nFft_ge hn
  have hK : min o.filterLength n = 1 := by omega
  have hNn := nFft_le hn
  have F : Fam N N 1 n (fun x i => shift N x i) (fun y => shift N y 0) :=
    fam_shift hN (by omega) (by omega) (by omega) (by omega)
  simp only [sdrCohPair_def]; unfold sdrCohPairGen
  rw [if_neg (by omega), if_pos hL, hn, hdir]
  simp only
  rw [hK]
  simp only [solveStack, toeplitz_sdrAcf F hK (by omega) hB, vec_sdrXcorr F hK (by omega)]
  rw [if_neg (by rintro ⟨i, h⟩; rw [det_one hload hNn F ha] at h; exact one_ne_zero h)]
  simp only
  congr 1
  funext m k j
  rw [gramD_one hload hNn F ha, inv_one, one_mulVec, refFam_one]
  simp only [Fin.sum_univ_one, coeffs, cohSdrOnePair]
  rw [inner_shift_zero N le_rfl, sq]

/-- **C42.**  The general code of `bss_eval_sources` could not be used for `filter_length=1`: the
block-Toeplitz builder rejects size one. -/
theorem C42_general_bss_eval_fails (hB : Covered B) (hdir : o.useCgIter = none) (hload : o.load = 0)
    (hL : o.filterLength = 1) (hN : 0 < N) (hs : Nonempty (BIdx s)) (hr : 0 < r) (ref : Sig s r N)
    (est : Sig s e N) (ha : ∀ m k, Audible (centred o.zeroMean (ref m k))) :
    sqCosPairGen B o ref est = .error B.shapeErr := by
  obtain ⟨n, hn⟩ : ∃ n, nFft N = .ok n := by
    simp only [nFft_def]
    rw [if_neg (by omega)]
    exact ⟨_, rfl⟩
  have hge := nFft_ge hn
  have hK : min o.filterLength n = 1 := by omega
  have hNn := nFft_le hn
  have F : Fam N N 1 n (fun x i => shift N x i) (fun y => shift N y 0) :=
    fam_shift hN (by omega) (by omega) (by omega) (by omega)
  have hdet : ∀ m k, (toeplitz B 1 (bssAcfSdr o n ref m k)).det ≠ 0 := by
    intro m k
    rw [bssAcfSdr_eq_sdrAcf F hK (by omega) (by omega), toeplitz_sdrAcf F hK (by omega) hB,
      det_one hload hNn F ha]
    exact one_ne_zero
  unfold sqCosPairGen
  rw [hn]
  simp only
  rw [hK, if_neg (by omega), hdir]
  simp only [solveStack]
  rw [if_neg (by rintro ⟨i, h⟩; exact hdet _ _ h)]
  simp only
  unfold cohSar
  rw [hdir]
  simp only
  rw [C37_block_toeplitz_size_one hr _ fun m k l => length_bssAcf F hK (by omega) ref m k l]

example : sqCosPairGen torchBackend { Ex.opts with filterLength := 1 } Ex.est Ex.ref = .error .runtimeError :=
  C42_general_bss_eval_fails (s := []) (o := { Ex.opts with filterLength := 1 }) Ex.covered rfl rfl rfl (by decide) ⟨()⟩
    (by decide) _ _ Ex.est_audible

/-! ### C43 -/

/-- **C43.**  numpy >= 2, direct solver, filters of at least two taps: the calls that are not pairwise
raise `ValueError` for all signals, unless the number of channels happens to be the number of taps. -/
theorem C43_numpy2 (lsa : Lsa) (hdir : o.useCgIter = none) (hL : 2 ≤ o.filterLength) (hN : 0 < N)
    (ref est : Sig s c N) (hc : c ≠ o.filterLength) (hfit : FilterFits N o.filterLength) :
    sdrLossDiag (numpyBackend @lsa true) o est ref = .error .valueError ∧
    bssEvalSources (numpyBackend @lsa true) o false ref est = .error .valueError := by
  obtain ⟨n, hn⟩ : ∃ n, nFft N = .ok n := by
    simp only [nFft_def]
    rw [if_neg (by omega)]
    exact ⟨_, rfl⟩
  have hLn : o.filterLength ≤ n := by
    have := fits_bounds hn hfit
    omega
  constructor
  · unfold sdrLossDiag
    rw [sdrCohDiag_unfold hn rfl hL, hdir]
    simp only [solveVecs]
    rw [if_neg (by simp [numpyBackend]), if_pos (by omega)]
  · unfold bssEvalSources
    rw [if_neg (by simp), if_neg (by simp)]
    unfold bssEvalNoPerm
    rw [sqCosDiag_unfold hn rfl hL hLn, hdir]
    simp only [solveVecs]
    rw [if_neg (by simp [numpyBackend]), if_pos (by omega)]

/-- **C43.**  The pairwise functions, hence `sdr` and `bss_eval_sources` with permutation, are not
affected by the version of numpy; nor is the iterative solver or `filter_length=1`. -/
theorem C43_unaffected (lsa : Lsa) (rp cs : Bool) (ref : Sig s r N) (est : Sig s e N) :
    sdrLossPair (numpyBackend @lsa true) o est ref = sdrLossPair (numpyBackend @lsa false) o est ref ∧
    sdr (numpyBackend @lsa true) o rp cs ref est = sdr (numpyBackend @lsa false) o rp cs ref est ∧
    bssEvalSources (numpyBackend @lsa true) o true ref est =
      bssEvalSources (numpyBackend @lsa false) o true ref est ∧
    (o.filterLength = 1 ∨ o.useCgIter ≠ none → ∀ est' ref' : Sig s c N,
      sdrLossDiag (numpyBackend @lsa true) o est' ref' = sdrLossDiag (numpyBackend @lsa false) o est' ref' ∧
      bssEvalSources (numpyBackend @lsa true) o false ref' est' =
        bssEvalSources (numpyBackend @lsa false) o false ref' est') := by
  refine ⟨rfl, rfl, rfl, fun h est' ref' => ⟨?_, ?_⟩⟩
  · unfold sdrLossDiag; simp only [sdrCohDiag_def]; unfold sdrCohDiagGen
    rcases h with h | h
    · simp only [if_neg (show ¬ o.filterLength = 0 by omega), if_pos h]
    · cases hcg : o.useCgIter with
      | none => exact absurd hcg h
      | some it => rfl
  · unfold bssEvalSources bssEvalNoPerm; simp only [sqCosDiag_def]; unfold sqCosDiagGen
    rcases h with h | h
    · simp only [if_neg (show ¬ o.filterLength = 0 by omega), if_pos h]
      rfl
    · cases hcg : o.useCgIter with
      | none => exact absurd hcg h
      | some it => rfl

example (lsa : Lsa) : sdrLossDiag (numpyBackend @lsa true) { Ex.opts with useCgIter := some 10 } Ex.est Ex.ref =
    sdrLossDiag (numpyBackend @lsa false) { Ex.opts with useCgIter := some 10 } Ex.est Ex.ref :=
  ((C43_unaffected (o := { Ex.opts with useCgIter := some 10 }) lsa true false Ex.ref Ex.est).2.2.2
    (Or.inr (by simp)) Ex.est Ex.ref).1

/-! ### The hypotheses are met -/

/-- `C23_other_estimates`: changing the second estimate does not change the first value. -/
example : ∃ M M', sdrLossDiag torchBackend Ex.opts Ex.est Ex.ref = .ok M ∧
    sdrLossDiag torchBackend Ex.opts (fun _ => ![![2, 0, 1], ![5, 6, 7]]) Ex.ref = .ok M' ∧
    ∀ m, M m 0 = M' m 0 := by
  obtain ⟨M, h⟩ := Ex.sdrLossDiag_ok
  obtain ⟨M', h', hM⟩ := C23_other_estimates (Or.inr (Or.inr rfl)) Ex.ref Ex.est
    (fun _ => ![![2, 0, 1], ![5, 6, 7]]) h
  exact ⟨M, M', h, h', fun m => hM m 0 rfl⟩

/-- `C24_reevaluation` and `C38_total_sdr`: both calls return. -/
example : ∃ out out', bssEvalSources torchBackend { Ex.opts with clampDb := some 30 } true Ex.ref Ex.est =
    .ok out ∧ sdr torchBackend { Ex.opts with clampDb := some 30 } false false Ex.ref Ex.est = .ok out' ∧
    ∀ m, eTotal (out.sdr m) ≤ eTotal (out'.sdr m) := by
  obtain ⟨out, h⟩ := Ex.bssEval_ok (d := 30)
  obtain ⟨coh, hc⟩ := Ex.sdrCohPair_ok
  have hc' : sdrCohPair torchBackend { Ex.opts with clampDb := some 30 } Ex.ref Ex.est = .ok coh := hc
  obtain ⟨out', h'⟩ := C17_sdr_clamped_never_fails (o := { Ex.opts with clampDb := some 30 }) Ex.covered
    false false rfl (by unfold pairwiseSdrLoss sdrLossPair; rw [hc'])
  exact ⟨out, out', h, h', C38_total_sdr (o := { Ex.opts with clampDb := some 30 }) Ex.covered h' h⟩

/-- `C42_shortcut`. -/
example : sdrCohPairGen torchBackend { Ex.opts with filterLength := 1 } Ex.est Ex.ref =
    sdrCohPair torchBackend { Ex.opts with filterLength := 1 } Ex.est Ex.ref :=
  C42_shortcut (o := { Ex.opts with filterLength := 1 }) Ex.covered rfl rfl rfl (by decide) _ _
    Ex.est_audible

/-- `C43_numpy2`: two channels, three taps, three samples. -/
example (lsa : Lsa) : sdrLossDiag (numpyBackend @lsa true) { Ex.opts with filterLength := 3 } Ex.est Ex.ref =
    .error .valueError :=
  (C43_numpy2 (o := { Ex.opts with filterLength := 3 }) lsa rfl (by decide) (by decide) _ _ (by decide)
    (by show 3 + 3 ≤ 2 ^ Nat.clog 2 5 + 1; decide)).1

end FBE.Props
