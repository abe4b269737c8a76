import Verif.Proofs.ArrayCosine
import Verif.Spec.Lengths

/-!
# The functions on arrays agree with the functions of the index model
-/

set_option linter.unusedSectionVars false

namespace FBE

open Classical Matrix Spec Tensor

namespace Arrays

variable {A : Api} {B : Backend} {s bx by' b : List ℕ} {r e c n N M K : ℕ} {o : Opts} {ref est : Tensor ℝ}

/-! ### cases that the index model does not describe -/

theorem nFft_ne (h : nFft N M = .error .unmodelled) : False := by
  unfold nFft at h
  split_ifs at h; cases h

theorem solveStack_ne {ι κ J : Type} [Fintype J] [DecidableEq J] {F : ι → Matrix J J ℝ} {y : ι → κ → J → ℝ}
    (h : solveStack F y = .error .unmodelled) : False := by
  unfold solveStack at h
  split_ifs at h; cases h

theorem shapeErr_ne (hB : Covered B) (h : B.shapeErr = .unmodelled) : False := by
  obtain rfl | ⟨lsa, n2, -, rfl⟩ := hB <;> cases h

theorem sizeErr_ne (hB : Covered B) {cg : Option ℕ} (h : sizeErr B cg = .unmodelled) : False := by
  cases cg with
  | none => exact shapeErr_ne hB h
  | some it => cases h

theorem solOne_ne {ι : Type} {cg : Option ℕ} {acf : ι → Fin r → List ℝ} {xc : ι → Fin r → Fin e → Fin K → ℝ}
    (h : solOne B cg K acf xc = .error .unmodelled) : False := by
  cases cg with
  | none => exact solveStack_ne h
  | some it => cases h

theorem solAll_ne (hB : Covered B) {ι : Type} {cg : Option ℕ} {acf : ι → Fin r → Fin r → List ℝ}
    {xc x0 : ι → Fin e → Fin K × Fin r → ℝ} (h : solAll B cg K acf xc x0 = .error .unmodelled) : False := by
  cases cg with
  | none =>
    simp only [solAll, FBE.blockToeplitz] at h
    split_ifs at h
    · exact shapeErr_ne hB (by injection h)
    · exact solveStack_ne h
  | some it =>
    simp only [solAll, FBE.blockCg] at h
    split_ifs at h; cases h

theorem solDiag_ne {cg : Option ℕ} {acf : BIdx s → Fin c → List ℝ} {xc : BIdx s → Fin c → Fin K → ℝ}
    (hv : cg ≠ none ∨ B.stackedVectors = true) (h : solDiag B cg K acf xc = .error .unmodelled) : False := by
  cases cg with
  | none =>
    simp only [solDiag, solveVecs, hv.resolve_left (by simp), if_true] at h
    split at h
    · rename_i err hS
      cases h
      exact solveStack_ne hS
    · cases h
  | some it => cases h

theorem sameLength_ne (hB : Covered B) {x : Sig s c M} (h : N = M ∨ N ≠ 1 ∧ M ≠ 1) :
    sameLength B N x ≠ .error .unmodelled := by
  unfold sameLength
  split_ifs with h1 h2
  · simp
  · omega
  · intro h'
    exact shapeErr_ne hB (by injection h')

theorem map_ne {α β : Type} {x : Except PyErr α} {f : α → β} (hx : x ≠ .error .unmodelled) :
    x.map f ≠ .error .unmodelled := by
  cases x with
  | error err => intro h; exact hx (by injection h with h; rw [h])
  | ok a => simp [Except.map]

theorem sdrCohPairGen_ne (ref : Sig s r N) (est : Sig s e M) : sdrCohPairGen B o ref est ≠ .error .unmodelled := by
  cases hn : nFft N M with
  | error err =>
    unfold sdrCohPairGen
    rw [hn]
    intro h
    cases h
    exact nFft_ne hn
  | ok n =>
    rw [sdrCohPairGen_unfold hn rfl]
    intro h
    split at h
    · rename_i err hS
      cases h
      exact solOne_ne hS
    · cases h

theorem sdrCohDiagGen_ne (hv : o.useCgIter ≠ none ∨ B.stackedVectors = true) (ref : Sig s c N) (est : Sig s c M) :
    sdrCohDiagGen B o ref est ≠ .error .unmodelled := by
  cases hn : nFft N M with
  | error err =>
    unfold sdrCohDiagGen
    rw [hn]
    intro h
    cases h
    exact nFft_ne hn
  | ok n =>
    rw [sdrCohDiagGen_unfold hn rfl]
    intro h
    split at h
    · rename_i err hS
      cases h
      exact solDiag_ne hv hS
    · cases h

theorem cohSar_ne (hB : Covered B) {x0 : BIdx s → Fin e → Fin K × Fin r → ℝ} (ref : Sig s r N) (est : Sig s e M) :
    FBE.cohSar B o n K ref est x0 ≠ .error .unmodelled := by
  rw [cohSar_solAll]
  intro h
  split at h
  · rename_i err hS
    cases h
    exact solAll_ne hB hS
  · cases h

theorem sqCosPairGen_ne (hB : Covered B) (ref : Sig s r N) (est : Sig s e M) :
    sqCosPairGen B o ref est ≠ .error .unmodelled := by
  cases hn : nFft N M with
  | error err =>
    unfold sqCosPairGen
    rw [hn]
    intro h
    cases h
    exact nFft_ne hn
  | ok n =>
    rw [sqCosPairGen_unfold hn rfl]
    split_ifs
    · intro h
      exact sizeErr_ne hB (by injection h)
    · intro h
      split at h
      · rename_i err hS
        cases h
        exact solOne_ne hS
      · split at h
        · rename_i err hS
          cases h
          exact cohSar_ne hB ref est hS
        · cases h

theorem transformSize_eq (hn : nFft N M = .ok n) : transformSize N M = n := by
  unfold nFft at hn
  split_ifs at hn
  injection hn

theorem sqCosDiagGen_ne (hB : Covered B) (hv : o.useCgIter ≠ none ∨ B.stackedVectors = true)
    (hL : o.useCgIter ≠ none ∨ o.filterLength ≤ transformSize N M) (ref : Sig s c N) (est : Sig s c M) :
    sqCosDiagGen B o ref est ≠ .error .unmodelled := by
  cases hn : nFft N M with
  | error err =>
    unfold sqCosDiagGen
    rw [hn]
    intro h
    cases h
    exact nFft_ne hn
  | ok n =>
    rw [transformSize_eq hn] at hL
    rw [sqCosDiagGen_unfold hn rfl]
    split_ifs with h1 h2
    · have := hL.resolve_left (fun h => h h2.1)
      omega
    · intro h
      exact sizeErr_ne hB (by injection h)
    · intro h
      split at h
      · rename_i err hS
        cases h
        exact solDiag_ne hv hS
      · split at h
        · rename_i err hS
          cases h
          exact cohSar_ne hB ref est hS
        · cases h

theorem cohSarOne_ne (ref : Sig s r N) (est : Sig s e N) : cohSarOne o ref est ≠ .error .unmodelled := by
  unfold cohSarOne
  cases o.loadDiag <;>
  · intro h
    dsimp only at h
    split at h
    · rename_i err hS
      cases h
      exact solveStack_ne hS
    · cases h

theorem sdrLossPair_ne (hB : Covered B) (hL : UsualLengths o N M) (ref : Sig s r N) (est : Sig s e M) :
    sdrLossPair B o est ref ≠ .error .unmodelled := by
  rw [sdrLossPair_eq_map]
  refine map_ne ?_
  unfold sdrCohPair
  rw [if_neg (by have := hL.1; omega)]
  split_ifs with h1
  · exact map_ne (sameLength_ne hB (hL.2 h1))
  · exact sdrCohPairGen_ne ref est

theorem sdrLossDiag_ne (hB : Covered B) (hL : UsualLengths o N M) (hv : TakesVectors B o) (ref : Sig s c N)
    (est : Sig s c M) : sdrLossDiag B o est ref ≠ .error .unmodelled := by
  rw [sdrLossDiag_eq_map]
  refine map_ne ?_
  unfold sdrCohDiag
  rw [if_neg (by have := hL.1; omega)]
  split_ifs with h1
  · exact map_ne (sameLength_ne hB (hL.2 h1))
  · exact sdrCohDiagGen_ne (hv.resolve_left h1) ref est

theorem sqCosPair_ne (hB : Covered B) (hL : UsualLengths o N M) (ref : Sig s r N) (est : Sig s e M) :
    sqCosPair B o ref est ≠ .error .unmodelled := by
  unfold sqCosPair
  rw [if_neg (by have := hL.1; omega)]
  split_ifs with h1
  · intro h
    split at h
    · rename_i err hS
      cases h
      exact sameLength_ne hB (hL.2 h1) hS
    · split at h
      · rename_i err hS
        cases h
        exact cohSarOne_ne _ _ hS
      · cases h
  · exact sqCosPairGen_ne hB ref est

theorem sqCosDiag_ne (hB : Covered B) (hL : UsualLengths o N M) (hv : TakesVectors B o)
    (hn : o.filterLength = 1 ∨ o.useCgIter ≠ none ∨ o.filterLength ≤ transformSize N M) (ref : Sig s c N)
    (est : Sig s c M) : sqCosDiag B o ref est ≠ .error .unmodelled := by
  unfold sqCosDiag
  rw [if_neg (by have := hL.1; omega)]
  split_ifs with h1
  · intro h
    split at h
    · rename_i err hS
      cases h
      exact sameLength_ne hB (hL.2 h1) hS
    · split at h
      · rename_i err hS
        cases h
        exact cohSarOne_ne _ _ hS
      · cases h
  · exact sqCosDiagGen_ne hB (hv.resolve_left h1) (hn.resolve_left h1) ref est

/-! ### the functions -/

theorem sdrLoss_pair_agrees (hA : A.Lawful) (hB : Covered A.B) (href : ref.shape = N :: r :: bx)
    (hest : est.shape = M :: e :: by') (hb : bcShape bx by' = some s.reverse) (hL : UsualLengths o N M)
    (hcg : o.useCgIter = none ∨ o.filterLength = 1 ∨ bx.length = s.length) :
    Agrees Holds2 (Arrays.sdrLoss A o.args true est ref)
      (FBE.sdrLossPair A.B o (signals est by' s e M) (signals ref bx s r N)) :=
  (sdrLoss_pair hA hB href hest hb hcg).agrees (sdrLossPair_ne hB hL _ _)

theorem sdrLoss_pair_none_agrees (hA : A.Lawful) (hB : Covered A.B) (href : ref.shape = N :: r :: bx)
    (hest : est.shape = M :: e :: by') (hb : bcShape bx by' = some s.reverse) (hN : 0 < N)
    (hcg : o.useCgIter = none ∨ bx.length = s.length) :
    Agrees Holds2 (Arrays.sdrLoss A { o.args with filterLength := none } true est ref)
      (FBE.sdrLossPairNone A.B o (signals est by' s e M) (signals ref bx s r N)) := by
  refine (sdrLoss_pair_none hA hB href hest hb hN hcg).agrees ?_
  unfold FBE.sdrLossPairNone
  intro h
  split at h
  · rename_i err hS
    cases h
    exact sdrCohPairGen_ne _ _ hS
  · cases h

theorem sdrLoss_diag_agrees (hA : A.Lawful) (hB : Covered A.B) (href : ref.shape = N :: c :: s.reverse)
    (hest : est.shape = M :: b) (hb : bcShape (c :: s.reverse) b = some (c :: s.reverse)) (hL : UsualLengths o N M)
    (hv : TakesVectors A.B o) :
    Agrees Holds1 (Arrays.sdrLoss A o.args false est ref)
      (FBE.sdrLossDiag A.B o (channels est b s c M) (signals ref s.reverse s c N)) :=
  (sdrLoss_diag hA hB href hest hb).agrees (sdrLossDiag_ne hB hL hv _ _)

theorem sdrLoss_diag_none_agrees (hA : A.Lawful) (hB : Covered A.B) (href : ref.shape = N :: c :: s.reverse)
    (hest : est.shape = M :: b) (hb : bcShape (c :: s.reverse) b = some (c :: s.reverse)) (hN : 0 < N)
    (hv : o.useCgIter ≠ none ∨ A.B.stackedVectors = true) :
    Agrees Holds1 (Arrays.sdrLoss A { o.args with filterLength := none } false est ref)
      (FBE.sdrLossDiagNone A.B o (channels est b s c M) (signals ref s.reverse s c N)) := by
  refine (sdrLoss_diag_none hA hB href hest hb hN).agrees ?_
  unfold FBE.sdrLossDiagNone
  intro h
  split at h
  · rename_i err hS
    cases h
    exact sdrCohDiagGen_ne (o := o.atLength N) hv _ _ hS
  · cases h

theorem sdr_agrees (hA : A.Lawful) (hB : Covered A.B) (href : ref.shape = N :: r :: bx)
    (hest : est.shape = M :: e :: by') (hb : bcShape bx by' = some s.reverse) (hL : UsualLengths o N M)
    (hcg : o.useCgIter = none ∨ o.filterLength = 1 ∨ bx.length = s.length) (rp cs : Bool) :
    Agrees HoldsSdr (Arrays.sdr A o.args rp cs ref est)
      (FBE.sdr A.B o rp cs (signals ref bx s r N) (signals est by' s e M)) :=
  sdr_agrees_of (sdrLoss_pair_agrees hA hB href hest hb hL hcg) rp cs

theorem sdr_none_agrees (hA : A.Lawful) (hB : Covered A.B) (href : ref.shape = N :: r :: bx)
    (hest : est.shape = M :: e :: by') (hb : bcShape bx by' = some s.reverse) (hN : 0 < N)
    (hcg : o.useCgIter = none ∨ bx.length = s.length) (rp cs : Bool) :
    Agrees HoldsSdr (Arrays.sdr A { o.args with filterLength := none } rp cs ref est)
      (FBE.sdrNone A.B o rp cs (signals ref bx s r N) (signals est by' s e M)) :=
  sdr_agrees_of (sdrLoss_pair_none_agrees hA hB href hest hb hN hcg) rp cs

theorem bssEval_perm_agrees (hA : A.Lawful) (hB : Covered A.B) (href : ref.shape = N :: r :: bx)
    (hest : est.shape = M :: e :: by') (hb : bcShape bx by' = some s.reverse) (hL : UsualLengths o N M)
    (hpos : o.filterLength = 1 ∨ 0 < e * r * s.reverse.prod)
    (hcg : o.useCgIter = none ∨ o.filterLength = 1 ∨ bx.length = s.length) :
    Agrees HoldsBss (Arrays.bssEvalSources A o.args true ref est)
      (FBE.bssEvalSources A.B o true (signals ref bx s r N) (signals est by' s e M)) :=
  bssEvalPerm_agrees rfl ((sqCosPair_matches hA hB href hest hb hpos hcg).agrees (sqCosPair_ne hB hL _ _))

theorem bssEval_noPerm_agrees (hA : A.Lawful) (hB : Covered A.B) (href : ref.shape = N :: r :: s.reverse)
    (hest : est.shape = M :: e :: by') (hb : bcShape s.reverse by' = some s.reverse) (hL : UsualLengths o N M)
    (hpos : o.filterLength = 1 ∨ 0 < e * r * s.reverse.prod) (hv : TakesVectors A.B o)
    (hn : o.filterLength = 1 ∨ o.useCgIter ≠ none ∨ o.filterLength ≤ transformSize N M) :
    Agrees HoldsBss (Arrays.bssEvalSources A o.args false ref est)
      (FBE.bssEvalSources A.B o false (signals ref s.reverse s r N) (signals est by' s e M)) := by
  simp only [FBE.bssEvalSources, Bool.false_eq_true, if_false]
  split_ifs with h
  · exact bssEval_assert href hest h
  · have h : r = e := by simpa using h
    subst h
    have h1 : min r r = r := min_self r
    exact bssEvalNoPerm_agrees (c := min r r) rfl (by rw [h1]; exact href) (by rw [h1]; exact hest)
      ((sqCosDiag_matches hA hB (by rw [h1]; exact href) (by rw [h1]; exact hest) hb (by rw [h1]; exact hpos)).agrees
        (sqCosDiag_ne hB hL hv hn _ _))

theorem bssEval_none_perm_agrees (hA : A.Lawful) (hB : Covered A.B) (href : ref.shape = N :: r :: bx)
    (hest : est.shape = M :: e :: by') (hb : bcShape bx by' = some s.reverse) (hN : 0 < N) :
    Agrees HoldsBss (Arrays.bssEvalSources A { o.args with filterLength := none } true ref est)
      (FBE.bssEvalSourcesNone A.B o true (signals ref bx s r N) (signals est by' s e M)) := by
  simp only [FBE.bssEvalSourcesNone, if_true, Arrays.bssEvalSources, ok_bind, ne_eq, not_true_eq_false, if_false]
  have h1 : sqCosPairNone A.B o N M ≠ .unmodelled := by
    unfold sqCosPairNone
    cases hn : nFft N M with
    | error err => rintro rfl; exact nFft_ne hn
    | ok n =>
      have := nFft_pos' hn
      intro h'
      dsimp only [noneSizes] at h'
      by_cases h : N = 0 ∨ min N n + min N n = min N n
      · omega
      · exact sizeErr_ne hB ((if_neg h).symm.trans h')
  have h := (sqCosPairNone_matches (o := o) hA hB href hest hb).resolve_left h1
  rw [h]
  rfl

theorem bssEval_none_noPerm_agrees (hA : A.Lawful) (hB : Covered A.B) (href : ref.shape = N :: r :: s.reverse)
    (hest : est.shape = M :: e :: by') (hb : bcShape s.reverse by' = some s.reverse) (hN : 0 < N)
    (hv : o.useCgIter ≠ none ∨ r ≠ 2 * min N (transformSize N M)) :
    Agrees HoldsBss (Arrays.bssEvalSources A { o.args with filterLength := none } false ref est)
      (FBE.bssEvalSourcesNone A.B o false (signals ref s.reverse s r N) (signals est by' s e M)) := by
  simp only [FBE.bssEvalSourcesNone, Bool.false_eq_true, if_false]
  split_ifs with h
  · exact bssEval_assert href hest h
  · have h : r = e := by simpa using h
    subst h
    simp only [Arrays.bssEvalSources, Bool.false_eq_true, if_false, size_two href, size_two hest, ok_bind, ne_eq,
      not_true_eq_false]
    have h1 : sqCosDiagNone A.B o r N M ≠ .unmodelled := by
      unfold sqCosDiagNone
      cases hn : nFft N M with
      | error err => rintro rfl; exact nFft_ne hn
      | ok n =>
        have := nFft_pos' hn
        rw [transformSize_eq hn] at hv
        intro h'
        dsimp only [noneSizes] at h'
        by_cases h : N = 0 ∨ min N n + min N n = min N n ∨ o.useCgIter = none ∧ r = min N n + min N n
        · rcases h with h | h | ⟨h, h'⟩
          · omega
          · omega
          · exact hv.elim (fun hv => hv h) (fun hv => hv (by omega))
        · exact sizeErr_ne hB ((if_neg h).symm.trans h')
    have h := (sqCosDiagNone_matches (o := o) hA hB href hest hb).resolve_left h1
    rw [h]
    rfl

end Arrays

end FBE
