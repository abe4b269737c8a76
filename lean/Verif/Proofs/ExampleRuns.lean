import Verif.Proofs.ExampleValue
import Verif.Proofs.BatchItem

/-!
# Runs of all functions in the concrete case

With any `clamp_db` and with the iterative solver, and for a batch of two items.
-/

namespace FBE.Ex

open Spec XR

/-- The options with `clamp_db`. -/
noncomputable def clamped (cl : Option ℝ) : Opts := { opts with clampDb := cl }

theorem sdrLossPair_cl (cl : Option ℝ) : sdrLossPair torchBackend (clamped cl) est ref =
    .ok fun _ k j => coherenceToNegSdr cl (fin (if k = j then 4 / 5 else 1 / 5)) := by
  have h : sdrCohPair torchBackend (clamped cl) ref est = _ := sdrCohPair_value
  unfold sdrLossPair
  rw [h]
  rfl

theorem sdrLossDiag_cl (cl : Option ℝ) : sdrLossDiag torchBackend (clamped cl) est ref =
    .ok fun _ _ => coherenceToNegSdr cl (fin (4 / 5)) := by
  have h : sdrCohPair torchBackend (clamped cl) ref est = _ := sdrCohPair_value
  unfold sdrLossDiag
  rw [sdrCohDiag_eq _ _ (Or.inr (Or.inr rfl)), h]
  show (Except.ok fun (_ : BIdx []) (k : Fin 2) =>
    coherenceToNegSdr cl (fin (if k = k then 4 / 5 else 1 / 5))) = _
  simp only [if_true]

theorem loss_finite (cl : Option ℝ) {c : ℝ} (h0 : 0 < c) (h1 : c < 1) : ∃ y, coherenceToNegSdr cl (fin c) = fin y := by
  cases cl with
  | some d => exact coherenceToNegSdr_finite d (by simp)
  | none =>
    rw [coherenceToNegSdr_fin, cclamp_none h0.le h1.le]
    exact negDb_finite h0 h1

theorem sdr_cl (cl : Option ℝ) (rp cs : Bool) :
    ∃ out, sdr torchBackend (clamped cl) rp cs ref est = .ok out := by
  have hsol : ∀ m : BIdx [], Solvable
      ((fun (_ : BIdx []) (k j : Fin 2) => coherenceToNegSdr cl (fin (if k = j then 4 / 5 else 1 / 5))) m) :=
    fun m => solvable_of_finite fun k j => by
      dsimp only
      split <;> exact loss_finite cl (by norm_num) (by norm_num)
  obtain ⟨p, hp⟩ := (solvePermutation_ok_iff torchBackend covered.lsa _ (nArgs := 0) (fun i => i.elim0)).2 hsol
  unfold sdr
  rw [sdrLossPair_cl]
  dsimp only
  rw [hp]
  exact ⟨_, rfl⟩

theorem bssPerm_cl (cl : Option ℝ) : ∃ out, bssEvalSources torchBackend (clamped cl) true ref est = .ok out := by
  have h : sqCosPair torchBackend (clamped cl) ref est = _ := sqCosPair_value
  have hsol : ∀ m : BIdx [], Solvable (negSir (r := 2) (clamped cl)
      (fun (_ : BIdx []) (k j : Fin 2) => if k = j then 4 / 5 else 1 / 5) (fun _ _ => 1) m) :=
    fun m => solvable_of_finite fun k j => by
      show ∃ y, coherenceToNegSdr cl (XR.div (fin _) (fin 1)) = fin y
      have : ∀ a : ℝ, XR.div (fin a) (fin 1) = fin a := fun a => by simp [XR.div]
      rw [this]
      dsimp only
      split <;> exact loss_finite cl (by norm_num) (by norm_num)
  obtain ⟨p, hp⟩ := (solvePermutation_ok_iff torchBackend covered.lsa _ (nArgs := 2)
    ![negSdr (clamped cl) _ _, negSar (clamped cl) _ _]).2 hsol
  exact ⟨_, bssEvalPerm_of_ok h hp⟩

theorem bssNoPerm_cl (cl : Option ℝ) : ∃ out, bssEvalSources torchBackend (clamped cl) false ref est = .ok out := by
  unfold bssEvalSources bssEvalNoPerm
  rw [if_neg (by simp), if_neg (by simp)]
  have h' : sqCosPair torchBackend (clamped cl)
      (fun m (k : Fin (min 2 2)) => ref m (k.castLE (min_le_left 2 2)))
      (fun m (k : Fin (min 2 2)) => est m (k.castLE (min_le_right 2 2))) = _ := sqCosPair_value
  rw [sqCosDiag_of_pair _ _ (Or.inr ⟨rfl, rfl⟩) h']
  exact ⟨_, rfl⟩

theorem bss_cl (cl : Option ℝ) (cp : Bool) :
    ∃ out, bssEvalSources torchBackend (clamped cl) cp ref est = .ok out := by
  cases cp
  · exact bssNoPerm_cl cl
  · exact bssPerm_cl cl

/-! ### a batch of two items, in the second one the estimates are exchanged -/

def swap (m : BIdx [2]) (j : Fin 2) : Fin 2 := if m.1 = 0 then j else 1 - j

noncomputable def bref : Sig [2] 2 3 := fun _ => ref ()
noncomputable def best : Sig [2] 2 3 := fun m j => est () (swap m j)

theorem batch_related (cl : Option ℝ) : Related (clamped cl) ref est bref best (fun _ => ())
    (fun _ => Equiv.refl _) swap (fun _ _ => 1) (fun _ _ => 1) :=
  related_of_prep (fun _ _ => one_mul 1) (fun _ _ => one_mul 1) (fun _ _ => funext fun _ => (one_mul _).symm)
    (fun _ _ => funext fun _ => (one_mul _).symm)

theorem sqCosPair_batch (cl : Option ℝ) : sqCosPair torchBackend (clamped cl) bref best =
    .ok (fun m k j => if k = swap m j then 4 / 5 else 1 / 5, fun _ _ => 1) :=
  sqCosPair_related covered (batch_related cl) sqCosPair_value

theorem sdrLossPair_batch (cl : Option ℝ) : sdrLossPair torchBackend (clamped cl) best bref =
    .ok fun m k j => coherenceToNegSdr cl (fin (if k = swap m j then 4 / 5 else 1 / 5)) := by
  have h := sdrCohPair_related covered (batch_related cl) sdrCohPair_value
  unfold sdrLossPair
  rw [h]
  rfl

theorem sdrLossDiag_batch (cl : Option ℝ) : sdrLossDiag torchBackend (clamped cl) best bref =
    .ok fun m k => coherenceToNegSdr cl (fin (if k = swap m k then 4 / 5 else 1 / 5)) := by
  have h := sdrCohPair_related covered (batch_related cl) sdrCohPair_value
  unfold sdrLossDiag
  rw [sdrCohDiag_eq _ _ (Or.inr (Or.inr rfl)), h]
  rfl

theorem sdr_batch (cl : Option ℝ) (rp cs : Bool) :
    ∃ out, sdr torchBackend (clamped cl) rp cs bref best = .ok out := by
  have hsol : ∀ m : BIdx [2], Solvable
      ((fun (m : BIdx [2]) (k j : Fin 2) => coherenceToNegSdr cl (fin (if k = swap m j then 4 / 5 else 1 / 5))) m) :=
    fun m => solvable_of_finite fun k j => by
      dsimp only
      split <;> exact loss_finite cl (by norm_num) (by norm_num)
  obtain ⟨p, hp⟩ := (solvePermutation_ok_iff torchBackend covered.lsa _ (nArgs := 0) (fun i => i.elim0)).2 hsol
  unfold sdr
  rw [sdrLossPair_batch]
  dsimp only
  rw [hp]
  exact ⟨_, rfl⟩

theorem bss_batch (cl : Option ℝ) (cp : Bool) :
    ∃ out, bssEvalSources torchBackend (clamped cl) cp bref best = .ok out := by
  cases cp with
  | true =>
    have hsol : ∀ m : BIdx [2], Solvable (negSir (r := 2) (clamped cl)
        (fun (m : BIdx [2]) (k j : Fin 2) => if k = swap m j then 4 / 5 else 1 / 5) (fun _ _ => 1) m) :=
      fun m => solvable_of_finite fun k j => by
        show ∃ y, coherenceToNegSdr cl (XR.div (fin _) (fin 1)) = fin y
        have : ∀ a : ℝ, XR.div (fin a) (fin 1) = fin a := fun a => by simp [XR.div]
        rw [this]
        dsimp only
        split <;> exact loss_finite cl (by norm_num) (by norm_num)
    obtain ⟨p, hp⟩ := (solvePermutation_ok_iff torchBackend covered.lsa _ (nArgs := 2)
      ![negSdr (clamped cl) _ _, negSar (clamped cl) _ _]).2 hsol
    exact ⟨_, bssEvalPerm_of_ok (sqCosPair_batch cl) hp⟩
  | false =>
    unfold bssEvalSources bssEvalNoPerm
    rw [if_neg (by simp), if_neg (by simp)]
    have h' : sqCosPair torchBackend (clamped cl)
        (fun m (k : Fin (min 2 2)) => bref m (k.castLE (min_le_left 2 2)))
        (fun m (k : Fin (min 2 2)) => best m (k.castLE (min_le_right 2 2))) = _ := sqCosPair_batch cl
    rw [sqCosDiag_of_pair _ _ (Or.inr ⟨rfl, rfl⟩) h']
    exact ⟨_, rfl⟩

/-! ### the scale-invariant functions -/

theorem siSdrLossPair_ok (zm : Bool) (cl : Option ℝ) : ∃ L, siSdrLossPair torchBackend zm cl best bref = .ok L :=
  ⟨_, rfl⟩

theorem siSdr_ok (zm : Bool) (d : ℝ) (rp cs : Bool) :
    ∃ out, siSdr torchBackend zm (some d) rp cs bref best = .ok out := by
  obtain ⟨L, hL⟩ := siSdrLossPair_ok zm (some d)
  obtain ⟨coh, -, rfl⟩ := sdrLossPair_entry hL
  obtain ⟨p, hp⟩ := (solvePermutation_ok_iff torchBackend covered.lsa _ (nArgs := 0) (fun i => i.elim0)).2
    fun m : BIdx [2] => solvable_of_finite fun k j => coherenceToNegSdr_finite (x := fin (coh m k j)) d (by simp)
  exact ⟨_, sdr_of_ok rp cs hL hp⟩

theorem si_independent (m : BIdx []) : IndependentShifts 1 (cen (siOpts false none none) ref m) := by
  show LinearIndependent ℝ fun p : Fin 1 × Fin 2 => shift 3 (cen opts ref m p.2) p.1
  simp only [cen_eq]
  rw [Fintype.linearIndependent_iff]
  intro g hg
  have key : ∀ t : Fin 3, ∑ p : Fin 1 × Fin 2, g p * shift 3 (ref m p.2) p.1 t = 0 := by
    intro t
    have := congrArg (fun v : Space 3 => v t) hg
    simpa using this
  simp only [Fintype.sum_prod_type, Fin.sum_univ_two, Fin.sum_univ_one, shift_apply] at key
  have h0 := key 0
  have h2 := key 2
  simp [zpad, ref] at h0 h2
  rintro ⟨i, j⟩
  fin_cases i; fin_cases j <;> simp_all

theorem si_sqCosPair (cl : Option ℝ) : ∃ sd sa, sqCosPair torchBackend (siOpts false cl none) ref est =
    .ok (sd, sa) ∧ ∀ m j, sa m j ≠ 0 := by
  have hfit : FilterFits 3 1 := by
    show 1 + 3 ≤ 2 ^ Nat.clog 2 5 + 1
    decide
  have h : ∃ p, sqCosPair torchBackend (siOpts false cl none) ref est = .ok p := by
    rcases sqCosPair_success (o := siOpts false cl none) covered (Or.inl rfl) le_rfl rfl (by decide) hfit
      ref est with h | ⟨-, m, h⟩
    · exact h.1
    · exact absurd (si_independent m) h
  obtain ⟨⟨sd, sa⟩, h⟩ := h
  refine ⟨sd, sa, h, fun m j => ?_⟩
  have hp := (sqCosPair_proj (o := siOpts false cl none) covered (Or.inl rfl) rfl hfit (D := 3) le_rfl
    ref est h m 0 j).2
  rw [hp]
  have hg := gain_pos (cen opts est m j)
  refine (mul_pos (pow_pos hg 2) (energy_pos 0 one_pos ?_)).ne'
  show inner ℝ (shift 3 (cen opts ref m 0) 0) (shift 3 (cen opts est m j) 0) ≠ 0
  rw [cen_eq, cen_eq, inner_shift_zero 3 (by decide)]
  unfold dot
  fin_cases j <;> simp [Fin.sum_univ_three, ref, est]

theorem siBss_ok (d : ℝ) (cp : Bool) :
    ∃ out, siBssEvalSources torchBackend false (some d) cp none bref best = .ok out := by
  obtain ⟨sd, sa, h, hne⟩ := si_sqCosPair (some d)
  have hb : sqCosPair torchBackend (siOpts false (some d) none) bref best = _ :=
    sqCosPair_related covered (related_of_prep (fun _ _ => one_mul 1) (fun _ _ => one_mul 1)
      (fun _ _ => funext fun _ => (one_mul _).symm) (fun _ _ => funext fun _ => (one_mul _).symm) :
      Related (siOpts false (some d) none) ref est bref best (fun _ => ()) (fun _ => Equiv.refl _) swap
        (fun _ _ => 1) (fun _ _ => 1)) h
  unfold siBssEvalSources
  cases cp with
  | true =>
    obtain ⟨p, hp⟩ := (solvePermutation_ok_iff torchBackend covered.lsa
      (negSir (siOpts false (some d) none) (fun (m : BIdx [2]) k j => sd () k (swap m j)) fun m j => sa () (swap m j))
      (nArgs := 2) ![negSdr (siOpts false (some d) none) _ _, negSar (siOpts false (some d) none) _ _]).2
      fun m => solvable_of_finite fun k j => coherenceToNegSdr_finite d (by
        show XR.div (fin (sd () k (swap m j))) (fin (sa () (swap m j))) ≠ nan
        have hn : sa () (swap m j) ≠ 0 := hne () _
        simp only [XR.div, if_neg hn]
        simp)
    exact ⟨_, bssEvalPerm_of_ok hb hp⟩
  | false =>
    unfold bssEvalSources bssEvalNoPerm
    rw [if_neg (by simp), if_neg (by simp)]
    have h' : sqCosPair torchBackend (siOpts false (some d) none)
        (fun m (k : Fin (min 2 2)) => bref m (k.castLE (min_le_left 2 2)))
        (fun m (k : Fin (min 2 2)) => best m (k.castLE (min_le_right 2 2))) = _ := hb
    rw [sqCosDiag_of_pair _ _ (Or.inl rfl) h']
    exact ⟨_, rfl⟩

/-- Both lengths of the filters. -/
theorem noPerm_one : ∃ out, bssEvalNoPerm torchBackend { opts with filterLength := 1 } ref est = .ok out := by
  obtain ⟨sd, sa, h, -⟩ := si_sqCosPair none
  have h' : sqCosPair torchBackend { opts with filterLength := 1 } ref est = .ok (sd, sa) := h
  unfold bssEvalNoPerm
  rw [sqCosDiag_of_pair _ _ (Or.inl rfl) h']
  exact ⟨_, rfl⟩

theorem noPerm_two (cl : Option ℝ) : ∃ out, bssEvalNoPerm torchBackend (clamped cl) ref est = .ok out := by
  have h : sqCosPair torchBackend (clamped cl) ref est = _ := sqCosPair_value
  unfold bssEvalNoPerm
  rw [sqCosDiag_of_pair _ _ (Or.inr ⟨rfl, rfl⟩) h]
  exact ⟨_, rfl⟩

/-- A perfect estimate, one sample: the loss is `-inf`. -/
theorem perfect_loss (B : Backend) : sdrLossPair B { filterLength := 1 } (fun _ _ _ => 1 : Sig [] 1 1)
    (fun _ _ _ => 1 : Sig [] 1 1) = .ok fun _ _ _ => ninf := by
  have hp : ∀ (m : BIdx []) (k t : Fin 1), prep { filterLength := 1 } (fun _ _ _ => 1 : Sig [] 1 1) m k t = 1 := by
    intro m k t
    rw [prep_eq]
    show gain (centred false _) * centred false _ t = _
    simp [centred, gain, sigNorm]
    norm_num
  unfold sdrLossPair
  rw [sdrCohPair_def, if_neg (by simp), if_pos rfl]
  simp only
  congr 1
  funext m k j
  unfold cohSdrOnePair dot
  simp only [hp, Finset.univ_unique, Finset.sum_singleton]
  rw [coherenceToNegSdr_fin, cclamp_none (by norm_num) (by norm_num)]
  norm_num [negDb]

/-! ### the best pairing is the identity -/

theorem loss_mid {c : ℝ} (h0 : 0 < c) (h1 : c < 1) :
    coherenceToNegSdr none (fin c) = fin (10 * Real.logb 10 ((1 - c) / c)) := by
  rw [coherenceToNegSdr_fin, cclamp_none h0.le h1.le]
  unfold negDb
  rw [if_neg h0.ne', if_neg h1.ne]

theorem loss_lt : 10 * Real.logb 10 ((1 - 4 / 5) / (4 / 5)) < 10 * Real.logb 10 ((1 - 1 / 5) / (1 / 5)) :=
  mul_lt_mul_of_pos_left (Real.logb_lt_logb (by norm_num) (by norm_num) (by norm_num)) (by norm_num)

theorem loss_diag : (fun k j : Fin 2 => coherenceToNegSdr none (fin (if k = j then 4 / 5 else 1 / 5))) = fun k j =>
    fin (if k = j then 10 * Real.logb 10 ((1 - 4 / 5) / (4 / 5)) else 10 * Real.logb 10 ((1 - 1 / 5) / (1 / 5))) := by
  funext k j
  split_ifs
  · exact loss_mid (by norm_num) (by norm_num)
  · exact loss_mid (by norm_num) (by norm_num)

theorem unique_loss : UniqueBest fun k j : Fin 2 => coherenceToNegSdr none (fin (if k = j then 4 / 5 else 1 / 5)) := by
  rw [loss_diag]
  exact unique_diag loss_lt

theorem bss_identity : ∃ out, bssEvalSources torchBackend opts true ref est = .ok out ∧
    out.perm = some fun _ k => k.val := by
  obtain ⟨out, h⟩ := bssPerm_cl none
  refine ⟨out, h, ?_⟩
  unfold bssEvalSources at h
  rw [if_pos rfl] at h
  obtain ⟨sd, sa, p, hL, hp, rfl⟩ := bssEvalPerm_ok h
  have hL' : sqCosPair torchBackend opts ref est = .ok (sd, sa) := hL
  rw [sqCosPair_value] at hL'
  cases hL'
  show some p.perm = _
  congr 1
  funext m k
  obtain ⟨-, P, hP⟩ := solvePermutation_spec torchBackend covered.lsa _ _ hp m
  have hm : negSir (clamped none) (fun (_ : BIdx []) (k j : Fin 2) => if k = j then 4 / 5 else 1 / 5)
      (fun _ _ => 1) m = fun k j => coherenceToNegSdr none (fin (if k = j then 4 / 5 else 1 / 5)) := by
    funext k j
    show coherenceToNegSdr none (XR.div (fin (if k = j then 4 / 5 else 1 / 5)) (fin 1)) = _
    simp [XR.div]
  have hb := hP.best
  rw [hm, loss_diag] at hb
  have h1 := hP.describes.est le_rfl k
  rw [h1.2, best_diag loss_lt P hb, h1.1]

end FBE.Ex
