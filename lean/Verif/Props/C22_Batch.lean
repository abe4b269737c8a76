import Verif.Proofs.BatchItem
import Verif.Proofs.Example
import Verif.Proofs.ExampleRuns

/-!
# C22 — batch items do not influence each other
-/

namespace FBE.Props

open Spec XR Matrix

variable {s : List ℕ} {r e c N M : ℕ} {B : Backend} {o : Opts}

/-- C22, `sdr_loss(pairwise=True)`: the item of the result is the result for the item. -/
theorem C22_sdr_loss_item (hB : Covered B) {ref : Sig s r N} {est : Sig s e M} {L} (h : sdrLossPair B o est ref = .ok L)
    (m : BIdx s) : sdrLossPair (s := []) B o (fun _ => est m) (fun _ => ref m) = .ok fun _ => L m := by
  obtain ⟨coh, hc, rfl⟩ := sdrLossPair_entry h
  unfold sdrLossPair
  have := sdrCohPair_related hB (related_item o ref est m) hc
  unfold item at this
  rw [this]
  rfl

example (cl : Option ℝ) (m : BIdx [2]) : ∃ L, sdrLossPair torchBackend (Ex.clamped cl) Ex.best Ex.bref = .ok L ∧
    sdrLossPair (s := []) torchBackend (Ex.clamped cl) (fun _ => Ex.best m) (fun _ => Ex.bref m) =
      .ok fun _ => L m :=
  ⟨_, Ex.sdrLossPair_batch cl, C22_sdr_loss_item Ex.covered (Ex.sdrLossPair_batch cl) m⟩

/-- C22, `sdr_loss(pairwise=False)`. -/
theorem C22_sdr_loss_aligned_item (hB : Covered B) {ref : Sig s c N} {est : Sig s c M} {L} (h : sdrLossDiag B o est ref = .ok L)
    (m : BIdx s) : sdrLossDiag (s := []) B o (fun _ => est m) (fun _ => ref m) = .ok fun _ => L m := by
  obtain ⟨coh, hc, rfl⟩ := sdrLossDiag_entry h
  unfold sdrLossDiag
  have := sdrCohDiag_related hB (π := fun _ => Equiv.refl _) (related_item o ref est m) hc
  unfold item at this
  rw [this]
  rfl

example (cl : Option ℝ) (m : BIdx [2]) : ∃ L, sdrLossDiag torchBackend (Ex.clamped cl) Ex.best Ex.bref = .ok L ∧
    sdrLossDiag (s := []) torchBackend (Ex.clamped cl) (fun _ => Ex.best m) (fun _ => Ex.bref m) =
      .ok fun _ => L m :=
  ⟨_, Ex.sdrLossDiag_batch cl, C22_sdr_loss_aligned_item Ex.covered (Ex.sdrLossDiag_batch cl) m⟩

/-- C22, `sdr` (and `sdr_pit_loss`). -/
theorem C22_sdr_item (hB : Covered B) (rp cs : Bool) {ref : Sig s r N} {est : Sig s e M} {out}
    (h : sdr B o rp cs ref est = .ok out) (m : BIdx s) :
    sdr (s := []) B o rp cs (fun _ => ref m) (fun _ => est m) =
      .ok ⟨fun _ => out.sdr m, out.perm.map fun p _ => p m⟩ := by
  obtain ⟨L, p, hL, hp, h1, h2⟩ := sdr_ok h
  have e0 : (fun (i : Fin 0) (_ : BIdx []) => (fun i : Fin 0 => (i.elim0 : BIdx s → Fin r → Fin e → XR)) i m) =
    fun i => i.elim0 := by funext i; exact i.elim0
  have hp' := solvePermutation_item hB hp m
  rw [e0] at hp'
  rw [sdr_of_ok rp cs (C22_sdr_loss_item hB hL m) hp']
  congr 2
  · rw [h1]; cases cs <;> rfl
  · rw [h2]; cases rp <;> rfl

example (cl : Option ℝ) (m : BIdx [2]) : ∃ out, sdr torchBackend (Ex.clamped cl) true false Ex.bref Ex.best = .ok out ∧
    sdr (s := []) torchBackend (Ex.clamped cl) true false (fun _ => Ex.bref m) (fun _ => Ex.best m) =
      .ok ⟨fun _ => out.sdr m, out.perm.map fun p _ => p m⟩ :=
  (Ex.sdr_batch cl true false).elim fun _ h => ⟨_, h, C22_sdr_item Ex.covered true false h m⟩

/-- C22, `bss_eval_sources`. -/
theorem C22_bss_eval_item (hB : Covered B) (cp : Bool) {ref : Sig s r N} {est : Sig s e M} {out}
    (h : bssEvalSources B o cp ref est = .ok out) (m : BIdx s) :
    bssEvalSources (s := []) B o cp (fun _ => ref m) (fun _ => est m) =
      .ok ⟨fun _ => out.sdr m, fun _ => out.sir m, fun _ => out.sar m, out.perm.map fun p _ => p m⟩ := by
  unfold bssEvalSources at h ⊢
  cases cp with
  | true =>
    rw [if_pos rfl] at h ⊢
    obtain ⟨sd, sa, p, hc, hp, rfl⟩ := bssEvalPerm_ok h
    have hc' := sqCosPair_related hB (related_item o ref est m) hc
    unfold item at hc'
    have hp' := solvePermutation_item hB hp m
    refine (bssEvalPerm_of_ok hc' (p := ⟨fun _ => p.loss m, fun i _ => p.args i m, fun _ => p.perm m⟩) ?_).trans rfl
    rw [← hp']
    congr 1
    funext i
    fin_cases i <;> rfl
  | false =>
    rw [if_neg Bool.false_ne_true] at h ⊢
    split at h
    · cases h
    · rename_i hre
      rw [if_neg hre]
      unfold bssEvalNoPerm at h ⊢
      split at h
      · cases h
      · rename_i sd sa hc
        cases h
        have hc' := sqCosDiag_related hB (π := fun _ => Equiv.refl _) (related_item o _ _ m) hc
        unfold item at hc'
        rw [hc']
        rfl

example (cl : Option ℝ) (cp : Bool) (m : BIdx [2]) :
    ∃ out, bssEvalSources torchBackend (Ex.clamped cl) cp Ex.bref Ex.best = .ok out ∧
      bssEvalSources (s := []) torchBackend (Ex.clamped cl) cp (fun _ => Ex.bref m) (fun _ => Ex.best m) =
        .ok ⟨fun _ => out.sdr m, fun _ => out.sir m, fun _ => out.sar m, out.perm.map fun p _ => p m⟩ :=
  (Ex.bss_batch cl cp).elim fun _ h => ⟨_, h, C22_bss_eval_item Ex.covered cp h m⟩

/-- C22: `sdr_loss` on a batch returns if it returns for every item. -/
theorem C22_sdr_loss_returns (hne : Nonempty (BIdx s)) (ref : Sig s r N) (est : Sig s e M)
    (h : ∀ m, ∃ L, sdrLossPair (s := []) B o (fun _ => est m) (fun _ => ref m) = .ok L) :
    ∃ L, sdrLossPair B o est ref = .ok L := by
  obtain ⟨coh, hc⟩ := sdrCohPair_of_items hne ref est (B := B) (o := o) fun m => by
    obtain ⟨L, hL⟩ := h m
    obtain ⟨coh, hc, -⟩ := sdrLossPair_entry hL
    exact ⟨coh, hc⟩
  unfold sdrLossPair
  rw [hc]
  exact ⟨_, rfl⟩

theorem C22_sdr_loss_aligned_returns (hne : Nonempty (BIdx s)) (ref : Sig s c N) (est : Sig s c M)
    (h : ∀ m, ∃ L, sdrLossDiag (s := []) B o (fun _ => est m) (fun _ => ref m) = .ok L) :
    ∃ L, sdrLossDiag B o est ref = .ok L := by
  obtain ⟨coh, hc⟩ := sdrCohDiag_of_items hne ref est (B := B) (o := o) fun m => by
    obtain ⟨L, hL⟩ := h m
    obtain ⟨coh, hc, -⟩ := sdrLossDiag_entry hL
    exact ⟨coh, hc⟩
  unfold sdrLossDiag
  rw [hc]
  exact ⟨_, rfl⟩

example (cl : Option ℝ) : ∃ L, sdrLossDiag torchBackend (Ex.clamped cl) Ex.best Ex.bref = .ok L :=
  C22_sdr_loss_aligned_returns (s := [2]) ⟨((0 : Fin 2), ())⟩ _ _ fun m =>
    ⟨_, C22_sdr_loss_aligned_item Ex.covered (Ex.sdrLossDiag_batch cl) m⟩

theorem C22_sdr_returns (hB : Covered B) (rp cs : Bool) (hne : Nonempty (BIdx s)) (ref : Sig s r N) (est : Sig s e M)
    (h : ∀ m, ∃ out, sdr (s := []) B o rp cs (fun _ => ref m) (fun _ => est m) = .ok out) :
    ∃ out, sdr B o rp cs ref est = .ok out := by
  obtain ⟨L, hL⟩ := C22_sdr_loss_returns hne ref est (B := B) (o := o) fun m => by
    obtain ⟨out, ho⟩ := h m
    obtain ⟨L, p, hL, -⟩ := sdr_ok ho
    exact ⟨L, hL⟩
  obtain ⟨p, hp⟩ := (solvePermutation_ok_iff B hB.lsa L (nArgs := 0) (fun i => i.elim0)).2 fun m => by
    obtain ⟨out, ho⟩ := h m
    obtain ⟨L', p, hL', hp, -⟩ := sdr_ok ho
    rw [C22_sdr_loss_item hB hL m] at hL'
    cases hL'
    exact (solvePermutation_ok_iff B hB.lsa _ _).1 ⟨p, hp⟩ ()
  exact ⟨_, sdr_of_ok rp cs hL hp⟩

-- a batch of shape (3, 2) made of the items of the first one
example (cl : Option ℝ) : ∃ out, sdr (s := [3, 2]) torchBackend (Ex.clamped cl) true false
    (fun m => Ex.bref m.2) (fun m => Ex.best m.2) = .ok out :=
  C22_sdr_returns (s := [3, 2]) Ex.covered true false ⟨((0 : Fin 3), (0 : Fin 2), ())⟩ _ _ fun m =>
    (Ex.sdr_batch cl true false).elim fun _ h => ⟨_, C22_sdr_item Ex.covered true false h m.2⟩

theorem C22_bss_eval_returns (hB : Covered B) (cp : Bool) (hne : Nonempty (BIdx s)) (ref : Sig s r N) (est : Sig s e M)
    (h : ∀ m, ∃ out, bssEvalSources (s := []) B o cp (fun _ => ref m) (fun _ => est m) = .ok out) :
    ∃ out, bssEvalSources B o cp ref est = .ok out := by
  unfold bssEvalSources at h ⊢
  cases cp with
  | true =>
    simp only [if_pos] at h ⊢
    obtain ⟨⟨sd, sa⟩, hc⟩ := sqCosPair_of_items hne ref est (B := B) (o := o) fun m => by
      obtain ⟨out, ho⟩ := h m
      obtain ⟨sd, sa, p, hc, -⟩ := bssEvalPerm_ok ho
      exact ⟨_, hc⟩
    obtain ⟨p, hp⟩ := (solvePermutation_ok_iff B hB.lsa (negSir o sd sa) (nArgs := 2)
      ![negSdr o sd sa, negSar o sd sa]).2 fun m => by
      obtain ⟨out, ho⟩ := h m
      obtain ⟨sd', sa', p, hc', hp, -⟩ := bssEvalPerm_ok ho
      have hc1 := sqCosPair_related hB (related_item o ref est m) hc
      unfold item at hc1
      rw [hc1] at hc'
      cases hc'
      exact (solvePermutation_ok_iff B hB.lsa _ _).1 ⟨p, hp⟩ ()
    exact ⟨_, bssEvalPerm_of_ok hc hp⟩
  | false =>
    obtain ⟨m0⟩ := hne
    by_cases hre : r ≠ e
    · obtain ⟨out, ho⟩ := h m0
      rw [if_neg Bool.false_ne_true, if_pos hre] at ho
      cases ho
    · rw [if_neg Bool.false_ne_true, if_neg hre]
      obtain ⟨coh, hc⟩ := sqCosDiag_of_items ⟨m0⟩ (fun m k => ref m (k.castLE (min_le_left r e)))
          (fun m k => est m (k.castLE (min_le_right r e))) (B := B) (o := o) fun m => by
        obtain ⟨out, ho⟩ := h m
        rw [if_neg Bool.false_ne_true, if_neg hre] at ho
        unfold bssEvalNoPerm at ho
        split at ho
        · cases ho
        · rename_i hc; exact ⟨_, hc⟩
      unfold bssEvalNoPerm
      rw [hc]
      exact ⟨_, rfl⟩

example (cl : Option ℝ) (cp : Bool) : ∃ out, bssEvalSources (s := [3, 2]) torchBackend (Ex.clamped cl) cp
    (fun m => Ex.bref m.2) (fun m => Ex.best m.2) = .ok out :=
  C22_bss_eval_returns (s := [3, 2]) Ex.covered cp ⟨((0 : Fin 3), (0 : Fin 2), ())⟩ _ _ fun m =>
    (Ex.bss_batch cl cp).elim fun _ h => ⟨_, C22_bss_eval_item Ex.covered cp h m.2⟩

/-! The scale-invariant functions. -/

theorem C22_si_sdr_loss_item (hB : Covered B) {zm : Bool} {cl : Option ℝ} {ref : Sig s r N} {est : Sig s e M} {L}
    (h : siSdrLossPair B zm cl est ref = .ok L) (m : BIdx s) :
    siSdrLossPair (s := []) B zm cl (fun _ => est m) (fun _ => ref m) = .ok fun _ => L m :=
  C22_sdr_loss_item hB h m

example (zm : Bool) (cl : Option ℝ) (m : BIdx [2]) : ∃ L, siSdrLossPair torchBackend zm cl Ex.best Ex.bref = .ok L ∧
    siSdrLossPair (s := []) torchBackend zm cl (fun _ => Ex.best m) (fun _ => Ex.bref m) = .ok fun _ => L m :=
  (Ex.siSdrLossPair_ok zm cl).elim fun _ h => ⟨_, h, C22_si_sdr_loss_item Ex.covered h m⟩

theorem C22_si_sdr_item (hB : Covered B) {zm : Bool} {cl : Option ℝ} (rp cs : Bool) {ref : Sig s r N}
    {est : Sig s e M} {out} (h : siSdr B zm cl rp cs ref est = .ok out) (m : BIdx s) :
    siSdr (s := []) B zm cl rp cs (fun _ => ref m) (fun _ => est m) =
      .ok ⟨fun _ => out.sdr m, out.perm.map fun p _ => p m⟩ :=
  C22_sdr_item hB rp cs h m

example (m : BIdx [2]) : ∃ out, siSdr torchBackend false (some 30) true false Ex.bref Ex.best = .ok out ∧
    siSdr (s := []) torchBackend false (some 30) true false (fun _ => Ex.bref m) (fun _ => Ex.best m) =
      .ok ⟨fun _ => out.sdr m, out.perm.map fun p _ => p m⟩ :=
  (Ex.siSdr_ok false 30 true false).elim fun _ h => ⟨_, h, C22_si_sdr_item Ex.covered true false h m⟩

theorem C22_si_bss_eval_item (hB : Covered B) {zm : Bool} {cl ld : Option ℝ} (cp : Bool) {ref : Sig s r N}
    {est : Sig s e M} {out} (h : siBssEvalSources B zm cl cp ld ref est = .ok out) (m : BIdx s) :
    siBssEvalSources (s := []) B zm cl cp ld (fun _ => ref m) (fun _ => est m) =
      .ok ⟨fun _ => out.sdr m, fun _ => out.sir m, fun _ => out.sar m, out.perm.map fun p _ => p m⟩ :=
  C22_bss_eval_item hB cp h m

example (cp : Bool) (m : BIdx [2]) : ∃ out, siBssEvalSources torchBackend false (some 30) cp none Ex.bref Ex.best = .ok out ∧
    siBssEvalSources (s := []) torchBackend false (some 30) cp none (fun _ => Ex.bref m) (fun _ => Ex.best m) =
      .ok ⟨fun _ => out.sdr m, fun _ => out.sir m, fun _ => out.sar m, out.perm.map fun p _ => p m⟩ :=
  (Ex.siBss_ok 30 cp).elim fun _ h => ⟨_, h, C22_si_bss_eval_item Ex.covered cp h m⟩

theorem C22_si_sdr_returns (hB : Covered B) {zm : Bool} {cl : Option ℝ} (rp cs : Bool) (hne : Nonempty (BIdx s))
    (ref : Sig s r N) (est : Sig s e M)
    (h : ∀ m, ∃ out, siSdr (s := []) B zm cl rp cs (fun _ => ref m) (fun _ => est m) = .ok out) :
    ∃ out, siSdr B zm cl rp cs ref est = .ok out :=
  C22_sdr_returns hB rp cs hne ref est h

example : ∃ out, siSdr (s := [3, 2]) torchBackend false (some 30) true false
    (fun m => Ex.bref m.2) (fun m => Ex.best m.2) = .ok out :=
  C22_si_sdr_returns (s := [3, 2]) Ex.covered true false ⟨((0 : Fin 3), (0 : Fin 2), ())⟩ _ _ fun m =>
    (Ex.siSdr_ok false 30 true false).elim fun _ h => ⟨_, C22_si_sdr_item Ex.covered true false h m.2⟩

theorem C22_si_bss_eval_returns (hB : Covered B) {zm : Bool} {cl ld : Option ℝ} (cp : Bool) (hne : Nonempty (BIdx s))
    (ref : Sig s r N) (est : Sig s e M)
    (h : ∀ m, ∃ out, siBssEvalSources (s := []) B zm cl cp ld (fun _ => ref m) (fun _ => est m) = .ok out) :
    ∃ out, siBssEvalSources B zm cl cp ld ref est = .ok out :=
  C22_bss_eval_returns hB cp hne ref est h

example (cp : Bool) : ∃ out, siBssEvalSources (s := [3, 2]) torchBackend false (some 30) cp none
    (fun m => Ex.bref m.2) (fun m => Ex.best m.2) = .ok out :=
  C22_si_bss_eval_returns (s := [3, 2]) Ex.covered cp ⟨((0 : Fin 3), (0 : Fin 2), ())⟩ _ _ fun m =>
    (Ex.siBss_ok 30 cp).elim fun _ h => ⟨_, C22_si_bss_eval_item Ex.covered cp h m.2⟩

/-! A batch of two copies of the example, the second one with the estimates exchanged. -/

example : ∃ L, sdrLossPair (s := [2]) torchBackend Ex.opts
    (fun m k => Ex.est () (if m.1 = 0 then k else 1 - k)) (fun _ => Ex.ref ()) = .ok L := by
  refine C22_sdr_loss_returns (s := [2]) ⟨((0 : Fin 2), ())⟩ _ _ fun m => ?_
  rcases sdrCohPair_success Ex.covered rfl (by decide) Ex.load (by decide) Ex.fits Ex.ref
    (fun _ k => Ex.est () (if m.1 = 0 then k else 1 - k)) with h | ⟨-, m, k, h⟩
  · obtain ⟨coh, hc⟩ := h.1
    exact ⟨_, by unfold sdrLossPair; rw [show (fun _ : BIdx [] => Ex.ref ()) = Ex.ref from rfl, hc]⟩
  · exact absurd h (Ex.ref_ne_zero m k)

end FBE.Props
