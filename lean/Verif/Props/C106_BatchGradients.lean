import Verif.Props.C22_Batch
import Verif.Proofs.Example
import Verif.Props.C97_Volume

/-!
# C106: the gradients of a batch item are those of a call on it alone
-/

namespace FBE.Props

open Classical FBE.Spec FBE.Backward XR

variable {s : List ℕ} {r e c N M it : ℕ} {o : Opts}

theorem solveStack_sub {ι ι' κ J : Type} [Fintype J] [DecidableEq J] {A : ι → Matrix J J ℝ} {b : ι → κ → J → ℝ} {x}
    (h : solveStack A b = .ok x) (f : ι' → ι) : solveStack (fun i => A (f i)) (fun i => b (f i)) = .ok fun i => x (f i) := by
  unfold solveStack at h ⊢
  split_ifs at h with h1
  rw [if_neg fun ⟨i, hi⟩ => h1 ⟨f i, hi⟩]
  cases h
  rfl

section pairs

variable {ref : Sig s r N} {est : Sig s e M}

theorem forward_item {F : Forward s r e} (h : forward o ref est = .ok F) (m : BIdx s) :
    forward (s := []) o (fun _ => ref m) (fun _ => est m) = .ok ⟨F.n, F.K, fun _ => F.R m, fun _ => F.xc m, fun _ => F.sol m⟩ := by
  unfold forward at h ⊢
  cases hn : nFft N M with
  | error err => rw [hn] at h; cases h
  | ok n =>
    rw [hn] at h
    dsimp only at h ⊢
    split at h
    · cases h
    · rename_i sol hs
      have := solveStack_sub hs fun i : BIdx [] × Fin r => (m, i.2)
      cases h
      have e1 : ∀ x k, sdrAcf (s := []) o n (fun _ => ref m) x k = sdrAcf o n ref m k := fun _ _ => rfl
      have e2 : ∀ x k j, sdrXcorr (s := []) o n (fun _ => ref m) (fun _ => est m) x k j = sdrXcorr o n ref est m k j := fun _ _ _ => rfl
      simp only [e1, e2]
      rw [this]

/-- **C106**, `sdr_loss` with `filter_length=1` and `si_sdr_loss`, all pairs. -/
theorem C106_si_pairwise (ref : Sig s r N) (est : Sig s e N) (w : BIdx s → Fin r → Fin e → ℝ) (m : BIdx s) :
    gradEst (s := []) o (fun _ => ref m) (fun _ => est m) (fun _ => w m) = (fun _ => gradEst o ref est w m) ∧
      gradRef (s := []) o (fun _ => ref m) (fun _ => est m) (fun _ => w m) = fun _ => gradRef o ref est w m :=
  ⟨rfl, rfl⟩

/-- **C106**, `sdr_loss` with longer filters and the direct solver, all pairs. -/
theorem C106_sdr_pairwise {w : BIdx s → Fin r → Fin e → ℝ} {gE gR} (hE : gradEstFir o ref est w = .ok gE)
    (hR : gradRefFir o ref est w = .ok gR) (m : BIdx s) :
    gradEstFir (s := []) o (fun _ => ref m) (fun _ => est m) (fun _ => w m) = .ok (fun _ => gE m) ∧
      gradRefFir (s := []) o (fun _ => ref m) (fun _ => est m) (fun _ => w m) = .ok fun _ => gR m := by
  unfold gradEstFir gradRefFir at *
  cases h : forward o ref est with
  | error err => rw [h] at hE; cases hE
  | ok F =>
    rw [h] at hE hR
    rw [forward_item h m]
    cases hE
    cases hR
    exact ⟨rfl, rfl⟩

/-- **C106**: the direct solver raises for a batch only if it raises for an item. -/
theorem C106_sdr_returns (hne : Nonempty (BIdx s)) (ref : Sig s r N) (est : Sig s e M) (w : BIdx s → Fin r → Fin e → ℝ)
    (h : ∀ m, ∃ g, gradEstFir (s := []) o (fun _ => ref m) (fun _ => est m) (fun _ => w m) = .ok g) :
    (∃ gE, gradEstFir o ref est w = .ok gE) ∧ ∃ gR, gradRefFir o ref est w = .ok gR := by
  have key : ∃ F, forward o ref est = .ok F := by
    unfold gradEstFir forward at h
    unfold forward
    cases hn : nFft N M with
    | error err =>
      obtain ⟨g, hg⟩ := h hne.some
      rw [hn] at hg
      cases hg
    | ok n =>
      simp only [hn] at h
      dsimp only
      have hs : ∀ m : BIdx s, ∀ k, (toeplitz torchBackend (min o.filterLength n) (sdrAcf o n ref m k)).det ≠ 0 := by
        intro m k h0
        obtain ⟨g, hg⟩ := h m
        unfold solveStack at hg
        rw [if_pos ⟨((), k), h0⟩] at hg
        cases hg
      unfold solveStack
      rw [if_neg fun ⟨i, hi⟩ => hs i.1 i.2 hi]
      exact ⟨_, rfl⟩
  obtain ⟨F, hF⟩ := key
  unfold gradEstFir gradRefFir
  rw [hF]
  exact ⟨⟨_, rfl⟩, ⟨_, rfl⟩⟩

/-- **C106**, `sdr_loss` with `use_cg_iter`, all pairs. -/
theorem C106_iterative_pairwise {w : BIdx s → Fin r → Fin e → ℝ} {gE gR} (hE : gradEstCg o it ref est w = .ok gE)
    (hR : gradRefCg o it ref est w = .ok gR) (m : BIdx s) :
    gradEstCg (s := []) o it (fun _ => ref m) (fun _ => est m) (fun _ => w m) = .ok (fun _ => gE m) ∧
      gradRefCg (s := []) o it (fun _ => ref m) (fun _ => est m) (fun _ => w m) = .ok fun _ => gR m := by
  unfold gradEstCg gradRefCg at *
  cases h : nFft N M with
  | error err => rw [h] at hE; cases hE
  | ok n =>
    rw [h] at hE hR
    cases hE
    cases hR
    exact ⟨rfl, rfl⟩

theorem pitWeights_item {cs : Bool} {v : BIdx s → Fin (min r e) → ℝ} {w} (h : pitWeights o cs ref est v = .ok w) (m : BIdx s) :
    pitWeights (s := []) o cs (fun _ => ref m) (fun _ => est m) (fun _ => v m) = .ok fun _ => w m := by
  unfold pitWeights at h ⊢
  cases hL : sdrLossPair torchBackend o est ref with
  | error err => rw [hL] at h; cases h
  | ok L =>
    rw [hL] at h
    rw [C22_sdr_loss_item Ex.covered hL m]
    dsimp only at h ⊢
    split at h
    · cases h
    · rename_i out hp
      have hp' := solvePermutation_item Ex.covered hp m
      have e0 : (fun (i : Fin 0) (_ : BIdx []) => (fun i : Fin 0 => (i.elim0 : BIdx s → Fin r → Fin e → XR)) i m) =
        fun i => i.elim0 := by funext i; exact i.elim0
      rw [e0] at hp'
      rw [hp']
      cases h
      rfl

/-- **C106**, `sdr` and `sdr_pit_loss` (`cs`) with `filter_length=1`. -/
theorem C106_pit_si {est : Sig s e N} {cs : Bool} {v : BIdx s → Fin (min r e) → ℝ} {gE gR} (hE : gradEstPit o cs ref est v = .ok gE)
    (hR : gradRefPit o cs ref est v = .ok gR) (m : BIdx s) :
    gradEstPit (s := []) o cs (fun _ => ref m) (fun _ => est m) (fun _ => v m) = .ok (fun _ => gE m) ∧
      gradRefPit (s := []) o cs (fun _ => ref m) (fun _ => est m) (fun _ => v m) = .ok fun _ => gR m := by
  unfold gradEstPit gradRefPit at *
  cases h : pitWeights o cs ref est v with
  | error err => rw [h] at hE; cases hE
  | ok w =>
    rw [h] at hE hR
    rw [pitWeights_item h m]
    cases hE
    cases hR
    exact ⟨rfl, rfl⟩

/-- **C106**, `sdr` and `sdr_pit_loss` (`cs`) with longer filters and the direct solver. -/
theorem C106_pit {cs : Bool} {v : BIdx s → Fin (min r e) → ℝ} {gE gR} (hE : gradEstFirPit o cs ref est v = .ok gE)
    (hR : gradRefFirPit o cs ref est v = .ok gR) (m : BIdx s) :
    gradEstFirPit (s := []) o cs (fun _ => ref m) (fun _ => est m) (fun _ => v m) = .ok (fun _ => gE m) ∧
      gradRefFirPit (s := []) o cs (fun _ => ref m) (fun _ => est m) (fun _ => v m) = .ok fun _ => gR m := by
  unfold gradEstFirPit gradRefFirPit at *
  cases h : pitWeights o cs ref est v with
  | error err => rw [h] at hE; cases hE
  | ok w =>
    rw [h] at hE hR
    rw [pitWeights_item h m]
    exact C106_sdr_pairwise hE hR m

/-- **C106**, `sdr` and `sdr_pit_loss` (`cs`) with `use_cg_iter`. -/
theorem C106_pit_iterative {cs : Bool} {v : BIdx s → Fin (min r e) → ℝ} {gE gR} (hE : gradEstCgPit o it cs ref est v = .ok gE)
    (hR : gradRefCgPit o it cs ref est v = .ok gR) (m : BIdx s) :
    gradEstCgPit (s := []) o it cs (fun _ => ref m) (fun _ => est m) (fun _ => v m) = .ok (fun _ => gE m) ∧
      gradRefCgPit (s := []) o it cs (fun _ => ref m) (fun _ => est m) (fun _ => v m) = .ok fun _ => gR m := by
  unfold gradEstCgPit gradRefCgPit at *
  cases h : pitWeights o cs ref est v with
  | error err => rw [h] at hE; cases hE
  | ok w =>
    rw [h] at hE hR
    rw [pitWeights_item h m]
    exact C106_iterative_pairwise hE hR m

/-! ### `bss_eval_sources` -/

/-- The part of a pass for one item. -/
noncomputable def passItem (P : BssPass s r e N M) (m : BIdx s) : BssPass [] r e N M :=
  ⟨fun _ => P.cohSdr m, fun _ => P.cohSar m, fun _ => P.est m, fun _ => P.ref m⟩

theorem passOne_item {est : Sig s e N} {P} (h : passOne o ref est = .ok P) (m : BIdx s) :
    passOne (s := []) o (fun _ => ref m) (fun _ => est m) = .ok (passItem P m) := by
  unfold passOne at h ⊢
  dsimp only at h ⊢
  cases hd : o.loadDiag with
  | none =>
    simp only [hd] at h ⊢
    split at h
    · cases h
    · rename_i sol hs
      have := solveStack_sub hs fun _ : BIdx [] => m
      have e1 : ∀ x, prep (s := []) o (fun _ => ref m) x = prep o ref m := fun _ => rfl
      have e2 : ∀ x, prep (s := []) o (fun _ => est m) x = prep o est m := fun _ => rfl
      simp only [e1, e2]
      rw [this]
      cases h
      rfl
  | some d =>
    simp only [hd] at h ⊢
    split at h
    · cases h
    · rename_i sol hs
      have := solveStack_sub hs fun _ : BIdx [] => m
      have e1 : ∀ x, prep (s := []) o (fun _ => ref m) x = prep o ref m := fun _ => rfl
      have e2 : ∀ x, prep (s := []) o (fun _ => est m) x = prep o est m := fun _ => rfl
      simp only [e1, e2]
      rw [this]
      cases h
      rfl

theorem blockToeplitz_sub {ι ι' : Type} {c n : ℕ} {x : ι → Fin c → Fin c → List ℝ} {T} (h : blockToeplitz torchBackend n x = .ok T)
    (f : ι' → ι) : blockToeplitz torchBackend n (fun i => x (f i)) = .ok fun i => T (f i) := by
  unfold blockToeplitz at h ⊢
  split_ifs at h with h1
  rw [if_neg fun ⟨i, k, l, hi⟩ => h1 ⟨f i, k, l, hi⟩]
  cases h
  rfl

theorem passFir_item {P} (h : passFir o ref est = .ok P) (m : BIdx s) :
    passFir (s := []) o (fun _ => ref m) (fun _ => est m) = .ok (passItem P m) := by
  unfold passFir at h ⊢
  cases hn : nFft N M with
  | error err => rw [hn] at h; cases h
  | ok n =>
    rw [hn] at h
    dsimp only at h ⊢
    split_ifs at h ⊢ with hK
    split at h
    · cases h
    · rename_i sol hs
      split at h
      · cases h
      · rename_i RB hb
        split at h
        · cases h
        · rename_i solB hsB
          have h1 := solveStack_sub hs fun i : BIdx [] × Fin r => (m, i.2)
          have h2 := blockToeplitz_sub hb fun _ : BIdx [] => m
          have h3 := solveStack_sub hsB fun _ : BIdx [] => m
          have e1 : ∀ x k, bssAcfSdr (s := []) o n (fun _ => ref m) x k = bssAcfSdr o n ref m k := fun _ _ => rfl
          have e2 : ∀ x k j, sdrXcorr (s := []) o n (fun _ => ref m) (fun _ => est m) x k j = sdrXcorr o n ref est m k j :=
            fun _ _ _ => rfl
          have e3 : bssAcf (s := []) o n (fun _ => ref m) = fun _ => bssAcf o n ref m := rfl
          have e4 : xcorrFlat (s := []) o n (min o.filterLength n) (fun _ => ref m) (fun _ => est m) =
            fun _ => xcorrFlat o n (min o.filterLength n) ref est m := rfl
          simp only [e1, e2, e3, e4]
          rw [h1]
          dsimp only
          rw [h2]
          dsimp only
          rw [h3]
          cases h
          rfl

theorem bssPass_item {P} (h : bssPass o ref est = .ok P) (m : BIdx s) :
    bssPass (s := []) o (fun _ => ref m) (fun _ => est m) = .ok (passItem P m) := by
  unfold bssPass at h ⊢
  split_ifs at h ⊢ with h0 h1 h2
  · subst h2
    exact passOne_item h m
  · exact passFir_item h m

theorem passCg_item {warm : Bool} {P} (h : passCg warm o it ref est = .ok P) (m : BIdx s) :
    passCg (s := []) warm o it (fun _ => ref m) (fun _ => est m) = .ok (passItem P m) := by
  unfold passCg at h ⊢
  cases hn : nFft N M with
  | error err => rw [hn] at h; cases h
  | ok n =>
    rw [hn] at h
    dsimp only at h ⊢
    split_ifs at h with hK hd
    rw [if_neg hK, if_neg fun ⟨_, f, hf, h0⟩ => hd ⟨m, f, hf, h0⟩]
    cases h
    rfl

/-- The weights of one item. -/
def weightsItem {κ : Type} (v : BssWeights (BIdx s × κ)) (m : BIdx s) : BssWeights (BIdx [] × κ) :=
  ⟨v.sdr.map fun w i => w (m, i.2), v.sir.map fun w i => w (m, i.2), v.sar.map fun w i => w (m, i.2)⟩

theorem permWeights_item (perm : BIdx s → Fin (min r e) → ℕ) (v : BssWeights (BIdx s × Fin (min r e))) (m : BIdx s) :
    permWeights (s := []) (fun _ => perm m) (weightsItem v m) = weightsItem (permWeights perm v) m := by
  obtain ⟨a, b, c⟩ := v
  cases a <;> cases b <;> cases c <;> rfl

theorem negWeights_item {c : ℕ} (v : BssWeights (BIdx s × Fin c)) (m : BIdx s) :
    negWeights (weightsItem v m) = weightsItem (negWeights v) m := by
  obtain ⟨a, b, c⟩ := v
  cases a <;> cases b <;> cases c <;> rfl

theorem gradBss_item (P : BssPass s r e N M) (W : BssWeights (BIdx s × Fin r × Fin e)) (m : BIdx s) :
    gradEstBss o (passItem P m) (fun _ => est m) (weightsItem W m) = (fun _ => gradEstBss o P est W m) ∧
      gradRefBss o (passItem P m) (fun _ => ref m) (weightsItem W m) = fun _ => gradRefBss o P ref W m := by
  obtain ⟨a, b, c⟩ := W
  cases a <;> cases b <;> cases c <;> exact ⟨rfl, rfl⟩

theorem bssPerm_item {P : BssPass s r e N M} {out}
    (hp : solvePermutation torchBackend (fun m k j => (baseMetrics o.clampDb (P.cohSdr m k j) (P.cohSar m j)).2.1) (nArgs := 2)
      ![fun m k j => (baseMetrics o.clampDb (P.cohSdr m k j) (P.cohSar m j)).1,
        fun m k j => (baseMetrics o.clampDb (P.cohSdr m k j) (P.cohSar m j)).2.2] = .ok out) (m : BIdx s) :
    solvePermutation torchBackend (s := []) (fun x k j => (baseMetrics o.clampDb ((passItem P m).cohSdr x k j) ((passItem P m).cohSar x j)).2.1)
      (nArgs := 2) ![fun x k j => (baseMetrics o.clampDb ((passItem P m).cohSdr x k j) ((passItem P m).cohSar x j)).1,
        fun x k j => (baseMetrics o.clampDb ((passItem P m).cohSdr x k j) ((passItem P m).cohSar x j)).2.2] =
      .ok ⟨fun _ => out.loss m, fun i _ => out.args i m, fun _ => out.perm m⟩ := by
  have := solvePermutation_item Ex.covered hp m
  rw [← this]
  congr 1
  funext i
  fin_cases i <;> rfl

/-- **C106**, losses made of the values of `bss_eval_sources`, direct solver. -/
theorem C106_bss_eval_perm {v : BssWeights (BIdx s × Fin (min r e))} {g} (h : bssBackward o ref est v = .ok g) (m : BIdx s) :
    bssBackward (s := []) o (fun _ => ref m) (fun _ => est m)
        ⟨v.sdr.map fun w i => w (m, i.2), v.sir.map fun w i => w (m, i.2), v.sar.map fun w i => w (m, i.2)⟩ =
      .ok (fun _ => g.1 m, fun _ => g.2 m) := by
  unfold bssBackward at h ⊢
  cases hP : bssPass o ref est with
  | error err => rw [hP] at h; cases h
  | ok P =>
    rw [hP] at h
    rw [bssPass_item hP m]
    dsimp only at h ⊢
    split at h
    · cases h
    · rename_i out hp
      rw [bssPerm_item hp m]
      cases h
      show Except.ok (_, _) = Except.ok (_, _)
      have e := permWeights_item out.perm v m
      unfold weightsItem at e
      dsimp only
      rw [e]
      have := gradBss_item (o := o) (ref := ref) (est := est) P (permWeights out.perm v) m
      unfold weightsItem at this
      rw [this.1, this.2]

/-- **C106**, losses made of the values of `bss_eval_sources`, with `use_cg_iter`. -/
theorem C106_bss_eval_perm_iterative {v : BssWeights (BIdx s × Fin (min r e))} {g} (h : bssBackwardCg o it ref est v = .ok g) (m : BIdx s) :
    bssBackwardCg (s := []) o it (fun _ => ref m) (fun _ => est m)
        ⟨v.sdr.map fun w i => w (m, i.2), v.sir.map fun w i => w (m, i.2), v.sar.map fun w i => w (m, i.2)⟩ =
      .ok (fun _ => g.1 m, fun _ => g.2 m) := by
  unfold bssBackwardCg at h ⊢
  cases hP : passCg true o it ref est with
  | error err => rw [hP] at h; cases h
  | ok P =>
    rw [hP] at h
    rw [passCg_item hP m]
    dsimp only at h ⊢
    split at h
    · cases h
    · rename_i out hp
      rw [bssPerm_item hp m]
      cases h
      show Except.ok (_, _) = Except.ok (_, _)
      have e := permWeights_item out.perm v m
      unfold weightsItem at e
      dsimp only
      rw [e]
      have := gradBss_item (o := o) (ref := ref) (est := est) P (permWeights out.perm v) m
      unfold weightsItem at this
      rw [this.1, this.2]

end pairs

section aligned

variable {ref : Sig s c N} {est : Sig s c M}

theorem forwardDiag_channel {F : Forward s c 1} (h : forwardDiag o ref est = .ok F) (m : BIdx s) (k : Fin c) :
    forwardDiag (s := []) o (fun _ (_ : Fin 1) => ref m k) (fun _ (_ : Fin 1) => est m k) =
      .ok ⟨F.n, F.K, fun _ _ => F.R m k, fun _ _ => F.xc m k, fun _ _ => F.sol m k⟩ := by
  unfold forwardDiag at h ⊢
  cases hn : nFft N M with
  | error err => rw [hn] at h; cases h
  | ok n =>
    rw [hn] at h
    dsimp only at h ⊢
    split at h
    · cases h
    · rename_i sol hs
      have := solveStack_sub hs fun i : BIdx [] × Fin 1 => (m, k)
      cases h
      have e1 : ∀ x y, sdrAcf (s := []) o n (fun _ (_ : Fin 1) => ref m k) x y = sdrAcf o n ref m k := fun _ _ => rfl
      have e2 : ∀ x y z, sdrXcorr (s := []) o n (fun _ (_ : Fin 1) => ref m k) (fun _ (_ : Fin 1) => est m k) x y z =
        sdrXcorr o n ref est m k k := fun _ _ _ => rfl
      simp only [e1, e2]
      rw [this]

/-- **C106**, `sdr_loss` with `filter_length=1` and `si_sdr_loss`, channel by channel: the gradients of one channel are those of a call on this
channel alone. -/
theorem C106_si (ref est : Sig s c N) (w : BIdx s → Fin c → ℝ) (m : BIdx s) (k : Fin c) :
    gradEstDiag (s := []) (c := 1) o (fun _ _ => ref m k) (fun _ _ => est m k) (fun _ _ => w m k) = (fun _ _ => gradEstDiag o ref est w m k) ∧
      gradRefDiag (s := []) (c := 1) o (fun _ _ => ref m k) (fun _ _ => est m k) (fun _ _ => w m k) = fun _ _ => gradRefDiag o ref est w m k :=
  ⟨rfl, rfl⟩

/-- **C106**, `sdr_loss` with longer filters and the direct solver, channel by channel. -/
theorem C106_sdr {w : BIdx s → Fin c → ℝ} {gE gR} (hE : gradEstFirDiag o ref est w = .ok gE)
    (hR : gradRefFirDiag o ref est w = .ok gR) (m : BIdx s) (k : Fin c) :
    gradEstFirDiag (s := []) (c := 1) o (fun _ _ => ref m k) (fun _ _ => est m k) (fun _ _ => w m k) = .ok (fun _ _ => gE m k) ∧
      gradRefFirDiag (s := []) (c := 1) o (fun _ _ => ref m k) (fun _ _ => est m k) (fun _ _ => w m k) = .ok fun _ _ => gR m k := by
  unfold gradEstFirDiag gradRefFirDiag at *
  cases h : forwardDiag o ref est with
  | error err => rw [h] at hE; cases hE
  | ok F =>
    rw [h] at hE hR
    rw [forwardDiag_channel h m k]
    cases hE
    cases hR
    exact ⟨rfl, rfl⟩

/-- **C106**, `sdr_loss` with `use_cg_iter`, channel by channel. -/
theorem C106_iterative {w : BIdx s → Fin c → ℝ} {gE gR} (hE : gradEstCgDiag o it ref est w = .ok gE)
    (hR : gradRefCgDiag o it ref est w = .ok gR) (m : BIdx s) (k : Fin c) :
    gradEstCgDiag (s := []) (c := 1) o it (fun _ _ => ref m k) (fun _ _ => est m k) (fun _ _ => w m k) = .ok (fun _ _ => gE m k) ∧
      gradRefCgDiag (s := []) (c := 1) o it (fun _ _ => ref m k) (fun _ _ => est m k) (fun _ _ => w m k) = .ok fun _ _ => gR m k := by
  unfold gradEstCgDiag gradRefCgDiag at *
  cases h : nFft N M with
  | error err => rw [h] at hE; cases hE
  | ok n =>
    rw [h] at hE hR
    cases hE
    cases hR
    exact ⟨rfl, rfl⟩

theorem gradBssDiag_item (P : BssPass s c c N M) (W : BssWeights (BIdx s × Fin c)) (m : BIdx s) :
    gradEstBssDiag o (passItem P m) (fun _ => est m) (weightsItem W m) = (fun _ => gradEstBssDiag o P est W m) ∧
      gradRefBssDiag o (passItem P m) (fun _ => ref m) (weightsItem W m) = fun _ => gradRefBssDiag o P ref W m := by
  obtain ⟨a, b, c⟩ := W
  cases a <;> cases b <;> cases c <;> exact ⟨rfl, rfl⟩

/-- **C106**, losses made of the values of `bss_eval_sources(compute_permutation=False)`, direct solver. -/
theorem C106_bss_eval {v : BssWeights (BIdx s × Fin c)} {g} (h : bssBackwardDiag o ref est v = .ok g) (m : BIdx s) :
    bssBackwardDiag (s := []) o (fun _ => ref m) (fun _ => est m)
        ⟨v.sdr.map fun w i => w (m, i.2), v.sir.map fun w i => w (m, i.2), v.sar.map fun w i => w (m, i.2)⟩ =
      .ok (fun _ => g.1 m, fun _ => g.2 m) := by
  unfold bssBackwardDiag at h ⊢
  cases hP : bssPass o ref est with
  | error err => rw [hP] at h; cases h
  | ok P =>
    rw [hP] at h
    rw [bssPass_item hP m]
    cases h
    have e := negWeights_item v m
    unfold weightsItem at e
    dsimp only
    rw [e]
    have := gradBssDiag_item (o := o) (ref := ref) (est := est) P (negWeights v) m
    unfold weightsItem at this
    rw [this.1, this.2]

/-- **C106**, losses made of the values of `bss_eval_sources(compute_permutation=False)`, with `use_cg_iter`. -/
theorem C106_bss_eval_iterative {v : BssWeights (BIdx s × Fin c)} {g} (h : bssBackwardCgDiag o it ref est v = .ok g) (m : BIdx s) :
    bssBackwardCgDiag (s := []) o it (fun _ => ref m) (fun _ => est m)
        ⟨v.sdr.map fun w i => w (m, i.2), v.sir.map fun w i => w (m, i.2), v.sar.map fun w i => w (m, i.2)⟩ =
      .ok (fun _ => g.1 m, fun _ => g.2 m) := by
  unfold bssBackwardCgDiag at h ⊢
  cases hP : passCg false o it ref est with
  | error err => rw [hP] at h; cases h
  | ok P =>
    rw [hP] at h
    rw [passCg_item hP m]
    cases h
    have e := negWeights_item v m
    unfold weightsItem at e
    dsimp only
    rw [e]
    have := gradBssDiag_item (o := o) (ref := ref) (est := est) P (negWeights v) m
    unfold weightsItem at this
    rw [this.1, this.2]

end aligned

/-! ### examples: a batch of two items -/

example (w : BIdx [2] → Fin 2 → Fin 2 → ℝ) (m : BIdx [2]) : ∃ gE gR, gradEstFir (Ex.clamped none) Ex.bref Ex.best w = .ok gE ∧
    gradRefFir (Ex.clamped none) Ex.bref Ex.best w = .ok gR ∧
    gradEstFir (s := []) (Ex.clamped none) (fun _ => Ex.bref m) (fun _ => Ex.best m) (fun _ => w m) = .ok (fun _ => gE m) ∧
    gradRefFir (s := []) (Ex.clamped none) (fun _ => Ex.bref m) (fun _ => Ex.best m) (fun _ => w m) = .ok fun _ => gR m := by
  obtain ⟨gE, gR, h1, h2, -⟩ := C72_finite (o := Ex.clamped none) (by decide) rfl rfl (Ex.sdrLossPair_batch none) w
  exact ⟨gE, gR, h1, h2, C106_sdr_pairwise h1 h2 m⟩

example (v : BIdx [2] → Fin 2 → ℝ) (m : BIdx [2]) : ∃ gE gR, gradEstFirPit (Ex.clamped (some 30)) false Ex.bref Ex.best v = .ok gE ∧
    gradRefFirPit (Ex.clamped (some 30)) false Ex.bref Ex.best v = .ok gR ∧
    gradEstFirPit (s := []) (Ex.clamped (some 30)) false (fun _ => Ex.bref m) (fun _ => Ex.best m) (fun _ => v m) = .ok (fun _ => gE m) ∧
    gradRefFirPit (s := []) (Ex.clamped (some 30)) false (fun _ => Ex.bref m) (fun _ => Ex.best m) (fun _ => v m) = .ok fun _ => gR m := by
  obtain ⟨out, ho⟩ := Ex.sdr_batch (some 30) true false
  obtain ⟨gE, gR, h1, h2, -⟩ := (C73_clamped_finite (o := Ex.clamped (some 30)) rfl).2 (by decide) rfl ho v
  exact ⟨gE, gR, h1, h2, C106_pit h1 h2 m⟩

example (w : BIdx [2] → Fin 2 → Fin 2 → ℝ) : ∃ gE, gradEstFir (Ex.clamped none) Ex.bref Ex.best w = .ok gE :=
  (C106_sdr_returns (s := [2]) ⟨((0 : Fin 2), ())⟩ _ _ w fun m => by
    obtain ⟨gE, gR, h1, h2, -⟩ := C72_finite (o := Ex.clamped none) (by decide) rfl rfl (Ex.sdrLossPair_batch none) w
    exact ⟨_, (C106_sdr_pairwise h1 h2 m).1⟩).1

example (d : ℝ) (v : BIdx [2] × Fin 2 → ℝ) (m : BIdx [2]) : ∃ g, bssBackward (Ex.clamped (some d)) Ex.bref Ex.best ⟨some v, none, none⟩ = .ok g ∧
    bssBackward (s := []) (Ex.clamped (some d)) (fun _ => Ex.bref m) (fun _ => Ex.best m) ⟨some fun i => v (m, i.2), none, none⟩ =
      .ok (fun _ => g.1 m, fun _ => g.2 m) := by
  obtain ⟨out, h⟩ := Ex.bss_batch (some d) true
  obtain ⟨gE, gR, h1, -⟩ := C85_clamped_finite_perm (o := Ex.clamped (some d)) (by norm_num) (Or.inr rfl) le_rfl rfl h ⟨some v, none, none⟩
  exact ⟨_, h1, C106_bss_eval_perm h1 m⟩

example (it : ℕ) (w : BIdx [2] → Fin 2 → Fin 2 → ℝ) (m : BIdx [2]) : ∃ gE gR, gradEstCg (Ex.clamped none) it Ex.bref Ex.best w = .ok gE ∧
    gradRefCg (Ex.clamped none) it Ex.bref Ex.best w = .ok gR ∧
    gradEstCg (s := []) (Ex.clamped none) it (fun _ => Ex.bref m) (fun _ => Ex.best m) (fun _ => w m) = .ok (fun _ => gE m) ∧
    gradRefCg (s := []) (Ex.clamped none) it (fun _ => Ex.bref m) (fun _ => Ex.best m) (fun _ => w m) = .ok fun _ => gR m := by
  obtain ⟨n, hn⟩ : ∃ n, nFft 3 3 = .ok n := nFft_pos (by norm_num)
  exact ⟨_, _, gradEstCg_eq hn w, gradRefCg_eq hn w, C106_iterative_pairwise (gradEstCg_eq hn w) (gradRefCg_eq hn w) m⟩

end FBE.Props
