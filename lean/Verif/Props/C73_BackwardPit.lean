import Verif.Proofs.BackwardPit
import Verif.Props.C72_BackwardFir

/-!
# C73: the gradients computed by torch through the permutation

`sdr_pit_loss(...).sum().backward()` (and `sdr(...)` with a minus sign).  The permutation is solved without gradients.
If the best permutation is unique, the gradients are the derivatives of the returned values; if several permutations are equally
good, they are the derivatives of a function that touches the total loss from above.  With `clamp_db` they
are finite whenever a value is returned.  Without `clamp_db` an infinite loss of a pair that the
permutation does not use makes the gradients of its estimate and of its reference NaN although the returned values are
finite.
-/

set_option linter.unusedSectionVars false

namespace FBE.Props

open Spec XR Filter Topology Backward Matrix

variable {s : List ℕ} {r e c N T n : ℕ} {o : Opts}

/-- `y` is the sum of the values of `sdr(ref, est, change_sign=cs)` with weights `v`, all of them finite. -/
def PitTotal (o : Opts) (cs : Bool) (ref : Sig s r N) (est : Sig s e T) (v : BIdx s → Fin (min r e) → ℝ) (y : ℝ) : Prop :=
  ∃ (out : SdrOut s (min r e)) (x : BIdx s → Fin (min r e) → ℝ), sdr torchBackend o false cs ref est = .ok out ∧
    (∀ m i, out.sdr m i = fin (x m i)) ∧ y = ∑ m, ∑ i, v m i * x m i

theorem pitTotal_of {cs : Bool} {v : BIdx s → Fin (min r e) → ℝ} {y : ℝ} {X : Type*} {R : X → Sig s r N} {E : X → Sig s e T}
    {p : X} (h : PermNear (fun p => sdrLossPair torchBackend o (E p) (R p)) p (fun m i => if cs then v m i else -v m i) y) :
    PitTotal o cs (R p) (E p) v y := by
  obtain ⟨M, out, x, h1, h2, h3, h4⟩ := h
  refine ⟨⟨if cs then out.loss else fun m k => (out.loss m k).neg, none⟩,
    fun m i => if cs then x m i else -x m i, ?_, fun m i => ?_, ?_⟩
  · unfold sdr
    have h1 : sdrLossPair torchBackend o (E p) (R p) = .ok M := h1
    rw [h1]
    dsimp only
    rw [h2]
    rfl
  · cases cs
    · show (out.loss m i).neg = _
      rw [h3]
      rfl
    · exact h3 m i
  · rw [h4]
    cases cs <;> simp

/-- What is known when `sdr` returns. -/
theorem sdr_ok {cs rp : Bool} {ref : Sig s r N} {est : Sig s e T} {out} (h : sdr torchBackend o rp cs ref est = .ok out) :
    ∃ V p, sdrLossPair torchBackend o est ref = .ok V ∧
      solvePermutation torchBackend V (nArgs := 0) (fun i => i.elim0) = .ok p ∧
      ∀ v, pitWeights o cs ref est v = .ok (permGrad p.perm fun m i => if cs then v m i else -v m i) := by
  unfold sdr at h
  unfold pitWeights
  cases hV : sdrLossPair torchBackend o est ref with
  | error err =>
    rw [hV] at h
    cases h
  | ok V =>
    rw [hV] at h
    dsimp only at h ⊢
    cases hp : solvePermutation torchBackend V (nArgs := 0) (fun i => i.elim0) with
    | error err =>
      rw [hp] at h
      cases h
    | ok p => exact ⟨V, p, rfl, hp, fun v => rfl⟩

/-- The losses of which the total is a sum: with `clamp_db` and off the bounds they are finite. -/
theorem clamped_loss {cl : Option ℝ} {v : ℝ} (h : OffBounds cl (coherenceToNegSdr none (fin v))) :
    ∃ x, coherenceToNegSdr cl (fin v) = fin x := by
  have h1 := h.inside.1
  rw [coherenceToNegSdr_fin]
  unfold negDb
  rw [if_neg (ne_of_gt h1.1), if_neg (ne_of_lt h1.2)]
  exact ⟨_, rfl⟩

theorem grad_cont {f : Sig s c N → ℝ} {x : Sig s c N} {g} (h : IsGradient f x g) : ContinuousAt f x := by
  obtain ⟨-, f', -, h, -⟩ := h
  exact h.continuousAt

/-- **C73**, `filter_length=1`: the gradients through a unique best permutation. -/
theorem C73_gradient_si (h1 : o.filterLength = 1) {ref : Sig s r N} {est : Sig s e N} {V M}
    (hV : sdrLossPair torchBackend { o with clampDb := none } est ref = .ok V) (hb : ∀ m k j, OffBounds o.clampDb (V m k j))
    (hM : sdrLossPair torchBackend o est ref = .ok M) (hu : ∀ m, UniqueBest (M m)) (cs : Bool)
    (v : BIdx s → Fin (min r e) → ℝ) :
    ((∀ m j, sigNorm (centred o.zeroMean (est m j)) ≠ 1e-6) →
      ∃ f g, (∀ᶠ p in 𝓝 est, PitTotal o cs ref p v (f p)) ∧ gradEstPit o cs ref est v = .ok g ∧ IsGradient f est g) ∧
    ((∀ m k, sigNorm (centred o.zeroMean (ref m k)) ≠ 1e-6) →
      ∃ f g, (∀ᶠ p in 𝓝 ref, PitTotal o cs p est v (f p)) ∧ gradRefPit o cs ref est v = .ok g ∧ IsGradient f ref g) := by
  have hfin : ∀ m k j, ∃ x, M m k j = fin x := by
    intro m k j
    have := hb m k j
    rw [lossPair_one (o := { o with clampDb := none }) h1] at hV
    cases hV
    rw [lossPair_one h1] at hM
    cases hM
    exact clamped_loss this
  obtain ⟨p, hp⟩ := (solvePermutation_ok_iff torchBackend torchLsa_correct M (fun i : Fin 0 => i.elim0)).2 fun m =>
    solvable_of_finite (hfin m)
  obtain ⟨w, hw⟩ : ∃ w, w = permGrad p.perm fun m i => if cs then v m i else -v m i := ⟨_, rfl⟩
  have hpw : pitWeights o cs ref est v = .ok w := by
    unfold pitWeights
    rw [hM]
    dsimp only
    rw [hp, hw]
  constructor
  · intro hx
    have hs : ∀ w, ∃ f, LossOfEst o ref est w f ∧ IsGradient f est (gradEst o ref est w) := C71_gradient_est h1 hV hb hx
    obtain ⟨f, hf, hg⟩ := hs w
    refine ⟨f, gradEst o ref est w, ?_, ?_, hg⟩
    · rw [hw] at hf
      filter_upwards [perm_near (L := fun q => sdrLossPair torchBackend o q ref) (fun w => by
        obtain ⟨f, hf, hg⟩ := hs w
        exact ⟨f, hf, grad_cont hg⟩) hM hu hp hf] with q hq
      exact pitTotal_of (R := fun _ => ref) (E := fun q => q) hq
    · unfold gradEstPit
      rw [hpw]
  · intro hx
    have hs : ∀ w, ∃ f, LossOfRef o ref est w f ∧ IsGradient f ref (gradRef o ref est w) := C71_gradient_ref h1 hV hb hx
    obtain ⟨f, hf, hg⟩ := hs w
    refine ⟨f, gradRef o ref est w, ?_, ?_, hg⟩
    · rw [hw] at hf
      filter_upwards [perm_near (L := fun q => sdrLossPair torchBackend o est q) (fun w => by
        obtain ⟨f, hf, hg⟩ := hs w
        exact ⟨f, hf, grad_cont hg⟩) hM hu hp hf] with q hq
      exact pitTotal_of (R := fun q => q) (E := fun _ => est) hq
    · unfold gradRefPit
      rw [hpw]

/-- **C73**, `filter_length >= 2`: the gradients through a unique best permutation. -/
theorem C73_gradient_fir (hN : 0 < N) (hL : 2 ≤ o.filterLength) (hcg : o.useCgIter = none) {ref : Sig s r N}
    {est : Sig s e T} {V M} (hV : sdrLossPair torchBackend { o with clampDb := none } est ref = .ok V)
    (hb : ∀ m k j, OffBounds o.clampDb (V m k j))
    (hM : sdrLossPair torchBackend o est ref = .ok M) (hu : ∀ m, UniqueBest (M m)) (cs : Bool)
    (v : BIdx s → Fin (min r e) → ℝ) :
    ((∀ m j, sigNorm (centred o.zeroMean (est m j)) ≠ 1e-6) →
      ∃ f g, (∀ᶠ p in 𝓝 est, PitTotal o cs ref p v (f p)) ∧ gradEstFirPit o cs ref est v = .ok g ∧ IsGradient f est g) ∧
    ((∀ m k, sigNorm (centred o.zeroMean (ref m k)) ≠ 1e-6) →
      ∃ f g, (∀ᶠ p in 𝓝 ref, PitTotal o cs p est v (f p)) ∧ gradRefFirPit o cs ref est v = .ok g ∧ IsGradient f ref g) := by
  have hfin : ∀ m k j, ∃ x, M m k j = fin x := by
    intro m k j
    have := hb m k j
    obtain ⟨n, hn, hd, rfl⟩ := lossPair_fir (o := { o with clampDb := none }) hL hcg hV
    rw [lossPair_fir_of hL hcg hn hd] at hM
    cases hM
    exact clamped_loss this
  obtain ⟨p, hp⟩ := (solvePermutation_ok_iff torchBackend torchLsa_correct M (fun i : Fin 0 => i.elim0)).2 fun m =>
    solvable_of_finite (hfin m)
  obtain ⟨w, hw⟩ : ∃ w, w = permGrad p.perm fun m i => if cs then v m i else -v m i := ⟨_, rfl⟩
  have hpw : pitWeights o cs ref est v = .ok w := by
    unfold pitWeights
    rw [hM]
    dsimp only
    rw [hp, hw]
  constructor
  · intro hx
    have hs : ∀ w, ∃ f g, LossOfEst o ref est w f ∧ gradEstFir o ref est w = .ok g ∧ IsGradient f est g :=
      C72_gradient_est hN hL hcg hV hb hx
    obtain ⟨f, g, hf, hg, hi⟩ := hs w
    refine ⟨f, g, ?_, ?_, hi⟩
    · rw [hw] at hf
      filter_upwards [perm_near (L := fun q => sdrLossPair torchBackend o q ref) (fun w => by
        obtain ⟨f, g, hf, -, hg⟩ := hs w
        exact ⟨f, hf, grad_cont hg⟩) hM hu hp hf] with q hq
      exact pitTotal_of (R := fun _ => ref) (E := fun q => q) hq
    · unfold gradEstFirPit
      rw [hpw]
      exact hg
  · intro hx
    have hs : ∀ w, ∃ f g, LossOfRef o ref est w f ∧ gradRefFir o ref est w = .ok g ∧ IsGradient f ref g :=
      C72_gradient_ref hL hcg hV hb hx
    obtain ⟨f, g, hf, hg, hi⟩ := hs w
    refine ⟨f, g, ?_, ?_, hi⟩
    · rw [hw] at hf
      filter_upwards [perm_near (L := fun q => sdrLossPair torchBackend o est q) (fun w => by
        obtain ⟨f, g, hf, -, hg⟩ := hs w
        exact ⟨f, hf, grad_cont hg⟩) hM hu hp hf] with q hq
      exact pitTotal_of (R := fun q => q) (E := fun _ => est) hq
    · unfold gradRefFirPit
      rw [hpw]
      exact hg

/-- `f` touches the total of `sdr_pit_loss` (weight `v m` for batch item `m`) from above. -/
def TouchesEst (o : Opts) (ref : Sig s r N) (est : Sig s e T) (v : BIdx s → ℝ) (f : Sig s e T → ℝ) : Prop :=
  PitTotal o true ref est (fun m _ => v m) (f est) ∧
    ∀ᶠ p in 𝓝 est, ∃ y, PitTotal o true ref p (fun m _ => v m) y ∧ y ≤ f p

/-- **C73**, several best permutations, `filter_length=1`: the gradients of the estimates are the derivatives of a function that
touches the total loss from above. -/
theorem C73_ties_si (h1 : o.filterLength = 1) {ref : Sig s r N} {est : Sig s e N} {V out}
    (hV : sdrLossPair torchBackend { o with clampDb := none } est ref = .ok V) (hb : ∀ m k j, OffBounds o.clampDb (V m k j))
    (hout : sdrPitLoss torchBackend o est ref = .ok out) {v : BIdx s → ℝ} (hv : ∀ m, 0 ≤ v m)
    (hx : ∀ m j, sigNorm (centred o.zeroMean (est m j)) ≠ 1e-6) :
    ∃ f g, TouchesEst o ref est v f ∧ gradEstPit o true ref est (fun m _ => v m) = .ok g ∧ IsGradient f est g := by
  obtain ⟨M, p, hM, hp, hw⟩ := sdr_ok hout
  have hs : ∀ w, ∃ f, LossOfEst o ref est w f ∧ IsGradient f est (gradEst o ref est w) := C71_gradient_est h1 hV hb hx
  obtain ⟨f, hf, hg⟩ := hs (permGrad p.perm fun m _ => v m)
  have hpw : pitWeights o true ref est (fun m _ => v m) = .ok (permGrad p.perm fun m _ => v m) := hw _
  obtain ⟨a1, a2⟩ := perm_above (L := fun q => sdrLossPair torchBackend o q ref) (fun w => by
        obtain ⟨f, hf, hg⟩ := hs w
        exact ⟨f, hf, grad_cont hg⟩) hM hp hv hf
  refine ⟨f, _, ⟨?_, ?_⟩, ?_, hg⟩
  · exact pitTotal_of (cs := true) (v := fun m _ => v m) (R := fun _ => ref) (E := fun q => q) a1
  · filter_upwards [a2] with q hq
    obtain ⟨y, h2, h3⟩ := hq
    exact ⟨y, pitTotal_of (cs := true) (v := fun m _ => v m) (R := fun _ => ref) (E := fun q => q) h2, h3⟩
  · unfold gradEstPit
    rw [hpw]

/-- **C73**, several best permutations, `filter_length >= 2`. -/
theorem C73_ties_fir (hN : 0 < N) (hL : 2 ≤ o.filterLength) (hcg : o.useCgIter = none) {ref : Sig s r N} {est : Sig s e T}
    {V out} (hV : sdrLossPair torchBackend { o with clampDb := none } est ref = .ok V)
    (hb : ∀ m k j, OffBounds o.clampDb (V m k j))
    (hout : sdrPitLoss torchBackend o est ref = .ok out) {v : BIdx s → ℝ} (hv : ∀ m, 0 ≤ v m)
    (hx : ∀ m j, sigNorm (centred o.zeroMean (est m j)) ≠ 1e-6) :
    ∃ f g, TouchesEst o ref est v f ∧ gradEstFirPit o true ref est (fun m _ => v m) = .ok g ∧ IsGradient f est g := by
  obtain ⟨M, p, hM, hp, hw⟩ := sdr_ok hout
  have hs : ∀ w, ∃ f g, LossOfEst o ref est w f ∧ gradEstFir o ref est w = .ok g ∧ IsGradient f est g :=
    C72_gradient_est hN hL hcg hV hb hx
  obtain ⟨f, g, hf, hg, hi⟩ := hs (permGrad p.perm fun m _ => v m)
  have hpw : pitWeights o true ref est (fun m _ => v m) = .ok (permGrad p.perm fun m _ => v m) := hw _
  obtain ⟨a1, a2⟩ := perm_above (L := fun q => sdrLossPair torchBackend o q ref) (fun w => by
        obtain ⟨f, g, hf, -, hg⟩ := hs w
        exact ⟨f, hf, grad_cont hg⟩) hM hp hv hf
  refine ⟨f, g, ⟨?_, ?_⟩, ?_, hi⟩
  · exact pitTotal_of (cs := true) (v := fun m _ => v m) (R := fun _ => ref) (E := fun q => q) a1
  · filter_upwards [a2] with q hq
    obtain ⟨y, h2, h3⟩ := hq
    exact ⟨y, pitTotal_of (cs := true) (v := fun m _ => v m) (R := fun _ => ref) (E := fun q => q) h2, h3⟩
  · unfold gradEstFirPit
    rw [hpw]
    exact hg

/-- **C73**, finite gradients with `clamp_db`, whenever `sdr` returns. -/
theorem C73_clamped_finite {d : ℝ} (hcl : o.clampDb = some d) {cs rp : Bool} :
    (o.filterLength = 1 → ∀ {ref : Sig s r N} {est : Sig s e N} {out}, sdr torchBackend o rp cs ref est = .ok out →
      ∀ v, ∃ gE gR, gradEstPit o cs ref est v = .ok gE ∧ gradRefPit o cs ref est v = .ok gR ∧
        (∀ m j, FiniteGrad (gE m j)) ∧ ∀ m k, FiniteGrad (gR m k)) ∧
    (2 ≤ o.filterLength → o.useCgIter = none → ∀ {ref : Sig s r N} {est : Sig s e T} {out},
      sdr torchBackend o rp cs ref est = .ok out →
      ∀ v, ∃ gE gR, gradEstFirPit o cs ref est v = .ok gE ∧ gradRefFirPit o cs ref est v = .ok gR ∧
        (∀ m j, FiniteGrad (gE m j)) ∧ ∀ m k, FiniteGrad (gR m k)) := by
  constructor
  · intro _ ref est out h v
    obtain ⟨M, p, hM, hp, hw⟩ := sdr_ok h
    refine ⟨gradEst o ref est (permGrad p.perm fun m i => if cs then v m i else -v m i),
      gradRef o ref est (permGrad p.perm fun m i => if cs then v m i else -v m i), ?_, ?_, fun m j => (C71_clamped_finite hcl ref est _ m).1 j, fun m k => (C71_clamped_finite hcl ref est _ m).2 k⟩
    · unfold gradEstPit
      rw [hw v]
    · unfold gradRefPit
      rw [hw v]
  · intro hL hcg ref est out h v
    obtain ⟨M, p, hM, hp, hw⟩ := sdr_ok h
    obtain ⟨gE, gR, h1, h2, h3, h4⟩ := C72_clamped_finite hL hcg hcl hM (permGrad p.perm fun m i => if cs then v m i else -v m i)
    refine ⟨gE, gR, ?_, ?_, h3, h4⟩
    · unfold gradEstFirPit
      rw [hw v]
      exact h1
    · unfold gradRefFirPit
      rw [hw v]
      exact h2

/-- **C73**, NaN: without `clamp_db`, an infinite loss of any pair `(k, j)`, used by the permutation or not, makes the
gradients of estimate `j` and of reference `k` NaN. -/
theorem C73_nan (hcl : o.clampDb = none) {cs rp : Bool} :
    (o.filterLength = 1 → ∀ {ref : Sig s r N} {est : Sig s e N} {out V}, sdr torchBackend o rp cs ref est = .ok out →
      sdrLossPair torchBackend o est ref = .ok V →
      ∀ v, ∃ gE gR, gradEstPit o cs ref est v = .ok gE ∧ gradRefPit o cs ref est v = .ok gR ∧
        ∀ m k j, V m k j = pinf ∨ V m k j = ninf → (∀ t, gE m j t = nan) ∧ ∀ t, gR m k t = nan) ∧
    (2 ≤ o.filterLength → o.useCgIter = none → 0 ≤ o.load → ∀ {ref : Sig s r N} {est : Sig s e T} {out V},
      sdr torchBackend o rp cs ref est = .ok out → sdrLossPair torchBackend o est ref = .ok V →
      ∀ v, ∃ gE gR, gradEstFirPit o cs ref est v = .ok gE ∧ gradRefFirPit o cs ref est v = .ok gR ∧
        ∀ m k j, V m k j = pinf ∨ V m k j = ninf → (∀ t, gE m j t = nan) ∧ ∀ t, gR m k t = nan) := by
  constructor
  · intro h1 ref est out V h hV v
    obtain ⟨M, p, hM, hp, hw⟩ := sdr_ok h
    refine ⟨gradEst o ref est (permGrad p.perm fun m i => if cs then v m i else -v m i),
      gradRef o ref est (permGrad p.perm fun m i => if cs then v m i else -v m i), ?_, ?_, fun m k j hinf => ⟨fun t => (C71_nan h1 hcl hV hinf _ t).1, fun t => (C71_nan h1 hcl hV hinf _ t).2⟩⟩
    · unfold gradEstPit
      rw [hw v]
    · unfold gradRefPit
      rw [hw v]
  · intro hL hcg hload ref est out V h hV v
    obtain ⟨M, p, hM, hp, hw⟩ := sdr_ok h
    obtain ⟨gE, gR, h1, h2, h3⟩ := C72_nan hL hcg hcl hload hV (permGrad p.perm fun m i => if cs then v m i else -v m i)
    refine ⟨gE, gR, ?_, ?_, h3⟩
    · unfold gradEstFirPit
      rw [hw v]
      exact h1
    · unfold gradRefFirPit
      rw [hw v]
      exact h2

/-! ### Concrete cases -/

/-- Two references and two estimates, filters of two taps, a unique best permutation. -/
example (cs : Bool) (v : BIdx [] → Fin 2 → ℝ) :
    (∃ f g, (∀ᶠ p in 𝓝 Ex.est, PitTotal (Ex.clamped none) cs Ex.ref p v (f p)) ∧
      gradEstFirPit (Ex.clamped none) cs Ex.ref Ex.est v = .ok g ∧ IsGradient f Ex.est g) ∧
    ∃ f g, (∀ᶠ p in 𝓝 Ex.ref, PitTotal (Ex.clamped none) cs p Ex.est v (f p)) ∧
      gradRefFirPit (Ex.clamped none) cs Ex.ref Ex.est v = .ok g ∧ IsGradient f Ex.ref g := by
  have h := C73_gradient_fir (o := Ex.clamped none) (by norm_num) le_rfl rfl (Ex.sdrLossPair_cl none)
    (fun _ _ _ => fifth_off none (Or.inl rfl) _) (Ex.sdrLossPair_cl none) (fun _ => Ex.unique_loss) cs v
  exact ⟨h.1 fun m j => (ex_norm m j).1, h.2 fun m k => (ex_norm m k).2⟩

example : ∃ f g, TouchesEst (Ex.clamped (some 30)) Ex.ref Ex.est (fun _ => 1) f ∧
    gradEstFirPit (Ex.clamped (some 30)) true Ex.ref Ex.est (fun _ _ => 1) = .ok g ∧ IsGradient f Ex.est g := by
  obtain ⟨out, h⟩ := Ex.sdr_cl (some 30) false true
  exact C73_ties_fir (o := Ex.clamped (some 30)) (by norm_num) le_rfl rfl (Ex.sdrLossPair_cl none)
    (fun _ _ _ => fifth_off _ (Or.inr rfl) _) h (fun _ => zero_le_one) fun m j => (ex_norm m j).1

/-- Finite gradients with `clamp_db`. -/
example (d : ℝ) (v : BIdx [] → Fin 2 → ℝ) : ∃ gE gR, gradEstFirPit (Ex.clamped (some d)) true Ex.ref Ex.est v = .ok gE ∧
    gradRefFirPit (Ex.clamped (some d)) true Ex.ref Ex.est v = .ok gR ∧
    (∀ m j, FiniteGrad (gE m j)) ∧ ∀ m k, FiniteGrad (gR m k) := by
  obtain ⟨out, h⟩ := Ex.sdr_cl (some d) false true
  exact (C73_clamped_finite (o := Ex.clamped (some d)) rfl).2 le_rfl rfl h v

/-- Two equal references and two equal estimates: both permutations are best. -/
noncomputable def refTwice : Sig [] 2 3 := fun m _ => refOne m 0
/-- The equal estimates. -/
noncomputable def estTwice : Sig [] 2 3 := fun m _ => estOne m 0

theorem twice_value (m : BIdx []) (k j : Fin 2) : dot (prep optsOne refTwice m k) (prep optsOne estTwice m j) ^ 2 = 3 / 4 :=
  one_loss m

theorem twice_norm (m : BIdx []) (j : Fin 2) : sigNorm (centred true (estTwice m j)) ≠ 1e-6 :=
  (one_regular m).audible.ne'

theorem twice_ok : ∃ out, sdrPitLoss torchBackend optsOne estTwice refTwice = .ok out := by
  unfold sdrPitLoss sdr
  rw [lossPair_one rfl]
  dsimp only
  obtain ⟨p, hp⟩ := (solvePermutation_ok_iff torchBackend torchLsa_correct (fun m k j =>
    coherenceToNegSdr optsOne.clampDb (fin (dot (prep optsOne refTwice m k) (prep optsOne estTwice m j) ^ 2)))
    (fun i : Fin 0 => i.elim0)).2 fun m => solvable_of_finite fun k j => by
      rw [twice_value]
      exact Ex.loss_finite _ (by norm_num) (by norm_num)
  rw [hp]
  exact ⟨_, rfl⟩

example : ∃ f g, TouchesEst optsOne refTwice estTwice (fun _ => 1) f ∧
    gradEstPit optsOne true refTwice estTwice (fun _ _ => 1) = .ok g ∧ IsGradient f estTwice g := by
  obtain ⟨out, h⟩ := twice_ok
  refine C73_ties_si (o := optsOne) rfl (lossPair_one rfl _ _) (fun m k j => ?_) h (fun _ => zero_le_one) twice_norm
  show OffBounds (some 30) (coherenceToNegSdr none (fin (dot (prep optsOne refTwice m k) (prep optsOne estTwice m j) ^ 2)))
  rw [twice_value]
  exact one_off _ (Or.inr rfl)

/-- A single source: there is only one permutation. -/
example (cs : Bool) (v : BIdx [] → Fin 1 → ℝ) :
    ∃ f g, (∀ᶠ p in 𝓝 estOne, PitTotal optsOne cs refOne p v (f p)) ∧ gradEstPit optsOne cs refOne estOne v = .ok g ∧
      IsGradient f estOne g := by
  refine (C73_gradient_si (o := optsOne) (ref := refOne) (est := estOne) rfl (lossPair_one rfl _ _) (fun m k j => ?_) (lossPair_one rfl _ _)
    (fun m P P' _ _ k j => ?_) cs v).1 fun m j => ?_
  · show OffBounds (some 30) (coherenceToNegSdr none (fin (dot (prep optsOne refOne m k) (prep optsOne estOne m j) ^ 2)))
    rw [Subsingleton.elim k 0, Subsingleton.elim j 0, one_loss]
    exact one_off _ (Or.inr rfl)
  · rw [Subsingleton.elim P.ref P'.ref, Subsingleton.elim P.est P'.est]
  · rw [Subsingleton.elim j 0]
    exact (one_regular m).audible.ne'

/-! An estimate orthogonal to a reference with which it is not paired: the values of `sdr_pit_loss` are
finite, the gradients are NaN. -/

/-- The references. -/
noncomputable def refNan : Sig [] 2 2 := fun _ => ![![5, 0], ![4, 3]]
/-- The estimates. -/
noncomputable def estNan : Sig [] 2 2 := fun _ => ![![3, 4], ![0, 5]]
/-- `clamp_db=None`, `filter_length=1`. -/
noncomputable def optsNan : Opts := { filterLength := 1 }

theorem prep_five (x : Sig [] 2 2) (m : BIdx []) (k : Fin 2) (h : x m k 0 ^ 2 + x m k 1 ^ 2 = 25) :
    prep optsNan x m k = fun t => 5⁻¹ * x m k t := by
  rw [prep_eq]
  have hc : centred optsNan.zeroMean (x m k) = x m k := rfl
  rw [hc]
  have hs : sigNorm (x m k) = 5 := by
    unfold sigNorm
    rw [Fin.sum_univ_two, h, show (25 : ℝ) = 5 ^ 2 by norm_num]
    exact Real.sqrt_sq (by norm_num)
  unfold gain
  rw [hs]
  norm_num

theorem nan_value (m : BIdx []) (k j : Fin 2) : dot (prep optsNan refNan m k) (prep optsNan estNan m j) ^ 2 =
    (![![9 / 25, 0], ![576 / 625, 9 / 25]] : Fin 2 → Fin 2 → ℝ) k j := by
  rw [prep_five _ _ _ (by fin_cases k <;> simp [refNan] <;> norm_num), prep_five _ _ _ (by fin_cases j <;> simp [estNan] <;> norm_num)]
  fin_cases k <;> fin_cases j <;> simp [dot, refNan, estNan, Fin.sum_univ_two] <;> norm_num

theorem nan_finite (m : BIdx []) (k j : Fin 2) (h : ¬ (k = 0 ∧ j = 1)) : ∃ x,
    coherenceToNegSdr none (fin (dot (prep optsNan refNan m k) (prep optsNan estNan m j) ^ 2)) = fin x := by
  rw [nan_value]
  refine Ex.loss_finite _ ?_ ?_ <;> fin_cases k <;> fin_cases j <;> simp_all <;> norm_num

theorem nan_inf (m : BIdx []) :
    coherenceToNegSdr none (fin (dot (prep optsNan refNan m 0) (prep optsNan estNan m 1) ^ 2)) = pinf := by
  rw [nan_value, coherenceToNegSdr_fin]
  show negDb (cclamp none 0) = pinf
  rw [cclamp_none le_rfl zero_le_one]
  simp [negDb]

example (v : BIdx [] → Fin 2 → ℝ) : ∃ out, sdrPitLoss torchBackend optsNan estNan refNan = .ok out ∧
    (∀ m i, ∃ x, out.sdr m i = fin x) ∧ ∃ gE gR, gradEstPit optsNan true refNan estNan v = .ok gE ∧
      gradRefPit optsNan true refNan estNan v = .ok gR ∧ ∀ m t, gE m 1 t = nan ∧ gR m 0 t = nan := by
  have hV : sdrLossPair torchBackend optsNan estNan refNan = _ := lossPair_one rfl _ _
  have hn : ∀ m k j, coherenceToNegSdr none (fin (dot (prep optsNan refNan m k) (prep optsNan estNan m j) ^ 2)) ≠ nan ∧
      coherenceToNegSdr none (fin (dot (prep optsNan refNan m k) (prep optsNan estNan m j) ^ 2)) ≠ ninf := by
    intro m k j
    by_cases h : k = 0 ∧ j = 1
    · rw [h.1, h.2, nan_inf]
      constructor <;> exact fun h => by cases h
    · obtain ⟨x, hx⟩ := nan_finite m k j h
      rw [hx]
      constructor <;> exact fun h => by cases h
  obtain ⟨p, hp⟩ := (solvePermutation_ok_iff torchBackend torchLsa_correct (fun m k j =>
    coherenceToNegSdr optsNan.clampDb (fin (dot (prep optsNan refNan m k) (prep optsNan estNan m j) ^ 2)))
    (fun i : Fin 0 => i.elim0)).2 fun m => ⟨fun k j => (hn m k j).1, fun h => by
      obtain ⟨-, k, j, h⟩ := h
      exact (hn m k j).2 h, fun _ => ⟨0, 0, nan_finite m 0 0 (by decide)⟩⟩
  have hs : sdrPitLoss torchBackend optsNan estNan refNan = .ok ⟨p.loss, none⟩ := by
    unfold sdrPitLoss sdr
    rw [hV]
    dsimp only
    rw [hp]
    rfl
  refine ⟨_, hs, fun m i => ?_, ?_⟩
  · obtain ⟨-, P, hP⟩ := solvePermutation_spec torchBackend torchLsa_correct _ _ hp m
    let Q : Pairing 2 2 := ⟨fun i => i, fun i => i, fun _ _ h => h, fun _ _ h => h⟩
    have h0 := hP.best.pos Q
    have h1 : nPos (Q.values fun k j =>
        coherenceToNegSdr optsNan.clampDb (fin (dot (prep optsNan refNan m k) (prep optsNan estNan m j) ^ 2))) = 0 := by
      refine nPos_eq_zero_iff.2 fun i h => ?_
      obtain ⟨x, hx⟩ := nan_finite m i i (by rintro ⟨rfl, h⟩; cases h)
      have h : coherenceToNegSdr none (fin (dot (prep optsNan refNan m i) (prep optsNan estNan m i) ^ 2)) = pinf := h
      rw [hx] at h
      cases h
    rw [h1, Nat.le_zero, nPos_eq_zero_iff] at h0
    show ∃ x, p.loss m i = fin x
    rw [hP.loss_eq i]
    refine nan_finite m _ _ fun h => h0 i ?_
    show coherenceToNegSdr none (fin (dot (prep optsNan refNan m (P.ref i)) (prep optsNan estNan m (P.est i)) ^ 2)) = pinf
    rw [h.1, h.2, nan_inf]
  · obtain ⟨gE, gR, h1, h2, h3⟩ := (C73_nan (T := 2) (o := optsNan) rfl).1 rfl hs hV v
    exact ⟨gE, gR, h1, h2, fun m t => ⟨(h3 m 0 1 (Or.inl (nan_inf m))).1 t, (h3 m 0 1 (Or.inl (nan_inf m))).2 t⟩⟩

end FBE.Props
