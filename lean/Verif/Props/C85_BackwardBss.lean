import Verif.Proofs.BackwardBssTotal
import Verif.Props.C51_Channels
import Verif.Props.C73_BackwardPit

/-!
# C85: the gradients that torch computes through `bss_eval_sources`
-/

set_option linter.unusedSectionVars false

namespace FBE.Props

open Spec XR Filter Topology Backward

variable {s : List ℕ} {r e c N T n : ℕ} {o : Opts}

/-- `y` is the sum of the values of `bss_eval_sources` that `v` gives a weight, all of them finite. -/
def BssTotal (o : Opts) (ref : Sig s r N) (est : Sig s e T) (v : BssWeights (BIdx s × Fin (min r e))) (y : ℝ) : Prop :=
  ∃ out, bssEvalSources torchBackend o true ref est = .ok out ∧ ∃ y1 y2 y3, Uses v.sdr (fun i => out.sdr i.1 i.2) y1 ∧
    Uses v.sir (fun i => out.sir i.1 i.2) y2 ∧ Uses v.sar (fun i => out.sar i.1 i.2) y3 ∧ y = y1 + y2 + y3

/-- The same with `compute_permutation=False`. -/
def BssTotalDiag (o : Opts) (ref : Sig s c N) (est : Sig s c T) (v : BssWeights (BIdx s × Fin c)) (y : ℝ) : Prop :=
  ∃ out, bssEvalSources torchBackend o false ref est = .ok out ∧ ∃ y1 y2 y3, Uses v.sdr (fun i => out.sdr i.1 (i.2.cast (min_self c).symm)) y1 ∧
    Uses v.sir (fun i => out.sir i.1 (i.2.cast (min_self c).symm)) y2 ∧ Uses v.sar (fun i => out.sar i.1 (i.2.cast (min_self c).symm)) y3 ∧
    y = y1 + y2 + y3

/-- The values used are not at a bound of the clamp (finite with `clamp_db=None`), and no used SIR is NaN. -/
structure Smooth {ι : Type} (clampDb : Option ℝ) (v : BssWeights ι) (sdr sir sar : ι → XR) : Prop where
  sdr : v.sdr ≠ none → ∀ i, OffBounds clampDb (sdr i)
  sir : v.sir ≠ none → ∀ i, sir i ≠ nan ∧ OffBounds clampDb (sir i)
  sar : v.sar ≠ none → ∀ i, OffBounds clampDb (sar i)

theorem neg_fin_iff {x : XR} {a : ℝ} : x.neg = fin a ↔ x = fin (-a) := by
  cases x with
  | fin b => 
    show fin (-b) = fin a ↔ _
    constructor
    · intro h
      rw [← XR.fin.inj h, neg_neg]
    · intro h
      rw [XR.fin.inj h, neg_neg]
  | _ => exact ⟨fun h => (nomatch h), fun h => (nomatch h)⟩

theorem offBounds_neg {cl : Option ℝ} {x : XR} : OffBounds cl x.neg ↔ OffBounds cl x := by
  unfold OffBounds
  cases cl with
  | none =>
    constructor
    · rintro ⟨y, h⟩
      exact ⟨_, neg_fin_iff.1 h⟩
    · rintro ⟨y, h⟩
      exact ⟨-y, neg_fin_iff.2 (by rw [h, neg_neg])⟩
  | some d =>
    simp only [ne_eq, neg_fin_iff, neg_neg]
    exact and_comm

theorem neg_nan_iff {x : XR} : x.neg = nan ↔ x = nan := by
  cases x with
  | nan => exact ⟨fun _ => rfl, fun _ => rfl⟩
  | _ => exact ⟨fun h => (nomatch h), fun h => (nomatch h)⟩

theorem sir_value {cl : Option ℝ} {a b : ℝ} (hz : b = 0 → a = 0) (h : (baseMetrics cl a b).2.1 ≠ nan) : b ≠ 0 := by
  intro hb
  apply h
  show coherenceToNegSdr cl (div (fin a) (fin b)) = nan
  rw [hz hb, hb]
  have : div (fin 0) (fin 0) = nan := by simp [XR.div, signInf]
  rw [this]
  cases cl <;> rfl

theorem usable_of {ι : Type} [Fintype ι] {cl : Option ℝ} {W : BssWeights ι} {a b : ι → ℝ} (hz : ∀ i, b i = 0 → a i = 0)
    (h : Smooth cl W (fun i => (baseMetrics none (a i) (b i)).1) (fun i => (baseMetrics none (a i) (b i)).2.1)
      fun i => (baseMetrics none (a i) (b i)).2.2) : Usable cl W a b := by
  refine ⟨fun hw i => (h.sdr hw i).inside, fun hw i => ?_, fun hw i => (h.sar hw i).inside⟩
  obtain ⟨h1, h2⟩ := h.sir hw i
  have hb := sir_value (hz i) h1
  refine ⟨hb, OffBounds.inside ?_⟩
  have : (baseMetrics none (a i) (b i)).2.1 = coherenceToNegSdr none (fin (a i / b i)) := by
    show coherenceToNegSdr none (div (fin (a i)) (fin (b i))) = _
    rw [div_fin hb]
  rw [← this]
  exact h2

theorem uses_neg {ι : Type} [Fintype ι] {w : Option (ι → ℝ)} {v : ι → XR} {y : ℝ} (h : Uses (w.map fun w i => -w i) v y) :
    Uses w (fun i => (v i).neg) y := by
  cases w with
  | none => exact h
  | some w =>
    obtain ⟨x, h1, h2⟩ := h
    refine ⟨fun i => -x i, fun i => ?_, ?_⟩
    · dsimp only
      rw [h1]
      rfl
    · rw [h2]
      exact Finset.sum_congr rfl fun i _ => by ring

theorem total_diag {ref : Sig s c N} {est : Sig s c T} (hdir : o.direct) {S A} (h : sqCosPair torchBackend o ref est = .ok (S, A))
    {v : BssWeights (BIdx s × Fin c)} {y : ℝ}
    (hy : BaseUses (negWeights v) (fun i : BIdx s × Fin c => baseMetrics o.clampDb (S i.1 i.2 i.2) (A i.1 i.2)) y) :
    BssTotalDiag o ref est v y := by
  obtain ⟨out, h1⟩ := false_of_sqCosPair hdir (Or.inr rfl) h
  obtain ⟨S', A', h2, h3⟩ := sqCosPair_of_false hdir (Or.inr rfl) h1
  rw [h] at h2
  cases h2
  obtain ⟨y1, y2, y3, u1, u2, u3, u4⟩ := hy
  refine ⟨out, h1, y1, y2, y3, ?_, ?_, ?_, u4⟩
  · simp only [(h3 _ _).1]
    exact uses_neg u1
  · simp only [(h3 _ _).2.1]
    exact uses_neg u2
  · simp only [(h3 _ _).2.2]
    exact uses_neg u3

theorem smooth_diag {cl : Option ℝ} {v : BssWeights (BIdx s × Fin c)} {d i a d' i' a' : BIdx s × Fin c → XR} (h : Smooth cl v d i a)
    (h1 : ∀ k, d k = (d' k).neg) (h2 : ∀ k, i k = (i' k).neg) (h3 : ∀ k, a k = (a' k).neg) : Smooth cl (negWeights v) d' i' a' := by
  refine ⟨fun hw k => ?_, fun hw k => ?_, fun hw k => ?_⟩
  · have := h.sdr (fun h0 => hw (by unfold negWeights; rw [h0]; rfl)) k
    rw [h1] at this
    exact offBounds_neg.1 this
  · have := h.sir (fun h0 => hw (by unfold negWeights; rw [h0]; rfl)) k
    rw [h2] at this
    exact ⟨fun h0 => this.1 (neg_nan_iff.2 h0), offBounds_neg.1 this.2⟩
  · have := h.sar (fun h0 => hw (by unfold negWeights; rw [h0]; rfl)) k
    rw [h3] at this
    exact offBounds_neg.1 this

/-- What is known when `bss_eval_sources(compute_permutation=False)` returns. -/
theorem diag_ok (hN : 0 < N) (hdir : o.direct) (hload : 0 ≤ o.load) {ref : Sig s c N} {est : Sig s c T} {cl : Option ℝ} {out}
    (h : bssEvalSources torchBackend { o with clampDb := cl } false ref est = .ok out) :
    ∃ P CA CB, bssPass o ref est = .ok P ∧ Covers o ref est P CA CB ∧ (∀ m k j, P.cohSar m j = 0 → P.cohSdr m k j = 0) ∧
      sqCosPair torchBackend o ref est = .ok (P.cohSdr, P.cohSar) ∧
      (∀ m (k : Fin c), out.sdr m (k.cast (min_self c).symm) = (baseMetrics cl (P.cohSdr m k k) (P.cohSar m k)).1.neg) ∧
      (∀ m (k : Fin c), out.sir m (k.cast (min_self c).symm) = (baseMetrics cl (P.cohSdr m k k) (P.cohSar m k)).2.1.neg) ∧
      ∀ m (k : Fin c), out.sar m (k.cast (min_self c).symm) = (baseMetrics cl (P.cohSdr m k k) (P.cohSar m k)).2.2.neg := by
  obtain ⟨S, A, h2, h3⟩ := sqCosPair_of_false (o := { o with clampDb := cl }) hdir (Or.inr rfl) h
  have h2 : sqCosPair torchBackend o ref est = .ok (S, A) := h2
  obtain ⟨P, CA, CB, h4, h5⟩ := covers hN hdir h2
  obtain ⟨rfl, rfl⟩ := h5.eq h2
  exact ⟨P, CA, CB, h4, h5, fun m k j hz => sar_zero hdir hload h2 hz k, h2, fun m k => (h3 m k).1, fun m k => (h3 m k).2.1,
    fun m k => (h3 m k).2.2⟩

/-- **C85**, `compute_permutation=False`: the gradients are the derivatives of the values. -/
theorem C85_gradient_diag (hN : 0 < N) (hdir : o.direct) (hload : 0 ≤ o.load) {ref : Sig s c N} {est : Sig s c T} {out}
    (h : bssEvalSources torchBackend { o with clampDb := none } false ref est = .ok out) (v : BssWeights (BIdx s × Fin c))
    (hv : Smooth o.clampDb v (fun i => out.sdr i.1 (i.2.cast (min_self c).symm)) (fun i => out.sir i.1 (i.2.cast (min_self c).symm))
      fun i => out.sar i.1 (i.2.cast (min_self c).symm)) :
    ∃ gE gR, bssBackwardDiag o ref est v = .ok (gE, gR) ∧
      ((∀ m j, sigNorm (centred o.zeroMean (est m j)) ≠ 1e-6) →
        ∃ f, (∀ᶠ p in 𝓝 est, BssTotalDiag o ref p v (f p)) ∧ IsGradient f est gE) ∧
      ((∀ m k, sigNorm (centred o.zeroMean (ref m k)) ≠ 1e-6) →
        ∃ f, (∀ᶠ p in 𝓝 ref, BssTotalDiag o p est v (f p)) ∧ IsGradient f ref gR) := by
  obtain ⟨P, CA, CB, hp, hC, hz, -, h1, h2, h3⟩ := diag_ok hN hdir hload h
  have hu : Usable o.clampDb (negWeights v) (diagA P) (diagB P) := usable_of (fun i => hz i.1 i.2 i.2)
    (smooth_diag hv (fun i => h1 i.1 i.2) (fun i => h2 i.1 i.2) fun i => h3 i.1 i.2)
  refine ⟨_, _, by unfold bssBackwardDiag; rw [hp], fun hx => ?_, fun hx => ?_⟩
  · obtain ⟨F, F', f1, f2, f3⟩ := est_total_bss hC hx (fun k : Fin c => (k, k)) (negWeights v) hu
      (gs := diagGs o.clampDb P (negWeights v)) (ga := diagGa o.clampDb P (negWeights v))
      (fun m i => baseGradSdr_fin (hu.finite (m, i))) (fun m i => baseGradSar_fin (hu.finite (m, i)))
    refine ⟨F, ?_, _, F', fun m j t => congrFun (gradEstBssDiag_fin est (hu.finite (m, j))) t, f2, f3⟩
    filter_upwards [f1] with p hp
    obtain ⟨S, A, hs, hy⟩ := hp
    exact total_diag hdir hs hy
  · obtain ⟨F, F', f1, f2, f3⟩ := ref_total_bss hC hx (fun k : Fin c => (k, k)) (negWeights v) hu
      (gs := diagGs o.clampDb P (negWeights v)) (ga := diagGa o.clampDb P (negWeights v))
      (fun m i => baseGradSdr_fin (hu.finite (m, i))) (fun m i => baseGradSar_fin (hu.finite (m, i)))
    refine ⟨F, ?_, _, F', fun m k t => congrFun (gradRefBssDiag_fin hC (fun k => hu.finite (m, k)) k) t, f2, f3⟩
    filter_upwards [f1] with p hp
    obtain ⟨S, A, hs, hy⟩ := hp
    exact total_diag hdir hs hy

/-- **C85**, `compute_permutation=False`, finite gradients with `clamp_db`, if no SIR that is used is NaN. -/
theorem C85_clamped_finite_diag (hN : 0 < N) (hdir : o.direct) (hload : 0 ≤ o.load) {d : ℝ} (hcl : o.clampDb = some d) {ref : Sig s c N}
    {est : Sig s c T} {out} (h : bssEvalSources torchBackend o false ref est = .ok out) (v : BssWeights (BIdx s × Fin c))
    (hv : v.sir ≠ none → ∀ m k, out.sir m k ≠ nan) :
    ∃ gE gR, bssBackwardDiag o ref est v = .ok (gE, gR) ∧ (∀ m j, FiniteGrad (gE m j)) ∧ ∀ m k, FiniteGrad (gR m k) := by
  obtain ⟨P, CA, CB, hp, hC, hz, -, -, h2, -⟩ := diag_ok hN hdir hload (cl := o.clampDb) h
  have hf : ∀ i, Finite o.clampDb (negWeights v) (diagA P) (diagB P) i := by
    intro i
    rw [hcl]
    refine ⟨fun _ => cclamp_some_inside d _, fun hw => ⟨?_, cclamp_some_inside d _⟩, fun _ => cclamp_some_inside d _⟩
    have h3 := hv (fun h0 => hw (by unfold negWeights; rw [h0]; rfl)) i.1 (i.2.cast (min_self c).symm)
    rw [h2] at h3
    exact sir_value (hz _ _ _) fun h0 => h3 (neg_nan_iff.2 h0)
  refine ⟨_, _, by unfold bssBackwardDiag; rw [hp], fun m j t => ?_, fun m k t => ?_⟩
  · rw [gradEstBssDiag_fin est (hf (m, j))]
    exact ⟨_, rfl⟩
  · rw [gradRefBssDiag_fin hC (fun k => hf (m, k))]
    exact ⟨_, rfl⟩

/-! ### With the permutation -/

theorem uses_perm {perm : BIdx s → Fin (min r e) → ℕ} {P : BIdx s → Pairing r e} (hP : ∀ m, Describes (perm m) (P m))
    {w : Option (BIdx s × Fin (min r e) → ℝ)} {V : BIdx s × Fin r × Fin e → XR} {y : ℝ}
    (h : Uses (w.map fun w i => permGrad perm (fun m c => -w (m, c)) i.1 i.2.1 i.2.2) V y) :
    Uses w (fun i => (V (i.1, (P i.1).ref i.2, (P i.1).est i.2)).neg) y := by
  cases w with
  | none => exact h
  | some w =>
    obtain ⟨x, h1, h2⟩ := h
    refine ⟨fun i => -x (i.1, (P i.1).ref i.2, (P i.1).est i.2), fun i => ?_, ?_⟩
    · dsimp only
      rw [h1]
      rfl
    · rw [h2, Fintype.sum_prod_type, Fintype.sum_prod_type]
      refine Finset.sum_congr rfl fun m _ => ?_
      rw [Fintype.sum_prod_type]
      have := permGrad_sum (hP m) (fun m c => -w (m, c)) fun k j => x (m, k, j)
      dsimp only
      rw [this]
      exact Finset.sum_congr rfl fun i _ => by ring

/-- The values of `bss_eval_sources` near a point with a unique best pairing. -/
theorem total_perm {X : Type} [TopologicalSpace X] {x₀ : X} {R : X → Sig s r N} {E : X → Sig s e T}
    {S₀ A₀} (h0 : sqCosPair torchBackend o (R x₀) (E x₀) = .ok (S₀, A₀))
    (hu : ∀ m, UniqueBest fun k j => (baseMetrics o.clampDb (S₀ m k j) (A₀ m j)).2.1)
    {args : Fin 2 → BIdx s → Fin r → Fin e → XR} {out}
    (hout : solvePermutation torchBackend (fun m k j => (baseMetrics o.clampDb (S₀ m k j) (A₀ m j)).2.1) args = .ok out)
    (hs : ∀ w : BIdx s × Fin r × Fin e → ℝ, ∃ f : X → ℝ, ContinuousAt f x₀ ∧ ∀ᶠ p in 𝓝 x₀, ∃ S A,
      sqCosPair torchBackend o (R p) (E p) = .ok (S, A) ∧ BaseUses ⟨none, some w, none⟩ (fun i : BIdx s × Fin r × Fin e =>
        baseMetrics o.clampDb (S i.1 i.2.1 i.2.2) (A i.1 i.2.2)) (f p))
    {v : BssWeights (BIdx s × Fin (min r e))} {F : X → ℝ} (hF : ∀ᶠ p in 𝓝 x₀, ∃ S A,
      sqCosPair torchBackend o (R p) (E p) = .ok (S, A) ∧ BaseUses (permWeights out.perm v) (fun i : BIdx s × Fin r × Fin e =>
        baseMetrics o.clampDb (S i.1 i.2.1 i.2.2) (A i.1 i.2.2)) (F p)) :
    ∀ᶠ p in 𝓝 x₀, BssTotal o (R p) (E p) v (F p) := by
  let L : X → Except PyErr (BIdx s → Fin r → Fin e → XR) := fun p => match sqCosPair torchBackend o (R p) (E p) with
    | .error err => .error err
    | .ok q => .ok fun m k j => (baseMetrics o.clampDb (q.1 m k j) (q.2 m j)).2.1
  have hL : ∀ {p S A}, sqCosPair torchBackend o (R p) (E p) = .ok (S, A) →
      L p = .ok fun m k j => (baseMetrics o.clampDb (S m k j) (A m j)).2.1 := by
    intro p S A h
    simp only [L, h]
  obtain ⟨x, hx, hlim⟩ := loss_near (L := L) (x₀ := x₀) (fun w => by
    obtain ⟨f, hf, hf2⟩ := hs fun i => w i.1 i.2.1 i.2.2
    refine ⟨f, ?_, hf⟩
    unfold SumNear
    filter_upwards [hf2] with p hp
    obtain ⟨S, A, h1, y1, y2, y3, u1, ⟨z, z1, z2⟩, u3, u4⟩ := hp
    have u1 : y1 = 0 := u1
    have u3 : y3 = 0 := u3
    refine ⟨_, fun m k j => z (m, k, j), hL h1, fun m k j => z1 (m, k, j), ?_⟩
    rw [u4, u1, u3, z2, zero_add, add_zero, Fintype.sum_prod_type]
    exact Finset.sum_congr rfl fun m _ => Fintype.sum_prod_type _)
  have hx0 := hx.self_of_nhds
  rw [hL h0] at hx0
  have hx0 := Except.ok.inj hx0
  rw [hx0] at hout
  have hu : ∀ m, UniqueBest ((fun m k j => fin (x x₀ m k j)) m) := by
    intro m
    rw [← hx0]
    exact hu m
  obtain ⟨_, -, hst⟩ := perm_stable (B := torchBackend) torchLsa_correct (l := 𝓝 x₀) (fun m k j => ⟨_, rfl⟩) hu hout
    (L' := fun p m k j => fin (x p m k j)) (fun m k j => Eventually.of_forall fun p h => by cases h)
    (fun m k j => (continuous_coe_real_ereal.tendsto _).comp (hlim m k j))
  filter_upwards [hx, hst, hF] with p h1 h2 h3
  obtain ⟨S, A, h4, y1, y2, y3, u1, u2, u3, u4⟩ := h3
  rw [hL h4] at h1
  have h1 := Except.ok.inj h1
  obtain ⟨p', h7, h8, -⟩ := h2 ![fun m k j => (baseMetrics o.clampDb (S m k j) (A m j)).1,
    fun m k j => (baseMetrics o.clampDb (S m k j) (A m j)).2.2]
  rw [← h1] at h7
  choose P hP using fun m => (solvePermutation_spec torchBackend torchLsa_correct _ _ h7 m).2
  have hd : ∀ m, Describes (out.perm m) (P m) := fun m => by
    rw [← h8]
    exact ⟨(hP m).perm_est, (hP m).perm_ref⟩
  refine ⟨⟨fun m k => (p'.args 0 m k).neg, fun m k => (p'.loss m k).neg, fun m k => (p'.args 1 m k).neg, some p'.perm⟩, ?_, y1, y2, y3, ?_,
    ?_, ?_, u4⟩
  · unfold bssEvalSources bssEvalPerm
    rw [if_pos rfl, h4]
    dsimp only
    rw [h7]
  · have := uses_perm hd u1
    simp only [(hP _).args_eq]
    exact this
  · have := uses_perm hd u2
    simp only [(hP _).loss_eq]
    exact this
  · have := uses_perm hd u3
    simp only [(hP _).args_eq]
    exact this

theorem smooth_perm {cl : Option ℝ} {v : BssWeights (BIdx s × Fin (min r e))} {perm : BIdx s → Fin (min r e) → ℕ}
    {d i a : BIdx s × Fin r × Fin e → XR} (hd : v.sdr ≠ none → ∀ k, OffBounds cl (d k)) (hi : ∀ k, i k ≠ nan ∧ OffBounds cl (i k))
    (ha : v.sar ≠ none → ∀ k, OffBounds cl (a k)) : Smooth cl (permWeights perm v) d i a :=
  ⟨fun hw => hd fun h0 => hw (by unfold permWeights; rw [h0]; rfl), fun _ => hi, fun hw => ha fun h0 => hw (by unfold permWeights; rw [h0]; rfl)⟩

/-- **C85**, `compute_permutation=True`: the gradients through a unique best permutation. -/
theorem C85_gradient_perm (hN : 0 < N) (hdir : o.direct) (hload : 0 ≤ o.load) {ref : Sig s r N} {est : Sig s e T} {S A}
    (h : sqCosPair torchBackend o ref est = .ok (S, A)) (v : BssWeights (BIdx s × Fin (min r e)))
    (hd : v.sdr ≠ none → ∀ m k j, OffBounds o.clampDb (baseMetrics none (S m k j) (A m j)).1)
    (hi : ∀ m k j, (baseMetrics none (S m k j) (A m j)).2.1 ≠ nan ∧ OffBounds o.clampDb (baseMetrics none (S m k j) (A m j)).2.1)
    (ha : v.sar ≠ none → ∀ m (_ : Fin r) j, OffBounds o.clampDb (coherenceToNegSdr none (fin (A m j))))
    (hu : ∀ m, UniqueBest fun k j => (baseMetrics o.clampDb (S m k j) (A m j)).2.1) :
    ∃ gE gR, bssBackward o ref est v = .ok (gE, gR) ∧
      ((∀ m j, sigNorm (centred o.zeroMean (est m j)) ≠ 1e-6) →
        ∃ f, (∀ᶠ p in 𝓝 est, BssTotal o ref p v (f p)) ∧ IsGradient f est gE) ∧
      ((∀ m k, sigNorm (centred o.zeroMean (ref m k)) ≠ 1e-6) →
        ∃ f, (∀ᶠ p in 𝓝 ref, BssTotal o p est v (f p)) ∧ IsGradient f ref gR) := by
  obtain ⟨P, CA, CB, hp, hC⟩ := covers hN hdir h
  obtain ⟨rfl, rfl⟩ := hC.eq h
  have hz : ∀ i : BIdx s × Fin r × Fin e, pairB P i = 0 → pairA P i = 0 := fun i hz => sar_zero hdir hload h hz i.2.1
  have hus : ∀ perm, Usable o.clampDb (permWeights perm v) (pairA P) (pairB P) := fun perm => usable_of hz
    (smooth_perm (fun hw k => hd hw k.1 k.2.1 k.2.2) (fun k => hi k.1 k.2.1 k.2.2) fun hw k => ha hw k.1 k.2.1 k.2.2)
  have hus2 : ∀ w, Usable o.clampDb ⟨none, some w, none⟩ (pairA P) (pairB P) := fun w => usable_of hz
    ⟨fun hw => absurd rfl hw, fun _ k => hi k.1 k.2.1 k.2.2, fun hw => absurd rfl hw⟩
  have hfin : ∀ m k j, ∃ x, (baseMetrics o.clampDb (P.cohSdr m k j) (P.cohSar m j)).2.1 = fin x := by
    intro m k j
    have hb : P.cohSar m j ≠ 0 := sir_value (hz (m, k, j)) (hi m k j).1
    have h1 := (hi m k j).2
    have e1 : ∀ cl, (baseMetrics cl (P.cohSdr m k j) (P.cohSar m j)).2.1 =
        coherenceToNegSdr cl (fin (P.cohSdr m k j / P.cohSar m j)) := by
      intro cl
      show coherenceToNegSdr cl (div (fin (P.cohSdr m k j)) (fin (P.cohSar m j))) = _
      rw [div_fin hb]
    rw [e1] at h1 ⊢
    exact clamped_loss h1
  obtain ⟨out, hout⟩ := (solvePermutation_ok_iff torchBackend torchLsa_correct
    (fun m k j => (baseMetrics o.clampDb (P.cohSdr m k j) (P.cohSar m j)).2.1)
    ![fun m k j => (baseMetrics o.clampDb (P.cohSdr m k j) (P.cohSar m j)).1,
      fun m k j => (baseMetrics o.clampDb (P.cohSdr m k j) (P.cohSar m j)).2.2]).2 fun m => solvable_of_finite (hfin m)
  refine ⟨gradEstBss o P est (permWeights out.perm v), gradRefBss o P ref (permWeights out.perm v), ?_, fun hx => ?_, fun hx => ?_⟩
  · unfold bssBackward
    rw [hp]
    dsimp only
    rw [hout]
  · have key := fun (W : BssWeights (BIdx s × Fin r × Fin e)) (hW : Usable o.clampDb W (pairA P) (pairB P)) =>
      est_total_bss hC hx (fun i : Fin r × Fin e => i) W hW (gs := pairGs o.clampDb P W) (ga := pairGa o.clampDb P W)
      (fun m i => baseGradSdr_fin (hW.finite (m, i))) (fun m i => baseGradSar_fin (hW.finite (m, i)))
    obtain ⟨F, F', f1, f2, f3⟩ := key _ (hus out.perm)
    refine ⟨F, ?_, _, F', fun m j t => congrFun (gradEstBss_fin est fun k => (hus out.perm).finite (m, k, j)) t, f2, f3⟩
    refine total_perm (R := fun _ => ref) (E := fun p => p) h hu hout (fun w => ?_) f1
    obtain ⟨G, G', g1, g2, -⟩ := key _ (hus2 w)
    exact ⟨G, g2.continuousAt, g1⟩
  · have key := fun (W : BssWeights (BIdx s × Fin r × Fin e)) (hW : Usable o.clampDb W (pairA P) (pairB P)) =>
      ref_total_bss hC hx (fun i : Fin r × Fin e => i) W hW (gs := pairGs o.clampDb P W) (ga := pairGa o.clampDb P W)
      (fun m i => baseGradSdr_fin (hW.finite (m, i))) (fun m i => baseGradSar_fin (hW.finite (m, i)))
    obtain ⟨F, F', f1, f2, f3⟩ := key _ (hus out.perm)
    refine ⟨F, ?_, _, F', fun m k t => congrFun (gradRefBss_fin hC (fun k j => (hus out.perm).finite (m, k, j)) k) t, f2, f3⟩
    refine total_perm (R := fun p => p) (E := fun _ => est) h hu hout (fun w => ?_) f1
    obtain ⟨G, G', g1, g2, -⟩ := key _ (hus2 w)
    exact ⟨G, g2.continuousAt, g1⟩

/-- What is known when `bss_eval_sources` returns. -/
theorem perm_ok (hN : 0 < N) (hdir : o.direct) (hload : 0 ≤ o.load) {ref : Sig s r N} {est : Sig s e T} {out}
    (h : bssEvalSources torchBackend o true ref est = .ok out) :
    ∃ P CA CB perm, bssPass o ref est = .ok P ∧ Covers o ref est P CA CB ∧ (∀ m k j, P.cohSar m j = 0 → P.cohSdr m k j = 0) ∧
      sqCosPair torchBackend o ref est = .ok (P.cohSdr, P.cohSar) ∧
      (∀ m k j, (baseMetrics o.clampDb (P.cohSdr m k j) (P.cohSar m j)).2.1 ≠ nan) ∧
      ∀ v, bssBackward o ref est v = .ok (gradEstBss o P est (permWeights perm v), gradRefBss o P ref (permWeights perm v)) := by
  unfold bssEvalSources bssEvalPerm at h
  rw [if_pos rfl] at h
  cases hs : sqCosPair torchBackend o ref est with
  | error err =>
    rw [hs] at h
    cases h
  | ok q =>
    obtain ⟨S, A⟩ := q
    rw [hs] at h
    dsimp only at h
    obtain ⟨P, CA, CB, hp, hC⟩ := covers hN hdir hs
    obtain ⟨rfl, rfl⟩ := hC.eq hs
    cases hq : solvePermutation torchBackend (fun m k j => (baseMetrics o.clampDb (P.cohSdr m k j) (P.cohSar m j)).2.1) (nArgs := 2)
      ![fun m k j => (baseMetrics o.clampDb (P.cohSdr m k j) (P.cohSar m j)).1,
        fun m k j => (baseMetrics o.clampDb (P.cohSdr m k j) (P.cohSar m j)).2.2] with
    | error err =>
      rw [hq] at h
      cases h
    | ok q =>
      refine ⟨P, CA, CB, q.perm, hp, hC, fun m k j hz => sar_zero hdir hload hs hz k, rfl, fun m k j => ?_, fun v => ?_⟩
      · exact (((solvePermutation_ok_iff torchBackend torchLsa_correct _ _).1 ⟨q, hq⟩) m).no_nan k j
      · unfold bssBackward
        rw [hp]
        dsimp only
        rw [hq]

/-- **C85**, finite gradients with `clamp_db`, whenever `bss_eval_sources` returns. -/
theorem C85_clamped_finite_perm (hN : 0 < N) (hdir : o.direct) (hload : 0 ≤ o.load) {d : ℝ} (hcl : o.clampDb = some d) {ref : Sig s r N}
    {est : Sig s e T} {out} (h : bssEvalSources torchBackend o true ref est = .ok out) (v : BssWeights (BIdx s × Fin (min r e))) :
    ∃ gE gR, bssBackward o ref est v = .ok (gE, gR) ∧ (∀ m j, FiniteGrad (gE m j)) ∧ ∀ m k, FiniteGrad (gR m k) := by
  obtain ⟨P, CA, CB, perm, hp, hC, hz, -, hn, hg⟩ := perm_ok hN hdir hload h
  have hf : ∀ i, Finite o.clampDb (permWeights perm v) (pairA P) (pairB P) i := by
    intro i
    have hb := sir_value (hz i.1 i.2.1 i.2.2) (hn i.1 i.2.1 i.2.2)
    rw [hcl]
    exact ⟨fun _ => cclamp_some_inside d _, fun _ => ⟨hb, cclamp_some_inside d _⟩, fun _ => cclamp_some_inside d _⟩
  refine ⟨_, _, hg v, fun m j t => ?_, fun m k t => ?_⟩
  · rw [gradEstBss_fin est fun k => hf (m, k, j)]
    exact ⟨_, rfl⟩
  · rw [gradRefBss_fin hC (fun k j => hf (m, k, j))]
    exact ⟨_, rfl⟩

/-! ### NaN -/

/-- An infinite SDR used without `clamp_db`. -/
theorem baseSdr_nan {a b : ℝ} (h0 : 0 ≤ a) (h1 : a ≤ 1) (h : (baseMetrics none a b).1 = pinf ∨ (baseMetrics none a b).1 = ninf) (w : ℝ)
    (wi : Option ℝ) : baseGradSdr none a b (some w) wi = nan := by
  unfold baseGradSdr
  dsimp only
  rw [decibelGrad_nan (negDb_inf h0 h1 h), nan_add]

/-- An infinite SAR used without `clamp_db`. -/
theorem baseSar_nan {a b : ℝ} (h0 : 0 ≤ b) (h1 : b ≤ 1) (h : (baseMetrics none a b).2.2 = pinf ∨ (baseMetrics none a b).2.2 = ninf) (w : ℝ)
    (wi : Option ℝ) : baseGradSar none a b wi (some w) = nan := by
  unfold baseGradSar
  dsimp only
  rw [decibelGrad_nan (negDb_inf h0 h1 h), nan_add]

/-- An infinite SIR used without `clamp_db`. -/
theorem baseSir_nan {a b : ℝ} (h0 : 0 ≤ a) (hb : 0 ≤ b) (hab : a ≤ b)
    (h : (baseMetrics none a b).2.1 = pinf ∨ (baseMetrics none a b).2.1 = ninf) (w : ℝ) (wo : Option ℝ) :
    baseGradSdr none a b wo (some w) = nan ∧ baseGradSar none a b (some w) wo = nan := by
  have hne : b ≠ 0 := by
    refine sir_value (cl := none) (a := a) (fun hb => le_antisymm (hb ▸ hab) h0) fun hn => ?_
    rw [hn] at h
    rcases h with h | h <;> cases h
  have hbp : 0 < b := lt_of_le_of_ne hb (Ne.symm hne)
  have hg : sirGrad none a b w = nan := by
    unfold sirGrad
    rw [div_fin hne]
    refine decibelGrad_nan (negDb_inf (by positivity) ((div_le_one hbp).2 hab) ?_) w
    have : (baseMetrics none a b).2.1 = coherenceToNegSdr none (fin (a / b)) := by
      show coherenceToNegSdr none (div (fin a) (fin b)) = _
      rw [div_fin hne]
    rw [← this]
    exact h
  unfold baseGradSdr baseGradSar
  dsimp only
  rw [hg, nan_div, add_nan]
  refine ⟨rfl, ?_⟩
  have : neg nan = nan := rfl
  rw [this, nan_mul, add_nan]

/-- A SIR that is NaN, with or without `clamp_db`. -/
theorem baseSir_zero {cl : Option ℝ} (w : ℝ) (wo : Option ℝ) :
    baseGradSdr cl 0 0 wo (some w) = nan ∧ baseGradSar cl 0 0 (some w) wo = nan := by
  have h0 : div (fin 0) (fin 0) = nan := by simp [XR.div, signInf]
  unfold baseGradSdr baseGradSar sirGrad
  dsimp only
  rw [h0]
  constructor
  · rw [show decibelGradX cl nan (fin w) = fin 0 from rfl, h0, add_nan]
  · rw [nan_div, mul_nan, add_nan]

/-- The gradients of a NaN SDR weight reach estimate `k` and reference `k`. -/
theorem diag_nan_sdr {P : BssPass s c c N T} {W : BssWeights (BIdx s × Fin c)} {m : BIdx s} {k : Fin c} (h : diagSdr o P W m k = nan)
    (ref : Sig s c N) (est : Sig s c T) :
    (∀ t, gradEstBssDiag o P est W m k t = nan) ∧ ∀ t, gradRefBssDiag o P ref W m k t = nan :=
  ⟨preprocessGrad_nan _ _ fun t => lift_nan (k := true) h _ t, preprocessGrad_nan _ _ fun t => lift_nan (k := Sum.inl ()) h _ t⟩

/-- The gradients of a NaN SAR weight reach estimate `k` and all references. -/
theorem diag_nan_sar {P : BssPass s c c N T} {W : BssWeights (BIdx s × Fin c)} {m : BIdx s} {k : Fin c} (h : diagSar o P W m k = nan)
    (ref : Sig s c N) (est : Sig s c T) :
    (∀ t, gradEstBssDiag o P est W m k t = nan) ∧ ∀ k' t, gradRefBssDiag o P ref W m k' t = nan :=
  ⟨preprocessGrad_nan _ _ fun t => lift_nan (k := false) h _ t,
    fun _ => preprocessGrad_nan _ _ fun t => lift_nan (k := Sum.inr k) h _ t⟩

theorem pair_nan_sdr {P : BssPass s r e N T} {W : BssWeights (BIdx s × Fin r × Fin e)} {m : BIdx s} {k : Fin r} {j : Fin e}
    (h : pairSdr o P W m k j = nan) (ref : Sig s r N) (est : Sig s e T) :
    (∀ t, gradEstBss o P est W m j t = nan) ∧ ∀ t, gradRefBss o P ref W m k t = nan :=
  ⟨preprocessGrad_nan _ _ fun t => lift_nan (k := some k) h _ t, preprocessGrad_nan _ _ fun t => lift_nan (k := Sum.inl j) h _ t⟩

theorem pair_nan_sar {P : BssPass s r e N T} {W : BssWeights (BIdx s × Fin r × Fin e)} {m : BIdx s} {k : Fin r} {j : Fin e}
    (h : baseGradSar o.clampDb (P.cohSdr m k j) (P.cohSar m j) (W.sir.map (· (m, k, j))) (W.sar.map (· (m, k, j))) = nan)
    (ref : Sig s r N) (est : Sig s e T) :
    (∀ t, gradEstBss o P est W m j t = nan) ∧ ∀ k' t, gradRefBss o P ref W m k' t = nan := by
  have h : pairSar o P W m j = nan := xsum_nan k h
  exact ⟨preprocessGrad_nan _ _ fun t => lift_nan (k := none) h _ t,
    fun _ => preprocessGrad_nan _ _ fun t => lift_nan (k := Sum.inr j) h _ t⟩

/-- **C85**, `compute_permutation=False`: if the SIR of estimate `k` is NaN and the loss uses SIR, the gradients of estimate `k` and of all
references are NaN, with or without `clamp_db`. -/
theorem C85_nan_sir (hN : 0 < N) (hdir : o.direct) (hload : 0 ≤ o.load) {ref : Sig s c N} {est : Sig s c T} {out}
    (h : bssEvalSources torchBackend o false ref est = .ok out) (v : BssWeights (BIdx s × Fin c)) (hv : v.sir ≠ none) :
    ∃ gE gR, bssBackwardDiag o ref est v = .ok (gE, gR) ∧ ∀ m (k : Fin c), out.sir m (k.cast (min_self c).symm) = nan →
      (∀ t, gE m k t = nan) ∧ ∀ k' t, gR m k' t = nan := by
  obtain ⟨P, CA, CB, hp, hC, hz, -, -, h2, -⟩ := diag_ok hN hdir hload (cl := o.clampDb) h
  refine ⟨_, _, by unfold bssBackwardDiag; rw [hp], fun m k hk => ?_⟩
  obtain ⟨w, hw⟩ := Option.ne_none_iff_exists'.1 hv
  rw [h2, neg_nan_iff] at hk
  have hb : P.cohSar m k = 0 := by
    by_contra hb
    have hk : coherenceToNegSdr o.clampDb (div (fin (P.cohSdr m k k)) (fin (P.cohSar m k))) = nan := hk
    rw [div_fin hb, coherenceToNegSdr_eq_nan] at hk
    cases hk
  refine diag_nan_sar ?_ ref est
  unfold diagSar negWeights
  rw [hw, hb, hz m k k hb]
  exact (baseSir_zero _ _).2

/-- **C85**, `compute_permutation=False`: a silent estimate in a batch makes the gradients of all references of the same item NaN, as soon as
the loss uses the SIR. -/
theorem C85_silent_estimate (hN : 0 < N) (hdir : o.direct) (hload : 0 ≤ o.load) {ref : Sig s c N} {est : Sig s c T} {out}
    (h : bssEvalSources torchBackend o false ref est = .ok out) (v : BssWeights (BIdx s × Fin c)) (hv : v.sir ≠ none) :
    ∃ gE gR, bssBackwardDiag o ref est v = .ok (gE, gR) ∧ ∀ m (k : Fin c), centred o.zeroMean (est m k) = 0 →
      (∀ t, gE m k t = nan) ∧ ∀ k' t, gR m k' t = nan := by
  obtain ⟨gE, gR, h1, h2⟩ := C85_nan_sir hN hdir hload h v hv
  refine ⟨gE, gR, h1, fun m k hk => h2 m k ?_⟩
  obtain ⟨P, -, -, -, -, -, hs, -, h3, -⟩ := diag_ok hN hdir hload (cl := o.clampDb) h
  obtain ⟨ha, hb⟩ := sqCosPair_silent hs hk k
  rw [h3, neg_nan_iff, ha, hb]
  show coherenceToNegSdr o.clampDb (div (fin 0) (fin 0)) = nan
  have h0 : div (fin 0) (fin 0) = nan := by simp [XR.div, signInf]
  rw [h0]
  exact coherenceToNegSdr_eq_nan.2 rfl

/-- **C85**, `compute_permutation=False` and `clamp_db=None`: infinite values that the loss uses. -/
theorem C85_nan_diag (hN : 0 < N) (hdir : o.direct) (hload : 0 ≤ o.load) (hcl : o.clampDb = none) {ref : Sig s c N} {est : Sig s c T} {out}
    (h : bssEvalSources torchBackend o false ref est = .ok out) (v : BssWeights (BIdx s × Fin c)) :
    ∃ gE gR, bssBackwardDiag o ref est v = .ok (gE, gR) ∧ ∀ m (k : Fin c),
      (v.sdr ≠ none → out.sdr m (k.cast (min_self c).symm) = pinf ∨ out.sdr m (k.cast (min_self c).symm) = ninf →
        (∀ t, gE m k t = nan) ∧ ∀ t, gR m k t = nan) ∧
      (v.sir ≠ none → o.filterLength ≠ 1 ∨ o.load = 0 →
        out.sir m (k.cast (min_self c).symm) = pinf ∨ out.sir m (k.cast (min_self c).symm) = ninf →
        (∀ t, gE m k t = nan) ∧ ∀ k' t, gR m k' t = nan) ∧
      (v.sar ≠ none → out.sar m (k.cast (min_self c).symm) = pinf ∨ out.sar m (k.cast (min_self c).symm) = ninf →
        (∀ t, gE m k t = nan) ∧ ∀ k' t, gR m k' t = nan) := by
  obtain ⟨P, CA, CB, hp, hC, hz, hs, h1, h2, h3⟩ := diag_ok hN hdir hload (cl := o.clampDb) h
  refine ⟨_, _, by unfold bssBackwardDiag; rw [hp], fun m k => ?_⟩
  obtain ⟨a0, a1, b0, b1, hab⟩ := sqCosPair_range (Or.inl rfl) hdir hload ref est hs m k k
  have hinf : ∀ {x : XR}, x.neg = pinf ∨ x.neg = ninf → x = pinf ∨ x = ninf := by
    intro x hx
    cases x with
    | fin => rcases hx with hx | hx <;> cases hx
    | pinf => exact Or.inl rfl
    | ninf => exact Or.inr rfl
    | nan => rcases hx with hx | hx <;> cases hx
  refine ⟨fun hv hk => ?_, fun hv ho hk => ?_, fun hv hk => ?_⟩
  · obtain ⟨w, hw⟩ := Option.ne_none_iff_exists'.1 hv
    rw [h1, hcl] at hk
    refine diag_nan_sdr ?_ ref est
    unfold diagSdr negWeights
    rw [hw, hcl]
    exact baseSdr_nan a0 a1 (hinf hk) _ _
  · obtain ⟨w, hw⟩ := Option.ne_none_iff_exists'.1 hv
    rw [h2, hcl] at hk
    refine diag_nan_sar ?_ ref est
    unfold diagSar negWeights
    rw [hw, hcl]
    exact (baseSir_nan a0 b0 (hab ho) (hinf hk) _ _).2
  · obtain ⟨w, hw⟩ := Option.ne_none_iff_exists'.1 hv
    rw [h3, hcl] at hk
    refine diag_nan_sar ?_ ref est
    unfold diagSar negWeights
    rw [hw, hcl]
    exact baseSar_nan b0 b1 (hinf hk) _ _

/-- **C85**, `compute_permutation=True` and `clamp_db=None`: infinite values of any pair `(k, j)`, chosen by the permutation or not. -/
theorem C85_nan_perm (hN : 0 < N) (hdir : o.direct) (hload : 0 ≤ o.load) (hcl : o.clampDb = none) {ref : Sig s r N} {est : Sig s e T} {out S A}
    (h : bssEvalSources torchBackend o true ref est = .ok out) (hS : sqCosPair torchBackend o ref est = .ok (S, A))
    (v : BssWeights (BIdx s × Fin (min r e))) :
    ∃ gE gR, bssBackward o ref est v = .ok (gE, gR) ∧ ∀ m k j,
      (v.sdr ≠ none → (baseMetrics none (S m k j) (A m j)).1 = pinf ∨ (baseMetrics none (S m k j) (A m j)).1 = ninf →
        (∀ t, gE m j t = nan) ∧ ∀ t, gR m k t = nan) ∧
      (v.sir ≠ none → o.filterLength ≠ 1 ∨ o.load = 0 →
        (baseMetrics none (S m k j) (A m j)).2.1 = pinf ∨ (baseMetrics none (S m k j) (A m j)).2.1 = ninf →
        (∀ t, gE m j t = nan) ∧ ∀ k' t, gR m k' t = nan) ∧
      (v.sar ≠ none → (baseMetrics none (S m k j) (A m j)).2.2 = pinf ∨ (baseMetrics none (S m k j) (A m j)).2.2 = ninf →
        (∀ t, gE m j t = nan) ∧ ∀ k' t, gR m k' t = nan) := by
  obtain ⟨P, CA, CB, perm, hp, hC, hz, hs, hn, hg⟩ := perm_ok hN hdir hload h
  rw [hS] at hs
  cases hs
  refine ⟨_, _, hg v, fun m k j => ?_⟩
  obtain ⟨a0, a1, b0, b1, hab⟩ := sqCosPair_range (Or.inl rfl) hdir hload ref est hS m k j
  refine ⟨fun hv hk => ?_, fun hv ho hk => ?_, fun hv hk => ?_⟩
  · obtain ⟨w, hw⟩ := Option.ne_none_iff_exists'.1 hv
    refine pair_nan_sdr (k := k) ?_ ref est
    unfold pairSdr permWeights
    rw [hw, hcl]
    exact baseSdr_nan a0 a1 hk _ _
  · obtain ⟨w, hw⟩ := Option.ne_none_iff_exists'.1 hv
    refine pair_nan_sar (k := k) ?_ ref est
    unfold permWeights
    rw [hw, hcl]
    exact (baseSir_nan a0 b0 (hab ho) hk _ _).2
  · obtain ⟨w, hw⟩ := Option.ne_none_iff_exists'.1 hv
    refine pair_nan_sar (k := k) ?_ ref est
    unfold permWeights
    rw [hw, hcl]
    exact baseSar_nan b0 b1 hk _ _

/-! ### Only the SDR -/

theorem baseSdr_only (cl : Option ℝ) (a b w : ℝ) : baseGradSdr cl a b (some w) none = decibelGrad cl a (fin w) := by
  unfold baseGradSdr
  dsimp only
  cases decibelGrad cl a (fin w) with
  | fin x => exact congrArg fin (add_zero x)
  | _ => rfl

theorem baseSar_none (cl : Option ℝ) (a b : ℝ) : baseGradSar cl a b none none = fin 0 := congrArg fin (add_zero 0)

theorem lift_swap {κ κ' : Type} {g : κ → XR} {g' : κ' → XR} {f : (κ → ℝ) → Fin N → ℝ} {f' : (κ' → ℝ) → Fin N → ℝ} {x : XR} {k : κ} {k' : κ'}
    (h : g k = x) (h' : g' k' = x) {γ : ℝ → κ → ℝ} {γ' : ℝ → κ' → ℝ} (hg : ∀ a, x = fin a → ∀ i, g i = fin (γ a i))
    (hg' : ∀ a, x = fin a → ∀ i, g' i = fin (γ' a i)) (hf : ∀ a, f (γ a) = f' (γ' a)) : lift g f = lift g' f' := by
  by_cases hx : ∃ a, x = fin a
  · obtain ⟨a, ha⟩ := hx
    rw [lift_fin (hg a ha), lift_fin (hg' a ha), hf]
  · have key : ∀ {κ : Type} {g : κ → XR} {f : (κ → ℝ) → Fin N → ℝ} {k : κ}, g k = x → lift g f = fun _ => nan := by
      intro κ g f k h
      unfold lift
      rw [if_neg]
      intro hk
      have := hk k
      rw [h] at this
      cases x with
      | fin a => exact hx ⟨a, rfl⟩
      | _ => cases this
    rw [key h, key h']

/-- **C85**, a loss that uses only the SDR of `bss_eval_sources(compute_permutation=False)` has the gradients of `sdr_loss`. -/
theorem C85_sdr_only (hN : 0 < N) (hL : 2 ≤ o.filterLength) (hcg : o.useCgIter = none) (hload : 0 ≤ o.load) {ref : Sig s c N} {est : Sig s c T}
    {out} (h : bssEvalSources torchBackend o false ref est = .ok out) (w : BIdx s → Fin c → ℝ) :
    ∃ gE gR, bssBackwardDiag o ref est ⟨some fun i => w i.1 i.2, none, none⟩ = .ok (gE, gR) ∧
      gradEstFirDiag o ref est (fun m k => -w m k) = .ok gE ∧ gradRefFirDiag o ref est (fun m k => -w m k) = .ok gR := by
  obtain ⟨P, -, -, hp, -, -, hs, -, -, -⟩ := diag_ok hN (Or.inr hcg) hload (cl := o.clampDb) h
  have hn : ∃ n, nFft N T = .ok n ∧ o.filterLength ≤ n := by
    cases hn : nFft N T with
    | error err => rw [sqCosPair_gen torchBackend hL] at hs; unfold sqCosPairGen at hs; rw [hn] at hs; cases hs
    | ok n =>
      refine ⟨n, rfl, ?_⟩
      by_contra hLn
      rw [sqCosPair_too_long (by omega) hn (by omega)] at hs
      cases hs
  obtain ⟨n, hn, hLn⟩ := hn
  obtain ⟨P', hp', hC⟩ := covers_fir hn hL hLn hN hcg hs
  rw [hp] at hp'
  cases hp'
  have hb := nFft_bounds hn
  have hd : ∀ m k, (acfM n (min o.filterLength n) o.load (prep o ref m k)).det ≠ 0 := by
    rw [sqCosPair_fir hn hL hLn hcg] at hs
    split at hs
    · cases hs
    · rename_i hne
      exact fun m k hz => hne (Or.inl ⟨(m, k), hz⟩)
  refine ⟨_, _, by unfold bssBackwardDiag; rw [hp], ?_, ?_⟩
  · rw [gradEstFirDiag_eq hL hn hd]
    refine congrArg Except.ok (funext fun m => funext fun k => ?_)
    unfold gradEstBssDiag
    congr 1
    refine lift_swap (k := (0 : Fin 1)) (k' := true) (γ := fun a _ => a)
      (γ' := fun a i => match i with | true => a | false => 0) rfl ?_ (fun a ha _ => ha) ?_ fun a => ?_
    · rw [← hC.sdr]
      exact baseSdr_only _ _ _ _
    · rintro a ha (_ | _)
      · exact baseSar_none _ _ _
      · rw [← ha, ← hC.sdr]
        exact baseSdr_only _ _ _ _
    · obtain ⟨q', q1, q2⟩ := est_total (r := 1) (fftSize_ne hn) (min_le_right o.filterLength n) (show T ≤ n by omega)
        (x := fun _ => prep o ref m k) (prep o est m k) (fun _ => hd m k)
      refine ((hC.pass m).est_single (q1 0) fun v => ?_).symm
      have := q2 (fun _ => a) v
      rw [Fin.sum_univ_one] at this
      exact this
  · rw [gradRefFirDiag_eq hL hn hd]
    refine congrArg Except.ok (funext fun m => funext fun k => ?_)
    unfold gradRefBssDiag
    congr 1
    refine lift_swap (k := (0 : Fin 1)) (k' := Sum.inl ()) (γ := fun a _ => a)
      (γ' := fun a i => match i with | .inl _ => a | .inr _ => 0) rfl ?_ (fun a ha _ => ha) ?_ fun a => ?_
    · rw [← hC.sdr]
      exact baseSdr_only _ _ _ _
    · rintro a ha (_ | _)
      · rw [← ha, ← hC.sdr]
        exact baseSdr_only _ _ _ _
      · exact baseSar_none _ _ _
    · obtain ⟨q', q1, q2⟩ := ref_total (e := 1) (fftSize_ne hn) (min_le_right o.filterLength n) (show N ≤ n by omega)
        (x := prep o ref m k) (fun _ => prep o est m k) (hd m k)
      refine ((hC.pass m).ref_single (q1 0) fun v => ?_).symm
      have := q2 (fun _ => a) v
      rw [Fin.sum_univ_one] at this
      exact this

/-! ### Concrete cases -/

/-- The SIRs of the example are its SDRs, its SARs are infinite. -/
theorem ex_base (cl : Option ℝ) (a : ℝ) : (baseMetrics cl a 1).1 = coherenceToNegSdr cl (fin a) ∧
    (baseMetrics cl a 1).2.1 = coherenceToNegSdr cl (fin a) ∧ (baseMetrics cl a 1).2.2 = coherenceToNegSdr cl (fin 1) := by
  refine ⟨rfl, ?_, rfl⟩
  show coherenceToNegSdr cl (div (fin a) (fin 1)) = _
  rw [div_fin one_ne_zero, div_one]

theorem ex_sar : coherenceToNegSdr none (fin 1) = ninf := by
  rw [coherenceToNegSdr_fin]
  show negDb (cclamp none 1) = _
  rw [cclamp_none zero_le_one le_rfl]
  simp [negDb]

theorem ex_sar_off : OffBounds (some 30) (coherenceToNegSdr none (fin 1)) := by
  rw [ex_sar]
  exact ⟨fun h => (nomatch h), fun h => (nomatch h)⟩

theorem ex_fin (cl : Option ℝ) (hcl : cl = none ∨ cl = some 30) (b : Prop) [Decidable b] :
    coherenceToNegSdr none (fin (if b then 4 / 5 else 1 / 5)) ≠ nan ∧
      OffBounds cl (coherenceToNegSdr none (fin (if b then 4 / 5 else 1 / 5))) := by
  refine ⟨fun h => ?_, fifth_off cl hcl b⟩
  obtain ⟨y, hy⟩ := fifth_off none (Or.inl rfl) b
  rw [hy] at h
  cases h

/-- Two sources with filters of two taps, the permutation, and a loss that uses SDR and SIR without `clamp_db`. -/
example (w w' : BIdx [] × Fin 2 → ℝ) : ∃ gE gR, bssBackward (Ex.clamped none) Ex.ref Ex.est ⟨some w, some w', none⟩ = .ok (gE, gR) ∧
    (∃ f, (∀ᶠ p in 𝓝 Ex.est, BssTotal (Ex.clamped none) Ex.ref p ⟨some w, some w', none⟩ (f p)) ∧ IsGradient f Ex.est gE) ∧
    ∃ f, (∀ᶠ p in 𝓝 Ex.ref, BssTotal (Ex.clamped none) p Ex.est ⟨some w, some w', none⟩ (f p)) ∧ IsGradient f Ex.ref gR := by
  obtain ⟨gE, gR, h1, h2, h3⟩ := C85_gradient_perm (o := Ex.clamped none) (by norm_num) (Or.inr rfl) le_rfl Ex.sqCosPair_value
    ⟨some w, some w', none⟩ (fun _ _ k j => fifth_off none (Or.inl rfl) (k = j))
    (fun _ k j => by rw [(ex_base none _).2.1]; exact ex_fin none (Or.inl rfl) (k = j)) (fun h => absurd rfl h)
    (fun m => by simp only [(ex_base _ _).2.1]; exact Ex.unique_loss)
  exact ⟨gE, gR, h1, h2 fun m j => (ex_norm m j).1, h3 fun m k => (ex_norm m k).2⟩

/-- All three metrics with `clamp_db=30` and without the permutation. -/
example (w w' w'' : BIdx [] × Fin 2 → ℝ) :
    ∃ gE gR, bssBackwardDiag (Ex.clamped (some 30)) Ex.ref Ex.est ⟨some w, some w', some w''⟩ = .ok (gE, gR) ∧
    (∃ f, (∀ᶠ p in 𝓝 Ex.est, BssTotalDiag (Ex.clamped (some 30)) Ex.ref p ⟨some w, some w', some w''⟩ (f p)) ∧ IsGradient f Ex.est gE) ∧
    ∃ f, (∀ᶠ p in 𝓝 Ex.ref, BssTotalDiag (Ex.clamped (some 30)) p Ex.est ⟨some w, some w', some w''⟩ (f p)) ∧ IsGradient f Ex.ref gR := by
  obtain ⟨out, h⟩ := Ex.bssNoPerm_cl none
  obtain ⟨P, -, -, -, -, -, hs, h1, h2, h3⟩ := diag_ok (o := Ex.clamped none) (by norm_num) (Or.inr rfl) le_rfl (cl := none) h
  rw [show sqCosPair torchBackend (Ex.clamped none) Ex.ref Ex.est = _ from Ex.sqCosPair_value] at hs
  obtain ⟨e1, e2⟩ := Prod.mk.inj (Except.ok.inj hs)
  rw [← e1, ← e2] at h1 h2 h3
  have hv : Smooth (some 30) ⟨some w, some w', some w''⟩ (fun i : BIdx [] × Fin 2 => out.sdr i.1 (i.2.cast (min_self 2).symm))
      (fun i => out.sir i.1 (i.2.cast (min_self 2).symm)) fun i => out.sar i.1 (i.2.cast (min_self 2).symm) := by
    refine ⟨fun _ i => ?_, fun _ i => ?_, fun _ i => ?_⟩
    · rw [h1, offBounds_neg]
      exact fifth_off _ (Or.inr rfl) _
    · rw [h2, offBounds_neg, ne_eq, neg_nan_iff, (ex_base none _).2.1]
      exact ex_fin _ (Or.inr rfl) _
    · rw [h3, offBounds_neg]
      exact ex_sar_off
  obtain ⟨gE, gR, g1, g2, g3⟩ := C85_gradient_diag (o := Ex.clamped (some 30)) (by norm_num) (Or.inr rfl) le_rfl h _ hv
  exact ⟨gE, gR, g1, g2 fun m j => (ex_norm m j).1, g3 fun m k => (ex_norm m k).2⟩

/-- Finite gradients of all three metrics with any `clamp_db`. -/
example (d : ℝ) (v : BssWeights (BIdx [] × Fin 2)) : ∃ gE gR, bssBackward (Ex.clamped (some d)) Ex.ref Ex.est v = .ok (gE, gR) ∧
    (∀ m j, FiniteGrad (gE m j)) ∧ ∀ m k, FiniteGrad (gR m k) := by
  obtain ⟨out, h⟩ := Ex.bssPerm_cl (some d)
  exact C85_clamped_finite_perm (o := Ex.clamped (some d)) (by norm_num) (Or.inr rfl) le_rfl rfl h v

example (d : ℝ) (w w' : BIdx [] × Fin 2 → ℝ) :
    ∃ gE gR, bssBackwardDiag (Ex.clamped (some d)) Ex.ref Ex.est ⟨some w, none, some w'⟩ = .ok (gE, gR) ∧
    (∀ m j, FiniteGrad (gE m j)) ∧ ∀ m k, FiniteGrad (gR m k) := by
  obtain ⟨out, h⟩ := Ex.bssNoPerm_cl (some d)
  exact C85_clamped_finite_diag (o := Ex.clamped (some d)) (by norm_num) (Or.inr rfl) le_rfl rfl h _ fun hv => absurd rfl hv

/-- Without `clamp_db` the infinite SARs of the example make all gradients NaN when the loss uses them. -/
example (w : BIdx [] × Fin 2 → ℝ) : ∃ gE gR, bssBackward (Ex.clamped none) Ex.ref Ex.est ⟨none, none, some w⟩ = .ok (gE, gR) ∧
    ∀ m j t, gE m j t = nan ∧ gR m j t = nan := by
  obtain ⟨out, h⟩ := Ex.bssPerm_cl none
  obtain ⟨gE, gR, h1, h2⟩ := C85_nan_perm (o := Ex.clamped none) (by norm_num) (Or.inr rfl) le_rfl rfl h Ex.sqCosPair_value
    ⟨none, none, some w⟩
  refine ⟨gE, gR, h1, fun m j t => ?_⟩
  have := (h2 m j j).2.2 (fun h => by cases h) (Or.inr ((ex_base none _).2.2.trans ex_sar))
  exact ⟨this.1 t, this.2 j t⟩

example (w : BIdx [] × Fin 2 → ℝ) : ∃ gE gR, bssBackwardDiag (Ex.clamped none) Ex.ref Ex.est ⟨none, none, some w⟩ = .ok (gE, gR) ∧
    ∀ m j t, gE m j t = nan ∧ gR m j t = nan := by
  obtain ⟨out, h⟩ := Ex.bssNoPerm_cl none
  obtain ⟨P, -, -, -, -, -, hs, -, -, h3⟩ := diag_ok (o := Ex.clamped none) (by norm_num) (Or.inr rfl) le_rfl (cl := none) h
  rw [show sqCosPair torchBackend (Ex.clamped none) Ex.ref Ex.est = _ from Ex.sqCosPair_value] at hs
  obtain ⟨e1, e2⟩ := Prod.mk.inj (Except.ok.inj hs)
  rw [← e1, ← e2] at h3
  obtain ⟨gE, gR, g1, g2⟩ := C85_nan_diag (o := Ex.clamped none) (by norm_num) (Or.inr rfl) le_rfl rfl h ⟨none, none, some w⟩
  refine ⟨gE, gR, g1, fun m j t => ?_⟩
  have := (g2 m j).2.2 (fun h => by cases h) (Or.inl ?_)
  · exact ⟨this.1 t, this.2 j t⟩
  · rw [h3]
    show (coherenceToNegSdr none (fin 1)).neg = pinf
    rw [ex_sar]
    rfl

/-- One of two estimates is silent: the gradients of both references are NaN, even with `clamp_db`. -/
example (cl : Option ℝ) (w : BIdx [] × Fin 2 → ℝ) :
    ∃ gE gR, bssBackwardDiag (Ex.clamped cl) Ex.ref (fun _ => ![![2, 0, 1], 0] : Sig [] 2 3) ⟨none, some w, none⟩ = .ok (gE, gR) ∧
    ∀ m t, gE m 1 t = nan ∧ gR m 0 t = nan ∧ gR m 1 t = nan := by
  have h : ∃ out, bssEvalSources torchBackend (Ex.clamped cl) false Ex.ref (fun _ => ![![2, 0, 1], 0] : Sig [] 2 3) = .ok out := by
    have hs : ∃ p, sqCosPair torchBackend (Ex.clamped cl) Ex.ref (fun _ => ![![2, 0, 1], 0] : Sig [] 2 3) = .ok p := by
      rcases sqCosPair_success (o := Ex.clamped cl) Ex.covered (Or.inr rfl) (show 1 ≤ 2 by decide) rfl (by decide) Ex.fits Ex.ref
        (fun _ => ![![2, 0, 1], 0] : Sig [] 2 3) with h | ⟨-, m, h⟩
      · exact h.1
      · exact absurd (Ex.independent m) h
    obtain ⟨p, hs⟩ := hs
    unfold bssEvalSources bssEvalNoPerm
    rw [if_neg (by simp), if_neg (by simp)]
    have h' : sqCosPair torchBackend (Ex.clamped cl) (fun m (k : Fin (min 2 2)) => Ex.ref m (k.castLE (min_le_left 2 2)))
      (fun m (k : Fin (min 2 2)) => (fun _ => ![![2, 0, 1], 0] : Sig [] 2 3) m (k.castLE (min_le_right 2 2))) = _ := hs
    rw [sqCosDiag_of_pair _ _ (Or.inr ⟨rfl, rfl⟩) h']
    exact ⟨_, rfl⟩
  obtain ⟨out, h⟩ := h
  obtain ⟨gE, gR, h1, h2⟩ := C85_silent_estimate (o := Ex.clamped cl) (by norm_num) (Or.inr rfl) le_rfl h ⟨none, some w, none⟩
    (fun h => by cases h)
  refine ⟨gE, gR, h1, fun m t => ?_⟩
  have := h2 m 1 (by simp [centred, Ex.clamped, Ex.opts])
  exact ⟨this.1 t, this.2 0 t, this.2 1 t⟩

/-- Only the SDR. -/
example (cl : Option ℝ) (w : BIdx [] → Fin 2 → ℝ) :
    ∃ gE gR, bssBackwardDiag (Ex.clamped cl) Ex.ref Ex.est ⟨some fun i => w i.1 i.2, none, none⟩ = .ok (gE, gR) ∧
      gradEstFirDiag (Ex.clamped cl) Ex.ref Ex.est (fun m k => -w m k) = .ok gE ∧
      gradRefFirDiag (Ex.clamped cl) Ex.ref Ex.est (fun m k => -w m k) = .ok gR := by
  obtain ⟨out, h⟩ := Ex.bssNoPerm_cl cl
  exact C85_sdr_only (o := Ex.clamped cl) (by norm_num) le_rfl rfl le_rfl h w

end FBE.Props
