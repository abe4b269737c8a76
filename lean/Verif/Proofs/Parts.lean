import Verif.Spec.Parts
import Verif.Proofs.Infinite

/-!
# Projections of sums of orthogonal parts
-/

namespace FBE

open Spec XR

variable {N L r D : ℕ}

/-- The samples before time `D` as a vector. -/
noncomputable def samplesTo (D : ℕ) (v : ℕ → ℝ) : Space D := WithLp.toLp 2 fun t => v t

@[simp] theorem samplesTo_apply (v : ℕ → ℝ) (t : Fin D) : samplesTo D v t = v t := rfl

theorem energy_samplesTo (v : ℕ → ℝ) : energy (samplesTo D v) = energyTo D v := by
  rw [energy_eq_sum, energyTo, Finset.sum_range]
  rfl

theorem shift_zero_eq (y : Fin N → ℝ) : shift D y 0 = samplesTo D (zpad y) := by
  ext t
  rw [shift_apply, if_pos (Nat.zero_le _), Nat.sub_zero, samplesTo_apply]

theorem inner_shift_samplesTo {l : ℕ} (hl : N + l ≤ D) (x : Fin N → ℝ) (v : ℕ → ℝ) :
    inner ℝ (shift D x l) (samplesTo D v) = ∑ u : Fin N, x u * v (u + l) := by
  rw [PiLp.inner_apply]
  have h : ∀ t : Fin D, inner ℝ (shift D x l t) (samplesTo D v t) =
      (fun t : ℕ => (if l ≤ t then zpad x (t - l) else 0) * v t) t := fun t => by
    rw [shift_apply, samplesTo_apply]
    show v t * _ = _ * v t
    rw [mul_comm, star_trivial]
  rw [Finset.sum_congr rfl fun t _ => h t, ← Finset.sum_range fun t : ℕ => (if l ≤ t then zpad x (t - l) else 0) * v t]
  have hD : D = l + (N + (D - l - N)) := by omega
  rw [hD, Finset.sum_range_add, Finset.sum_eq_zero fun t ht => by
    rw [if_neg (by have := Finset.mem_range.1 ht; omega), zero_mul], zero_add, Finset.sum_range_add]
  rw [Finset.sum_eq_zero (s := Finset.range (D - l - N)) fun t _ => by
    rw [if_pos (by omega), zpad_of_le _ (by omega), zero_mul], add_zero, Finset.sum_range]
  refine Finset.sum_congr rfl fun u _ => ?_
  rw [if_pos (by omega), show l + u.val - l = u.val by omega, add_comm l]
  congr 1
  unfold zpad
  rw [dif_pos u.2]

theorem samplesTo_filtered (h : Fin L → ℝ) (x : Fin N → ℝ) : samplesTo D (filtered h x) = ∑ l : Fin L, h l • shift D x l := by
  ext t
  simp [shift_apply, filtered]

theorem samplesTo_add (v w : ℕ → ℝ) : samplesTo D (fun t => v t + w t) = samplesTo D v + samplesTo D w := rfl

theorem samplesTo_sum {ι : Type*} (S : Finset ι) (v : ι → ℕ → ℝ) : samplesTo D (fun t => ∑ i ∈ S, v i t) = ∑ i ∈ S, samplesTo D (v i) := by
  ext t
  simp

theorem samplesTo_filtered_mem (h : Fin L → ℝ) (x : Fin N → ℝ) : samplesTo D (filtered h x) ∈ spanOne D L x := by
  rw [samplesTo_filtered]
  exact Submodule.sum_mem _ fun l _ => Submodule.smul_mem _ _ (Submodule.subset_span ⟨l, rfl⟩)

theorem samplesTo_remix_mem (h : Fin r → Fin L → ℝ) (x : Fin r → Fin N → ℝ) :
    samplesTo D (fun t => ∑ k, filtered (h k) (x k) t) ∈ spanAll D L x := by
  rw [samplesTo_sum]
  exact Submodule.sum_mem _ fun k _ => spanOne_le_spanAll _ _ _ k (samplesTo_filtered_mem _ _)

theorem samplesTo_orthogonal_one (hD : N + L ≤ D + 1) {x : Fin N → ℝ} {v : ℕ → ℝ} (h : UncorrelatedTo L x v) :
    samplesTo D v ∈ (spanOne D L x)ᗮ := by
  rw [Submodule.mem_orthogonal]
  unfold spanOne
  rw [inner_span_range]
  intro l
  have := l.2
  rw [inner_shift_samplesTo (by omega)]
  exact h l l.2

theorem samplesTo_orthogonal_all (hD : N + L ≤ D + 1) {x : Fin r → Fin N → ℝ} {v : ℕ → ℝ} (h : ∀ k, UncorrelatedTo L (x k) v) :
    samplesTo D v ∈ (spanAll D L x)ᗮ := by
  rw [Submodule.mem_orthogonal]
  unfold spanAll
  rw [inner_span_range]
  rintro ⟨l, k⟩
  have := l.2
  rw [inner_shift_samplesTo (by dsimp only; omega)]
  exact h k l l.2

variable {x : Fin r → Fin N → ℝ} {k : Fin r} {y : Fin N → ℝ} {t i a : ℕ → ℝ}

/-- The projections of an estimate made of parts. -/
theorem parts_proj (hD : N + L ≤ D + 1) (h : Parts L x k y t i a) :
    shift D y 0 = samplesTo D t + samplesTo D i + samplesTo D a ∧
      (spanOne D L (x k)).starProjection (shift D y 0) = samplesTo D t ∧
      (spanAll D L x).starProjection (shift D y 0) = samplesTo D t + samplesTo D i := by
  obtain ⟨f, hf⟩ := h.target_filtered
  obtain ⟨g, hg⟩ := h.interf_filtered
  have hu : shift D y 0 = samplesTo D t + samplesTo D i + samplesTo D a := by
    rw [shift_zero_eq]
    ext τ
    exact h.total τ
  have ht : samplesTo D t ∈ spanOne D L (x k) := by
    rw [show t = filtered f (x k) from funext hf]
    exact samplesTo_filtered_mem f (x k)
  have hi : samplesTo D i ∈ spanAll D L x := by
    rw [show i = fun τ => ∑ k, filtered (g k) (x k) τ from funext hg]
    exact samplesTo_remix_mem g x
  refine ⟨hu, Submodule.eq_starProjection_of_mem_orthogonal' ht
    (Submodule.add_mem _ (samplesTo_orthogonal_one hD h.interf_uncorrelated) (samplesTo_orthogonal_one hD (h.artif_uncorrelated k)))
    (by rw [hu, add_assoc]), Submodule.eq_starProjection_of_mem_orthogonal'
    (Submodule.add_mem _ (spanOne_le_spanAll _ _ _ k ht) hi) (samplesTo_orthogonal_all hD h.artif_uncorrelated) hu⟩

theorem parts_docSdr (h : Parts L x k y t i a) :
    docSdr L x k y = dbRatio (energyTo (N + L - 1) t) (energyTo (N + L - 1) fun τ => i τ + a τ) := by
  obtain ⟨h1, h2, -⟩ := parts_proj (D := N + L - 1) (by omega) h
  unfold docSdr
  dsimp only
  rw [h2, h1, add_assoc, add_sub_cancel_left, ← samplesTo_add, energy_samplesTo, energy_samplesTo]

theorem parts_docSir (h : Parts L x k y t i a) :
    docSir L x k y = dbRatio (energyTo (N + L - 1) t) (energyTo (N + L - 1) i) := by
  obtain ⟨-, h2, h3⟩ := parts_proj (D := N + L - 1) (by omega) h
  unfold docSir
  dsimp only
  rw [h2, h3, add_sub_cancel_left, energy_samplesTo, energy_samplesTo]

theorem parts_docSar (h : Parts L x k y t i a) :
    docSar L x y = dbRatio (energyTo (N + L - 1) fun τ => t τ + i τ) (energyTo (N + L - 1) a) := by
  obtain ⟨h1, -, h3⟩ := parts_proj (D := N + L - 1) (by omega) h
  unfold docSar
  dsimp only
  rw [h3, h1, add_sub_cancel_left, ← samplesTo_add, energy_samplesTo, energy_samplesTo]

/-! ### Every estimate has such parts -/

theorem exists_parts (hL : 1 ≤ L) (x : Fin r → Fin N → ℝ) (k : Fin r) (y : Fin N → ℝ) : ∃ t i a, Parts L x k y t i a := by
  have hN : N ≤ N + L - 1 := by omega
  set D := N + L - 1 with hDd
  have hD : N + L ≤ D + 1 := by omega
  set u := shift D y 0
  obtain ⟨f, hf⟩ := (Submodule.mem_span_range_iff_exists_fun ℝ).1 ((spanOne D L (x k)).starProjection_apply_mem u)
  obtain ⟨g, hg⟩ := (Submodule.mem_span_range_iff_exists_fun ℝ).1 ((spanAll D L x).starProjection_apply_mem u)
  have hF : samplesTo D (filtered f (x k)) = (spanOne D L (x k)).starProjection u := by rw [samplesTo_filtered, hf]
  have hG : samplesTo D (fun t => ∑ k', filtered (fun l => g (l, k')) (x k') t) = (spanAll D L x).starProjection u := by
    rw [samplesTo_sum, ← hg, Fintype.sum_prod_type_right]
    exact Finset.sum_congr rfl fun k' _ => samplesTo_filtered _ _
  refine ⟨filtered f (x k), fun t => ∑ k', filtered (fun l => g (l, k')) (x k') t - filtered f (x k) t,
    fun t => zpad y t - ∑ k', filtered (fun l => g (l, k')) (x k') t, fun t => by ring, ⟨f, fun _ => rfl⟩,
    ⟨fun k' l => g (l, k') - if k' = k then f l else 0, fun t => ?_⟩, fun l hl => ?_, fun k' l hl => ?_⟩
  · have h : ∀ k', filtered (fun l => g (l, k') - if k' = k then f l else 0) (x k') t =
        filtered (fun l => g (l, k')) (x k') t - if k' = k then filtered f (x k') t else 0 := fun k' => by
      unfold filtered
      split_ifs
      · simp only [sub_mul, Finset.sum_sub_distrib]
      · simp only [sub_zero]
    rw [Finset.sum_congr rfl fun k' _ => h k', Finset.sum_sub_distrib, Finset.sum_ite_eq' Finset.univ k, if_pos (Finset.mem_univ _)]
  · refine (inner_shift_samplesTo (D := D) (by omega) (x k)
      fun t => ∑ k', filtered (fun l => g (l, k')) (x k') t - filtered f (x k) t).symm.trans ?_
    have : samplesTo D (fun t => ∑ k', filtered (fun l => g (l, k')) (x k') t - filtered f (x k) t) =
        (spanAll D L x).starProjection u - (spanOne D L (x k)).starProjection u := by
      rw [← hF, ← hG]; rfl
    rw [this, inner_sub_right]
    have hm : shift D (x k) l ∈ spanOne D L (x k) := Submodule.subset_span ⟨⟨l, hl⟩, rfl⟩
    rw [inner_proj_eq hm, inner_proj_eq (spanOne_le_spanAll _ _ _ k hm), sub_self]
  · refine (inner_shift_samplesTo (D := D) (by omega) (x k')
      fun t => zpad y t - ∑ k', filtered (fun l => g (l, k')) (x k') t).symm.trans ?_
    have : samplesTo D (fun t => zpad y t - ∑ k', filtered (fun l => g (l, k')) (x k') t) = u - (spanAll D L x).starProjection u := by
      rw [← hG, show u = samplesTo D (zpad y) from shift_zero_eq y]; rfl
    have hm : shift D (x k') l ∈ spanAll D L x := spanOne_le_spanAll _ _ _ k' (Submodule.subset_span ⟨⟨l, hl⟩, rfl⟩)
    rw [this, inner_sub_right, inner_proj_eq hm, sub_self]

theorem parts_end (hL : 1 ≤ L) (h : Parts L x k y t i a) {τ : ℕ} (hτ : N + L ≤ τ + 1) : t τ = 0 ∧ i τ = 0 ∧ a τ = 0 := by
  obtain ⟨f, hf⟩ := h.target_filtered
  obtain ⟨g, hg⟩ := h.interf_filtered
  have h1 : t τ = 0 := by rw [hf, filtered_end f (x k) hτ]
  have h2 : i τ = 0 := by rw [hg]; exact Finset.sum_eq_zero fun k' _ => filtered_end _ _ hτ
  have h3 := h.total τ
  rw [h1, h2, zpad_of_le _ (by omega), zero_add, zero_add] at h3
  exact ⟨h1, h2, h3.symm⟩

/-- There is only one way. -/
theorem parts_unique (hL : 1 ≤ L) {t' i' a' : ℕ → ℝ} (h : Parts L x k y t i a) (h' : Parts L x k y t' i' a') :
    t = t' ∧ i = i' ∧ a = a' := by
  obtain ⟨-, h2, h3⟩ := parts_proj (D := N + L - 1) (by omega) h
  obtain ⟨-, h2', h3'⟩ := parts_proj (D := N + L - 1) (by omega) h'
  have ht : t = t' := by
    funext τ
    by_cases hτ : τ < N + L - 1
    · exact congrArg (fun v : Space (N + L - 1) => v ⟨τ, hτ⟩) (h2.symm.trans h2')
    · rw [(parts_end hL h (by omega)).1, (parts_end hL h' (by omega)).1]
  have hi : i = i' := by
    funext τ
    by_cases hτ : τ < N + L - 1
    · have := congrArg (fun v : Space (N + L - 1) => v ⟨τ, hτ⟩) (h3.symm.trans h3')
      simp only [PiLp.add_apply, samplesTo_apply, ht] at this
      exact add_left_cancel this
    · rw [(parts_end hL h (by omega)).2.1, (parts_end hL h' (by omega)).2.1]
  refine ⟨ht, hi, funext fun τ => ?_⟩
  have := (h.total τ).symm.trans (h'.total τ)
  rw [ht, hi] at this
  exact add_left_cancel this

/-! ### Uncorrelated sources -/

theorem inner_sources (hD : N + L ≤ D + 1) (hx : UncorrelatedSources L x) {k k' : Fin r} (hk : k ≠ k') (l l' : Fin L) :
    inner ℝ (shift D (x k) l) (shift D (x k') l') = 0 := by
  have h1 := l.2
  have h2 := l'.2
  rcases le_total l'.val l.val with h | h
  · rw [inner_shift' D _ _ _ _ h (by omega)]
    exact hx k k' hk _ (by omega)
  · rw [real_inner_comm, inner_shift' D _ _ _ _ h (by omega)]
    exact hx k' k hk.symm _ (by omega)

theorem inner_filtered (hD : N + L ≤ D + 1) (hx : UncorrelatedSources L x) {k k' : Fin r} (hk : k ≠ k') (f g : Fin L → ℝ) :
    inner ℝ (samplesTo D (filtered f (x k))) (samplesTo D (filtered g (x k'))) = 0 := by
  rw [samplesTo_filtered, samplesTo_filtered, sum_inner]
  refine Finset.sum_eq_zero fun l _ => ?_
  rw [inner_sum]
  refine Finset.sum_eq_zero fun l' _ => ?_
  rw [real_inner_smul_left, real_inner_smul_right, inner_sources hD hx hk, mul_zero, mul_zero]

theorem energy_sources (hD : N + L ≤ D + 1) (hx : UncorrelatedSources L x) (h : Fin r → Fin L → ℝ) (S : Finset (Fin r)) :
    energyTo D (fun t => ∑ k ∈ S, filtered (h k) (x k) t) = ∑ k ∈ S, energyTo D (filtered (h k) (x k)) := by
  rw [← energy_samplesTo, samplesTo_sum]
  unfold energy
  rw [← real_inner_self_eq_norm_sq, sum_inner]
  refine Finset.sum_congr rfl fun k hk => ?_
  rw [inner_sum, Finset.sum_eq_single k (fun k' _ hk' => inner_filtered hD hx hk'.symm _ _) fun h => absurd hk h,
    real_inner_self_eq_norm_sq, ← energy_samplesTo]
  rfl

theorem parts_of_sources (hx : UncorrelatedSources L x) {h : Fin r → Fin L → ℝ}
    (hy : ∀ t, zpad y t = ∑ k, filtered (h k) (x k) t + a t) (ha : ∀ k, UncorrelatedTo L (x k) a) (k : Fin r) :
    Parts L x k y (filtered (h k) (x k)) (fun t => ∑ k' ∈ Finset.univ.erase k, filtered (h k') (x k') t) a := by
  refine ⟨fun t => ?_, ⟨h k, fun _ => rfl⟩, ⟨fun k' l => if k' = k then 0 else h k' l, fun t => ?_⟩, fun l hl => ?_, ha⟩
  · rw [hy, Finset.add_sum_erase _ (fun k' => filtered (h k') (x k') t) (Finset.mem_univ k)]
  · rw [← Finset.add_sum_erase _ _ (Finset.mem_univ k)]
    have h0 : filtered (fun l => if k = k then 0 else h k l) (x k) t = 0 := by simp [filtered]
    rw [h0, zero_add]
    refine Finset.sum_congr rfl fun k' hk' => ?_
    simp only [if_neg (Finset.ne_of_mem_erase hk')]
  · refine (inner_shift_samplesTo (D := N + L - 1) (by omega) (x k)
      fun t => ∑ k' ∈ Finset.univ.erase k, filtered (h k') (x k') t).symm.trans ?_
    rw [samplesTo_sum, inner_sum]
    refine Finset.sum_eq_zero fun k' hk' => ?_
    rw [samplesTo_filtered, inner_sum]
    refine Finset.sum_eq_zero fun l' _ => ?_
    rw [real_inner_smul_right, inner_sources (by omega) hx (Finset.ne_of_mem_erase hk').symm ⟨l, hl⟩, mul_zero]

theorem energy_rest (hD : N + L ≤ D + 1) (ha : ∀ k, UncorrelatedTo L (x k) a) (h : Fin r → Fin L → ℝ) (S : Finset (Fin r)) :
    energyTo D (fun t => ∑ k ∈ S, filtered (h k) (x k) t + a t) =
      energyTo D (fun t => ∑ k ∈ S, filtered (h k) (x k) t) + energyTo D a := by
  rw [← energy_samplesTo, ← energy_samplesTo, ← energy_samplesTo, samplesTo_add]
  have h0 : inner ℝ (samplesTo D fun t => ∑ k ∈ S, filtered (h k) (x k) t) (samplesTo D a) = 0 := by
    refine (Submodule.mem_orthogonal _ _).1 (samplesTo_orthogonal_all hD ha) _ ?_
    rw [samplesTo_sum]
    exact Submodule.sum_mem _ fun k _ => spanOne_le_spanAll _ _ _ k (samplesTo_filtered_mem _ _)
  have := norm_add_sq_eq_norm_sq_add_norm_sq_of_inner_eq_zero (𝕜 := ℝ) _ _ h0
  unfold energy
  simpa [sq] using this

/-! ### One reference -/

/-- The SDR concerns one reference only. -/
theorem docSdr_noise {f : Fin L → ℝ} (hy : ∀ τ, zpad y τ = filtered f (x k) τ + a τ) (ha : UncorrelatedTo L (x k) a) :
    docSdr L x k y = dbRatio (energyTo (N + L - 1) (filtered f (x k))) (energyTo (N + L - 1) a) := by
  have hp : Parts L (fun _ : Fin 1 => x k) 0 y (filtered f (x k)) (fun _ => 0) a :=
    ⟨fun τ => by rw [hy, add_zero], ⟨f, fun _ => rfl⟩, ⟨fun _ _ => 0, fun τ => by simp [filtered]⟩, fun l _ => by simp, fun _ => ha⟩
  have := parts_docSdr hp
  simp only [zero_add] at this
  exact this

theorem energyTo_zpad (hD : N ≤ D) (y : Fin N → ℝ) : energyTo D (zpad y) = power y := by
  rw [← energy_samplesTo, ← shift_zero_eq, power_eq hD]

theorem filtered_scale (hL : L ≠ 0) (g : ℝ) (x : Fin N → ℝ) (τ : ℕ) :
    filtered (fun l : Fin L => if l.val = 0 then g else 0) x τ = g * zpad x τ := by
  unfold filtered
  rw [Finset.sum_eq_single ⟨0, Nat.pos_of_ne_zero hL⟩]
  · simp
  · intro l _ hl
    have h0 : l.val ≠ 0 := fun h => hl (Fin.ext h)
    simp only [if_neg h0, zero_mul]
  · intro h
    exact absurd (Finset.mem_univ _) h

theorem energyTo_scale (D : ℕ) (g : ℝ) (v : ℕ → ℝ) : energyTo D (fun τ => g * v τ) = g ^ 2 * energyTo D v := by
  unfold energyTo
  rw [Finset.mul_sum]
  exact Finset.sum_congr rfl fun τ _ => mul_pow _ _ _

end FBE
