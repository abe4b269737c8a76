import Verif.Proofs.CgSolve
import Verif.Proofs.Example

/-!
# The iterative solver in the concrete case of `Proofs/Example.lean`

All systems are identity matrices, so that the first iteration gives the solution.
-/

set_option linter.unusedSectionVars false

namespace FBE

open Spec Matrix

local notation "conj" => starRingEnd ℂ

variable {B : Backend} {n c : ℕ}

theorem dft_delta {x : ℕ → ℝ} (hn : 0 < n) (hx : ∀ t, 0 < t → t < n → x t = 0) (k : ℕ) : dft n x k = x 0 := by
  unfold dft
  rw [Finset.sum_eq_single 0]
  · rw [tw_eq_pow]; simp
  · intro t ht h0
    rw [Finset.mem_range] at ht
    rw [hx t (by omega) ht]
    simp
  · intro h
    exact absurd (Finset.mem_range.2 hn) h

theorem circPrecond_one (hB : Covered B) {col : List ℝ} (hc : col.length = n) (hn : 0 < n)
    (hT : toeplitz B n col = 1) : circPrecond B n col = id := by
  have h0 : col.getD 0 0 = 1 := by
    have := toeplitz_apply hB hc ⟨0, hn⟩ ⟨0, hn⟩
    rw [hT] at this
    simpa using this.symm
  have h1 : ∀ t, 0 < t → t < n → col.getD t 0 = 0 := fun t ht htn => by
    have := toeplitz_apply hB hc ⟨0, hn⟩ ⟨t, htn⟩
    rw [hT, one_apply_ne (by intro h; simp at h; omega)] at this
    simpa using this.symm
  have hs : ∀ k, symSpec n col k = 1 := by
    intro k
    unfold symSpec
    rw [dft_delta hn _ k, symPrecondCol_zero hc hn, h0]
    · simp
    · intro t ht htn
      rw [symPrecondCol_get hc ht htn, h1 t ht htn, h1 (n - t) (by omega) (by omega)]
      simp
  funext v
  rw [circPrecond_eq hB]
  funext t
  show specMul n _ _ (t, ()) = v t
  unfold specMul
  rw [← inv_spec v t]
  congr 2
  refine Finset.sum_congr rfl fun k _ => ?_
  congr 1
  beta_reduce
  rw [hs k, hB.specInv]
  simp [mulVec, dotProduct, dftc]
  norm_num

theorem blockPrecond_one (hB : Covered B) (hn : 2 ≤ n) {acf : Fin c → Fin c → List ℝ}
    (hc : ∀ k l, (acf k l).length = n + n) (hT : lagMatrix n acf = 1) : blockPrecond B n acf = id := by
  have hnR : (n : ℝ) ≠ 0 := by
    have : n ≠ 0 := by omega
    exact_mod_cast this
  have hcol : ∀ a d, ∀ t < n, (nonsymPrecondCol B (acf a d)).getD t 0 = if t = 0 ∧ a = d then 1 else 0 := by
    intro a d t ht
    have h := nonsymPrecondCol_mean hB hn (hc a d) ht
    have e : ∀ j ∈ Finset.range n, lagAt (acf a d) ((j + t) % n) j = if t = 0 ∧ a = d then 1 else 0 := by
      intro j hj
      rw [Finset.mem_range] at hj
      have h1 : lagMatrix n acf (⟨(j + t) % n, Nat.mod_lt _ (by omega)⟩, a) (⟨j, hj⟩, d) =
        lagAt (acf a d) ((j + t) % n) j := rfl
      rw [← h1, hT, one_apply]
      refine if_congr ?_ rfl rfl
      rw [Prod.mk.injEq, Fin.mk.injEq]
      refine and_congr_left fun _ => ⟨fun h => ?_, fun h => by rw [h, Nat.add_zero, Nat.mod_eq_of_lt hj]⟩
      by_contra h0
      by_cases hjt : j + t < n
      · rw [Nat.mod_eq_of_lt hjt] at h; omega
      · rw [Nat.mod_eq_sub_mod (by omega), Nat.mod_eq_of_lt (by omega)] at h; omega
    rw [Finset.sum_congr rfl e, Finset.sum_const, Finset.card_range, nsmul_eq_mul] at h
    exact mul_left_cancel₀ hnR h
  have hs : ∀ k, blockSpec B n acf k = 1 := by
    intro k
    ext a d
    show dft n _ k = _
    rw [dft_delta (by omega) _ k, hcol a d 0 (by omega), one_apply]
    · by_cases h : a = d <;> simp [h]
    · intro t ht htn
      rw [hcol a d t htn, if_neg (by omega)]
  funext v
  rw [blockPrecond_eq hB hn hc]
  funext p
  obtain ⟨t, a⟩ := p
  show specMul n _ _ (t, a) = v (t, a)
  unfold specMul
  rw [← inv_spec (fun t => v (t, a)) t]
  congr 2
  refine Finset.sum_congr rfl fun k _ => ?_
  beta_reduce
  rw [hs k, inv_one, one_mulVec]
  rfl

theorem cgRun_zero {J : Type} [Fintype J] {A M : (J → ℝ) → (J → ℝ)} {b x0 : J → ℝ} {i : ℕ}
    (h : (cgRun A M b x0 i).r = 0 ∧ (cgRun A M b x0 i).rsold = 0) (k : ℕ) :
    (cgRun A M b x0 (i + k)).r = 0 ∧ (cgRun A M b x0 (i + k)).rsold = 0 := by
  induction k with
  | zero => exact h
  | succ k ih =>
    rw [← Nat.add_assoc, cgRun_succ, cgBody_eq]
    simp [ih.1, ih.2]

/-- The identity: one iteration. -/
theorem cgQuiet_one {J : Type} [Fintype J] {b : J → ℝ} (hb : 1e-6 ≤ b ⬝ᵥ b) (n : ℕ) :
    CgQuiet (id : (J → ℝ) → (J → ℝ)) id b (fun _ => 0) n := by
  have hsub : b - (fun _ => 0 : J → ℝ) = b := by funext i; simp
  have h1 : (cgRun (id : (J → ℝ) → (J → ℝ)) id b (fun _ => 0) 1).r = 0 ∧
      (cgRun (id : (J → ℝ) → (J → ℝ)) id b (fun _ => 0) 1).rsold = 0 := by
    rw [cgRun_succ, cgBody_eq]
    have h0 : cgRun (id : (J → ℝ) → (J → ℝ)) id b (fun _ => 0) 0 = ⟨fun _ => 0, b, b, b ⬝ᵥ b⟩ := by
      show cgInit _ _ _ _ = _
      unfold cgInit
      simp only [id, hsub]
      rfl
    rw [h0]
    simp only [id]
    have hpos : b ⬝ᵥ b ≠ 0 := by
      intro h0
      rw [h0] at hb
      norm_num at hb
    rw [max_eq_left hb, div_self hpos]
    simp
  intro i _
  rcases Nat.eq_zero_or_pos i with rfl | hi
  · refine Or.inr ⟨?_, ?_⟩
    · show 1e-6 ≤ (b - fun _ => 0) ⬝ᵥ (b - fun _ => 0)
      rw [hsub]; exact hb
    · show 1e-6 ≤ (b - fun _ => 0) ⬝ᵥ (b - fun _ => 0)
      rw [hsub]; exact hb
  · obtain ⟨k, rfl⟩ := Nat.exists_eq_add_of_le hi
    exact Or.inl (cgRun_zero h1 k).1

/-- A start at the solution. -/
theorem cgQuiet_solved {J : Type} [Fintype J] {A M : (J → ℝ) → (J → ℝ)} {b x0 : J → ℝ}
    (h : A x0 = b) (n : ℕ) : CgQuiet A M b x0 n := by
  intro i _
  have h0 : (cgRun A M b x0 0).r = 0 := by
    show b - A x0 = 0
    rw [h, sub_self]
  have h0' : (cgRun A M b x0 0).rsold = 0 := by
    show (b - A x0) ⬝ᵥ M (b - A x0) = 0
    rw [h, sub_self, zero_dotProduct]
  have := (cgRun_zero ⟨h0, h0'⟩ i).1
  rw [Nat.zero_add] at this
  exact Or.inl this

namespace Ex

theorem nFft_three : nFft 3 = .ok 8 := by
  have : (2 : ℕ) ^ Nat.clog 2 (3 + 3 - 1) = 8 := by decide
  simp only [nFft_def]
  rw [if_neg (by norm_num), this]

theorem fam8 : Fam 3 3 2 8 (fun x i => shift 4 x i) (fun y => shift 4 y 0) :=
  fam_fits (L := 2) (by norm_num) nFft_three fits (by norm_num)

theorem prep_ref (m : BIdx []) (k : Fin 2) : prep opts ref m k = ref m k := by
  rw [prep_eq]
  have hc : centred opts.zeroMean (ref m k) = ref m k := cen_eq ref m k
  rw [hc]
  have : gain (ref m k) = 1 := by
    unfold gain sigNorm
    have : ∑ t, ref m k t ^ 2 = 1 := by
      fin_cases k <;> simp [ref, Fin.sum_univ_three]
    rw [this]
    norm_num
  rw [this]
  funext t
  rw [one_mul]

theorem gram_all (m : BIdx []) : gramD (allFam (fun x i => shift 4 x i) 2 (prep opts ref m)) opts.load = 1 := by
  ext p q
  unfold gramD
  rw [Matrix.add_apply, Matrix.smul_apply, gram_apply]
  unfold allFam
  rw [prep_ref, prep_ref, load]
  rw [PiLp.inner_apply]
  obtain ⟨i, a⟩ := p
  obtain ⟨j, b⟩ := q
  simp only [shift_apply]
  fin_cases i <;> fin_cases a <;> fin_cases j <;> fin_cases b <;>
    simp [Fin.sum_univ_four, zpad, ref, one_apply]

theorem gram_one (m : BIdx []) (k : Fin 2) :
    gramD (refFam (fun x i => shift 4 x i) 2 (prep opts ref m k)) opts.load = 1 := by
  ext i j
  have := congrFun (congrFun (gram_all m) (i, k)) (j, k)
  unfold gramD at this ⊢
  rw [Matrix.add_apply, Matrix.smul_apply, gram_apply, one_apply] at this ⊢
  simp only [Prod.mk.injEq, and_true] at this ⊢
  exact this

theorem toeplitz_one (m : BIdx []) (k : Fin 2) : toeplitz torchBackend 2 (sdrAcf opts 8 ref m k) = 1 := by
  rw [toeplitz_sdrAcf fam8 (by rfl) (by decide) covered, gram_one]

theorem coeffs_fifth (m : BIdx []) (k j : Fin 2) :
    1 / 5 ≤ vec 2 (sdrXcorr opts 8 ref est m k j) ⬝ᵥ vec 2 (sdrXcorr opts 8 ref est m k j) := by
  rw [vec_sdrXcorr fam8 (by rfl) (by decide)]
  have h5 : gain (centred opts.zeroMean (est m j)) ^ 2 = 1 / 5 := by
    have hc : centred opts.zeroMean (est m j) = est m j := cen_eq est m j
    rw [hc]
    have : ∑ t, est m j t ^ 2 = 5 := by
      fin_cases j <;> simp [est, Fin.sum_univ_three] <;> norm_num
    unfold gain sigNorm
    rw [this, max_eq_left, inv_pow, Real.sq_sqrt (by norm_num)]
    · norm_num
    · have : (1 : ℝ) ≤ Real.sqrt 5 := Real.one_le_sqrt.2 (by norm_num)
      linarith
  have hb0 : coeffs (refFam (fun x i => shift 4 x i) 2 (prep opts ref m k)) (shift 4 (prep opts est m j) 0) 0 =
      gain (centred opts.zeroMean (est m j)) * dot (ref m k) (est m j) := by
    show inner ℝ (shift 4 (prep opts ref m k) 0) (shift 4 (prep opts est m j) 0) = _
    rw [inner_shift_zero 4 (by norm_num), prep_ref, prep_eq]
    have hc : centred opts.zeroMean (est m j) = est m j := cen_eq est m j
    rw [hc]
    unfold dot
    rw [Finset.mul_sum]
    exact Finset.sum_congr rfl fun t _ => by ring
  have hge : 1 ≤ dot (ref m k) (est m j) ^ 2 := by
    unfold dot
    fin_cases k <;> fin_cases j <;> simp [ref, est, Fin.sum_univ_three]
  rw [dotProduct, Fin.sum_univ_two, hb0]
  nlinarith [mul_self_nonneg (coeffs (refFam (fun x i => shift 4 x i) 2 (prep opts ref m k)) (shift 4 (prep opts est m j) 0) 1),
    mul_pow (gain (centred opts.zeroMean (est m j))) (dot (ref m k) (est m j)) 2]

theorem coeffs_large (m : BIdx []) (k j : Fin 2) :
    1e-6 ≤ vec 2 (sdrXcorr opts 8 ref est m k j) ⬝ᵥ vec 2 (sdrXcorr opts 8 ref est m k j) :=
  le_trans (by norm_num) (coeffs_fifth m k j)

theorem acf_length (m : BIdx []) (k : Fin 2) : (sdrAcf opts 8 ref m k).length = 2 :=
  length_sdrAcf fam8 (by rfl) (by decide) ref m k

theorem op_one (m : BIdx []) (k : Fin 2) : symToeplitzOp torchBackend 2 (sdrAcf opts 8 ref m k) = id := by
  funext v
  rw [symToeplitzOp_eq covered (acf_length m k) (by norm_num), toeplitz_one, one_mulVec]
  rfl

theorem precond_one (m : BIdx []) (k : Fin 2) : circPrecond torchBackend 2 (sdrAcf opts 8 ref m k) = id :=
  circPrecond_one covered (acf_length m k) (by norm_num) (toeplitz_one m k)

theorem sdrQuiet (n : ℕ) : SdrQuiet torchBackend opts ref est n := by
  intro f hf m k j
  have : f = 8 := by
    rw [nFft_three] at hf
    exact (Except.ok.inj hf).symm
  subst this
  have e1 := op_one m k
  have e2 := precond_one m k
  have e3 := coeffs_large m k j
  show CgQuiet (symToeplitzOp torchBackend 2 (sdrAcf opts 8 ref m k)) (circPrecond torchBackend 2 (sdrAcf opts 8 ref m k)) _ _ n
  rw [e1, e2]
  exact cgQuiet_one e3 n

theorem block_one (m : BIdx []) : lagMatrix 2 (bssAcf opts 8 ref m) = 1 := by
  have h1 := blockToeplitz_bssAcf (B := torchBackend) (s := []) (r := 2) (o := opts) fam8 (by rfl) (by decide) (by decide) ref
  rw [blockToeplitz_ok (by norm_num) _ (fun m k l => by rw [length_bssAcf fam8 (by rfl) (by decide)]; norm_num)] at h1
  have h2 := congrFun (Except.ok.inj h1) m
  exact h2.trans (gram_all m)

theorem block_length (m : BIdx []) (k l : Fin 2) : (bssAcf opts 8 ref m k l).length = 2 + 2 :=
  length_bssAcf fam8 (by rfl) (by decide) ref m k l

theorem blockOp_one (m : BIdx []) : blockToeplitzOp torchBackend 2 (bssAcf opts 8 ref m) = id := by
  funext v
  rw [blockToeplitzOp_eq covered le_rfl (block_length m), block_one, one_mulVec]
  rfl

theorem blockPrecond_id (m : BIdx []) : blockPrecond torchBackend 2 (bssAcf opts 8 ref m) = id :=
  blockPrecond_one covered le_rfl (block_length m) (block_one m)

theorem sarQuiet (n : ℕ) : SarQuiet torchBackend opts ref est (fun _ _ _ _ => 0) n := by
  intro f hf m j
  have : f = 8 := by
    rw [nFft_three] at hf
    exact (Except.ok.inj hf).symm
  subst this
  have e1 := blockOp_one m
  have e2 := blockPrecond_id m
  show CgQuiet (blockToeplitzOp torchBackend 2 (bssAcf opts 8 ref m)) (blockPrecond torchBackend 2 (bssAcf opts 8 ref m))
    (xcorrFlat opts 8 2 ref est m j) _ n
  rw [e1, e2]
  refine cgQuiet_one ?_ n
  have h := coeffs_large m 0 j
  unfold dotProduct at h ⊢
  rw [Fintype.sum_prod_type, Finset.sum_comm, Fin.sum_univ_two]
  refine le_trans h (le_add_of_nonneg_right (Finset.sum_nonneg fun _ _ => mul_self_nonneg _))

/-- The start used by the pairwise metrics is already the solution. -/
theorem sarQuiet' {n : ℕ} (hn : 2 ≤ n) : SarQuiet torchBackend opts ref est
    (fun f m j p => toeplitzCg torchBackend (min opts.filterLength f) (sdrAcf opts f ref m p.2)
      (vec (min opts.filterLength f) (sdrXcorr opts f ref est m p.2 j)) n p.1) n := by
  intro f hf m j
  have : f = 8 := by
    rw [nFft_three] at hf
    exact (Except.ok.inj hf).symm
  subst this
  refine cgQuiet_solved ?_ n
  show blockToeplitzOp torchBackend 2 (bssAcf opts 8 ref m) _ = _
  rw [blockOp_one m]
  funext p
  obtain ⟨i, k⟩ := p
  have h := toeplitzCg_exact (b := vec 2 (sdrXcorr opts 8 ref est m k j)) covered (acf_length m k) (by norm_num) (by rw [toeplitz_one]; exact PosDef.one)
    hn (sdrQuiet n 8 nFft_three m k j)
  rw [toeplitz_one, inv_one, one_mulVec] at h
  exact congrFun h i

/-- A positive definite autocorrelation. -/
theorem toeplitz_two : toeplitz torchBackend 2 [2, 1] = !![2, 1; 1, 2] := by
  ext i j
  rw [toeplitz_apply covered (show [(2 : ℝ), 1].length = 2 from rfl)]
  fin_cases i <;> fin_cases j <;> simp

theorem posDef_two : (toeplitz torchBackend 2 [2, 1]).PosDef := by
  rw [toeplitz_two]
  refine posDef_iff_dotProduct_mulVec.2 ⟨?_, ?_⟩
  · ext i j
    fin_cases i <;> fin_cases j <;> simp
  · intro v hv
    have : v 0 ≠ 0 ∨ v 1 ≠ 0 := by
      by_contra h
      push Not at h
      refine hv (funext fun i => ?_)
      fin_cases i
      · exact h.1
      · exact h.2
    simp [mulVec, dotProduct, Fin.sum_univ_two]
    rcases this with h | h <;> nlinarith [sq_nonneg (v 0 + v 1), sq_pos_of_ne_zero h, sq_nonneg (v 0), sq_nonneg (v 1)]

/-- Correlations of two channels with lags `0, 1` and `-2, -1`. -/
noncomputable def acf2 : Unit → Fin 2 → Fin 2 → List ℝ := fun _ => ![![[1, 0, 0, 0], [0, 1 / 4, 0, 0]], ![[0, 0, 0, 1 / 4], [1, 0, 0, 0]]]

theorem acf2_length (i : Unit) (k l : Fin 2) : (acf2 i k l).length = 2 + 2 := by
  fin_cases k <;> fin_cases l <;> rfl

theorem blockToeplitz_acf2 : ∃ R, blockToeplitz torchBackend 2 acf2 = .ok R ∧ ∀ i, (R i).PosDef := by
  refine ⟨fun i => lagMatrix 2 (acf2 i), blockToeplitz_ok le_rfl acf2 (fun i k l => by rw [acf2_length]; norm_num),
    fun i => posDef_iff_dotProduct_mulVec.2 ⟨?_, ?_⟩⟩
  · ext p q
    show star (lagMatrix 2 (acf2 i) q p) = _
    unfold lagMatrix
    obtain ⟨a, k⟩ := p
    obtain ⟨b, l⟩ := q
    fin_cases a <;> fin_cases k <;> fin_cases b <;> fin_cases l <;> simp [lagAt, acf2]
  · intro v hv
    have e : star v ⬝ᵥ (lagMatrix 2 (acf2 i) *ᵥ v) =
        v (0, 0) ^ 2 + v (0, 1) ^ 2 + v (1, 0) ^ 2 + v (1, 1) ^ 2 + 1 / 2 * (v (0, 0) * v (1, 1)) := by
      unfold lagMatrix
      simp [mulVec, dotProduct, Fintype.sum_prod_type, Fin.sum_univ_two, lagAt, acf2]
      ring
    rw [e]
    by_contra hle
    push Not at hle
    refine hv (funext fun p => ?_)
    have h1 : v (0, 0) ^ 2 ≤ 0 := by nlinarith [sq_nonneg (v (0, 0) + v (1, 1)), sq_nonneg (v (0, 1)), sq_nonneg (v (1, 0)), sq_nonneg (v (1, 1))]
    have h2 : v (0, 1) ^ 2 ≤ 0 := by nlinarith [sq_nonneg (v (0, 0) + v (1, 1)), sq_nonneg (v (0, 0)), sq_nonneg (v (1, 0)), sq_nonneg (v (1, 1))]
    have h3 : v (1, 0) ^ 2 ≤ 0 := by nlinarith [sq_nonneg (v (0, 0) + v (1, 1)), sq_nonneg (v (0, 1)), sq_nonneg (v (0, 0)), sq_nonneg (v (1, 1))]
    have h4 : v (1, 1) ^ 2 ≤ 0 := by nlinarith [sq_nonneg (v (0, 0) + v (1, 1)), sq_nonneg (v (0, 1)), sq_nonneg (v (1, 0)), sq_nonneg (v (0, 0))]
    have z : ∀ a : ℝ, a ^ 2 ≤ 0 → a = 0 := fun a h => by
      have := le_antisymm h (sq_nonneg a)
      exact pow_eq_zero_iff two_ne_zero |>.1 this
    obtain ⟨a, k⟩ := p
    fin_cases a <;> fin_cases k
    · exact z _ h1
    · exact z _ h2
    · exact z _ h3
    · exact z _ h4

end Ex

end FBE
