import Verif.Proofs.Special

/-!
# Special samples: the coherences
-/

namespace FBE.Special

open Classical XR Matrix Spec

variable {s : List ℕ} {r e c N M n : ℕ} {B : Backend} {o : Opts}

theorem prepX_eq {Ω : ℝ} (hΩ : 0 ≤ Ω) {x : XSig s c N} {v : Sig s c N} (h : ∀ m k, StandsFor Ω o.zeroMean (x m k) (v m k)) :
    prepX Ω o x = fun m k => mask (FiniteSamples (x m k)) (prep o v m k) := by
  funext m k
  exact allSome_preprocessX hΩ (h m k)

variable {p : BIdx s → Fin r → Prop} {pe : BIdx s → Fin e → Prop} {ref : Sig s r N} {est : Sig s e M}

theorem sdrAcfX_mask : sdrAcfX o n (fun m k => mask (p m k) (prep o ref m k)) = fun m k => mask (p m k) (sdrAcf o n ref m k) := by
  funext m k
  exact map_mask _ _ _

theorem sdrXcorrX_mask {K : ℕ} : sdrXcorrX o n K (fun m k => mask (p m k) (prep o ref m k)) (fun m k => mask (pe m k) (prep o est m k)) =
    fun m k j => mask (p m k ∧ pe m j) (vec K (sdrXcorr o n ref est m k j)) := by
  funext m k j
  exact map₂_mask _ _ _ _ _

theorem sdrCohPairGenX_mask {coh} (h : sdrCohPairGen B o ref est = .ok coh) :
    sdrCohPairGenX B o (fun m k => mask (p m k) (prep o ref m k)) (fun m k => mask (pe m k) (prep o est m k)) =
      .ok fun m k j => mask (p m k ∧ pe m j) (coh m k j) := by
  unfold sdrCohPairGen at h
  unfold sdrCohPairGenX
  cases hn : nFft N M with
  | error err => rw [hn] at h; cases h
  | ok n =>
    rw [hn] at h
    simp only [sdrAcfX_mask, sdrXcorrX_mask, map_mask, map₂_mask] at h ⊢
    cases hcg : o.useCgIter with
    | none =>
      rw [hcg] at h
      simp only at h ⊢
      cases hs : solveStack (fun i : BIdx s × Fin r => toeplitz B (min o.filterLength n) (sdrAcf o n ref i.1 i.2))
        (fun i (j : Fin e) => vec (min o.filterLength n) (sdrXcorr o n ref est i.1 i.2 j)) with
      | error err => rw [hs] at h; cases h
      | ok sol =>
        rw [hs] at h
        cases h
        rw [solveX_mask hs (by simp)]
        simp only [dotX_mask]
        congr 1
        funext m k j
        exact mask_congr (by tauto) _
    | some it =>
      rw [hcg] at h
      cases h
      simp only [dotX_mask]
      congr 1
      funext m k j
      exact mask_congr (by tauto) _

theorem dotOneX_mask (h : M = N) (P Q : Prop) (v : Fin N → ℝ) (w : Fin M → ℝ) :
    dotOneX h (mask P v) (mask Q w) = mask (P ∧ Q) (dot v fun t => w (Fin.cast h.symm t)) := map₂_mask _ _ _ _ _

/-- `sdr_loss` with `pairwise=True`. -/
theorem sdrCohPairX_eq {Ω : ℝ} (hΩ : 0 ≤ Ω) {rx : XSig s r N} {ex : XSig s e M}
    (hr : ∀ m k, StandsFor Ω o.zeroMean (rx m k) (ref m k)) (he : ∀ m j, StandsFor Ω o.zeroMean (ex m j) (est m j))
    {coh} (h : sdrCohPair B o ref est = .ok coh) :
    sdrCohPairX Ω B o rx ex = .ok fun m k j => mask (FiniteSamples (rx m k) ∧ FiniteSamples (ex m j)) (coh m k j) := by
  unfold sdrCohPair at h
  unfold sdrCohPairX
  rw [prepX_eq hΩ hr, prepX_eq hΩ he]
  by_cases h0 : o.filterLength = 0
  · rw [if_pos h0] at h; cases h
  rw [if_neg h0] at h ⊢
  by_cases h1 : o.filterLength = 1
  · rw [if_pos h1] at h ⊢
    unfold sameLength at h
    by_cases hMN : M = N
    · subst hMN
      rw [dif_pos rfl] at h
      cases h
      rw [dif_pos rfl]
      simp only [dotOneX_mask, map_mask]
      rfl
    · rw [dif_neg hMN] at h
      split at h <;> cases h
  · rw [if_neg h1] at h ⊢
    exact sdrCohPairGenX_mask h

section diag

variable {p : BIdx s → Fin c → Prop} {pe : BIdx s → Fin c → Prop} {ref : Sig s c N} {est : Sig s c M}

theorem solveVecs_ok {ι : Type} {A : ι → Matrix (Fin n) (Fin n) ℝ} {b : ι → Fin n → ℝ} {sol} (h : solveVecs B c A b = .ok sol) :
    B.stackedVectors = true ∧ solveStack A (fun i (_ : Unit) => b i) = .ok fun i _ => sol i := by
  unfold solveVecs at h
  split at h
  · rename_i hB
    refine ⟨hB, ?_⟩
    split at h
    · cases h
    · rename_i sol' hs
      cases h
      rw [hs]
  · split at h <;> cases h

theorem sdrCohDiagGenX_mask {coh} (h : sdrCohDiagGen B o ref est = .ok coh) :
    sdrCohDiagGenX B o (fun m k => mask (p m k) (prep o ref m k)) (fun m k => mask (pe m k) (prep o est m k)) =
      .ok fun m k => mask (p m k ∧ pe m k) (coh m k) := by
  unfold sdrCohDiagGen at h
  unfold sdrCohDiagGenX
  cases hn : nFft N M with
  | error err => rw [hn] at h; cases h
  | ok n =>
    rw [hn] at h
    simp only [sdrAcfX_mask, sdrXcorrX_mask, map_mask, map₂_mask] at h ⊢
    cases hcg : o.useCgIter with
    | none =>
      rw [hcg] at h
      simp only at h ⊢
      cases hs : solveVecs B c (fun i : BIdx s × Fin c => toeplitz B (min o.filterLength n) (sdrAcf o n ref i.1 i.2))
        (fun i => vec (min o.filterLength n) (sdrXcorr o n ref est i.1 i.2 i.2)) with
      | error err => rw [hs] at h; cases h
      | ok sol =>
        rw [hs] at h
        cases h
        obtain ⟨hB, hs⟩ := solveVecs_ok hs
        rw [if_pos hB, solveX_mask hs (by simp)]
        simp only [dotX_mask]
        congr 1
        funext m k
        exact mask_congr (by tauto) _
    | some it =>
      rw [hcg] at h
      cases h
      simp only [dotX_mask]
      congr 1
      funext m k
      exact mask_congr (by tauto) _

/-- `sdr_loss` with `pairwise=False`. -/
theorem sdrCohDiagX_eq {Ω : ℝ} (hΩ : 0 ≤ Ω) {rx : XSig s c N} {ex : XSig s c M}
    (hr : ∀ m k, StandsFor Ω o.zeroMean (rx m k) (ref m k)) (he : ∀ m j, StandsFor Ω o.zeroMean (ex m j) (est m j))
    {coh} (h : sdrCohDiag B o ref est = .ok coh) :
    sdrCohDiagX Ω B o rx ex = .ok fun m k => mask (FiniteSamples (rx m k) ∧ FiniteSamples (ex m k)) (coh m k) := by
  unfold sdrCohDiag at h
  unfold sdrCohDiagX
  rw [prepX_eq hΩ hr, prepX_eq hΩ he]
  by_cases h0 : o.filterLength = 0
  · rw [if_pos h0] at h; cases h
  rw [if_neg h0] at h ⊢
  by_cases h1 : o.filterLength = 1
  · rw [if_pos h1] at h ⊢
    unfold sameLength at h
    by_cases hMN : M = N
    · subst hMN
      rw [dif_pos rfl] at h
      cases h
      rw [dif_pos rfl]
      simp only [dotOneX_mask, map_mask]
      rfl
    · rw [dif_neg hMN] at h
      split at h <;> cases h
  · rw [if_neg h1] at h ⊢
    exact sdrCohDiagGenX_mask h

end diag

/-! ### `bss_eval_sources` -/

theorem bssAcfSdrX_mask (m : BIdx s) (k : Fin r) :
    bssAcfSdrX o n (mask (p m k) (prep o ref m k)) = mask (p m k) (bssAcfSdr o n ref m k) := by
  unfold bssAcfSdrX
  rw [map_mask]
  unfold bssAcfSdr bssAcf
  simp only [if_true]

theorem addHead_length (d : Option ℝ) (l : List ℝ) : (addHead d l).length = l.length := by
  cases d <;> cases l <;> rfl

theorem bssAcfX_length (x x' : Fin r → Fin N → ℝ) (k l : Fin r) :
    (bssAcfX o n x k l).length = (bssAcfX o n x' k l).length := by
  have key : ∀ v w v' w' : Fin N → ℝ, (acf2 n o.filterLength (List.ofFn v) (List.ofFn w)).length =
      (acf2 n o.filterLength (List.ofFn v') (List.ofFn w')).length := by
    intro v w v' w'
    have hi : ∀ X : List ℂ, (irfft n X).length = n := by intro X; unfold irfft; simp
    unfold acf2
    simp only [List.length_append]
    congr 1
    · unfold pySlice
      simp only [hi, List.length_take, List.length_drop]
    · unfold pySlice
      simp only [hi, List.length_take, List.length_drop]
  unfold bssAcfX
  simp only
  split
  · rw [addHead_length, addHead_length]
    exact key _ _ _ _
  · exact key _ _ _ _

theorem blockVec_length {x x' : List ℝ} (h : x.length = x'.length) : (blockVec n x).length = (blockVec n x').length := by
  unfold blockVec pySlice
  simp [h]

theorem blockToeplitz_size {K : ℕ} {R} (h : blockToeplitz B K (bssAcf o n ref) = .ok R) :
    (∃ R', blockToeplitz B K (fun (_ : BIdx s) => bssAcfX (r := r) (N := N) o n fun _ _ => 0) = .ok R') ∧
      R = fun m => blockMat K (bssAcf o n ref m) := by
  unfold blockToeplitz at h ⊢
  split at h
  · cases h
  · rename_i hs
    cases h
    refine ⟨?_, rfl⟩
    rw [if_neg]
    · exact ⟨_, rfl⟩
    · rintro ⟨m, k, l, hkl⟩
      refine hs ⟨m, k, l, ?_⟩
      intro hc
      refine hkl ?_
      rw [← hc]
      unfold hankelCols
      rw [blockVec_length (x' := bssAcf o n ref m k l) (bssAcfX_length _ _ k l)]

theorem cohSarX_mask {q : Bool} {K : ℕ} {px : BIdx s → Fin e → Fin r → Prop} {x0 : BIdx s → Fin e → Fin r → Fin K → ℝ} {sar}
    (hpx : ∀ m j k, p m k ∧ pe m j → px m j k)
    (h : cohSar B o n K ref est (fun m j p => x0 m j p.2 p.1) = .ok sar) (hq : q = true → ∀ m k, p m k) :
    cohSarX q B o n K (fun m k => mask (p m k) (prep o ref m k)) (fun m k => mask (pe m k) (prep o est m k))
        (fun m j k => mask (px m j k) (x0 m j k)) =
      .ok fun m j => mask (∀ k, p m k ∧ pe m j) (sar m j) := by
  unfold cohSar at h
  unfold cohSarX
  simp only [sdrXcorrX_mask, allSome_mask, map_mask, map₂_mask] at h ⊢
  have hacf : ∀ m, bssAcfX o n (fun k => prep o ref m k) = bssAcf o n ref m := fun m => rfl
  cases hcg : o.useCgIter with
  | none =>
    rw [hcg] at h
    simp only at h ⊢
    cases hb : blockToeplitz B K (bssAcf o n ref) with
    | error err => rw [hb] at h; cases h
    | ok R =>
      rw [hb] at h
      obtain ⟨⟨R', hR'⟩, rfl⟩ := blockToeplitz_size hb
      rw [hR']
      simp only at h ⊢
      cases hs : solveStack (fun m => blockMat K (bssAcf o n ref m)) (xcorrFlat o n K ref est) with
      | error err => rw [hs] at h; cases h
      | ok sol =>
        rw [hs] at h
        cases h
        have := solveX_mask (q := q) (p := fun m => ∀ k, p m k) (pb := fun m j => ∀ k, p m k ∧ pe m j) hs
          fun hq' m => hq hq' m
        simp only [hacf]
        unfold xcorrFlat at this
        rw [this]
        simp only
        congr 1
        funext m j
        refine (dotX_mask _ _ _ _).trans (mask_congr ⟨fun h => h.1, fun h => ⟨h, fun k => (h k).1, h⟩⟩ _)
  | some it =>
    rw [hcg] at h
    simp only at h ⊢
    unfold blockCg at h
    split at h
    · cases h
    · rename_i sol hs
      cases h
      split at hs
      · cases hs
      · rename_i hdet
        cases hs
        rw [if_neg]
        · simp only
          congr 1
          funext m j
          by_cases hm : ∀ k, p m k
          · rw [mask_pos hm]
            exact (dotX_mask _ _ _ _).trans (mask_congr ⟨fun h => h.1, fun h => ⟨h, h, fun k => hpx _ _ _ (h k)⟩⟩ _)
          · rw [mask_neg hm]
            rw [mask_neg (p := ∀ k, p m k ∧ pe m j) fun h => hm fun k => (h k).1]
            rw [mask_neg (p := ∀ k, p m k ∧ pe m j) fun h => hm fun k => (h k).1]
            rfl
        · rintro (⟨m, a, ha, f, hf, hd⟩ | ⟨hq', m, hm⟩)
          · by_cases hm : ∀ k, p m k
            · rw [mask_pos hm] at ha
              cases ha
              exact hdet ⟨m, f, hf, hd⟩
            · rw [mask_neg hm] at ha
              cases ha
          · rw [mask_pos (hq hq' m)] at hm
            cases hm

theorem cohSarOneX_mask {q : Bool} {est : Sig s e N} {sar} (h : cohSarOne o ref est = .ok sar) (hq : q = true → ∀ m k, p m k) :
    cohSarOneX q o rfl (fun m k => mask (p m k) (prep o ref m k)) (fun m k => mask (pe m k) (prep o est m k)) =
      .ok fun m j => mask (∀ k, p m k ∧ pe m j) (sar m j) := by
  unfold cohSarOne at h
  unfold cohSarOneX
  simp only [dotOneX_mask, allSome_mask, map_mask] at h ⊢
  cases hld : o.loadDiag with
  | none =>
    rw [hld] at h
    simp only at h ⊢
    split at h
    · cases h
    · rename_i sol hs
      cases h
      have hx := solveX_mask (q := q) (p := fun m => ∀ k, p m k) (pb := fun m j => ∀ k, p m k ∧ pe m j) hs
        fun hq' m => hq hq' m
      split
      · rename_i hx'
        cases hx.symm.trans hx'
      · rename_i hx'
        cases hx.symm.trans hx'
        congr 1
        funext m j
        exact (dotX_mask _ _ _ _).trans (mask_congr ⟨fun h => h.1, fun h => ⟨h, fun k => (h k).1, h⟩⟩ _)
  | some d =>
    rw [hld] at h
    simp only at h ⊢
    split at h
    · cases h
    · rename_i sol hs
      cases h
      have hx := solveX_mask (q := q) (p := fun m => ∀ k, p m k) (pb := fun m j => ∀ k, p m k ∧ pe m j) hs
        fun hq' m => hq hq' m
      split
      · rename_i hx'
        cases hx.symm.trans hx'
      · rename_i hx'
        cases hx.symm.trans hx'
        congr 1
        funext m j
        exact (dotX_mask _ _ _ _).trans (mask_congr ⟨fun h => h.1, fun h => ⟨h, fun k => (h k).1, h⟩⟩ _)

theorem sqCosPairGenX_mask {q : Bool} {sd sar} (h : sqCosPairGen B o ref est = .ok (sd, sar)) (hq : q = true → ∀ m k, p m k) :
    sqCosPairGenX q B o (fun m k => mask (p m k) (prep o ref m k)) (fun m k => mask (pe m k) (prep o est m k)) =
      .ok (fun m k j => mask (p m k ∧ pe m j) (sd m k j), fun m j => mask (∀ k, p m k ∧ pe m j) (sar m j)) := by
  unfold sqCosPairGen at h
  unfold sqCosPairGenX
  cases hn : nFft N M with
  | error err => rw [hn] at h; cases h
  | ok n =>
    rw [hn] at h
    simp only [bssAcfSdrX_mask, sdrXcorrX_mask, map_mask, map₂_mask] at h ⊢
    split at h
    · cases h
    rename_i hK
    rw [if_neg hK]
    cases hcg : o.useCgIter with
    | none =>
      rw [hcg] at h
      simp only at h ⊢
      cases hs : solveStack (fun i : BIdx s × Fin r => toeplitz B (min o.filterLength n) (bssAcfSdr o n ref i.1 i.2))
        (fun i (j : Fin e) => vec (min o.filterLength n) (sdrXcorr o n ref est i.1 i.2 j)) with
      | error err => rw [hs] at h; cases h
      | ok sol =>
        rw [hs] at h
        simp only at h
        split at h
        · cases h
        rename_i sar' hsar
        obtain ⟨rfl, rfl⟩ := Prod.mk.inj (Except.ok.inj h)
        rw [solveX_mask hs (by simp)]
        simp only [dotX_mask]
        rw [cohSarX_mask (px := fun m j k => p m k ∧ p m k ∧ pe m j) (x0 := fun m j k => sol (m, k) j)
          (fun m j k h => ⟨h.1, h⟩) hsar hq]
        simp only
        congr 2
        funext m k j
        exact mask_congr (by tauto) _
    | some it =>
      rw [hcg] at h
      simp only at h ⊢
      split at h
      · cases h
      rename_i sar' hsar
      obtain ⟨rfl, rfl⟩ := Prod.mk.inj (Except.ok.inj h)
      simp only [dotX_mask]
      rw [cohSarX_mask (px := fun m j k => p m k ∧ p m k ∧ pe m j)
        (x0 := fun m j k => toeplitzCg B (min o.filterLength n) (bssAcfSdr o n ref m k)
          (vec (min o.filterLength n) (sdrXcorr o n ref est m k j)) it)
        (fun m j k h => ⟨h.1, h⟩) hsar hq]
      simp only
      congr 2
      funext m k j
      exact mask_congr (by tauto) _

/-- `square_cosine_metrics` with `pairwise=True`. -/
theorem sqCosPairX_eq {Ω : ℝ} (hΩ : 0 ≤ Ω) {q : Bool} {rx : XSig s r N} {ex : XSig s e M}
    (hr : ∀ m k, StandsFor Ω o.zeroMean (rx m k) (ref m k)) (he : ∀ m j, StandsFor Ω o.zeroMean (ex m j) (est m j))
    {sd sar} (h : sqCosPair B o ref est = .ok (sd, sar)) (hq : q = true → ∀ m k, FiniteSamples (rx m k)) :
    sqCosPairX Ω q B o rx ex = .ok (fun m k j => mask (FiniteSamples (rx m k) ∧ FiniteSamples (ex m j)) (sd m k j),
      fun m j => mask (∀ k, FiniteSamples (rx m k) ∧ FiniteSamples (ex m j)) (sar m j)) := by
  unfold sqCosPair at h
  unfold sqCosPairX
  rw [prepX_eq hΩ hr, prepX_eq hΩ he]
  by_cases h0 : o.filterLength = 0
  · rw [if_pos h0] at h; cases h
  rw [if_neg h0] at h ⊢
  by_cases h1 : o.filterLength = 1
  · rw [if_pos h1] at h ⊢
    unfold sameLength at h
    by_cases hMN : M = N
    · subst hMN
      rw [dif_pos rfl] at h
      rw [dif_pos rfl]
      simp only at h ⊢
      split at h
      · cases h
      rename_i sar' hsar
      obtain ⟨rfl, rfl⟩ := Prod.mk.inj (Except.ok.inj h)
      rw [cohSarOneX_mask (est := est) hsar hq]
      simp only [dotOneX_mask, map_mask]
      rfl
    · rw [dif_neg hMN] at h
      split at h <;> rename_i hsl <;> split at hsl <;> cases hsl <;> cases h
  · rw [if_neg h1] at h ⊢
    exact sqCosPairGenX_mask h hq

section diag

variable {p : BIdx s → Fin c → Prop} {pe : BIdx s → Fin c → Prop} {ref : Sig s c N} {est : Sig s c M}

theorem sqCosDiagGenX_mask {q : Bool} {sd sar} (h : sqCosDiagGen B o ref est = .ok (sd, sar)) (hq : q = true → ∀ m k, p m k) :
    sqCosDiagGenX q B o (fun m k => mask (p m k) (prep o ref m k)) (fun m k => mask (pe m k) (prep o est m k)) =
      .ok (fun m k => mask (p m k ∧ pe m k) (sd m k), fun m j => mask (∀ k, p m k ∧ pe m j) (sar m j)) := by
  unfold sqCosDiagGen at h
  unfold sqCosDiagGenX
  cases hn : nFft N M with
  | error err => rw [hn] at h; cases h
  | ok n =>
    rw [hn] at h
    simp only [bssAcfSdrX_mask, sdrXcorrX_mask, map_mask, map₂_mask] at h ⊢
    split at h
    · cases h
    rename_i hK
    rw [if_neg hK]
    have h0 : (fun (_ : BIdx s) (_ _ : Fin c) => some (0 : Fin (min o.filterLength n) → ℝ)) =
        fun _ _ _ => mask True (0 : Fin (min o.filterLength n) → ℝ) := by
      funext _ _ _
      rw [mask_pos trivial]
    cases hcg : o.useCgIter with
    | none =>
      rw [hcg] at h
      simp only at h ⊢
      cases hs : solveVecs B c (fun i : BIdx s × Fin c => toeplitz B (min o.filterLength n) (bssAcfSdr o n ref i.1 i.2))
        (fun i => vec (min o.filterLength n) (sdrXcorr o n ref est i.1 i.2 i.2)) with
      | error err => rw [hs] at h; cases h
      | ok sol =>
        rw [hs] at h
        simp only at h
        split at h
        · cases h
        rename_i sar' hsar
        obtain ⟨rfl, rfl⟩ := Prod.mk.inj (Except.ok.inj h)
        obtain ⟨hB, hs⟩ := solveVecs_ok hs
        rw [if_pos hB, solveX_mask hs (by simp)]
        simp only [dotX_mask]
        rw [h0, cohSarX_mask (px := fun _ _ _ => True) (x0 := fun _ _ _ => 0) (fun _ _ _ _ => trivial) hsar hq]
        simp only
        congr 2
        funext m k
        exact mask_congr (by tauto) _
    | some it =>
      rw [hcg] at h
      simp only at h ⊢
      split at h
      · cases h
      rename_i sar' hsar
      obtain ⟨rfl, rfl⟩ := Prod.mk.inj (Except.ok.inj h)
      simp only [dotX_mask]
      rw [h0, cohSarX_mask (px := fun _ _ _ => True) (x0 := fun _ _ _ => 0) (fun _ _ _ _ => trivial) hsar hq]
      simp only
      congr 2
      funext m k
      exact mask_congr (by tauto) _

/-- `square_cosine_metrics` with `pairwise=False`. -/
theorem sqCosDiagX_eq {Ω : ℝ} (hΩ : 0 ≤ Ω) {q : Bool} {rx : XSig s c N} {ex : XSig s c M}
    (hr : ∀ m k, StandsFor Ω o.zeroMean (rx m k) (ref m k)) (he : ∀ m j, StandsFor Ω o.zeroMean (ex m j) (est m j))
    {sd sar} (h : sqCosDiag B o ref est = .ok (sd, sar)) (hq : q = true → ∀ m k, FiniteSamples (rx m k)) :
    sqCosDiagX Ω q B o rx ex = .ok (fun m k => mask (FiniteSamples (rx m k) ∧ FiniteSamples (ex m k)) (sd m k),
      fun m j => mask (∀ k, FiniteSamples (rx m k) ∧ FiniteSamples (ex m j)) (sar m j)) := by
  unfold sqCosDiag at h
  unfold sqCosDiagX
  rw [prepX_eq hΩ hr, prepX_eq hΩ he]
  by_cases h0 : o.filterLength = 0
  · rw [if_pos h0] at h; cases h
  rw [if_neg h0] at h ⊢
  by_cases h1 : o.filterLength = 1
  · rw [if_pos h1] at h ⊢
    unfold sameLength at h
    by_cases hMN : M = N
    · subst hMN
      rw [dif_pos rfl] at h
      rw [dif_pos rfl]
      simp only at h ⊢
      split at h
      · cases h
      rename_i sar' hsar
      obtain ⟨rfl, rfl⟩ := Prod.mk.inj (Except.ok.inj h)
      rw [cohSarOneX_mask (est := est) hsar hq]
      simp only [dotOneX_mask, map_mask]
      rfl
    · rw [dif_neg hMN] at h
      split at h <;> rename_i hsl <;> split at hsl <;> cases hsl <;> cases h
  · rw [if_neg h1] at h ⊢
    exact sqCosDiagGenX_mask h hq

end diag

end FBE.Special
