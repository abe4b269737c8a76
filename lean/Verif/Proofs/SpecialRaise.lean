import Verif.Proofs.SpecialMetrics
import Verif.Proofs.Success

/-!
# Special samples: NaN entries whether or not other channels are silent, and singular systems
-/

namespace FBE.Special

open Classical XR Matrix Spec

variable {s : List ℕ} {r e c N M n : ℕ} {B : Backend} {o : Opts}

theorem exists_standsFor (Ω : ℝ) (zm : Bool) (x : Fin n → XR) : ∃ v, StandsFor Ω zm x v := by
  by_cases hf : FiniteSamples x
  · choose u hu using hf
    have huniq : ∀ u', (∀ t, x t = fin (u' t)) → u' = u := by
      intro u' h'
      funext t
      have := (hu t).symm.trans (h' t)
      injection this with this
      exact this.symm
    by_cases hE : Ω < ∑ t, centred zm u t ^ 2
    · refine ⟨0, fun u' h' => ?_⟩
      rw [huniq u' h']
      exact ⟨fun h => absurd h (not_le.2 hE), fun _ => rfl⟩
    · refine ⟨u, fun u' h' => ?_⟩
      rw [huniq u' h']
      exact ⟨fun _ => rfl, fun h => absurd h hE⟩
  · exact ⟨0, fun u hu => absurd (fun t => ⟨_, hu t⟩) hf⟩

theorem prepX_none {Ω : ℝ} (hΩ : 0 ≤ Ω) {x : XSig s c N} {m : BIdx s} {k : Fin c} (h : ¬ FiniteSamples (x m k)) :
    prepX Ω o x m k = none := by
  choose v hv using fun m k => exists_standsFor Ω o.zeroMean (x m k)
  rw [prepX_eq hΩ hv]
  exact mask_neg h _

section none

variable {x : BIdx s → Fin r → Option (Fin N → ℝ)} {y : BIdx s → Fin e → Option (Fin M → ℝ)}

theorem sdrXcorrX_none {K : ℕ} {m : BIdx s} {k : Fin r} {j : Fin e} (h : x m k = none ∨ y m j = none) :
    sdrXcorrX o n K x y m k j = none := by
  unfold sdrXcorrX
  rcases h with h | h
  · rw [h]; rfl
  · rw [h]; exact Option.map₂_none_right _ _

theorem dotOneX_none (h : M = N) {v : Option (Fin N → ℝ)} {w : Option (Fin M → ℝ)} (hn : v = none ∨ w = none) :
    dotOneX h v w = none := by
  rcases hn with rfl | rfl
  · rfl
  · exact Option.map₂_none_right _ _

theorem sdrCohPairGenX_none {coh} (h : sdrCohPairGenX B o x y = .ok coh) {m : BIdx s} {k : Fin r} {j : Fin e}
    (hb : x m k = none ∨ y m j = none) : coh m k j = none := by
  unfold sdrCohPairGenX at h
  split at h
  · cases h
  · dsimp only at h
    split at h
    · cases h
    · cases h
      beta_reduce
      rw [sdrXcorrX_none hb]
      rfl

theorem sqCosPairGenX_none {q : Bool} {sd sar} (h : sqCosPairGenX q B o x y = .ok (sd, sar)) {m : BIdx s} {k : Fin r} {j : Fin e}
    (hb : x m k = none ∨ y m j = none) : sd m k j = none := by
  unfold sqCosPairGenX at h
  split at h
  · cases h
  · dsimp only at h
    split at h
    · cases h
    · split at h
      · cases h
      · split at h
        · cases h
        · obtain ⟨e1, -⟩ := Prod.mk.inj (Except.ok.inj h)
          rw [← e1]
          beta_reduce
          rw [sdrXcorrX_none hb]
          rfl

end none

variable {Ω : ℝ} {rx : XSig s r N} {ex : XSig s e M} {m : BIdx s} {k : Fin r} {j : Fin e}

theorem prepX_or (hΩ : 0 ≤ Ω) (hb : ¬ FiniteSamples (rx m k) ∨ ¬ FiniteSamples (ex m j)) :
    prepX Ω o rx m k = none ∨ prepX Ω o ex m j = none :=
  hb.imp (prepX_none hΩ) (prepX_none hΩ)

theorem sdrCohPairX_none (hΩ : 0 ≤ Ω) {coh} (h : sdrCohPairX Ω B o rx ex = .ok coh)
    (hb : ¬ FiniteSamples (rx m k) ∨ ¬ FiniteSamples (ex m j)) : coh m k j = none := by
  have hb' := prepX_or (o := o) hΩ hb
  unfold sdrCohPairX at h
  dsimp only at h
  split at h
  · cases h
  · split at h
    · split at h
      · cases h
        beta_reduce
        rw [dotOneX_none _ hb']
        rfl
      · split at h <;> cases h
    · exact sdrCohPairGenX_none h hb'

theorem sqCosPairX_none (hΩ : 0 ≤ Ω) {q : Bool} {sd sar} (h : sqCosPairX Ω q B o rx ex = .ok (sd, sar))
    (hb : ¬ FiniteSamples (rx m k) ∨ ¬ FiniteSamples (ex m j)) : sd m k j = none := by
  have hb' := prepX_or (o := o) hΩ hb
  unfold sqCosPairX at h
  dsimp only at h
  split at h
  · cases h
  · split at h
    · split at h
      · split at h
        · cases h
        · obtain ⟨e1, -⟩ := Prod.mk.inj (Except.ok.inj h)
          rw [← e1]
          beta_reduce
          rw [dotOneX_none _ hb']
          rfl
      · split at h <;> cases h
    · exact sqCosPairGenX_none h hb'

/-! ### Singular systems -/

theorem toeplitz_singular (hB : Covered B) (hcg : o.useCgIter = none) (hL : 2 ≤ o.filterLength) (hload : o.load = 0) (hN : 0 < N)
    (hfit : FilterFits N o.filterLength) (hn : nFft N = .ok n) (ref : Sig s r N) (m : BIdx s) (k : Fin r) :
    (toeplitz B (min o.filterLength n) (sdrAcf o n ref m k)).det = 0 ↔ centred o.zeroMean (ref m k) = 0 := by
  have key := sdrCohPair_success (s := []) (r := 1) (e := 0) hB hcg hL hload hN hfit (fun _ _ => ref m k) (fun _ j => j.elim0)
  unfold sdrCohPair at key
  rw [if_neg (by omega), if_neg (by omega)] at key
  unfold sdrCohPairGen at key
  rw [hn] at key
  dsimp only at key
  rw [hcg] at key
  dsimp only at key
  unfold solveStack at key
  by_cases hd : (toeplitz B (min o.filterLength n) (sdrAcf o n ref m k)).det = 0
  · rw [if_pos ⟨((), 0), hd⟩] at key
    rcases key with ⟨⟨_, h⟩, -⟩ | ⟨-, _, _, h⟩
    · cases h
    · exact iff_of_true hd h
  · rw [if_neg (fun ⟨_, h⟩ => hd h)] at key
    rcases key with ⟨-, h⟩ | ⟨h, -⟩
    · exact iff_of_false hd (h () 0)
    · cases h

/-- Direct solver, filters of at least two taps, no loading. -/
theorem sdrCohPairX_success (hΩ : 0 ≤ Ω) (hB : Covered B) (hcg : o.useCgIter = none) (hL : 2 ≤ o.filterLength) (hload : o.load = 0)
    (hN : 0 < N) (hfit : FilterFits N o.filterLength) {rx : XSig s r N} {ex : XSig s e N} {ref : Sig s r N}
    (hr : ∀ m k, StandsFor Ω o.zeroMean (rx m k) (ref m k)) :
    (∃ coh, sdrCohPairX Ω B o rx ex = .ok coh) ∧ (∀ m k, FiniteSamples (rx m k) → centred o.zeroMean (ref m k) ≠ 0) ∨
    sdrCohPairX Ω B o rx ex = .error .linAlgError ∧ ∃ m k, FiniteSamples (rx m k) ∧ centred o.zeroMean (ref m k) = 0 := by
  obtain ⟨n, hn⟩ := nFft_pos hN
  unfold sdrCohPairX
  dsimp only
  rw [if_neg (by omega), if_neg (by omega)]
  unfold sdrCohPairGenX
  rw [hn]
  dsimp only
  rw [hcg]
  dsimp only
  unfold solveX
  have hA : ∀ i : BIdx s × Fin r, (sdrAcfX o n (prepX Ω o rx) i.1 i.2).map (toeplitz B (min o.filterLength n)) =
      mask (FiniteSamples (rx i.1 i.2)) (toeplitz B (min o.filterLength n) (sdrAcf o n ref i.1 i.2)) := by
    intro i
    rw [prepX_eq hΩ hr, sdrAcfX_mask, map_mask]
  simp only [hA]
  by_cases h : ∃ m k, FiniteSamples (rx m k) ∧ centred o.zeroMean (ref m k) = 0
  · refine Or.inr ⟨?_, h⟩
    obtain ⟨m, k, hf, hc⟩ := h
    rw [if_pos (Or.inl ⟨(m, k), _, mask_pos hf _, (toeplitz_singular hB hcg hL hload hN hfit hn ref m k).2 hc⟩)]
  · refine Or.inl ⟨?_, fun m k hf hc => h ⟨m, k, hf, hc⟩⟩
    rw [if_neg]
    · exact ⟨_, rfl⟩
    · rintro (⟨i, R, hR, hd⟩ | ⟨hq, -⟩)
      · by_cases hf : FiniteSamples (rx i.1 i.2)
        · rw [mask_pos hf] at hR
          cases hR
          exact h ⟨i.1, i.2, hf, (toeplitz_singular hB hcg hL hload hN hfit hn ref i.1 i.2).1 hd⟩
        · rw [mask_neg hf] at hR
          cases hR
      · cases hq

end FBE.Special
