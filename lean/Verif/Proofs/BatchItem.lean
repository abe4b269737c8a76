import Verif.Proofs.Same
import Verif.Proofs.Api

/-!
# Batched calls against calls on single items
-/

set_option linter.unusedSectionVars false

namespace FBE

open Spec Matrix

variable {s : List ℕ} {r e c N M : ℕ} {B : Backend} {o : Opts}

/-- One item of the batch as a signal without batch axes. -/
def item (m : BIdx s) (x : Sig s c N) : Sig [] c N := fun _ => x m

theorem related_item (o : Opts) (ref : Sig s r N) (est : Sig s e M) (m : BIdx s) :
    Related o ref est (item m ref) (item m est) (fun _ => m) (fun _ => Equiv.refl _) (fun _ => id) (fun _ _ => 1)
      (fun _ _ => 1) :=
  related_of_prep (fun _ _ => one_mul 1) (fun _ _ => one_mul 1) (fun _ _ => funext fun _ => (one_mul _).symm)
    (fun _ _ => funext fun _ => (one_mul _).symm)

/-! ### when the linear systems can be solved -/

/-- All systems of single references are regular. -/
def OneOk (B : Backend) (o : Opts) (n : ℕ) (x : Fin r → Fin N → ℝ) : Prop :=
  o.useCgIter = none → ∀ k, (toeplitz B (min o.filterLength n) (sdrAcf (s := []) o n (fun _ => x) () k)).det ≠ 0

/-- The system of all references is regular (its preconditioner, for the iterative solver). -/
def AllOk (B : Backend) (o : Opts) (n : ℕ) (x : Fin r → Fin N → ℝ) : Prop :=
  match o.useCgIter with
  | none => (lagMatrix (min o.filterLength n) (bssAcf (s := []) o n (fun _ => x) ())).det ≠ 0
  | some _ => ∀ k ≤ min o.filterLength n / 2, (blockPrecondSpec B (bssAcf (s := []) o n (fun _ => x) ()) k).det ≠ 0

section ok

variable {n : ℕ} (hn : nFft N M = .ok n) (hL : 2 ≤ o.filterLength)
include hn hL

theorem sdrCohPair_ok_iff (ref : Sig s r N) (est : Sig s e M) :
    (∃ coh, sdrCohPair B o ref est = .ok coh) ↔ ∀ m, OneOk B o n (ref m) := by
  rw [sdrCohPair_unfold hn rfl hL]
  unfold OneOk
  cases hcg : o.useCgIter with
  | some it => simp
  | none =>
    simp only [solveStack]
    split
    · rename_i hs
      split at hs
      · rename_i h
        refine ⟨fun ⟨_, h⟩ => (nomatch h), fun h' => ?_⟩
        obtain ⟨i, hi⟩ := h
        exact absurd hi (h' i.1 trivial i.2)
      · cases hs
    · rename_i hs
      split at hs
      · cases hs
      · rename_i h
        exact ⟨fun _ m _ k hk => h ⟨(m, k), hk⟩, fun _ => ⟨_, rfl⟩⟩

theorem cohSar_ok_iff (hLn : o.filterLength ≤ n) (ref : Sig s r N) (est : Sig s e M) (x0) :
    (∃ sar, cohSar B o n (min o.filterLength n) ref est x0 = .ok sar) ↔ ∀ m, AllOk B o n (ref m) := by
  have F := fam_of_nFft (o := o) hn
  unfold cohSar AllOk
  cases hcg : o.useCgIter with
  | none =>
    rw [blockToeplitz_ok (by omega) _ (fun m k l => by rw [length_bssAcf F rfl (by omega)]; omega)]
    simp only [solveStack]
    split
    · rename_i hs
      split at hs
      · rename_i h
        refine ⟨fun ⟨_, h⟩ => (nomatch h), fun h' => ?_⟩
        obtain ⟨m, hm⟩ := h
        exact absurd hm (h' m)
      · cases hs
    · rename_i hs
      split at hs
      · cases hs
      · rename_i h
        exact ⟨fun _ m hm => h ⟨m, hm⟩, fun _ => ⟨_, rfl⟩⟩
  | some it =>
    simp only [blockCg]
    split
    · rename_i hs
      split at hs
      · rename_i h
        refine ⟨fun ⟨_, h⟩ => (nomatch h), fun h' => ?_⟩
        obtain ⟨m, k, hk, hm⟩ := h
        exact absurd hm (h' m k hk)
      · cases hs
    · rename_i hs
      split at hs
      · cases hs
      · rename_i h
        exact ⟨fun _ m k hk hm => h ⟨m, k, hk, hm⟩, fun _ => ⟨_, rfl⟩⟩

theorem sqCosPair_ok_iff (hLn : o.filterLength ≤ n) (ref : Sig s r N) (est : Sig s e M) :
    (∃ coh, sqCosPair B o ref est = .ok coh) ↔ ∀ m, OneOk B o n (ref m) ∧ AllOk B o n (ref m) := by
  have F := fam_of_nFft (o := o) hn
  have ea : bssAcfSdr o n ref = sdrAcf o n ref := by
    funext m k
    exact bssAcfSdr_eq_sdrAcf F rfl (by omega) hLn ref m k
  rw [sqCosPair_unfold hn rfl hL hLn, ea, forall_and, ← sdrCohPair_ok_iff hn hL ref est (B := B), sdrCohPair_unfold hn rfl hL]
  split
  · rename_i hs
    simp
  · rename_i sol hs
    rw [← cohSar_ok_iff hn hL hLn ref est (fun m j p => sol (m, p.2) j p.1) (B := B)]
    split
    · rename_i h1; rw [h1]; simp
    · rename_i h1; rw [h1]; simp

theorem sqCosDiag_cg_ok_iff (hLn : o.filterLength ≤ n) (hcg : o.useCgIter ≠ none) (ref : Sig s c N) (est : Sig s c M) :
    (∃ coh, sqCosDiag B o ref est = .ok coh) ↔ ∀ m, AllOk B o n (ref m) := by
  rw [sqCosDiag_unfold hn rfl hL hLn, ← cohSar_ok_iff hn hL hLn ref est (fun _ _ _ => 0) (B := B)]
  cases hcg' : o.useCgIter with
  | none => exact absurd hcg' hcg
  | some it =>
    simp only
    split
    · rename_i h1; rw [h1]; simp
    · rename_i h1; rw [h1]; simp

end ok

/-! ### the coherences -/

theorem sdrCohPair_of_items (hne : Nonempty (BIdx s)) (ref : Sig s r N) (est : Sig s e M)
    (h : ∀ m, ∃ coh, sdrCohPair B o (item m ref) (item m est) = .ok coh) : ∃ coh, sdrCohPair B o ref est = .ok coh := by
  obtain ⟨m0⟩ := hne
  obtain ⟨coh0, h0⟩ := h m0
  by_cases hL0 : o.filterLength = 0
  · rw [sdrCohPair_zero B hL0] at h0; cases h0
  by_cases hL1 : o.filterLength = 1
  · by_cases hNM : M = N
    case neg => rw [sdrCohPair_ne B hL1 hNM] at h0; cases h0
    subst hNM
    simp only [sdrCohPair_def]; rw [if_neg hL0, if_pos hL1]; exact ⟨_, rfl⟩
  cases hn : nFft N M with
  | error err => rw [sdrCohPair_gen B (by omega)] at h0; unfold sdrCohPairGen at h0; rw [hn] at h0; cases h0
  | ok n =>
    refine (sdrCohPair_ok_iff hn (by omega) ref est).2 fun m => ?_
    exact (sdrCohPair_ok_iff hn (by omega) (item m ref) (item m est)).1 (h m) ()

theorem sqCosPair_of_items (hne : Nonempty (BIdx s)) (ref : Sig s r N) (est : Sig s e M)
    (h : ∀ m, ∃ coh, sqCosPair B o (item m ref) (item m est) = .ok coh) : ∃ coh, sqCosPair B o ref est = .ok coh := by
  obtain ⟨m0⟩ := hne
  obtain ⟨coh0, h0⟩ := h m0
  by_cases hL0 : o.filterLength = 0
  · rw [sqCosPair_zero B hL0] at h0; cases h0
  by_cases hL1 : o.filterLength = 1
  · by_cases hNM : M = N
    case neg => rw [sqCosPair_ne B hL1 hNM] at h0; cases h0
    subst hNM
    have key : ∀ m, ∃ sar, cohSarOne o (item m ref) (item m est) = .ok sar := by
      intro m
      obtain ⟨coh, hc⟩ := h m
      simp only [sqCosPair_def] at hc
      rw [if_neg hL0, if_pos hL1] at hc
      split at hc
      · cases hc
      · rename_i hs; exact ⟨_, hs⟩
    have : ∃ sar, cohSarOne o ref est = .ok sar := by
      rw [cohSarOne_eq M le_rfl]
      rw [if_neg]
      · exact ⟨_, rfl⟩
      · rintro ⟨m, hm⟩
        obtain ⟨sar, hs⟩ := key m
        rw [cohSarOne_eq M le_rfl, if_pos ⟨(), hm⟩] at hs
        cases hs
    obtain ⟨sar, hs⟩ := this
    simp only [sqCosPair_def]
    rw [if_neg hL0, if_pos hL1, hs]
    exact ⟨_, rfl⟩
  cases hn : nFft N M with
  | error err => rw [sqCosPair_gen B (by omega)] at h0; unfold sqCosPairGen at h0; rw [hn] at h0; cases h0
  | ok n =>
    have hLn : o.filterLength ≤ n := by
      by_contra hLn
      rw [sqCosPair_too_long hL1 hn (by omega)] at h0
      cases h0
    refine (sqCosPair_ok_iff hn (by omega) hLn ref est).2 fun m => ?_
    exact (sqCosPair_ok_iff hn (by omega) hLn (item m ref) (item m est)).1 (h m) ()

theorem map_ok {α β : Type} {x : Except PyErr α} {f : α → β} : (∃ b, x.map f = .ok b) ↔ ∃ a, x = .ok a := by
  cases x with
  | error e => exact ⟨fun ⟨_, h⟩ => (nomatch h), fun ⟨_, h⟩ => nomatch h⟩
  | ok a => exact ⟨fun _ => ⟨a, rfl⟩, fun _ => ⟨_, rfl⟩⟩

theorem sdrCohDiag_case {ref : Sig s c N} {est : Sig s c M} {coh} (hc : sdrCohDiag B o ref est = .ok coh) :
    o.filterLength = 1 ∨ o.useCgIter ≠ none ∨ B.stackedVectors = true := by
  by_contra hne
  push Not at hne
  obtain ⟨h1, hcg, hsv⟩ := hne
  by_cases h0 : o.filterLength = 0
  · rw [sdrCohDiag_zero B h0] at hc; cases hc
  · rw [sdrCohDiag_gen B (by omega)] at hc; unfold sdrCohDiagGen at hc
    cases hn : nFft N M with
    | error err => rw [hn] at hc; cases hc
    | ok n =>
      rw [hn, hcg] at hc
      simp only at hc
      split at hc
      · cases hc
      · rename_i hsol
        exact solveVecs_not_ok hsv _ _ _ hsol

theorem sdrCohDiag_of_items (hne : Nonempty (BIdx s)) (ref : Sig s c N) (est : Sig s c M)
    (h : ∀ m, ∃ coh, sdrCohDiag B o (item m ref) (item m est) = .ok coh) : ∃ coh, sdrCohDiag B o ref est = .ok coh := by
  obtain ⟨m0⟩ := hne
  obtain ⟨coh0, h0⟩ := h m0
  have hcase := sdrCohDiag_case h0
  rw [sdrCohDiag_eq B o hcase, map_ok]
  refine sdrCohPair_of_items ⟨m0⟩ ref est fun m => ?_
  have := h m
  rwa [sdrCohDiag_eq B o hcase, map_ok] at this

theorem sqCosDiag_of_items (hne : Nonempty (BIdx s)) (ref : Sig s c N) (est : Sig s c M)
    (h : ∀ m, ∃ coh, sqCosDiag B o (item m ref) (item m est) = .ok coh) : ∃ coh, sqCosDiag B o ref est = .ok coh := by
  obtain ⟨m0⟩ := hne
  by_cases hcase : o.filterLength = 1 ∨ (o.useCgIter = none ∧ B.stackedVectors = true)
  · simp only [sqCosDiag_eq B o hcase, map_ok] at h ⊢
    exact sqCosPair_of_items ⟨m0⟩ ref est h
  obtain ⟨hL1, hcase⟩ := not_or.1 hcase
  obtain ⟨coh0, h0⟩ := h m0
  by_cases hL0 : o.filterLength = 0
  · rw [sqCosDiag_zero B hL0] at h0; cases h0
  cases hn : nFft N M with
  | error err => rw [sqCosDiag_gen B (by omega)] at h0; unfold sqCosDiagGen at h0; rw [hn] at h0; cases h0
  | ok n =>
    have hLn : o.filterLength ≤ n := by
      by_contra hLn
      have := nFft_ne hn
      rw [sqCosDiag_gen B (by omega)] at h0; unfold sqCosDiagGen at h0
      rw [hn] at h0
      simp only at h0
      rw [if_pos (by omega)] at h0
      cases h0
    have hcg : o.useCgIter ≠ none := by
      intro hcg
      rw [sqCosDiag_unfold hn rfl (by omega) hLn, hcg] at h0
      simp only at h0
      split at h0
      · cases h0
      · rename_i hsol
        exact solveVecs_not_ok (fun hsv => hcase ⟨hcg, hsv⟩) _ _ _ hsol
    refine (sqCosDiag_cg_ok_iff hn (by omega) hLn hcg ref est).2 fun m => ?_
    exact (sqCosDiag_cg_ok_iff hn (by omega) hLn hcg (item m ref) (item m est)).1 (h m) ()

/-! ### permutation solving -/

theorem permLoop_item {nArgs a b nOut : ℕ} {loss : BIdx s → Fin a → Fin b → XR}
    {args : Fin nArgs → BIdx s → Fin a → Fin b → XR} (hl : ∀ m, ∃ l, lsaWithInf B (loss m) = .ok l ∧ l.length = nOut)
    {out} (h : permLoop B nOut loss args = .ok out) (m : BIdx s) :
    permLoop B (s := []) nOut (fun _ => loss m) (fun i _ => args i m) =
      .ok ⟨fun _ => out.loss m, fun i _ => out.args i m, fun _ => out.perm m⟩ := by
  unfold permLoop at h ⊢
  obtain ⟨o1, h1, h2, -⟩ := permFold_ok B loss args (ndindex s) (fun m _ => hl m)
    { loss := fun _ _ => 0, args := fun _ _ _ => 0, perm := fun _ _ => 0 }
  rw [h] at h1
  cases h1
  obtain ⟨o2, h3, h4, -⟩ := permFold_ok (s := []) B (fun _ => loss m) (fun i _ => args i m) (ndindex [])
    (fun _ _ => hl m) { loss := fun _ _ => 0, args := fun _ _ _ => 0, perm := fun _ _ => 0 }
  rw [h3]
  obtain ⟨l, hl1, hl2⟩ := hl m
  obtain ⟨_, a1, a2, a3⟩ := h2 m (mem_ndindex m) l hl1
  have key : ∀ u : BIdx [], o2.loss u = out.loss m ∧ (∀ i, o2.args i u = out.args i m) ∧ o2.perm u = out.perm m := by
    intro u
    obtain ⟨_, b1, b2, b3⟩ := h4 u (mem_ndindex u) l hl1
    exact ⟨b1.trans a1.symm, fun i => (b2 i).trans (a2 i).symm, b3.trans a3.symm⟩
  obtain ⟨c1, c2, c3⟩ := o2
  congr 2
  · funext u; exact (key u).1
  · funext i u; exact (key u).2.1 i
  · funext u; exact (key u).2.2

theorem solvePermutation_item (hB : Covered B) {nArgs : ℕ} {loss : BIdx s → Fin r → Fin e → XR}
    {args : Fin nArgs → BIdx s → Fin r → Fin e → XR} {out} (h : solvePermutation B loss args = .ok out) (m : BIdx s) :
    solvePermutation B (s := []) (fun _ => loss m) (fun i _ => args i m) =
      .ok ⟨fun _ => out.loss m, fun i _ => out.args i m, fun _ => out.perm m⟩ := by
  have hsol := (solvePermutation_ok_iff B hB.lsa loss args).1 ⟨out, h⟩
  unfold solvePermutation at h ⊢
  by_cases her : e < r
  · rw [if_pos her] at h ⊢
    refine permLoop_item (loss := fun m j i => loss m i j) (args := fun k m j i => args k m i j) (fun m => ?_) h m
    obtain ⟨l, h1, h2⟩ := lsaWithInf_ok B hB.lsa _ (solvable_swap.2 (hsol m))
    exact ⟨l, h1, by rw [h2.isAssignment.length_eq, min_comm]⟩
  · rw [if_neg her] at h ⊢
    refine permLoop_item (fun m => ?_) h m
    obtain ⟨l, h1, h2⟩ := lsaWithInf_ok B hB.lsa _ (hsol m)
    exact ⟨l, h1, h2.isAssignment.length_eq⟩

end FBE
