import Verif.Proofs.Api
import Verif.Spec.Unique
import Mathlib.Topology.Instances.EReal.Lemmas

/-!
# Permutations of converging loss matrices
-/

set_option linter.unusedSectionVars false

namespace FBE

open Spec XR Filter Topology

variable {s : List ℕ} {r e c N : ℕ} {ι : Type*} {l : Filter ι}

/-- Pairings described by arrays that join the same channels are described by the same array. -/
theorem describes_unique {P P' : Pairing r e} {p p' : Fin (min r e) → ℕ} (h : Describes p P) (h' : Describes p' P')
    (hs : SamePairs P P') : (∀ i, P.ref i = P'.ref i ∧ P.est i = P'.est i) ∧ p = p' := by
  have key : ∀ i, P.ref i = P'.ref i ∧ P.est i = P'.est i := by
    intro i
    obtain ⟨i', h1, h2⟩ := (hs (P.ref i) (P.est i)).1 ⟨i, rfl, rfl⟩
    have : i' = i := by
      rcases le_or_gt r e with hre | hre
      · have a := (h.est hre i).1
        have b := (h'.est hre i').1
        rw [h1] at b
        exact Fin.ext (b.symm.trans a)
      · have a := (h.ref hre i).1
        have b := (h'.ref hre i').1
        rw [h2] at b
        exact Fin.ext (b.symm.trans a)
    subst this
    exact ⟨h1.symm, h2.symm⟩
  refine ⟨key, funext fun i => ?_⟩
  rcases le_or_gt r e with hre | hre
  · rw [(h.est hre i).2, (h'.est hre i).2, (key i).2]
  · rw [(h.ref hre i).2, (h'.ref hre i).2, (key i).1]

instance : Finite (Pairing r e) :=
  Finite.of_injective (fun P => (P.ref, P.est)) fun P P' h => by
    cases P; cases P'
    simp only [Prod.mk.injEq] at h
    obtain ⟨rfl, rfl⟩ := h
    rfl

theorem bestPairing_fin {x : Fin r → Fin e → ℝ} {P : Pairing r e} :
    BestPairing (fun k j => fin (x k j)) P ↔
      ∀ P' : Pairing r e, ∑ k, x (P.ref k) (P.est k) ≤ ∑ k, x (P'.ref k) (P'.est k) := by
  have hp : ∀ P : Pairing r e, nPos (P.values fun k j => fin (x k j)) = 0 := fun P =>
    nPos_eq_zero_iff.2 fun k h => by cases h
  have hn : ∀ P : Pairing r e, nNeg (P.values fun k j => fin (x k j)) = 0 := fun P =>
    nNeg_eq_zero_iff.2 fun k h => by cases h
  constructor
  · intro h P'
    exact h.fin P' (by rw [hp, hp]) (by rw [hn, hn])
  · intro h
    exact ⟨fun P' => by rw [hp, hp], fun P' => by rw [hn, hn], fun P' _ _ => h P'⟩

/-- Close to a matrix with a unique best pairing, the best pairing stays the same. -/
theorem best_stable {x : Fin r → Fin e → ℝ} (hu : UniqueBest fun k j => fin (x k j)) {x' : ι → Fin r → Fin e → ℝ}
    (hx : ∀ k j, Tendsto (fun it => x' it k j) l (𝓝 (x k j))) :
    ∀ᶠ it in l, ∀ P P' : Pairing r e, BestPairing (fun k j => fin (x k j)) P →
      BestPairing (fun k j => fin (x' it k j)) P' → SamePairs P P' := by
  rw [eventually_all]
  intro P
  rw [eventually_all]
  intro P'
  by_cases hP : BestPairing (fun k j => fin (x k j)) P
  swap
  · exact Eventually.of_forall fun _ h => absurd h hP
  by_cases hs : SamePairs P P'
  · exact Eventually.of_forall fun _ _ _ => hs
  have hlt : ∑ k, x (P.ref k) (P.est k) < ∑ k, x (P'.ref k) (P'.est k) := by
    by_contra hc
    refine hs (hu P P' hP ?_)
    rw [bestPairing_fin] at hP ⊢
    exact fun P'' => (not_lt.1 hc).trans (hP P'')
  have ht : ∀ P : Pairing r e, Tendsto (fun it => ∑ k, x' it (P.ref k) (P.est k)) l
      (𝓝 (∑ k, x (P.ref k) (P.est k))) := fun P => tendsto_finsetSum _ fun k _ => hx _ _
  filter_upwards [(ht P).eventually_lt (ht P') hlt] with it hit _ hP'
  rw [bestPairing_fin] at hP'
  exact absurd (hP' P) (not_le.2 hit)

/-- A permutation is solved in the same way for all close enough loss matrices. -/
theorem perm_stable {B : Backend} (hB : LsaCorrect @B.lsa) {nArgs : ℕ} {L : BIdx s → Fin r → Fin e → XR}
    (hfin : ∀ m k j, ∃ x, L m k j = fin x) (hu : ∀ m, UniqueBest (L m)) {args : Fin nArgs → BIdx s → Fin r → Fin e → XR}
    {p} (hp : solvePermutation B L args = .ok p)
    {L' : ι → BIdx s → Fin r → Fin e → XR} (hnan : ∀ m k j, ∀ᶠ it in l, L' it m k j ≠ nan)
    (hlim : ∀ m k j, Tendsto (fun it => toEReal (L' it m k j)) l (𝓝 (toEReal (L m k j)))) :
    ∃ P : BIdx s → Pairing r e, (∀ m, p.loss m = (P m).values (L m) ∧ ∀ i, p.args i m = (P m).values (args i m)) ∧
      ∀ᶠ it in l, ∀ args' : Fin nArgs → BIdx s → Fin r → Fin e → XR, ∃ p',
        solvePermutation B (L' it) args' = .ok p' ∧ p'.perm = p.perm ∧ ∀ m,
          p'.loss m = (P m).values (L' it m) ∧ ∀ i, p'.args i m = (P m).values (args' i m) := by
  choose P hP using fun m => (solvePermutation_spec B hB _ _ hp m).2
  refine ⟨P, fun m => ⟨funext (hP m).loss_eq, fun i => funext ((hP m).args_eq i)⟩, ?_⟩
  choose x hx using hfin
  have e0 : ∀ m, L m = fun k j => fin (x m k j) := fun m => funext fun k => funext fun j => hx m k j
  have hreal : ∀ m k j, Tendsto (fun it => (toEReal (L' it m k j)).toReal) l (𝓝 (x m k j)) := by
    intro m k j
    have h := hlim m k j
    rw [hx] at h
    exact (EReal.tendsto_toReal (EReal.coe_ne_top _) (EReal.coe_ne_bot _)).comp h
  have hfin' : ∀ᶠ it in l, ∀ m k j, L' it m k j = fin (toEReal (L' it m k j)).toReal := by
    rw [eventually_all]; intro m
    rw [eventually_all]; intro k
    rw [eventually_all]; intro j
    have h := hlim m k j
    rw [hx] at h
    have h1 := h.eventually (isOpen_lt continuous_const continuous_id |>.mem_nhds (EReal.bot_lt_coe (x m k j)))
    have h2 := h.eventually (isOpen_lt continuous_id continuous_const |>.mem_nhds (EReal.coe_lt_top (x m k j)))
    filter_upwards [h1, h2, hnan m k j] with it a b hn
    cases h3 : L' it m k j with
    | fin v => rfl
    | pinf => rw [h3] at b; exact absurd b (lt_irrefl _)
    | ninf => rw [h3] at a; exact absurd a (lt_irrefl _)
    | nan => exact absurd h3 hn
  have hst : ∀ᶠ it in l, ∀ m, ∀ P P' : Pairing r e, BestPairing (fun k j => fin (x m k j)) P →
      BestPairing (fun k j => fin (toEReal (L' it m k j)).toReal) P' → SamePairs P P' := by
    rw [eventually_all]; intro m
    refine best_stable ?_ (hreal m)
    rw [← e0]
    exact hu m
  filter_upwards [hfin', hst] with it hf hs args'
  have e1 : ∀ m, L' it m = fun k j => fin (toEReal (L' it m k j)).toReal :=
    fun m => funext fun k => funext fun j => hf m k j
  obtain ⟨p', hp'⟩ := (solvePermutation_ok_iff B hB (L' it) args').2 fun m =>
    solvable_of_finite fun k j => ⟨_, hf m k j⟩
  have key : ∀ m, p'.perm m = p.perm m ∧ p'.loss m = (P m).values (L' it m) ∧
        ∀ i, p'.args i m = (P m).values (args' i m) := by
    intro m
    obtain ⟨-, P', hP'⟩ := solvePermutation_spec B hB _ _ hp' m
    have b1 := (hP m).best
    have b2 := hP'.best
    rw [e0] at b1
    rw [e1] at b2
    obtain ⟨k1, k2⟩ := describes_unique (hP m).describes hP'.describes (hs m _ P' b1 b2)
    refine ⟨k2.symm, funext fun k => ?_, fun i => funext fun k => ?_⟩
    · rw [hP'.loss_eq k, ← (k1 k).1, ← (k1 k).2]
      rfl
    · rw [hP'.args_eq i k, ← (k1 k).1, ← (k1 k).2]
      rfl
  exact ⟨p', hp', funext fun m => (key m).1, fun m => (key m).2⟩

end FBE
