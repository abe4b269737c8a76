import Verif.Proofs.HungarianOpt

/-! The result does not depend on the fuel once it suffices. -/

set_option linter.unusedSectionVars false

namespace FBE.Hungarian

variable {α : Type*} [LinearOrder α] [Zero α] [Add α] [Sub α] {n m : ℕ}

theorem step4Loop_mono (C0 : Fin n → Fin m → Bool) (f : ℕ) (st : State α n m) (cov) {r}
    (h : step4Loop C0 f st cov = .ok r) (f' : ℕ) (hf : f ≤ f') :
    step4Loop C0 f' st cov = .ok r := by
  induction f generalizing st cov f' with
  | zero => simp [step4Loop] at h
  | succ f ih =>
    obtain ⟨g, rfl⟩ : ∃ g, f' = g + 1 := ⟨f' - 1, by omega⟩
    unfold step4Loop at h ⊢
    split at h
    · exact h
    · dsimp only at h ⊢
      split at h
      · exact h
      · exact ih _ _ h g (by omega)

theorem stepFn_mono (f : ℕ) (nx) (st : State α n m) {r} (h : stepFn f nx st = .ok r) (f' : ℕ)
    (hf : f ≤ f') : stepFn f' nx st = .ok r := by
  cases nx <;> simp only [stepFn] at h ⊢ <;> try exact h
  exact step4Loop_mono _ _ _ _ h _ hf

theorem run_mono (inner inner' : ℕ) (hi : inner ≤ inner') (f : ℕ) (nx) (st : State α n m) {r}
    (h : run inner f nx st = .ok r) (f' : ℕ) (hf : f ≤ f') : run inner' f' nx st = .ok r := by
  induction f generalizing nx st f' with
  | zero =>
    cases nx <;> simp [run] at h
    subst h
    cases f' <;> simp [run]
  | succ f ih =>
    obtain ⟨g, rfl⟩ : ∃ g, f' = g + 1 := ⟨f' - 1, by omega⟩
    by_cases hd : nx = .done
    · subst hd; simpa [run] using h
    · have e1 : ∀ i f, run i (f + 1) nx st = match stepFn i nx st with
        | .error e => .error e
        | .ok (st', nx') => run i f nx' st' := by
        intro i f
        cases nx <;> first | exact absurd rfl hd | rfl
      rw [e1] at h ⊢
      cases hs : stepFn inner nx st with
      | error e => rw [hs] at h; simp at h
      | ok res =>
        rw [hs] at h
        rw [stepFn_mono _ _ _ hs _ hi]
        exact ih _ _ h g (by omega)

theorem linearSumAssignment_mono {r c : ℕ} (cost : Fin r → Fin c → α) (f f' : ℕ) (hf : f ≤ f') {l}
    (h : linearSumAssignment f cost = .ok l) : linearSumAssignment f' cost = .ok l := by
  unfold linearSumAssignment at h ⊢
  have key : ∀ {r c : ℕ} (cost : Fin r → Fin c → α) {mk}, solveMarked f cost = .ok mk →
      solveMarked f' cost = .ok mk := by
    intro r c cost mk h
    unfold solveMarked at h ⊢
    dsimp only at h ⊢
    generalize (if r = 0 ∨ c = 0 then Next.done else Next.step1) = nx at *
    cases hs : run f f nx (initState cost) with
    | error e => rw [hs] at h; simp at h
    | ok st =>
      rw [hs] at h
      rw [run_mono f f' hf f _ _ hs f' hf]
      exact h
  split at h
  · rename_i hlt
    rw [if_pos hlt]
    cases hs : solveMarked f (fun j i => cost i j) with
    | error e => rw [hs] at h; simp at h
    | ok mk => rw [hs] at h; rw [key _ hs]; exact h
  · rename_i hlt
    rw [if_neg hlt]
    cases hs : solveMarked f cost with
    | error e => rw [hs] at h; simp at h
    | ok mk => rw [hs] at h; rw [key _ hs]; exact h

end FBE.Hungarian
