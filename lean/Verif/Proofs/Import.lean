import Verif.Spec.Import

/-!
# The comparison of versions
-/

namespace FBE

theorem stripZeros_18 : stripZeros [1, 8, 0] = [1, 8] := by decide

theorem stripZeros_nil : stripZeros [] = [] := rfl

theorem stripZeros_cons (a : ℕ) (l : List ℕ) :
    stripZeros (a :: l) = if a = 0 ∧ stripZeros l = [] then [] else a :: stripZeros l := by
  unfold stripZeros
  rw [List.reverse_cons, List.dropWhile_append]
  by_cases h : List.dropWhile (fun x => decide (x = 0)) l.reverse = []
  · by_cases ha : a = 0 <;> simp [h, ha]
  · simp [h]

theorem stripZeros_eq_nil (l : List ℕ) : stripZeros l = [] ↔ ∀ k ∈ l, k = 0 := by
  induction l with
  | nil => simp [stripZeros_nil]
  | cons a l ih =>
    rw [stripZeros_cons]
    by_cases h : a = 0 ∧ stripZeros l = []
    · simp only [h, and_self, if_true, true_iff]
      intro k hk
      rcases List.mem_cons.1 hk with rfl | hk
      · rfl
      · exact ih.1 h.2 k hk
    · simp only [h, if_false, reduceCtorEq, List.mem_cons, forall_eq_or_imp, false_iff]
      exact fun h' => h ⟨h'.1, ih.2 h'.2⟩

theorem is18Plus_iff (v : Version) : v.is18Plus = true ↔ Spec.Since18 v := by
  obtain ⟨r, e⟩ := v
  unfold Version.is18Plus Spec.Since18
  rw [stripZeros_18]
  dsimp only
  match r with
  | [] => simp [stripZeros_nil, tupleLt]
  | [a] =>
    rw [stripZeros_cons, stripZeros_nil]
    by_cases h : a = 0
    · simp [h, tupleLt]
    · rcases lt_trichotomy a 1 with h1 | h1 | h1
      · omega
      · simp [h1, tupleLt]
      · simp [h, h1, tupleLt, show ¬ a < 1 by omega, show ¬ a = 1 by omega]
  | a :: b :: l =>
    have hl := stripZeros_eq_nil l
    have hl' : (∃ k ∈ l, k ≠ 0) ↔ stripZeros l ≠ [] := by
      rw [Ne, hl]; push Not; rfl
    simp only [List.getD_cons_zero, List.getD_cons_succ, List.drop_succ_cons, List.drop_zero, hl']
    rw [stripZeros_cons, stripZeros_cons]
    generalize stripZeros l = l'
    rcases lt_trichotomy a 1 with h1 | h1 | h1
    · have : a = 0 := by omega
      subst this
      by_cases hb : b = 0 ∧ l' = [] <;> simp [hb, tupleLt]
    · subst h1
      rcases lt_trichotomy b 8 with h8 | h8 | h8
      · by_cases hb : b = 0 ∧ l' = []
        · simp [hb, tupleLt]
        · simp [hb, tupleLt, h8, show ¬ 8 < b by omega, show ¬ b = 8 by omega]
      · subst h8
        cases l' <;> simp [tupleLt]
      · simp [tupleLt, show ¬ b = 0 by omega, show ¬ b < 8 by omega, h8, show ¬ b = 8 by omega]
    · simp [tupleLt, show ¬ a = 0 by omega, show ¬ a < 1 by omega, h1, show ¬ a = 1 by omega]

end FBE
