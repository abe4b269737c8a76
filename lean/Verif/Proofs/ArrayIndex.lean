import Verif.Spec.Arrays
import Verif.Proofs.ArrayBlock

/-!
# Positions of batch items
-/

namespace FBE

open Tensor Spec

namespace Arrays

theorem inRange_append : ∀ {l i : List ℕ} {n t : ℕ}, InRange (l ++ [n]) (i ++ [t]) ↔ InRange l i ∧ t < n
  | [], [], n, t => by simp [InRange]
  | [], [_], n, t => by simp [InRange]
  | [], _ :: _ :: _, n, t => by simp [InRange]
  | [_], [], n, t => by simp [InRange]
  | _ :: _ :: _, [], n, t => by simp [InRange]
  | a :: l, b :: i, n, t => by
    simp only [List.cons_append, inRange_cons, inRange_append (l := l) (i := i)]
    tauto

theorem inRange_length : ∀ {l i : List ℕ}, InRange l i → i.length = l.length
  | [], [], _ => rfl
  | _ :: _, _ :: _, h => congrArg (· + 1) (inRange_length h.2)

theorem pos_inRange : ∀ {s : List ℕ} (m : BIdx s), InRange s.reverse (pos m)
  | [], _ => trivial
  | n :: s, m => by
    rw [List.reverse_cons]
    exact inRange_append.2 ⟨pos_inRange m.2, m.1.isLt⟩

theorem exists_pos : ∀ {s : List ℕ} {i : List ℕ}, InRange s.reverse i → ∃ m : BIdx s, i = pos m
  | [], i, h => ⟨(), inRange_nil_inv h⟩
  | n :: s, i, h => by
    have hl := inRange_length h
    rw [List.reverse_cons] at h hl
    obtain ⟨j, t, rfl⟩ : ∃ j t, i = j ++ [t] := by
      rcases List.eq_nil_or_concat i with h0 | ⟨j, t, h0⟩
      · rw [h0] at hl; simp at hl
      · exact ⟨j, t, by rw [h0]; simp⟩
    obtain ⟨h1, h2⟩ := inRange_append.1 h
    obtain ⟨m, rfl⟩ := exists_pos h1
    exact ⟨(⟨t, h2⟩, m), rfl⟩

theorem pos_injective : ∀ {s : List ℕ}, Function.Injective (pos (s := s))
  | [] => fun _ _ _ => rfl
  | n :: s => fun m m' h => by
    have h' : pos m.2 ++ [m.1.val] = pos m'.2 ++ [m'.1.val] := h
    obtain ⟨h1, h2⟩ := List.append_inj' h' rfl
    exact Prod.ext (Fin.ext (by simpa using h2)) (pos_injective h1)

theorem indices_append (l : List ℕ) (n : ℕ) :
    indices (l ++ [n]) = (List.range n).flatMap fun t => (indices l).map (· ++ [t]) := by
  induction l with
  | nil => simp [indices]; induction List.range n <;> simp_all
  | cons a l ih =>
    simp only [List.cons_append, indices, ih, List.flatMap_assoc, List.map_flatMap, List.map_map]
    refine List.flatMap_congr fun t _ => ?_
    rw [List.flatMap_map]
    rfl

theorem indices_eq : ∀ s : List ℕ, indices s.reverse = (ndindex s).map pos
  | [] => rfl
  | n :: s => by
    rw [List.reverse_cons, indices_append, indices_eq s]
    have h1 : List.range n = (List.finRange n).map Fin.val := by
      refine List.ext_getElem (by simp) fun t h1 h2 => by simp
    simp only [ndindex, h1, List.flatMap_map, List.map_flatMap, List.map_map]
    refine List.flatMap_congr fun t _ => ?_
    exact (List.map_map (l := ndindex s) (f := fun b => (show BIdx (n :: s) from (t, b)))
      (g := pos (s := n :: s))).symm

theorem bcShape_length : ∀ {s t u : List ℕ}, bcShape s t = some u → u.length = max s.length t.length
  | [], t, u, h => by
    rw [bcShape_nil] at h
    cases h; simp
  | a :: s, [], u, h => by
    rw [bcShape_nil_right] at h
    cases h; simp
  | a :: s, b :: t, u, h => by
    simp only [bcShape] at h
    split at h
    · cases h
    · rename_i u' hu
      have := bcShape_length hu
      split_ifs at h <;> cases h <;> simp [this]

end Arrays

end FBE
