import Verif.Model.Basic
import Mathlib.Data.Fintype.Card

/-! Lemmas about `nonzero1` / `nonzero2`. -/

namespace FBE

variable {n m : ℕ}

@[simp] theorem mem_nonzero1 {p : Fin n → Bool} {i : Fin n} : i ∈ nonzero1 p ↔ p i = true := by
  simp [nonzero1]

@[simp] theorem mem_nonzero2 {p : Fin n → Fin m → Bool} {x : Fin n × Fin m} :
    x ∈ nonzero2 p ↔ p x.1 x.2 = true := by
  obtain ⟨i, j⟩ := x
  simp [nonzero2]

theorem nonzero1_head?_none {p : Fin n → Bool} (h : (nonzero1 p).head? = none) (i : Fin n) :
    p i = false := by
  have h' : nonzero1 p = [] := by simpa using h
  by_contra hc
  have : i ∈ nonzero1 p := by simpa using hc
  simp [h'] at this

theorem nonzero1_head?_some {p : Fin n → Bool} {i : Fin n} (h : (nonzero1 p).head? = some i) :
    p i = true :=
  mem_nonzero1.1 (List.mem_of_mem_head? h)

theorem nonzero2_head?_none {p : Fin n → Fin m → Bool} (h : (nonzero2 p).head? = none)
    (i : Fin n) (j : Fin m) : p i j = false := by
  have h' : nonzero2 p = [] := by simpa using h
  by_contra hc
  have : (i, j) ∈ nonzero2 p := by simpa using hc
  simp [h'] at this

theorem nonzero2_head?_some {p : Fin n → Fin m → Bool} {x : Fin n × Fin m}
    (h : (nonzero2 p).head? = some x) : p x.1 x.2 = true :=
  mem_nonzero2.1 (List.mem_of_mem_head? h)

theorem pairwise_finRange (n : ℕ) : (List.finRange n).Pairwise (· < ·) :=
  List.pairwise_lt_finRange n

/-- `nonzero2` lists pairs in lexicographic order. -/
theorem nonzero2_pairwise (p : Fin n → Fin m → Bool) :
    (nonzero2 p).Pairwise fun x y => x.1 < y.1 ∨ (x.1 = y.1 ∧ x.2 < y.2) := by
  unfold nonzero2
  rw [List.pairwise_flatMap]
  refine ⟨fun i _ => ?_, ?_⟩
  · rw [List.pairwise_map]
    refine List.Pairwise.imp (fun h => Or.inr ⟨rfl, h⟩) ((pairwise_finRange m).filter _)
  · refine List.Pairwise.imp ?_ (pairwise_finRange n)
    intro a b hab x hx y hy
    simp only [List.mem_map, List.mem_filter] at hx hy
    obtain ⟨_, _, rfl⟩ := hx
    obtain ⟨_, _, rfl⟩ := hy
    exact Or.inl hab

theorem nonzero2_nodup (p : Fin n → Fin m → Bool) : (nonzero2 p).Nodup := by
  refine (nonzero2_pairwise p).imp ?_
  rintro ⟨a, b⟩ ⟨c, d⟩ h heq
  simp only [Prod.mk.injEq] at heq
  obtain ⟨rfl, rfl⟩ := heq
  simp at h

theorem nonzero1_nodup (p : Fin n → Bool) : (nonzero1 p).Nodup :=
  (List.nodup_finRange n).filter _

/-- If each row has at most one true entry the row indices are strictly increasing. -/
theorem nonzero2_rows_sorted (p : Fin n → Fin m → Bool)
    (h : ∀ i j j', p i j = true → p i j' = true → j = j') :
    ((nonzero2 p).map Prod.fst).Pairwise (· < ·) := by
  rw [List.pairwise_map]
  refine List.Pairwise.imp_of_mem ?_ (nonzero2_pairwise p)
  rintro ⟨a, b⟩ ⟨c, d⟩ hx hy hlt
  rw [mem_nonzero2] at hx hy
  rcases hlt with h1 | ⟨h1, h2⟩
  · exact h1
  · simp only at h1 hx hy h2
    subst h1
    exact absurd (h _ _ _ hx hy) (ne_of_lt h2)

theorem nonzero2_cols_nodup (p : Fin n → Fin m → Bool)
    (h : ∀ i i' j, p i j = true → p i' j = true → i = i') :
    ((nonzero2 p).map Prod.snd).Nodup := by
  refine List.Nodup.map_on ?_ (nonzero2_nodup p)
  rintro ⟨a, b⟩ hx ⟨c, d⟩ hy hbd
  rw [mem_nonzero2] at hx hy
  simp only at hbd hx hy
  subst hbd
  rw [h _ _ _ hx hy]

/-- With at most one true entry per row, the number of true entries is the number of rows
containing one. -/
theorem nonzero2_length (p : Fin n → Fin m → Bool)
    (h : ∀ i j j', p i j = true → p i j' = true → j = j') :
    (nonzero2 p).length = (Finset.univ.filter fun i => ∃ j, p i j = true).card := by
  have hn : ((nonzero2 p).map Prod.fst).Nodup :=
    (nonzero2_rows_sorted p h).imp (fun h => ne_of_lt h)
  rw [← List.length_map (f := Prod.fst) (as := nonzero2 p), ← List.toFinset_card_of_nodup hn]
  congr 1
  ext i
  simp

end FBE
