import Verif.Proofs.HungarianInv

/-! `_step5`: the augmenting path exists, fits in the pre-allocated array and flipping it keeps the
stars a matching while starring one more row. -/

set_option linter.unusedSectionVars false

namespace FBE.Hungarian

variable {α : Type*} [LinearOrder α] [Zero α] [Add α] [Sub α] {n m : ℕ}

/-- Invariant of the path-building loop: `acc` is the path so far, `cur` its last cell. -/
structure PathInv (mk : Fin n → Fin m → ℕ) (rk : Fin n → ℕ) (r0 : Fin n)
    (acc : List (Fin n × Fin m)) (cur : Fin n × Fin m) : Prop where
  mem12 : ∀ p ∈ acc, mk p.1 p.2 = 1 ∨ mk p.1 p.2 = 2
  start : ∃ c0, (r0, c0) ∈ acc ∧ mk r0 c0 = 2
  cur_mem : cur ∈ acc
  cur_prime : mk cur.1 cur.2 = 2
  rk_min : ∀ p ∈ acc, rk cur.1 ≤ rk p.1
  chain : ∀ p ∈ acc, mk p.1 p.2 = 2 → p = cur ∨ ∃ k, (k, p.2) ∈ acc ∧ mk k p.2 = 1
  star_row : ∀ p ∈ acc, mk p.1 p.2 = 1 → ∃ c, (p.1, c) ∈ acc ∧ mk p.1 c = 2
  prime_row : ∀ p ∈ acc, mk p.1 p.2 = 2 → p.1 = r0 ∨ ∃ c, (p.1, c) ∈ acc ∧ mk p.1 c = 1
  nodup : acc.Nodup
  col_inj : ∀ p ∈ acc, ∀ q ∈ acc, mk p.1 p.2 = 2 → mk q.1 q.2 = 2 → p.2 = q.2 → p = q
  star_col : ∀ p ∈ acc, mk p.1 p.2 = 1 → ∃ k, (k, p.2) ∈ acc ∧ mk k p.2 = 2
  len : acc.length + 1 = 2 * (acc.filter fun p => mk p.1 p.2 == 2).length

theorem PathInv.bound {mk : Fin n → Fin m → ℕ} {rk r0 acc cur} (h : PathInv mk rk r0 acc cur)
    (hu : ∀ {i j j'}, mk i j = 2 → mk i j' = 2 → j = j') : acc.length + 1 ≤ n + m := by
  have hnd : (acc.filter fun p => mk p.1 p.2 == 2).Nodup := h.nodup.filter _
  have h1 : ((acc.filter fun p => mk p.1 p.2 == 2).map Prod.fst).Nodup := by
    refine hnd.map_on ?_
    rintro ⟨a, b⟩ hx ⟨c, d⟩ hy heq
    simp only [List.mem_filter, beq_iff_eq] at hx hy heq
    subst heq
    rw [hu hx.2 hy.2]
  have h2 : ((acc.filter fun p => mk p.1 p.2 == 2).map Prod.snd).Nodup := by
    refine hnd.map_on ?_
    intro x hx y hy heq
    simp only [List.mem_filter, beq_iff_eq] at hx hy heq
    exact h.col_inj x hx.1 y hy.1 hx.2 hy.2 heq
  have h1' := h1.length_le_card
  have h2' := h2.length_le_card
  simp only [List.length_map, Fintype.card_fin] at h1' h2'
  have := h.len
  omega

theorem PathInv.step {mk : Fin n → Fin m → ℕ} {rk r0 acc cur} (h : PathInv mk rk r0 acc cur)
    (hrk : ∀ i c k, mk i c = 2 → mk k c = 1 → (∃ c', mk k c' = 2) ∧ rk k < rk i)
    {row : Fin n} {col : Fin m} (hs : mk row cur.2 = 1) (hp : mk row col = 2) :
    PathInv mk rk r0 (acc ++ [(row, cur.2)] ++ [(row, col)]) (row, col) := by
  have hlt : rk row < rk cur.1 := (hrk cur.1 cur.2 row h.cur_prime hs).2
  have hnew : ∀ p ∈ acc, p.1 ≠ row := by
    intro p hpa heq
    have := h.rk_min p hpa
    rw [heq] at this
    omega
  have hne : cur.2 ≠ col := by
    intro heq
    rw [heq] at hs
    omega
  have hcolnew : ∀ p ∈ acc, mk p.1 p.2 = 2 → p.2 ≠ col := by
    intro p hpa hp2 heq
    rcases h.chain p hpa hp2 with rfl | ⟨k, hk, hk1⟩
    · exact hne heq
    · rw [heq] at hk1 hk
      have h1 := (hrk row col k hp hk1).2
      have h2 := h.rk_min _ hk
      dsimp only at h2
      omega
  obtain ⟨c0, hc0⟩ := h.start
  refine ⟨?_, ?_, ?_, hp, ?_, ?_, ?_, ?_, ?_, ?_, ?_, ?_⟩
  · intro p hpm
    simp only [List.mem_append, List.mem_singleton] at hpm
    rcases hpm with (hpm | rfl) | rfl
    · exact h.mem12 p hpm
    · exact Or.inl hs
    · exact Or.inr hp
  · exact ⟨c0, by simp [hc0.1], hc0.2⟩
  · simp
  · intro p hpm
    simp only [List.mem_append, List.mem_singleton] at hpm
    rcases hpm with (hpm | rfl) | rfl
    · have := h.rk_min p hpm; dsimp only; omega
    · exact le_rfl
    · exact le_rfl
  · intro p hpm hp2
    simp only [List.mem_append, List.mem_singleton] at hpm
    rcases hpm with (hpm | rfl) | rfl
    · right
      rcases h.chain p hpm hp2 with rfl | ⟨k, hk, hk1⟩
      · exact ⟨row, by simp, hs⟩
      · exact ⟨k, by simp [hk], hk1⟩
    · dsimp only at hp2; omega
    · exact Or.inl rfl
  · intro p hpm hp1
    simp only [List.mem_append, List.mem_singleton] at hpm
    rcases hpm with (hpm | rfl) | rfl
    · obtain ⟨c, hc, hc2⟩ := h.star_row p hpm hp1
      exact ⟨c, by simp [hc], hc2⟩
    · exact ⟨col, by simp, hp⟩
    · exact ⟨col, by simp, hp⟩
  · intro p hpm hp2
    simp only [List.mem_append, List.mem_singleton] at hpm
    rcases hpm with (hpm | rfl) | rfl
    · rcases h.prime_row p hpm hp2 with hr | ⟨c, hc, hc1⟩
      · exact Or.inl hr
      · exact Or.inr ⟨c, by simp [hc], hc1⟩
    · dsimp only at hp2; omega
    · exact Or.inr ⟨cur.2, by simp, hs⟩
  · have := h.nodup
    simp only [List.append_assoc, List.nodup_append, List.cons_append, List.nil_append]
    refine ⟨this, by simp [hne], ?_⟩
    intro a ha b hb heq
    subst heq
    simp only [List.mem_cons, List.not_mem_nil, or_false] at hb
    rcases hb with rfl | rfl
    · exact hnew _ ha rfl
    · exact hnew _ ha rfl
  · intro p hpm q hqm hp2 hq2 heq
    simp only [List.mem_append, List.mem_singleton] at hpm hqm
    have hnot : ∀ x, x = (row, cur.2) → mk x.1 x.2 ≠ 2 := by
      rintro x rfl; dsimp only; omega
    rcases hpm with (hpm | hpm) | rfl
    · rcases hqm with (hqm | hqm) | rfl
      · exact h.col_inj p hpm q hqm hp2 hq2 heq
      · exact absurd hq2 (hnot _ hqm)
      · exact absurd heq (hcolnew p hpm hp2)
    · exact absurd hp2 (hnot _ hpm)
    · rcases hqm with (hqm | hqm) | rfl
      · exact absurd heq.symm (hcolnew q hqm hq2)
      · exact absurd hq2 (hnot _ hqm)
      · rfl
  · intro p hpm hp1
    simp only [List.mem_append, List.mem_singleton] at hpm
    rcases hpm with (hpm | rfl) | rfl
    · obtain ⟨k, hk, hk2⟩ := h.star_col p hpm hp1
      exact ⟨k, by simp [hk], hk2⟩
    · exact ⟨cur.1, by simp [h.cur_mem], h.cur_prime⟩
    · dsimp only at hp1; omega
  · have := h.len
    simp only [List.length_append, List.length_singleton, List.filter_append]
    rw [List.filter_singleton, List.filter_singleton]
    simp [hs, hp]
    omega

theorem step5Path_spec {mk : Fin n → Fin m → ℕ} {rk r0}
    (hu : ∀ {i j j'}, mk i j = 2 → mk i j' = 2 → j = j')
    (hrk : ∀ i c k, mk i c = 2 → mk k c = 1 → (∃ c', mk k c' = 2) ∧ rk k < rk i)
    (fuel : ℕ) (acc cur) (h : PathInv mk rk r0 acc cur) (hf : n + m + 2 ≤ fuel + acc.length) :
    ∃ path cur', step5Path mk fuel acc cur = .ok path ∧ PathInv mk rk r0 path cur' ∧
      ∀ i, mk i cur'.2 ≠ 1 := by
  induction fuel generalizing acc cur with
  | zero => have := h.bound hu; omega
  | succ fuel ih =>
    unfold step5Path
    split
    · rename_i hnz
      refine ⟨acc, cur, rfl, h, fun i hi => ?_⟩
      have := nonzero1_head?_none hnz i
      simp [hi] at this
    · rename_i row hnz
      have hs : mk row cur.2 = 1 := by simpa using nonzero1_head?_some hnz
      obtain ⟨⟨c', hc'⟩, _⟩ := hrk cur.1 cur.2 row h.cur_prime hs
      have hstep := h.step hrk hs hc'
      have hb := hstep.bound hu
      simp only [List.length_append, List.length_singleton] at hb
      rw [if_pos (by omega)]
      dsimp only
      split
      · rename_i hnz2
        have := nonzero1_head?_none hnz2 c'
        simp [hc'] at this
      · rename_i col hnz2
        have hp : mk row col = 2 := by simpa using nonzero1_head?_some hnz2
        have hcc : col = c' := hu hp hc'
        subst hcc
        rw [if_pos (by simp only [List.length_append, List.length_singleton]; omega)]
        refine ih _ _ hstep ?_
        simp only [List.length_append, List.length_singleton]
        omega

theorem foldl_toggle (l : List (Fin n × Fin m)) (hl : l.Nodup) (mk : Fin n → Fin m → ℕ) (i j) :
    l.foldl toggle mk i j =
      if (i, j) ∈ l then (if mk i j = 1 then 0 else 1) else mk i j := by
  induction l generalizing mk with
  | nil => simp
  | cons p l ih =>
    obtain ⟨a, b⟩ := p
    rw [List.nodup_cons] at hl
    rw [List.foldl_cons, ih hl.2]
    have ht : ∀ i j, toggle mk (a, b) i j =
        if (i, j) = (a, b) then (if mk i j = 1 then 0 else 1) else mk i j := by
      intro i j
      simp only [toggle, Prod.mk.injEq]
      split <;> simp only [set2] <;> grind
    rw [ht]
    by_cases hij : (i, j) = (a, b)
    · have : (i, j) ∉ l := by rw [hij]; exact hl.1
      grind
    · grind

/-- What `_step5` guarantees. -/
structure Post5 (st : State α n m) (res : State α n m × Next) : Prop where
  next : res.2 = .step3
  inv : Inv3 res.1
  C_eq : res.1.C = st.C
  U_lt : U res.1.marked < U st.marked
  star_of : ∀ i j, res.1.marked i j = 1 → st.marked i j = 1 ∨ st.marked i j = 2
  star_col : ∀ i j, st.marked i j = 1 → ∃ i', res.1.marked i' j = 1

theorem step5_spec (st : State α n m) (h : Inv5 st) :
    ∃ res, step5 st = .ok res ∧ Post5 st res := by
  obtain ⟨hM, hu, ⟨r0, c0, hz, hpr, hfree⟩, ⟨rk, hrk⟩⟩ := h
  have hini : PathInv st.marked rk r0 [(r0, c0)] (r0, c0) := by
    refine ⟨?_, ⟨c0, by simp, hpr⟩, by simp, hpr, ?_, ?_, ?_, ?_, by simp, ?_, ?_, ?_⟩
    · intro p hp; simp only [List.mem_singleton] at hp; subst hp; exact Or.inr hpr
    · intro p hp; simp only [List.mem_singleton] at hp; subst hp; exact le_rfl
    · intro p hp _; simp only [List.mem_singleton] at hp; exact Or.inl hp
    · intro p hp hp1; simp only [List.mem_singleton] at hp; subst hp; dsimp only at hp1; omega
    · intro p hp _; simp only [List.mem_singleton] at hp; subst hp; exact Or.inl rfl
    · intro p hp q hq _ _ _
      simp only [List.mem_singleton] at hp hq; rw [hp, hq]
    · intro p hp hp1; simp only [List.mem_singleton] at hp; subst hp; dsimp only at hp1; omega
    · simp [hpr]
  obtain ⟨path, cur, hpath, hP, hnos⟩ := step5Path_spec (mk := st.marked) hu hrk (n + m + 1) [(r0, c0)] (r0, c0)
    hini (by simp)
  unfold step5
  rw [hz]
  dsimp only
  rw [hpath]
  refine ⟨_, rfl, ?_⟩
  · -- characterise the new stars
    have hnew : ∀ i j, (if path.foldl toggle st.marked i j = 2 then 0
        else path.foldl toggle st.marked i j) = 1 ↔
        ((i, j) ∈ path ∧ st.marked i j = 2) ∨ ((i, j) ∉ path ∧ st.marked i j = 1) := by
      intro i j
      rw [foldl_toggle _ hP.nodup]
      by_cases hm : (i, j) ∈ path
      · have := hP.mem12 _ hm
        dsimp only at this
        rcases this with h1 | h1 <;> simp [hm, h1]
      · simp only [hm, if_false, false_and, not_false_eq_true, true_and, false_or]
        split <;> omega
    obtain ⟨c00, hc00, hc00'⟩ := hP.start
    have hnew2 : ∀ i j, (if path.foldl toggle st.marked i j = 2 then 0
        else path.foldl toggle st.marked i j) ≠ 2 := by
      intro i j
      split <;> omega
    show Post5 st (⟨st.C, fun _ => true, fun _ => true, some (r0, c0),
      fun i j => if path.foldl toggle st.marked i j = 2 then 0
        else path.foldl toggle st.marked i j⟩, .step3)
    generalize hmk : (fun i j => if path.foldl toggle st.marked i j = 2 then 0
        else path.foldl toggle st.marked i j) = mk' at *
    have hmk' : ∀ i j, (if path.foldl toggle st.marked i j = 2 then 0
        else path.foldl toggle st.marked i j) = mk' i j := fun i j => congrFun (congrFun hmk i) j
    simp only [hmk'] at hnew hnew2
    refine ⟨rfl, ?_, rfl, ?_, ?_, ?_⟩
    · refine ⟨⟨?_, ?_⟩, ?_, fun _ => rfl, fun _ => rfl⟩
      · intro i j j' h1 h2
        replace h1 := (hnew _ _).1 h1
        replace h2 := (hnew _ _).1 h2
        rcases h1 with ⟨h1, h1'⟩ | ⟨h1, h1'⟩ <;> rcases h2 with ⟨h2, h2'⟩ | ⟨h2, h2'⟩
        · exact hu h1' h2'
        · exfalso
          rcases hP.prime_row _ h1 h1' with hr | ⟨c, hc, hc'⟩
          · dsimp only at hr; subst hr; exact hfree _ h2'
          · rw [hM.row hc' h2'] at hc; exact h2 hc
        · exfalso
          rcases hP.prime_row _ h2 h2' with hr | ⟨c, hc, hc'⟩
          · dsimp only at hr; subst hr; exact hfree _ h1'
          · rw [hM.row hc' h1'] at hc; exact h1 hc
        · exact hM.row h1' h2'
      · intro i i' j h1 h2
        replace h1 := (hnew _ _).1 h1
        replace h2 := (hnew _ _).1 h2
        have key : ∀ i i' j, (i, j) ∈ path → st.marked i j = 2 → (i', j) ∉ path →
            st.marked i' j = 1 → False := by
          intro i i' j h1 h1' h2 h2'
          rcases hP.chain _ h1 h1' with hr | ⟨k, hk, hk'⟩
          · rw [← hr] at hnos; exact hnos i' h2'
          · dsimp only at hk hk'; rw [hM.col hk' h2'] at hk; exact h2 hk
        rcases h1 with ⟨h1, h1'⟩ | ⟨h1, h1'⟩ <;> rcases h2 with ⟨h2, h2'⟩ | ⟨h2, h2'⟩
        · have := hP.col_inj _ h1 _ h2 h1' h2' rfl
          simpa using this
        · exact (key _ _ _ h1 h1' h2 h2').elim
        · exact (key _ _ _ h2 h2' h1 h1').elim
        · exact hM.col h1' h2'
      · exact hnew2
    · unfold U
      apply Finset.card_lt_card
      rw [Finset.ssubset_iff_of_subset]
      · refine ⟨r0, by simpa using hfree, ?_⟩
        simp only [Finset.mem_filter, Finset.mem_univ, true_and, not_forall, ne_eq,
          not_not]
        exact ⟨c00, (hnew _ _).2 (Or.inl ⟨hc00, hc00'⟩)⟩
      · intro i hi
        simp only [Finset.mem_filter, Finset.mem_univ, true_and, ne_eq] at hi ⊢
        intro j hj
        by_cases hm : (i, j) ∈ path
        · obtain ⟨c, hc, hc'⟩ := hP.star_row _ hm hj
          exact hi c ((hnew _ _).2 (Or.inl ⟨hc, hc'⟩))
        · exact hi j ((hnew _ _).2 (Or.inr ⟨hm, hj⟩))
    · intro i j hij
      have := (hnew _ _).1 hij
      tauto
    · intro i j hj
      by_cases hm : (i, j) ∈ path
      · obtain ⟨k, hk, hk'⟩ := hP.star_col _ hm hj
        exact ⟨k, (hnew _ _).2 (Or.inl ⟨hk, hk'⟩)⟩
      · exact ⟨i, (hnew _ _).2 (Or.inr ⟨hm, hj⟩)⟩

end FBE.Hungarian
