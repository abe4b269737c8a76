import Verif.Model.Special
import Verif.Spec.Special


/-!
# Special samples: preprocessing and propagation of NaN
-/

namespace FBE.Special

open Classical XR Matrix Spec

variable {s : List ℕ} {r e c N M n : ℕ}

/-! ### Preprocessing -/

theorem total_fin (v : Fin n → ℝ) : total (fun t => fin (v t)) = fin (∑ t, v t) := by
  have key : ∀ (l : List ℝ) (a : ℝ), (l.map fin).foldl add (fin a) = fin (a + l.sum) := by
    intro l
    induction l with
    | nil => intro a; simp
    | cons b l ih =>
      intro a
      rw [List.map_cons, List.foldl_cons, List.sum_cons, ← add_assoc]
      exact ih (a + b)
  unfold total
  have : List.ofFn (fun t => fin (v t)) = (List.ofFn v).map fin := by
    rw [List.map_ofFn]
    rfl
  rw [this, key, List.sum_ofFn, zero_add]

theorem energyX_fin {Ω : ℝ} (hΩ : 0 ≤ Ω) (v : Fin n → ℝ) :
    energyX Ω (fun t => fin (v t)) = if Ω < ∑ t, v t ^ 2 then pinf else fin (∑ t, v t ^ 2) := by
  have hinf : ∀ l : List ℝ, (l.map fin).foldl (fun a t => upTo Ω (add a (upTo Ω (mul t t)))) pinf = pinf := by
    intro l
    induction l with
    | nil => rfl
    | cons b l ih =>
      rw [List.map_cons, List.foldl_cons]
      have : upTo Ω (add pinf (upTo Ω (mul (fin b) (fin b)))) = pinf := by
        show upTo Ω (add pinf (if Ω < b * b then pinf else fin (b * b))) = pinf
        split <;> rfl
      rw [this, ih]
  have hnn : ∀ l : List ℝ, 0 ≤ (l.map fun b => b ^ 2).sum := by
    intro l
    refine List.sum_nonneg ?_
    intro x hx
    obtain ⟨b, -, rfl⟩ := List.mem_map.1 hx
    positivity
  have key : ∀ (l : List ℝ) (a : ℝ), 0 ≤ a → a ≤ Ω →
      (l.map fin).foldl (fun a t => upTo Ω (add a (upTo Ω (mul t t)))) (fin a) =
        if Ω < a + (l.map fun b => b ^ 2).sum then pinf else fin (a + (l.map fun b => b ^ 2).sum) := by
    intro l
    induction l with
    | nil =>
      intro a h0 h1
      simp [not_lt.2 h1]
    | cons b l ih =>
      intro a h0 h1
      rw [List.map_cons, List.foldl_cons, List.map_cons, List.sum_cons, ← add_assoc]
      have hl := hnn l
      by_cases hb : Ω < a + b ^ 2
      · have : upTo Ω (add (fin a) (upTo Ω (mul (fin b) (fin b)))) = pinf := by
          show upTo Ω (add (fin a) (if Ω < b * b then pinf else fin (b * b))) = pinf
          split
          · rfl
          · show (if Ω < a + b * b then pinf else fin (a + b * b)) = pinf
            rw [if_pos (by rw [← pow_two]; exact hb)]
        rw [this, hinf, if_pos (by linarith)]
      · have : upTo Ω (add (fin a) (upTo Ω (mul (fin b) (fin b)))) = fin (a + b ^ 2) := by
          show upTo Ω (add (fin a) (if Ω < b * b then pinf else fin (b * b))) = _
          rw [if_neg (by nlinarith)]
          show (if Ω < a + b * b then pinf else fin (a + b * b)) = _
          rw [if_neg (by rw [← pow_two]; exact hb), pow_two]
        rw [this, ih _ (by positivity) (not_lt.1 hb)]
  unfold energyX
  have : List.ofFn (fun t => fin (v t)) = (List.ofFn v).map fin := by
    rw [List.map_ofFn]
    rfl
  rw [this, key _ 0 le_rfl hΩ, List.map_ofFn, List.sum_ofFn, zero_add]
  rfl

theorem nan_add (a : XR) : add nan a = nan := by cases a <;> rfl
theorem add_nan (a : XR) : add a nan = nan := by cases a <;> rfl
theorem div_nan (a : XR) : div a nan = nan := by cases a <;> rfl

/-- A NaN sample makes the energy NaN. -/
theorem energyX_nan {Ω : ℝ} {x : Fin n → XR} {t : Fin n} (h : x t = nan) : energyX Ω x = nan := by
  have h0 : ∀ l : List XR, l.foldl (fun a t => upTo Ω (add a (upTo Ω (mul t t)))) nan = nan := by
    intro l
    induction l with
    | nil => rfl
    | cons b l ih =>
      rw [List.foldl_cons, nan_add]
      exact ih
  have key : ∀ (l : List XR) (a : XR), nan ∈ l → l.foldl (fun a t => upTo Ω (add a (upTo Ω (mul t t)))) a = nan := by
    intro l
    induction l with
    | nil => intro a h; cases h
    | cons b l ih =>
      intro a h
      rw [List.foldl_cons]
      rcases List.mem_cons.1 h with rfl | h
      · have : upTo Ω (add a (upTo Ω (mul nan nan))) = nan := by
          show upTo Ω (add a nan) = nan
          rw [add_nan]
          rfl
        rw [this, h0]
      · exact ih _ h
  exact key _ _ ((List.mem_ofFn' _ _).2 ⟨t, h⟩)

/-- An infinite sample makes the energy infinite, or NaN. -/
theorem energyX_inf {Ω : ℝ} {x : Fin n → XR} {t : Fin n} (h : x t = pinf ∨ x t = ninf) :
    energyX Ω x = pinf ∨ energyX Ω x = nan := by
  have h0 : ∀ (l : List XR) (a : XR), a = pinf ∨ a = nan →
      l.foldl (fun a t => upTo Ω (add a (upTo Ω (mul t t)))) a = pinf ∨
        l.foldl (fun a t => upTo Ω (add a (upTo Ω (mul t t)))) a = nan := by
    intro l
    induction l with
    | nil => intro a h; exact h
    | cons b l ih =>
      intro a h
      rw [List.foldl_cons]
      refine ih _ ?_
      rcases h with rfl | rfl
      · cases b with
        | fin b =>
          left
          show upTo Ω (add pinf (if Ω < b * b then pinf else fin (b * b))) = pinf
          split <;> rfl
        | pinf => exact Or.inl rfl
        | ninf => exact Or.inl rfl
        | nan => exact Or.inr rfl
      · right
        rw [nan_add]
        rfl
  have hstart : ∀ (l : List XR) (a : XR), (a = pinf ∨ a = nan ∨ ∃ v, a = fin v) → (pinf ∈ l ∨ ninf ∈ l) →
      l.foldl (fun a t => upTo Ω (add a (upTo Ω (mul t t)))) a = pinf ∨
        l.foldl (fun a t => upTo Ω (add a (upTo Ω (mul t t)))) a = nan := by
    intro l
    induction l with
    | nil => rintro a - (h | h) <;> cases h
    | cons b l ih =>
      intro a ha h
      rw [List.foldl_cons]
      by_cases hb : b = pinf ∨ b = ninf
      · refine h0 _ _ ?_
        have hsq : upTo Ω (mul b b) = pinf := by rcases hb with rfl | rfl <;> rfl
        rw [hsq]
        rcases ha with rfl | rfl | ⟨v, rfl⟩
        · exact Or.inl rfl
        · exact Or.inr rfl
        · exact Or.inl rfl
      · refine ih _ ?_ ?_
        · cases b with
          | fin b =>
            have hsq : upTo Ω (mul (fin b) (fin b)) = if Ω < b * b then pinf else fin (b * b) := rfl
            rw [hsq]
            rcases ha with rfl | rfl | ⟨v, rfl⟩
            · left
              split <;> rfl
            · right; left
              rw [nan_add]
              rfl
            · split
              · exact Or.inl rfl
              · show (if Ω < v + b * b then pinf else fin (v + b * b)) = pinf ∨ (if Ω < v + b * b then pinf else fin (v + b * b)) = nan ∨
                  ∃ w, (if Ω < v + b * b then pinf else fin (v + b * b)) = fin w
                split
                · exact Or.inl rfl
                · exact Or.inr (Or.inr ⟨_, rfl⟩)
          | pinf => exact absurd (Or.inl rfl) hb
          | ninf => exact absurd (Or.inr rfl) hb
          | nan =>
            right; left
            show upTo Ω (add a nan) = nan
            rw [add_nan]
            rfl
        · push Not at hb
          rcases h with h | h
          · exact Or.inl ((List.mem_cons.1 h).resolve_left (Ne.symm hb.1))
          · exact Or.inr ((List.mem_cons.1 h).resolve_left (Ne.symm hb.2))
  refine hstart _ _ (Or.inr (Or.inr ⟨0, rfl⟩)) ?_
  rcases h with h | h
  · exact Or.inl ((List.mem_ofFn' _ _).2 ⟨t, h⟩)
  · exact Or.inr ((List.mem_ofFn' _ _).2 ⟨t, h⟩)

theorem not_finite {x : Fin n → XR} (h : ¬ FiniteSamples x) : ∃ t, x t = pinf ∨ x t = ninf ∨ x t = nan := by
  unfold FiniteSamples at h
  push Not at h
  obtain ⟨t, ht⟩ := h
  refine ⟨t, ?_⟩
  cases hx : x t with
  | fin a => exact absurd hx (ht a)
  | pinf => exact Or.inl rfl
  | ninf => exact Or.inr (Or.inl rfl)
  | nan => exact Or.inr (Or.inr rfl)

/-- A channel with a sample that is not a number gets a NaN when it is normalised. -/
theorem normalizeX_bad {Ω : ℝ} {x : Fin n → XR} (h : ¬ FiniteSamples x) : ∃ t, normalizeX Ω x t = nan := by
  obtain ⟨t, ht⟩ := not_finite h
  refine ⟨t, ?_⟩
  unfold normalizeX
  have hn : energyX Ω x = nan → div (x t) (max2 (sqrtX (energyX Ω x)) (fin 1e-6)) = nan := by
    intro h
    rw [h]
    exact div_nan _
  have hi : x t = pinf ∨ x t = ninf → div (x t) (max2 (sqrtX (energyX Ω x)) (fin 1e-6)) = nan := by
    intro h
    rcases energyX_inf (Ω := Ω) h with he | he
    · rw [he]
      rcases h with h | h <;> rw [h] <;> rfl
    · exact hn he
  rcases ht with h | h | h
  · exact hi (Or.inl h)
  · exact hi (Or.inr h)
  · exact hn (energyX_nan h)

theorem total_bad {x : Fin n → XR} (h : ¬ FiniteSamples x) :
    total x = nan ∨ (total x = pinf ∧ ∃ t, x t = pinf) ∨ (total x = ninf ∧ ∃ t, x t = ninf) := by
  have h1 : ∀ (l : List XR) (a : XR), l.foldl add a = pinf → a = pinf ∨ pinf ∈ l := by
    intro l
    induction l with
    | nil => intro a h; exact Or.inl h
    | cons b l ih =>
      intro a h
      rw [List.foldl_cons] at h
      rcases ih _ h with h | h
      · cases a <;> cases b <;> first | exact Or.inl rfl | exact Or.inr (List.mem_cons_self) | cases h
      · exact Or.inr (List.mem_cons_of_mem _ h)
  have h2 : ∀ (l : List XR) (a : XR), l.foldl add a = ninf → a = ninf ∨ ninf ∈ l := by
    intro l
    induction l with
    | nil => intro a h; exact Or.inl h
    | cons b l ih =>
      intro a h
      rw [List.foldl_cons] at h
      rcases ih _ h with h | h
      · cases a <;> cases b <;> first | exact Or.inl rfl | exact Or.inr (List.mem_cons_self) | cases h
      · exact Or.inr (List.mem_cons_of_mem _ h)
  have h3 : ∀ (l : List XR) (a : XR) (v : ℝ), l.foldl add a = fin v → (∃ w, a = fin w) ∧ ∀ b ∈ l, ∃ w, b = fin w := by
    intro l
    induction l with
    | nil => intro a v h; exact ⟨⟨v, h⟩, fun b h => by cases h⟩
    | cons b l ih =>
      intro a v h
      rw [List.foldl_cons] at h
      obtain ⟨⟨w, hw⟩, hl⟩ := ih _ _ h
      have : (∃ w, a = fin w) ∧ ∃ w, b = fin w := by
        cases a <;> cases b <;> first | exact ⟨⟨_, rfl⟩, ⟨_, rfl⟩⟩ | cases hw
      refine ⟨this.1, fun b' hb' => ?_⟩
      rcases List.mem_cons.1 hb' with rfl | hb'
      · exact this.2
      · exact hl _ hb'
  cases ht : total x with
  | nan => exact Or.inl rfl
  | pinf =>
    refine Or.inr (Or.inl ⟨rfl, ?_⟩)
    rcases h1 _ _ ht with h | h
    · cases h
    · exact (List.mem_ofFn' _ _).1 h
  | ninf =>
    refine Or.inr (Or.inr ⟨rfl, ?_⟩)
    rcases h2 _ _ ht with h | h
    · cases h
    · exact (List.mem_ofFn' _ _).1 h
  | fin v =>
    exact absurd (fun t => (h3 _ _ _ ht).2 _ ((List.mem_ofFn' _ _).2 ⟨t, rfl⟩)) h

theorem removeMeanX_bad {x : Fin n → XR} (h : ¬ FiniteSamples x) : ¬ FiniteSamples (removeMeanX x) := by
  obtain ⟨t0, -⟩ := not_finite h
  intro hf
  rcases total_bad h with h | ⟨h, t, ht⟩ | ⟨h, t, ht⟩
  · obtain ⟨a, ha⟩ := hf t0
    unfold removeMeanX at ha
    rw [h] at ha
    have : sub (x t0) (div nan (fin n)) = nan := by
      show add (x t0) nan = nan
      exact add_nan _
    rw [this] at ha
    cases ha
  · obtain ⟨a, ha⟩ := hf t
    unfold removeMeanX at ha
    have hd : div pinf (fin n) = pinf := by
      show (if (n : ℝ) < 0 then ninf else pinf) = pinf
      rw [if_neg (not_lt.2 (Nat.cast_nonneg n))]
    rw [h, ht, hd] at ha
    cases ha
  · obtain ⟨a, ha⟩ := hf t
    unfold removeMeanX at ha
    have hd : div ninf (fin n) = ninf := by
      show (if (n : ℝ) < 0 then pinf else ninf) = ninf
      rw [if_neg (not_lt.2 (Nat.cast_nonneg n))]
    rw [h, ht, hd] at ha
    cases ha

theorem removeMeanX_fin (hn : 0 < n) (v : Fin n → ℝ) : removeMeanX (fun t => fin (v t)) = fun t => fin (removeMean v t) := by
  funext t
  unfold removeMeanX removeMean
  rw [total_fin]
  have : div (fin (∑ t, v t)) (fin n) = fin ((∑ t, v t) / n) := by
    show (if (n : ℝ) = 0 then _ else fin _) = _
    rw [if_neg (by exact_mod_cast hn.ne')]
  rw [this]
  show fin (v t + -((∑ t, v t) / n)) = _
  rw [← sub_eq_add_neg]

theorem normalizeX_fin {Ω : ℝ} (hΩ : 0 ≤ Ω) (v : Fin n → ℝ) (t : Fin n) :
    normalizeX Ω (fun t => fin (v t)) t = if ∑ t, v t ^ 2 ≤ Ω then fin (normalize v t) else fin 0 := by
  unfold normalizeX
  rw [energyX_fin hΩ]
  by_cases h : ∑ t, v t ^ 2 ≤ Ω
  · rw [if_neg (not_lt.2 h), if_pos h]
    show (if max √(∑ t, v t ^ 2) 1e-6 = 0 then _ else fin _) = _
    rw [if_neg (by have : (0 : ℝ) < max √(∑ t, v t ^ 2) 1e-6 := lt_max_of_lt_right (by norm_num)
                   exact this.ne')]
    rfl
  · rw [if_pos (not_le.1 h), if_neg h]
    rfl

theorem normalize_zero (t : Fin n) : normalize (0 : Fin n → ℝ) t = 0 := by
  unfold normalize
  simp

theorem preprocess_zero (zm : Bool) (t : Fin n) : preprocess zm (0 : Fin n → ℝ) t = 0 := by
  unfold preprocess
  have : (if zm then removeMean (0 : Fin n → ℝ) else 0) = 0 := by
    split
    · funext t
      unfold removeMean
      simp
    · rfl
  rw [this, normalize_zero]

/-! ### Arrays that are NaN -/

/-- `a`, or NaN unless `p`. -/
noncomputable def mask {α : Type} (p : Prop) (a : α) : Option α := if p then some a else none

theorem mask_pos {α : Type} {p : Prop} (h : p) (a : α) : mask p a = some a := if_pos h
theorem mask_neg {α : Type} {p : Prop} (h : ¬ p) (a : α) : mask p a = none := if_neg h

theorem mask_congr {α : Type} {p q : Prop} (h : p ↔ q) (a : α) : mask p a = mask q a := by rw [propext h]

theorem map_mask {α β : Type} (f : α → β) (p : Prop) (a : α) : (mask p a).map f = mask p (f a) := by
  unfold mask
  split <;> rfl

theorem map₂_mask {α β γ : Type} (f : α → β → γ) (p q : Prop) (a : α) (b : β) :
    Option.map₂ f (mask p a) (mask q b) = mask (p ∧ q) (f a b) := by
  by_cases hp : p
  · by_cases hq : q
    · rw [mask_pos hp, mask_pos hq, mask_pos ⟨hp, hq⟩]
      rfl
    · rw [mask_pos hp, mask_neg hq, mask_neg fun h => hq h.2]
      rfl
  · rw [mask_neg hp, mask_neg (p := p ∧ q) fun h => hp h.1]
    rfl

theorem allSome_mask {ι α : Type} (p : ι → Prop) (a : ι → α) : allSome (fun i => mask (p i) (a i)) = mask (∀ i, p i) a := by
  unfold allSome
  by_cases h : ∀ i, p i
  · have hs : ∀ i, mask (p i) (a i) = some (a i) := fun i => mask_pos (h i) _
    rw [mask_pos h, dif_pos fun i => by beta_reduce; rw [hs]; rfl]
    congr 1
    funext i
    simp only [hs, Option.get_some]
  · rw [mask_neg h, dif_neg]
    intro hc
    refine h fun i => ?_
    by_contra hi
    have := hc i
    beta_reduce at this
    rw [mask_neg hi] at this
    cases this

theorem dotX_mask {J : Type} [Fintype J] (p q : Prop) (a b : J → ℝ) :
    dotX (mask p a) (mask q b) = mask (p ∧ q) (∑ l, a l * b l) := map₂_mask _ _ _ _ _

theorem toX_mask (p : Prop) (a : ℝ) : toX (mask p a) = if p then fin a else nan := by
  unfold mask
  split <;> rfl

theorem solveX_mask {ι κ J : Type} [Fintype J] [DecidableEq J] {q : Bool} {p : ι → Prop} {pb : ι → κ → Prop}
    {A : ι → Matrix J J ℝ} {b : ι → κ → J → ℝ} {sol} (h : solveStack A b = .ok sol) (hq : q = true → ∀ i, p i) :
    solveX q (fun i => mask (p i) (A i)) (fun i k => mask (pb i k) (b i k)) =
      .ok fun i k => mask (p i ∧ pb i k) (sol i k) := by
  unfold solveStack at h
  split at h
  · cases h
  · rename_i hs
    cases h
    unfold solveX
    rw [if_neg]
    · congr 1
      funext i k
      exact map₂_mask _ _ _ _ _
    · rintro (⟨i, R, hR, hdet⟩ | ⟨hq', i, hi⟩)
      · beta_reduce at hR
        by_cases hp : p i
        · rw [mask_pos hp] at hR
          cases hR
          exact hs ⟨i, hdet⟩
        · rw [mask_neg hp] at hR
          cases hR
      · beta_reduce at hi
        rw [mask_pos (hq hq' i)] at hi
        cases hi

/-- The preprocessed channel. -/
theorem allSome_preprocessX {Ω : ℝ} (hΩ : 0 ≤ Ω) {zm : Bool} {x : Fin n → XR} {v : Fin n → ℝ} (h : StandsFor Ω zm x v) :
    (allSome fun t => (preprocessX Ω zm x t).toReal?) = mask (FiniteSamples x) (preprocess zm v) := by
  by_cases hf : FiniteSamples x
  · rw [mask_pos hf]
    choose u hu using hf
    obtain ⟨h1, h2⟩ := h u hu
    obtain rfl : x = fun t => fin (u t) := funext hu
    have key : ∀ t, preprocessX Ω zm (fun t => fin (u t)) t = fin (preprocess zm v t) := by
      intro t
      have hn : 0 < n := Nat.lt_of_le_of_lt (Nat.zero_le _) t.isLt
      have hc : (if zm then removeMeanX (fun t => fin (u t)) else fun t => fin (u t)) = fun t => fin (centred zm u t) := by
        unfold centred
        split
        · rw [removeMeanX_fin hn]
          rfl
        · rfl
      unfold preprocessX
      rw [hc, normalizeX_fin hΩ]
      split
      · rename_i hle
        rw [h1 hle]
        unfold preprocess centred
        rfl
      · rename_i hle
        rw [h2 (not_le.1 hle), preprocess_zero]
    have : (fun t => (preprocessX Ω zm (fun t => fin (u t)) t).toReal?) = fun t => mask True (preprocess zm v t) := by
      funext t
      rw [key, mask_pos trivial]
      rfl
    rw [this, allSome_mask, mask_pos fun _ => trivial]
  · rw [mask_neg hf]
    have : ∃ t, preprocessX Ω zm x t = nan := by
      unfold preprocessX
      refine normalizeX_bad ?_
      split
      · exact removeMeanX_bad hf
      · exact hf
    obtain ⟨t, ht⟩ := this
    unfold allSome
    rw [dif_neg]
    intro hc
    have := hc t
    beta_reduce at this
    rw [ht] at this
    cases this

theorem coherenceToNegSdr_nan (cl : Option ℝ) : coherenceToNegSdr cl nan = nan := by
  cases cl <;> rfl

end FBE.Special
