import Verif.Model.Effects

/-!
# A sound analysis: which variables refer to arrays allocated during the call
-/

set_option linter.constructorNameAsVariable false

namespace Mem

open Cmd

/-- Add or remove a variable from the set of variables known to refer to new arrays. -/
def mark (F : List Var) (x : Var) (fresh : Bool) : List Var :=
  if fresh then x :: F else F.filter (· ≠ x)

/-- The effect of binding the results of a call. -/
def markOuts (F : List Var) (G : List Var) : List Var → List Var → List Var
  | o :: os, r :: rs => markOuts (mark F o (decide (r ∈ G))) G os rs
  | _, _ => F

/-- The parameters bound to new arrays. -/
def markParams (F : List Var) : List (Var × Var) → List Var
  | [] => []
  | (p, a) :: l => mark (markParams F l) p (decide (a ∈ F))

/-- Forward analysis: from variables that refer to new arrays before a statement to those after it;
fails on a write through any other variable. -/
def check : Cmd → List Var → Option (List Var)
  | .skip, F => some F
  | .new x, F => some (mark F x true)
  | .none x, F => some (mark F x true)
  | .view x y, F => some (mark F x (decide (y ∈ F)))
  | .maybe x ys, F => some (mark F x (ys.all fun y => decide (y ∈ F)))
  | .write x, F => if x ∈ F then some F else Option.none
  | .seq a b, F => (check a F).bind (check b)
  | .ite a b, F => (check a F).bind fun G => (check b F).map fun H => G.filter (· ∈ H)
  | .loop a, F => (check a F).bind fun G =>
      let I := F.filter (· ∈ G)
      (check a I).bind fun J => if I.all (fun x => decide (x ∈ J)) then some I else Option.none
  | .call outs params body rets, F =>
      (check body (markParams F params)).map fun G => markOuts F G outs rets

variable {V : Type*}

/-- Every variable of `F` refers to a buffer allocated after the first `n`. -/
def Fresh (n : ℕ) (F : List Var) (env : Var → Option ℕ) : Prop :=
  ∀ x ∈ F, ∀ l, env x = some l → n ≤ l

theorem Fresh.mark {n : ℕ} {F : List Var} {env : Var → Option ℕ} (h : Fresh n F env) (x : Var)
    (v : Option ℕ) (f : Bool) (hv : f = true → ∀ l, v = some l → n ≤ l) :
    Fresh n (mark F x f) (Function.update env x v) := by
  intro z hz l hl
  unfold Mem.mark at hz
  by_cases hzx : z = x
  · subst hzx
    rw [Function.update_self] at hl
    cases f with
    | true => exact hv rfl l hl
    | false => simp at hz
  · rw [Function.update_of_ne hzx] at hl
    refine h z ?_ l hl
    cases f with
    | true => simpa [hzx] using hz
    | false => simpa [hzx] using hz

theorem Fresh.markOuts {n : ℕ} {src : Var → Option ℕ} {G : List Var} (hG : Fresh n G src) :
    ∀ (outs rets : List Var) (F : List Var) (env : Var → Option ℕ), Fresh n F env →
      Fresh n (markOuts F G outs rets) (bindOuts env src outs rets)
  | [], _, F, env, h => by simpa [Mem.markOuts, bindOuts] using h
  | _ :: _, [], F, env, h => by simpa [Mem.markOuts, bindOuts] using h
  | o :: os, r :: rs, F, env, h => by
    simp only [Mem.markOuts, bindOuts]
    refine Fresh.markOuts hG os rs _ _ (h.mark o _ _ fun hf l hl => ?_)
    exact hG r (of_decide_eq_true hf) l hl

theorem Fresh.markParams {n : ℕ} {F : List Var} {env : Var → Option ℕ} (h : Fresh n F env) :
    ∀ params : List (Var × Var), Fresh n (markParams F params) (bindParams env params)
  | [] => fun x hx => by simp [Mem.markParams] at hx
  | (p, a) :: l => (Fresh.markParams h l).mark p _ _ fun hf k hk => h a (of_decide_eq_true hf) k hk

theorem Fresh.sub {n : ℕ} {F G : List Var} {env : Var → Option ℕ} (h : Fresh n F env)
    (hs : ∀ x ∈ G, x ∈ F) : Fresh n G env := fun x hx => h x (hs x hx)

/-- The analysis is sound: the first `n` buffers keep their contents, and at the end the computed
variables refer to later buffers. -/
theorem check_sound {c : Cmd} {σ τ : State V} {d : Bool} (h : Exec c σ τ d) :
    ∀ (n : ℕ) (F G : List Var), check c F = some G → n ≤ σ.next → Fresh n F σ.env →
      (∀ l < n, τ.heap l = σ.heap l) ∧ n ≤ τ.next ∧ (d = true → Fresh n G τ.env) := by
  induction h with
  | stop c σ => exact fun n F G _ hn _ => ⟨fun _ _ => rfl, hn, fun hd => by cases hd⟩
  | skip σ =>
    intro n F G hc hn hF
    simp only [check, Option.some.injEq] at hc
    subst hc
    exact ⟨fun _ _ => rfl, hn, fun _ => hF⟩
  | new x σ v =>
    intro n F G hc hn hF
    simp only [check, Option.some.injEq] at hc
    subst hc
    refine ⟨fun l hl => Function.update_of_ne (by omega) _ _, by simp; omega, fun _ =>
      hF.mark x _ _ fun _ l hl => ?_⟩
    cases hl
    exact hn
  | none x σ =>
    intro n F G hc hn hF
    simp only [check, Option.some.injEq] at hc
    subst hc
    exact ⟨fun _ _ => rfl, hn, fun _ => hF.mark x _ _ fun _ l hl => by cases hl⟩
  | view x y σ =>
    intro n F G hc hn hF
    simp only [check, Option.some.injEq] at hc
    subst hc
    exact ⟨fun _ _ => rfl, hn, fun _ =>
      hF.mark x _ _ fun hf l hl => hF y (of_decide_eq_true hf) l hl⟩
  | maybeNew x ys σ v =>
    intro n F G hc hn hF
    simp only [check, Option.some.injEq] at hc
    subst hc
    refine ⟨fun l hl => Function.update_of_ne (by omega) _ _, by simp; omega, fun _ =>
      hF.mark x _ _ fun _ l hl => ?_⟩
    cases hl
    exact hn
  | maybeView x ys σ y hy =>
    intro n F G hc hn hF
    simp only [check, Option.some.injEq] at hc
    subst hc
    refine ⟨fun _ _ => rfl, hn, fun _ => hF.mark x _ _ fun hf l hl => hF y ?_ l hl⟩
    exact of_decide_eq_true (List.all_eq_true.1 hf y hy)
  | write x σ l hl v =>
    intro n F G hc hn hF
    simp only [check] at hc
    split at hc
    · rename_i hx
      cases hc
      refine ⟨fun k hk => Function.update_of_ne ?_ _ _, hn, fun _ => hF⟩
      have := hF x hx l hl
      omega
    · cases hc
  | seq h₁ h₂ ih₁ ih₂ =>
    intro n F G hc hn hF
    simp only [check, Option.bind_eq_some_iff] at hc
    obtain ⟨M, h1, h2⟩ := hc
    obtain ⟨a1, a2, a3⟩ := ih₁ n F M h1 hn hF
    obtain ⟨b1, b2, b3⟩ := ih₂ n M G h2 a2 (a3 rfl)
    exact ⟨fun l hl => (b1 l hl).trans (a1 l hl), b2, b3⟩
  | seqStop h₁ ih₁ =>
    intro n F G hc hn hF
    simp only [check, Option.bind_eq_some_iff] at hc
    obtain ⟨M, h1, h2⟩ := hc
    obtain ⟨a1, a2, a3⟩ := ih₁ n F M h1 hn hF
    exact ⟨a1, a2, fun hd => by cases hd⟩
  | iteLeft h ih =>
    intro n F G hc hn hF
    simp only [check, Option.bind_eq_some_iff, Option.map_eq_some_iff] at hc
    obtain ⟨M, h1, M', h2, rfl⟩ := hc
    obtain ⟨a1, a2, a3⟩ := ih n F M h1 hn hF
    exact ⟨a1, a2, fun hd => (a3 hd).sub fun x hx => (List.mem_filter.1 hx).1⟩
  | iteRight h ih =>
    intro n F G hc hn hF
    simp only [check, Option.bind_eq_some_iff, Option.map_eq_some_iff] at hc
    obtain ⟨M, h1, M', h2, rfl⟩ := hc
    obtain ⟨a1, a2, a3⟩ := ih n F M' h2 hn hF
    exact ⟨a1, a2, fun hd => (a3 hd).sub fun x hx => by simpa using (List.mem_filter.1 hx).2⟩
  | loopDone a σ =>
    intro n F G hc hn hF
    simp only [check, Option.bind_eq_some_iff] at hc
    obtain ⟨M, h1, J, h2, h3⟩ := hc
    split at h3
    · cases h3
      exact ⟨fun _ _ => rfl, hn, fun _ => hF.sub fun x hx => (List.mem_filter.1 hx).1⟩
    · cases h3
  | @loopStep a σ τ υ d h₁ h₂ ih₁ ih₂ =>
    intro n F G hc hn hF
    simp only [check, Option.bind_eq_some_iff] at hc
    obtain ⟨M, h1, J, h2, h3⟩ := hc
    split at h3
    · rename_i hIJ
      cases h3
      have hIJ' : ∀ x ∈ F.filter (· ∈ M), x ∈ J := fun x hx =>
        of_decide_eq_true (List.all_eq_true.1 hIJ x hx)
      have hI : Fresh n (F.filter (· ∈ M)) σ.env := hF.sub fun x hx => (List.mem_filter.1 hx).1
      obtain ⟨a1, a2, a3⟩ := ih₁ n _ J h2 hn hI
      have hloop : check (.loop a) (F.filter (· ∈ M)) = some (F.filter (· ∈ M)) := by
        have hfil : (F.filter (· ∈ M)).filter (· ∈ J) = F.filter (· ∈ M) := by
          rw [List.filter_eq_self]
          intro x hx
          simpa using hIJ' x hx
        simp only [check, h2, Option.bind_some, hfil, hIJ, if_true]
      obtain ⟨b1, b2, b3⟩ := ih₂ n _ _ hloop a2 ((a3 rfl).sub hIJ')
      exact ⟨fun l hl => (b1 l hl).trans (a1 l hl), b2, b3⟩
    · cases h3
  | loopStop h₁ ih₁ =>
    intro n F G hc hn hF
    simp only [check, Option.bind_eq_some_iff] at hc
    obtain ⟨M, h1, J, h2, h3⟩ := hc
    obtain ⟨a1, a2, a3⟩ := ih₁ n F M h1 hn hF
    exact ⟨a1, a2, fun hd => by cases hd⟩
  | call h ih =>
    intro n F G hc hn hF
    simp only [check, Option.map_eq_some_iff] at hc
    obtain ⟨M, h1, rfl⟩ := hc
    obtain ⟨a1, a2, a3⟩ := ih n _ M h1 hn (hF.markParams _)
    exact ⟨a1, a2, fun _ => Fresh.markOuts (a3 rfl) _ _ _ _ hF⟩
  | callStop h ih =>
    intro n F G hc hn hF
    simp only [check, Option.map_eq_some_iff] at hc
    obtain ⟨M, h1, rfl⟩ := hc
    obtain ⟨a1, a2, a3⟩ := ih n _ M h1 hn (hF.markParams _)
    exact ⟨a1, a2, fun hd => by cases hd⟩

end Mem
