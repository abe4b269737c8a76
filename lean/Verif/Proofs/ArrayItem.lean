import Verif.Proofs.ArrayAgree
import Verif.Proofs.ApiLaws
import Verif.Spec.Backend

/-!
# Items of arrays
-/

namespace FBE

namespace Arrays

open Classical Tensor Spec

variable {s b bx by' : List ℕ} {r e c N M n : ℕ} {A : Api} {α : Type}

theorem _root_.FBE.Spec.Installed.lawful (h : Installed A) : A.Lawful := by
  obtain rfl | rfl | ⟨lsa, n2, -, rfl⟩ := h
  · exact torchApi_lawful
  · exact oldTorchApi_lawful
  · exact numpyApi_lawful lsa n2

theorem _root_.FBE.Spec.Installed.covered (h : Installed A) : Covered A.B := by
  obtain rfl | rfl | ⟨lsa, n2, hl, rfl⟩ := h
  · exact .inl rfl
  · exact .inl rfl
  · exact .inr ⟨lsa, n2, hl, rfl⟩

theorem signals_sub (x : Tensor ℝ) (m : BIdx s) :
    signals (sub x (bcIdx b (pos m))) [] [] c N = fun _ => signals x b s c N m := rfl

theorem channels_signals (x : Tensor ℝ) (b s : List ℕ) (c n : ℕ) : channels x (c :: b) s c n = signals x b s c n := by
  funext m k t
  rw [channels_eq]

theorem bcIdx_length : ∀ (b i : List ℕ), (bcIdx b i).length = b.length
  | [], _ => rfl
  | _ :: b, i => by simp [bcIdx, bcIdx_length b]

theorem sub_shape {x : Tensor α} {l : List ℕ} (i : List ℕ) (h : x.shape = l ++ b) (hi : i.length = b.length) :
    (sub x i).shape = l := by
  simp [sub, h, hi]

theorem holds2_item {T t : Tensor α} {v : BIdx s → Fin r → Fin e → α} {w : BIdx [] → Fin r → Fin e → α} {m : BIdx s}
    (hT : Holds2 T v) (ht : Holds2 t w) (h : w = fun _ => v m) : SameArray t (sub T (pos m)) := by
  subst h
  refine ⟨?_, ?_⟩
  · rw [sub_shape (l := [e, r]) (pos m) hT.1 (inRange_length (pos_inRange m)), ht.1]; rfl
  · intro i hi
    rw [ht.1] at hi
    match i, hi with
    | [j, k], hi =>
      have := ht.2 () ⟨k, hi.2.1⟩ ⟨j, hi.1⟩
      exact this.trans (hT.2 m ⟨k, hi.2.1⟩ ⟨j, hi.1⟩).symm

theorem holds1_item {T t : Tensor α} {v : BIdx s → Fin c → α} {w : BIdx [] → Fin c → α} {m : BIdx s}
    (hT : Holds1 T v) (ht : Holds1 t w) (h : w = fun _ => v m) : SameArray t (sub T (pos m)) := by
  subst h
  refine ⟨?_, ?_⟩
  · rw [sub_shape (l := [c]) (pos m) hT.1 (inRange_length (pos_inRange m)), ht.1]; rfl
  · intro i hi
    rw [ht.1] at hi
    match i, hi with
    | [k], hi =>
      have := ht.2 () ⟨k, hi.1⟩
      exact this.trans (hT.2 m ⟨k, hi.1⟩).symm

theorem holdsOpt_item {T t : Option (Tensor α)} {v : Option (BIdx s → Fin c → α)}
    {w : Option (BIdx [] → Fin c → α)} {m : BIdx s}
    (hT : HoldsOpt T v) (ht : HoldsOpt t w) (h : w = v.map fun p _ => p m) :
    SameOpt t (T.map fun x => sub x (pos m)) := by
  subst h
  match T, t, v, hT, ht with
  | none, none, none, _, _ => trivial
  | some _, some _, some _, hT, ht => exact holds1_item hT ht rfl

theorem holdsOpt_shape {T : Option (Tensor α)} {v : Option (BIdx s → Fin c → α)} (h : HoldsOpt T v) :
    ∀ p ∈ T, p.shape = c :: s.reverse := by
  intro p hp
  cases hp
  cases v with
  | none => exact h.elim
  | some v => exact h.1

/-- An array of given signals. -/
noncomputable def ofSig (x : Sig s c N) : Tensor ℝ :=
  ⟨N :: c :: s.reverse, fun i => if h : ∃ p : BIdx s × Fin c × Fin N, i = p.2.2.val :: p.2.1.val :: pos p.1 then
    x h.choose.1 h.choose.2.1 h.choose.2.2 else 0⟩

theorem signals_ofSig (x : Sig s c N) : signals (ofSig x) s.reverse s c N = x := by
  funext m k t
  have h : ∃ p : BIdx s × Fin c × Fin N, t.val :: k.val :: bcIdx s.reverse (pos m) = p.2.2.val :: p.2.1.val :: pos p.1 :=
    ⟨(m, k, t), by rw [bcIdx_self (pos_inRange m)]⟩
  unfold signals ofSig
  dsimp only
  rw [dif_pos h]
  generalize hp : h.choose = p
  have hc := h.choose_spec
  rw [hp] at hc
  obtain ⟨m', k', t'⟩ := p
  simp only [List.cons.injEq, bcIdx_self (pos_inRange m)] at hc
  rw [← pos_injective hc.2.2, ← Fin.ext hc.2.1, ← Fin.ext hc.1]

theorem holds2_same {T t : Tensor α} {v : BIdx s → Fin r → Fin e → α} (hT : Holds2 T v) (ht : Holds2 t v) :
    SameArray T t := by
  refine ⟨hT.1.trans ht.1.symm, fun i hi => ?_⟩
  rw [hT.1] at hi
  match i, hi with
  | j :: k :: i, hi =>
    obtain ⟨m, rfl⟩ := exists_pos hi.2.2
    exact (hT.2 m ⟨k, hi.2.1⟩ ⟨j, hi.1⟩).trans (ht.2 m ⟨k, hi.2.1⟩ ⟨j, hi.1⟩).symm

theorem holds1_same {T t : Tensor α} {v : BIdx s → Fin c → α} (hT : Holds1 T v) (ht : Holds1 t v) :
    SameArray T t := by
  refine ⟨hT.1.trans ht.1.symm, fun i hi => ?_⟩
  rw [hT.1] at hi
  match i, hi with
  | k :: i, hi =>
    obtain ⟨m, rfl⟩ := exists_pos hi.2
    exact (hT.2 m ⟨k, hi.1⟩).trans (ht.2 m ⟨k, hi.1⟩).symm

theorem holdsOpt_same {T t : Option (Tensor α)} {v : Option (BIdx s → Fin c → α)} (hT : HoldsOpt T v)
    (ht : HoldsOpt t v) : SameOpt T t := by
  match T, t, v, hT, ht with
  | none, none, none, _, _ => trivial
  | some _, some _, some _, hT, ht => exact holds1_same hT ht

theorem holdsSdr_same {x y : Tensor XR × Option (Tensor ℕ)} {v : SdrOut s c} (hx : HoldsSdr x v) (hy : HoldsSdr y v) :
    SameSdrArrays x y := ⟨holds1_same hx.1 hy.1, holdsOpt_same hx.2 hy.2⟩

theorem holdsBss_same {x y : BssArrays} {v : BssOut s c} (hx : HoldsBss x v) (hy : HoldsBss y v) :
    SameBssArrays x y :=
  ⟨holds1_same hx.1 hy.1, holds1_same hx.2.1 hy.2.1, holds1_same hx.2.2.1 hy.2.2.1, holdsOpt_same hx.2.2.2 hy.2.2.2⟩

theorem same_of_agrees {β : Type} {R : α → β → Prop} {S : α → α → Prop} {x y : Except PyErr α} {v : Except PyErr β}
    (hx : Agrees R x v) (hy : Agrees R y v) (h : ∀ {a b v}, R a v → R b v → S a b) : SameResult S x y := by
  cases v with
  | error err => exact .inl ⟨err, hx, hy⟩
  | ok v =>
    obtain ⟨a, ha, h1⟩ := hx
    obtain ⟨b, hb, h2⟩ := hy
    exact .inr ⟨a, b, ha, hb, h h1 h2⟩

theorem same_of_agrees' {β : Type} {R : α → β → Prop} {S : α → α → Prop} {x y : Except PyErr α} {v w : Except PyErr β}
    (hx : Agrees R x v) (hy : Agrees R y w) (hvw : ∀ q, v = .ok q ↔ w = .ok q)
    (h : ∀ {a b v}, R a v → R b v → S a b) : SameReturn S x y := by
  cases v with
  | error err =>
    cases w with
    | error err' => exact .inl ⟨err, err', hx, hy⟩
    | ok q => cases (hvw q).2 rfl
  | ok v =>
    cases (hvw v).1 rfl
    obtain ⟨a, ha, h1⟩ := hx
    obtain ⟨b, hb, h2⟩ := hy
    exact .inr ⟨a, b, ha, hb, h h1 h2⟩

/-- From the relation of the families to the one of the arrays. -/
theorem itemwise {β γ : Type} {R : α → β → Prop} {R' : α → γ → Prop} {whole : Except PyErr α} {one : List ℕ → Except PyErr α}
    {fw : Except PyErr β} {fo : BIdx s → Except PyErr γ} {Shape : α → Prop} {Item : List ℕ → α → α → Prop}
    (hw : Agrees R whole fw) (ho : ∀ m : BIdx s, Agrees R' (one (pos m)) (fo m))
    (hs : ∀ T v, R T v → Shape T)
    (hi : ∀ v, fw = .ok v → ∀ m : BIdx s, ∃ w, fo m = .ok w ∧ ∀ T t, R T v → R' t w → Item (pos m) T t)
    (hr : Nonempty (BIdx s) → (∀ m, ∃ w, fo m = .ok w) → ∃ v, fw = .ok v) :
    Itemwise s.reverse whole one Shape Item := by
  have hwo : ∀ T, whole = .ok T → ∃ v, fw = .ok v ∧ R T v := by
    intro T hT
    cases hv : fw with
    | error err => rw [hv] at hw; rw [show whole = .error err from hw] at hT; cases hT
    | ok v =>
      rw [hv] at hw
      obtain ⟨T', h1, h2⟩ := hw
      rw [hT] at h1
      cases h1
      exact ⟨v, rfl, h2⟩
  refine ⟨?_, ?_, ?_⟩
  · intro T hT
    obtain ⟨v, -, h⟩ := hwo T hT
    exact hs T v h
  · intro T hT i hii
    obtain ⟨m, rfl⟩ := exists_pos hii
    obtain ⟨v, hv, h⟩ := hwo T hT
    obtain ⟨w, hw', hI⟩ := hi v hv m
    have hm := ho m
    rw [hw'] at hm
    obtain ⟨t, h1, h2⟩ := hm
    exact ⟨t, h1, hI T t h h2⟩
  · rintro ⟨i, hii⟩ hall
    obtain ⟨m0, rfl⟩ := exists_pos hii
    obtain ⟨v, hv⟩ := hr ⟨m0⟩ fun m => by
      obtain ⟨t, ht⟩ := hall (pos m) (pos_inRange m)
      have hm := ho m
      cases hf : fo m with
      | error err => rw [hf] at hm; rw [show one (pos m) = .error err from hm] at ht; cases ht
      | ok w => exact ⟨w, rfl⟩
    rw [hv] at hw
    obtain ⟨T, h, -⟩ := hw
    exact ⟨T, h⟩

end Arrays

end FBE
