import Verif.Proofs.ArraySdrLoss

/-!
# `_solve_permutation` and `sdr` on arrays
-/

set_option linter.unusedSectionVars false

namespace FBE

open Classical Matrix Spec Tensor

namespace Arrays

variable {A : Api} {s bx by' : List ℕ} {r e c a b nOut nArgs N M K : ℕ} {o : Opts}

theorem zipWith_ofFn {α β γ : Type} {n : ℕ} (f : α → β → γ) (x : Fin n → α) (y : Fin n → β) :
    List.zipWith f (List.ofFn x) (List.ofFn y) = List.ofFn fun i => f (x i) (y i) := by
  refine List.ext_getElem (by simp) fun i h1 h2 => by simp

theorem mapM_ofFn {α β : Type} {n : ℕ} {f : α → Except PyErr β} {x : Fin n → α} {y : Fin n → β}
    (h : ∀ i, f (x i) = .ok (y i)) : (List.ofFn x).mapM f = .ok (List.ofFn y) := by
  induction n with
  | zero => simp; rfl
  | succ n ih =>
    rw [List.ofFn_succ, List.ofFn_succ, List.mapM_cons, h, ok_bind, ih fun i => h i.succ]
    rfl

/-- Arrays built by the loop over the batch. -/
def IsPerm (t : PermArrays) (v : PermOut s nArgs nOut) : Prop :=
  Holds1 t.loss v.loss ∧ (∃ T : Fin nArgs → Tensor XR, t.args = List.ofFn T ∧ ∀ i, Holds1 (T i) (v.args i)) ∧
    Holds1 t.perm v.perm

theorem setRow_holds {α : Type} [Zero α] {out : Tensor α} {v : BIdx s → Fin nOut → α} (h : Holds1 out v) (m : BIdx s)
    {l : List α} {w : Fin nOut → α} (hw : ∀ k : Fin nOut, l.getD k.val 0 = w k) :
    Holds1 (setRow out (pos m) l) (Function.update v m w) := by
  obtain ⟨hs, hv⟩ := h
  refine ⟨hs, fun m' k => ?_⟩
  show (tab out.shape _).get _ = _
  rw [hs, tab_get (row_inRange m' k)]
  by_cases hm : m' = m
  · subst hm
    rw [Function.update_self]
    exact (if_pos rfl).trans (hw k)
  · have : pos m' ≠ pos m := fun h => hm (pos_injective h)
    simp [Function.update_of_ne hm, this, hv]

theorem getD_gather {α : Type} [Zero α] {l : List (Fin a × Fin b)} (h : l.length = nOut) (x : Fin a → Fin b → α)
    (k : Fin nOut) : (l.map fun p => x p.1 p.2).getD k.val 0 = gather l h x k := by
  have hk : k.val < l.length := h ▸ k.isLt
  rw [List.getD_eq_getElem _ _ (by simpa using hk), List.getElem_map]
  rfl

theorem permBody_agrees {loss : Tensor XR} {loss' : BIdx s → Fin a → Fin b → XR} (hl : Holds2 loss loss')
    {T : Fin nArgs → Tensor XR} {args' : Fin nArgs → BIdx s → Fin a → Fin b → XR} (ha : ∀ i, Holds2 (T i) (args' i))
    {out : PermArrays} {out' : PermOut s nArgs nOut} (ho : IsPerm out out') (m : BIdx s) :
    Agrees IsPerm (permBody A a b nOut loss (List.ofFn T) out (pos m)) (FBE.permBody A.B loss' args' out' m) := by
  have h1 : (fun (i : Fin a) (j : Fin b) => loss.get (j.val :: i.val :: pos m)) = loss' m := by
    funext i j; exact hl.2 m i j
  simp only [permBody, FBE.permBody, h1]
  cases hL : lsaWithInf A.B (loss' m) with
  | error err => rfl
  | ok l =>
    dsimp only
    by_cases h : l.length = nOut
    · rw [if_pos h, dif_pos h]
      obtain ⟨hloss, ⟨T', hT', hTa⟩, hperm⟩ := ho
      have at' : ∀ {x : Tensor XR} {x' : BIdx s → Fin a → Fin b → XR}, Holds2 x x' → ∀ k : Fin nOut,
          (l.map fun p => x.get (p.2.val :: p.1.val :: pos m)).getD k.val 0 = gather l h (x' m) k := by
        intro x x' hx k
        rw [← getD_gather h]
        simp only [hx.2]
      refine agrees_ok rfl ⟨setRow_holds hloss m (at' hl), ⟨fun i => setRow (T' i) (pos m)
        (l.map fun p => (T i).get (p.2.val :: p.1.val :: pos m)), ?_, fun i => setRow_holds (hTa i) m (at' (ha i))⟩,
        setRow_holds hperm m fun k => getD_gather h (fun _ j => j.val) k⟩
      dsimp only
      rw [hT', zipWith_ofFn]
    · rw [if_neg h, dif_neg h]
      rfl

theorem foldlM_agrees {α β γ δ : Type} {R : α → β → Prop} {f : α → δ → Except PyErr α} {f' : β → γ → Except PyErr β}
    {g : γ → δ} (h : ∀ x y m, R x y → Agrees R (f x (g m)) (f' y m)) :
    ∀ (l : List γ) {x : α} {y : β}, R x y → Agrees R ((l.map g).foldlM f x) (l.foldlM f' y)
  | [], x, y, hR => agrees_ok rfl hR
  | m :: l, x, y, hR => by
    rw [List.map_cons, List.foldlM_cons, List.foldlM_cons]
    have h1 := h x y m hR
    cases hy : f' y m with
    | error err =>
      rw [hy] at h1
      rw [show f x (g m) = _ from h1]; rfl
    | ok y' =>
      rw [hy] at h1
      obtain ⟨x', hx, hR'⟩ := h1
      rw [hx, ok_bind, ok_bind]
      exact foldlM_agrees h l hR'

theorem holds1_zero {α : Type} [Zero α] : Holds1 (tab (nOut :: s.reverse) fun _ => (0 : α))
    (fun (_ : BIdx s) (_ : Fin nOut) => (0 : α)) :=
  ⟨rfl, fun m k => tab_get (row_inRange m k)⟩

theorem permLoop_agrees {loss : Tensor XR} {loss' : BIdx s → Fin a → Fin b → XR} (hl : Holds2 loss loss')
    {T : Fin nArgs → Tensor XR} {args' : Fin nArgs → BIdx s → Fin a → Fin b → XR} (ha : ∀ i, Holds2 (T i) (args' i))
    {zs : List (Tensor XR)} (hz : zs = List.ofFn fun _ : Fin nArgs => tab (nOut :: s.reverse) fun _ => 0) :
    Agrees IsPerm ((indices s.reverse).foldlM (permBody A a b nOut loss (List.ofFn T))
      { loss := tab (nOut :: s.reverse) fun _ => 0
        args := zs
        perm := tab (nOut :: s.reverse) fun _ => 0 }) (permLoop A.B nOut loss' args') := by
  rw [indices_eq]
  exact foldlM_agrees (fun x y m h => permBody_agrees hl ha h m) (ndindex s)
    ⟨holds1_zero, ⟨_, hz, fun _ => holds1_zero⟩, holds1_zero⟩

theorem holds2_transpose {α : Type} [Zero α] {t : Tensor α} {v : BIdx s → Fin r → Fin e → α} (h : Holds2 t v) :
    ∃ t', t.transpose (-2) (-1) = .ok t' ∧ Holds2 t' fun m (j : Fin e) (k : Fin r) => v m k j := by
  refine ⟨_, transpose_21 h.1, rfl, fun m j k => ?_⟩
  rw [tab_get (show InRange (r :: e :: s.reverse) (k.val :: j.val :: pos m) from ⟨k.isLt, row_inRange m j⟩)]
  exact h.2 m k j

theorem map_const_ofFn {α β : Type} {n : ℕ} (T : Fin n → α) (z : β) :
    (List.ofFn T).map (fun _ => z) = List.ofFn fun _ : Fin n => z := by
  rw [List.map_ofFn]; rfl

theorem solvePermutation_agrees {loss : Tensor XR} {loss' : BIdx s → Fin r → Fin e → XR} (hl : Holds2 loss loss')
    {T : Fin nArgs → Tensor XR} {args' : Fin nArgs → BIdx s → Fin r → Fin e → XR} (ha : ∀ i, Holds2 (T i) (args' i)) :
    Agrees IsPerm (solvePermutation A loss (List.ofFn T)) (FBE.solvePermutation A.B loss' args') := by
  unfold solvePermutation FBE.solvePermutation
  rw [hl.1]
  dsimp only
  by_cases h : e < r
  · rw [if_pos h, if_pos h]
    obtain ⟨t, ht, hlt⟩ := holds2_transpose hl
    choose T' hT' hTt using fun i => holds2_transpose (ha i)
    rw [ht, ok_bind, mapM_ofFn hT', ok_bind, ok_bind]
    exact permLoop_agrees hlt hTt (map_const_ofFn _ _)
  · rw [if_neg h, if_neg h, ok_bind]
    exact permLoop_agrees hl ha (map_const_ofFn _ _)

/-- `sdr` after the loss matrix. -/
theorem sdr_agrees_of {oa : AOpts} {ref est : Tensor ℝ} {L : Except PyErr (BIdx s → Fin r → Fin e → XR)}
    (h : Agrees Holds2 (Arrays.sdrLoss A oa true est ref) L) (rp cs : Bool) :
    Agrees HoldsSdr (Arrays.sdr A oa rp cs ref est) (match L with
      | .error err => .error err
      | .ok negSdr => match FBE.solvePermutation A.B negSdr (nArgs := 0) (fun i => i.elim0) with
        | .error err => .error err
        | .ok out => .ok (⟨if cs then out.loss else fun m k => (out.loss m k).neg, if rp then some out.perm else none⟩ :
            SdrOut s (min r e))) := by
  simp only [Arrays.sdr]
  cases L with
  | error err => rw [show Arrays.sdrLoss A oa true est ref = _ from h]; rfl
  | ok L =>
    obtain ⟨t, ht, hR⟩ := h
    rw [ht, ok_bind]
    have h2 := solvePermutation_agrees (A := A) hR (T := fun i : Fin 0 => i.elim0) (args' := fun i => i.elim0)
      fun i => i.elim0
    rw [show List.ofFn (fun i : Fin 0 => (i.elim0 : Tensor XR)) = [] from rfl] at h2
    dsimp only
    cases hp : FBE.solvePermutation A.B L (nArgs := 0) (fun i => i.elim0) with
    | error err =>
      rw [hp] at h2
      rw [show solvePermutation A t [] = _ from h2]; rfl
    | ok out =>
      rw [hp] at h2
      obtain ⟨t', ht', hl, -, hpm⟩ := h2
      rw [ht', ok_bind]
      refine agrees_ok rfl ⟨?_, ?_⟩
      · cases cs
        · exact holds1_map hl XR.neg
        · exact hl
      · cases rp
        · trivial
        · exact hpm

end Arrays

end FBE
