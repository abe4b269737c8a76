import Verif.Proofs.ArrayItem
import Verif.Props.C22_Batch

/-!
# C61 — leading axes are a batch, and are broadcast

For every installation (numpy, torch >= 1.8, older torch through the wrappers): arrays of shape `(..., c, n)` with
any leading axes, references and estimates of any lengths.  Shapes and indices are listed from the last axis to the first.
-/

namespace FBE.Props

open Spec Arrays Tensor

variable {b bx by' : List ℕ} {r e c N M : ℕ} {A : Api} {o : Opts} {ref est : Tensor ℝ}

theorem C61_usual (hL : 0 < o.filterLength) (N : ℕ) : UsualLengths o N N := ⟨hL, fun _ => .inl rfl⟩

/-- C61, `sdr_loss(est, ref, pairwise=True)`. -/
theorem C61_sdr_loss (hA : Installed A) (href : ref.shape = N :: r :: bx) (hest : est.shape = M :: e :: by')
    (hb : bcShape bx by' = some b) (hL : UsualLengths o N M)
    (hcg : o.useCgIter = none ∨ o.filterLength = 1 ∨ bx.length = b.length) :
    Itemwise b (sdrLoss A o.args true est ref)
      (fun i => sdrLoss A o.args true (sub est (bcIdx by' i)) (sub ref (bcIdx bx i)))
      (fun T => T.shape = e :: r :: b) (fun i T t => SameArray t (sub T i)) := by
  obtain ⟨s, rfl⟩ : ∃ s : List ℕ, b = s.reverse := ⟨b.reverse, by simp⟩
  have hw := sdrLoss_pair_agrees (o := o) hA.lawful hA.covered href hest hb hL
    (by simpa using hcg)
  have ho : ∀ m : BIdx s, Agrees Holds2
      (sdrLoss A o.args true (sub est (bcIdx by' (pos m))) (sub ref (bcIdx bx (pos m))))
      (FBE.sdrLossPair (s := []) A.B o (fun _ => signals est by' s e M m)
        (fun _ => signals ref bx s r N m)) := fun m => by
    rw [← signals_sub, ← signals_sub]
    exact sdrLoss_pair_agrees (o := o) (s := []) hA.lawful hA.covered
      (sub_shape (l := [N, r]) _ href (bcIdx_length _ _)) (sub_shape (l := [M, e]) _ hest (bcIdx_length _ _)) rfl
      hL (.inr (.inr rfl))
  exact itemwise (one := fun i => sdrLoss A o.args true (sub est (bcIdx by' i)) (sub ref (bcIdx bx i)))
    (Shape := fun T : Tensor XR => T.shape = e :: r :: s.reverse)
    (Item := fun i T t => SameArray t (sub T i)) hw ho (fun T v h => h.1)
    (fun v hv m => ⟨_, C22_sdr_loss_item hA.covered hv m, fun T t h h' => holds2_item h h' rfl⟩)
    (fun hne h => C22_sdr_loss_returns hne _ _ h)

/-- C61, `sdr_loss(est, ref, pairwise=False)`: the estimates may have fewer leading axes. -/
theorem C61_sdr_loss_aligned (hA : Installed A) (href : ref.shape = N :: c :: b) (hest : est.shape = M :: c :: by')
    (hb : bcShape b by' = some b) (hL : UsualLengths o N M) (hv : TakesVectors A.B o) :
    Itemwise b (sdrLoss A o.args false est ref)
      (fun i => sdrLoss A o.args false (sub est (bcIdx by' i)) (sub ref i))
      (fun T => T.shape = c :: b) (fun i T t => SameArray t (sub T i)) := by
  obtain ⟨s, rfl⟩ : ∃ s : List ℕ, b = s.reverse := ⟨b.reverse, by simp⟩
  have hw := sdrLoss_diag_agrees (o := o) hA.lawful hA.covered href hest (bcShape_cons_self hb) hL hv
  rw [channels_signals] at hw
  have hr : ∀ m : BIdx s, bcIdx s.reverse (pos m) = pos m := fun m => bcIdx_self (pos_inRange m)
  have ho : ∀ m : BIdx s, Agrees Holds1
      (sdrLoss A o.args false (sub est (bcIdx by' (pos m))) (sub ref (pos m)))
      (FBE.sdrLossDiag (s := []) A.B o (fun _ => signals est by' s c M m)
        (fun _ => signals ref s.reverse s c N m)) := fun m => by
    have := sdrLoss_diag_agrees (o := o) (s := []) hA.lawful hA.covered
      (sub_shape (l := [N, c]) (bcIdx s.reverse (pos m)) href (bcIdx_length _ _))
      (sub_shape (l := [M, c]) (bcIdx by' (pos m)) hest (bcIdx_length _ _)) (bcShape_self [c]) hL hv
    rw [channels_signals, hr] at this
    rw [← signals_sub, ← signals_sub, hr]
    exact this
  exact itemwise (one := fun i => sdrLoss A o.args false (sub est (bcIdx by' i)) (sub ref i))
    (Shape := fun T : Tensor XR => T.shape = c :: s.reverse)
    (Item := fun i T t => SameArray t (sub T i)) hw ho (fun T v h => h.1)
    (fun v hv m => ⟨_, C22_sdr_loss_aligned_item hA.covered hv m, fun T t h h' => holds1_item h h' rfl⟩)
    (fun hne h => C22_sdr_loss_aligned_returns hne _ _ h)

-- two references of 100 samples in a batch of three items, one set of estimates
example (x y : List ℕ → ℝ) : Itemwise [3] (sdrLoss torchApi Ex.opts.args false ⟨[100, 2], y⟩ ⟨[100, 2, 3], x⟩)
    (fun i => sdrLoss torchApi Ex.opts.args false (sub ⟨[100, 2], y⟩ (bcIdx [] i)) (sub ⟨[100, 2, 3], x⟩ i))
    (fun T => T.shape = [2, 3]) (fun i T t => SameArray t (sub T i)) :=
  C61_sdr_loss_aligned (o := Ex.opts) (N := 100) (c := 2) (b := [3]) (by' := []) (.inl rfl) rfl rfl rfl (C61_usual (by decide) _)
    (.inr (.inr rfl))

/-- C61, `sdr` (and `sdr_pit_loss`). -/
theorem C61_sdr (hA : Installed A) (href : ref.shape = N :: r :: bx) (hest : est.shape = M :: e :: by')
    (hb : bcShape bx by' = some b) (hL : UsualLengths o N M)
    (hcg : o.useCgIter = none ∨ o.filterLength = 1 ∨ bx.length = b.length) (rp cs : Bool) :
    Itemwise b (Arrays.sdr A o.args rp cs ref est)
      (fun i => Arrays.sdr A o.args rp cs (sub ref (bcIdx bx i)) (sub est (bcIdx by' i)))
      (fun T => T.1.shape = min r e :: b ∧ ∀ p ∈ T.2, p.shape = min r e :: b)
      (fun i T t => SameArray t.1 (sub T.1 i) ∧ SameOpt t.2 (T.2.map fun x => sub x i)) := by
  obtain ⟨s, rfl⟩ : ∃ s : List ℕ, b = s.reverse := ⟨b.reverse, by simp⟩
  have hw := sdr_agrees (o := o) hA.lawful hA.covered href hest hb hL
    (by simpa using hcg) rp cs
  have ho : ∀ m : BIdx s, Agrees HoldsSdr
      (Arrays.sdr A o.args rp cs (sub ref (bcIdx bx (pos m))) (sub est (bcIdx by' (pos m))))
      (FBE.sdr (s := []) A.B o rp cs (fun _ => signals ref bx s r N m)
        (fun _ => signals est by' s e M m)) := fun m => by
    rw [← signals_sub, ← signals_sub]
    exact sdr_agrees (o := o) (s := []) hA.lawful hA.covered
      (sub_shape (l := [N, r]) _ href (bcIdx_length _ _)) (sub_shape (l := [M, e]) _ hest (bcIdx_length _ _)) rfl
      hL (.inr (.inr rfl)) rp cs
  exact itemwise (one := fun i => Arrays.sdr A o.args rp cs (sub ref (bcIdx bx i)) (sub est (bcIdx by' i)))
   
    (Shape := fun T : Tensor XR × Option (Tensor ℕ) => T.1.shape = min r e :: s.reverse ∧ ∀ p ∈ T.2, p.shape = min r e :: s.reverse)
    (Item := fun i T t => SameArray t.1 (sub T.1 i) ∧ SameOpt t.2 (T.2.map fun x => sub x i)) hw ho
    (fun T v h => ⟨h.1.1, holdsOpt_shape h.2⟩)
    (fun v hv m => ⟨_, C22_sdr_item hA.covered rp cs hv m, fun T t h h' =>
      ⟨holds1_item h.1 h'.1 rfl, holdsOpt_item h.2 h'.2 rfl⟩⟩)
    (fun hne h => C22_sdr_returns hA.covered rp cs hne _ _ h)

example (x y : List ℕ → ℝ) (lsa : Lsa) (h : LsaCorrect lsa) :
    Itemwise [3] (Arrays.sdr (numpyApi lsa true) Ex.opts.args true false ⟨[100, 2, 1], x⟩ ⟨[80, 4, 3], y⟩)
      (fun i => Arrays.sdr (numpyApi lsa true) Ex.opts.args true false (sub ⟨[100, 2, 1], x⟩ (bcIdx [1] i))
        (sub ⟨[80, 4, 3], y⟩ (bcIdx [3] i)))
      (fun T => T.1.shape = [2, 3] ∧ ∀ p ∈ T.2, p.shape = [2, 3])
      (fun i T t => SameArray t.1 (sub T.1 i) ∧ SameOpt t.2 (T.2.map fun x => sub x i)) :=
  C61_sdr (o := Ex.opts) (N := 100) (M := 80) (r := 2) (e := 4) (.inr (.inr ⟨lsa, true, h, rfl⟩)) rfl rfl rfl
    ⟨by decide, fun h => absurd h (by decide)⟩ (.inl rfl)
    true false

/-- The shapes of the arrays returned by `bss_eval_sources`. -/
def C61_BssShape (b : List ℕ) (n : ℕ) (T : BssArrays) : Prop :=
  T.sdr.shape = n :: b ∧ T.sir.shape = n :: b ∧ T.sar.shape = n :: b ∧ ∀ p ∈ T.perm, p.shape = n :: b

/-- The arrays returned by `bss_eval_sources` for an item are the items of the arrays for the batch. -/
def C61_BssItem (i : List ℕ) (T t : BssArrays) : Prop :=
  SameArray t.sdr (sub T.sdr i) ∧ SameArray t.sir (sub T.sir i) ∧ SameArray t.sar (sub T.sar i) ∧
    SameOpt t.perm (T.perm.map fun x => sub x i)

/-- C61, `bss_eval_sources`. -/
theorem C61_bss_eval (hA : Installed A) (href : ref.shape = N :: r :: bx) (hest : est.shape = M :: e :: by')
    (hb : bcShape bx by' = some b) (hL : UsualLengths o N M)
    (hpos : o.filterLength = 1 ∨ 0 < e * r * b.prod)
    (hcg : o.useCgIter = none ∨ o.filterLength = 1 ∨ bx.length = b.length) :
    Itemwise b (Arrays.bssEvalSources A o.args true ref est)
      (fun i => Arrays.bssEvalSources A o.args true (sub ref (bcIdx bx i)) (sub est (bcIdx by' i)))
      (C61_BssShape b (min r e)) C61_BssItem := by
  obtain ⟨s, rfl⟩ : ∃ s : List ℕ, b = s.reverse := ⟨b.reverse, by simp⟩
  have hw := bssEval_perm_agrees (o := o) hA.lawful hA.covered href hest hb hL
    (by simpa using hpos) (by simpa using hcg)
  have ho : ∀ m : BIdx s, Agrees HoldsBss
      (Arrays.bssEvalSources A o.args true (sub ref (bcIdx bx (pos m))) (sub est (bcIdx by' (pos m))))
      (FBE.bssEvalSources (s := []) A.B o true (fun _ => signals ref bx s r N m)
        (fun _ => signals est by' s e M m)) := fun m => by
    rw [← signals_sub, ← signals_sub]
    exact bssEval_perm_agrees (o := o) (s := []) hA.lawful hA.covered
      (sub_shape (l := [N, r]) _ href (bcIdx_length _ _)) (sub_shape (l := [M, e]) _ hest (bcIdx_length _ _)) rfl
      hL (hpos.imp id fun h => by simpa using pos_of_mul_pos_left h (Nat.zero_le _)) (.inr (.inr rfl))
  exact itemwise (one := fun i => Arrays.bssEvalSources A o.args true (sub ref (bcIdx bx i)) (sub est (bcIdx by' i)))
    (Shape := C61_BssShape s.reverse (min r e)) (Item := C61_BssItem) hw ho
    (fun T v h => ⟨h.1.1, h.2.1.1, h.2.2.1.1, holdsOpt_shape h.2.2.2⟩)
    (fun v hv m => ⟨_, C22_bss_eval_item hA.covered true hv m, fun T t h h' =>
      ⟨holds1_item h.1 h'.1 rfl, holds1_item h.2.1 h'.2.1 rfl, holds1_item h.2.2.1 h'.2.2.1 rfl,
        holdsOpt_item h.2.2.2 h'.2.2.2 rfl⟩⟩)
    (fun hne h => C22_bss_eval_returns hA.covered true hne _ _ h)

example (x y : List ℕ → ℝ) :
    Itemwise [3, 5] (Arrays.bssEvalSources oldTorchApi Ex.opts.args true ⟨[100, 2, 3], x⟩ ⟨[100, 4, 1, 5], y⟩)
      (fun i => Arrays.bssEvalSources oldTorchApi Ex.opts.args true (sub ⟨[100, 2, 3], x⟩ (bcIdx [3] i))
        (sub ⟨[100, 4, 1, 5], y⟩ (bcIdx [1, 5] i)))
      (C61_BssShape [3, 5] 2) C61_BssItem :=
  C61_bss_eval (o := Ex.opts) (N := 100) (r := 2) (e := 4) (.inr (.inl rfl)) rfl rfl rfl (C61_usual (by decide) _)
    (.inr (by decide)) (.inl rfl)

/-- C61, `bss_eval_sources(compute_permutation=False)`: the estimates may have fewer leading axes. -/
theorem C61_bss_eval_aligned (hA : Installed A) (href : ref.shape = N :: r :: b) (hest : est.shape = M :: e :: by')
    (hb : bcShape b by' = some b) (hL : UsualLengths o N M)
    (hpos : o.filterLength = 1 ∨ 0 < e * r * b.prod) (hv : TakesVectors A.B o)
    (hn : o.filterLength = 1 ∨ o.useCgIter ≠ none ∨ o.filterLength ≤ transformSize N M) :
    Itemwise b (Arrays.bssEvalSources A o.args false ref est)
      (fun i => Arrays.bssEvalSources A o.args false (sub ref i) (sub est (bcIdx by' i)))
      (C61_BssShape b (min r e)) C61_BssItem := by
  obtain ⟨s, rfl⟩ : ∃ s : List ℕ, b = s.reverse := ⟨b.reverse, by simp⟩
  have hw := bssEval_noPerm_agrees (o := o) hA.lawful hA.covered href hest hb hL
    (by simpa using hpos) hv hn
  have hr : ∀ m : BIdx s, bcIdx s.reverse (pos m) = pos m := fun m => bcIdx_self (pos_inRange m)
  have ho : ∀ m : BIdx s, Agrees HoldsBss
      (Arrays.bssEvalSources A o.args false (sub ref (pos m)) (sub est (bcIdx by' (pos m))))
      (FBE.bssEvalSources (s := []) A.B o false (fun _ => signals ref s.reverse s r N m)
        (fun _ => signals est by' s e M m)) := fun m => by
    have := bssEval_noPerm_agrees (o := o) (s := []) hA.lawful hA.covered
      (sub_shape (l := [N, r]) (bcIdx s.reverse (pos m)) href (bcIdx_length _ _))
      (sub_shape (l := [M, e]) (bcIdx by' (pos m)) hest (bcIdx_length _ _)) rfl hL
      (hpos.imp id fun h => by simpa using pos_of_mul_pos_left h (Nat.zero_le _)) hv hn
    rw [hr] at this
    rw [← signals_sub, ← signals_sub, hr]
    exact this
  exact itemwise (one := fun i => Arrays.bssEvalSources A o.args false (sub ref i) (sub est (bcIdx by' i)))
    (Shape := C61_BssShape s.reverse (min r e)) (Item := C61_BssItem) hw ho
    (fun T v h => ⟨h.1.1, h.2.1.1, h.2.2.1.1, holdsOpt_shape h.2.2.2⟩)
    (fun v hv m => ⟨_, C22_bss_eval_item hA.covered false hv m, fun T t h h' =>
      ⟨holds1_item h.1 h'.1 rfl, holds1_item h.2.1 h'.2.1 rfl, holds1_item h.2.2.1 h'.2.2.1 rfl,
        holdsOpt_item h.2.2.2 h'.2.2.2 rfl⟩⟩)
    (fun hne h => C22_bss_eval_returns hA.covered false hne _ _ h)

example (x y : List ℕ → ℝ) :
    Itemwise [3] (Arrays.bssEvalSources torchApi Ex.opts.args false ⟨[100, 2, 3], x⟩ ⟨[100, 2], y⟩)
      (fun i => Arrays.bssEvalSources torchApi Ex.opts.args false (sub ⟨[100, 2, 3], x⟩ i)
        (sub ⟨[100, 2], y⟩ (bcIdx [] i)))
      (C61_BssShape [3] 2) C61_BssItem :=
  C61_bss_eval_aligned (o := Ex.opts) (N := 100) (r := 2) (e := 2) (.inl rfl) rfl rfl rfl (C61_usual (by decide) _)
    (.inr (by decide)) (.inr (.inr rfl)) (.inr (.inr (by
      show 2 ≤ 2 ^ _
      exact Nat.le_self_pow (Nat.pos_iff_ne_zero.1 (Nat.clog_pos (by norm_num) (by norm_num))) 2)))

/-! Two references without further axes, and a batch of two pairs of estimates (the second one exchanged), on an
older version of torch: the call returns an array of shape `(2, 2, 2)`. -/

example : ∃ T : Tensor XR, sdrLoss oldTorchApi Ex.opts.args true
    (ofSig (s := [2]) (N := 3) fun m (k : Fin 2) => Ex.est () (if m.1 = 0 then k else 1 - k)) (ofSig Ex.ref) = .ok T ∧
      T.shape = [2, 2, 2] := by
  have hA : Installed oldTorchApi := .inr (.inl rfl)
  have hI := C61_sdr_loss (o := Ex.opts) (b := [2]) (bx := []) (by' := [2]) hA (ref := ofSig Ex.ref)
    (est := ofSig (s := [2]) fun m (k : Fin 2) => Ex.est () (if m.1 = 0 then k else 1 - k)) rfl rfl rfl (C61_usual (by decide) _)
    (.inl rfl)
  obtain ⟨T, hT⟩ := hI.returns ⟨[0], by simp [InRange]⟩ fun i hi => by
    obtain ⟨m, rfl⟩ : ∃ m : BIdx [2], i = pos m := exists_pos hi
    have ho := sdrLoss_pair_agrees (o := Ex.opts) (s := []) hA.lawful hA.covered
      (sub_shape (x := ofSig Ex.ref) (l := [3, 2]) (bcIdx [] (pos m)) rfl rfl)
      (sub_shape (x := ofSig (s := [2]) (N := 3) fun m (k : Fin 2) => Ex.est () (if m.1 = 0 then k else 1 - k))
        (l := [3, 2]) (bcIdx [2] (pos m)) rfl rfl) rfl
      (C61_usual (by decide) 3) (.inl rfl)
    rw [signals_sub (b := [2]), show signals (ofSig (s := [2]) (N := 3) fun m (k : Fin 2) =>
      Ex.est () (if m.1 = 0 then k else 1 - k)) [2] [2] 2 3 = _ from signals_ofSig _,
      show signals (sub (ofSig Ex.ref) (bcIdx [] (pos m))) [] [] 2 3 = Ex.ref from signals_ofSig Ex.ref] at ho
    rcases sdrCohPair_success Ex.covered rfl (by decide) Ex.load (by decide) Ex.fits Ex.ref
      (fun _ k => Ex.est () (if m.1 = 0 then k else 1 - k)) with h | ⟨-, m, k, h⟩
    · obtain ⟨coh, hc⟩ := h.1
      unfold sdrLossPair at ho
      rw [show oldTorchApi.B = torchBackend from rfl, hc] at ho
      obtain ⟨t, ht, -⟩ := ho
      exact ⟨t, ht⟩
    · exact absurd h (Ex.ref_ne_zero m k)
  exact ⟨T, hT, hI.shape T hT⟩

end FBE.Props
