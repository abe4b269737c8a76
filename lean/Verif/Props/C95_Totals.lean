import Verif.Props.C94_Late
import Verif.Props.C11_C17_Permutation
import Verif.Props.C26_C30_ConjugateGradient
import Verif.Proofs.ExampleRuns

/-!
# C95 — the total of a permutation search follows the pairs
-/

namespace FBE.Props

open Spec XR

variable {s : List ℕ} {r e N T N' T' : ℕ} {B B' : Backend} {o o' : Opts}

theorem toEReal_neg_all (x : XR) : toEReal x.neg = -toEReal x := by
  cases x <;> simp [XR.neg, toEReal]

theorem eTotal_mono {n : ℕ} {v w : Fin n → XR} (h : ∀ k, toEReal (v k) ≤ toEReal (w k)) : eTotal v ≤ eTotal w :=
  Finset.sum_le_sum fun k _ => h k

/-- **C95.**  Two calls, of whatever versions of the package and with whatever options and signals: if no loss of
a reference and an estimate is larger in the second call, the total SDR of `sdr` is not smaller. -/
theorem C95_total (hB' : Covered B') (hB : Covered B) {ref : Sig s r N} {est : Sig s e T} {ref' : Sig s r N'} {est' : Sig s e T'}
    {rp rp' : Bool} {out out'} (h : sdr B o rp false ref est = .ok out) (h' : sdr B' o' rp' false ref' est' = .ok out')
    (m : BIdx s)
    (hle : ∀ L L', pairwiseSdrLoss B o est ref = .ok L → pairwiseSdrLoss B' o' est' ref' = .ok L' →
      ∀ k j, toEReal (L' m k j) ≤ toEReal (L m k j)) : eTotal (out.sdr m) ≤ eTotal (out'.sdr m) := by
  obtain ⟨L, p, hL, hp, a1, -⟩ := FBE.sdr_ok h
  obtain ⟨L', p', hL', hp', b1, -⟩ := FBE.sdr_ok h'
  obtain ⟨L2, _, hL2, -, hC⟩ := C11_sdr_best_pairing hB (sdr_of_ok true false hL hp)
  obtain rfl := Except.ok.inj (hL.symm.trans hL2)
  obtain ⟨L3, _, hL3, -, hC'⟩ := C11_sdr_best_pairing hB' (sdr_of_ok true false hL' hp')
  obtain rfl := Except.ok.inj (hL'.symm.trans hL3)
  obtain ⟨P, -, -, hv, -⟩ := hC m
  obtain ⟨-, -, -, -, hmax⟩ := hC' m
  rw [a1, b1]
  refine le_trans (eTotal_mono fun k => ?_) (hmax P)
  refine (congrArg toEReal (hv k)).le.trans ?_
  show _ ≤ toEReal (L' m (P.ref k) (P.est k)).neg
  rw [toEReal_neg_all, toEReal_neg_all, EReal.neg_le_neg_iff]
  exact hle L L' hL hL' _ _

/-- **C95.**  The same for the total of `sdr_pit_loss`. -/
theorem C95_total_loss (hB' : Covered B') (hB : Covered B) {ref : Sig s r N} {est : Sig s e T} {ref' : Sig s r N'}
    {est' : Sig s e T'} {out out'} (h : sdrPitLoss B o est ref = .ok out) (h' : sdrPitLoss B' o' est' ref' = .ok out')
    (m : BIdx s)
    (hle : ∀ L L', pairwiseSdrLoss B o est ref = .ok L → pairwiseSdrLoss B' o' est' ref' = .ok L' →
      ∀ k j, toEReal (L' m k j) ≤ toEReal (L m k j)) : eTotal (out'.sdr m) ≤ eTotal (out.sdr m) := by
  obtain ⟨L, hL, hm⟩ := C11_sdr_pit_loss_minimum hB h
  obtain ⟨L', hL', hm'⟩ := C11_sdr_pit_loss_minimum hB' h'
  obtain ⟨P, hP⟩ := (hm m).1
  refine ((hm' m).2 ⟨P, rfl⟩).trans ?_
  rw [← hP]
  exact eTotal_mono fun k => hle L L' hL hL' _ _

theorem coe_sum' {n : ℕ} (f : Fin n → ℝ) : ((∑ k, f k : ℝ) : EReal) = ∑ k, (f k : EReal) :=
  map_sum (⟨⟨fun x : ℝ => (x : EReal), EReal.coe_zero⟩, EReal.coe_add⟩ : ℝ →+ EReal) f Finset.univ

/-- The pairings of two calls and the values there. -/
theorem sdr_near {ref : Sig s r N} {est : Sig s e T} {ref' : Sig s r N'} {est' : Sig s e T'}
    (hB' : Covered B') (hB : Covered B) {rp rp' : Bool} {out out'} (h : sdr B o rp false ref est = .ok out)
    (h' : sdr B' o' rp' false ref' est' = .ok out') {L L'} (hL : pairwiseSdrLoss B o est ref = .ok L)
    (hL' : pairwiseSdrLoss B' o' est' ref' = .ok L') (m : BIdx s) {a b : Fin r → Fin e → ℝ} {ε : ℝ}
    (ha : ∀ k j, L m k j = fin (a k j)) (hb : ∀ k j, L' m k j = fin (b k j)) (hab : ∀ k j, b k j ≤ a k j + ε) :
    ∃ x x' : Fin (min r e) → ℝ, (∀ k, out.sdr m k = fin (x k)) ∧ (∀ k, out'.sdr m k = fin (x' k)) ∧
      ∑ k, x k ≤ ∑ k, x' k + (min r e : ℕ) * ε := by
  obtain ⟨L1, p, hL1, hp, a1, -⟩ := FBE.sdr_ok h
  obtain ⟨L1', p', hL1', hp', b1, -⟩ := FBE.sdr_ok h'
  obtain ⟨L2, _, hL2, -, hC⟩ := C11_sdr_best_pairing hB (sdr_of_ok true false hL1 hp)
  obtain ⟨L3, _, hL3, -, hC'⟩ := C11_sdr_best_pairing hB' (sdr_of_ok true false hL1' hp')
  obtain rfl := Except.ok.inj (hL.symm.trans hL2)
  obtain rfl := Except.ok.inj (hL'.symm.trans hL3)
  obtain ⟨P, -, -, hv, -⟩ := hC m
  obtain ⟨P', -, -, hv', hmax⟩ := hC' m
  have hx : ∀ k, out.sdr m k = fin (-(a (P.ref k) (P.est k))) := fun k => by
    rw [a1]
    exact (hv k).trans (by rw [ha]; rfl)
  have hx' : ∀ k, out'.sdr m k = fin (-(b (P'.ref k) (P'.est k))) := fun k => by
    rw [b1]
    exact (hv' k).trans (by rw [hb]; rfl)
  refine ⟨_, _, hx, hx', ?_⟩
  have h1 := hmax P
  have e1 : eTotal (P.values fun k j => (L' m k j).neg) = ((∑ k, -(b (P.ref k) (P.est k)) : ℝ) : EReal) := by
    unfold eTotal Pairing.values
    rw [coe_sum']
    exact Finset.sum_congr rfl fun k _ => by simp only [hb]; rfl
  have e2 : eTotal (out'.sdr m) = ((∑ k, -(b (P'.ref k) (P'.est k)) : ℝ) : EReal) := by
    unfold eTotal
    rw [coe_sum']
    exact Finset.sum_congr rfl fun k _ => by rw [hx']; rfl
  have h2 : eTotal (P.values fun k j => (L' m k j).neg) ≤ eTotal (out'.sdr m) := by
    refine h1.trans (le_of_eq ?_)
    rw [b1]
  rw [e1, e2, EReal.coe_le_coe_iff] at h2
  have h3 : ∑ k, -(a (P.ref k) (P.est k)) ≤ ∑ k, (-(b (P.ref k) (P.est k)) + ε) :=
    Finset.sum_le_sum fun k _ => by linarith [hab (P.ref k) (P.est k)]
  rw [Finset.sum_add_distrib, Finset.sum_const, Finset.card_univ, Fintype.card_fin, nsmul_eq_mul] at h3
  linarith

/-- **C95.**  Two calls, of whatever versions of the package and with whatever options and signals, with finite
losses: if the losses of any reference and any estimate differ by at most `ε`, the totals of the SDRs of `sdr`
differ by at most `ε` times the number of pairs (the permutations may be different ones). -/
theorem C95_near (hB' : Covered B') (hB : Covered B) {ref : Sig s r N} {est : Sig s e T} {ref' : Sig s r N'} {est' : Sig s e T'}
    {rp rp' : Bool} {out out'} (h : sdr B o rp false ref est = .ok out) (h' : sdr B' o' rp' false ref' est' = .ok out')
    {L L'} (hL : pairwiseSdrLoss B o est ref = .ok L) (hL' : pairwiseSdrLoss B' o' est' ref' = .ok L') (m : BIdx s)
    {ε : ℝ} (hε : ∀ k j, ∃ a b : ℝ, L m k j = fin a ∧ L' m k j = fin b ∧ |a - b| ≤ ε) :
    ∃ x x' : Fin (min r e) → ℝ, (∀ k, out.sdr m k = fin (x k)) ∧ (∀ k, out'.sdr m k = fin (x' k)) ∧
      |∑ k, x k - ∑ k, x' k| ≤ (min r e : ℕ) * ε := by
  choose a b ha hb hab using hε
  obtain ⟨x, x', hx, hx', h1⟩ := sdr_near hB' hB h h' hL hL' m ha hb fun k j => by
    have := (abs_le.1 (hab k j)).1
    linarith
  obtain ⟨y', y, hy', hy, h2⟩ := sdr_near hB hB' h' h hL' hL m hb ha fun k j => by
    have := (abs_le.1 (hab k j)).2
    linarith
  obtain rfl : y = x := funext fun k => XR.fin.inj ((hy k).symm.trans (hx k))
  obtain rfl : y' = x' := funext fun k => XR.fin.inj ((hy' k).symm.trans (hx' k))
  exact ⟨y, y', hx, hx', abs_le.2 ⟨by linarith, by linarith⟩⟩

/-- **C95.**  Direct solver: the total SDR of `sdr` does not get worse with longer filters. -/
theorem C95_longer_filters (hB : Covered B) (hdir : o.useCgIter = none) (hload : 0 ≤ o.load) {L L' : ℕ}
    (hle : L ≤ L') (hone : L ≠ 1 ∨ o.load = 0) {ref : Sig s r N} {est : Sig s e T} {rp rp' out out'}
    (h : sdr B { o with filterLength := L } rp false ref est = .ok out)
    (h' : sdr B { o with filterLength := L' } rp' false ref est = .ok out') (m : BIdx s) :
    eTotal (out.sdr m) ≤ eTotal (out'.sdr m) :=
  C95_total hB hB h h' m fun _ _ h1 h2 k j => C09_longer_filters hB hdir hload hle hone h1 h2 m k j

/-- **C95.**  The total SDR of the iterative solver is never above that of the direct solver (under the
conditions of C28). -/
theorem C95_iterative (hB : Covered B) (hload : 0 ≤ o.load) {ref : Sig s r N} {est : Sig s e N} {rp rp' out out'} {it : ℕ}
    (h : sdr B { o with useCgIter := some it } rp false ref est = .ok out)
    (h' : sdr B { o with useCgIter := none } rp' false ref est = .ok out') (hq : SdrQuiet B o ref est it) (m : BIdx s) :
    eTotal (out.sdr m) ≤ eTotal (out'.sdr m) :=
  C95_total hB hB h h' m fun _ _ h1 h2 k j => C28_lower_bound hB hload h2 h1 hq m k j

/-- **C95.**  References passed through filters of `K` taps (C94): the total SDR of `sdr` with `L` taps is not
above that of the dry references with `L + K - 1` taps. -/
theorem C95_reverberation (hB : Covered B) (hdir : o.useCgIter = none) (hload : o.load = 0) (hcl : o.clampOk) {L K : ℕ} (hL : 1 ≤ L)
    (hK : 1 ≤ K) (hfit : FilterFits N (L + K - 1)) {est : Sig s e N} {dry wet : Sig s r N} {rp rp' out out'}
    (h : sdr B { o with filterLength := L } rp false wet est = .ok out)
    (h' : sdr B { o with filterLength := L + K - 1 } rp' false dry est = .ok out') (m : BIdx s)
    (hest : ∀ j, Audible (centred o.zeroMean (est m j)))
    (hwet : L = 1 → ∀ k, Normalisable (centred o.zeroMean (wet m k)))
    (hdry : L = 1 → K = 1 → ∀ k, Normalisable (centred o.zeroMean (dry m k)))
    (hw : ∀ k, IsFiltered K (centred o.zeroMean (dry m k)) (centred o.zeroMean (wet m k))) :
    eTotal (out.sdr m) ≤ eTotal (out'.sdr m) :=
  C95_total hB hB h h' m fun _ _ h1 h2 k j => C94_reverberation hB hdir hload hcl hL hK hfit h1 h2 m k j (hest j)
    (fun h => hwet h k) (fun h h2 => hdry h h2 k) (hw k)

/-- **C95.**  Estimates `d` samples late (C94): with `d` more taps the total SDR of `sdr` is at least as good. -/
theorem C95_latency (hB : Covered B) (hdir : o.useCgIter = none) (hload : o.load = 0) (hcl : o.clampOk) {L d : ℕ} (hL : 1 ≤ L)
    (hfit : FilterFits N (L + d)) {ref : Sig s r N} {est late : Sig s e N} {rp rp' out out'}
    (h : sdr B { o with filterLength := L } rp false ref est = .ok out)
    (h' : sdr B { o with filterLength := L + d } rp' false ref late = .ok out') (m : BIdx s)
    (hest : ∀ j, Audible (centred o.zeroMean (est m j)))
    (href : L = 1 → ∀ k, Normalisable (centred o.zeroMean (ref m k)))
    (hd : ∀ j, IsLate d (centred o.zeroMean (est m j)) (centred o.zeroMean (late m j))) :
    eTotal (out.sdr m) ≤ eTotal (out'.sdr m) :=
  C95_total hB hB h h' m fun _ _ h1 h2 k j => C94_latency hB hdir hload hcl hL hfit h1 h2 m k j (hest j)
    (fun h => href h k) (hd j)

/-! ### the hypotheses can be met -/

/-- With `clamp_db`, `sdr` returns when `sdr_loss` does. -/
theorem sdr_of_clamped {ref : Sig s r N} {est : Sig s e T} {d : ℝ} (hd : o.clampDb = some d) (rp cs : Bool) {L}
    (h : sdrLossPair torchBackend o est ref = .ok L) : ∃ out, sdr torchBackend o rp cs ref est = .ok out := by
  obtain ⟨coh, hc, rfl⟩ := sdrLossPair_entry h
  have hsol : ∀ m : BIdx s, Solvable ((fun m (k : Fin r) (j : Fin e) => coherenceToNegSdr o.clampDb (fin (coh m k j))) m) :=
    fun m => solvable_of_finite fun k j => by
      dsimp only
      rw [hd]
      exact coherenceToNegSdr_finite d (by simp)
  obtain ⟨p, hp⟩ := (solvePermutation_ok_iff torchBackend Ex.covered.lsa _ (nArgs := 0) (fun i => i.elim0)).2 hsol
  unfold sdr
  rw [h]
  dsimp only
  rw [hp]
  exact ⟨_, rfl⟩

/-- One and two taps. -/
example : ∃ out out', sdr torchBackend { Ex.clamped (some 30) with filterLength := 1 } true false Ex.ref Ex.est = .ok out ∧
    sdr torchBackend { Ex.clamped (some 30) with filterLength := 2 } false false Ex.ref Ex.est = .ok out' ∧
    eTotal (out.sdr ()) ≤ eTotal (out'.sdr ()) := by
  obtain ⟨M, hM⟩ := C34_sdr_loss_length_one (B := torchBackend) (o := { Ex.clamped (some 30) with filterLength := 1 }) rfl Ex.est Ex.ref
  obtain ⟨out, h⟩ := sdr_of_clamped (o := { Ex.clamped (some 30) with filterLength := 1 }) rfl true false hM
  obtain ⟨out', h'⟩ := Ex.sdr_cl (some 30) false false
  exact ⟨out, out', h, h', C95_longer_filters (o := Ex.clamped (some 30)) (L := 1) (L' := 2) Ex.covered rfl le_rfl
    (by norm_num) (Or.inr rfl) h h' ()⟩

/-- The same for the loss. -/
example : ∃ out out', sdrPitLoss torchBackend { Ex.clamped (some 30) with filterLength := 1 } Ex.est Ex.ref = .ok out ∧
    sdrPitLoss torchBackend { Ex.clamped (some 30) with filterLength := 2 } Ex.est Ex.ref = .ok out' ∧
    eTotal (out'.sdr ()) ≤ eTotal (out.sdr ()) := by
  obtain ⟨M, hM⟩ := C34_sdr_loss_length_one (B := torchBackend) (o := { Ex.clamped (some 30) with filterLength := 1 }) rfl Ex.est Ex.ref
  obtain ⟨out, h⟩ := sdr_of_clamped (o := { Ex.clamped (some 30) with filterLength := 1 }) rfl false true hM
  obtain ⟨out', h'⟩ := Ex.sdr_cl (some 30) false true
  exact ⟨out, out', h, h', C95_total_loss Ex.covered Ex.covered h h' () fun L L' h1 h2 k j =>
    C09_longer_filters (o := Ex.clamped (some 30)) (L := 1) (L' := 2) Ex.covered rfl le_rfl (by norm_num) (Or.inr rfl) h1 h2 () k j⟩

/-- The iterative solver and the direct one. -/
example : ∃ out out', sdr torchBackend { Ex.clamped (some 30) with useCgIter := some 1 } true false Ex.ref Ex.est = .ok out ∧
    sdr torchBackend { Ex.clamped (some 30) with useCgIter := none } false false Ex.ref Ex.est = .ok out' ∧
    eTotal (out.sdr ()) ≤ eTotal (out'.sdr ()) := by
  obtain ⟨M1, h1⟩ : ∃ M1, sdrLossPair torchBackend { Ex.clamped (some 30) with useCgIter := some 1 } Ex.est Ex.ref = .ok M1 := by
    unfold sdrLossPair
    rw [sdrCohPair_cg (o := Ex.clamped (some 30)) le_rfl Ex.nFft_three]
    exact ⟨_, rfl⟩
  obtain ⟨out, h⟩ := sdr_of_clamped (o := { Ex.clamped (some 30) with useCgIter := some 1 }) rfl true false h1
  obtain ⟨out', h'⟩ := Ex.sdr_cl (some 30) false false
  exact ⟨out, out', h, h', C95_iterative (o := Ex.clamped (some 30)) Ex.covered le_rfl h h' (Ex.sdrQuiet 1) ()⟩

/-- One and two taps: the totals are as near as the losses. -/
example : ∃ (out out' : _) (ε : ℝ), sdr torchBackend { Ex.clamped (some 30) with filterLength := 1 } true false Ex.ref Ex.est = .ok out ∧
    sdr torchBackend { Ex.clamped (some 30) with filterLength := 2 } false false Ex.ref Ex.est = .ok out' ∧
    ∃ x x' : Fin 2 → ℝ, (∀ k, out.sdr () k = fin (x k)) ∧ (∀ k, out'.sdr () k = fin (x' k)) ∧
      |∑ k, x k - ∑ k, x' k| ≤ 2 * ε := by
  obtain ⟨M, hM⟩ := C34_sdr_loss_length_one (B := torchBackend) (o := { Ex.clamped (some 30) with filterLength := 1 }) rfl Ex.est Ex.ref
  obtain ⟨out, h⟩ := sdr_of_clamped (o := { Ex.clamped (some 30) with filterLength := 1 }) rfl true false hM
  obtain ⟨out', h'⟩ := Ex.sdr_cl (some 30) false false
  have hM' := Ex.sdrLossPair_cl (some 30)
  have hf : ∀ k j, ∃ a : ℝ, M () k j = fin a := fun k j => by
    obtain ⟨coh, hc, rfl⟩ := sdrLossPair_entry hM
    exact coherenceToNegSdr_finite 30 (by simp)
  have hf' : ∀ k j : Fin 2, ∃ a : ℝ, coherenceToNegSdr (some 30) (fin (if k = j then 4 / 5 else 1 / 5)) = fin a := fun k j =>
    coherenceToNegSdr_finite 30 (by simp)
  choose a ha using hf
  choose b hb using hf'
  refine ⟨out, out', ∑ k, ∑ j, |a k j - b k j|, h, h', ?_⟩
  exact C95_near (B := torchBackend) (B' := torchBackend) Ex.covered Ex.covered h h' hM hM' () (ε := ∑ k, ∑ j, |a k j - b k j|)
    fun k j => ⟨a k j, b k j, ha k j, hb k j,
      (Finset.single_le_sum (f := fun j => |a k j - b k j|) (fun _ _ => abs_nonneg _) (Finset.mem_univ j)).trans
        (Finset.single_le_sum (f := fun k => ∑ j, |a k j - b k j|) (fun _ _ => Finset.sum_nonneg fun _ _ => abs_nonneg _)
          (Finset.mem_univ k))⟩

open ExLate in
/-- The reverberant reference and the late estimate of C94. -/
example : (∃ out out', sdr torchBackend { Ex.clamped (some 30) with filterLength := 1 } true false wet est = .ok out ∧
      sdr torchBackend { Ex.clamped (some 30) with filterLength := 2 } true false dry est = .ok out' ∧
      eTotal (out.sdr ()) ≤ eTotal (out'.sdr ())) ∧
    ∃ out out', sdr torchBackend { Ex.clamped (some 30) with filterLength := 1 } true false est dry = .ok out ∧
      sdr torchBackend { Ex.clamped (some 30) with filterLength := 2 } true false est late = .ok out' ∧
      eTotal (out.sdr ()) ≤ eTotal (out'.sdr ()) := by
  have hcl : (Ex.clamped (some 30)).clampOk := fun d hd => by cases hd; norm_num
  obtain ⟨⟨M, hM⟩, -⟩ := runs_ok { Ex.clamped (some 30) with filterLength := 1 } (Or.inl rfl) rfl rfl rfl wet est 0 rfl
  obtain ⟨⟨M', hM'⟩, -⟩ := runs_ok { Ex.clamped (some 30) with filterLength := 2 } (Or.inr rfl) rfl rfl rfl dry est 0 rfl
  obtain ⟨⟨M1, hM1⟩, -⟩ := runs_ok { Ex.clamped (some 30) with filterLength := 1 } (Or.inl rfl) rfl rfl rfl est dry 0 rfl
  obtain ⟨⟨M1', hM1'⟩, -⟩ := runs_ok { Ex.clamped (some 30) with filterLength := 2 } (Or.inr rfl) rfl rfl rfl est late 0 rfl
  obtain ⟨out, h⟩ := sdr_of_clamped rfl true false hM
  obtain ⟨out', h'⟩ := sdr_of_clamped rfl true false hM'
  obtain ⟨out1, h1⟩ := sdr_of_clamped rfl true false hM1
  obtain ⟨out1', h1'⟩ := sdr_of_clamped rfl true false hM1'
  exact ⟨⟨out, out', h, h', C95_reverberation (o := Ex.clamped (some 30)) (L := 1) (K := 2) Ex.covered rfl rfl hcl le_rfl
      (by norm_num) Ex.fits h h' () (fun _ => audible _ 0 rfl) (fun _ _ => normalisable _ 0 rfl)
      (fun _ h => absurd h (by norm_num)) (filtered_wet ())⟩,
    out1, out1', h1, h1', C95_latency (o := Ex.clamped (some 30)) (L := 1) (d := 1) Ex.covered rfl rfl hcl le_rfl
      Ex.fits h1 h1' () (fun _ => audible _ 0 rfl) (fun _ _ => normalisable _ 0 rfl) (is_late ())⟩

end FBE.Props
