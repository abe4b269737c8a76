import Verif.Proofs.CgLimit
import Verif.Proofs.PermLimit

/-!
# Limits of the reported metrics, given those of the coherences
-/

set_option linter.unusedSectionVars false

namespace FBE

open Spec XR Matrix Filter Topology

variable {s : List ℕ} {r e c N n : ℕ} {B : Backend} {o : Opts} {ι : Type*} {l : Filter ι}

/-- A value negated or not. -/
theorem tendsto_sign (cs : Bool) {x : XR} (hx : x ≠ nan) {x' : ι → XR} (hx' : ∀ᶠ it in l, x' it ≠ nan)
    (h : Tendsto (fun it => toEReal (x' it)) l (𝓝 (toEReal x))) :
    Tendsto (fun it => toEReal (if cs then x' it else (x' it).neg)) l (𝓝 (toEReal (if cs then x else x.neg))) := by
  cases cs
  · simp only [Bool.false_eq_true, if_false]
    rw [toEReal_neg hx]
    refine ((continuous_neg.tendsto _).comp h).congr' ?_
    filter_upwards [hx'] with it hit
    exact (toEReal_neg hit).symm
  · exact h

theorem tendsto_neg {x : XR} (hx : x ≠ nan) {x' : ι → XR} (hx' : ∀ᶠ it in l, x' it ≠ nan)
    (h : Tendsto (fun it => toEReal (x' it)) l (𝓝 (toEReal x))) :
    Tendsto (fun it => toEReal (x' it).neg) l (𝓝 (toEReal x.neg)) := tendsto_sign false hx hx' h

theorem div_ne_nan {a b : ℝ} (hb : b ≠ 0) : XR.div (fin a) (fin b) ≠ nan := by
  simp only [XR.div, if_neg hb]
  exact fun h => XR.noConfusion h

theorem coherenceToNegSdr_ne_nan (cl : Option ℝ) (a : ℝ) : coherenceToNegSdr cl (fin a) ≠ nan := fun h =>
  XR.noConfusion (coherenceToNegSdr_eq_nan.1 h)

/-- The SIR. -/
theorem tendsto_sir (cl : Option ℝ) {a b : ℝ} (hb : b ≠ 0) {a' b' : ι → ℝ} (ha : Tendsto a' l (𝓝 a))
    (hb' : Tendsto b' l (𝓝 b)) :
    (∀ᶠ it in l, coherenceToNegSdr cl (XR.div (fin (a' it)) (fin (b' it))) ≠ nan) ∧
    Tendsto (fun it => toEReal (coherenceToNegSdr cl (XR.div (fin (a' it)) (fin (b' it))))) l
      (𝓝 (toEReal (coherenceToNegSdr cl (XR.div (fin a) (fin b))))) := by
  have hev : ∀ᶠ it in l, b' it ≠ 0 := hb'.eventually_ne hb
  refine ⟨?_, ?_⟩
  · filter_upwards [hev] with it hit
    exact fun h => div_ne_nan hit (coherenceToNegSdr_eq_nan.1 h)
  · have e : XR.div (fin a) (fin b) = fin (a / b) := by simp only [XR.div, if_neg hb]
    rw [e]
    refine (((continuous_negSdr cl).tendsto _).comp (ha.div hb' hb)).congr' ?_
    filter_upwards [hev] with it hit
    simp only [Function.comp, XR.div, if_neg hit]
    rfl

/-- `sdr` with permutation solving, if all losses are finite and the best pairing is unique. -/
theorem sdr_tendsto (hB : Covered B) (rp cs : Bool) {ref : Sig s r N} {est : Sig s e N} {M out}
    (hM : sdrLossPair B o est ref = .ok M) (hfin : ∀ m k j, ∃ x, M m k j = fin x) (hu : ∀ m, UniqueBest (M m))
    (h : sdr B o rp cs ref est = .ok out) {o' : ι → Opts} {ref' : ι → Sig s r N} {est' : ι → Sig s e N}
    {M' : ι → BIdx s → Fin r → Fin e → XR} (h' : ∀ᶠ it in l, sdrLossPair B (o' it) (est' it) (ref' it) = .ok (M' it))
    (hnan : ∀ m k j, ∀ᶠ it in l, M' it m k j ≠ nan)
    (hlim : ∀ m k j, Tendsto (fun it => toEReal (M' it m k j)) l (𝓝 (toEReal (M m k j)))) :
    ∃ out' : ι → SdrOut s (min r e),
      (∀ᶠ it in l, sdr B (o' it) rp cs (ref' it) (est' it) = .ok (out' it) ∧ (out' it).perm = out.perm) ∧
      ∀ m i, Tendsto (fun it => toEReal ((out' it).sdr m i)) l (𝓝 (toEReal (out.sdr m i))) := by
  obtain ⟨L, p, hL, hp, e1, e2⟩ := sdr_ok h
  rw [hM] at hL
  cases hL
  obtain ⟨P, hP, hev⟩ := perm_stable hB.lsa hfin hu hp hnan hlim
  refine ⟨fun it => ⟨fun m i => if cs then M' it m ((P m).ref i) ((P m).est i)
    else (M' it m ((P m).ref i) ((P m).est i)).neg, out.perm⟩, ?_, fun m i => ?_⟩
  · filter_upwards [hev, h'] with it hn0 h'
    refine ⟨?_, rfl⟩
    obtain ⟨p', hp', hperm, hv⟩ := hn0 fun i => i.elim0
    rw [sdr_of_ok rp cs h' hp', e2, hperm]
    congr 2
    cases cs
    · simp only [Bool.false_eq_true, if_false]
      funext m i
      rw [(hv m).1]
      rfl
    · simp only [if_true]
      funext m i
      rw [(hv m).1]
      rfl
  · have e3 : out.sdr m i = if cs then M m ((P m).ref i) ((P m).est i) else (M m ((P m).ref i) ((P m).est i)).neg := by
      rw [e1]
      cases cs
      · simp only [Bool.false_eq_true, if_false]
        rw [(hP m).1]
        rfl
      · simp only [if_true]
        rw [(hP m).1]
        rfl
    rw [e3]
    refine tendsto_sign cs (fun hn => ?_) (hnan m _ _) (hlim m _ _)
    obtain ⟨x, hx⟩ := hfin m ((P m).ref i) ((P m).est i)
    rw [hx] at hn
    cases hn

/-- `bss_eval_sources` with permutation solving, if all SIRs are finite and the best pairing is unique. -/
theorem bssEvalPerm_tendsto (hB : Covered B) {ref : Sig s r N} {est : Sig s e N} {sd sa out}
    (hs : sqCosPair B o ref est = .ok (sd, sa)) (hsa : ∀ m (_ : Fin r) j, sa m j ≠ 0)
    (hfin : ∀ m k j, ∃ x, negSir o sd sa m k j = fin x) (hu : ∀ m, UniqueBest (negSir o sd sa m))
    (h : bssEvalPerm B o ref est = .ok out) {o' : ι → Opts} (hcl : ∀ it, (o' it).clampDb = o.clampDb)
    {ref' : ι → Sig s r N} {est' : ι → Sig s e N}
    {sd' : ι → BIdx s → Fin r → Fin e → ℝ} {sa' : ι → BIdx s → Fin e → ℝ}
    (h' : ∀ᶠ it in l, sqCosPair B (o' it) (ref' it) (est' it) = .ok (sd' it, sa' it))
    (l1 : ∀ m k j, Tendsto (fun it => sd' it m k j) l (𝓝 (sd m k j)))
    (l2 : ∀ m j, Tendsto (fun it => sa' it m j) l (𝓝 (sa m j))) :
    ∃ out' : ι → BssOut s (min r e),
      (∀ᶠ it in l, bssEvalPerm B (o' it) (ref' it) (est' it) = .ok (out' it) ∧ (out' it).perm = out.perm) ∧
      ∀ m i, Tendsto (fun it => toEReal ((out' it).sdr m i)) l (𝓝 (toEReal (out.sdr m i))) ∧
        Tendsto (fun it => toEReal ((out' it).sir m i)) l (𝓝 (toEReal (out.sir m i))) ∧
        Tendsto (fun it => toEReal ((out' it).sar m i)) l (𝓝 (toEReal (out.sar m i))) := by
  obtain ⟨sd2, sa2, p, hs2, hp, rfl⟩ := bssEvalPerm_ok h
  rw [hs] at hs2
  cases hs2
  have hcoh := coherenceToNegSdr_ne_nan o.clampDb
  have hsir := fun m k j => tendsto_sir o.clampDb (hsa m k j) (l1 m k j) (l2 m j)
  obtain ⟨P, hP, hev⟩ := perm_stable hB.lsa hfin hu hp (L' := fun it => negSir o (sd' it) (sa' it))
    (fun m k j => (hsir m k j).1) (fun m k j => (hsir m k j).2)
  refine ⟨fun it => ⟨fun m i => (negSdr o (sd' it) (sa' it) m ((P m).ref i) ((P m).est i)).neg,
    fun m i => (negSir o (sd' it) (sa' it) m ((P m).ref i) ((P m).est i)).neg,
    fun m i => (negSar o (sd' it) (sa' it) m ((P m).ref i) ((P m).est i)).neg, some p.perm⟩, ?_, fun m i => ?_⟩
  · filter_upwards [hev, h'] with it hn0 h'
    refine ⟨?_, rfl⟩
    obtain ⟨p', hp', hperm, hv⟩ := hn0 ![negSdr o (sd' it) (sa' it), negSar o (sd' it) (sa' it)]
    have ec : ∀ sd sa, negSdr (o' it) (r := r) (e := e) (s := s) sd sa = negSdr o sd sa ∧
        negSir (o' it) (r := r) (e := e) (s := s) sd sa = negSir o sd sa ∧
        negSar (o' it) (r := r) (e := e) (s := s) sd sa = negSar o sd sa := by
      intro sd sa
      unfold negSdr negSir negSar
      rw [hcl]
      exact ⟨rfl, rfl, rfl⟩
    have hb := bssEvalPerm_of_ok (o := o' it) h' (by rw [(ec _ _).1, (ec _ _).2.1, (ec _ _).2.2]; exact hp')
    rw [hb, hperm]
    have v0 : ∀ m, p'.args 0 m = (P m).values (negSdr o (sd' it) (sa' it) m) := fun m => (hv m).2 0
    have v1 : ∀ m, p'.args 1 m = (P m).values (negSar o (sd' it) (sa' it) m) := fun m => (hv m).2 1
    have v2 : ∀ m, p'.loss m = (P m).values (negSir o (sd' it) (sa' it) m) := fun m => (hv m).1
    simp only [v0, v1, v2]
    rfl
  · have v0 : p.args 0 m = (P m).values (negSdr o sd sa m) := (hP m).2 0
    have v1 : p.args 1 m = (P m).values (negSar o sd sa m) := (hP m).2 1
    have v2 : p.loss m = (P m).values (negSir o sd sa m) := (hP m).1
    simp only [v0, v1, v2]
    refine ⟨?_, ?_, ?_⟩
    · exact tendsto_neg (hcoh _) (Eventually.of_forall fun it => hcoh _)
        (((continuous_negSdr o.clampDb).tendsto _).comp (l1 m _ _))
    · obtain ⟨t1, t2⟩ := hsir m ((P m).ref i) ((P m).est i)
      have hx : negSir o sd sa m ((P m).ref i) ((P m).est i) ≠ nan := fun hn => by
        obtain ⟨x, hx⟩ := hfin m ((P m).ref i) ((P m).est i)
        rw [hx] at hn
        cases hn
      exact tendsto_neg hx t1 t2
    · exact tendsto_neg (hcoh _) (Eventually.of_forall fun it => hcoh _)
        (((continuous_negSdr o.clampDb).tendsto _).comp (l2 m _))

/-- `bss_eval_sources(compute_permutation=False)`. -/
theorem bssEvalNoPerm_ok {ref est : Sig s c N} {out} (h : bssEvalNoPerm B o ref est = .ok out) :
    ∃ sd sa, sqCosDiag B o ref est = .ok (sd, sa) ∧ out = ⟨fun m k => (baseMetrics o.clampDb (sd m k) (sa m k)).1.neg,
      fun m k => (baseMetrics o.clampDb (sd m k) (sa m k)).2.1.neg,
      fun m k => (baseMetrics o.clampDb (sd m k) (sa m k)).2.2.neg, none⟩ := by
  cases hs : sqCosDiag B o ref est with
  | error err => unfold bssEvalNoPerm at h; rw [hs] at h; cases h
  | ok q =>
  obtain ⟨sd, sa⟩ := q
  refine ⟨sd, sa, rfl, ?_⟩
  unfold bssEvalNoPerm at h
  rw [hs] at h
  exact (Except.ok.inj h).symm

theorem bssEvalNoPerm_tendsto {ref est : Sig s c N} {sd sa out}
    (hs : sqCosDiag B o ref est = .ok (sd, sa)) (h : bssEvalNoPerm B o ref est = .ok out) {o' : ι → Opts}
    (hcl : ∀ it, (o' it).clampDb = o.clampDb) {ref' est' : ι → Sig s c N} {sd' sa' : ι → BIdx s → Fin c → ℝ}
    (l1 : ∀ m k, Tendsto (fun it => sd' it m k) l (𝓝 (sd m k)))
    (l2 : ∀ m k, Tendsto (fun it => sa' it m k) l (𝓝 (sa m k))) :
    ∃ out' : ι → BssOut s c,
      (∀ it, sqCosDiag B (o' it) (ref' it) (est' it) = .ok (sd' it, sa' it) →
        bssEvalNoPerm B (o' it) (ref' it) (est' it) = .ok (out' it)) ∧
      ∀ m k, Tendsto (fun it => toEReal ((out' it).sdr m k)) l (𝓝 (toEReal (out.sdr m k))) ∧
        Tendsto (fun it => toEReal ((out' it).sar m k)) l (𝓝 (toEReal (out.sar m k))) ∧
        (sa m k ≠ 0 → (∀ᶠ it in l, (out' it).sir m k ≠ nan) ∧
          Tendsto (fun it => toEReal ((out' it).sir m k)) l (𝓝 (toEReal (out.sir m k)))) := by
  obtain ⟨sd2, sa2, hs2, rfl⟩ := bssEvalNoPerm_ok h
  rw [hs] at hs2
  cases hs2
  have hcoh := coherenceToNegSdr_ne_nan o.clampDb
  refine ⟨fun it => ⟨fun m k => (baseMetrics o.clampDb (sd' it m k) (sa' it m k)).1.neg,
      fun m k => (baseMetrics o.clampDb (sd' it m k) (sa' it m k)).2.1.neg,
      fun m k => (baseMetrics o.clampDb (sd' it m k) (sa' it m k)).2.2.neg, none⟩, fun it h => ?_, fun m k => ⟨?_, ?_, ?_⟩⟩
  · unfold bssEvalNoPerm
    rw [h, hcl it]
  · exact tendsto_neg (hcoh _) (Eventually.of_forall fun it => hcoh _)
      (((continuous_negSdr o.clampDb).tendsto _).comp (l1 m k))
  · exact tendsto_neg (hcoh _) (Eventually.of_forall fun it => hcoh _)
      (((continuous_negSdr o.clampDb).tendsto _).comp (l2 m k))
  · intro hsa
    obtain ⟨t1, t2⟩ := tendsto_sir o.clampDb hsa (l1 m k) (l2 m k)
    refine ⟨?_, tendsto_neg (fun h => div_ne_nan hsa (coherenceToNegSdr_eq_nan.1 h)) t1 t2⟩
    filter_upwards [t1] with it hit
    exact fun h => hit (neg_eq_nan.1 h)

/-- With the direct solver, a SIR that is not NaN has a denominator that is not zero. -/
theorem sar_ne_zero (hB : Covered B) (hdir : o.direct) (hload : 0 ≤ o.load) (hL : o.filterLength ≠ 1 ∨ o.load = 0)
    {ref : Sig s r N} {est : Sig s e N} {sd sa} (hs : sqCosPair B o ref est = .ok (sd, sa)) {m k j}
    (h : coherenceToNegSdr o.clampDb (XR.div (fin (sd m k j)) (fin (sa m j))) ≠ nan) : sa m j ≠ 0 := by
  intro h0
  have hr := sqCosPair_range hB hdir hload ref est hs m k j
  have h1 := hr.2.2.2.2 hL
  have h2 : sd m k j = 0 := le_antisymm (h0 ▸ h1) hr.1
  apply h
  rw [h2, h0]
  have : XR.div (fin 0) (fin 0) = nan := by simp [XR.div, signInf]
  rw [this, coherenceToNegSdr_nan]

end FBE
