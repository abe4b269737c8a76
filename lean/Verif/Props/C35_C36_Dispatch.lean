import Verif.Proofs.Dispatch
import Verif.Proofs.ExampleRuns

/-!
# C35, C36: the public functions and the two packages
-/

namespace FBE.Props

open Spec

variable {ρ : Type*}

/-- C36: with torch installed, a call of a public function is the call of the function of the same
name of the torch package if the value of the first argument (given by position or by keyword) is a
tensor, of the numpy package otherwise, with the same arguments: same value, same exception, for
every implementation of the two packages and every call, also those with wrong arguments. -/
theorem C36_dispatch (impl : Impl ρ) (f : Fn) (pos : List Val) (kw : List (String × Val)) :
    (FirstIsTensor f pos kw → callPublic true impl f pos kw = callPkg impl .torch f pos kw) ∧
    (¬ FirstIsTensor f pos kw → callPublic true impl f pos kw = callPkg impl .numpy f pos kw) := by
  unfold callPublic
  cases h : bindArgs (publicSig f) pos kw with
  | error e =>
    simp only [callPkg, pkgSig_eq, h]
    simp
  | ok vs =>
    obtain ⟨v, rest, hv, ht⟩ := forwarded_head f pos kw vs h
    have hb := fun p => bind_forwarded p f vs (bindArgs_length h)
    have key : ∀ p, callPkg impl p f (forwarded f vs).1 (forwarded f vs).2
        = callPkg impl p f pos kw := fun p => by
      unfold callPkg
      rw [hb p, pkgSig_eq, h]
    simp only [torchAttr, if_true, dispatchBackend, callAttr]
    rw [hv] at key ⊢
    refine ⟨fun hf => ?_, fun hf => ?_⟩
    · simp only [if_pos (ht.2 hf)]
      exact key .torch
    · simp only [if_neg (fun hc => hf (ht.1 hc))]
      exact key .numpy

-- the first argument is what counts, also when it is given by keyword
example (impl : Impl Unit) (a b : Arr) (ha : a.tensor = true) :
    callPublic true impl .sdr [] [("est", .arr b), ("ref", .arr a)] =
      callPkg impl .torch .sdr [] [("est", .arr b), ("ref", .arr a)] :=
  (C36_dispatch impl .sdr _ _).1 (Or.inr ⟨rfl, .arr a, by simp [firstName], ha⟩)

/-- C35, available functions: without torch, `bss_eval_sources`, `sdr` and `sdr_loss` are the
functions of the numpy package, for every call. -/
theorem C35_available (impl : Impl ρ) (f : Fn) (hf : f = .bssEvalSources ∨ f = .sdr ∨ f = .sdrLoss)
    (pos : List Val) (kw : List (String × Val)) :
    callPublic false impl f pos kw = callPkg impl .numpy f pos kw := by
  unfold callPublic
  cases h : bindArgs (publicSig f) pos kw with
  | error e => simp only [callPkg, pkgSig_eq, h]
  | ok vs =>
    have ha : torchAttr false f = .ok Option.none := by
      rcases hf with rfl | rfl | rfl <;> rfl
    have hb := bind_forwarded .numpy f vs (bindArgs_length h)
    simp only [ha, dispatchBackend, callAttr, Bool.false_eq_true, if_false]
    unfold callPkg
    rw [hb, pkgSig_eq, h]

example (a b : Val) : callPublic (ρ := Unit) false (fun _ _ _ => .ok ()) .sdr [a, b] [] = .ok () := by
  rw [C35_available _ _ (by simp)]
  simp [callPkg, pkgSig, numpySig, bindArgs, fillArgs, List.lookup]

/-- C35, unavailable functions: without torch, the other five functions never return; every call
with arguments that Python accepts raises `AttributeError` (any other call raises `TypeError`),
whatever the numpy package does. -/
theorem C35_unavailable (impl : Impl ρ) (f : Fn)
    (hf : ¬ (f = .bssEvalSources ∨ f = .sdr ∨ f = .sdrLoss)) (pos : List Val) (kw : List (String × Val)) :
    (Accepts f pos kw → callPublic false impl f pos kw = .error .attributeError) ∧
    (¬ Accepts f pos kw → callPublic false impl f pos kw = .error .typeError) := by
  have ha : torchAttr false f = .error .attributeError := by
    cases f <;> first | rfl | (exfalso; exact hf (by simp))
  rw [← bindArgs_public_ok_iff]
  unfold callPublic
  cases h : bindArgs (publicSig f) pos kw with
  | error e =>
    have := bindArgs_error h
    subst this
    simp
  | ok vs => simp [ha]

/-- C36: what a call with accepted arguments computes.  The body receives one value per parameter:
the values given by position first, then the keyword values, and for options not given the
documented default. -/
theorem C36_arguments (impl : Impl ρ) (p : Pkg) (f : Fn) (pos : List Val)
    (kw : List (String × Val)) (h : Accepts f pos kw) :
    ∃ vs, callPkg impl p f pos kw = impl p f vs ∧
      vs.length = (arrayNames f ++ optionNames f).length ∧
      vs.take pos.length = pos ∧
      (∀ (i : ℕ) (name : String), (arrayNames f ++ optionNames f)[i]? = some name →
        ∀ v, (name, v) ∈ kw → vs[i]? = some v) ∧
      (∀ (i : ℕ) (name : String), (arrayNames f ++ optionNames f)[i]? = some name →
        pos.length ≤ i → (∀ v, (name, v) ∉ kw) → vs[i]? = defaultOf name) := by
  obtain ⟨vs, hvs⟩ := (bindArgs_public_ok_iff f pos kw).2 h
  refine ⟨vs, ?_, ?_, ?_⟩
  · unfold callPkg
    rw [pkgSig_eq, hvs]
  · rw [bindArgs_length hvs, ← publicSig_names, List.length_map]
  · exact bindArgs_values f pos kw vs hvs

example (impl : Impl Unit) (a b : Val) :
    ∃ vs, callPkg impl .torch .siSdrLoss [a] [("pairwise", .bool true), ("ref", b)] = impl .torch .siSdrLoss vs ∧
      vs[1]? = some b := by
  obtain ⟨vs, h1, -, -, h2, -⟩ := C36_arguments impl .torch .siSdrLoss [a] [("pairwise", .bool true), ("ref", b)]
    ⟨by simp [arrayNames, optionNames, firstName], by simp, by simp [arrayNames, optionNames, firstName],
      by simp [arrayNames, firstName]⟩
  exact ⟨vs, h1, h2 1 "ref" (by simp [arrayNames, firstName]) b (by simp)⟩

/-- The packages as modelled, for whatever `scipy` and numpy version are installed. -/
noncomputable def backendOf (scipyLsa : Lsa) (numpy2 tensor : Bool) : Backend :=
  if tensor then torchBackend else numpyBackend scipyLsa numpy2

variable {s : List ℕ} {r e c N : ℕ}

/-- C36, end to end: calls with the two arrays (both tensors or both `ndarray`s) and no options run
the modelled functions of the corresponding package with the documented defaults: filters of 512
taps, direct solver, no mean removal, no clamping, no loading, permutation computed by
`bss_eval_sources`, aligned losses. -/
theorem C36_default_calls (scipyLsa : Lsa) (numpy2 t : Bool) (ref : Sig s r N) (est : Sig s e N)
    (ref' est' : Sig s c N) :
    let impl := modelImpl scipyLsa numpy2
    let B := backendOf scipyLsa numpy2 t
    let o : Opts := { filterLength := 512, useCgIter := none, zeroMean := false, clampDb := none, loadDiag := none }
    let R : Val := .arr ⟨t, s, r, N, ref⟩
    let E : Val := .arr ⟨t, s, e, N, est⟩
    let R' : Val := .arr ⟨t, s, c, N, ref'⟩
    let E' : Val := .arr ⟨t, s, c, N, est'⟩
    callPublic true impl .bssEvalSources [R, E] [] =
      (bssEvalSources B o true ref est).map (Res.bss s _) ∧
    callPublic true impl .sdr [R, E] [] = (sdr B o false false ref est).map (Res.sdr s _) ∧
    callPublic true impl .sdrLoss [E', R'] [] = (sdrLossDiag B o est' ref').map (Res.diag s _) ∧
    callPublic true impl .sdrLoss [E, R] [("pairwise", .bool true)] =
      (sdrLossPair B o est ref).map (Res.pair s r e) ∧
    callPublic true impl .sdrPitLoss [E, R] [] = (sdrPitLoss B o est ref).map (Res.sdr s _) ∧
    callPublic true impl .siBssEvalSources [R, E] [] =
      (siBssEvalSources B false none true none ref est).map (Res.bss s _) ∧
    callPublic true impl .siSdr [R, E] [] =
      (siSdr B false none false false ref est).map (Res.sdr s _) ∧
    callPublic true impl .siSdrLoss [E', R'] [] =
      (siSdrLossDiag B false none est' ref').map (Res.diag s _) ∧
    callPublic true impl .siSdrPitLoss [E, R] [] =
      (siSdrPitLoss B false none est ref).map (Res.sdr s _) := by
  intro impl B o R E R' E'
  have key : ∀ f (a b : Val) (kw : List (String × Val)), (a.isTensor = t) →
      callPublic true impl f [a, b] kw = callPkg impl (if t then .torch else .numpy) f [a, b] kw := by
    intro f a b kw ha
    cases t with
    | true => exact (C36_dispatch impl f _ kw).1 (Or.inl ⟨a, [b], rfl, ha⟩)
    | false =>
      refine (C36_dispatch impl f _ kw).2 ?_
      rintro (⟨v, l, hv, ht⟩ | ⟨hc, _⟩)
      · rw [← (List.cons.inj hv).1, ha] at ht
        cases ht
      · cases hc
  rw [key .bssEvalSources R E [] rfl, key .sdr R E [] rfl, key .sdrLoss E' R' [] rfl,
    key .sdrLoss E R _ rfl, key .sdrPitLoss E R [] rfl, key .siBssEvalSources R E [] rfl,
    key .siSdr R E [] rfl, key .siSdrLoss E' R' [] rfl, key .siSdrPitLoss E R [] rfl]
  cases t <;>
  · refine ⟨?_, ?_, ?_, ?_, ?_, ?_, ?_, ?_, ?_⟩ <;>
      simp [callPkg, pkgSig, numpySig, torchSig, bindArgs, fillArgs, impl, modelImpl, mkOpts,
        Val.nat, Val.optNat, Val.truthy, Val.optReal, withArrays, R, E, R', E', B, o, backendOf,
        bind, Except.bind, pure, Except.pure, List.lookup]

-- a call with tensors
example (scipyLsa : Lsa) : callPublic true (modelImpl scipyLsa true) .siSdrLoss
    [.arr ⟨true, [], 2, 3, Ex.est⟩, .arr ⟨true, [], 2, 3, Ex.ref⟩] [] =
      (siSdrLossDiag torchBackend false none Ex.est Ex.ref).map (Res.diag [] _) :=
  (C36_default_calls scipyLsa true true Ex.ref Ex.est Ex.ref Ex.est).2.2.2.2.2.2.2.1

/-! ### Concrete cases -/

/-- Both arrays by keyword, in the other order: the first argument of `sdr` is `ref`. -/
example (a b : Arr) (ha : a.tensor = true) :
    FirstIsTensor .sdr [] [("est", .arr b), ("ref", .arr a)] :=
  Or.inr ⟨rfl, .arr a, by simp [firstName], ha⟩

/-- A call accepted by Python. -/
example (a b : Val) : Accepts .siSdrLoss [a] [("pairwise", .bool true), ("ref", b)] :=
  ⟨by simp [arrayNames, optionNames, firstName], by simp, by simp [arrayNames, optionNames, firstName],
    by simp [arrayNames, firstName]⟩

/-- A call that is not accepted: `si_sdr` has no `load_diag`. -/
example (a b : Val) : ¬ Accepts .siSdr [a, b] [("load_diag", .none)] := fun h => by
  have := h.known ("load_diag", .none) (by simp)
  simp [arrayNames, optionNames, firstName] at this

/-- Without torch, `si_sdr(ref, est)` raises although the numpy package would return. -/
example (a b : Val) :
    callPublic (ρ := Unit) false (fun _ _ _ => .ok ()) .siSdr [a, b] [] = .error .attributeError ∧
    callPkg (ρ := Unit) (fun _ _ _ => .ok ()) .numpy .siSdr [a, b] [] = .ok () := by
  refine ⟨(C35_unavailable _ _ (by simp) _ _).1 ⟨?_, ?_, ?_, ?_⟩, ?_⟩
  · simp [arrayNames, optionNames, firstName]
  · simp
  · simp
  · simp [arrayNames, firstName]
  · simp [callPkg, pkgSig, numpySig, bindArgs, fillArgs, List.lookup]

end FBE.Props
