import Verif.Proofs.Import
import Verif.Props.C35_C36_Dispatch

/-!
# C69: what importing the package does on every installation
-/

namespace FBE.Props

open Spec

variable {ρ : Type*}

example : Spec.Since18 ⟨[2, 1, 0], false⟩ ∧ Spec.Since18 ⟨[1, 10], true⟩ ∧ ¬ Spec.Since18 ⟨[1, 8, 0], true⟩ ∧
    ¬ Spec.Since18 ⟨[1, 7, 1], false⟩ ∧ Spec.Since18 ⟨[1, 8], false⟩ := by
  simp only [← is18Plus_iff]
  decide

/-- C69, without torch: the package can be imported, whatever else is missing, and the torch
functions are replaced by the dummy class. -/
theorem C69_no_torch (P : Python) (h : Required P) (e : Exc) (he : IsImportError e)
    (ht : P.torch = .error e) :
    importPackage P = .ok { hasTorch := false, torch := none } := by
  obtain ⟨h1, h2⟩ := h
  rcases he with rfl | rfl <;>
    simp [importPackage, importNumpyPkg, h1, h2, ht, tryExcept, Exc.isA, bind, Except.bind, pure, Except.pure]

/-- A computer without torch, packaging, distutils and torch_complex. -/
def C69_noTorch : Python :=
  ⟨.ok (), .ok (), .error .moduleNotFoundError, .error .moduleNotFoundError, .error .moduleNotFoundError,
    .error .moduleNotFoundError⟩

example : importPackage C69_noTorch = .ok { hasTorch := false, torch := none } :=
  C69_no_torch _ ⟨rfl, rfl⟩ .moduleNotFoundError (Or.inr rfl) rfl

/-- C69, a torch that is installed but broken (its import raises something else than `ImportError`):
the package cannot be imported, the exception reaches the user. -/
theorem C69_broken_torch (P : Python) (hn : P.numpy = .ok ()) (e : Exc) (he : ¬ IsImportError e)
    (ht : P.torch = .error e) : importPackage P = .error e := by
  have : e.isA .importError = false := by
    unfold IsImportError at he
    simp only [Exc.isA]
    simp [not_or] at he ⊢
    exact he
  simp [importPackage, hn, ht, tryExcept, this, bind, Except.bind]

example : importPackage { C69_noTorch with torch := .error .osError } = .error .osError :=
  C69_broken_torch _ rfl _ (by simp [IsImportError]) rfl

/-- C69, torch without packaging (which `setup.py` does not ask for): the package cannot be imported,
`TypeError`.  The version of torch, distutils and torch_complex do not matter. -/
theorem C69_no_packaging (P : Python) (hn : P.numpy = .ok ()) (t : TorchInfo) (ht : P.torch = .ok t)
    (e : Exc) (hp : P.packaging = .error e) : importPackage P = .error .typeError := by
  simp [importPackage, importTorchPkg, hn, ht, hp, tryExcept, Exc.isA, bind, Except.bind]

example : importPackage { C69_noTorch with torch := .ok ⟨.ok ⟨[2, 1, 0], false⟩, .ok ()⟩, distutils := .ok () } =
    .error .typeError :=
  C69_no_packaging _ rfl _ rfl _ rfl

/-- C69, torch 1.8 or later with packaging: the torch package with the recent wrappers;
torch_complex is not needed. -/
theorem C69_recent_torch (P : Python) (h : Required P) (hr : RecentTorch P) :
    importPackage P = .ok { hasTorch := true, torch := some .recent } := by
  obtain ⟨h1, h2⟩ := h
  obtain ⟨t, v, ht, hp, hv, h18, hf⟩ := hr
  have := (is18Plus_iff v).2 h18
  simp [importPackage, importTorchPkg, importNumpyPkg, h1, h2, ht, hp, hv, hf, this, tryExcept, bind, Except.bind,
    pure, Except.pure]

/-- A computer with torch and packaging. -/
def C69_withTorch (v : Version) : Python :=
  { C69_noTorch with torch := .ok ⟨.ok v, .ok ()⟩, packaging := .ok () }

example : importPackage (C69_withTorch ⟨[1, 8, 1], false⟩) = .ok { hasTorch := true, torch := some .recent } :=
  C69_recent_torch _ ⟨rfl, rfl⟩ ⟨_, _, rfl, rfl, rfl, (is18Plus_iff _).1 rfl, rfl⟩

/-- C69, older torch with packaging.  With torch_complex: the torch package with the old wrappers.
Without: the package is imported as if torch were missing, with no exception.  A torch_complex
whose import raises anything else: that exception. -/
theorem C69_old_torch (P : Python) (h : Required P) (ho : OldTorch P) :
    (P.torchComplex = .ok () → importPackage P = .ok { hasTorch := true, torch := some .old }) ∧
    (∀ e, P.torchComplex = .error e → IsImportError e →
      importPackage P = .ok { hasTorch := false, torch := none }) ∧
    (∀ e, P.torchComplex = .error e → ¬ IsImportError e → importPackage P = .error e) := by
  obtain ⟨h1, h2⟩ := h
  obtain ⟨t, v, ht, hp, hv, h18⟩ := ho
  have : v.is18Plus = false := by
    rw [← Bool.not_eq_true, is18Plus_iff]; exact h18
  refine ⟨fun hc => ?_, fun e hc he => ?_, fun e hc he => ?_⟩
  · simp [importPackage, importTorchPkg, importNumpyPkg, h1, h2, ht, hp, hv, hc, this, tryExcept, bind, Except.bind,
      pure, Except.pure]
  · rcases he with rfl | rfl <;>
      simp [importPackage, importTorchPkg, importNumpyPkg, h1, h2, ht, hp, hv, hc, this, tryExcept, Exc.isA, bind,
        Except.bind, pure, Except.pure]
  · have he' : e.isA .importError = false := by
      unfold IsImportError at he
      simp only [Exc.isA]
      simp [not_or] at he ⊢
      exact he
    simp [importPackage, importTorchPkg, h1, ht, hp, hv, hc, this, tryExcept, he', bind, Except.bind]

example : importPackage (C69_withTorch ⟨[1, 8, 0], true⟩) = .ok { hasTorch := false, torch := none } :=
  (C69_old_torch _ ⟨rfl, rfl⟩ ⟨_, _, rfl, rfl, rfl, fun h => by
    have := (is18Plus_iff _).2 h
    revert this
    decide⟩).2.1 _ rfl (Or.inr rfl)

/-- C69, the import never leaves a package in between: if it succeeds, then numpy and scipy are
there, and either the torch package is loaded, from a torch with packaging (and torch_complex, if the
torch is old), or it is replaced by the dummy class. -/
theorem C69_import (P : Python) (l : Loaded) (h : importPackage P = .ok l) :
    Required P ∧
    ((l.hasTorch = true ∧ l.torch = some .recent ∧ RecentTorch P) ∨
     (l.hasTorch = true ∧ l.torch = some .old ∧ OldTorch P ∧ P.torchComplex = .ok ()) ∨
     (l.hasTorch = false ∧ l.torch = none ∧ ¬ RecentTorch P ∧ ¬ (OldTorch P ∧ P.torchComplex = .ok ()))) := by
  have hreq : Required P := by
    unfold importPackage importNumpyPkg at h
    rcases hn : P.numpy with e | u
    · simp [hn, bind, Except.bind] at h
    rcases hs : P.scipy with e | u
    · simp only [hn, hs, bind, Except.bind] at h
      split at h <;> cases h
    exact ⟨hn, hs⟩
  refine ⟨hreq, ?_⟩
  by_cases hr : RecentTorch P
  · left
    rw [C69_recent_torch P hreq hr] at h
    cases h
    exact ⟨rfl, rfl, hr⟩
  by_cases ho : OldTorch P ∧ P.torchComplex = .ok ()
  · right; left
    rw [(C69_old_torch P hreq ho.1).1 ho.2] at h
    cases h
    exact ⟨rfl, rfl, ho⟩
  right; right
  have : l = { hasTorch := false, torch := none } := by
    unfold importPackage at h
    simp only [hreq.1, importNumpyPkg, hreq.2, bind, Except.bind, pure, Except.pure] at h
    rcases ht : P.torch with e | t
    · simp only [ht, tryExcept] at h
      split at h
      · cases h
      · cases h
        rename_i heq
        split at heq
        · cases heq; rfl
        · cases heq
    · simp only [ht] at h
      rcases hw : importTorchPkg P t with e | w
      · simp only [hw, tryExcept] at h
        split at h
        · cases h
        · cases h
          rename_i heq
          split at heq
          · cases heq; rfl
          · cases heq
      · exfalso
        unfold importTorchPkg at hw
        rcases hp : P.packaging with e | u
        · simp [hp, tryExcept, bind, Except.bind] at hw
        rcases hv : t.version with e | v
        · simp [hp, hv, tryExcept, bind, Except.bind] at hw
        by_cases h18 : v.is18Plus = true
        · rcases hf : t.fft with e | u
          · simp [hp, hv, h18, hf, tryExcept, bind, Except.bind] at hw
          · exact hr ⟨t, v, ht, hp, hv, (is18Plus_iff v).1 h18, hf⟩
        · rcases hc : P.torchComplex with e | u
          · simp only [hp, hv, h18, hc, tryExcept, bind, Except.bind, pure, Except.pure, Bool.not_false, if_true] at hw
            split at hw
            · cases hw
            · rename_i heq
              split at heq <;> cases heq
          · exact ho ⟨⟨t, v, ht, hp, hv, fun h => h18 ((is18Plus_iff v).2 h)⟩, hc⟩
  subst this
  exact ⟨rfl, rfl, hr, ho⟩

example : importPackage { C69_withTorch ⟨[1, 6, 0], false⟩ with torchComplex := .ok () } =
    .ok { hasTorch := true, torch := some .old } := rfl

/-- C69, tensors.  After an import with a recent torch, or an old one with torch_complex, a call with
a tensor runs the function of the torch package.  After an import with an old torch without
torch_complex the same call silently runs the function of the numpy package on the tensors
(`bss_eval_sources`, `sdr`, `sdr_loss`), or raises `AttributeError` (the other five). -/
theorem C69_tensors (P : Python) (l : Loaded) (h : importPackage P = .ok l) (impl : Wrappers → Impl ρ)
    (f : Fn) (pos : List Val) (kw : List (String × Val)) (hf : FirstIsTensor f pos kw) :
    (RecentTorch P → callLoaded impl l f pos kw = callPkg (impl .recent) .torch f pos kw) ∧
    (OldTorch P → P.torchComplex = .ok () →
      callLoaded impl l f pos kw = callPkg (impl .old) .torch f pos kw) ∧
    (OldTorch P → P.torchComplex = .error .moduleNotFoundError →
      ((f = .bssEvalSources ∨ f = .sdr ∨ f = .sdrLoss) →
        callLoaded impl l f pos kw = callPkg (impl .recent) .numpy f pos kw) ∧
      (¬ (f = .bssEvalSources ∨ f = .sdr ∨ f = .sdrLoss) → Accepts f pos kw →
        callLoaded impl l f pos kw = .error .attributeError)) := by
  have hreq := (C69_import P l h).1
  refine ⟨fun hr => ?_, fun ho hc => ?_, fun ho hc => ?_⟩
  · rw [C69_recent_torch P hreq hr] at h
    cases h
    exact (C36_dispatch _ f pos kw).1 hf
  · rw [(C69_old_torch P hreq ho).1 hc] at h
    cases h
    exact (C36_dispatch _ f pos kw).1 hf
  · rw [(C69_old_torch P hreq ho).2.1 _ hc (Or.inr rfl)] at h
    cases h
    exact ⟨fun hf' => C35_available _ f hf' pos kw, fun hf' ha => (C35_unavailable _ f hf' pos kw).1 ha⟩

example (impl : Wrappers → Impl ρ) (a b : Arr) (ha : a.tensor = true) :
    callLoaded impl { hasTorch := false, torch := none } .siSdr [.arr a, .arr b] [] = .error .attributeError :=
  ((C69_tensors (C69_withTorch ⟨[1, 7, 1], false⟩) _ rfl impl .siSdr [.arr a, .arr b] []
    (Or.inl ⟨_, _, rfl, ha⟩)).2.2 ⟨_, _, rfl, rfl, rfl, fun h => by
      have := (is18Plus_iff _).2 h
      revert this
      decide⟩ rfl).2 (by simp)
    ⟨by simp [arrayNames, optionNames, firstName], by simp, by simp, by simp [arrayNames, firstName]⟩

end FBE.Props
