import Verif.Model.Import

/-!
# Specification: installations, independent of the module bodies
-/

namespace FBE.Spec

/-- Version 1.8 or later: a larger major number, or major number 1 and a minor number larger than 8,
or 1.8 with a later number different from zero, or 1.8 itself unless it is a pre-release. -/
def Since18 (v : Version) : Prop :=
  let major := v.release.getD 0 0
  let minor := v.release.getD 1 0
  1 < major ∨ (major = 1 ∧ (8 < minor ∨
    (minor = 8 ∧ ((∃ k ∈ v.release.drop 2, k ≠ 0) ∨ v.early = false))))

/-- The packages that `setup.py` asks for can be imported. -/
def Required (P : Python) : Prop := P.numpy = .ok () ∧ P.scipy = .ok ()

/-- `ImportError`, or its subclass. -/
def IsImportError (e : Exc) : Prop := e = .importError ∨ e = .moduleNotFoundError

/-- An installation with torch, version 1.8 or later, and packaging. -/
def RecentTorch (P : Python) : Prop :=
  ∃ t v, P.torch = .ok t ∧ P.packaging = .ok () ∧ t.version = .ok v ∧ Since18 v ∧ t.fft = .ok ()

/-- An installation with an older torch, and packaging. -/
def OldTorch (P : Python) : Prop :=
  ∃ t v, P.torch = .ok t ∧ P.packaging = .ok () ∧ t.version = .ok v ∧ ¬ Since18 v

end FBE.Spec
