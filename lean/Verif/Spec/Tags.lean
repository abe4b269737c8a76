import Verif.Model.Tags

/-!
# Specification: precision of the results
-/

namespace FBE.Spec

open Tags

/-- Real data types of signals. -/
def IsSignalType (d : DType) : Prop := d = .int ∨ d = .f16 ∨ d = .f32 ∨ d = .f64

/-- The number of bits with which numpy computes with signals of a type. -/
def bits : DType → ℕ
  | .f16 => 16
  | .f32 => 32
  | _ => 64

/-- The real data type with a number of bits. -/
def floatOfBits (n : ℕ) : DType :=
  if n ≤ 16 then .f16 else if n ≤ 32 then .f32 else .f64

/-- The options ask for at least one iteration of the iterative solver. -/
def Iterates (o : Opt) : Prop := o.filterLength ≠ 1 ∧ ∃ n, o.useCgIter = some (n + 1)

instance (o : Opt) : Decidable (Iterates o) := by
  unfold Iterates
  cases h : o.useCgIter with
  | none => exact isFalse (by simp)
  | some n =>
    cases n with
    | zero => exact isFalse (by simp)
    | succ n => exact decidable_of_iff (o.filterLength ≠ 1) (by simp)

/-- The number of bits of the SDR computed by the numpy package. -/
def numpyBits (o : Opt) (a b : DType) : ℕ :=
  if Iterates o then 64
  else if o.filterLength = 1 then max (bits a) (bits b)
  else max 32 (max (bits a) (bits b))

/-- The default data type is a float type that does not exceed the type `t`. -/
def Fits (T t : DType) : Prop := (T = .f32 ∨ T = .f64) ∧ (t = .f32 → T = .f32)

/-- A numpy array. -/
def arr (t : DType) : Tag := ⟨.cpu, t⟩

end FBE.Spec
