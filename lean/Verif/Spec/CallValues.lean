import Verif.Spec.Call

/-!
# Specification: the values of the arguments of a call, and what they stand for
-/

namespace FBE.Spec

/-- In the call `f(*pos, **kw)`, the parameter called `name` has the value `v`: it is given by
position, or by keyword, or it is not given and `v` is its documented default. -/
def Given (f : Fn) (pos : List Val) (kw : List (String × Val)) (name : String) (v : Val) : Prop :=
  (∃ i : ℕ, (arrayNames f ++ optionNames f)[i]? = some name ∧ pos[i]? = some v) ∨
  (name, v) ∈ kw ∨
  (name ∉ (arrayNames f ++ optionNames f).take pos.length ∧ (∀ w, (name, w) ∉ kw) ∧
    defaultOf name = some v)

/-- The values that may be given for a flag, and what they stand for: the booleans, numbers (zero is
false) and `None` (false). -/
inductive FlagValue : Val → Bool → Prop
  | none : FlagValue .none false
  | bool (b : Bool) : FlagValue (.bool b) b
  | zero : FlagValue (.int 0) false
  | int (i : ℤ) (h : i ≠ 0) : FlagValue (.int i) true
  | zeroFloat : FlagValue (.float 0) false
  | float (x : ℝ) (h : x ≠ 0) : FlagValue (.float x) true

/-- The values that may be given for an optional number: `None`, integers (0 is a number) and
floats. -/
inductive NumberValue : Val → Option ℝ → Prop
  | none : NumberValue .none Option.none
  | int (i : ℤ) : NumberValue (.int i) (some i)
  | float (x : ℝ) : NumberValue (.float x) (some x)

/-- The values that may be given for an optional count: `None` and the integers from 0 on. -/
inductive CountValue : Val → Option ℕ → Prop
  | none : CountValue .none Option.none
  | int (n : ℕ) : CountValue (.int n) (some n)

/-- The options of a call are those of `o`. -/
structure OptionsAre (f : Fn) (pos : List Val) (kw : List (String × Val)) (o : Opts) : Prop where
  filterLength : Given f pos kw "filter_length" (.int o.filterLength)
  useCgIter : ∃ v, Given f pos kw "use_cg_iter" v ∧ CountValue v o.useCgIter
  zeroMean : ∃ v, Given f pos kw "zero_mean" v ∧ FlagValue v o.zeroMean
  clampDb : ∃ v, Given f pos kw "clamp_db" v ∧ NumberValue v o.clampDb
  loadDiag : ∃ v, Given f pos kw "load_diag" v ∧ NumberValue v o.loadDiag

/-- The flag called `name` has the truth value `b`. -/
def FlagIs (f : Fn) (pos : List Val) (kw : List (String × Val)) (name : String) (b : Bool) : Prop :=
  ∃ v, Given f pos kw name v ∧ FlagValue v b

/-- The number called `name` is `x` (`none`: `None`). -/
def NumberIs (f : Fn) (pos : List Val) (kw : List (String × Val)) (name : String)
    (x : Option ℝ) : Prop :=
  ∃ v, Given f pos kw name v ∧ NumberValue v x

end FBE.Spec
