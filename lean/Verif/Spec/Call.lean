import Verif.Model.Dispatch

/-!
# Specification: Python calls, independent of the binding in the model
-/

namespace FBE.Spec

/-- The name of the first parameter of a public function: the estimates for the losses, the
references for the others. -/
def firstName : Fn → String
  | .bssEvalSources | .sdr | .siBssEvalSources | .siSdr => "ref"
  | .sdrLoss | .sdrPitLoss | .siSdrLoss | .siSdrPitLoss => "est"

/-- The names of the optional arguments of a public function. -/
def optionNames : Fn → List String
  | .bssEvalSources =>
    ["filter_length", "use_cg_iter", "zero_mean", "clamp_db", "compute_permutation", "load_diag"]
  | .sdr => ["filter_length", "use_cg_iter", "zero_mean", "clamp_db", "load_diag", "return_perm",
    "change_sign"]
  | .sdrLoss => ["filter_length", "use_cg_iter", "zero_mean", "clamp_db", "load_diag", "pairwise"]
  | .sdrPitLoss => ["filter_length", "use_cg_iter", "zero_mean", "clamp_db", "load_diag"]
  | .siBssEvalSources => ["zero_mean", "clamp_db", "compute_permutation", "load_diag"]
  | .siSdr => ["zero_mean", "clamp_db", "return_perm", "change_sign"]
  | .siSdrLoss => ["zero_mean", "clamp_db", "pairwise"]
  | .siSdrPitLoss => ["zero_mean", "clamp_db"]

/-- The names of the two array arguments, in order. -/
def arrayNames (f : Fn) : List String :=
  if firstName f = "ref" then ["ref", "est"] else ["est", "ref"]

/-- The value given to the first parameter, by position or by keyword, is a tensor. -/
def FirstIsTensor (f : Fn) (pos : List Val) (kw : List (String × Val)) : Prop :=
  (∃ v rest, pos = v :: rest ∧ v.isTensor) ∨
    (pos = [] ∧ ∃ v, (firstName f, v) ∈ kw ∧ v.isTensor)

/-- A call that Python accepts: not too many positional arguments, no keyword twice, every keyword
the name of a parameter that is not given by position, and both arrays given. -/
structure Accepts (f : Fn) (pos : List Val) (kw : List (String × Val)) : Prop where
  length : pos.length ≤ (arrayNames f ++ optionNames f).length
  nodup : (kw.map Prod.fst).Nodup
  known : ∀ p ∈ kw, p.1 ∈ (arrayNames f ++ optionNames f).drop pos.length
  given : ∀ name ∈ (arrayNames f).drop pos.length, ∃ v, (name, v) ∈ kw

/-- The documented default values of the optional arguments. -/
def defaultOf : String → Option Val
  | "filter_length" => some (.int 512)
  | "use_cg_iter" => some .none
  | "zero_mean" => some (.bool false)
  | "clamp_db" => some .none
  | "compute_permutation" => some (.bool true)
  | "load_diag" => some .none
  | "return_perm" => some (.bool false)
  | "change_sign" => some (.bool false)
  | "pairwise" => some (.bool false)
  | _ => none

end FBE.Spec
