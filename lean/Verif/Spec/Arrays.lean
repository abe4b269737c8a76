import Verif.Model.Arrays
import Verif.Spec.Backend

/-!
# What it means that arrays hold the values of the index model

The rest of the model and all other properties use functions of typed indices.  These definitions say when an
array (a shape and entries, axes listed from the last to the first) holds such a function.
-/

namespace FBE

namespace Spec

/-- Position of a batch item, from the last batch axis to the first. -/
def pos : {s : List ℕ} → BIdx s → List ℕ
  | [], _ => []
  | _ :: _, m => pos m.2 ++ [m.1.val]

/-- The signals of an array of shape `(..., c, n)` whose batch axes have the shape `b`, broadcast to `s`. -/
def signals (x : Tensor ℝ) (b s : List ℕ) (c n : ℕ) : Sig s c n :=
  fun m k t => x.get (t.val :: k.val :: Tensor.bcIdx b (pos m))

/-- The signals of an array of shape `b + (n,)` broadcast to `s + (c, n)`. -/
def channels (x : Tensor ℝ) (b s : List ℕ) (c n : ℕ) : Sig s c n :=
  fun m k t => x.get (t.val :: Tensor.bcIdx b (k.val :: pos m))

/-- An array of shape `s + (r, e)` with given entries. -/
def Holds2 {α : Type} {s : List ℕ} {r e : ℕ} (t : Tensor α) (v : BIdx s → Fin r → Fin e → α) : Prop :=
  t.shape = e :: r :: s.reverse ∧ ∀ m (k : Fin r) (j : Fin e), t.get (j.val :: k.val :: pos m) = v m k j

/-- An array of shape `s + (c,)` with given entries. -/
def Holds1 {α : Type} {s : List ℕ} {c : ℕ} (t : Tensor α) (v : BIdx s → Fin c → α) : Prop :=
  t.shape = c :: s.reverse ∧ ∀ m (k : Fin c), t.get (k.val :: pos m) = v m k

/-- The same for an array that may be absent. -/
def HoldsOpt {α : Type} {s : List ℕ} {c : ℕ} : Option (Tensor α) → Option (BIdx s → Fin c → α) → Prop
  | none, none => True
  | some t, some v => Holds1 t v
  | _, _ => False

/-- The arrays returned by `sdr`. -/
def HoldsSdr {s : List ℕ} {n : ℕ} (t : Tensor XR × Option (Tensor ℕ)) (v : SdrOut s n) : Prop :=
  Holds1 t.1 v.sdr ∧ HoldsOpt t.2 v.perm

/-- The arrays returned by `bss_eval_sources`. -/
def HoldsBss {s : List ℕ} {n : ℕ} (t : Arrays.BssArrays) (v : BssOut s n) : Prop :=
  Holds1 t.sdr v.sdr ∧ Holds1 t.sir v.sir ∧ Holds1 t.sar v.sar ∧ HoldsOpt t.perm v.perm

/-- Two computations fail with the same exception, or both return and the values are related. -/
def Agrees {α β : Type} (R : α → β → Prop) (x : Except PyErr α) : Except PyErr β → Prop
  | .error err => x = .error err
  | .ok v => ∃ t, x = .ok t ∧ R t v

/-- Usual lengths: at least one tap; for one tap (where the sums over time are taken directly) no signal of a
single sample together with longer ones, which would be broadcast. -/
def UsualLengths (o : Opts) (N M : ℕ) : Prop :=
  0 < o.filterLength ∧ (o.filterLength = 1 → N = M ∨ N ≠ 1 ∧ M ≠ 1)

/-- The direct solver is not asked for a stack of vectors, or takes it (not numpy >= 2, see C43). -/
def TakesVectors (B : Backend) (o : Opts) : Prop :=
  o.filterLength = 1 ∨ o.useCgIter ≠ none ∨ B.stackedVectors = true

/-- The installations of the packages: torch >= 1.8, older versions of torch, numpy. -/
def Installed (A : Api) : Prop :=
  A = torchApi ∨ A = oldTorchApi ∨ ∃ lsa numpy2, LsaCorrect lsa ∧ A = numpyApi lsa numpy2

/-- `x[i]` for an index of the leading axes. -/
def sub {α : Type} (x : Tensor α) (i : List ℕ) : Tensor α :=
  ⟨x.shape.take (x.shape.length - i.length), fun j => x.get (j ++ i)⟩

/-- Arrays with the same shape and the same entries. -/
def SameArray {α : Type} (x y : Tensor α) : Prop :=
  x.shape = y.shape ∧ ∀ i, InRange x.shape i → x.get i = y.get i

/-- The same for arrays that may be absent. -/
def SameOpt {α : Type} : Option (Tensor α) → Option (Tensor α) → Prop
  | none, none => True
  | some x, some y => SameArray x y
  | _, _ => False

/-- The arrays returned by `sdr` are the same. -/
def SameSdrArrays (x y : Tensor XR × Option (Tensor ℕ)) : Prop := SameArray x.1 y.1 ∧ SameOpt x.2 y.2

/-- The arrays returned by `bss_eval_sources` are the same. -/
def SameBssArrays (x y : Arrays.BssArrays) : Prop :=
  SameArray x.sdr y.sdr ∧ SameArray x.sir y.sir ∧ SameArray x.sar y.sar ∧ SameOpt x.perm y.perm

/-- Two calls raise the same exception, or both return, and the results are related. -/
def SameResult {α : Type} (R : α → α → Prop) (x y : Except PyErr α) : Prop :=
  (∃ err, x = .error err ∧ y = .error err) ∨ ∃ a b, x = .ok a ∧ y = .ok b ∧ R a b

/-- Two calls both raise an exception, or both return, and the results are related. -/
def SameReturn {α : Type} (R : α → α → Prop) (x y : Except PyErr α) : Prop :=
  (∃ err err', x = .error err ∧ y = .error err') ∨ ∃ a b, x = .ok a ∧ y = .ok b ∧ R a b

/-- The call raises the exception of the installation for shapes that do not fit: `RuntimeError` (torch),
`ValueError` (numpy). -/
def ShapeError {α : Type} (A : Api) (x : Except PyErr α) : Prop :=
  (A = torchApi ∨ A = oldTorchApi → x = .error .runtimeError) ∧
    ∀ lsa numpy2, A = numpyApi lsa numpy2 → x = .error .valueError

/-- The call on a batch with leading axes `b` and the calls on its items: if the first returns, so do the
others, and the results are those of the batch; if the batch is not empty and the calls on all items return, so
does the call on the batch. -/
structure Itemwise {α : Type} (b : List ℕ) (whole : Except PyErr α) (one : List ℕ → Except PyErr α)
    (Shape : α → Prop) (Item : List ℕ → α → α → Prop) : Prop where
  shape : ∀ T, whole = .ok T → Shape T
  items : ∀ T, whole = .ok T → ∀ i, InRange b i → ∃ t, one i = .ok t ∧ Item i T t
  returns : (∃ i, InRange b i) → (∀ i, InRange b i → ∃ t, one i = .ok t) → ∃ T, whole = .ok T

end Spec

/-- The optional arguments as the caller gives them. -/
def Opts.args (o : Opts) : Arrays.AOpts where
  filterLength := some o.filterLength
  useCgIter := o.useCgIter.map fun it : ℕ => (it : ℤ)
  zeroMean := o.zeroMean
  clampDb := o.clampDb
  loadDiag := o.loadDiag

end FBE
