import Verif.Model.Rounded

/-!
# The assignment solver of the torch back end on floating point numbers

`torch/hungarian.py` works on a tensor of floating point numbers: every `+=` and `-=` on the cost matrix is
rounded.  The machine itself is `Verif/Model/Hungarian.lean`, unchanged: it is written for every type with an order,
a zero, an addition and a subtraction; here is the type of the finite floating point numbers.

Simplification: as in `Verif/Model/Rounded.lean`, the range of exponents is not bounded and there is no signed zero.
-/

namespace FBE.Rounded

variable {p : ℕ} {fl : ℝ → ℝ}

/-- The entries of the cost matrix: the finite numbers of the data type of the tensor.
torch/hungarian.py:126 (`state.C`). -/
structure FlNum (h : IsNearest p fl) where
  val : ℝ
  rep : Representable p val

namespace FlNum

variable {h : IsNearest p fl}

theorem val_injective : Function.Injective (val : FlNum h → ℝ) := by
  rintro ⟨a, _⟩ ⟨b, _⟩ hab
  cases hab
  rfl

/-- Comparisons are exact.  torch/hungarian.py:151, 155, 187, 278. -/
noncomputable instance : LinearOrder (FlNum h) := LinearOrder.lift' val val_injective

/-- The zero the entries are compared with.  torch/hungarian.py:155, 187. -/
instance : Zero (FlNum h) := ⟨⟨0, 0, 0, by simp, by simp⟩⟩

/-- A rounded addition.  torch/hungarian.py:279. -/
instance : Add (FlNum h) := ⟨fun a b => ⟨fl (a.val + b.val), (h _).1⟩⟩

/-- A rounded subtraction.  torch/hungarian.py:151, 280. -/
instance : Sub (FlNum h) := ⟨fun a b => ⟨fl (a.val - b.val), (h _).1⟩⟩

end FlNum

/-- The result of an operation on tensors of the data type: a finite result is rounded.
torch/helpers.py:147-151. -/
noncomputable def rnd (fl : ℝ → ℝ) : XR → XR
  | .fin x => .fin (fl x)
  | x => x

/-- torch/hungarian.py:14-113 `linear_sum_assignment` on numbers of the data type: the NaN check (lines 82-83), then
the state machine.  As in `torchLsa` infinite entries are not modelled; the caller has removed them.
`fl` of a number of the data type is this number. -/
noncomputable def flLsa (h : IsNearest p fl) {r c : ℕ} (cost : Fin r → Fin c → XR) :
    Except PyErr (List (Fin r × Fin c)) :=
  if anyEntry XR.isNan cost then .error .valueError
  else if anyEntry XR.isInf cost then .error .unmodelled
  else Hungarian.linearSumAssignment (3 * (min r c + 2) ^ 2)
    fun i j => (⟨fl (((cost i j).toReal?).getD 0), (h _).1⟩ : FlNum h)

/-- torch/helpers.py:109-157, `_linear_sum_assignment_with_inf`, every operation rounded to the data type of the cost
matrix (`n` and `n - 1` are Python integers, converted when they meet a tensor). -/
noncomputable def flLsaWithInf (h : IsNearest p fl) {r c : ℕ} (cost : Fin r → Fin c → XR) :
    Except PyErr (List (Fin r × Fin c)) :=
  if r == 0 || c == 0 then .ok [] else
  let minInf := anyEntry XR.isNegInf cost
  let maxInf := anyEntry XR.isPosInf cost
  if minInf && maxInf then .error .valueError else
  if minInf || maxInf then
    match xMin .runtimeError (nonInfValues cost) with
    | .error e => .error e
    | .ok m =>
      match xMax .runtimeError (nonInfValues cost) with
      | .error e => .error e
      | .ok M =>
        let add := fun x y => rnd fl (XR.add x y)
        let sub := fun x y => rnd fl (XR.sub x y)
        let mul := fun x y => rnd fl (XR.mul x y)
        let nn : XR := .fin (fl (min r c : ℕ))
        let n1 : XR := .fin (fl ((min r c : ℕ) - 1))
        -- n * (M - m + torch.abs(M) + torch.abs(m) + 1)
        let positive := mul nn (add (add (add (sub M m) (XR.abs M)) (XR.abs m)) (.fin 1))
        let ph := if maxInf then add (add M (mul n1 (sub M m))) positive else XR.nan
        let ph := if minInf then sub (add m (mul n1 (sub m M))) positive else ph
        flLsa h fun i j => if (cost i j).isInf then ph else cost i j
  else flLsa h cost

end FBE.Rounded
