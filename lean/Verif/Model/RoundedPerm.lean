import Verif.Model.RoundedLsa
import Verif.Model.RoundedSi
import Verif.Model.Helpers

/-!
# The permutation of the scale-invariant SDR in floating point arithmetic (torch back end)

`si_sdr(ref, est, clamp_db=..., return_perm=True)` for one element of the batch, all roundings from the samples to the
permutation.

Simplifications: those of `Model/RoundedSi.lean` and `Model/RoundedLsa.lean`; `zero_mean=False`.
-/

namespace FBE.Rounded

variable {p n r e : ℕ} {fl : ℝ → ℝ}

/-- Body of the loop over the batch, torch/helpers.py:91-98 (the loss and `p_opts`; there are no further arguments). -/
noncomputable def flPermItem (h : IsNearest p fl) (nOut : ℕ) {a b : ℕ} (loss : Fin a → Fin b → XR) :
    Except PyErr ((Fin nOut → XR) × (Fin nOut → ℕ)) :=
  match flLsaWithInf h loss with
  | .error err => .error err
  | .ok l =>
    if hl : l.length = nOut then .ok (gather l hl loss, gather l hl fun _ j => j.val)
    else .error .valueError

/-- torch/helpers.py:66-106, `_solve_permutation(loss, return_perm=True)`, one element of the batch. -/
noncomputable def flSolvePermutation (h : IsNearest p fl) (loss : Fin r → Fin e → XR) :
    Except PyErr ((Fin (min r e) → XR) × (Fin (min r e) → ℕ)) :=
  if e < r then flPermItem h (min r e) fun j i => loss i j else flPermItem h (min r e) loss

/-- torch/scale_invariant.py:50-115, torch/metrics.py:365-443, `si_sdr(ref, est, clamp_db=..., return_perm=True)`: `res` is a
possible outcome.  A change of the sign is exact. -/
def IsSiSdr (E : Machine p) (k : ℕ) (clampDb : Option ℝ) (ref : Fin r → Fin n → ℝ) (est : Fin e → Fin n → ℝ)
    (res : Except PyErr ((Fin (min r e) → XR) × (Fin (min r e) → ℕ))) : Prop :=
  ∃ v : Fin r → Fin e → XR, (∀ i j, IsSiSdrLoss E k clampDb (est j) (ref i) (v i j)) ∧
    res = match flSolvePermutation E.fl_nearest v with
      | .error err => .error err
      | .ok (loss, perm) => .ok (fun c => (loss c).neg, perm)

end FBE.Rounded
