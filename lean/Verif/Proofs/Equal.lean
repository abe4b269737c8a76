import Verif.Model.Metrics

/-!
# References and estimates of the same length

The functions of the model are defined for references and estimates of any two lengths; here is what
they are for equal lengths.
-/

namespace FBE

open Classical

variable {s : List ℕ} {r e c N M : ℕ}

theorem nFft_def (N : ℕ) : nFft N = if N = 0 then .error .valueError else .ok (2 ^ Nat.clog 2 (N + N - 1)) := by
  unfold nFft
  rw [max_self]
  by_cases h : N = 0
  · rw [if_pos h, if_pos (by omega)]
  · rw [if_neg h, if_neg (by omega)]

theorem sameLength_self (B : Backend) (x : Sig s c N) : sameLength B N x = .ok x := by
  unfold sameLength
  rw [dif_pos rfl]
  rfl

theorem sameLength_ne (B : Backend) (h : M ≠ N) (x : Sig s c M) :
    sameLength B N x = .error (if M = 1 ∨ N = 1 then .unmodelled else B.shapeErr) := by
  unfold sameLength
  rw [dif_neg h]
  split <;> rfl

theorem sdrCohPair_def (B : Backend) (o : Opts) (ref : Sig s r N) (est : Sig s e N) : sdrCohPair B o ref est =
    if o.filterLength = 0 then .error .unmodelled else if o.filterLength = 1 then .ok (cohSdrOnePair o ref est)
    else sdrCohPairGen B o ref est := by
  unfold sdrCohPair
  rw [sameLength_self]
  rfl

theorem sdrCohDiag_def (B : Backend) (o : Opts) (ref est : Sig s c N) : sdrCohDiag B o ref est =
    if o.filterLength = 0 then .error .unmodelled else if o.filterLength = 1 then .ok (cohSdrOneDiag o ref est)
    else sdrCohDiagGen B o ref est := by
  unfold sdrCohDiag
  rw [sameLength_self]
  rfl

theorem sqCosPair_def (B : Backend) (o : Opts) (ref : Sig s r N) (est : Sig s e N) : sqCosPair B o ref est =
    if o.filterLength = 0 then .error .unmodelled else if o.filterLength = 1 then
      match cohSarOne o ref est with
      | .error err => .error err
      | .ok sar => .ok (cohSdrOnePair o ref est, sar)
    else sqCosPairGen B o ref est := by
  unfold sqCosPair
  rw [sameLength_self]
  rfl

theorem sqCosDiag_def (B : Backend) (o : Opts) (ref est : Sig s c N) : sqCosDiag B o ref est =
    if o.filterLength = 0 then .error .unmodelled else if o.filterLength = 1 then
      match cohSarOne o ref est with
      | .error err => .error err
      | .ok sar => .ok (cohSdrOneDiag o ref est, sar)
    else sqCosDiagGen B o ref est := by
  unfold sqCosDiag
  rw [sameLength_self]
  rfl

/-! ### filters of at least two taps: any lengths -/

theorem sdrCohPair_gen (B : Backend) {o : Opts} (h : 2 ≤ o.filterLength) (ref : Sig s r N) (est : Sig s e M) :
    sdrCohPair B o ref est = sdrCohPairGen B o ref est := by
  unfold sdrCohPair
  rw [if_neg (by omega), if_neg (by omega)]

theorem sdrCohDiag_gen (B : Backend) {o : Opts} (h : 2 ≤ o.filterLength) (ref : Sig s c N) (est : Sig s c M) :
    sdrCohDiag B o ref est = sdrCohDiagGen B o ref est := by
  unfold sdrCohDiag
  rw [if_neg (by omega), if_neg (by omega)]

theorem sqCosPair_gen (B : Backend) {o : Opts} (h : 2 ≤ o.filterLength) (ref : Sig s r N) (est : Sig s e M) :
    sqCosPair B o ref est = sqCosPairGen B o ref est := by
  unfold sqCosPair
  rw [if_neg (by omega), if_neg (by omega)]

theorem sqCosDiag_gen (B : Backend) {o : Opts} (h : 2 ≤ o.filterLength) (ref : Sig s c N) (est : Sig s c M) :
    sqCosDiag B o ref est = sqCosDiagGen B o ref est := by
  unfold sqCosDiag
  rw [if_neg (by omega), if_neg (by omega)]

/-! ### filters of one tap: equal lengths only -/

/-- The exception for different lengths. -/
noncomputable def lengthErr (B : Backend) (N M : ℕ) : PyErr := if M = 1 ∨ N = 1 then .unmodelled else B.shapeErr

theorem sdrCohPair_ne (B : Backend) {o : Opts} (h : o.filterLength = 1) (hN : M ≠ N) (ref : Sig s r N) (est : Sig s e M) :
    sdrCohPair B o ref est = .error (lengthErr B N M) := by
  unfold sdrCohPair
  rw [if_neg (by omega), if_pos h, sameLength_ne B hN]
  rfl

theorem sdrCohDiag_ne (B : Backend) {o : Opts} (h : o.filterLength = 1) (hN : M ≠ N) (ref : Sig s c N) (est : Sig s c M) :
    sdrCohDiag B o ref est = .error (lengthErr B N M) := by
  unfold sdrCohDiag
  rw [if_neg (by omega), if_pos h, sameLength_ne B hN]
  rfl

theorem sqCosPair_ne (B : Backend) {o : Opts} (h : o.filterLength = 1) (hN : M ≠ N) (ref : Sig s r N) (est : Sig s e M) :
    sqCosPair B o ref est = .error (lengthErr B N M) := by
  unfold sqCosPair
  rw [if_neg (by omega), if_pos h, sameLength_ne B hN]
  rfl

theorem sqCosDiag_ne (B : Backend) {o : Opts} (h : o.filterLength = 1) (hN : M ≠ N) (ref : Sig s c N) (est : Sig s c M) :
    sqCosDiag B o ref est = .error (lengthErr B N M) := by
  unfold sqCosDiag
  rw [if_neg (by omega), if_pos h, sameLength_ne B hN]
  rfl

/-! ### filters without taps -/

theorem sdrCohPair_zero (B : Backend) {o : Opts} (h : o.filterLength = 0) (ref : Sig s r N) (est : Sig s e M) :
    sdrCohPair B o ref est = .error .unmodelled := by
  unfold sdrCohPair
  rw [if_pos h]

theorem sdrCohDiag_zero (B : Backend) {o : Opts} (h : o.filterLength = 0) (ref : Sig s c N) (est : Sig s c M) :
    sdrCohDiag B o ref est = .error .unmodelled := by
  unfold sdrCohDiag
  rw [if_pos h]

theorem sqCosPair_zero (B : Backend) {o : Opts} (h : o.filterLength = 0) (ref : Sig s r N) (est : Sig s e M) :
    sqCosPair B o ref est = .error .unmodelled := by
  unfold sqCosPair
  rw [if_pos h]

theorem sqCosDiag_zero (B : Backend) {o : Opts} (h : o.filterLength = 0) (ref : Sig s c N) (est : Sig s c M) :
    sqCosDiag B o ref est = .error .unmodelled := by
  unfold sqCosDiag
  rw [if_pos h]

end FBE
