import Mathlib.Analysis.InnerProductSpace.PiL2
import Mathlib.Analysis.InnerProductSpace.Projection.Basic
import Verif.Model.XR

/-!
# Specification: shifts, correlations, projections, decibel ratios

Nothing here refers to FFTs, Toeplitz matrices or linear systems.
-/

namespace FBE.Spec

open Classical

/-- A finite signal followed by silence. -/
def zpad {N : ℕ} (x : Fin N → ℝ) (t : ℕ) : ℝ := if h : t < N then x ⟨t, h⟩ else 0

/-- Linear cross-correlation at lag `τ ≥ 0`: `∑ x[u] y[u + τ]`. -/
def corr {N M : ℕ} (x : Fin N → ℝ) (y : Fin M → ℝ) (τ : ℕ) : ℝ := ∑ u : Fin N, x u * zpad y (u + τ)

/-- Circular cross-correlation of period `n` at lag `τ`: `∑ x[u] y[(u + τ) mod n]`. -/
def circ {N M : ℕ} (n : ℕ) (x : Fin N → ℝ) (y : Fin M → ℝ) (τ : ℕ) : ℝ :=
  ∑ u ∈ Finset.range n, zpad x u * zpad y ((u + τ) % n)

/-- The space of signals of `D` samples with the Euclidean norm. -/
abbrev Space (D : ℕ) := EuclideanSpace ℝ (Fin D)

/-- The signal `x` delayed by `l` samples in the space of signals with `D` samples. -/
noncomputable def shift {N : ℕ} (D : ℕ) (x : Fin N → ℝ) (l : ℕ) : Space D :=
  WithLp.toLp 2 fun t => if l ≤ t.val then zpad x (t.val - l) else 0

/-- The span of the shifts `0, …, L-1` of one reference. -/
noncomputable def spanOne {N : ℕ} (D L : ℕ) (x : Fin N → ℝ) : Submodule ℝ (Space D) :=
  Submodule.span ℝ (Set.range fun l : Fin L => shift D x l)

/-- The span of the shifts `0, …, L-1` of all references. -/
noncomputable def spanAll {N r : ℕ} (D L : ℕ) (x : Fin r → Fin N → ℝ) : Submodule ℝ (Space D) :=
  Submodule.span ℝ (Set.range fun p : Fin L × Fin r => shift D (x p.2) p.1)

/-- Euclidean norm of a signal. -/
noncomputable def sigNorm {N : ℕ} (x : Fin N → ℝ) : ℝ := √(∑ t, x t ^ 2)

/-- The signal without its mean, if asked for. -/
noncomputable def centred {N : ℕ} (zeroMean : Bool) (x : Fin N → ℝ) : Fin N → ℝ :=
  if zeroMean then fun t => x t - (∑ u, x u) / N else x

/-- The filters are short enough for the FFT size used for `N` samples (the least power of two that
is at least `2N - 1`): `L` shifts of the signal fit in. -/
def FilterFits (N L : ℕ) : Prop := L + N ≤ 2 ^ Nat.clog 2 (2 * N - 1) + 1

/-- Energy. -/
noncomputable def energy {D : ℕ} (v : Space D) : ℝ := ‖v‖ ^ 2

/-- `10 log10 (a / b)` for energies `a, b ≥ 0`, with the values at the limits: `+inf` for `b = 0`,
`-inf` for `a = 0`, undefined (`nan`) for `0/0`. -/
noncomputable def dbRatio (a b : ℝ) : XR :=
  if b = 0 then (if a = 0 then .nan else .pinf)
  else if a = 0 then .ninf
  else .fin (10 * Real.logb 10 (a / b))

/-- Clip to `[-d, d]`. -/
noncomputable def clip (d : ℝ) : XR → XR
  | .fin x => .fin (max (-d) (min d x))
  | .pinf => .fin d
  | .ninf => .fin (-d)
  | .nan => .nan

/-- The shifts of all references are linearly independent. -/
def IndependentShifts {N r : ℕ} (L : ℕ) (x : Fin r → Fin N → ℝ) : Prop :=
  LinearIndependent ℝ fun p : Fin L × Fin r => shift (N + L - 1) (x p.2) p.1

/-- What is reported for a decibel value: the value, clipped if `clamp_db` is given. -/
noncomputable def report : Option ℝ → XR → XR
  | none, x => x
  | some d, x => clip d x

/-- The documented SDR of estimate `y` for reference `k` and filters of `L` taps: the ratio of the
energies of `P_k y` and `y - P_k y`, with `P_k` the orthogonal projection onto the span of the `L`
shifts of reference `k`, in the space of signals of `N + L - 1` samples. -/
noncomputable def docSdr {N r : ℕ} (L : ℕ) (x : Fin r → Fin N → ℝ) (k : Fin r) (y : Fin N → ℝ) : XR :=
  let u := shift (N + L - 1) y 0
  let Pk := (spanOne (N + L - 1) L (x k)).starProjection
  dbRatio (energy (Pk u)) (energy (u - Pk u))

/-- The documented SIR: `P_k y` against `P y - P_k y`, with `P` the projection onto the span of the
shifts of all references. -/
noncomputable def docSir {N r : ℕ} (L : ℕ) (x : Fin r → Fin N → ℝ) (k : Fin r) (y : Fin N → ℝ) : XR :=
  let u := shift (N + L - 1) y 0
  let Pk := (spanOne (N + L - 1) L (x k)).starProjection
  let P := (spanAll (N + L - 1) L x).starProjection
  dbRatio (energy (Pk u)) (energy (P u - Pk u))

/-- The documented SAR: `P y` against `y - P y`. -/
noncomputable def docSar {N r : ℕ} (L : ℕ) (x : Fin r → Fin N → ℝ) (y : Fin N → ℝ) : XR :=
  let u := shift (N + L - 1) y 0
  let P := (spanAll (N + L - 1) L x).starProjection
  dbRatio (energy (P u)) (energy (u - P u))

end FBE.Spec
