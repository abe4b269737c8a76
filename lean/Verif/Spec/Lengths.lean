import Verif.Spec.Same
import Verif.Spec.Signal

/-!
# Specification: references and estimates of different lengths
-/

namespace FBE.Spec

variable {s : List ℕ} {r e c N M N' M' : ℕ}

/-- The signals (without their means, if asked for), followed by zeros up to `T` samples. -/
noncomputable def extended (zeroMean : Bool) (T : ℕ) (x : Sig s c N) : Sig s c T :=
  fun m k t => zpad (centred zeroMean (x m k)) t

/-- The size of the transform for references of `N` and estimates of `M` samples: the least power of two
that is at least `N + max N M - 1`. -/
def transformSize (N M : ℕ) : ℕ := 2 ^ Nat.clog 2 (N + max N M - 1)

/-- `L` shifts of references of `N` samples fit into the transform used for references of `N` and
estimates of `M` samples, the least power of two that is at least `N + max N M - 1`. -/
def FilterFits₂ (N M L : ℕ) : Prop := L + N ≤ 2 ^ Nat.clog 2 (N + max N M - 1) + 1

/-- The functions with filters return the same for both calls (the same arrays, or the same exception). -/
structure SameFiltered (B : Backend) (o o' : Opts) (ref : Sig s r N) (est : Sig s e M) (ref' : Sig s r N')
    (est' : Sig s e M') : Prop where
  sdr_loss : sdrLossPair B o' est' ref' = sdrLossPair B o est ref
  pairwise_sdr_loss : pairwiseSdrLoss B o' est' ref' = pairwiseSdrLoss B o est ref
  sdr : ∀ rp cs, FBE.sdr B o' rp cs ref' est' = FBE.sdr B o rp cs ref est
  sdr_pit_loss : sdrPitLoss B o' est' ref' = sdrPitLoss B o est ref
  bss_eval_sources : ∀ cp, bssEvalSources B o' cp ref' est' = bssEvalSources B o cp ref est

/-- The functions computing only the SDR return the same for the options `o` and `o'`. -/
structure SameSdr (B : Backend) (o o' : Opts) (ref : Sig s r N) (est : Sig s e M) : Prop where
  sdr_loss : sdrLossPair B o' est ref = sdrLossPair B o est ref
  pairwise_sdr_loss : pairwiseSdrLoss B o' est ref = pairwiseSdrLoss B o est ref
  sdr : ∀ rp cs, FBE.sdr B o' rp cs ref est = FBE.sdr B o rp cs ref est
  sdr_pit_loss : sdrPitLoss B o' est ref = sdrPitLoss B o est ref

/-- The scale-invariant functions raise `err`, whatever the options; `bss_eval_sources` without a search
for the permutation does so for equal numbers of channels (otherwise an assertion fails first). -/
structure SiRejects (B : Backend) (err : PyErr) (ref : Sig s r N) (est : Sig s e M) : Prop where
  si_sdr_loss : ∀ zm cl, siSdrLossPair B zm cl est ref = .error err
  pairwise_si_sdr_loss : ∀ zm cl, pairwiseSiSdrLoss B zm cl est ref = .error err
  si_sdr : ∀ zm cl rp cs, siSdr B zm cl rp cs ref est = .error err
  si_sdr_pit_loss : ∀ zm cl, siSdrPitLoss B zm cl est ref = .error err
  si_bss_eval_sources : ∀ zm cl cp ld, cp = true ∨ r = e →
    siBssEvalSources B zm cl cp ld ref est = .error err

end FBE.Spec
