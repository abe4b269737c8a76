import Verif.Model.Metrics

/-!
# Specification: two calls give the same results
-/

namespace FBE.Spec

variable {s : List ℕ} {r e c N N' M M' : ℕ}

/-- Every public function returns the same for both pairs of signals (the same arrays, or the same
exception), for the options `o`. -/
structure SameMetrics (B : Backend) (o : Opts) (ref : Sig s r N) (est : Sig s e M) (ref' : Sig s r N')
    (est' : Sig s e M') : Prop where
  sdr_loss : sdrLossPair B o est' ref' = sdrLossPair B o est ref
  pairwise_sdr_loss : pairwiseSdrLoss B o est' ref' = pairwiseSdrLoss B o est ref
  sdr : ∀ rp cs, FBE.sdr B o rp cs ref' est' = FBE.sdr B o rp cs ref est
  sdr_pit_loss : sdrPitLoss B o est' ref' = sdrPitLoss B o est ref
  bss_eval_sources : ∀ cp, bssEvalSources B o cp ref' est' = bssEvalSources B o cp ref est
  si_sdr_loss : siSdrLossPair B o.zeroMean o.clampDb est' ref' = siSdrLossPair B o.zeroMean o.clampDb est ref
  pairwise_si_sdr_loss :
    pairwiseSiSdrLoss B o.zeroMean o.clampDb est' ref' = pairwiseSiSdrLoss B o.zeroMean o.clampDb est ref
  si_sdr : ∀ rp cs, siSdr B o.zeroMean o.clampDb rp cs ref' est' = siSdr B o.zeroMean o.clampDb rp cs ref est
  si_sdr_pit_loss : siSdrPitLoss B o.zeroMean o.clampDb est' ref' = siSdrPitLoss B o.zeroMean o.clampDb est ref
  si_bss_eval_sources : ∀ cp, siBssEvalSources B o.zeroMean o.clampDb cp o.loadDiag ref' est' =
    siBssEvalSources B o.zeroMean o.clampDb cp o.loadDiag ref est

/-- The same for the functions comparing channel with channel (`pairwise=False`). -/
structure SameAligned (B : Backend) (o : Opts) (ref : Sig s c N) (est : Sig s c M) (ref' : Sig s c N')
    (est' : Sig s c M') : Prop where
  sdr_loss : sdrLossDiag B o est' ref' = sdrLossDiag B o est ref
  si_sdr_loss : siSdrLossDiag B o.zeroMean o.clampDb est' ref' = siSdrLossDiag B o.zeroMean o.clampDb est ref

end FBE.Spec
