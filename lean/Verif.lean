import Verif.Model.Metrics
import Verif.Proofs.LsaInf
import Verif.Proofs.Perm
import Verif.Proofs.Stats
import Verif.Proofs.Norm
import Verif.Proofs.Decibel
import Verif.Proofs.Equal
import Verif.Proofs.Diag
import Verif.Proofs.Projection
import Verif.Proofs.Local
import Verif.Props.C01_C04_Documented
import Verif.Props.C05_C06_Clamp
import Verif.Props.C06_C24_C41_Pairing
import Verif.Props.C09_C10_Filters
import Verif.Props.C11_C17_Permutation
import Verif.Props.C18_C19_TorchAssignment
import Verif.Props.C31_C37_Statistics
import Verif.Props.C32_C34_Failures
import Verif.Proofs.Pcg
import Verif.Proofs.CgOps
import Verif.Props.C23_C24_Consistency
import Verif.Props.C26_C30_ConjugateGradient
import Verif.Proofs.Signed
import Verif.Proofs.Related
import Verif.Proofs.Same
import Verif.Proofs.Lengths
import Verif.Proofs.BatchItem
import Verif.Proofs.Reorder
import Verif.Props.C07_C08_C40_Invariance
import Verif.Props.C14_C39_Channels
import Verif.Props.C22_Batch
import Verif.Proofs.Backends
import Verif.Props.C21_Backends
import Verif.Model.Dispatch
import Verif.Spec.Call
import Verif.Proofs.Dispatch
import Verif.Props.C35_C36_Dispatch
import Verif.Model.Heap
import Verif.Model.Effects
import Verif.Proofs.Effects
import Verif.Props.C44_Inputs
import Verif.Props.C47_C50_Relations
import Verif.Props.C51_Channels
import Verif.Proofs.CgConverge
import Verif.Proofs.CgLimit
import Verif.Proofs.PermLimit
import Verif.Proofs.ExampleValue
import Verif.Proofs.ExampleRuns
import Verif.Props.C52_Convergence
import Verif.Props.C53_Lengths
import Verif.Model.NoLength
import Verif.Proofs.LongFilter
import Verif.Props.C54_C56_FilterLength
import Verif.Proofs.CgFailure
import Verif.Props.C57_IterativeFailures
import Verif.Proofs.Smooth
import Verif.Proofs.CgContinuous
import Verif.Proofs.MetricLimit
import Verif.Props.C58_Continuity
import Verif.Proofs.Gradient
import Verif.Props.C59_Gradient
import Verif.Props.C60_Perfect
import Verif.Model.Tensor
import Verif.Model.Compat
import Verif.Model.Arrays
import Verif.Proofs.Tensor
import Verif.Proofs.TensorOps
import Verif.Proofs.ApiLaws
import Verif.Proofs.ArrayStats
import Verif.Proofs.ArraySolve
import Verif.Proofs.ArrayCg
import Verif.Proofs.ArrayBlock
import Verif.Spec.Arrays
import Verif.Proofs.ArrayIndex
import Verif.Proofs.ArraySdr
import Verif.Proofs.ArraySdrLoss
import Verif.Proofs.ArrayPerm
import Verif.Proofs.ArrayBss
import Verif.Proofs.ArrayCosine
import Verif.Proofs.ArrayAgree
import Verif.Props.C61_Arrays
import Verif.Props.C62_Rejected
import Verif.Props.C63_Installations
import Verif.Props.C64_FilterLength
import Verif.Props.C65_Rounding
import Verif.Props.C66_LeastSquares
import Verif.Props.C67_FloatSiSdr
import Verif.Proofs.ArraySingle
import Verif.Props.C68_SingleSignals
import Verif.Model.Import
import Verif.Spec.Import
import Verif.Proofs.Import
import Verif.Props.C69_Import
import Verif.Model.Tags
import Verif.Spec.Tags
import Verif.Proofs.Tags
import Verif.Props.C70_Tags
import Verif.Model.Backward
import Verif.Proofs.Backward
import Verif.Props.C71_Backward
import Verif.Model.BackwardFir
import Verif.Proofs.BackwardFft
import Verif.Proofs.BackwardFir
import Verif.Props.C72_BackwardFir
import Verif.Model.BackwardPit
import Verif.Proofs.BackwardPit
import Verif.Props.C73_BackwardPit
import Verif.Spec.Expand
import Verif.Proofs.ArrayExpand
import Verif.Props.C74_Expanded
import Verif.Model.BackwardCg
import Verif.Spec.CgSmooth
import Verif.Proofs.BackwardCgOps
import Verif.Proofs.BackwardCgTan
import Verif.Proofs.BackwardCg
import Verif.Props.C75_BackwardCg
import Verif.Model.RoundedLsa
import Verif.Spec.NearBest
import Verif.Proofs.HungarianRounded
import Verif.Proofs.RoundedLsa
import Verif.Proofs.RoundedLsaInf
import Verif.Props.C76_RoundedAssignment
import Verif.Spec.Limited
import Verif.Model.RoundedPerm
import Verif.Proofs.RoundedPerm
import Verif.Props.C77_FloatPermutation
import Verif.Model.ArraysCg
import Verif.Spec.CgCall
import Verif.Proofs.ArrayCgCall
import Verif.Proofs.ArrayCgTyped
import Verif.Proofs.CgCallOutcome
import Verif.Props.C78_ConjugateGradient
import Verif.Spec.Angle
import Verif.Proofs.Angle
import Verif.Proofs.AngleDoc
import Verif.Props.C79_Stability
import Verif.Model.RoundedFir
import Verif.Spec.FirError
import Verif.Proofs.Perturb
import Verif.Proofs.RoundedStats
import Verif.Proofs.RoundedPrep
import Verif.Proofs.RoundedFir
import Verif.Proofs.RoundedFirDoc
import Verif.Props.C80_FloatSdr
import Verif.Model.RoundedBss
import Verif.Spec.BssError
import Verif.Proofs.RoundedBss
import Verif.Proofs.RoundedBssDoc
import Verif.Props.C81_FloatBss
import Verif.Spec.Within
import Verif.Proofs.RoundedNone
import Verif.Props.C82_FloatNoClamp
import Verif.Model.RoundedCg
import Verif.Spec.Fine
import Verif.Proofs.RoundedCg
import Verif.Proofs.RoundedLimit
import Verif.Proofs.RoundedFine
import Verif.Proofs.RoundedCgExists
import Verif.Props.C83_FloatRefines
import Verif.Proofs.RoundedCgDoc
import Verif.Props.C84_FloatCg
import Verif.Model.BackwardBss
import Verif.Proofs.BackwardBss
import Verif.Proofs.BackwardBssTotal
import Verif.Props.C85_BackwardBss
import Verif.Model.Log2
import Verif.Props.C86_TransformSize
import Verif.Model.Special
import Verif.Spec.Special
import Verif.Proofs.Special
import Verif.Proofs.SpecialMetrics
import Verif.Proofs.SpecialRaise
import Verif.Props.C87_SpecialSamples
import Verif.Model.BackwardBssCg
import Verif.Proofs.BackwardRun
import Verif.Proofs.BackwardBlk
import Verif.Proofs.BackwardBssCgCore
import Verif.Proofs.BackwardBssCg
import Verif.Props.C88_BackwardBssCg
import Verif.Spec.Infinite
import Verif.Proofs.Infinite
import Verif.Props.C89_Infinite
import Verif.Spec.Remix
import Verif.Proofs.Remix
import Verif.Props.C90_Remix
import Verif.Spec.OneSample
import Verif.Proofs.ArrayOneSample
import Verif.Props.C91_OneSample
import Verif.Spec.Parts
import Verif.Proofs.Parts
import Verif.Props.C92_Parts
import Verif.Spec.Correlations
import Verif.Props.C93_Correlations
import Verif.Spec.Late
import Verif.Proofs.Late
import Verif.Props.C94_Late
import Verif.Props.C95_Totals
import Verif.Spec.Training
import Verif.Proofs.Training
import Verif.Props.C96_Training
import Verif.Spec.Volume
import Verif.Proofs.Volume
import Verif.Props.C97_Volume
import Verif.Spec.Steepness
import Verif.Proofs.Steepness
import Verif.Props.C98_Steepness
import Verif.Spec.Run
import Verif.Proofs.Run
import Verif.Props.C99_Runs
import Verif.Spec.CallValues
import Verif.Proofs.CallValues
import Verif.Props.C36_Options
import Verif.Spec.Segments
import Verif.Proofs.Segments
import Verif.Props.C100_Segments
import Verif.Spec.Ensemble
import Verif.Proofs.Ensemble
import Verif.Props.C101_Ensemble
import Verif.Spec.Owners
import Verif.Proofs.Owners
import Verif.Props.C102_Owners
import Verif.Props.C102_Float
import Verif.Spec.Shares
import Verif.Proofs.Shares
import Verif.Props.C103_Shares
import Verif.Props.C103_BssEval
import Verif.Model.CgComplex
import Verif.Spec.CgComplex
import Verif.Proofs.CgComplex
import Verif.Props.C104_ComplexSystems
import Verif.Spec.Polarity
import Verif.Proofs.Polarity
import Verif.Props.C105_Polarity
import Verif.Props.C106_BatchGradients
import Verif.Props.C107_OrderGradients
import Verif.Props.C107_OrderGradientsBss
import Verif.Props.C105_PolarityBss
import Verif.Props.C107_OrderGradientsBssCg
import Verif.Props.C105_PolarityBssCg
import Verif.Props.C108_SilenceGradients
import Verif.Props.C108_SilenceGradientsBss
import Verif.Props.C108_SilenceGradientsBssCg
import Verif.Props.C109_LeadingGradients
import Verif.Props.C109_LeadingGradientsBss
import Verif.Props.C109_LeadingGradientsBssCg
