import Verif.Py
import Verif.Value
import Verif.Arith
import Verif.Rounding
import Verif.Rules
import Verif.Spec
import Verif.Text
import Verif.Edit
import Verif.Lemmas.Cover
import Verif.Lemmas.Equal
import Verif.Props.Predict
import Verif.Props.Equality
import Verif.Props.Editing
import Verif.Lemmas.Dedup
import Verif.Lemmas.Text
import Verif.Lemmas.Roundtrip
import Verif.Scores
import Verif.Props.Scores
import Verif.Props.Queries
import Verif.Props.Text
import Verif.Catnap
import Verif.Random
import Verif.Train
import Verif.Proba
import Verif.Irep
import Verif.Ripper
import Verif.Lemmas.Catnap
import Verif.Lemmas.Loop
import Verif.Lemmas.Grow
import Verif.Lemmas.GrowDf
import Verif.Props.Index
import Verif.Props.Gain
import Verif.Props.Grow
import Verif.Lemmas.Random
import Verif.Lemmas.Irep
import Verif.Lemmas.Proba
import Verif.Lemmas.Fit
import Verif.Props.Irep
import Verif.Lemmas.Ripper
import Verif.Lemmas.RipperTotal
import Verif.Lemmas.RipperSafe
import Verif.Lemmas.RipperFit
import Verif.Props.Ripper
import Verif.Props.Bits
import Verif.Props.Optimize
import Verif.Props.Allowance
import Verif.Props.AllowanceLimit
import Verif.Props.Proba
import Verif.Discretize
import Verif.Lemmas.DemoFloat
import Verif.Props.Discretize
import Verif.Lemmas.Transform
import Verif.Props.Bins
import Verif.Classifier
import Verif.Lemmas.Classifier
import Verif.Props.Classifier
import Verif.Props.Api
import Verif.Lemmas.ClfFit
import Verif.Props.Fit
import Verif.Props.FitApi
import Verif.Params
import Verif.Plain
import Verif.Props.Params
import Verif.Props.Columns
import Verif.Props.ScoreApi
import Verif.Props.Exact
import Verif.Lemmas.Mediant
import Verif.Lemmas.PlainGrow
import Verif.Lemmas.PlainIrep
import Verif.Lemmas.PlainRipper
import Verif.Props.Separate
import Verif.Lemmas.PlainEq
import Verif.Props.Plain
import Verif.Lemmas.ClfPlain
import Verif.Lemmas.PlainSeed
import Verif.Props.FitTrain
import Verif.Props.PlainApi
import Verif.Props.Inputs
import Verif.Props.InputsAll
import Verif.Props.ProbaApi
import Verif.Interpret
import Verif.Props.Interpret
import Verif.Heap
import Verif.HeapSpec
import Verif.Lemmas.Heap
import Verif.Lemmas.HeapFit
import Verif.Lemmas.HeapRegion
import Verif.Lemmas.HeapOwn
import Verif.Lemmas.HeapValues
import Verif.Lemmas.HeapOwner
import Verif.Props.Heap
import Verif.Props.PlainOptimize
import Verif.Props.Passes
import Verif.Props.Rounding
import Verif.Props.RoundingFit
import Verif.NumpyBins
import Verif.Lemmas.NumpyBins
import Verif.Props.NumpyBins
import Verif.Show
import Verif.Lemmas.Show
import Verif.Props.Show
import Verif.Lemmas.Weight
import Verif.Props.Weight
import Verif.Lemmas.Unpruned
import Verif.Props.Unpruned
import Verif.Lemmas.Relabel
import Verif.Lemmas.RelabelRip
import Verif.Lemmas.RelabelApi
import Verif.Props.Relabel
import Verif.Examples
import Verif.Props.Examples
import Verif.Warn
import Verif.Props.Warn
import Verif.Frames
import Verif.Props.Frames
import Verif.Props.Covering
import Verif.Props.PlainCovering
import Verif.Props.ClassColumn
import Verif.Props.Limits
import Verif.Props.Afresh
import Verif.Lemmas.Recode
import Verif.Lemmas.RecodeRip
import Verif.Lemmas.RecodePlain
import Verif.Lemmas.RecodeApi
import Verif.Props.Recode
import Verif.ProbaRounded
import Verif.Props.RoundedProba
import Verif.Verbose
import Verif.VerbosePlain
import Verif.Props.Verbose
import Verif.Props.VerbosePlain
import Verif.Props.Irrelevant
import Verif.Lemmas.Refit
import Verif.Props.Refit
import Verif.Props.ProbaAgree
import Verif.Lemmas.Reorder
import Verif.Props.Reorder
import Verif.Props.IrrelevantPlain
import Verif.Props.IrrelevantApi
import Verif.Props.Batches
import Verif.Lemmas.RoundedBits
import Verif.Props.RoundedBits
import Verif.Lemmas.OneVsRest
import Verif.Props.OneVsRest
import Verif.Props.RoundedGrow
import Verif.Props.RoundedPrune
import Verif.Props.PlainAllowance
import Verif.Props.RoundedPlain
import Verif.Props.PlainErrors
import Verif.Props.Smoothing
import Verif.Props.OnlyReason
import Verif.Props.OutOfReach
import Verif.Props.OutOfReachPlain
import Verif.Props.ScoreParts
