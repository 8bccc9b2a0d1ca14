import Verif.Go.Basic
import Verif.Model.Header
import Verif.Model.Utils
import Verif.Model.RawData
import Verif.Model.DataFrame
import Verif.Spec.ADF
import Verif.Proofs.AMap
import Verif.Proofs.Heap
import Verif.Proofs.Raw
import Verif.Proofs.View
import Verif.Proofs.RowViews
import Verif.Props.Splits
import Verif.Props.Writes
import Verif.Props.Copies
import Verif.Proofs.EditAbs
import Verif.Proofs.Overwrite
import Verif.Props.Builder
import Verif.Props.Edits
import Verif.Props.ViewEdits
import Verif.Props.Detach
import Verif.Props.ColumnView
import Verif.Props.RowConcat
import Verif.Props.ColConcat
import Verif.Props.Utils
import Verif.Props.Misc
import Verif.Props.Headers
import Verif.Props.Labels
import Verif.Props.Sorting
import Verif.Props.Encode
import Verif.Model.Pool
import Verif.Proofs.Pool
import Verif.Proofs.PoolMem
import Verif.Props.Pool
import Verif.Proofs.Hash
import Verif.Props.Hash
import Verif.Spec.Raw
import Verif.Proofs.Merge
import Verif.Props.Merge
import Verif.Spec.History
import Verif.Proofs.History
import Verif.Proofs.History2
import Verif.Proofs.History3
import Verif.Proofs.Views
import Verif.Props.History
import Verif.Model.Batching
import Verif.Spec.Batching
import Verif.Proofs.Iter
import Verif.Proofs.Dense
import Verif.Props.Iter
import Verif.Props.Dense
import Verif.Spec.Preproc
import Verif.Spec.Ideal
import Verif.Model.Preproc
import Verif.Proofs.Preproc
import Verif.Proofs.Fit
import Verif.Proofs.Scaler
import Verif.Proofs.Ideal
import Verif.Props.Imputer
import Verif.Props.Scaler
import Verif.Props.ScalerIdeal
import Verif.Model.OneHot
import Verif.Spec.OneHot
import Verif.Proofs.OneHot
import Verif.Proofs.OneHotFit
import Verif.Proofs.OneHotRun
import Verif.Props.OneHot
import Verif.Model.PoolJobs
import Verif.Proofs.PoolJobs
import Verif.Props.Schedules
import Verif.Model.Evaluation
import Verif.Props.Evaluation
import Verif.Model.LinReg
import Verif.Spec.LinReg
import Verif.Proofs.LinReg
import Verif.Props.Predict
import Verif.Model.CSVParsing
import Verif.Spec.CSVParsing
import Verif.Proofs.CSVParsing
import Verif.Props.CSVParsing
import Verif.Model.Print
import Verif.Props.Print
import Verif.Model.CSVWriting
import Verif.Model.Auto
import Verif.Spec.CSVWriting
import Verif.Proofs.CSVWriting
import Verif.Props.CSVWriting
import Verif.Props.RoundTrip
import Verif.Spec.Auto
import Verif.Proofs.AutoFloats
import Verif.Proofs.Auto
import Verif.Proofs.AutoFit
import Verif.Props.Auto
import Verif.Props.AutoMore
import Verif.Model.CSVFiles
import Verif.Spec.CSVFiles
import Verif.Props.CSVFiles
import Verif.Model.LinRegFit
import Verif.Spec.LinRegFit
import Verif.Proofs.LinRegFit
import Verif.Proofs.FitPrepare
import Verif.Props.LinRegFit
import Verif.Props.LinRegIdeal
import Verif.Model.Printing
import Verif.Spec.Printing
import Verif.Proofs.Printing
import Verif.Props.Printing
import Verif.Props.CSVErrors
import Verif.Model.CSVText
import Verif.Spec.CSVText
import Verif.Proofs.CSVText
import Verif.Props.CSVText
import Verif.Model.Internals
import Verif.Props.Internals
import Verif.Model.Asserts
import Verif.Props.Asserts
import Verif.Model.Json
import Verif.Spec.Json
import Verif.Proofs.JsonText
import Verif.Proofs.JsonValue
import Verif.Proofs.Json
import Verif.Props.Json
import Verif.Props.CSVLastLine
import Verif.Spec.Programs
import Verif.Proofs.Programs
import Verif.Props.Programs
import Verif.Model.Threads
import Verif.Proofs.Threads
import Verif.Proofs.ForkCSV
import Verif.Props.Threads
import Verif.Model.Experiment
import Verif.Spec.Experiment
import Verif.Proofs.Experiment
import Verif.Proofs.ExperimentADF
import Verif.Proofs.ExperimentSplit
import Verif.Props.Experiment
import Verif.Props.ExperimentDemo
import Verif.Proofs.Literals
import Verif.Model.Access
import Verif.Model.ExampleMain
import Verif.Proofs.Flags
import Verif.Spec.Access
import Verif.Props.Access
import Verif.Props.Exports
import Verif.Props.Exact
import Verif.Props.EncodeExact
import Verif.Props.ScalerOptions
import Verif.Proofs.CSVRaw
import Verif.Spec.ExampleMain
import Verif.Proofs.ExampleMain
import Verif.Proofs.Runtime
import Verif.Props.ExampleMain
import Verif.Proofs.ExampleEnds
import Verif.Props.ExampleEnds
import Verif.Props.ExampleDemo
import Verif.Props.JsonNumber
import Verif.Model.Recover
import Verif.Spec.Recover
import Verif.Proofs.Recover
import Verif.Props.Recover
import Verif.Go.Float64
import Verif.Spec.Float64
import Verif.Proofs.Float64
import Verif.Props.Float64
import Verif.Proofs.Float64Error
import Verif.Proofs.Float64Sum
import Verif.Props.Float64Eval
import Verif.Props.Float64Demo
import Verif.Proofs.Float64Sqrt
import Verif.Go.Float32
import Verif.Props.Float32
import Verif.Go.Strconv
import Verif.Spec.Strconv
import Verif.Proofs.Strconv
import Verif.Props.Strconv
import Verif.Props.StrconvShortest
import Verif.Props.StrconvCSV
import Verif.Props.Witness1
import Verif.Props.Witness2
import Verif.Props.Witness3
import Verif.Props.ScalerFloat64
import Verif.Proofs.Float64Near
import Verif.Proofs.Float64Scale
import Verif.Proofs.Float64Stats
import Verif.Props.ScalerFloat64Std
import Verif.Props.ExampleFloat64
import Verif.Props.TrainedJson
import Verif.Proofs.TrainedNamed
import Verif.Model.MaskThreads
import Verif.Spec.MaskThreads
import Verif.Proofs.MaskThreads
import Verif.Props.MaskThreads
import Verif.Model.FileThreads
import Verif.Proofs.FileThreads
import Verif.Props.FileThreads
import Verif.Props.CSVPlain
import Verif.Props.JsonMissing
import Verif.Model.Debug
import Verif.Proofs.Debug
import Verif.Props.Debug
import Verif.Spec.FloatLiteral
import Verif.Proofs.FloatLiteral
import Verif.Props.FloatLiteral
import Verif.Proofs.FloatUnderscore
import Verif.Props.FloatUnderscore
import Verif.Props.ScalerFloat64Inf
import Verif.Props.AssertsFloat64
import Verif.Props.JsonSpaces
import Verif.Props.ScalerFloat64MinMax
import Verif.Props.HashAll
import Verif.Props.ColConcatExact
import Verif.Props.UnshareIsolates
import Verif.Props.ViewEditsExact
import Verif.Props.SortInt64
import Verif.Props.DirRoundTrip
import Verif.Props.CutStack
import Verif.Props.PredictTarget
