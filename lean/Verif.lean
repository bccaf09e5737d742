import Verif.Check.Converter
import Verif.Check.Header
import Verif.Check.Parser
import Verif.Check.Splitter
import Verif.Model.Base
import Verif.Model.Callback
import Verif.Model.Converter
import Verif.Model.Count
import Verif.Model.Extract
import Verif.Model.Iterators
import Verif.Model.Line
import Verif.Model.LineCost
import Verif.Model.Move
import Verif.Model.Object
import Verif.Model.Oom
import Verif.Model.Own
import Verif.Model.Parser
import Verif.Model.ReadError
import Verif.Model.Reader
import Verif.Model.ReaderCost
import Verif.Model.Setup
import Verif.Model.SplitCost
import Verif.Model.Splitter
import Verif.Model.Strtod
import Verif.Model.Types
import Verif.Model.UserThrow
import Verif.Model.UserThrowChain
import Verif.Proofs.Callback
import Verif.Proofs.Chars
import Verif.Proofs.Convert
import Verif.Proofs.ConvertLine
import Verif.Proofs.Cost
import Verif.Proofs.CostBound
import Verif.Proofs.Count
import Verif.Proofs.DecodeChars
import Verif.Proofs.DecodeCongr
import Verif.Proofs.Grow
import Verif.Proofs.GrowParser
import Verif.Proofs.Line
import Verif.Proofs.LineCost
import Verif.Proofs.LineMore
import Verif.Proofs.Lockstep
import Verif.Proofs.LockstepRun
import Verif.Proofs.Machine
import Verif.Proofs.MachineChain
import Verif.Proofs.MachineChars
import Verif.Proofs.MachineCharsRun
import Verif.Proofs.MachineExec
import Verif.Proofs.MachineHeader
import Verif.Proofs.MachineInv
import Verif.Proofs.MachineJoin
import Verif.Proofs.MachineKeep
import Verif.Proofs.MachineRead
import Verif.Proofs.MachineRest
import Verif.Proofs.MachineRow
import Verif.Proofs.MachineRun
import Verif.Proofs.MachineSim
import Verif.Proofs.MachineTotal
import Verif.Proofs.Memory
import Verif.Proofs.NoExc
import Verif.Proofs.Number
import Verif.Proofs.Oom
import Verif.Proofs.OomSim
import Verif.Proofs.OomState
import Verif.Proofs.ParseMany
import Verif.Proofs.ParseOne
import Verif.Proofs.ParserHeader
import Verif.Proofs.ParserJoin
import Verif.Proofs.ParserLife
import Verif.Proofs.ParserMlRows
import Verif.Proofs.ParserRow
import Verif.Proofs.ReaderCost
import Verif.Proofs.Relates
import Verif.Proofs.Resume
import Verif.Proofs.SplitApi
import Verif.Proofs.SplitBasic
import Verif.Proofs.SplitChain
import Verif.Proofs.SplitConst
import Verif.Proofs.SplitCut
import Verif.Proofs.SplitExtend
import Verif.Proofs.SplitFrame
import Verif.Proofs.SplitLoop
import Verif.Proofs.SplitPure
import Verif.Proofs.SplitRefine
import Verif.Proofs.SplitResume
import Verif.Proofs.SplitTail
import Verif.Proofs.Views
import Verif.Props.Callback
import Verif.Props.Convert
import Verif.Props.ConvertHistory
import Verif.Props.ConvertModes
import Verif.Props.Cost
import Verif.Props.ErrorLine
import Verif.Props.Extract
import Verif.Props.Iterators
import Verif.Props.LastSelection
import Verif.Props.Line
import Verif.Props.LineCost
import Verif.Props.Move
import Verif.Props.NoFile
import Verif.Props.Object
import Verif.Props.Own
import Verif.Props.ParserChain
import Verif.Props.ParserChainMl
import Verif.Props.ParserEmpty
import Verif.Props.ParserEof
import Verif.Props.ParserGrow
import Verif.Props.ParserHeader
import Verif.Props.ParserMemory
import Verif.Props.ParserModes
import Verif.Props.ParserModesMl
import Verif.Props.ParserMultiline
import Verif.Props.ParserNoMl
import Verif.Props.ParserNull
import Verif.Props.ParserOnError
import Verif.Props.ParserOom
import Verif.Props.ParserOthers
import Verif.Props.ParserRows
import Verif.Props.ParserSame
import Verif.Props.ParserViews
import Verif.Props.Position
import Verif.Props.Progress
import Verif.Props.Questions
import Verif.Props.ReadError
import Verif.Props.ReaderCost
import Verif.Props.Resume
import Verif.Props.Returned
import Verif.Props.RoundTrip
import Verif.Props.RoundTripNamed
import Verif.Props.Setup
import Verif.Props.Split
import Verif.Props.Strtod
import Verif.Props.Typed
import Verif.Props.Types
import Verif.Props.Unused
import Verif.Props.UserThrow
import Verif.Props.UserThrowChain
import Verif.Spec.Api
import Verif.Spec.Callback
import Verif.Spec.Chars
import Verif.Spec.Convert
import Verif.Spec.Cost
import Verif.Spec.Lines
import Verif.Spec.Number
import Verif.Spec.Object
import Verif.Spec.Parser
import Verif.Spec.ReadError
import Verif.Spec.Resume
import Verif.Spec.Returned
import Verif.Spec.Setup
import Verif.Spec.Split
import Verif.Spec.Table
import Verif.Spec.Text
import Verif.Spec.Types
import Verif.Spec.Views
import Verif.Spec.Write
