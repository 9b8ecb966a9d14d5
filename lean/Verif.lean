import Verif.Props.Intervals
import Verif.Props.Inspect
import Verif.RefineProg
import Verif.Complete
import Verif.Props.Gen
import Verif.Props.GenSafe
import Verif.Props.GenFields
import Verif.Props.GenExtend
import Verif.Props.GenTotal
import Verif.GoTypeUsed
import Verif.Props.GenCompiles
import Verif.Props.GenCompileNeeds
import Verif.Props.TvBasic
import Verif.Props.TvOrder
import Verif.Props.Effects
import Verif.PegLex
import Verif.PegSound
import Verif.PegRules
import Verif.PegComplete
import Verif.Utf8
import Verif.Props.ParseTotal
import Verif.Print
import Verif.PrintLemmas
import Verif.GoodLemmas
import Verif.Props.ParseSpec
import Verif.Props.ParseLits
import Verif.TvClass
import Verif.TvHeap
import Verif.TvAct
import Verif.TvSem
import Verif.TvLeaf
import Verif.TvElem
import Verif.TvField
import Verif.TvUnion
import Verif.TvStruct
import Verif.TvCheck
import Verif.TvCtx
import Verif.TvKeys
import Verif.TvCover
import Verif.Props.TvValid
import Verif.Props.TvCover
import Verif.TestRun
import Verif.Props.TvTests
import Verif.GoRead
import Verif.GenText
import Verif.GoReadLex
import Verif.GoReadStmt
import Verif.GoReadGen
import Verif.GoReadLine
import Verif.GoReadHead
import Verif.GoReadBody
import Verif.GoReadFile
import Verif.GoEq
import Verif.Props.GenText
import Verif.Props.GenTextCases
import Verif.TvRuns
import Verif.Props.TvRuns
import Verif.GenTextSame
import Verif.Props.EndToEnd
import Verif.TestFns
import Verif.GenTestText
import Verif.GoReadTest
import Verif.GoReadTestText
import Verif.Props.TestText
import Verif.Props.Build
import Verif.TvCombos
import Verif.Props.TvCombos
import Verif.PegCost
import Verif.Props.ParseCost
import Verif.PegDiag
import Verif.PegDiagPos
import Verif.PegDiagMax
import Verif.PegDiagErrs
import Verif.PegDiagText
import Verif.PegDiagMono
import Verif.Props.ParseDiag
import Verif.Golden
import Verif.Props.GoldenCases
import Verif.EncFits
import Verif.Formats
import Verif.Props.TvSize
import Verif.Props.Formats
import Verif.TvFormats
import Verif.Props.TvFormats
import Verif.Props.FormatTor
import Verif.Props.FormatTrunnelSources
import Verif.Props.FormatTrunnel
import Verif.Props.FormatTrunnelMore
import Verif.Props.FormatTests
import Verif.Props.FormatParse
import Verif.GoRand
import Verif.Sha256
import Verif.Props.GoldenVectors
import Verif.Props.ParserCases
import Verif.Props.ParseCases
import Verif.Props.InspectCases
import Verif.Props.TvNeeded
import Verif.Props.IntervalsExact
import Verif.SafetyInput
import Verif.TermBound
import Verif.Props.Loops
import Verif.Alloc
import Verif.Props.Alloc
import Verif.GoCost
import Verif.CostBound
import Verif.CostLower
import Verif.Props.Work
import Verif.GoTypeSound
import Verif.Props.GoSound
import Verif.CodeSize
import Verif.Props.CodeSize
import Verif.Props.WorkFormats
import Verif.GenTextOrder
import Verif.Props.Reproducible
import Verif.GenOrder
import Verif.GoOrder
import Verif.Props.Rearrange
import Verif.Inline
import Verif.Props.Inline
import Verif.Rename
import Verif.OtherNames
import Verif.Props.Rename
import Verif.Grow
import Verif.Props.Grow
import Verif.Linking
import Verif.Props.Linking
