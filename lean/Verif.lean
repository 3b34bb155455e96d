import Verif.Go.Basic
import Verif.Model.Types
import Verif.Model.Core
import Verif.Spec.WF
import Verif.Lemmas.Basic
import Verif.Lemmas.Core
import Verif.Lemmas.Append
import Verif.Model.Reorder
import Verif.Model.Sort
import Verif.Model.FromTable
import Verif.Lemmas.Write
import Verif.Lemmas.Preserve
import Verif.Lemmas.Reorder
import Verif.Model.History
import Verif.Props.Example
import Verif.Props.C01
import Verif.Lemmas.At
import Verif.Props.C03
import Verif.Props.C04
import Verif.Props.C05
import Verif.Props.C06
import Verif.Props.C07
import Verif.Props.C08
import Verif.Props.C09
import Verif.Props.C10
import Verif.Props.C12
import Verif.Props.C13
import Verif.Props.C14
import Verif.Props.C15
import Verif.Props.C54
import Verif.Spec.Order
import Verif.Lemmas.Order
import Verif.Lemmas.Sort
import Verif.Lemmas.GoSort
import Verif.Lemmas.Live
import Verif.Lemmas.Search
import Verif.Props.C02
import Verif.Props.C11
import Verif.Props.C16
import Verif.Props.C17
import Verif.Props.C18
import Verif.Props.C19
import Verif.Props.C20
import Verif.Props.C21
import Verif.Props.C22
import Verif.Props.C23
import Verif.Props.C24
import Verif.Lemmas.FromTable
import Verif.Props.C27
import Verif.Props.C28
import Verif.Props.C29
import Verif.Props.C30
import Verif.Model.Equals
import Verif.Spec.Content
import Verif.Lemmas.Equals
import Verif.Model.Heap
import Verif.Props.C25
import Verif.Props.C26
import Verif.Model.Tree
import Verif.Spec.Tree
import Verif.Lemmas.Walk
import Verif.Lemmas.Tree
import Verif.Lemmas.WalkDepth
import Verif.Lemmas.Nesting
import Verif.Props.C46
import Verif.Props.C47
import Verif.Props.C48
import Verif.Props.C53
import Verif.Model.TableSet
import Verif.Model.Util
import Verif.Props.C31
import Verif.Props.C50
import Verif.Props.C51
import Verif.Props.C55
import Verif.Go.Strconv
import Verif.Spec.Literal
import Verif.Model.Literal
import Verif.Lemmas.Strconv
import Verif.Lemmas.Literal
import Verif.Props.C32
import Verif.Props.C33
import Verif.Go.Utf8
import Verif.Go.Quote
import Verif.Lemmas.Utf8
import Verif.Lemmas.Quote
import Verif.Model.Scan
import Verif.Lemmas.Scan
import Verif.Props.C34
import Verif.Props.C35
import Verif.Model.Parser
import Verif.Lemmas.ReadRow
import Verif.Lemmas.Parser
import Verif.Props.C39
import Verif.Model.Printer
import Verif.Spec.Text
import Verif.Lemmas.Lines
import Verif.Lemmas.PrintCell
import Verif.Lemmas.ParseBlock
import Verif.Lemmas.PrintTable
import Verif.Lemmas.PrintPadded
import Verif.Props.C36
import Verif.Props.C37
import Verif.Props.C38
import Verif.Props.C40
import Verif.Props.C56
import Verif.Model.Generate
import Verif.Props.C52
import Verif.Go.FloatConv
import Verif.Lemmas.FloatConv
import Verif.Model.GoFloat
import Verif.Lemmas.GoFloat
import Verif.Spec.Padded
import Verif.Lemmas.FloatNear
import Verif.Lemmas.FloatPad
import Verif.Props.C57
import Verif.Lemmas.BadRow
import Verif.Props.C58
import Verif.Go.Csv
import Verif.Model.Csv
import Verif.Spec.Csv
import Verif.Lemmas.Csv
import Verif.Props.C45
import Verif.Model.Gob
import Verif.Spec.Gob
import Verif.Lemmas.Gob
import Verif.Props.C43
import Verif.Go.Json
import Verif.Go.FloatCast
import Verif.Model.Json
import Verif.Spec.Json
import Verif.Lemmas.Json
import Verif.Lemmas.JsonNum
import Verif.Lemmas.JsonRead
import Verif.Lemmas.JsonTable
import Verif.Props.C59
import Verif.Props.C44
import Verif.Lemmas.JsonVisit
import Verif.Props.C61
import Verif.Lemmas.JsonShape
import Verif.Props.C60
import Verif.Lemmas.JsonBad
import Verif.Props.C62
import Verif.Props.C63
import Verif.Props.C64
import Verif.Props.C65
import Verif.Model.Merge
import Verif.Model.Nest
import Verif.Spec.Merge
import Verif.Lemmas.MergeRows
import Verif.Lemmas.MergeCells
import Verif.Lemmas.MergeLoop
import Verif.Lemmas.Over
import Verif.Lemmas.MergeCollect
import Verif.Lemmas.MergeCombine
import Verif.Lemmas.MergeClean
import Verif.Lemmas.MergeAll
import Verif.Props.C41
import Verif.Props.C42
import Verif.Model.Yaml
import Verif.Spec.Yaml
import Verif.Lemmas.YamlMap
import Verif.Lemmas.YamlOut
import Verif.Lemmas.YamlRead
import Verif.Lemmas.YamlTable
import Verif.Lemmas.YamlShape
import Verif.Lemmas.YamlRefuse
import Verif.Props.C66
import Verif.Props.C67
import Verif.Props.C68
import Verif.Props.C69
import Verif.Model.Slices
import Verif.Spec.Slices
import Verif.Lemmas.Slices
import Verif.Lemmas.SlicesStep
import Verif.Lemmas.SlicesWrites
import Verif.Props.C70
import Verif.Props.C27Independent
import Verif.Model.Files
import Verif.Model.Columns
import Verif.Props.C71
import Verif.Props.C72
import Verif.Props.C73
import Verif.Props.C74
import Verif.Model.Time
import Verif.Lemmas.Time
import Verif.Lemmas.TimeScan
import Verif.Lemmas.TimeJson
import Verif.Props.C75
import Verif.Props.C75Calendar
import Verif.Props.C76
import Verif.Props.C77
import Verif.Go.JsonIndent
import Verif.Model.JsonIndent
import Verif.Lemmas.JsonIndent
import Verif.Lemmas.JsonIndentTable
import Verif.Props.C78
import Verif.Model.StringNested
import Verif.Spec.StringNested
import Verif.Lemmas.Prints
import Verif.Lemmas.StringNested
import Verif.Props.C79
import Verif.Lemmas.FloatWidth
import Verif.Spec.Aligned
import Verif.Lemmas.Aligned
import Verif.Props.C80
import Verif.Spec.Accessors
import Verif.Spec.GoLang
import Verif.Spec.Generated
import Verif.Lemmas.Generated
import Verif.Lemmas.GeneratedOK
import Verif.Lemmas.GeneratedRun
import Verif.Props.C81
import Verif.Spec.Values
import Verif.Lemmas.Values
import Verif.Lemmas.ValuesFloat
import Verif.Lemmas.ValuesRow
import Verif.Lemmas.ValuesNear
import Verif.Lemmas.ValuesText
import Verif.Props.C82
import Verif.Spec.Document
import Verif.Lemmas.DocumentLines
import Verif.Lemmas.DocumentSteps
import Verif.Lemmas.DocumentStruct
import Verif.Lemmas.Document
import Verif.Lemmas.DocumentLoop
import Verif.Props.C83
import Verif.Model.ParserPos
import Verif.Lemmas.ParserPos
import Verif.Props.C84
import Verif.Spec.Plain
import Verif.Lemmas.Plain
import Verif.Lemmas.PlainNaN
import Verif.Lemmas.PlainCalls
import Verif.Lemmas.PlainSure
import Verif.Props.C85
import Verif.Lemmas.Shuffle
import Verif.Props.C86
import Verif.Model.CircRef
import Verif.Lemmas.CircRef
import Verif.Props.C87
import Verif.Props.C88
import Verif.Model.Utility
import Verif.Props.C89
import Verif.Props.C90
import Verif.Props.C91
