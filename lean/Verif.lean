import Verif.Ref.Props
import Verif.Ref.Deprecated
import Verif.Container.Props
import Verif.Container.Setters
import Verif.Equality.Props
import Verif.Igt.ValueProps
import Verif.Igt.RefProps
import Verif.Igt.AncProps
import Verif.Igt.DescProps
import Verif.Igt.SortProps
import Verif.Attr.Props
import Verif.Corpus.Props
import Verif.Json.Props
import Verif.Json.Text
import Verif.Json.TextProps
import Verif.Xml.Props
import Verif.Xml.StreamProps
import Verif.Xml.Fragments
import Verif.Xml.Text
import Verif.Xml.TextProps
import Verif.Xml.Markup
import Verif.Xml.Document
import Verif.Xml.Grammar
import Verif.Xml.AttrOrder
import Verif.Xml.AttrSort
import Verif.Path.Examples
import Verif.Scripts.PartitionProps
import Verif.Scripts.SortProps
import Verif.Scripts.QueryProps
import Verif.Scripts.ValidateExamples
import Verif.Scripts.ValidateValues
import Verif.Import.ToolboxIgt
import Verif.Import.ToolboxFile
import Verif.Import.ToolboxXml
import Verif.Import.ToolboxMarkers
import Verif.Import.RespaceProps
import Verif.Import.OdinXml
import Verif.Export.LatexExamples
import Verif.Export.ItsdbProps
import Verif.Scripts.FormatModel
import Verif.Scripts.FormatLemmas
import Verif.Scripts.QueryPrint
import Verif.Scripts.QueryPrintProps
import Verif.Scripts.QueryFile
import Verif.Scripts.SortStages
import Verif.Path.Refs
import Verif.Scripts.ValidatePrint
import Verif.Scripts.ValidateColor
import Verif.Schema.Examples
import Verif.Schema.LoadExamples
import Verif.Schema.Align
import Verif.Schema.Imported
import Verif.Schema.XigtExamples
import Verif.Schema.OdinSchema
import Verif.Schema.ToolboxDefault
import Verif.Files.ImportProps
import Verif.Files.Partition
import Verif.Xml.Again
import Verif.Scripts.SortTwice
import Verif.Scripts.SortDeps
import Verif.Files.Sort
import Verif.Files.Comments
import Verif.Export.LatexRows
import Verif.Export.LatexDoc
import Verif.Files.Export
import Verif.Igt.AncExact
import Verif.Igt.DescItems
import Verif.Xml.Bytes
import Verif.Xml.BytesProps
import Verif.Xml.Convert
import Verif.Igt.Contents
import Verif.Scripts.ValidateMain
import Verif.Igt.ObjRefs
import Verif.Export.LatexKept
import Verif.Igt.Span
import Verif.Attr.RefSetters
import Verif.PySpec
import Verif.Scripts.QueryMain
import Verif.Scripts.QueryShown
import Verif.RegexSpec
import Verif.Path.Tokens
import Verif.Container.Getters
import Verif.Xml.ConvertBack
import Verif.Container.Rename
import Verif.Tree.WfCheck
import Verif.Igt.Same
import Verif.Igt.Keep
import Verif.Scripts.SortValues
import Verif.Scripts.ValidateClean
import Verif.Import.ToolboxValid
import Verif.Import.ToolboxTotal
import Verif.Import.ToolboxLog
import Verif.Igt.Warn
import Verif.Import.ToolboxNames
import Verif.Import.OdinNames
import Verif.Import.ToolboxWarn
import Verif.Tree.MetadataText
import Verif.Export.ToolboxItsdb
import Verif.Corpus.Assign
import Verif.Import.OdinValid
import Verif.Scripts.ValidateSame
import Verif.Scripts.ValidateSort
import Verif.Schema.Extensions
import Verif.Import.Options
import Verif.Igt.Renamed
import Verif.Path.Same
import Verif.Json.Reads
import Verif.Scripts.SortSame
import Verif.Export.LatexSame
import Verif.Scripts.SortPaths
import Verif.Xml.Known
import Verif.Scripts.PartitionPaths
import Verif.Schema.Abkhaz
import Verif.Schema.Outline
import Verif.Schema.Rewrite
import Verif.Schema.Kept
import Verif.Schema.Parts
import Verif.Scripts.Argparse
import Verif.Scripts.Command
import Verif.Scripts.CommandLemmas
import Verif.Scripts.CommandGiven
import Verif.Scripts.CommandProps
import Verif.Scripts.CommandScripts
import Verif.Scripts.CommandExamples
import Verif.Schema.OdinGeneral
import Verif.Scripts.CommandOrigin
import Verif.Files.Command
import Verif.Files.CommandProps
import Verif.Files.CommandRun
import Verif.Json.Grammar
import Verif.Xml.Reads
import Verif.Scripts.ValidateParts
import Verif.Scripts.ValidateOut
import Verif.Scripts.QuerySame
import Verif.Export.ItsdbDefault
import Verif.Export.Sorted
import Verif.Files.Itsdb
import Verif.Files.Log
import Verif.Container.Undo
