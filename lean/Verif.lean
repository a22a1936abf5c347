import Verif.Model.Basic
import Verif.Model.Category
import Verif.Model.InputText
import Verif.Model.InputPlugins
import Verif.Props.Text
import Verif.Props.Category
import Verif.Props.InputPlugins
import Verif.Model.Lattice
import Verif.Model.Oov
import Verif.Model.LatticeBuild
import Verif.Props.Lattice
import Verif.Model.Numeric
import Verif.Props.Numeric
import Verif.Model.PathRewrite
import Verif.Props.PathRewrite
import Verif.Model.Tokenizer
import Verif.Props.Tokenizer
import Verif.Props.Total
import Verif.Model.Bytes
import Verif.Model.DictFile
import Verif.Model.LexiconSet
import Verif.Model.PyText
import Verif.Model.Builder
import Verif.Model.Definitions
import Verif.Model.Dictionary
import Verif.Model.Open
import Verif.Model.Late
import Verif.Model.Ranges
import Verif.Model.Generators
import Verif.Props.Header
import Verif.Props.Grammar
import Verif.Props.Lexicon
import Verif.Props.DictFile
import Verif.Props.LexiconSet
import Verif.Props.Dictionary
import Verif.Model.Config
import Verif.Model.CommandLine
import Verif.Props.Config
import Verif.Props.CommandLine
import Verif.Props.Interrupted
import Verif.Spec.EndToEnd
import Verif.Lemmas.Installed
import Verif.Lemmas.Installed2
import Verif.Lemmas.Installed3
import Verif.Lemmas.SampleInstall
import Verif.Props.EndToEnd
import Verif.Spec.Definitions
import Verif.Spec.CharDefFault
import Verif.Spec.WordIds
import Verif.Lemmas.Definitions
import Verif.Lemmas.Definitions2
import Verif.Lemmas.CharDefFault
import Verif.Props.Definitions
import Verif.Spec.Shipped
import Verif.Spec.Open
import Verif.Spec.ShippedMachine
import Verif.Lemmas.Open
import Verif.Lemmas.Shipped
import Verif.Props.Open
import Verif.Props.Shipped
import Verif.Lemmas.Utf8
import Verif.Spec.Literals
import Verif.Props.Literals
import Verif.Spec.Buildable
import Verif.Spec.MatrixDef
import Verif.Lemmas.Buildable
import Verif.Lemmas.Buildable2
import Verif.Lemmas.Buildable3
import Verif.Lemmas.Buildable4
import Verif.Lemmas.Buildable5
import Verif.Props.Buildable
import Verif.Spec.Loads
import Verif.Lemmas.Loads
import Verif.Props.Loads
import Verif.Lemmas.SampleCore
import Verif.Props.ShippedCore
import Verif.Model.Csv
import Verif.Spec.Csv
import Verif.Lemmas.Csv
import Verif.Props.Csv
import Verif.Spec.Printing
import Verif.Lemmas.Printing
import Verif.Props.Printing
import Verif.Model.Commands
import Verif.Spec.Commands
import Verif.Lemmas.Commands
import Verif.Props.Commands
import Verif.Model.Dump
import Verif.Spec.Dump
import Verif.Lemmas.Dump
import Verif.Lemmas.Dump2
import Verif.Props.Dump
import Verif.Spec.Encodable
import Verif.Lemmas.Dump3
import Verif.Props.Exactly
import Verif.Lemmas.Encodable
import Verif.Lemmas.Encodable2
import Verif.Lemmas.Encodable3
import Verif.Model.TokenizeCommand
import Verif.Spec.TokenizeCommand
import Verif.Lemmas.TokenizeCommand
import Verif.Props.TokenizeCommand
import Verif.Lemmas.SampleTerminal
import Verif.Props.TokenizeShipped
import Verif.Model.ConnectCost
import Verif.Spec.ConnectCost
import Verif.Lemmas.ConnectCost
import Verif.Props.ConnectCost
import Verif.Spec.Interrupted
import Verif.Lemmas.Truncated
import Verif.Spec.Recovery
import Verif.Lemmas.Recovery
import Verif.Props.Recovery
import Verif.Lemmas.Matrix
import Verif.Lemmas.MatrixDef
import Verif.Props.Matrix
import Verif.Props.Unknown
import Verif.Props.Memory
import Verif.Spec.Memory
import Verif.Lemmas.Memory
import Verif.Props.Arguments
import Verif.Model.Arguments
import Verif.Spec.Arguments
import Verif.Lemmas.Arguments
import Verif.Lemmas.Arguments2
import Verif.Lemmas.Arguments3
import Verif.Props.Quiet
import Verif.Model.Quiet
import Verif.Spec.Quiet
import Verif.Lemmas.Quiet
import Verif.Spec.Output
import Verif.Lemmas.Output
import Verif.Lemmas.Output2
import Verif.Props.Output
import Verif.Props.MorphemeText
import Verif.Props.DefinitionsTypes
import Verif.Props.DefinitionsRaise
import Verif.Props.WordIds
import Verif.Props.AnyWordId
import Verif.Props.Generators
import Verif.Props.Digits
import Verif.Props.FileLayout
import Verif.Props.EntryLayout
import Verif.Props.JsonText
import Verif.Props.SettingsValue
import Verif.Props.CommandLines
import Verif.Props.Late
import Verif.Props.Ranges
import Verif.Props.CostRaises
import Verif.Props.ConfigKeys
import Verif.Spec.Ties
import Verif.Lemmas.Ties
import Verif.Lemmas.Ties2
import Verif.Lemmas.Ties3
import Verif.Lemmas.Ties4
import Verif.Lemmas.Ties5
import Verif.Props.Ties
import Verif.Spec.SetOrder
import Verif.Lemmas.SetOrder
import Verif.Lemmas.SetOrder2
import Verif.Props.SetOrder
import Verif.Model.Close
import Verif.Spec.Close
import Verif.Lemmas.Close
import Verif.Props.Close
import Verif.Spec.Outcome
import Verif.Lemmas.Outcome
import Verif.Props.Outcome
import Verif.Spec.Raises
import Verif.Props.Raises
import Verif.Props.TokenizeNoCells
import Verif.Spec.GrammarShape
import Verif.Props.GrammarShape
import Verif.Spec.UsersAdded
import Verif.Props.UsersAdded
import Verif.Spec.ShippedUsers
import Verif.Props.ShippedUsers
import Verif.Lemmas.SampleKyoto
import Verif.Props.OutputUsers
import Verif.Spec.BuildRaises
import Verif.Lemmas.BuildRaises
import Verif.Lemmas.BuildRaises2
import Verif.Lemmas.BuildRaises3
import Verif.Lemmas.BuildRaises4
import Verif.Props.BuildRaises
import Verif.Spec.PosComponent
import Verif.Props.PosComponent
import Verif.Props.PosRaises
import Verif.Model.TextStream
import Verif.Spec.TextStream
import Verif.Lemmas.TextStream
import Verif.Props.TextStream
import Verif.Spec.CsvBroken
import Verif.Props.CsvBroken
import Verif.Spec.CommandRaises
import Verif.Lemmas.CommandRaises
import Verif.Props.CommandRaises
import Verif.Replay.Resources
import Verif.Replay.Machine
import Verif.Replay.NumericParser
import Verif.Replay.InputText
import Verif.Replay.InputPlugins
import Verif.Replay.Categories
import Verif.Replay.PathPlugins
import Verif.Replay.MeCab
import Verif.Replay.Dictionaries
import Verif.Replay.Tokenizer
