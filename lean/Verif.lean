import Verif.Model.Basic
import Verif.Model.Types
import Verif.Model.Utf8
import Verif.Model.Encoder
import Verif.Model.Decoder
import Verif.Spec.Abi
import Verif.Proofs.Bytes
import Verif.Proofs.Utf8
import Verif.Proofs.DisplayNumbers
import Verif.Proofs.Encode
import Verif.Proofs.Decode
import Verif.Proofs.DecodeFacts
import Verif.Proofs.DecodeWidth
import Verif.Proofs.TypeCheck
import Verif.Proofs.Lossy
import Verif.Proofs.Codec
import Verif.Props.Codec
import Verif.Model.Text
import Verif.Model.Writer
import Verif.Model.Reader
import Verif.Model.Function
import Verif.Spec.Size
import Verif.Spec.Text
import Verif.Proofs.Text
import Verif.Proofs.Signature
import Verif.Proofs.Profile
import Verif.Proofs.Size
import Verif.Proofs.SizeSpec
import Verif.Proofs.Slice
import Verif.Proofs.Reader
import Verif.Props.Calls
import Verif.Props.Signatures
import Verif.Proofs.ReaderTuple
import Verif.Proofs.ReaderPanic
import Verif.Proofs.ReaderSizes
import Verif.Props.Reader
import Verif.Model.Json
import Verif.Model.Contract
import Verif.Proofs.Json
import Verif.Proofs.Contract
import Verif.Props.Json
import Verif.Model.Hex
import Verif.Model.Event
import Verif.Spec.Event
import Verif.Proofs.Event
import Verif.Proofs.EventEmit
import Verif.Props.Logs
import Verif.Spec.Filter
import Verif.Proofs.Hex
import Verif.Proofs.EncodeFine
import Verif.Proofs.Filter
import Verif.Props.Filters
import Verif.Model.Tokenizer
import Verif.Spec.Tokenize
import Verif.Proofs.Tokenize
import Verif.Proofs.TokenizeTypes
import Verif.Proofs.TokenizeNumbers
import Verif.Proofs.TokenizeShow
import Verif.Props.Tokenizer
import Verif.Model.Cli
import Verif.Props.Cli
import Verif.Model.Derive
import Verif.Spec.Derive
import Verif.Proofs.Derive
import Verif.Props.Derive
import Verif.Props.Display
import Verif.Spec.Reorder
import Verif.Proofs.Reorder
import Verif.Props.Reorder
import Verif.Props.Sizes
import Verif.Tests.Helpers
import Verif.Tests.Encoder
import Verif.Tests.Decoder
import Verif.Tests.Token
import Verif.Tests.Types
import Verif.Tests.Tokenizer
import Verif.Tests.Json
import Verif.Tests.Contract
import Verif.Tests.Event
import Verif.Tests.Cli
import Verif.Tests.Derive
import Verif.Tests.Codec
import Verif.Model.Generate
import Verif.Spec.RustText
import Verif.Spec.RustModules
import Verif.Spec.Generated
import Verif.Proofs.GenerateText
import Verif.Proofs.GenerateItems
import Verif.Proofs.GenerateRun
import Verif.Proofs.GenerateCalls
import Verif.Proofs.GenerateResults
import Verif.Proofs.GenerateFilters
import Verif.Proofs.GenerateStuck
import Verif.Proofs.GenerateTypes
import Verif.Props.Generate
import Verif.Tests.Generate
import Verif.Tests.Heck
import Verif.Spec.Outcomes
import Verif.Proofs.Outcomes
import Verif.Props.Outcomes
import Verif.Spec.Reading
import Verif.Proofs.Reading
import Verif.Proofs.ReadingExact
import Verif.Props.Reading
import Verif.Spec.TypeText
import Verif.Proofs.TypeText
import Verif.Props.TypeText
import Verif.Spec.AbiJson
import Verif.Proofs.AbiJson
import Verif.Props.AbiJson
import Verif.Proofs.ReaderExact
import Verif.Spec.Logs
import Verif.Proofs.Logs
import Verif.Props.LogsExact
import Verif.Proofs.FilterLogs
import Verif.Props.FilterLogs
import Verif.Spec.TokenText
import Verif.Proofs.TokenText
import Verif.Props.TokenText
import Verif.Proofs.Seq
import Verif.Proofs.FilterExact
import Verif.Props.FiltersExact
import Verif.Props.DeriveExact
import Verif.Spec.AbiWrap
import Verif.Proofs.EncodeWrap
import Verif.Props.Limits
import Verif.Spec.Weight
import Verif.Proofs.Weight
import Verif.Props.Weight
import Verif.Model.DeriveEntry
import Verif.Model.CliExecute
import Verif.Spec.DeriveEntry
import Verif.Proofs.DeriveEntry
import Verif.Props.DeriveEntry
import Verif.Props.CliExact
import Verif.Spec.NestedText
import Verif.Proofs.NestedText
import Verif.Props.NestedText
import Verif.Model.DecoderOn
import Verif.Spec.Targets
import Verif.Proofs.Targets
import Verif.Props.Targets
import Verif.Spec.Written
import Verif.Proofs.Written
import Verif.Proofs.WrittenUnique
import Verif.Props.Written
import Verif.Spec.Selector
import Verif.Proofs.Selector
import Verif.Props.Selector
import Verif.Spec.Crash
import Verif.Proofs.Crash
import Verif.Proofs.ReaderSuffix
import Verif.Props.Crash
import Verif.Props.CliPanics
import Verif.Props.ReaderSuffix
import Verif.Proofs.AnyText
import Verif.Props.AnyText
import Verif.Spec.Errors
import Verif.Proofs.Errors
import Verif.Spec.RefusedText
import Verif.Proofs.RefusedText
import Verif.Proofs.LoadErrors
import Verif.Spec.EmptyLog
import Verif.Props.Errors
import Verif.Spec.EventFields
import Verif.Proofs.EventFields
import Verif.Props.EventFields
import Verif.Model.ReaderOn
import Verif.Spec.TargetText
import Verif.Proofs.ReaderOn
import Verif.Props.TargetText
import Verif.Spec.TypeSize
import Verif.Proofs.TypeSize
import Verif.Props.TypeSize
import Verif.Proofs.HeckWords
import Verif.Props.Names
import Verif.Spec.Printed
import Verif.Proofs.Printed
import Verif.Props.Printed
import Verif.Proofs.Nested
import Verif.Props.Nested
import Verif.Spec.Keccak
import Verif.Props.Keccak
import Verif.Model.JsonText
import Verif.Model.JsonWrite
import Verif.Spec.JsonText
import Verif.Proofs.JsonText
import Verif.Proofs.JsonValue
import Verif.Proofs.JsonLoad
import Verif.Proofs.JsonWrite
import Verif.Proofs.JsonReload
import Verif.Props.JsonText
import Verif.Spec.FilterText
import Verif.Props.FilterText
import Verif.Model.Files
import Verif.Spec.Files
import Verif.Props.Files
import Verif.Model.EncoderOn
import Verif.Model.EventOn
import Verif.Spec.Capacity
import Verif.Spec.Asked
import Verif.Proofs.Capacity
import Verif.Proofs.TargetCalls
import Verif.Props.Capacity
import Verif.Props.TargetCalls
import Verif.Model.JsonBytes
import Verif.Spec.FileBytes
import Verif.Proofs.JsonBytes
import Verif.Props.JsonBytes
import Verif.Spec.Depth
import Verif.Proofs.Depth
import Verif.Props.Depth
import Verif.Model.ReaderCount
import Verif.Proofs.ReaderCount
import Verif.Props.ReaderCount
import Verif.Spec.Operations
import Verif.Proofs.Operations
import Verif.Props.Operations
import Verif.Model.DecoderCount
import Verif.Spec.Work
import Verif.Proofs.DecoderCount
import Verif.Props.DecoderCount
import Verif.Model.EncoderCount
import Verif.Spec.EncodeWork
import Verif.Proofs.EncoderCount
import Verif.Props.EncoderCount
import Verif.Model.TokenizerCount
import Verif.Spec.TokenizeWork
import Verif.Proofs.TokenizerCount
import Verif.Props.TokenizerCount
import Verif.Proofs.ReaderDeep
import Verif.Proofs.ReaderDeepWork
import Verif.Props.ReaderDeep
import Verif.Spec.IntWidths
import Verif.Proofs.IntWidths
import Verif.Props.IntWidths
import Verif.Spec.Significant
import Verif.Proofs.Significant
import Verif.Props.Significant
import Verif.Model.CallDepth
import Verif.Spec.CallDepth
import Verif.Proofs.CallDepth
import Verif.Props.CallDepth
import Verif.Tests.Checkers
import Verif.Tests.CheckersSound
import Verif.Tests.CheckersText
import Verif.Tests.CheckersTextSound
import Verif.Tests.CheckersMore
import Verif.Tests.CheckersMoreSound
import Verif.Spec.Canonical
import Verif.Proofs.Canonical
import Verif.Props.Canonical
import Verif.Tests.CheckersCalls
import Verif.Tests.CheckersCallsSound
import Verif.Model.CallDepthEncode
import Verif.Spec.CallDepthEncode
import Verif.Proofs.CallDepthEncode
import Verif.Props.CallDepthEncode
import Verif.Tests.CheckersDepth
import Verif.Tests.CheckersDepthSound
import Verif.Tests.CheckersRest
import Verif.Tests.CheckersRestSound
import Verif.Model.Messages
import Verif.Spec.Messages
import Verif.Proofs.Messages
import Verif.Props.Messages
import Verif.Spec.AnyRefused
import Verif.Proofs.AnyRefused
import Verif.Props.AnyRefused
import Verif.Spec.Getters
import Verif.Props.Getters
import Verif.Tests.CheckersLast
import Verif.Tests.CheckersLastSound
import Verif.Tests.Determined
import Verif.Model.JsonOn
import Verif.Spec.TargetJson
import Verif.Proofs.JsonOn
import Verif.Proofs.JsonOnWritten
import Verif.Props.TargetJson
import Verif.Spec.Plain
import Verif.Proofs.Plain
import Verif.Proofs.PlainEncode
import Verif.Props.Plain
import Verif.Model.CliOn
import Verif.Props.TargetCli
import Verif.Model.DeriveOn
import Verif.Props.TargetDerive
