import Verif.Go.Str
import Verif.Model.Assets
import Verif.Model.Cli
import Verif.Model.Concurrent
import Verif.Model.Consolidate
import Verif.Model.FromString
import Verif.Model.Generator
import Verif.Model.GoCalls
import Verif.Model.GoClient
import Verif.Model.GoDecode
import Verif.Model.GoExchange
import Verif.Model.GoFunc
import Verif.Model.GoHTTP
import Verif.Model.GoImpl
import Verif.Model.GoLang
import Verif.Model.GoMain
import Verif.Model.GoRoutes
import Verif.Model.GoServer
import Verif.Model.GoWrap
import Verif.Model.HTTPCall
import Verif.Model.HTTPCode
import Verif.Model.HTTPNames
import Verif.Model.Idents
import Verif.Model.Lexer
import Verif.Model.Locals
import Verif.Model.Main
import Verif.Model.New
import Verif.Model.Oneof
import Verif.Model.Parser
import Verif.Model.Race
import Verif.Model.Render
import Verif.Model.Report
import Verif.Model.Restore
import Verif.Model.Runtime
import Verif.Model.Scanner
import Verif.Model.Server
import Verif.Model.Service
import Verif.Model.Signatures
import Verif.Model.Start
import Verif.Model.Strs
import Verif.Model.Svcdef
import Verif.Model.SvcdefNew
import Verif.Model.TemplateSrc
import Verif.Model.TextTemplate
import Verif.Model.Transport
import Verif.Model.Wire
import Verif.Proofs.AbsParser
import Verif.Proofs.Accepts
import Verif.Proofs.Assets
import Verif.Proofs.ClientParts
import Verif.Proofs.CodecParts
import Verif.Proofs.CommandLine
import Verif.Proofs.Concurrent
import Verif.Proofs.Consolidate
import Verif.Proofs.Cursor
import Verif.Proofs.Decoder
import Verif.Proofs.DecoderAll
import Verif.Proofs.DecoderFields
import Verif.Proofs.DecoderOneof
import Verif.Proofs.DecoderRun
import Verif.Proofs.Decoders
import Verif.Proofs.EncoderParts
import Verif.Proofs.EncoderRun
import Verif.Proofs.Encoders
import Verif.Proofs.FieldRun
import Verif.Proofs.FileParts
import Verif.Proofs.FuncParts
import Verif.Proofs.Generator
import Verif.Proofs.GeneratorSteps
import Verif.Proofs.GoCalls
import Verif.Proofs.GoCallsRun
import Verif.Proofs.GoDecode
import Verif.Proofs.GoExchange
import Verif.Proofs.GoFuncExec
import Verif.Proofs.GoFuncRun
import Verif.Proofs.GoFuncText
import Verif.Proofs.GoHTTP
import Verif.Proofs.GoHTTPErr
import Verif.Proofs.GoHTTPText
import Verif.Proofs.GoMain
import Verif.Proofs.GoNatsExec
import Verif.Proofs.GoNatsText
import Verif.Proofs.GoRoutes
import Verif.Proofs.GoRoutesText
import Verif.Proofs.GoServer
import Verif.Proofs.GoWrap
import Verif.Proofs.Grammar
import Verif.Proofs.HTTPCall
import Verif.Proofs.HTTPCode
import Verif.Proofs.HTTPLabels
import Verif.Proofs.HTTPNames
import Verif.Proofs.HTTPParts
import Verif.Proofs.HTTPPaths
import Verif.Proofs.Idents
import Verif.Proofs.LexRegion
import Verif.Proofs.LexText
import Verif.Proofs.Lexeme
import Verif.Proofs.Lexer
import Verif.Proofs.Literal
import Verif.Proofs.Locals
import Verif.Proofs.MainParts
import Verif.Proofs.NatsParts
import Verif.Proofs.New
import Verif.Proofs.Oneof
import Verif.Proofs.OneofRun
import Verif.Proofs.ParserErrors
import Verif.Proofs.ParserFuel
import Verif.Proofs.ParserMono
import Verif.Proofs.Parts
import Verif.Proofs.Paths
import Verif.Proofs.Render
import Verif.Proofs.RunParts
import Verif.Proofs.Runtime
import Verif.Proofs.Scanner
import Verif.Proofs.Scope
import Verif.Proofs.ScopeSim
import Verif.Proofs.Service
import Verif.Proofs.Strs
import Verif.Proofs.SvcdefNew
import Verif.Proofs.Text
import Verif.Proofs.TextCheck
import Verif.Proofs.TextTemplate
import Verif.Proofs.Texts
import Verif.Proofs.Transport
import Verif.Proofs.WrapParts
import Verif.Props.Accepts
import Verif.Props.Assets
import Verif.Props.Cli
import Verif.Props.Command
import Verif.Props.Concurrent
import Verif.Props.Consolidate
import Verif.Props.Decoder
import Verif.Props.DecoderRun
import Verif.Props.Decoders
import Verif.Props.Depends
import Verif.Props.EncoderRun
import Verif.Props.Encoders
import Verif.Props.EndToEnd
import Verif.Props.FieldNames
import Verif.Props.Files
import Verif.Props.Generator
import Verif.Props.GoCalls
import Verif.Props.GoDecode
import Verif.Props.GoExchange
import Verif.Props.GoFunc
import Verif.Props.GoHTTP
import Verif.Props.GoImpl
import Verif.Props.GoMain
import Verif.Props.GoNats
import Verif.Props.GoRoutes
import Verif.Props.GoServer
import Verif.Props.GoWrap
import Verif.Props.HTTPCall
import Verif.Props.HTTPCode
import Verif.Props.HTTPNames
import Verif.Props.Idents
import Verif.Props.Keyword
import Verif.Props.Lexeme
import Verif.Props.Lexer
import Verif.Props.Locals
import Verif.Props.Main
import Verif.Props.New
import Verif.Props.NoService
import Verif.Props.Oneof
import Verif.Props.Parser
import Verif.Props.ParserErrors
import Verif.Props.Race
import Verif.Props.Render
import Verif.Props.Report
import Verif.Props.Restore
import Verif.Props.RoundTrip
import Verif.Props.Runtime
import Verif.Props.Scanner
import Verif.Props.Server
import Verif.Props.Service
import Verif.Props.Signatures
import Verif.Props.Start
import Verif.Props.StartText
import Verif.Props.Streaming
import Verif.Props.Strs
import Verif.Props.Svcdef
import Verif.Props.SvcdefContents
import Verif.Props.SvcdefNew
import Verif.Props.SvcdefTags
import Verif.Props.Text
import Verif.Props.Texts
import Verif.Props.Transport
import Verif.Props.TransportNames
import Verif.Props.Wire
import Verif.Props.Wiring
import Verif.Spec.Accepts
import Verif.Spec.CommandLine
import Verif.Spec.Concurrent
import Verif.Spec.Consolidate
import Verif.Spec.Decoder
import Verif.Spec.DecoderRun
import Verif.Spec.Decoders
import Verif.Spec.EncoderRun
import Verif.Spec.Encoders
import Verif.Spec.EndToEnd
import Verif.Spec.FieldNames
import Verif.Spec.Files
import Verif.Spec.Generator
import Verif.Spec.GoCalls
import Verif.Spec.GoFunc
import Verif.Spec.GoHTTP
import Verif.Spec.GoMain
import Verif.Spec.GoServer
import Verif.Spec.GoWrap
import Verif.Spec.Grammar
import Verif.Spec.HTTP
import Verif.Spec.HTTPCode
import Verif.Spec.Idents
import Verif.Spec.Lexeme
import Verif.Spec.Lexer
import Verif.Spec.New
import Verif.Spec.ParserErrors
import Verif.Spec.Paths
import Verif.Spec.Protoc
import Verif.Spec.Race
import Verif.Spec.Report
import Verif.Spec.Scanner
import Verif.Spec.Scope
import Verif.Spec.Service
import Verif.Spec.Signatures
import Verif.Spec.Strs
import Verif.Spec.Svcdef
import Verif.Spec.Text
import Verif.Spec.TextTemplate
import Verif.Spec.Texts
import Verif.Spec.Transport
import Verif.Spec.Wire
import Verif.Spec.Wiring
