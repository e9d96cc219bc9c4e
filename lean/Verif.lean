import Verif.Varint
import Verif.VarintLemmas
import Verif.ZigzagLemmas
import Verif.Props.Varint
import Verif.Buf
import Verif.BufLemmas
import Verif.Props.Buf
import Verif.Schema
import Verif.Codegen
import Verif.CodegenLemmas
import Verif.Wire
import Verif.Spec.Wire
import Verif.Spec.Faithful
import Verif.Spec.Size
import Verif.Spec.Fragment
import Verif.RoundTrip
import Verif.SizeLemmas
import Verif.FragmentLemmas
import Verif.ExactLemmas
import Verif.Demo
import Verif.Props.RoundTrip
import Verif.Spec.Skip
import Verif.SkipLemmas
import Verif.Spec.View
import Verif.Evolve
import Verif.Spec.Names
import Verif.ViewLemmas
import Verif.Props.Evolution
import Verif.Spec.Safe
import Verif.RobustLemmas
import Verif.Props.Robust
import Verif.Chunked
import Verif.Spec.Chunked
import Verif.ChunkedLemmas
import Verif.Props.Chunked
import Verif.Ast
import Verif.Compiler.Validate
import Verif.Spec.Compiler
import Verif.Compiler.ValidateLemmas
import Verif.Compiler.ValidateLemmas2
import Verif.Compiler.ValidateLemmas3
import Verif.Compiler.Simplify
import Verif.Spec.Simplify
import Verif.Compiler.SimplifyLemmas
import Verif.Compiler.Generator
import Verif.Spec.Generator
import Verif.Compiler.GeneratorLemmas
import Verif.Props.Validate
import Verif.Compiler.Resolve
import Verif.Spec.Resolve
import Verif.Compiler.ResolveLemmas
import Verif.Props.Resolve
import Verif.Props.ResolveErrors
import Verif.Meta
import Verif.Spec.Meta
import Verif.MetaLemmas
import Verif.Props.Meta
import Verif.Parser.Comb
import Verif.Parser.CombLemmas
import Verif.Parser.Types
import Verif.Parser.TypesLemmas
import Verif.Parser.ListRound
import Verif.Parser.NumLemmas
import Verif.Parser.TypesRound
import Verif.Parser.TypesMain
import Verif.Parser.Punctuated
import Verif.Spec.Syntax
import Verif.Props.Parser
import Verif.Parser.Literals
import Verif.Parser.LiteralsLemmas
import Verif.Props.Literals
import Verif.Parser.Schema
import Verif.Spec.SchemaSyntax
import Verif.Parser.SchemaLemmas
import Verif.Parser.SchemaRound
import Verif.Parser.SchemaMain
import Verif.Parser.SchemaDefs
import Verif.Parser.SchemaInv
import Verif.Parser.SchemaBroken
import Verif.Props.Schema
import Verif.Lsp.Sync
import Verif.Spec.Lsp
import Verif.Lsp.SyncLemmas
import Verif.Props.Lsp
import Verif.Parser.Spans
import Verif.Parser.SpansLemmas
import Verif.Lsp.Tokens
import Verif.Spec.Tokens
import Verif.Lsp.TokensCover
import Verif.Lsp.TokensLemmas
import Verif.Lsp.TokensDefs
import Verif.Lsp.TokensMain
import Verif.Props.Tokens
import Verif.Build.Project
import Verif.Build.Crate
import Verif.Spec.Build
import Verif.Build.Lemmas
import Verif.Build.Meaning
import Verif.Build.ProjectLemmas
import Verif.Props.Build
import Verif.Lsp.Symbols
import Verif.Lsp.Hover
import Verif.Spec.Outline
import Verif.Lsp.OutlineCover
import Verif.Lsp.OutlineDefs
import Verif.Lsp.OutlineMain
import Verif.Props.Outline
import Verif.Lsp.HoverSize
import Verif.Lsp.HoverMain
import Verif.Props.Hover
import Verif.Lsp.Diagnostics
import Verif.Spec.Diagnostics
import Verif.Lsp.DiagParsed
import Verif.Lsp.DiagScan
import Verif.Lsp.DiagPlaces
import Verif.Lsp.DiagMain
import Verif.Props.Diagnostics
import Verif.Doc.Render
import Verif.Spec.Doc
import Verif.Doc.TextLemmas
import Verif.Doc.TextMain
import Verif.Doc.Pages
import Verif.Doc.Links
import Verif.Props.Doc
import Verif.Lsp.Server
import Verif.Spec.Server
import Verif.Lsp.ServerLemmas
import Verif.Lsp.ServerSession
import Verif.Props.Server
import Verif.Lsp.Index
import Verif.Spec.Index
import Verif.Lsp.IndexLemmas
import Verif.Props.Index
import Verif.Parser.Errors
import Verif.Parser.ErrorsLemmas
import Verif.Parser.ErrorsDepth
import Verif.Spec.Errors
import Verif.Parser.ErrorsGood
import Verif.Parser.SufLemmas
import Verif.Parser.ErrorsTypes
import Verif.Parser.ErrorsDefs
import Verif.Props.Errors
import Verif.Bench.Varint
import Verif.Bench.Lemmas
import Verif.Props.Bench
import Verif.Go.Render
import Verif.Spec.Go
import Verif.Go.Finish
import Verif.Go.Project
import Verif.Go.ProjectLemmas
import Verif.Go.Syntax
import Verif.Go.Tree
import Verif.Go.TreeText
import Verif.Go.FileTree
import Verif.Props.Go
import Verif.Rust.Syntax
import Verif.Rust.Emit
import Verif.Rust.Types
import Verif.Rust.Elab
import Verif.Rust.Run
import Verif.Rust.Good
import Verif.Rust.SizeSem
import Verif.Rust.EncodeSem
import Verif.Rust.GoodCrate
import Verif.Rust.FieldSem
import Verif.Rust.ItemSem
import Verif.Rust.EncodeKnot
import Verif.Rust.TextSem
import Verif.Rust.DecodeSem
import Verif.Rust.DecodeItem
import Verif.Rust.DecodeDef
import Verif.Rust.DecodeKnot
import Verif.Rust.Check
import Verif.Props.Cli
import Verif.Props.Rust
import Verif.Spec.Cli
import Verif.Spec.ResolveErrors
import Verif.Spec.Leb128
import Verif.Spec.GoRules
import Verif.Spec.GoBuild
import Verif.Go.Shape
import Verif.Go.EnoughFile
import Verif.Go.Check
import Verif.Go.Bridge
import Verif.Go.CheckFile
import Verif.Go.Enough
import Verif.Go.Needed
import Verif.Go.UsesFile
import Verif.Go.EnoughExpr
import Verif.Go.Uses
import Verif.Compiler.ResolveErrors
import Verif.Props.GoBuild
import Verif.Cli.Lemmas
import Verif.Cli.Files
import Verif.Spec.GoRun
import Verif.Spec.GoItem
import Verif.Spec.GoRuntime
import Verif.Go.RunDecode
import Verif.Go.RunCodec
import Verif.Go.RunMethod
import Verif.Go.RunItem
import Verif.Go.RunFields
import Verif.Go.RunWitness
import Verif.Go.RunAny
import Verif.Go.RunOption
import Verif.Props.GoRun
import Verif.Props.GoValid
import Verif.Props.Sizes
import Verif.Spec.Html
import Verif.Spec.DocHtml
import Verif.Doc.HtmlScan
import Verif.Doc.HtmlRead
import Verif.Doc.Html
import Verif.Doc.HtmlLits
import Verif.Doc.HtmlPages
import Verif.Props.DocHtml
import Verif.Spec.ResolveLabels
import Verif.Compiler.ResolveLabelsPlaces
import Verif.Compiler.ResolveLabels
import Verif.Compiler.ResolveLabelsTypes
import Verif.Compiler.ResolveLabelsMain
import Verif.Compiler.ResolveLabelsErase
import Verif.Props.ResolveLabels
import Verif.Rust.NeedItem
import Verif.Rust.Exact
import Verif.Rust.NeedSize
import Verif.Rust.NeedDecode
import Verif.Spec.Report
import Verif.Props.Report
import Verif.Parser.ReportPlaces
import Verif.Parser.ReportStays
import Verif.Parser.Report
import Verif.Parser.ReportMain
import Verif.Parser.ReportWhere
import Verif.Spec.DocRun
import Verif.Props.DocRun
import Verif.Cli.DocExec
import Verif.Cli.DocCommand
import Verif.Cli.DocPlan
import Verif.Spec.Logging
import Verif.Lsp.Logging
import Verif.Lsp.LoggingLemmas
import Verif.Props.Logging
import Verif.Spec.Tell
import Verif.Props.Tell
import Verif.Build.Failure
import Verif.Spec.Layout
import Verif.Props.Layout
import Verif.Rust.Layout
import Verif.Rust.LayoutCrate
import Verif.Rust.LayoutLemmas
import Verif.Spec.Clash
import Verif.Props.Clash
import Verif.Rust.Clash
import Verif.Rust.ClashEmitted
import Verif.Spec.Preload
import Verif.Lsp.Preload
import Verif.Lsp.PreloadLemmas
import Verif.Props.Preload
import Verif.Lsp.PreloadServer
