# Formal model of dnaka91/mabo in Lean 4

## 1. Trusted base

* Lean 4.33.0's kernel. Every property theorem is checked by it; no `native_decide`,
  `bv_decide`, user axioms or admitted proofs are used.
* Axioms: at most `propext`, `Classical.choice`, `Quot.sound`. `AXIOMS.txt` lists them for every theorem of
  `MANIFEST.json` (`tools/axioms.py`, by `#print axioms`).
* The faithfulness of the hand-written model to the Rust source. Each definition cites the file
  and lines it models and lists its simplifications; nothing ties the two mechanically because the
  code cannot be built here.
* Assumed behaviour of code outside the repository:
  * `bytes::Buf`/`BufMut` on a contiguous buffer: `put*` append, `get_u8/advance/copy_to_bytes`
    remove from the front, `take(n)` exposes the first `n` bytes and removes from the underlying
    buffer what was read, `chunk()` of a contiguous buffer is all remaining data (for `Take`: cut at
    the limit). Chunked buffers are modelled separately (`Verif/Chunked.lean`).
  * `String::from_utf8` accepts exactly well formed UTF-8 (Lean's `String.fromUTF8?`).
  * `HashMap`/`HashSet`: finite maps/sets with *some* iteration order; a container is modelled by
    the list of its entries in iteration order, theorems hold for every such list, and insertion
    replaces the value of an equal key. Key equality is structural equality of the modelled value.
  * `usize` is 64 bits wide; memory is large enough (no allocation failure, no stack overflow).
  * winnow combinators (`alt`, `opt`, `repeat`, `take_while`, `dec_uint`, `cut_err`, `with_span` ...) behave as
    documented: backtrack / cut error modes are modelled explicitly.
  * Rust's float formatting and parsing is a parameter (`Std`); where a theorem needs facts about it they are a
    hypothesis (`FloatForms`: a float is printed with a point and read back as itself, or like an integer, or as `-0`,
    or as NaN/infinity).
  * The line index of the language server (crate `line-index`) is a parameter; theorems assume `OffsetContract` (C46)
    or `PositionContract` (C39): byte offset and line/column in the negotiated encoding correspond as the protocol says,
    for documents below 4 GiB (the code casts offsets to `u32`). `searchPosition` meets the contract, so it is satisfiable.
  * Rust's own name resolution, as far as the generated modules use it: `use super::a::b::C;` brings `C` into its own
    module only; a path is looked up in the module it stands in (`Verif/Build/Crate.lean`).
  * Rust's typing and execution of the expressions that are emitted (C66, C67): automatic dereferencing, references, closures,
    `?`, blocks, shadowing, `loop`, `match`, trait lookup for the types used — as far as written down in `Verif/Rust/Elab.lean`
    with the simplifications named there, from the Rust reference; rustc itself is not modelled.
  * `syn::parse2` accepts the generated tokens or not: parameter `valid` of `compile`.

## 2. What is modelled

| Lean module | Rust source |
|---|---|
| `Verif/Varint.lean` | `crates/mabo/src/varint.rs` |
| `Verif/Buf.lean` | `crates/mabo/src/lib.rs` (FieldId, FieldEncoding, NonZero), `crates/mabo/src/buf/{encode,decode,size}.rs` |
| `Verif/Chunked.lean` | the same decoders over non-contiguous `Buf`s |
| `Verif/Schema.lean` | `crates/mabo-compiler/src/simplify.rs` output types, value universe, typing |
| `Verif/Codegen.lean` | the code generated by `crates/mabo-build/src/{encode,decode,size}.rs` as interpreters |
| `Verif/Ast.lean` | `crates/mabo-parser/src/lib.rs` syntax tree |
| `Verif/Compiler/Validate.lean` | `crates/mabo-compiler/src/lib.rs`, `validate/*` |
| `Verif/Compiler/Simplify.lean` | `crates/mabo-compiler/src/simplify.rs` |
| `Verif/Compiler/Generator.lean` | which schemas `crates/mabo-build/src/{definition,encode,decode,size}.rs` can translate |
| `Verif/Compiler/Resolve.lean` (errors: `Compiler/ResolveErrors.lean`, spec `Spec/ResolveErrors.lean`) | `crates/mabo-compiler/src/resolve/mod.rs`, `resolve/error.rs` without labels |
| `Verif/Build/Project.lean` | `crates/mabo-build/src/lib.rs` (`Compiler::compile`) |
| `Verif/Build/Crate.lean` | meaning of the generated modules (`crates/mabo-build/src/definition.rs`) |
| `Verif/Meta.lean` | `crates/mabo-meta/src/lib.rs` |
| `Verif/Parser/Comb.lean` | winnow combinators |
| `Verif/Parser/{Types,Literals,Schema,Punctuated}.lean` | `crates/mabo-parser/src/{parser.rs,parser/*,lib.rs,punctuated.rs}`: parsing and printing, `mabo fmt` |
| `Verif/Parser/Spans.lean` | the same parser with all source spans |
| `Verif/Lsp/Sync.lean` | `crates/mabo-lsp/src/handlers/mod.rs`, `state.rs`: open/change/close/delete notifications |
| `Verif/Lsp/Tokens.lean` | `crates/mabo-lsp/src/handlers/semantic_tokens.rs` |
| `Verif/Lsp/Symbols.lean` | `crates/mabo-lsp/src/handlers/document_symbols.rs` |
| `Verif/Lsp/Diagnostics.lean` | `crates/mabo-lsp/src/handlers/compile.rs`, the validator with locations, `publish_diagnostics` |
| `Verif/Parser/Errors.lean` | the parser with its errors: `crates/mabo-parser/src/error.rs`, `location.rs`, `ext.rs`, `parser.rs`, `parser/*.rs`; messages and places in `crates/mabo-lsp/src/compile.rs`; which error `winnow` 1.0 passes on, from its documentation |
| `Verif/Parser/Report.lean` | the reports of syntax errors: what the derives of `crates/mabo-derive/src/{error,cause}.rs` emit for the error types, with the attributes in `crates/mabo-parser/src/parser/*.rs`, and `crates/mabo-parser/src/error.rs`; `Spec/Report.lean` the specification, `Parser/Report{Places,Stays,Main,Where}.lean` the proofs (C78) |
| `Verif/Cli/DocCommand.lean` | `mabo doc` on the file system: `doc`, `write_doc_output` (`crates/mabo-cli/src/main.rs:79-106`) with `create_dir_all` and `fs::write`, each operation may fail or be the last one |
| `Verif/Build/Failure.lean` | `mabo-build/src/lib.rs` (errors), `mabo-go/src/main.rs` (errors), messages and labels of `validate::Error` |
| `Verif/Spec/Tell.lean` | specification: the first bad file, the same as in the editor |
| `Verif/Rust/{Layout,LayoutLemmas,LayoutCrate}.lean` | the emitted type definitions as Rust reads them; sizes and uses of parameters by the graph of the definitions |
| `Verif/Spec/Layout.lean` | specification: finite size, used type parameters, derived traits, instances |
| `Verif/Props/Layout.lean` | C82 |
| `Verif/Rust/{Clash,ClashEmitted}.lean` | which paths of the generated crate are types, modules and values; the modules as they are written (`Emitted`) |
| `Verif/Spec/Clash.lean` | specification: names declared once in each namespace, imports that lead to something |
| `Verif/Lsp/{Preload,PreloadLemmas,PreloadServer}.lean` | `discover` (`crates/mabo-project/src/lib.rs`), the loading of files in `initialize` (`crates/mabo-lsp/src/handlers/mod.rs`) |
| `Verif/Spec/Preload.lean` | specification: URIs of files, escapes |
| `Verif/Props/Preload.lean` | C84 |
| `Verif/Props/Clash.lean` | C83, and the whole crate (C67, C82 and C83 together) |
| `Verif/Lsp/Logging.lean` | `crates/mabo-lsp/src/logging.rs` |
| `Verif/Spec/Logging.lean` | specification: messages, lines, what belongs in the log |
| `Verif/Spec/DocRun.lean` | specification: pages of files, what is in their way |
| `Verif/Bench/Varint.lean` | `crates/mabo-benches/src/varint.rs` (all codecs; `f32`/`f64` as bits) |
| `Verif/Lsp/Index.lean` | `crates/mabo-lsp/src/handlers/index.rs`, encoding and file loading in `initialize` (`handlers/mod.rs`); the crate `line-index` 0.1.2, from its documentation |
| `Verif/Lsp/Server.lean` | `crates/mabo-lsp/src/main.rs` (behind the handshake), `client.rs`, `reload_settings` in `state.rs` |
| `Verif/Doc/Render.lean` | `crates/mabo-doc/src/{lib,templates}.rs`, its templates, `doc` in `crates/mabo-cli/src/main.rs` |
| `Verif/Doc/Html.lean` | the HTML of these pages, character by character: `crates/mabo-doc/templates/`; escaping of askama, from its documentation |
| `Verif/Spec/Html.lean`, `Verif/Spec/DocHtml.lean` | specification: reading HTML; the document of each page |
| `Verif/Doc/{HtmlScan,HtmlLits,HtmlRead,HtmlPages}.lean` | proofs for C76 |
| `Verif/Compiler/ResolveLabels.lean` | `crates/mabo-compiler/src/resolve/{mod,error}.rs` with the ranges and sources of errors |
| `Verif/Spec/ResolveLabels.lean` | specification: where the labels have to be |
| `Verif/Compiler/ResolveLabels{Erase,Types,Places,Main}.lean` | proofs for C77 |
| `Verif/Go/Render.lean`, `Verif/Go/Project.lean` | `crates/mabo-go/src/{lib,definition,encode,decode,size}.rs` as the text they write, `main.rs`; the crate `heck` 0.5 from its source |
| `Verif/Go/{Syntax,Tree,TreeText,FileTree}.lean` | the same functions as Go syntax trees, and the proof that their texts are the same |
| `Verif/Spec/GoRules.lean`, `Verif/Spec/GoBuild.lean` | specification: rules of the Go language for these trees; conditions on the schema |
| `Verif/Go/{Check,Shape,CheckFile,Bridge,Uses,UsesFile,Needed,EnoughExpr,Enough,EnoughFile}.lean` | proofs for C73 |
| `Verif/Spec/GoRun.lean` | specification: an interpreter for the Go syntax trees, from the Go language specification; the runtime library is a parameter |
| `Verif/Spec/{GoRuntime,GoItem}.lean` | specification: what the emitted code expects of the runtime library; the Go values of a type; what it means to transfer a value |
| `Verif/Go/{RunCodec,RunFields,RunDecode,RunMethod,RunAny,RunOption,RunItem}.lean` | proofs for C74 |
| `Verif/Go/RunWitness.lean` | a runtime library that meets the expectations (not the one of the project, which is not in the repository) |
| `Verif/Cli/Files.lean` | `crates/mabo-cli/src/main.rs` (`check`, `format`, `project_or_files`), `crates/mabo-project/src/lib.rs`, reading of files in `crates/mabo-build/src/lib.rs` |
| `Verif/Rust/Syntax.lean`, `Verif/Rust/Emit.lean` | `crates/mabo-build/src/{definition,encode,decode,size}.rs` as the Rust syntax they emit |
| `Verif/Rust/Types.lean`, `Verif/Rust/Elab.lean`, `Verif/Rust/Run.lean` | type checking and execution of that part of Rust (see section 1), the trait implementations of `crates/mabo/src/buf/{encode,decode,size}.rs` |
| `Verif/Lsp/Hover.lean` | `crates/mabo-lsp/src/handlers/hover.rs`, `WireSize::print` |

`Verif/Spec/*` holds small independent specifications used in statements, `Verif/Props/*` holds the
property theorems (with witnesses that their hypotheses are satisfiable), everything else is model or
helper lemmas.

Results of decoders are `ok value rest | err e | panic | hang`: Rust panics (`unwrap`, `todo!`) and
infinite loops are explicit outcomes, not hidden by totalisation.

Tools: `tools/check_cites.py` checks that cited lines exist and mention the cited names; `tools/conformance/run.py`
compares `#eval` of the model with the expectations of the tests and snapshots in /repo (as data; it is not part of any proof);
`seeded/mutate.py` applies wrong programs to a scratch copy (results in `seeded/LOG.jsonl`).

## 3. What is not modelled

The rendering of reports by `miette` (C78 is about what it is given), `prettyplease` (emitted Rust is modelled as a syntax tree), rustc's checks
outside of function bodies other than those of C82 and C83 (orphan rules, lints, visibility; macro expansion), the third-party crates for
globs, directory walks and TOML, the LSP transport, the conversion of Markdown (comrak, and askama's `trim` and `indent` behind it; a parameter), mabo-derive's own parsing of attributes (what the derives emit for the error types is modelled, C78), the rest of mabo-benches, playground, memory
exhaustion and performance.

## 4. Plan per property

* **C01** Unsigned varint round trip: `encodeU w v` / `decodeU w bs` over `BitVec w` and byte lists, structural loops as in the source; prove by induction on the loop index relating both to base-128 digits.
* **C02** Signed varint round trip and zigzag meaning: zigzag on `BitVec w` exactly as written (shifts, xor, negation); prove meaning through `toInt`, then reuse C01.
* **C03** Varint size prediction is exact and bounded: `sizeU` with `leading_zeros` as `w - bit length`; prove equal to `encodeU.length` via the digit count.
* **C04** Varint decoder is total and exactly specified: independent spec `leb128 : List Byte -> Option (Nat x Nat)`; prove `decodeU` refines it for all inputs.
* **C05** Varint encoding is injective, prefix-free and minimal: from C01 and C04: prefix-freeness by decoding, minimality by bounding values of shorter strings.
* **C06** Field identifier packing: BitVec 32 packing; arithmetic by `omega` on `toNat`; negation with id 2^29.
* **C07** String and bytes round trip and failure modes: byte level decoders; UTF-8 through Lean strings.
* **C08** Fixed-width scalars are bit exact: big-endian byte split/join.
* **C09** Option values: generic over element codec as function parameters.
* **C10** Collection codecs round trip over any faithful element codec: generic over element codec with contract hypotheses; induction over the element list, loop with fuel and explicit `hang`.
* **C11** Non-zero guarantee: inversion on decoder results, for arbitrary element decoders.
* **C12** Skipping an unknown field consumes exactly its encoding: case analysis over the type with the marker table; negations by concrete witness; `_partial`.
* **C13** Generated struct and enum code round trips: mutual induction over values (encode) with decoder fuel monotonicity; side conditions as a `Good` predicate.
* **C14** size() equals the encoded length: induction; negations with witnesses; `_partial` for the fragment.
* **C15** Forward compatibility: unknown fields are skipped: general lemma on the field loop over a list of encoded chunks; `_partial` because of C12.
* **C16** Backward compatibility: missing fields: same lemma plus first-missing specification.
* **C17** Field order does not matter: same lemma, permutations.
* **C18** Repeated fields: the last occurrence wins: same lemma, last occurrence.
* **C19** Enum variant selection: direct from the enum decoder.
* **C20** Decoding untrusted bytes never panics or hangs: induction on type and fuel; negations for arrays and zero width elements; `_partial`.
* **C21** Decoding is local: it consumes a prefix and ignores the rest: induction on type and fuel for prefix extension.
* **C22** Length-prefixed collections confine their elements: generic over element decoder.
* **C23** Chunked buffers: model of a buffer as list of chunks; negation by witness, `_partial` for varints inside one chunk.
* **C24** Identifier assignment: IdGenerator as state machine; specification by recursion on previous id.
* **C25** Validation of ids is exact: find_map over visited map; prove equivalence with pairwise distinctness; first clash.
* **C26** Validation of names is exact: same technique.
* **C27** Validation of generics is exact: visited set removal; equivalence with occurrence predicate.
* **C28** Tuple arity validation is exact: tree recursion; equivalence with inductive occurrence predicate.
* **C29** A validated schema is safe for the Rust code generator: `supported` predicate of the generator arms; negation by witness; `_partial`.
* **C30** Accepted ids are representable on the wire: negations by witness and `_partial` under range hypothesis.
* **C31** Simplification preserves meaning: structural maps; distinct names from decimal injectivity.
* **C32** Type resolution is sound: module tree model; soundness against a declarative resolution relation.
* **C33** Type resolution is complete: completeness for unqualified imports, refutation of qualified ones.
* **C34** Next free id: max of list.
* **C35** Wire size metadata bounds the real size: bounds by induction for the holding fragment; negations by witness.
* **C36** Printing then parsing a type gives the type back: parser as functions on character lists with ok/backtrack/cut; induction on types.
* **C37** Literals survive formatting: literal parser and printer.
* **C38** Punctuated lists: generic list parser.
* **C39** Semantic tokens: parser with spans (`Parser/Spans.lean`); "cover" relation between the text and the visitor's calls, proved along the parser; delta encoder against the protocol's decoder.
* **C40** Decimal identifiers: decimal numerals.
* **C41** Formatting keeps the schema: print/parse round trip for whole schemas; exact exceptions.
* **C42** Formatting is idempotent: from C41 and canonical printing.
* **C43** Comments and attributes: parser of annotated definitions; refutations.
* **C44** Accepted schemas are well-formed: inversion of every parser.
* **C45** Printing is injective: from the round trip.
* **C46** Document synchronisation: state machine over notification histories; invariant; refutations.
* **C47** From text to the generated crate: composition of parser, validator, resolver, simplification, code generation and Rust's path resolution; declarative meaning of a project in `Spec/Build.lean`.
* **C48** What a build writes: loops of `compile`, characterised.
* **C49** Document symbols: the parts of a file and their places in the text (`Spec/Outline.lean`), proved along the parser with spans; the tree and its ranges against them.
* **C50** Hover: the same places; the text against comment, next id (C34) and the overview of the size (bounds of C35).
* **C51** Diagnostics: the validator on trees with spans, equal to the one of C25-C28 up to locations (`validateSchema_same`); each error against a specification that counts tokens (`Spec/Diagnostics.lean`); sessions by induction over histories. Where and why the parser fails is a parameter here; C59 gives it.
* **C52** Documentation text: the renderer is shown to print the tree of a schema with all numbers written, to which the print/parse round trip of C41 applies.
* **C53** Documentation pages: the written paths against a declarative list of modules (`Spec/Doc.lean`), links resolved component by component; induction over modules and over the files of a project.
* **C54** Constants in the documentation: as C52; refutations as in C37.
* **C55** Requests and responses: the message loop as a function from events (messages and pauses) to sent messages; induction over the events.
* **C56** Sessions: an invariant of the loop (the server's documents are the client's, C46; no handler can panic), for clients that answer the server's requests before they go on; refuted for others. Reading of JSON is a parameter.
* **C57** Position encodings: the line index is modelled as a list of line starts and wide characters; the contracts of C39, C46, C49-C51 and C56 are derived for every encoding by induction over the text.
* **C58** Positions to the right of the end of their line: the protocol's clamping is the specification; the code counts on into the next line: exact behaviour proved for every text, with the panic at the end of the text.
* **C59** Syntax errors: the parser is modelled a second time with error values (`Parser/Errors.lean`), proved to agree with the first (`parseSchema_same`); by induction over the depth of types, attributes and modules every final error is explained by an independent specification (`Spec/Errors.lean`) that only refers to what can be read where.
* **C60** What the messages are about: inversion of C59; refuted for attributes, modules, type parameters, imports.
* **C61** Ranges of declarations: exact ranges for all kinds; refuted by a declaration that does not start the file.
* **C62**, **C63** Codecs of the benchmarks: bit vectors of each width, buffers as lists; arithmetic of little endian bytes, masks and leading zeros; refuted where bounds or shifts are wrong.
* **C64** Go generator finishes: the text model returns `none` at each `todo!`/`panic!`; by induction over types, exactly the schemas of `Spec.Go.Supported` are translated.
* **C65** Files of the Go tool: the list of writes in order, what is on disk is the last write per path; induction over modules and schema files.
* **C66** Emitted Rust: a syntax of the Rust that is emitted, a combined type checker and interpreter for it (`Rust/Elab.lean`), the generator as a function to this syntax; by induction over types, the functions check and do the same as `Codegen`; by induction over the nesting of calls, so does the whole crate. With C13 and C47 this goes from schema text to executed Rust.
* **C67** Emitted Rust compiles: the same induction shows that the checker accepts what satisfies a check of names and types (`itemGood`, `valuesGood`), and a second one, over the types that the generator accepts (`Rust/Need*.lean`), that it accepts nothing else; so C66 holds of every crate that compiles. The claim itself is refuted by executing checker and compiler on witnesses in the kernel.
* **C68** Formatting files: the file system as paths, inodes and bytes (UTF-8 decoding of Lean's library), the outcome of each write an input; induction over the selected paths, with C41/C42 for the texts.
* **C69** Checking files: the same loop without writes; the documentation of the command is the refuted specification.
* **C70** Selection of files: walk, globs and project file are parameters; membership and order of the result by induction over the entries; names split at the last dot.
* **C71** Interruption: a relation for the states in which a run can be killed (also within a write), induction over it.
* **C72** Errors of the resolver: `Spec/ResolveErrors.lean` says what each error claims; inversion of each function of the resolver.
  The labels of the errors (ranges) are in C77.
* **C73** Emitted Go is valid Go: the generator as a function into Go syntax trees (`Go/Tree.lean`) whose text is proved to be what is
  written; the rules of the Go specification on trees (`Spec/GoRules.lean`, as a list of violations); the tree of a file has no
  violation iff the definitions satisfy `Spec.GoBuild.Good`. Both directions by induction on types and lists of fields. Not in the
  rules: types of expressions (beyond selectors and numbers of values), what the packages `buf`, `mabo`, `fmt` declare, unused
  variables; literals are not parsed again.
* **C74** What emitted Go does: the trees of C73 are run by a definitional interpreter (`Spec/GoRun.lean`) whose package `buf` is a
  parameter. For every library that does what its names say (`Faithful`, `FieldOptions`): induction over types gives the bytes of a
  value, induction over fields the message, and an invariant of the loop (`DecVars`) how it is read. For every library at all: the
  possible results of `Decode` and of a variant's `Encode`, by induction over statements. The hypotheses on the library are met by
  `Go/RunWitness.lean`. Simplified: slices are values, integers are unbounded.
* **C75** Sizes of the runtime library: `size_*` against `encode_*` of `Buf.lean` for arbitrary element codecs. Fields and options by
  arithmetic of packed identifiers (all 32-bit numbers); collections: `SizeSpec` says when the size is right (`SameWidth` of the two
  numbers), that it is never too large without empty elements, and at most 9 off. The full claim is refuted for all vectors of 64 to 127
  elements of two bytes.
* **C76** HTML pages: a reader for HTML (tags, attributes, character references, text) as a state machine; texts of templates are run by
  the kernel, escaped text and converted Markdown have lemmas for any content; the events of a page are those of the specified
  tree, from which the tree is rebuilt (tags match).
* **C77** Labels of the resolver's errors: the resolver with ranges (`Compiler/ResolveLabels.lean`), proved to be that of C32/C72 with
  the ranges taken away; places by counting tokens (`Spec/ResolveLabels.lean`), from the theorem of C51 that relates the spans of the
  parser with tokens; inversion of each function. Refuted for two kinds of errors.
* **C78** Reports of syntax errors: what `miette` is given for each error value (`Parser/Report.lean`); by induction over the parsers all
  places in an error are suffixes of the input (`Parser/ReportStays.lean`), so all labels are in the text; the innermost report is at
  the place of C59; labels are missing exactly if no keyword follows the readable definitions (`Parser/ReportWhere.lean`).
* **C79** `mabo doc` on disk: a run is turned into a list of single operations (make a directory, write a file) that is known at
  its start, because no page is a schema file (`Cli/DocPlan.lean`, with the places of pages from C53 and C76); what such a list does
  when it is stopped anywhere, and that it can be repeated, by induction (`Cli/DocExec.lean`).
* **C80** Logging: threads as a transition system whose steps are the writes of single pieces of a message (`Lsp/Logging.lean`); the
  invariant says that the holder of the lock is in the middle of the last message, and everything before it is whole
  (`Lsp/LoggingLemmas.lean`). Refuted by schedules for standard error and for two processes.
* **C81** What is told about a rejected project: the loop of the build script with the values of its errors (`Build/Failure.lean`); by
  induction over the files the error is that of the first bad one; the comparison with the editor goes through C51, C77 and C78.
* **C82** Emitted type definitions are accepted by Rust: size as well-foundedness of "contains a value of" on instances of types,
  used parameters as a least fixed point (variance), derived traits as a recursive condition, generated instances as a closure; all
  on the written types as Rust reads them (`defsOf`). By induction on the accessibility of the graph of the definitions inside an
  induction on types; the refutations evaluate accepted schemas in the kernel and refute the relations by induction.
* **C83** Names in emitted modules: the names that emitted items declare are a sublist of those that the definitions introduce, which
  the validator has found to be unique; the import of the three traits is the only item without a definition. Imports of files are
  what the resolver has checked (C37, as an explicit specification of what a path leads to). `C83_crate_partial` puts C67, C82 and
  C83 together for the whole crate.
* **C84** Files of the workspace: `discover` by induction over the entries of the walk; the documents after `initialize` as a fold of
  insertions; a simulation between the server with and without them, over all histories and all messages (`serveWith`). The refutation for clients holds for every
  workspace: no key has a scheme.

## 5. Where the code and the English property disagree

Each of these is proved as a negation (names in `MANIFEST.json`); the property is then marked partial and proved under the
condition that excludes it.

1. `size()` of collections counts elements where the encoder writes a byte count; a tuple field's length prefix is not
   counted (C14), and because the encoder uses `size()` as length prefix, nested collections do not round trip (C13).
2. Fields whose type is a named type, a nested option or a type parameter are always tagged length-prefixed, although their
   encoding is not (C12): unknown fields of these types are skipped wrongly (C15).
3. `decode_array` panics on wrong counts; a vector of zero-byte elements makes the decoder loop forever or loses elements (C13, C20).
4. Field ids 0 (the end marker) and from 2^29 are accepted (C30, C06).
5. A varint split over two chunks is rejected (C23). Non-canonical varints are accepted (C05).
6. Paths through imported modules are rejected although documented; imports inside modules are ignored and unchecked (C33).
7. Validation does not look inside `non_zero<..>` and at types of constants (C29).
8. The next free id overflows at `u32::MAX` (C24, C34); displayed wire sizes are no bounds (C35).
9. The length of a root tuple is ignored by the decoder.
10. Module names beginning like a built-in type cannot be used in paths (C36).
11. `mabo fmt` breaks strings with NUL and turns `1.0` into `1` (C37, C41), is not idempotent for `-0.0` (C42), deletes
    comments on imports and attributes on all but structs and enums (C43).
12. Several changes in one notification are resolved against the old text (C46).
13. A name imported at the top of a file and used in one of its modules is accepted, but the generated Rust does not see it;
    references inside `non_zero<..>`, in aliases, and type parameters with arguments are not checked; files with equal names
    overwrite each other; errors in code generation leave earlier files behind (C47, C48).
14. Closing or deleting a document does not withdraw its diagnostics (C51_kept).
15. `mabo doc`: the style sheet all pages refer to is never written; schemas are not validated, so definitions of equal names
    lose pages; files of equal names overwrite each other (C53); constants as in 11 (C54).
16. The language server takes the next message as the answer to its own requests, whatever it is: messages that arrive in between,
    such as the first `didOpen`, are lost (C56).
17. Positions to the right of the end of a line are not clamped: they denote places in the lines below, or end the server behind
    the end of the text (C58). Unknown position encodings are announced, but UTF-16 is used (C57).
18. The message for a broken attribute speaks of a struct, that for a broken module of an id, that for a broken type parameter is
    `TODO!`; errors in all but the first of several fields or variants are only reported as broken fields (C60). The range of a
    declaration that cannot be parsed ends too early by the number of bytes before it; for enums and aliases it is empty (C61).
19. Benchmarks: `vu128::decode_u8` compares with `0x0f` where the encoder compares with `0xf0`, so 15 to 239 are read from the wrong
    byte (C62); the mask of the other decoders is shifted by a number of bytes instead of bits, so bytes behind a number change it
    (C63).
20. The Go generator panics at arrays of 0 or more than 32 elements and at `non_zero<f32>` (C64). All schema files of a project are
    written to the same Go file, so only the last one is left (C65).
21. Accepted schemas whose generated Rust does not compile (C67): tuples, options and non-zero integers inside of tuples; floats,
    own types and type parameters as keys; tuples, non-zero types and `Bytes` as type arguments; fields called `w`, `r`, `id`;
    definitions, modules or parameters called like types and constructors of Rust's prelude; `box<bytes>` together with `Bytes`;
    types that contain themselves through `option`.
22. `mabo check` never fails for bad schemas and looks at syntax only (C69). Directories called `*.mabo` are taken for schema files
    (C70). `mabo fmt` truncates files before it writes them (C71).
23. Errors of the resolver for `x::y::T` through an imported module `x` are about `x::T`; for `x::T` itself the error says that the
    schema has no module `x` (C72).
24. Accepted schemas whose generated Go does not compile (C73): all without a `non_zero` or tuple type (the import of the runtime
    package is unused); fields of the type of a struct or enum (`Decode` has two results, `return` needs three); type parameters
    (undeclared in methods); tuples; integers of 128 bits (`big` is not imported); keys that are bytes, vectors, maps or sets; names
    that become keywords or those of methods; constants out of range.
25. What the emitted Go code does (C74): optional fields that are nil are not sent but required when reading (`MissingFieldError`);
    optional fields that are set are sent without the marker that the reader expects; `Encode` of a variant returns nil; the `break`
    at the end marker leaves the `switch` and not the loop, so that `Decode` reads all the bytes there are; the values of unknown
    fields are read as ids; the ids have no wire types, unlike in Rust.
26. The label "declared here" of an error about the import of an alias or constant is a range of the other file, but shown in the
    importing one, where it may be outside of the text (C77, `C77_fails_for_imported_kinds`).
27. For a missing module in the path of a type, "used here" is on the type's name and not on the module (C77,
    `C77_fails_for_missing_modules`).
28. The logger of the server locks the log file but not standard error, and its lock does not hold for other servers, which write
    to the same file: messages can be inside others; line breaks in messages are not escaped (C80, `C80_fails_for_stderr`,
    `C80_fails_for_processes`, `C80_forged`).
29. Reports of invalid schemas have labels but no source code, so the place is not shown; errors of the resolver are reported for the
    file ""; the Go tool names no file (C81, `C81_fails_for_places`, `C81_fails_for_unresolved`, `C81_fails_for_go`).
30. Nothing checks that types have a finite size, that type parameters are used other than in recursion, that aliases use theirs, or
    that recursion does not need ever larger instances: the emitted Rust is rejected with E0072, E0392, E0091 or never finishes to
    compile (C82, `C82_fails_for_direct_recursion`, `C82_fails_for_unused`, `C82_fails_for_aliases`,
    `C82_fails_for_growing_arguments`).
31. Types, aliases, modules and imports called `Decode`, `Encode` or `Size` clash with the traits imported in each emitted module
    (E0255); imports in inner modules are not resolved and are emitted relative to the module around (E0432) (C83,
    `C83_fails_for_trait_names`, `C83_fails_for_inner_imports`).
32. `initialize` stores the files of the workspace under their bare path, which is never the `file://` URI of a client; takes the
    escaped path of a folder's URI for its directory; and finds no projects in a folder at all if one of them is broken (C84,
    `C84_fails_for_clients`, `C84_fails_for_escapes`, `C84_fails_for_broken_neighbours`, `C84_fails_for_links`).
