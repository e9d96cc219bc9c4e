import json
P=[]
def p(id,title,statement,quantifier,why,anchors):
    P.append(dict(id=id,title=title,statement=statement,quantifier=quantifier,why_tests_cant=why,anchors=anchors))
V="crates/mabo/src/varint.rs"; D="crates/mabo/src/buf/decode.rs"; E="crates/mabo/src/buf/encode.rs"; S="crates/mabo/src/buf/size.rs"; L="crates/mabo/src/lib.rs"
BE="crates/mabo-build/src/encode.rs"; BD="crates/mabo-build/src/decode.rs"; BS="crates/mabo-build/src/size.rs"
C="crates/mabo-compiler/src"
p("C01","Unsigned varint round trip","For u16/u32/u64/u128, decoding the bytes produced by the varint encoder of a value, followed by any other bytes, yields exactly that value and reports exactly the number of encoded bytes as consumed.","every width 16/32/64/128 (indeed every positive bit width), every value of that width, every trailing byte sequence","The existing test tries MIN, 1 and MAX only; 2^128 values and arbitrary trailing data cannot be enumerated.",[V+":varint!/encode_*",V+":decode_*"])
p("C02","Signed varint round trip and zigzag meaning","For i16/i32/i64/i128, decode(encode(v)) returns v for every v with any trailing data, and the zigzag mapping sends v>=0 to 2v and v<0 to -2v-1 (so small magnitudes stay small) without overflow.","every width, every signed value including MIN, every trailing byte sequence","Tests try five literals per width; the claim is about all 2^N bit patterns.",[V+":zigzag!",V+":encode_i*/decode_i*"])
p("C03","Varint size prediction is exact and bounded","size_uN(v)/size_iN(v) equals the number of bytes the encoder emits, which is at least 1 and at most the documented maximum (3, 5, 10, 19).","every width and value","Off-by-one errors sit at the 2^(7k) boundaries of every width; tests look at MIN, 1, MAX.",[V+":size",V+":max_size",V+":size_*"])
p("C04","Varint decoder is total and exactly specified","On any byte slice the varint decoder returns Ok iff one of the first max_size bytes has its top bit clear; it then consumes exactly up to and including the first such byte and returns the base-128 little-endian value of the low 7-bit groups reduced modulo 2^N; otherwise it returns the error. It never reads beyond max_size bytes.","every byte slice, of any length, valid or malicious, for every width","Malformed input space is unbounded; tests only decode encoder output.",[V+":decode_*"])
p("C05","Varint encoding is injective, prefix-free and minimal","Two different values never have encodings where one is a prefix of the other, and no shorter byte sequence decodes to the same value.","all pairs of values of each width; all byte sequences","Quantifies over pairs of values and over all competing byte sequences.",[V+":encode_*",V+":decode_*"])
p("C06","Field identifier packing","Packing a field number below 2^29 with its encoding into a u32 and unpacking gives both back; unpacking fails exactly for encoding markers 5..7; packing after unpacking is the identity. Field numbers of 2^29 and above do not survive.","every u32, every field number, every encoding","2^32 raw ids x 5 encodings; the 2^29 limit is invisible to small tests.",[L+":FieldId::from_u32",L+":FieldId::into_u32",L+":FieldEncoding::from_u32",E+":encode_id",D+":decode_id"])
p("C07","String and bytes round trip and failure modes","Every string / byte array (shorter than 2^64 bytes) decodes back from its encoding with arbitrary trailing data left untouched; a payload that is not UTF-8 gives NonUtf8 for strings; a declared length larger than the remaining data gives InsufficientData and never over-reads.","all strings, all byte arrays, all trailing data, all malformed inputs","Unbounded inputs; multi-byte length prefixes start at 128 bytes and beyond.",[E+":encode_string",E+":encode_bytes_std",D+":decode_string",D+":decode_bytes_std"])
p("C08","Fixed-width scalars are bit exact","bool, u8, i8, f32 and f64 occupy exactly 1, 1, 1, 4, 8 bytes and decode back to the identical bit pattern (NaN payloads, -0.0, i8::MIN included); with fewer bytes available the decoder reports InsufficientData.","every bit pattern, every trailing data, every short input","2^64 bit patterns, NaN payloads are not comparable by assert_eq.",[E+":encode_bool/u8/i8/f32/f64",D+":decode_bool/u8/i8/f32/f64"])
p("C09","Option values","option<T> encodes None as one zero byte and Some as 1 followed by the value, and decodes back provided T does; any tag byte other than 1 decodes to None.","every payload codec, every value, every tag byte","Quantifies over all element codecs.",[E+":encode_option",D+":decode_option",S+":size_option"])
p("C10","Collection codecs round trip over any faithful element codec","Given an element encoder/decoder pair that round trips and an element size function that is exact, with elements taking at least one byte, vec, hash_map, hash_set and array encodings decode back to the same collection with trailing data untouched, for every iteration order of the hash containers.","every element codec satisfying the contract, every collection, every iteration order, any trailing data","Iteration order of hash containers is randomised; element types are arbitrary.",[E+":encode_vec/encode_hash_map/encode_hash_set/encode_array",D+":decode_vec/decode_hash_map/decode_hash_set/decode_array"])
p("C11","Non-zero guarantee","A non_zero integer/string/bytes/vec/hash_map/hash_set decoder never returns a zero/empty value and never panics for lack of elements; a well formed encoding of zero/empty gives Error::Zero.","every input byte sequence and every element decoder","Adversarial inputs are unbounded; the NonZero::new(..).unwrap() must be unreachable for all of them.",[D+":decode_non_zero_*",L+":NonZero"])
p("C12","Skipping an unknown field consumes exactly its encoding","For every field type whose wire form is announced faithfully, skipping the field using only its encoding marker consumes exactly the bytes the encoder wrote for it. (The full claim, for every field type the generator accepts, is false: externals, generic parameters and nested options are tagged length-prefixed but carry no length.)","every field type, every value, any trailing data","Requires agreement of the marker table and the encoders for all types and values.",[D+":decode_skip",BE+":compile_data_type"])
p("C13","Generated struct and enum code round trips","Encoding any well-typed value of a schema-defined struct or enum with the generated code and decoding it with the generated decoder returns the same value and leaves trailing data untouched, for every schema (including recursive and generic ones) and value meeting the stated side conditions (ids unique, non-zero, below 2^29; element sizes exact; elements non-empty).","every schema, every definition, every well typed value of unbounded size and depth, any trailing data","Schemas and values are both unbounded; tests contain a fixed list of schemas.",[BE,BD,D,E])
p("C14","size() equals the encoded length","For every value the generated size() equals the number of bytes encode() writes. (False in general: tuple fields and collections of 128 bytes or more; proved for the fragment where it holds and refuted outside.)","every schema and value","Mismatch depends on crossing 2^7k boundaries in nested collections.",[S,BS])
p("C15","Forward compatibility: unknown fields are skipped","Data encoded by a schema that has additional fields decodes under the older schema to the same values of the common fields.","every pair of schema versions, every value, any position of the unknown fields","All pairs of schemas and values.",[BD+":compile_struct",D+":decode_skip"])
p("C16","Backward compatibility: missing fields","Decoding data lacking a field gives None for option fields and Error::MissingField carrying the id (and name for named fields) of the first missing required field in declaration order.","every schema, every subset of fields present","Exponentially many field subsets.",[BD+":compile_field_assigns"])
p("C17","Field order does not matter","Decoding a struct payload gives the same result for every permutation of its encoded fields.","every schema, value and permutation of the fields","n! permutations; encoders only produce one.",[BD+":compile_struct"])
p("C18","Repeated fields: the last occurrence wins","If a payload contains a field several times the value decoded is the last one.","every schema and payload with repeated fields","Encoders never emit duplicates.",[BD+":compile_field_matches"])
p("C19","Enum variant selection","Decoding an enum yields the variant with the encoded id, and an id not in the schema gives UnknownVariant with that id, whatever follows.","every enum, id and payload","All ids and payloads.",[BD+":compile_enum"])
p("C20","Decoding untrusted bytes never panics or hangs","For every input the generated decoder returns Ok or Err. (False for arrays and for collections of zero-width elements; proved for schemas without them and refuted otherwise.)","every schema in the fragment, every byte sequence","Adversarial input space is unbounded.",[D,BD])
p("C21","Decoding is local: it consumes a prefix and ignores the rest","If decoding succeeds, the remaining input is a suffix of the original one, and appending bytes to the input changes nothing but the remainder. Hence no strict prefix of a message decodes to completion and messages can be concatenated.","every schema, every input, every appended suffix","Quantifies over all inputs and suffixes.",[D,BD])
p("C22","Length-prefixed collections confine their elements","Decoding a collection with declared byte length n touches exactly n bytes after the prefix, whatever the element decoder does; an element running over the end fails instead of reading outer data.","every element decoder and every input","All element decoders and malformed lengths.",[D+":decode_vec/decode_hash_map/decode_hash_set/decode_array"])
p("C23","Chunked buffers","Decoding gives the same result whether the bytes are contiguous or split into several chunks. (False: varints straddling a chunk boundary fail; proved when the varint lies inside one chunk.)","every way of splitting the input into chunks","All split points.",[D+":decode_int!"])
p("C24","Identifier assignment","Explicit ids are kept; an omitted id is the previous id plus one, starting at 1; the ids checked by validation are exactly the ids the code generators see.","every field/variant list with any mix of explicit and omitted ids","Unbounded lists of optional ids.",[C+"/lib.rs:IdGenerator",C+"/simplify.rs:simplify_fields/simplify_variant",C+"/validate/ids.rs"])
p("C25","Validation of ids is exact","validate_schema rejects a schema for duplicate ids iff some struct, variant or enum contains two equal (assigned) ids in the same scope; the error names a real clash: the first element whose id was already taken.","every schema with any nesting of modules","All schemas.",[C+"/validate/ids.rs"])
p("C26","Validation of names is exact","validate_schema accepts names iff field names per field list, variant names per enum and definition names per module (imports counted by the name they introduce) are pairwise distinct.","every schema","All schemas.",[C+"/validate/names.rs"])
p("C27","Validation of generics is exact","Generic parameters of a struct or enum are accepted iff they are pairwise distinct and each one occurs as a plain type reference in some field type (occurrences inside non_zero<..> are not seen).","every definition and type tree","All type trees.",[C+"/validate/generics.rs"])
p("C28","Tuple arity validation is exact","A type is accepted iff every tuple occurring in it (outside non_zero<..>) has 2 to 12 elements; aliases, consts, structs and enums are all covered.","every type tree of any depth","All type trees.",[C+"/validate/tuples.rs"])
p("C29","A validated schema is safe for the Rust code generator","For schemas accepted by validation the generator never hits its unreachable/todo arms. (False because non_zero<..> is not inspected; proved for types where non_zero wraps a supported type.)","every accepted schema","All schemas.",[C+"/validate/mod.rs",BE+":compile_data_type",BD,BS])
p("C30","Accepted ids are representable on the wire","Every field id accepted by validation is non-zero and below 2^29 so that it can be told apart from the end marker and survives packing. (False: both are accepted; refuted with the schema, and proved when all explicit ids are in range.)","every accepted schema","All schemas.",[C+"/validate/ids.rs",L+":FieldId",D+":END_MARKER"])
p("C31","Simplification preserves meaning","simplify_schema keeps the number, order, names, types and generics of all definitions, fields and variants, gives unnamed fields pairwise distinct names, and is total.","every schema","All schemas.",[C+"/simplify.rs"])
p("C32","Type resolution is sound","If resolve_schemas succeeds then every type reference in a struct or enum field (outside non_zero) is a generic parameter of its definition, or denotes an existing struct/enum with the same number of type arguments in the module named by its path, or is an imported struct/enum with the same number of type arguments.","every list of schemas","All schema graphs.",[C+"/resolve/mod.rs"])
p("C33","Type resolution is complete","If every reference is locally resolvable or imported by name, and all imports are valid, resolve_schemas succeeds. (References through an imported module path are rejected although documented; refuted.)","every list of schemas","All schema graphs.",[C+"/resolve/mod.rs"])
p("C34","Next free id","next_field_id/next_variant_id returns an id not used by any field/variant and larger than all of them (when none uses u32::MAX).","every list of ids","All lists.",["crates/mabo-meta/src/lib.rs:next_field_id"])
p("C35","Wire size metadata bounds the real size","The min/max byte size displayed for a type bounds the number of bytes of every encoded value. (False for root tuples, byte-length prefixes of arrays; proved for the rest.)","every type and value","All values.",["crates/mabo-meta/src/lib.rs:wire_size"])
p("C36","Printing then parsing a type gives the type back","Every type, printed in schema syntax, parses back to the same type, leaving the following text untouched.","every type tree with valid names, of any depth","All type trees.",["crates/mabo-parser/src/lib.rs:Print","crates/mabo-parser/src/parser/types.rs"])
p("C37","Literals survive formatting","Integer, boolean and byte literals printed by the formatter parse back to the same value; string literals do so except for the characters whose Rust Debug escape the parser does not understand.","every i128, every byte list, every string","All strings.",["crates/mabo-parser/src/parser/literals.rs","crates/mabo-parser/src/lib.rs:LiteralValue"])
p("C38","Punctuated lists","Parsing a printed separated list yields the same elements and trailing separator; len() equals the number of values iterated and is never zero.","every list length, with and without trailing separator","All lists.",["crates/mabo-parser/src/punctuated.rs","crates/mabo-parser/src/parser.rs:punctuate"])
p("C39","Semantic tokens highlight exactly the schema","For every valid schema file the language server answers a semantic-tokens request with a stream that, decoded as the protocol prescribes, holds exactly the keywords, names, types, ids, number and boolean literals, comments and punctuation of the schema, in source order, without overlap, each one pointing at its own text with its type and modifiers in the negotiated position encoding; files that are unknown or invalid get an empty answer, and the request never stops the server. In a session these are the tokens of the text the client shows.","every text, every position encoding, every session history","All documents; the stream is delta-encoded, so one wrong token shifts all later ones.",["crates/mabo-lsp/src/handlers/semantic_tokens.rs: Visitor","crates/mabo-lsp/src/handlers/mod.rs: semantic_tokens_full","crates/mabo-lsp/src/handlers/index.rs: Index::get_range"])
p("C40","Decimal identifiers","The id parser accepts exactly the decimal numerals without leading zeros that fit u32 and prints them back unchanged.","every numeral, every following text","All numerals.",["crates/mabo-parser/src/parser.rs:ids"])
PS="crates/mabo-parser/src"
p("C41","Formatting a schema file keeps its schema","Whatever the text of a schema file, if the parser accepts it then the file the formatter writes is accepted too and denotes the same schema: same definitions in the same order with the same names, ids, types, type parameters, values, comments and attributes; a file that is rejected is left untouched. (False for constants and attributes whose literal holds a NUL or is a float with an integral value; proved for all other files, and the exceptions are characterised exactly.)","every schema text","All texts; the formatter's tests are a fixed list of snapshots.",[PS+"/lib.rs:Schema/Print","crates/mabo-cli/src/main.rs:fmt",PS+"/parser.rs:parse_schema"])
p("C42","Formatting is idempotent","Running the formatter on its own output changes nothing, for every text; two files that denote the same schema are formatted to the same text. (False for the float -0.0, which is printed -0 and then 0; proved for all other files.)","every schema text","All texts.",[PS+"/lib.rs:Schema/Print","crates/mabo-cli/src/main.rs:fmt"])
p("C43","The formatter deletes no comment or attribute","Documentation comments and attributes in front of a definition are still there after formatting. (Proved for structs and enums; false for the others: attributes of modules, aliases and constants and comments and attributes of imports are deleted.)","every comment, attribute list and definition","All definitions.",[PS+"/parser.rs:parse_definition",PS+"/lib.rs:Import"])
p("C44","Accepted schemas are well-formed","Every schema the parser accepts has names that match the documented patterns, no empty field, variant, tuple or type argument list, comments without line breaks and literals in range; conversely every such schema with printable literals is written by some text.","every text, every schema","All texts.",[PS+"/parser.rs",PS+"/parser"])
p("C45","The printed text determines the schema","Two different well-formed schemas with printable literals are never printed as the same text.","every pair of schemas","All pairs of schemas.",[PS+"/lib.rs:Print"])
p("C46","Language server documents stay in sync","After any history of open, change, close and delete notifications the server is still running and its text of every open document equals the client's, in every position encoding. (False when one notification holds several changes that are not ordered from the back of the document to its front, and when it holds two whole-text changes: refuted. Proved for all other histories.)","every history of notifications, every document text, every position encoding","All histories of edits.",["crates/mabo-lsp/src/handlers/mod.rs:did_open","crates/mabo-lsp/src/handlers/mod.rs:did_change","crates/mabo-lsp/src/handlers/index.rs","crates/mabo-lsp/src/state.rs"])
p("C47","The generated crate means what the schema files say","When a build of a project succeeds, every struct and enum of every file is a type of the generated crate under the path of its file, modules and name, with the fields, numbers and types the schema says; every reference in it is a type parameter or is resolved by Rust to the type it denotes in the schema, which exists and takes as many arguments; there are no other types; and if all numbers fit the wire format the values of these types are decoded from their encodings. (False for names imported at the top of a file and used in its modules, inside non_zero<..>, for type parameters with arguments and for alias targets: accepted, but the generated crate does not compile or means something else. Proved for all other definitions.)","every list of schema file texts, every definition and reference in them","All projects; tests build a fixed list of schemas.",["crates/mabo-build/src/lib.rs:compile","crates/mabo-build/src/definition.rs:compile_import","crates/mabo-compiler/src/resolve/mod.rs:schemas"])
p("C48","Builds write the whole project or nothing","A build succeeds exactly if all files parse, are valid, resolve and can be generated; if one file is bad or a name does not resolve, nothing is written; after a success there is exactly one file per schema, generated from that schema; the order of the files does not matter. (False for files of equal names in different directories, which overwrite each other, and a code generation error leaves earlier files behind: refuted.)","every list of schema files","All projects.",["crates/mabo-build/src/lib.rs:compile"])
p("C49","The outline shows what the file declares","For every valid schema file the language server answers a document-symbol request with the tree of what the file declares: modules with their definitions, structs with their fields, enums with their variants and their fields, aliases, constants and imports, in source order, each with its name and kind, and each with the range of its own name (path, or field for unnamed fields) in the text, in the negotiated position encoding; unknown or invalid files get an empty answer and the request never stops the server. In a session this is the outline of the text the client shows.","every text, every position encoding, every session history","All documents.",["crates/mabo-lsp/src/handlers/document_symbols.rs: visit_schema","crates/mabo-lsp/src/handlers/mod.rs: document_symbol"])
p("C50","Hovering shows the documentation of the name under the cursor","For every valid schema file and every cursor position the language server answers a hover request with the comment of the module, struct, enum, variant, field, alias or constant whose declared name is under the cursor, followed by the next free id of its fields or variants, or by the overview of the wire size of the field, as configured, and with the range of that name; if no declared name is under the cursor the answer is empty. Unknown or invalid files get an empty answer and the request never stops the server. In a session this is about the text the client shows.","every text, every cursor position, every configuration, every position encoding, every session history","All documents and positions.",["crates/mabo-lsp/src/handlers/hover.rs: visit_schema","crates/mabo-lsp/src/handlers/mod.rs: hover","crates/mabo-meta/src/lib.rs: WireSize::print"])
p("C51","Diagnostics name and point at a real error","For every text of a schema file the language server reports at most one diagnostic, and none exactly if the file is a valid schema. For a file that parses but is not valid the diagnostic is about something that is wrong (a definition, field, variant or type parameter name or an id used twice, an unused type parameter, a tuple of a wrong size): its message names it, its range covers exactly the name, id, type or element in question in the negotiated position encoding, and the related information covers the first use; for a file that does not parse the place is in the text. Compiling a file never stops the server (apart from ids of u32::MAX in debug builds). In a session, what the client shows for each open document is always the diagnostic of its present text.","every schema text, position encoding and history of notifications","All texts and histories.",["crates/mabo-lsp/src/handlers/compile.rs","crates/mabo-lsp/src/handlers/mod.rs:did_open/did_change","crates/mabo-compiler/src/validate"])
p("C52","The documentation shows the definition","For every schema that `mabo doc` accepts, the page of every struct, enum and type alias, at any depth of modules, shows schema text that declares exactly that definition, with the number of each field and variant written out; the list of fields (and of variants) on the page has the names, types, numbers and comments of the definition in order, and the next free id shown is the least number above all ids.","every schema file, every definition at any depth","All schemas.",["crates/mabo-doc/src/templates.rs: StructDetail/EnumDetail/AliasDetail::print_schema, PrintType","crates/mabo-doc/templates"])
p("C53","The documentation is complete and its links work","`mabo doc` writes exactly one page for each schema file and for each definition that is no import, each under its own path if the schema is valid; every page is reachable from the page of its schema, each module page lists exactly its definitions, and every link in headings and tables leads to the written page of the thing it names. A run succeeds exactly if all files parse, and stops at the first that does not. (The style sheet the pages refer to is not written by `mabo doc`; files of equal names overwrite each other: both shown.)","every project, every schema, every definition at any depth","All projects.",["crates/mabo-doc/src/lib.rs: render_schema","crates/mabo-cli/src/main.rs: doc, write_doc_output"])
p("C54","The documentation shows the value of constants","The page of every constant shows schema text that declares exactly that constant: name, type and value. (False for strings with NUL and floats printed without a point.)","every schema file, every constant at any depth","All schemas.",["crates/mabo-doc/src/templates.rs: ConstDetail::print_schema, PrintLiteral"])
p("C55","The language server answers requests once, in order and with a fitting response","Every response belongs to one request of the client, no request gets two, they come in the order of the requests, and each has the kind of its method: MethodNotFound exactly for methods that are not supported, InvalidParams exactly for unreadable parameters, null for shutdown. Responses already sent never depend on what arrives later. The server's own requests have the ids 1, 2, 3, …. It stops by itself only when asked to, and then this answer is the last message.","every sequence of messages and pauses","All interleavings of messages.",["crates/mabo-lsp/src/main.rs: main_loop, handle_request, handle_notify","crates/mabo-lsp/src/client.rs: send_request, next_id"])
p("C56","A session with the language server works from start to end","In every session the server keeps running until the client ends it, answers every request, answers from the text and the settings that the client has at that time, and the diagnostics shown for every open document are those of its present text. (False: a message that arrives while the server waits for an answer to one of its own requests, for example the first didOpen, is taken as the answer and lost.)","every session: any number of messages, documents, changes, settings and pauses","All interleavings of messages.",["crates/mabo-lsp/src/main.rs: main, main_loop","crates/mabo-lsp/src/client.rs: send_request","crates/mabo-lsp/src/state.rs: reload_settings","crates/mabo-lsp/src/handlers/mod.rs: initialized, did_open, did_change"])
p("C57","Positions are in the announced encoding","Whatever position encodings of the protocol a client offers, the server announces the one the client prefers (UTF-16 if it has no preference), and all conversions between byte offsets and positions, in every text, are exact and in that encoding.","every list of encodings, every text, every place in it","All texts with characters of all widths.",["crates/mabo-lsp/src/handlers/index.rs: Index","crates/mabo-lsp/src/handlers/mod.rs: initialize"])
p("C58","Positions behind the end of a line mean its end","A position whose character is greater than the length of its line denotes the end of the line, as the protocol says. (False: it denotes a place in the lines below, or ends the server.)","every text and position","All texts and positions.",["crates/mabo-lsp/src/handlers/index.rs: Index::get_offset","crates/mabo-lsp/src/handlers/mod.rs: did_change, convert_range"])
p("C59","The place and the message of a syntax error are right","The diagnostic for a file that is no schema is at a place of the file: behind all definitions that can be read and in the first one that cannot; and what its message says (no valid name behind the keyword, no type, no literal, a number out of range, a declaration that cannot be read, ...) is the case at that place.","every text that is no schema","All texts, with any nesting of modules and types.",["crates/mabo-parser/src/lib.rs: Schema::parse","crates/mabo-parser/src/parser.rs","crates/mabo-parser/src/parser/*.rs: Cause, ParseError, parse","crates/mabo-lsp/src/compile.rs: parse_schema_diagnostic"])
p("C60","The message of a syntax error names what is broken","The message of the diagnostic for a file that is no schema names the kind of the thing that cannot be parsed. (False for attributes, modules, type parameters and imports.)","every text that is no schema","All texts.",["crates/mabo-parser/src/parser/attributes.rs: ParseError","crates/mabo-parser/src/parser/modules.rs: ParseError","crates/mabo-lsp/src/compile.rs: parse_definition_diagnostic, parse_generics_diagnostic"])
p("C61","The range of a declaration that cannot be parsed is that of the declaration","The error for a declaration that cannot be parsed has the range of the whole declaration, from its keyword to the character that closes it. (False unless the declaration starts the file; enums and aliases have an empty range.)","every text with a declaration that cannot be parsed","All texts and places of declarations.",["crates/mabo-parser/src/location.rs: from_until","crates/mabo-parser/src/parser/structs.rs: ParseError::at","crates/mabo-parser/src/parser/enums.rs: parse","crates/mabo-parser/src/parser/aliases.rs: parse"])
p("C62","The codecs of the benchmarks round trip","For each codec that the benchmarks compare (postcard, bincode, vu128), each width and signedness and every buffer that is large enough, whatever it contains: what is written for a value is read as that value, without a panic. (False for the 8 bit numbers of vu128.)","every value of every width, every buffer","All 2^128 values and all contents of the buffer.",["crates/mabo-benches/src/varint.rs: postcard, bincode, vu128"])
p("C63","A number is in the bytes that its first bytes announce","For each codec of the benchmarks, a number is read from the bytes that its encoding announces, whatever follows them. (False for vu128.)","every value of every width, all bytes behind it","All values and all following bytes.",["crates/mabo-benches/src/varint.rs: postcard::decode, bincode::decode_*, vu128::decode!"])
p("C64","The Go generator handles every valid schema","For every schema that passes validation the Go generator produces code; it does not panic. (False for arrays of no or more than 32 elements, non-zero floats, and where the Rust generator fails too; the schemas it can translate are characterised exactly.)","every schema","All schemas.",["crates/mabo-go/src/definition.rs: render_schema","crates/mabo-go/src/encode.rs","crates/mabo-go/src/decode.rs","crates/mabo-go/src/size.rs"])
p("C65","The Go tool writes the whole project or nothing","The tool succeeds exactly if all files parse, are valid, resolve and can be generated; if a file is bad or a name does not resolve, nothing is written; after a success there is exactly one Go file for each schema file and for each module at any depth, in a directory of its name, with the code of all its definitions in order. (False for projects of several schema files, which are all written to the same file, and code generation errors leave earlier files behind.)","every list of schema files, every schema, every depth of modules","All projects.",["crates/mabo-go/src/main.rs: main, write_output","crates/mabo-go/src/definition.rs: render_schema, render_definition"])
p("C66","Emitted Rust does what the wire format says","For every project whose emitted functions compile (C67 says which these are), the Rust functions emitted for a struct or enum, executed by Rust's rules, do what the properties of generated code (C13 to C23) are stated about: size() and encode() of every value give its size and bytes, and decode() of every input gives the same value, error or remaining bytes. So from the text of the schema files to execution, an encoded value is decoded again, and decoding never panics for schemas without arrays and zero-byte elements.","every accepted project that compiles, every type and type arguments, every value, every input, every depth of nested values","All schemas, values and inputs; the tests of the generator compare emitted text with snapshots.",["crates/mabo-build/src/encode.rs","crates/mabo-build/src/size.rs","crates/mabo-build/src/decode.rs","crates/mabo-build/src/definition.rs","crates/mabo/src/buf"])
p("C67","Emitted Rust compiles","For every accepted project the emitted functions compile. (False for many schemas: nested tuples, keys without Hash, type arguments without the traits, fields called w, r or id, names of Rust's prelude, recursive types; proved: the exact condition on the names and types of a schema under which the functions compile.)","every accepted project, every type in it","All schemas.",["crates/mabo-build/src/encode.rs: compile_data_type","crates/mabo-build/src/size.rs: compile_data_type","crates/mabo-build/src/decode.rs: compile_struct, compile_data_type","crates/mabo-build/src/definition.rs"])
p("C68","mabo fmt formats the selected files and touches nothing else","Whatever the files and the selection: a successful run leaves exactly the selected files formatted (the same schema, in the form of C41 to C45) and every other file as it was; it succeeds exactly if all selected paths are readable text files and those that change can be written; it opens for writing exactly the files whose text changes and prints an error for exactly those that do not parse; a second run writes nothing; the order of the files does not matter; a failed run has formatted the files before the bad one and touched none behind it. (Files with -0.0 that are selected twice come out differently.)","every file system, every selection of files (also repeated and through links), every outcome of each write","All file systems and failures of reads and writes.",["crates/mabo-cli/src/main.rs: format, project_or_files"])
p("C69","mabo check finds every error","mabo check succeeds exactly if all selected files parse, are valid schemas and all names in them resolve, as its documentation says. (False: it succeeds whenever the files can be read, prints syntax errors only, and never validates or resolves; its exact behaviour is proved.)","every file system, every selection of files","All file systems and contents.",["crates/mabo-cli/src/main.rs: check","crates/mabo-cli/src/cli.rs: Command::Check"])
p("C70","The files of a project are the schema files its patterns match","The files of a project are exactly the files below its directory whose name ends in .mabo and that match a pattern, each once; order and repetition of patterns do not matter; loading fails exactly for malformed patterns and unreadable entries; and a build compiles exactly these files, with their texts, under their names without .mabo. (False for directories whose name ends in .mabo: they are selected too, and every command fails.)","every directory tree (as found by the walk), every list of patterns","All trees and patterns.",["crates/mabo-project/src/lib.rs: collect_files, load, load_project","crates/mabo-cli/src/main.rs: project_or_files","crates/mabo-build/src/lib.rs: Compiler::compile"])
p("C71","Interrupting mabo fmt loses nothing","Whenever the formatter is killed or a write fails, every file holds its old or its formatted text. (False: the file that is being written may hold any first part of its text; proved for all others.)","every file system, every selection, every moment","All crash points.",["crates/mabo-cli/src/main.rs: format"])
p("C72","The errors of name resolution are true","When names do not resolve, the error is shown with the source of the schema it is about, and what it says is the case: the schema, module or definition it calls missing does not exist in the module it names, the numbers of type parameters and arguments it gives are those of the definition and of the use, the definition it found is of the kind it says, there is no import for the type; and the reference it complains about has no meaning. Every rejection is explained this way. (False for paths of several names through an imported module, of which only the first counts; refuted, and what is said then is proved.)","every list of schemas, every order of the hash maps","All schemas and errors.",["crates/mabo-compiler/src/resolve/mod.rs: schemas, resolve_local, resolve_import, resolve_remote, resolve_type_remotely","crates/mabo-compiler/src/resolve/error.rs"])
p("C73","Emitted Go is valid Go","What the Go generator writes for an accepted schema is, as text, a Go file, and one that a Go compiler does not reject: packages it imports are used, names are declared, once, and no keywords, selectors exist, functions get as many arguments and return as many values as they declare, map keys are comparable, constants have values of their types. (False for most schemas, refuted; proved: every file is the text of a Go syntax tree; for definitions without references and type parameters the exact condition on the schema under which no rule is broken, and for all definitions what is necessary.)","every schema and module, every Go syntax tree that is emitted","The conditions range over all definitions, names and nestings of types; no set of examples can show that the stated condition is exact.",["crates/mabo-go/src/lib.rs: render_file","crates/mabo-go/src/definition.rs","crates/mabo-go/src/encode.rs","crates/mabo-go/src/decode.rs","crates/mabo-go/src/size.rs"])
p("C74","Emitted Go code transfers values","With a runtime library whose functions do what their names say, `Decode` of an emitted Go type reads what its `Encode` writes, and `Size` is its length; fields of newer versions are skipped, a message can be followed by other bytes, and the bytes are those that the Rust code writes. (Mostly false, refuted: optional fields that are not set cannot be read, those that are set are lost or misread, variants of enums encode to nil, `Decode` never stops before the end of its input, unknown fields' values are read as ids, ids carry no wire types. Proved for structs of non-optional fields without references and tuples; the exact error for structs with unset optional fields.)","every accepted schema and module, every struct and variant, all field values, every runtime library that meets the stated contract (the refutations for control flow: every runtime library at all), every input","The claim is about running generated programs, for all schemas, nested types and values, and for a library that is not part of the repository.",["crates/mabo-go/src/encode.rs: RenderStruct, RenderEnumVariant, RenderFields, RenderType","crates/mabo-go/src/decode.rs: RenderStruct, RenderEnumVariant, RenderFields, RenderFoundChecks, RenderType","crates/mabo-go/src/size.rs"])
p("C75","The size functions of the runtime library predict lengths","For every identifier and value, the size that `size_field`, `size_field_option`, `size_option`, `size_vec`, `size_array`, `size_hash_set` and `size_hash_map` return is the number of bytes that the matching encoder writes, if the sizes of the parts are right. (False for the four collections: they count elements where the encoder writes a number of bytes; proved when exactly it holds, that it is too small otherwise and by how much at most.)","all identifiers (32 bits), all values, all collections of any length, all element codecs","Lengths up to 2^64 and every element codec; wrong only for particular pairs of element count and byte count.",["crates/mabo/src/buf/size.rs: size_field, size_field_option, size_option, size_vec, size_array, size_hash_set, size_hash_map","crates/mabo/src/buf/encode.rs: encode_field, encode_field_option, encode_vec, encode_array, encode_hash_set, encode_hash_map"])
p("C76","The documentation pages are well-formed HTML and show the schema as text","Every page that `mabo doc` writes is well-formed HTML and is the document it should be: name, type, value and definition are the text of their elements (inside `pre` character by character), the links, tables, lists of fields and variants, ids and sizes are where the templates put them. No name, type or string constant can add or end elements, whatever characters it has. One page for each file of C53. Assumes that the Markdown library converts comments to well-formed HTML.","every schema, any names, types, values (any characters) and comments, any nesting of modules, every conversion of Markdown that yields well-formed HTML","Escaping has to hold for all characters at every place of insertion; snapshot tests have no values with markup at most places.",["crates/mabo-doc/templates/base.html","crates/mabo-doc/templates/index.html","crates/mabo-doc/templates/detail/*.html","crates/mabo-doc/src/templates.rs: first_comment, merge_comments, render_wire_size, print_schema","crates/mabo-cli/src/main.rs: doc, write_doc_output"])
p("C77","Errors of the resolver point at the names they are about","When the resolver rejects a set of files, the report shows the source of the file that has the error, and its labels are exactly on the names the error is about: 'used here' on the missing schema or module or on the element of the import, or on the name of the mentioned type; 'declared here' on the name of the declaration that was found, for declarations of other files in a related report with the source of that file. All ranges are on character boundaries of the shown text.","every set of parsed and valid schema files (any layout, comments, non-ASCII text), every order of the hash maps, every style of the messages","Spans come from nested parser actions and are passed through several tables; a label may be off only for certain nestings, layouts or characters, or point into the wrong file.",["crates/mabo-compiler/src/resolve/mod.rs","crates/mabo-compiler/src/resolve/error.rs","crates/mabo-parser/src/lib.rs"])
p("C78","The report of a syntax error shows where the error is","For every text that is no schema the report that `mabo check` and `mabo fmt` print is a line of nested reports. Every label in it is in the text: it starts between two characters and does not go beyond the end. The innermost report is at the place that the language server shows, as a label or as an offset in bytes, and the message of the language server is one of its messages, so what is said is the case there (C59). There is no label at all exactly if no keyword follows the definitions that can be read.","every text, with any nesting of modules and types and any characters","All texts; the snapshot tests have a handful of errors and only one file layout.",["crates/mabo-derive/src/error.rs: expand_miette","crates/mabo-derive/src/cause.rs: expand_error, expand_miette","crates/mabo-parser/src/error.rs","crates/mabo-parser/src/parser/*.rs: ParseError, Cause","crates/mabo-parser/src/location.rs: from_until"])
p("C79","mabo doc writes its pages and touches nothing else","Whatever the files, the output directory, the failures of single operations and the moment at which the process is killed: no file but the pages changes, nothing is deleted, directories stay directories, pages are only in the output directory and the schema files are safe even if that is in the project. If the command reports success, every page of every file is there and whole (for valid schemas in files with different names). Without failures it succeeds exactly if every file can be documented and nothing is in the way of a page. After an interrupted run, running it again gives exactly what an undisturbed run had given.","every file system (without links), every list of schema files, every output directory, every sequence of failing or interrupted operations","A test sees one directory and no crash; the claim is about all contents of the disk and all moments.",["crates/mabo-cli/src/main.rs: doc, write_doc_output","crates/mabo-cli/src/cli.rs: DocArgs","crates/mabo-doc/src/lib.rs: render_schema"])
p("C80","Log messages of the language server are whole lines, in order, and complete","However the threads that log are scheduled: the log file is what it was, followed by one message after the other, never one inside another; each is a line with the time of day, the level, the target, the message and the pairs, and time and level can be read back; the records of a thread are there in its order, times do not go back; exactly errors, warnings, records of the crates of this project and information of lsp_server are logged; when writes fail, only the message concerned is cut; nobody waits for ever. (False for standard error, which is not locked for a message; for several servers, which share the file but not the lock; and for messages with line breaks, which are not escaped: proved for the file of one server.)","every number of threads, every list of records for each, every schedule of their steps and of the clock, every failure of a write, every earlier content of the file","Interleavings of writes of pieces of messages cannot be enumerated, and a test sees only the schedules it meets",["crates/mabo-lsp/src/logging.rs: write_message, FileLogger, StderrLogger, CombinedLogger","crates/mabo-lsp/src/main.rs: main"])
p("C81","A rejected project is explained with its file and place","When the build script or the Go tool rejects a project, they name the first file, in the order of the project, that is no valid schema, with the error that an editor shows for it: the same message, and labels with the same ranges; if all files are valid, with the source of the file that has the unresolved name. The project is accepted exactly if all files are valid and all names resolve. (False in three ways: the report of an invalid schema quotes no source, so its labels are not shown; the error of the resolver names the file \"\"; the Go tool names no file.)","every list of schema files, every text, every position encoding, every order of hash maps","All projects and texts; the tests of the build script only have projects that are accepted",["crates/mabo-build/src/lib.rs: Compiler::compile, Error","crates/mabo-go/src/main.rs: main","crates/mabo-compiler/src/validate: Error","crates/mabo-lsp/src/handlers/compile.rs: compile"])
p("C82","Emitted type definitions are accepted by Rust","For every accepted project the emitted structs and enums are definitions that Rust accepts: all types have a finite size, every type parameter is used, the derived implementations of Clone, Debug and PartialEq apply to all fields, and the code for any instance needs finitely many others. (False: direct recursion, parameters that are only mentioned in recursion, aliases with unused parameters, keys without Eq and Hash and recursion with growing arguments are accepted; proved: everything holds for projects without recursion whose functions compile, sizes and derived traits also with recursion through vectors, maps and sets, and the condition for sizes is exact where named types have no arguments.)","every accepted project, every struct and enum in it, every type argument","Sizes and uses of parameters are properties of the whole graph of definitions, over unboundedly long circles and infinitely many instances.",["crates/mabo-build/src/definition.rs: compile_struct, compile_enum, compile_fields, compile_data_type, compile_alias","crates/mabo-compiler/src/validate/generics.rs: validate_struct_generics, validate_enum_generics","crates/mabo/src/lib.rs: NonZero"])
p("C83","The names in emitted Rust modules are declared once and imports lead to something","In every module of the crate generated for an accepted project the names among types, modules and imports are declared once, the names among constructors and constants are declared once, and each import leads to a type or module of the crate; together with C67 and C82 this is all that Rust demands of the crate as far as it is modelled. (False for types, aliases, modules and imports named Decode, Encode or Size, which clash with the traits imported in each module, and for imports in inner modules, which nobody looks up; proved: the traits' names are the only clash, values are always fine, imports of whole files always lead to something, and the crate is accepted if both are avoided.)","every accepted project, every module of the crate at any depth","Names can clash between any two of unboundedly many definitions in unboundedly many modules; the tests compile a handful of files.",["crates/mabo-build/src/definition.rs: compile_schema, compile_module, compile_import, compile_definition","crates/mabo-compiler/src/validate/names.rs: validate_names_in_module","crates/mabo-compiler/src/resolve/mod.rs: resolve_module_imports"])
p("C84","The language server knows the files of the workspace from the beginning","The search for projects below a folder succeeds exactly if every project found there can be loaded, and gives each of them once for each project file, in the order of the walk, with the files that loading it alone gives. After the server has been initialized, what a client asks about a file of a project in the workspace is answered from the file, also if it has not been opened. (False: the documents are known by their path, but clients use file:// URIs, so that no loaded document is ever found; one broken project hides all others in a folder, escapes in folder URIs are not undone, and linked project files are not found. Proved: which documents are loaded, exactly; and that they do no harm, whatever the client sends.)","every file system, every list of workspace folders, every project, every history of notifications","All file systems and histories; no test runs the server on a workspace.",["crates/mabo-lsp/src/handlers/mod.rs: initialize, did_open, did_change, did_delete","crates/mabo-project/src/lib.rs: discover, load_project, load"])
open('/verif/properties.jsonl','w').write(''.join(json.dumps(x)+"\n" for x in P))
