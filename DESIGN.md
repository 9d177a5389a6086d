# Formal model of xsd-parser-rs: design

Source under study: `/repo` (lumeohq/xsd-parser-rs, pinned commit), read as text.
Formalisation: Lean 4.33.0, Lake project in `lean/`, modules under `lean/Verif/`.

## Layout

* `Verif/Rust/*`   – the fragment of Rust's standard library the code uses (outcomes ok/err/panic, strings with UTF-8 byte offsets, integer parsing and formatting).
* `Verif/Ext/*`    – third-party behaviour the code relies on (chrono, num-bigint, Inflector), modelled from their documented behaviour.
* `Verif/Model/*`  – the code of /repo, function by function, each definition citing file and lines.
* `Verif/Spec/*`   – independent specifications (XSD lexical grammars, calendar, facet semantics, ...). They use the data types of the model where these are plain transcriptions of the Rust types (entities, XML trees, file systems, values) but none of its functions.
* `Verif/Lemmas/*` – helper lemmas.
* `Verif/Props/*`  – the property theorems, one file per area, with a non-vacuity `example` beside each.

## Plan per property

* **C01** Timezone suffix parsing accepts exactly the XSD timezone lexical space. Model `parse_timezone` over strings as character lists with UTF-8 byte offsets (slicing off a character boundary is an explicit `panic`). Spec: grammar `TzLex s off`. Prove `ok off <-> TzLex s off`, the exact panic condition, otherwise `err`.
* **C02** Timezone display/parse round trip. Model chrono's FixedOffset Display. Prove display/parse round trip for whole-minute |off|<=14h, and that parse results always lie in that set.
* **C03** gDay parsing accepts exactly the XSD gDay lexical space. Independent grammar spec; prove `fromStr s = ok v <-> Lex s v` for every string, ASCII inputs never panic.
* **C04** gMonth parsing accepts exactly the XSD gMonth lexical space. As C03.
* **C05** gMonthDay parsing accepts exactly the XSD gMonthDay lexical space. As C03, with an independent day-limit predicate.
* **C06** gYear parsing accepts exactly the XSD 1.0 gYear lexical space that fits i32. As C03; digits are unbounded, i32 overflow check modelled in the digit parser.
* **C07** gYearMonth parsing accepts exactly the XSD 1.0 gYearMonth lexical space that fits i32. As C06.
* **C08** Gregorian values survive display then parse. Round-trip theorems for all values satisfying the constructor predicate, i32 range included.
* **C09** Gregorian constructors and parsers never yield an out-of-range value. `new` iff range predicate; parser output predicate; projections.
* **C10** Parsing untrusted text never panics. Negation with concrete witness strings; exact characterisation of panics for each type; ASCII theorem as `_partial`.
* **C11** Duration parsing is complete for the XSD duration lexical space. State-machine fold over characters, u64 arithmetic with explicit overflow outcome. Completeness: for every component record in the grammar, rendered text is accepted with the denoted value.
* **C12** Duration parsing rejects everything outside the XSD duration lexical space. Negation by witnesses; an exact regular description of the accepted language as replacement.
* **C13** Duration values survive display then parse. Round trip for all u64 components; seconds as exact decimal (f64 rounding is not modelled, see trusted base).
* **C14** Duration to std conversion is exact or refused. Iff for Err; exact value; negation for sign.
* **C15** Duration parsing of huge numbers does not corrupt values. Exactness under no overflow; witness of overflow in both build profiles.
* **C16** Big integer types enforce their sign ranges. Model num-bigint's decimal parser as a function to Int; iff theorems per type.
* **C17** Big integer values survive display then parse. Round trip for all Int; Default witnesses.
* **C18** Big integer parsing accepts only the XSD lexical space. Exact language; witness with underscore.
* **C19** Date values with four-digit years survive display then parse. Model chrono NaiveDate parse/format for the fixed pattern; round trip; negative/large year witnesses.
* **C20** Date parsing accepts every XSD date with a four-digit year and gets its value right. Completeness + calendar soundness.
* **C21** Time values survive display then parse up to whole seconds. As C19 for time of day.
* **C22** DateTime parsing treats a missing timezone as UTC and otherwise keeps the given offset. Model chrono parse_from_rfc3339; theorem on every well-formed text.
* **C23** DateTime values survive display then parse. Round trip for all nanosecond values.
* **C24** DateTimeStamp requires a timezone. Agreement theorem and negative claim.
* **C25** XML (de)serialization of simple types goes through their text form. Event-list model of reader and writer.
* **C26** List-typed values survive display then parse. Generic over item parse/print functions; list induction.
* **C27** Union deserialization picks the first member type that accepts the text. Generic over member list; induction.
* **C28** Built-in XSD types map exactly per the published table. Table in spec transcribed from the README (and the one undocumented extra row); iff for all strings.
* **C29** Sanitized identifiers are never listed keywords and never start with a digit. All strings, for every Unicode classification table agreeing with ASCII.
* **C30** Generated field and type names are legal identifiers. Model Inflector snake/pascal; invariant of their loop. Names of several words (Spec/Words) by induction over the words.
* **C31** Field names of one type do not clash. Negation by witness; injectivity on a canonical subset as partial; for names of several words the words are read back from the result.
* **C32** Type references are qualified by module exactly when they belong to another namespace. Decision logic stated outright.
* **C33** Type modifiers nest in the given order. Induction on modifier list.
* **C34** Documentation text cannot escape the generated comment. Induction over words/lines.
* **C35** Generated validation enforces exactly the numeric and length facets. Generated check as syntax + interpreter; iff with facet semantics for all values.
* **C36** Every struct field is generated exactly once and in order. Induction over fields on the generated text pieces.
* **C37** Code generation is repeatable. Generator modelled as state transformer; negation + partial.
* **C38** Every enumeration case is generated once, with an unknown fallback. Induction over cases.
* **C39** A customised generator keeps the user's parts and fills in defaults. Invariant over all call sequences.
* **C40** Element cardinality is respected by field types. Full decision table against occurrence-range semantics; negation witnesses + partial.
* **C41** Sequences map each child to one field in document order. Induction over children.
* **C42** Attribute use is respected. Decision logic.
* **C43** Every global declaration yields exactly one entity in document order. Induction over top-level children.
* **C44** Extension bases are flattened. Heap model of the RefCell field lists; order-dependent flattening; negation + partial under topological order.
* **C45** Attribute groups are expanded. Same heap model.
* **C46** Simple restrictions become enums with one case per enumeration value. Induction over facets.
* **C47** Union members are all represented. Induction over members.
* **C48** Schema prefixes are resolved by namespace URI. Decision logic over namespace lists.
* **C49** WSDL operation kinds are classified by input/output order. Decision logic over child lists.
* **C50** Each WSDL operation yields one client function with the right parameters and types. Induction over operations.
* **C51** Message references are resolved by local name. Lookup lemma; duplicates panic.
* **C52** Directory conversion mirrors the input tree. Abstract file system, tree recursion; negation + partial for collision-free trees.
* **C53** A crash while writing never leaves a partial output file. Small-step write model with crash points; negation + partial.
* **C54** The generated text is lexically complete. A lexer of Rust text with a stack of open brackets; composition lemma per generated piece; induction over nested entities; negation + partial.
* **C55** Code generation panics only on bad length facets. Exact panic condition by induction over nested entities.
* **C56** Aliases and imports generate no code. Line-wise reading of the generated text; negation + exact condition.
* **C57** Inline types are found under the path their field uses. Reading of the generated modules; negation + partial.
* **C58** A WSDL document is read completely and duplicates are refused. Exact iff for the whole document.
* **C59** Generated client functions are lexically complete. Lexer of C54 on the text of the functions.
* **C60** WSDL code consists of the embedded schemas and the functions. Decomposition of the text; negation for the missing derivation step.
* **C61** An output directory inside the input directory is never converted completely. Induction on the depth limit: the listing of the input always has the way to the output.
* **C62** Decimal accepts exactly the XSD decimals. Model bigdecimal's from_str; exact language; completeness and soundness against the grammar of XSD; negation + partial.
* **C63** Decimal values survive writing and reading. Model Display with the exponent threshold as parameter; value round trip in the rationals.
* **C64** The code for a schema document is lexically complete. Invariant of all strings in the entities (nodes to entities, through the derivation step), then C54.
* **C65** The code for a schema document defines what the schema declares. Shapes of simple and complex types by induction over the document, invariance under the derivation step, then the reader of definitions of C36; negation for the names.
* **C66** References within a schema are defined. Corollary of C65 with the namespaces of C48 and the type names of C32; negation + partial.
* **C67** Legal schemas are converted without panic. Existence of a result by induction over the size of nodes, with the shape of the results; then C44 and C55 give that neither the derivation step nor the validation panics; witnesses for the features outside.
* **C68** Structs have the fields of their complex types. C44 lifted to the document: own fields of a declaration by C38–C43, the derivation step by C44 as a recursive description over the order of declarations (unique by induction on the position), the struct in the text by C36/C55; corollaries for plain sequences and for derived types; witnesses for namespaces, order and attribute groups.
* **C69** The generated file has exactly the items for its entities. A reader for items (Spec/Items.lean) over the lines; text segments which are complete lines carry the items read (ISeg), blocks are skipped with their depth (Inner); mutual induction over entities, list of subtypes and fields as for C36.
* **C70** Generated types implement the traits that are used. From the items of C69: what each item implements (Spec/Traits.lean) against a table per kind of entity, as a permutation, by mutual induction; kinds of enums are followed from the document through the parser (predicate K of the invariant in ParseInv.lean).
* **C71** Generated types have finite size. Containment of types read from the items (Spec/Size.lean), witnesses by computation; vectors for direct recursion from the fields of C68.
* **C72** Global simple types in the generated code. Global simple type to entity by the parser characterisations (Lemmas/DocSimple.lean), entity to items by C69; the three steps composed on documents.
* **C73** The whole conversion follows a declarative description. One-step relation with the readings of parts as a parameter (Spec/Denote.lean), iterated over levels of nesting; one step of the parser is one step of the relation by the characterisations of C40 to C48 (step_iff in Lemmas/Denote.lean), then induction on the levels and on the size of the node.
* **C74** Values compare as XML Schema says, so bounds are enforced. Day numbers by the formula of XSD 1.1; they grow by one from a date to the next (Lemmas/Order.lean), so the lexicographic order of UTC dates is that of the time line; decimals by scaling; durations: months start at least 28 days apart, so normal components order as (months, seconds); negations for negative and not carried durations; induction over the facets for the checks.
* **C75** Checks only use operations which the wrapped type has. Checks and facets correspond (CheckedBy, part of ItemFor); implementations by C70 never contain PartialOrd, and everything with FromStr or Display is defined in the text; case analysis over the table of library types (all rows); negations by instances.
* **C76** Members are read under the XML names of the schema. Attributes on members and types read back with explicit quotes (Spec/XmlNames.lean), so that prefix, name and namespace are determined by the text; composed with the fields of C68 and the items of C69; inherited members and those of groups by following TypeFields back to the declarations (typeFields_from); nested types by an invariant over the closed description of entities (reads_good) which survives the copying of fields (Fieldwise); decision when the name is the declared one by case analysis; negations by instances.
* **C77** Document elements are called like the global elements. As C76 for the attributes on types; the Inflector model computed on words with a capital (induction over the words) and on names with a small first letter (first character of the result); negations by instances.
* **C78** Built-in types are read as XML Schema says. Literals written from XSD part 2 (Spec/Builtin); one lemma per row of the table from the exact characterisations of the parsers (C02-C07, C11, C16, C62 and the models of bool and f64), inversion of the literal and of the list of lost literals; negations by instances.
* **C79** Texts are read as the values which the schema gives them. Values of simple types as an inductive relation over the document (Spec/Values); readers of the generated types as any function which agrees with the library and with the macro expansion of the definitions in the text; induction over the relation with C72 for the definitions, C66 for the references, C26/C27 for the macros and C78 at the bottom; negations by a document.
* **C80** Values of built-in types are written as literals which denote them. Values of the Rust types (HasType) and those with a literal (Proper) as definitions in Spec/Writes; one equivalence per row: inversion of the literal for one direction, construction of the literal from the digits printed for the other; negations from the equivalence; existence of a printer of doubles from the binary form of rounded numbers.
* **C81** Values of generated simple types are written as texts which denote them. Values of the generated types (ValueIn) by induction over the schema, Display of the generated types from their definitions in the text (Prints); induction over ValueIn: library values by C80, wrappers by the item which C72 finds and the expansion of the macro, lists by the words of the joined text; literals of types other than texts have no white space (character sets).
* **C82** What a type writes is read back as the same value. For each kind of value: the values among the written literals which C78 calls lost, from the first character and the signs of the written text (lost_written); with C80 and C78 an equivalence. For the generated types the induction of C81 with literals which are kept instead of all literals, then C79.
* **C83** Every type which is mentioned in the generated code is defined. Invariant of the parser: every entity comes from a part of the document, every type text in it is a reference of the document, the name of an inline type or one made up by the parser, and inline types come with their definition in the entity (closedPreds, parseFile_closed). Then through the generator: what an entity is written as mentions the formatted texts, global declarations are items at the top level, inline types are items of the module which is put before the name (C66, Gen.inline_typeName).
* **C84** The derive macros expand on the generated code. Invariant of the parser: a tuple struct has either no modifier and a type of a single value, or the modifier of vectors around a reference which is no built-in list or around the name of an inline enumeration (itemPreds, parseFile_items'); all variants of unions have types (unionPreds). Then the text of the item is read back as the path which the macro gets (readPath_type), and the expansion is computed on it; the exact domains of the macros by case analysis over the token paths (Spec/Expansion.lean).
* **C85** XML texts compare as equal exactly if they differ in white space between tags only. Zipping stops at the shorter list, so the assertion says that one list of events begins with the other; readers deliver nothing after the end or an error, hence equality (C85_streams). Events without white space are those of the stripped tree, and a tree is determined by its events (mutual induction over the tree).
* **C86** A value of a union is read back from its text as the same value of the same member type. C72 gives the variants of the union in the order of the member types, C82 the text of the value in the member type and that it is read back; induction over the member types before for the expansion of the macro; the violation is a document with the union of xs:int and xs:string.
* **C87** Validation accepts exactly the values which the schema admits. The checks in the text are those of C72 (Enforces, for any linear order); values are mapped to their rank (a rational: the number, or seconds on the time line) and length, and the checks do the same on both since the orders of the library types are the orders of the ranks (C74) and what is read has the rank of the XSD value (C78); the shape of what a wrapper reads as in C79. That only wrappers have checks: induction over the entities with C69; negations by a document.
* **C88** Nothing but the meaning of the document has an influence on the generated code. A relation of nodes (alike), places (same results of the children, up to nodes which are no elements) and results; each parser function gives the same for related places, since its filters let no other node pass and do not tell alike elements apart; induction over the relation for parse_node, then parse_schema. Removing comments and text is an instance. Negation by a document.
* **C89** The code for a declaration depends only on what it derives from. The children are read alike in both documents (C88); the struct for a declaration has its name, its markers come from base attributes inside it (Sources, as in C57) and its attribute groups from references inside it (induction over the parser); extendFile is characterised by positions (C40), and those of the shorter list are shifted: every lookup under another name finds the same struct. The code is the concatenation of the texts of the entities.
* **C90** The order of declarations which do not depend on each other has no meaning. As for C89, with positions exchanged: every lookup finds the same struct, and in the same state, since only the order of the two neighbours is another. Reorderings by induction over the exchanges, for the list of the texts of the entities; negation by a document.
* **C91** Only schemas, messages and operations of a service description have an influence on the client. A document is read as described by IsDefinitions (C58); the parser of schemas looks at nothing outside the schema element (SameLine in Lemmas/Alike); lookups by name give messages with the same parts in both documents, so the functions are the same.
* **C92** The choice of the prefix for XML Schema has no influence on the code. Relation between the entities read from the two documents (Like, in Lemmas/Respell): the same except that types may be written with either prefix. Every parser function keeps the relation (Lemmas/RespellParse), so does the merging of base types, which only looks at what follows the last colon, and related entities have the same code (Lemmas/RespellGen).
* **C93** Default values are values of their types. Initial values and the values of built-in types in Spec/Defaults; default() of the library types as a table (Model/Defaults), of the wrappers from their definitions in the text (Defaults); library row by row with C80 and C82, wrappers by induction over the restrictions with C72; the checks by C87; what into() can make from a text from the implementations of C70.
* **C94** Unicode tables matter only at the characters of names, references and values. The parser asks the tables only for the values of enumerations (induction over the document); an invariant of the parser (Sources) says that all texts of the entities consist of characters of the document and ASCII ones; the functions which make names are congruent in the table on such texts, and keep them such; induction over the entities for the generator, signatures (C60) for the functions.
* **C95** Documentation stands above what it documents. A line of the text tells a comment, the head of a definition, a member or nothing (readMark, without state); segments of text with their outline compose (OSeg), the comments of one documentation are those of C34; induction over the entities as for C69. For documents: the characterisations of the parser functions (C41-C54) say which documentation an entity gets, the extension (C40) keeps names and comments of structs and of their own fields.
* **C96** The generated code is a sequence of Rust items. Tokens and a grammar for the subset of Rust that is written (Spec/Syntax). Segments of text with their tokens compose if no token goes across the border (Seg, Opn in SynLex); constant texts are read by a function proved sound for the relation (lexFn); induction over the entities for the items. Where the names come from: an invariant of the parser and of the extension (SynParse, SynFile, as for C94), then C30 and C32 for the names.
* **C97** The code for a service description is Rust exactly if every operation gives something back. Segments as for C96 for the text of a function (SynFn), the schemas as in C96 but without the extension (SynService). For the converse a scan which no derivation of the grammar fails (`<` before a comma), by induction over all productions, and that tokens are determined (C96).
* **C98** Nothing is defined twice. The definitions as a function of the entities are known (C36), those at the top level as a relation of the schema (C65), fields likewise (C68). By induction over entities: what is defined for a name stands at the name, at its module name or inside that module; such regions are disjoint for names which differ in letters and digits, as the conversions keep these (C30). For the inline types an invariant of the parser (each struct has its inline types separate or is derived, DistinctDoc) and its preservation by the extension. Uniqueness of GlobalDefs, OwnFields, TypeFields makes the hypotheses computable. The converse for the top level compares the definitions which the text has (C65) with those of the declarations.
* **C99** The variants of an enum have different names. The name of a case keeps letters and digits (typeName_skeleton of C30, sanitize adds an underscore only). An enum of the parser has the cases of a choice, the values of a restriction or the member types of a union: invariant of the parser, as for C76, kept by the extension (parseFile_deep); each item which is an enum stems from an entity (C69).
* **C100** The functions of a client name nothing twice and use only what they are given. From the signatures read back for each operation (C50, C60): the arguments of a signature are the parts of the message, so their names are counted there; the letters and digits of a name survive the conversion to snake case (C31).
* **C101** The types which the functions of a client mention are defined. The code of a description consists of those of the schemas and the functions (C60, C91), whose types are references of messages (C50). For one schema the definitions are those of its global declarations, as for C65 but without the extension; a reference into the target namespace and the name itself are written alike (C66), by the generator for functions as well. Conversely a declaration which does not become a definition leaves its name undefined, if no other definition of the schema has a similar name: the written names of different letters differ (C31).
* **C102** Each schema and each operation of a service description has a piece of code of its own. The code of a description as a relation (C60, C91) and the signatures of operations (C50) as relations; lists are split where something is put in, and a signature depends on the description only through the messages to which the operation refers.
* **C103** Legal service descriptions are converted without panic. A document is read exactly if its tables exist (C58), the functions exist exactly if all signatures do (C50), and the code exactly if that of the schemas and the functions does (C102); each of these is taken apart into conditions on the XML elements.
* **C104** The names which the code uses are not hidden. The items at the top level are the definitions of C65; each of these has the name of its declaration or one made with the endings Choice, Enum or EnumCaseType, which the formatting of names keeps (their letters and digits survive), so that it is none of the names which the code uses. In the modules inside, the definitions are those for the fields with inline types, which are called like the type of the field and end in Type or Choice.

## Trusted base

* Lean's kernel, and the axioms `propext`, `Classical.choice`, `Quot.sound` (no others; no `sorry`, no `native_decide`, no `bv_decide`).
* The reading of the Rust source: every model definition cites the lines it transcribes.
* The models of chrono 0.4.35, num-bigint 0.4.4, bigdecimal 0.4.3, Inflector 0.11.4, roxmltree 0.19, yaserde 0.7 pieces (for C76 and C77 the meaning of its attributes `prefix`, `namespace`, `rename`, `attribute` and `flatten` as stated in Spec/XmlNames.lean), which are not in the sandbox and are modelled from their documented behaviour.

### What every theorem depends on

`#print axioms` of every theorem in `MANIFEST.json` gives a subset of `propext`, `Classical.choice`, `Quot.sound`.
`vcheck` checks this.

### Modelled code (all paths below /repo)

| Code | Model | Not modelled |
|---|---|---|
| xsd-types/src/types/utils.rs | Model/Timezone | texts of errors |
| xsd-types/src/types/gday, gmonth, gmonthday, gyear, gyearmonth | Model/Gregorian | texts of errors; integer overflow is an explicit panic (debug profile) |
| xsd-types/src/types/duration.rs | Model/Duration | texts of errors; `f64` arithmetic is a parameter where its values do not matter, and correctly rounded binary64 (Rust/Float, without infinities and subnormal numbers) where they do; the decimal digits std prints for an `f64` are a parameter; both overflow profiles are modelled |
| xsd-types/src/types/date, time, datetime, datetimestamp | Model/DateTime | texts of errors; chrono is Ext/ChronoDate, Ext/ChronoOffset |
| the derived `PartialOrd` of xsd-types | Model/Order, Model/LibOrder (by the text of the type) | chrono's comparison is Ext/ChronoOrder, bigdecimal's is Ext/BigDecimal; `f64::partial_cmp` is a parameter |
| xsd-types/src/types/integer and the four restricted integers | Model/Integers | num-bigint is Ext/NumBigint |
| xsd-types/src/types/decimal.rs | Model/Decimal | bigdecimal is Ext/BigDecimal; where it changes to exponents when printing is a parameter |
| std: `FromStr` and `Display` of `bool` and `f64` (called through xsd-parser/src/generator/utils.rs:21-96) | Rust/Prim, Model/Builtin | rounding: a double is represented by the number whose nearest double it is; overflow to infinity |
| std and xsd-types: `Default` of the Rust types for built-in types (`impl Default` / derived, e.g. xsd-types/src/types/date.rs, gday.rs, positive_integer.rs) | Model/Defaults, with the definitions in the models of the types | derived defaults of structs with named fields |
| xsd-types/src/utils/yaserde.rs, xsd-macro-utils/src/* | Model/Serde, Model/Macros (how the macros take an item apart) | attributes, namespaces, the expansion of the macros as Rust syntax (what the expansion does is modelled), escaping of characters (done by xml-rs) |
| xsd-types/src/utils/xml_eq.rs | Model/XmlEq | xml-rs: the events of the texts are given |
| xsd-parser/src/parser/*.rs | Model/Parser, Model/Entities, Model/Extend | the XML parser (a document is a tree, Ext/RoXml), texts of panics, depth of the stack, `RefCell`s (values are passed instead; the one place where a borrow can fail is a panic of the model) |
| xsd-parser/src/generator/*.rs | Model/GenNames, Model/Generator, Model/Builder | Inflector is Ext/Inflector; Unicode tables are a parameter (Rust/Unicode); only the default implementations of the traits are given, Builder is for arbitrary ones |
| wsdl-parser/src/parser/*.rs, generator/*.rs | Model/Wsdl | the order of hash maps is a parameter; texts of panics |
| the composition of parser and generator (`process_single_file`) | Model/Pipeline | reading and writing the files (Model/Cli) |
| xsd-parser-cli, wsdl-parser-cli | Model/Cli | command line parsing (clap), links, permissions, other processes, the text of errors; conversion, listing order and the pieces of a write are parameters |

Not modelled at all: the tests, Cargo metadata, and whatever
the Rust compiler or yaserde does with the generated code beyond the generated text: that the text is accepted by the
compiler is not claimed anywhere.

Every file of the model was read once more side by side with the code it cites after it was finished; no differences are
known.

### Simplifications

* Strings are lists of Unicode scalar values with their UTF-8 lengths; slicing at byte offsets is checked as in Rust.
* `Result` with a panic is the type `Res` (ok, err, panic); error values are dropped.
* Memory and stack are unlimited.
* `u32`/`u64`/`i32` are mathematical integers with the range check or overflow outcome where the code has one.

### How to read the results

A claim is `proved` if the statement in `properties.jsonl` is proved for all inputs.  It is `partial` if the code
violates the statement: then a theorem with the suffix `_violated` gives the witness, and the theorems with `_partial`
(or an exact iff) say what does hold.  `seeded/LOG.jsonl` lists the wrong programs the theorems were tried on.
