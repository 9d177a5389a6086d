{"id": "C01", "title": "Timezone suffix parsing accepts exactly the XSD timezone lexical space", "statement": "parse_timezone(s) returns Ok(offset) exactly when s is 'Z' (offset 0) or a sign, two digits, ':', two digits denoting at most 14:00 with minutes below 60, and then offset is exactly +/-(3600*hh+60*mm) seconds; every other non-empty string whose first character is ASCII returns Err, never a panic.", "quantifier": "every Unicode string", "why_tests_cant": "infinite set of strings; unit tests only exercise about a dozen literals and cannot exclude some odd string being accepted or mis-valued", "anchors": ["xsd-types/src/types/utils.rs: parse_timezone"]}
{"id": "C02", "title": "Timezone display/parse round trip", "statement": "For every fixed offset that is a whole number of minutes within +/-14:00, formatting it and parsing the text gives the same offset back; no offset outside that set can ever be produced by the parser.", "quantifier": "every fixed offset chrono can represent", "why_tests_cant": "1681 representable offsets times every place they are used; tests try four", "anchors": ["xsd-types/src/types/utils.rs: parse_timezone", "chrono FixedOffset Display"]}
{"id": "C03", "title": "gDay parsing accepts exactly the XSD gDay lexical space", "statement": "GDay::from_str(s) is Ok exactly when s is '---' + two digits 01..31 + optional XSD timezone, and then the value and timezone are the denoted ones; on any other text that has only ASCII characters it returns Err and does not panic.", "quantifier": "every string", "why_tests_cant": "infinite input space; the parser decides by counting '-' and '+' characters, so only a proof excludes confusions between sign, separator and timezone", "anchors": ["xsd-types/src/types/gday.rs: GDay::from_str, parse_value"]}
{"id": "C04", "title": "gMonth parsing accepts exactly the XSD gMonth lexical space", "statement": "GMonth::from_str(s) is Ok exactly when s is '--' + two digits 01..12 + optional XSD timezone, with exactly the denoted value and timezone; other ASCII text gives Err without panic.", "quantifier": "every string", "why_tests_cant": "infinite input space, decision by counting separators", "anchors": ["xsd-types/src/types/gmonth.rs: GMonth::from_str, parse_value"]}
{"id": "C05", "title": "gMonthDay parsing accepts exactly the XSD gMonthDay lexical space", "statement": "GMonthDay::from_str(s) is Ok exactly when s is '--MM-DD' + optional XSD timezone where MM is 01..12 and DD is within the longest length of that month (29 for February), with the denoted month, day, timezone; other ASCII text gives Err without panic.", "quantifier": "every string", "why_tests_cant": "infinite input space, decision by counting separators; month-length table needs all months", "anchors": ["xsd-types/src/types/gmonthday.rs: GMonthDay::from_str, GMonthDay::new, MONTH_MAX_LEN"]}
{"id": "C06", "title": "gYear parsing accepts exactly the XSD 1.0 gYear lexical space that fits i32", "statement": "GYear::from_str(s) is Ok exactly when s is optional '-', at least four digits whose value is between 1 and 2147483647, optional XSD timezone; value is signed accordingly. Every other string, ASCII or not, gives Err without panic. (Superfluous leading zeros such as 02020, which XSD 1.0 forbids, are accepted.)", "quantifier": "every string", "why_tests_cant": "infinite input space; leading minus, timezone minus and overflow boundary interact", "anchors": ["xsd-types/src/types/gyear.rs: GYear::from_str, parse_str_positive"]}
{"id": "C07", "title": "gYearMonth parsing accepts exactly the XSD 1.0 gYearMonth lexical space that fits i32", "statement": "GYearMonth::from_str(s) is Ok exactly when s is optional '-', at least four digits valued 1..2147483647, '-', two digits 01..12, optional XSD timezone, with the denoted values. Every other string gives Err without panic. (Superfluous leading zeros of the year are accepted.)", "quantifier": "every string", "why_tests_cant": "infinite input space; three different roles of '-' are told apart by counting", "anchors": ["xsd-types/src/types/gyearmonth.rs: GYearMonth::from_str, parse_str_positive"]}
{"id": "C08", "title": "Gregorian values survive display then parse", "statement": "For each of GDay, GMonth, GMonthDay, GYear, GYearMonth: any value that the public constructor accepts, with a timezone that is absent or a whole number of minutes within +/-14:00, formats to text which parses back to an equal value.", "quantifier": "every constructible value of the five types with an XSD timezone", "why_tests_cant": "about 2^32 years times 1681 offsets; tests format five values", "anchors": ["xsd-types/src/types/gday.rs", "xsd-types/src/types/gmonth.rs", "xsd-types/src/types/gmonthday.rs", "xsd-types/src/types/gyear.rs", "xsd-types/src/types/gyearmonth.rs"]}
{"id": "C09", "title": "Gregorian constructors and parsers never yield an out-of-range value", "statement": "new(...) succeeds exactly on calendar-valid components and preserves them; any value returned by from_str satisfies the same range predicate; gmonth()/gday()/gyear() projections of a valid value are valid and keep the timezone.", "quantifier": "every i32 component and every string", "why_tests_cant": "2^32 or 2^64 component values", "anchors": ["xsd-types/src/types/gmonthday.rs: new, gmonth, gday", "xsd-types/src/types/gyearmonth.rs: new, gyear, gmonth", "xsd-types/src/types/gday.rs: new", "xsd-types/src/types/gmonth.rs: new", "xsd-types/src/types/gyear.rs: new"]}
{"id": "C10", "title": "Parsing untrusted text never panics", "statement": "from_str of the gregorian, date, time, dateTime and integer types returns Ok or Err for every string. (Violated: non-ASCII text of the right byte length makes GDay, GMonth, GMonthDay slice inside a character.)", "quantifier": "every string including non-ASCII", "why_tests_cant": "panics occur only for particular byte-length/character-boundary combinations that tests do not enumerate", "anchors": ["xsd-types/src/types/gday.rs", "xsd-types/src/types/gmonth.rs", "xsd-types/src/types/gmonthday.rs", "xsd-types/src/types/utils.rs"]}
{"id": "C11", "title": "Duration parsing is complete for the XSD duration lexical space", "statement": "Every string of the XSD duration grammar (optional '-', 'P', components Y M D in order, 'T' with H M S in order, decimal seconds, at least one component) whose numbers fit u64 (and fraction at most 19 digits) is accepted with exactly the denoted sign, years, months, days, hours and minutes, and seconds within rounding. (Not always the nearest double: PT1.14S.)", "quantifier": "every well-formed duration text", "why_tests_cant": "infinite grammar: any subset of components, any digits", "anchors": ["xsd-types/src/types/duration.rs: Duration::from_str"]}
{"id": "C12", "title": "Duration parsing rejects everything outside the XSD duration lexical space", "statement": "If Duration::from_str(s) is Ok then s is empty or belongs to the XSD duration grammar and the result is the denoted value. (Violated: stray zeros such as 'P1Y0', 'P0T1H', 'PT1H0.5' are accepted; accepted language is characterised exactly instead.)", "quantifier": "every string", "why_tests_cant": "infinite set of malformed strings", "anchors": ["xsd-types/src/types/duration.rs: Duration::from_str, fill_component, fill_seconds"]}
{"id": "C13", "title": "Duration values survive display then parse", "statement": "Any duration with u64 components and whole non-negative seconds below 2^53, or more generally seconds given as a decimal fraction, formats to text that parses back to the same duration; the formatted text is in the XSD duration lexical space.", "quantifier": "every Duration value", "why_tests_cant": "2^320 component combinations; zero components are skipped by the formatter so all 64 presence patterns matter", "anchors": ["xsd-types/src/types/duration.rs: Display, from_str"]}
{"id": "C14", "title": "Duration to std conversion is exact or refused", "statement": "to_std_duration returns Err exactly when years or months are non-zero; otherwise it returns days*86400+hours*3600+minutes*60+whole seconds with the fractional nanoseconds, provided the sum fits u64; it is not allowed to change the sense of a negative duration. (Violated: the sign is ignored; overflow is not reported as Err.)", "quantifier": "every Duration value", "why_tests_cant": "arithmetic over all u64 components including overflow boundaries", "anchors": ["xsd-types/src/types/duration.rs: to_std_duration"]}
{"id": "C15", "title": "Duration parsing of huge numbers does not corrupt values", "statement": "For every string, either each component of the result equals the number written in the text or parsing reports Err. (Violated: a component above u64::MAX overflows - panic in debug builds, silent wrap-around in release builds; proved exact up to that boundary.)", "quantifier": "every string, every digit count", "why_tests_cant": "overflow only occurs for 20+ digit numbers, far from test literals", "anchors": ["xsd-types/src/types/duration.rs: digit arm of from_str"]}
{"id": "C16", "title": "Big integer types enforce their sign ranges", "statement": "Integer, NonNegativeInteger, PositiveInteger, NonPositiveInteger, NegativeInteger::from_str return Ok(v) exactly when the text is a decimal integer whose value v lies in the type's range, with no size limit. (Violated at one point: NonNegativeInteger refuses '-0'.)", "quantifier": "every string", "why_tests_cant": "unbounded integers; boundary at zero for each of five types", "anchors": ["xsd-types/src/types/integer.rs", "xsd-types/src/types/non_negative_integer.rs", "xsd-types/src/types/positive_integer.rs", "xsd-types/src/types/non_positive_integer.rs", "xsd-types/src/types/negative_integer.rs"]}
{"id": "C17", "title": "Big integer values survive display then parse", "statement": "For every in-range value of each of the five integer types, parsing its displayed text gives the value back. (Violated only for the derived Default of PositiveInteger and NegativeInteger, which is the out-of-range value 0.)", "quantifier": "every integer of any size", "why_tests_cant": "unbounded domain", "anchors": ["xsd-types/src/types/integer.rs: Display", "xsd-types/src/types/positive_integer.rs: Default", "xsd-types/src/types/negative_integer.rs: Default"]}
{"id": "C18", "title": "Big integer parsing accepts only the XSD lexical space", "statement": "Accepted texts are an optional sign followed by one or more digits. (Violated: num-bigint also accepts '_' between digits; characterised exactly.)", "quantifier": "every string", "why_tests_cant": "infinite set of malformed strings", "anchors": ["xsd-types/src/types/integer.rs: from_str", "num_bigint BigInt::from_str"]}
{"id": "C19", "title": "Date values with four-digit years survive display then parse", "statement": "For every calendar-valid date with year 0..9999 and absent or whole-minute timezone within +/-14:00, from_str(to_string(d)) = d. (Violated for years beyond 9999 and for negative years, where the sign is mistaken for a timezone separator.)", "quantifier": "every calendar date", "why_tests_cant": "3.6 million dates times 1682 timezones", "anchors": ["xsd-types/src/types/date.rs: Date::from_str, Display"]}
{"id": "C20", "title": "Date parsing accepts every XSD date with a four-digit year and gets its value right", "statement": "Every text YYYY-MM-DD with optional XSD timezone and a valid proleptic Gregorian date is accepted with exactly that date and timezone; an accepted text never denotes an invalid calendar date (leap years included).", "quantifier": "every string", "why_tests_cant": "leap-year rule over all years; separators counted", "anchors": ["xsd-types/src/types/date.rs: Date::from_str"]}
{"id": "C21", "title": "Time values survive display then parse up to whole seconds", "statement": "For every time of day with whole seconds (leap second 60 included) and an absent or in-range timezone, from_str(to_string(t)) = t; fractional seconds are lost. Every hh:mm:ss text with optional timezone is accepted with its value. (Violated: fractional seconds, legal in XSD, are rejected on input and dropped on output.)", "quantifier": "every time value", "why_tests_cant": "86401*10^9 values times 1682 timezones", "anchors": ["xsd-types/src/types/time.rs: Time::from_str, Display"]}
{"id": "C22", "title": "DateTime parsing treats a missing timezone as UTC and otherwise keeps the given offset", "statement": "For every text YYYY-MM-DDThh:mm:ss with optional fraction and valid components: without timezone from_str yields the UTC instant, with 'Z' or +/-hh:mm it yields that local time with that offset; the detection of 'timezone present' is never fooled by the date separators.", "quantifier": "every dateTime text with a four-digit year", "why_tests_cant": "infinite fractions, all dates, offsets", "anchors": ["xsd-types/src/types/datetime.rs: DateTime::from_str"]}
{"id": "C23", "title": "DateTime values survive display then parse", "statement": "For every valid date-time with year 0..9999, nanosecond precision and whole-minute offset below 24h, from_str(to_string(x)) gives the same local time, nanoseconds and offset.", "quantifier": "every dateTime value", "why_tests_cant": "about 10^23 values", "anchors": ["xsd-types/src/types/datetime.rs: Display, from_str"]}
{"id": "C24", "title": "DateTimeStamp requires a timezone", "statement": "DateTimeStamp::from_str never accepts text lacking an explicit timezone; whenever it accepts, DateTime::from_str accepts the same text with the same value; with timezone present they agree completely. (Agreement violated for exactly two RFC 3339 variants: lower-case 'z' and U+2212 as sign are accepted by DateTimeStamp and refused by DateTime.)", "quantifier": "every string", "why_tests_cant": "negative universal over all strings", "anchors": ["xsd-types/src/types/datetimestamp.rs", "xsd-types/src/types/datetime.rs"]}
{"id": "C25", "title": "XML (de)serialization of simple types goes through their text form", "statement": "Serializing a simple value writes one start tag (unless suppressed), its text, one end tag; deserializing such an element returns exactly from_str(text) (from_str of empty text for an empty element) and consumes only its own start tag; so round trip through XML equals round trip through text.", "quantifier": "every value, element name, skip flag and reader position", "why_tests_cant": "every type that derives the serde impls and every stream context", "anchors": ["xsd-types/src/utils/yaserde.rs: serialize, deserialize", "xsd-macro-utils/src/lib.rs: default_serde"]}
{"id": "C26", "title": "List-typed values survive display then parse", "statement": "For a generated tuple struct over Vec<T>: if every item's text is non-empty, has no whitespace and parses back, then the whole list parses back, in order. Items whose text does not parse are silently dropped rather than reported (violated stronger claim: from_str never loses an item).", "quantifier": "every list of items of any item type", "why_tests_cant": "unbounded lists and arbitrary item types", "anchors": ["xsd-macro-utils/src/tuple.rs: from_str, display"]}
{"id": "C27", "title": "Union deserialization picks the first member type that accepts the text", "statement": "For a generated union enum, deserialization of text s yields the first declared variant whose type parses s, and the __Unknown__ variant holding s itself if none does; it never fails; serialization writes the member's text, and an __Unknown__ value serializes to empty text (loses its content).", "quantifier": "every member list and every text", "why_tests_cant": "arbitrary many member types in any order", "anchors": ["xsd-macro-utils/src/union.rs: serde"]}
{"id": "C28", "title": "Built-in XSD types map exactly per the published table", "statement": "match_built_in_type gives Some(rust type) exactly for the documented type names, and only when the reference's prefix equals the schema's XML Schema prefix (including both absent); any other prefix or name gives None.", "quantifier": "every type reference string and every namespace prefix", "why_tests_cant": "arbitrary prefixes/names; tests check a couple", "anchors": ["xsd-parser/src/generator/utils.rs: match_built_in_type", "README.md mapping table"]}
{"id": "C29", "title": "Sanitized identifiers are never listed keywords and never start with a digit", "statement": "sanitize(s) never returns a string in the keyword list and never one starting with a numeric character; it leaves all other non-empty strings unchanged, only ever prepends one underscore, and is idempotent. (Violated stronger claim: it is not injective and reserved word 'try' is not covered.)", "quantifier": "every string", "why_tests_cant": "all strings", "anchors": ["xsd-parser/src/generator/utils.rs: sanitize, RS_KEYWORDS"]}
{"id": "C30", "title": "Generated field and type names are legal identifiers", "statement": "For every XML name that has at least one ASCII letter or digit in its local part and consists of ASCII name characters, the generated field name is non-empty, has only [a-z0-9_], does not start with a digit and is not a listed keyword; the generated type name likewise over [A-Za-z0-9_].", "quantifier": "every ASCII XML name", "why_tests_cant": "all names; interplay of case conversion, prefix stripping and keyword escaping", "anchors": ["xsd-parser/src/generator/default.rs: default_format_name, default_format_type", "xsd-parser/src/generator/utils.rs"]}
{"id": "C31", "title": "Field names of one type do not clash", "statement": "Two distinct XML names never map to the same generated field name. (Violated: case conversion and prefix dropping merge names, e.g. fooBar and foo_bar.)", "quantifier": "every pair of names", "why_tests_cant": "quadratic in all names", "anchors": ["xsd-parser/src/generator/default.rs: default_format_name"]}
{"id": "C32", "title": "Type references are qualified by module exactly when they belong to another namespace", "statement": "default_format_type returns the built-in mapping for XSD built-ins, a bare type name when the reference has the target namespace's prefix (or no prefix), and prefix::Name otherwise.", "quantifier": "every type reference, target namespace and XSD namespace", "why_tests_cant": "all prefixes and names", "anchors": ["xsd-parser/src/generator/default.rs: default_format_type"]}
{"id": "C33", "title": "Type modifiers nest in the given order", "statement": "default_modify_type wraps the base type once per Array/Option modifier, last modifier outermost; Empty anywhere yields (), otherwise Recursive anywhere yields a Vec of the base; None adds nothing.", "quantifier": "every modifier list and base type", "why_tests_cant": "lists of any length", "anchors": ["xsd-parser/src/generator/default.rs: default_modify_type"]}
{"id": "C34", "title": "Documentation text cannot escape the generated comment", "statement": "Whatever documentation text a schema contains, every line of the formatted comment starts (after indentation) with '//', so schema text is never emitted as code; each kept documentation word appears once and in order.", "quantifier": "every documentation string, every max line length and indent", "why_tests_cant": "arbitrary text with newlines, long words, unicode", "anchors": ["xsd-parser/src/generator/default.rs: default_format_comment", "xsd-parser/src/generator/utils.rs: split_comment_line"]}
{"id": "C35", "title": "Generated validation enforces exactly the numeric and length facets", "statement": "The validate() emitted for a restricted tuple struct returns Ok exactly when the value satisfies all of its min/max inclusive/exclusive and length/minLength/maxLength facets (length in bytes of the Rust string). (Violated stronger claims: enumeration, pattern and digit facets are not enforced; string length counts bytes instead of characters.)", "quantifier": "every facet list and every value", "why_tests_cant": "all combinations of facets and boundary values", "anchors": ["xsd-parser/src/generator/validator.rs: gen_validate_impl, gen_facet_validation", "xsd-parser/src/generator/tuple_struct.rs"]}
{"id": "C36", "title": "Every struct field is generated exactly once and in order", "statement": "The code of a struct lists its fields in order, one per parsed field, omitting exactly the fields with the Empty modifier; subtypes appear in one nested module named after the type, and none is emitted when there are no subtypes.", "quantifier": "every struct", "why_tests_cant": "arbitrary field lists and nesting", "anchors": ["xsd-parser/src/generator/struct.rs: generate, fields, subtypes", "xsd-parser/src/generator/struct_field.rs"]}
{"id": "C37", "title": "Code generation is repeatable", "statement": "Generating code twice from the same parsed file gives identical text. (Violated: generating mutates field types by prefixing a module path; repeatable when no field carries nested types.)", "quantifier": "every parsed file", "why_tests_cant": "statefulness only shows on second call with nested types", "anchors": ["xsd-parser/src/generator/struct.rs: fields", "xsd-parser/src/generator/mod.rs: generate_rs_file"]}
{"id": "C38", "title": "Every enumeration case is generated once, with an unknown fallback", "statement": "The enum generated for a restriction/choice/union has one variant per case in order plus exactly one __Unknown__ variant which is its Default.", "quantifier": "every enum", "why_tests_cant": "arbitrary case lists", "anchors": ["xsd-parser/src/generator/enum.rs", "xsd-parser/src/generator/enum_case.rs"]}
{"id": "C39", "title": "A customised generator keeps the user's parts and fills in defaults", "statement": "GeneratorBuilder.build() always yields a generator with all parts present; parts supplied by the user are kept, the last one supplied wins, missing parts get the default, independent of call order.", "quantifier": "every sequence of builder calls", "why_tests_cant": "all call sequences", "anchors": ["xsd-parser/src/generator/builder.rs"]}
{"id": "C40", "title": "Element cardinality is respected by field types", "statement": "The modifier chosen from minOccurs/maxOccurs admits every legal number of occurrences: plain field only when exactly one is allowed, Option only when zero or one, Vec for more. (Violated: minOccurs=0 with explicit maxOccurs=1 becomes a mandatory field; maxOccurs=0 becomes mandatory.)", "quantifier": "every minOccurs and maxOccurs attribute value, including absent and malformed ones", "why_tests_cant": "all pairs of naturals and arbitrary attribute texts", "anchors": ["xsd-parser/src/parser/element.rs: element_modifier", "xsd-parser/src/parser/xsd_elements.rs: min_occurs, max_occurs"]}
{"id": "C41", "title": "Sequences map each child to one field in document order", "statement": "Parsing xs:sequence/xs:all yields one field per element/any/choice child in order, with the declared name and type, skipping only annotations and non-elements; nested sequences etc. are rejected loudly rather than dropped.", "quantifier": "every sequence content", "why_tests_cant": "arbitrary child lists", "anchors": ["xsd-parser/src/parser/sequence.rs", "xsd-parser/src/parser/all.rs", "xsd-parser/src/parser/element.rs"]}
{"id": "C42", "title": "Attribute use is respected", "statement": "An attribute becomes Option when use is optional or absent, plain when required, omitted when prohibited; its type is the declared type, the reference, or String when none is given.", "quantifier": "every attribute declaration", "why_tests_cant": "all attribute combinations", "anchors": ["xsd-parser/src/parser/attribute.rs", "xsd-parser/src/parser/xsd_elements.rs: attr_use"]}
{"id": "C43", "title": "Every global declaration yields exactly one entity in document order", "statement": "parse_schema's types list has one entry per top-level child element other than annotation and attributeGroup, in order, carrying the declared name; attribute groups are collected separately, in order.", "quantifier": "every schema document", "why_tests_cant": "arbitrary documents", "anchors": ["xsd-parser/src/parser/schema.rs: parse_schema", "xsd-parser/src/parser/node_parser.rs: parse_node"]}
{"id": "C44", "title": "Extension bases are flattened", "statement": "After parse, a struct deriving from a base in the same file has all its own fields first in order, then the base's (transitively inherited) fields not already present by name, and no internal base marker remains. (Violated when a derived type precedes its base and that base itself has a base; proved for base-before-derived order.)", "quantifier": "every inheritance chain and declaration order", "why_tests_cant": "chains of any depth and any order", "anchors": ["xsd-parser/src/parser/types.rs: extend_base, get_types_map", "xsd-parser/src/parser/mod.rs: parse", "xsd-parser/src/parser/extension.rs"]}
{"id": "C45", "title": "Attribute groups are expanded", "statement": "After parse, a top-level struct referencing attribute groups has the fields of all referenced groups appended in reference order, own fields kept first. References to unknown groups add nothing. (Violated stronger claim: groups nested in groups and groups referenced by nested types are not expanded.)", "quantifier": "every schema with attribute groups", "why_tests_cant": "arbitrary reference structure", "anchors": ["xsd-parser/src/parser/types.rs: extend_attribute_group", "xsd-parser/src/parser/attribute_group.rs", "xsd-parser/src/parser/mod.rs: parse"]}
{"id": "C46", "title": "Simple restrictions become enums with one case per enumeration value", "statement": "A simpleType restriction whose enumeration values are all non-empty and alphanumeric-or-dash becomes an enum whose cases are those values in order; otherwise it becomes a tuple struct over the base type carrying all its facets in order.", "quantifier": "every restriction", "why_tests_cant": "arbitrary facet lists", "anchors": ["xsd-parser/src/parser/restriction.rs"]}
{"id": "C47", "title": "Union members are all represented", "statement": "A union has one case per whitespace-separated member type in order, followed by one case per inline simple type, each inline type kept as a nested type whose name is the case's type.", "quantifier": "every union", "why_tests_cant": "arbitrary member lists", "anchors": ["xsd-parser/src/parser/union.rs: parse_union, create_enum_cases"]}
{"id": "C48", "title": "Schema prefixes are resolved by namespace URI", "statement": "The XSD prefix used for built-in lookup is a prefix bound to the XML Schema namespace (a named one if any); the target prefix is one bound to the target namespace; both independent of the prefix spelling.", "quantifier": "every set of namespace declarations", "why_tests_cant": "arbitrary prefixes and declaration order", "anchors": ["xsd-parser/src/parser/schema.rs", "xsd-parser/src/parser/utils.rs: target_namespace"]}
{"id": "C49", "title": "WSDL operation kinds are classified by input/output order", "statement": "An operation whose first input/output child is input is request-response if the very next element is output, and one-way if nothing follows; with output first it is solicit-response if followed by input and notification if nothing follows; the faults are all later fault elements in order; otherwise the program panics. (Violated: any other element after the input or output, such as documentation, should not matter, but makes the program panic.)", "quantifier": "every operation child list", "why_tests_cant": "arbitrary child sequences", "anchors": ["wsdl-parser/src/parser/port_type.rs: OperationType::new"]}
{"id": "C50", "title": "Each WSDL operation yields one client function with the right parameters and types", "statement": "For every one-way or request-response operation exactly one function is generated, in declaration order within its port type; first parameter is the transport; a one-part input message gives a single request parameter, several parts give one parameter per part in order; return type comes from the output message.", "quantifier": "every WSDL document", "why_tests_cant": "arbitrary documents", "anchors": ["wsdl-parser/src/generator/function.rs", "wsdl-parser/src/generator/mod.rs: generate"]}
{"id": "C51", "title": "Message references are resolved by local name", "statement": "Looking up a message by a possibly prefixed parameter returns the message whose name equals the text after the last colon and nothing else; duplicate message, portType or binding names are refused rather than overwritten.", "quantifier": "every definitions document and reference", "why_tests_cant": "arbitrary names", "anchors": ["wsdl-parser/src/parser/definitions.rs: Definitions::new, get_message_by_param"]}
{"id": "C52", "title": "Directory conversion mirrors the input tree", "statement": "process_dir writes for every input file exactly one output file at the mirrored path with extension rs, makes the directories and changes nothing else; it succeeds if every file can be converted and nothing is in the way. (Violated when two inputs in one directory differ only in extension: the later overwrites the earlier.)", "quantifier": "every directory tree and listing order", "why_tests_cant": "arbitrary trees and OS-dependent listing order", "anchors": ["xsd-parser-cli/src/main.rs: process_dir, process_single_file", "wsdl-parser-cli/src/main.rs: process_dir"]}
{"id": "C53", "title": "A crash while writing never leaves a partial output file", "statement": "At every crash point of a conversion the output file holds either its previous content or the complete new code. (Violated: the file is truncated before writing; proved instead that generation finishes before the output is touched, so a failing parse never modifies the output.)", "quantifier": "every crash point and previous file content", "why_tests_cant": "crash points inside I/O calls are not reachable from unit tests", "anchors": ["xsd-parser-cli/src/main.rs: process_single_file, write_to_file"]}
{"id": "C54", "title": "The generated text is lexically complete", "statement": "In the text generated for a whole file all brackets match and every string literal and comment ends, whatever entities it has and however deep they are nested. (Violated when schema strings with quotation marks or line feeds are copied into string literals or line comments; proved for all other inputs.)", "quantifier": "every list of entities, target namespace, nesting depth", "why_tests_cant": "arbitrary nesting, names, documentation and facets; the failing inputs are rare in test schemas", "anchors": ["xsd-parser/src/generator/*.rs"]}
{"id": "C55", "title": "Code generation panics only on bad length facets", "statement": "Generating a file panics exactly when some simple type in it, at any depth, has a length, minLength or maxLength facet which is not an unsigned 32-bit number; otherwise it yields a text.", "quantifier": "every list of entities", "why_tests_cant": "an exact panic condition over all entity trees", "anchors": ["xsd-parser/src/generator/validator.rs", "xsd-parser/src/generator/mod.rs: generate_rs_file, generate"]}
{"id": "C56", "title": "Aliases and imports generate no code", "statement": "The texts for type aliases and imports consist of comments only. (Violated by aliases with documentation, where the line break of the comment turns the definition into code; and by import locations with line feeds.)", "quantifier": "every alias and import, every documentation", "why_tests_cant": "depends on the documentation text of all schemas", "anchors": ["xsd-parser/src/generator/alias.rs", "xsd-parser/src/generator/import.rs"]}
{"id": "C57", "title": "Inline types are found under the path their field uses", "statement": "If a field carries an anonymous inline type, the type written for the field is a path m::T such that the struct defines a module m with a definition of T in it. (Violated when sanitising the name adds an underscore or the name reads as a built-in type.)", "quantifier": "every struct with fields carrying inline types", "why_tests_cant": "arbitrary names and nesting", "anchors": ["xsd-parser/src/generator/struct.rs", "xsd-parser/src/generator/struct_field.rs"]}
{"id": "C58", "title": "A WSDL document is read completely and duplicates are refused", "statement": "Definitions::new succeeds with d exactly if d holds every import, types, message, portType and binding child of the root once and in order under its namespace or name, with all parts, operations, inputs, outputs and faults; names of one kind must differ and every operation must have a kind. Otherwise it panics.", "quantifier": "every document tree", "why_tests_cant": "arbitrary documents", "anchors": ["wsdl-parser/src/parser/definitions.rs: Definitions::new", "wsdl-parser/src/parser/message.rs", "wsdl-parser/src/parser/port_type.rs", "wsdl-parser/src/parser/binding.rs"]}
{"id": "C59", "title": "Generated client functions are lexically complete", "statement": "In the text of the functions for a WSDL document all brackets are closed in order and all strings and comments are ended, whatever the documentation of the operations says, if part names and type prefixes have no characters outside of XML names.", "quantifier": "every document, every order of port types", "why_tests_cant": "arbitrary documentation text and names", "anchors": ["wsdl-parser/src/generator/mod.rs: generate, gen_func"]}
{"id": "C60", "title": "WSDL code consists of the embedded schemas and the functions", "statement": "The code for a WSDL document is, for each schema inside types in document order, the code which the schema has in a file of its own, followed by the functions. (Violated: the derivation step is left out for embedded schemas, so derived types lack the members of their base.)", "quantifier": "every document", "why_tests_cant": "arbitrary documents", "anchors": ["wsdl-parser-cli/src/main.rs: process_single_file", "wsdl-parser/src/parser/types.rs"]}
{"id": "C61", "title": "An output directory inside the input directory is never converted completely", "statement": "If the output path leads through the input directory, process_dir never returns Ok: the output directory is listed as input, its copy is made inside of it, and so on without end.", "quantifier": "every file system, every position of the output below the input, every listing order and recursion depth", "why_tests_cant": "the run does not end; any test needs a bound", "anchors": ["xsd-parser-cli/src/main.rs: process_dir", "wsdl-parser-cli/src/main.rs: process_dir"]}
{"id": "C62", "title": "Decimal accepts exactly the XSD decimals", "statement": "Decimal::from_str accepts a text exactly if it is an optional sign and digits with at most one point and at least one digit, and the value is the denoted number. (Violated: exponents, underscores, and a sign after a leading point are accepted too.)", "quantifier": "every string", "why_tests_cant": "unbounded texts and digits", "anchors": ["xsd-types/src/types/decimal.rs: FromStr"]}
{"id": "C63", "title": "Decimal values survive writing and reading", "statement": "For every decimal, from_str(to_string()) gives the same number, and the same digits and scale if the scale is not negative; the text is an XSD decimal with this value. (Violated for numbers which are written with an exponent.)", "quantifier": "every coefficient and scale, every threshold for exponents", "why_tests_cant": "unbounded digits and all scales", "anchors": ["xsd-types/src/types/decimal.rs: Display, FromStr"]}
{"id": "C64", "title": "The code for a schema document is lexically complete", "statement": "For every schema document whose names, type prefixes, namespace URIs, import locations and bounds contain no quotation mark, backslash or line feed (prefixes: no punctuation), the whole generated file has matching brackets and no unterminated string or comment, whatever the structure of the schema, including the derivation step. (Violated without the assumption.)", "quantifier": "every schema document", "why_tests_cant": "documents of any size and nesting", "anchors": ["xsd-parser-cli/src/main.rs: process_single_file", "xsd-parser/src/parser/parser.rs: parse", "xsd-parser/src/generator/mod.rs: generate_rs_file"]}
{"id": "C65", "title": "The code for a schema document defines what the schema declares", "statement": "The definitions at the top level of the generated file, read back from the text, are those of the global declarations in document order and nothing else: a struct or enum for each type, element or attribute as its content demands, with the extra definitions for choices, unions and lists; and their names are distinct and not empty. (The part on names is violated.)", "quantifier": "every grammatical schema document", "why_tests_cant": "documents of any size and nesting", "anchors": ["xsd-parser-cli/src/main.rs: process_single_file", "xsd-parser/src/parser/schema.rs", "xsd-parser/src/generator/mod.rs"]}
{"id": "C66", "title": "References within a schema are defined", "statement": "A reference to a global declaration of the same schema, according to the declared prefixes, is written in the code as the name of a definition at the top level. (Violated for elements with a type, for a second prefix of the target namespace, and for types called like built-in ones.)", "quantifier": "every grammatical schema document, reference and declaration", "why_tests_cant": "documents of any size", "anchors": ["xsd-parser/src/generator/default.rs: default_format_type", "xsd-parser/src/parser/element.rs", "xsd-parser/src/generator/alias.rs"]}
{"id": "C67", "title": "Legal schemas are converted without panic", "statement": "For every schema document within the supported grammar (explicit list of conditions on tags and attributes), parser, derivation step and generator return a text, which is lexically complete and has the definitions of the global declarations. (Violated by legal schemas with groups, nested sequences, untyped elements, redefine, notation and others.)", "quantifier": "every schema document of the supported grammar, of any size and nesting", "why_tests_cant": "documents of any size and nesting; panics hide in combinations of features", "anchors": ["xsd-parser-cli/src/main.rs: process_single_file", "xsd-parser/src/parser/node_parser.rs", "xsd-parser/src/generator/mod.rs"]}
{"id": "C68", "title": "Structs have the fields of their complex types", "statement": "For every converted schema, the struct written for a complex type has exactly the members for its sequence elements, attributes, inherited fields of its base and attributes of its groups, in order, with the Rust name, type and XML name. (Violated for bases of other namespaces, bases which come later, attribute groups next to a sequence.)", "quantifier": "every regular schema document of any size, every global complex type in it", "why_tests_cant": "arbitrary chains of derivation and orders of declarations", "anchors": ["xsd-parser/src/parser/complex_type.rs", "xsd-parser/src/parser/sequence.rs", "xsd-parser/src/parser/types.rs: Struct::extend_base, extend_attribute_group", "xsd-parser/src/generator/struct.rs"]}
{"id": "C69", "title": "The generated file has exactly the items for its entities", "statement": "Reading the generated text line by line yields, on every level of nesting and in order, exactly: a definition per entity with its attributes and members, its Validate implementation which enforces its facets, a Default implementation per enum, and a module with `use super::*;` for what is inside a struct. Outside the blocks there is nothing else but comments. Every struct and enum has a Validate implementation next to it.", "quantifier": "every file of entities of any size and nesting; every schema document", "why_tests_cant": "nesting of inline types is unbounded, and a test only compares a few expected files", "anchors": ["xsd-parser/src/generator/mod.rs", "xsd-parser/src/generator/struct.rs", "xsd-parser/src/generator/enum.rs", "xsd-parser/src/generator/tuple_struct.rs", "xsd-parser/src/generator/validator.rs"]}
{"id": "C70", "title": "Generated types implement the traits that are used", "statement": "In the generated text every struct and enum implements, exactly once and in its own module, Default, PartialEq, Debug, Validate, YaSerialize and YaDeserialize; simple types also FromStr and Display; all but unions Clone. A type derives a trait only if the types of its members implement it.", "quantifier": "every file of entities of any size and nesting; every schema document", "why_tests_cant": "which combinations of types occur inside each other is unbounded; tests cover single kinds of types", "anchors": ["xsd-parser/src/generator/struct.rs", "xsd-parser/src/generator/enum.rs:61-90", "xsd-parser/src/generator/tuple_struct.rs", "xsd-macro-utils/src/lib.rs", "xsd-macro-utils/src/tuple.rs", "xsd-macro-utils/src/union.rs"]}
{"id": "C71", "title": "Generated types have finite size", "statement": "No generated type contains a value of itself, directly or through other types, except behind a vector.", "quantifier": "every schema document", "why_tests_cant": "cycles between types can have any length and run through inheritance, choices and inline types", "anchors": ["xsd-parser/src/parser/sequence.rs:24-40", "xsd-parser/src/parser/all.rs:24-40", "xsd-parser/src/generator/default.rs:45-65"]}
{"id": "C72", "title": "Global simple types in the generated code", "statement": "A global simple type becomes: for a restriction which is no enumeration of names, a tuple struct around the base type with a Validate implementation which accepts a value exactly if it meets all facets; for an enumeration of names, an enum with one variant for each value in order, renamed where the identifier differs, and an unknown variant; for a list, a tuple struct around a vector of the item type without checks; for a union, an enum with a variant for each member type, first the named ones, then the inline ones.", "quantifier": "every schema document and every global simple type in it", "why_tests_cant": "the facets, values and member types can be arbitrarily many and are combined with arbitrary other declarations in the same document", "anchors": ["xsd-parser/src/parser/simple_type.rs", "xsd-parser/src/parser/restriction.rs", "xsd-parser/src/parser/list.rs", "xsd-parser/src/parser/union.rs", "xsd-parser/src/generator/tuple_struct.rs", "xsd-parser/src/generator/enum.rs", "xsd-parser/src/generator/validator.rs"]}
{"id": "C73", "title": "The whole conversion follows a declarative description", "statement": "For every schema document that follows the grammar of XML Schema there is a declarative description of the file it denotes (one entity per global declaration and per attribute group, inline types read recursively, namespaces by URI, fields of bases and attribute groups copied in); the parser returns a file exactly if it is the described one, the description is deterministic, conversion succeeds exactly if there is such a file and its length facets are 32 bit numbers, and the generated text consists of exactly the items for the entities of that file, in order.", "quantifier": "every schema document with any nesting of inline types, every file and every text", "why_tests_cant": "documents are unbounded trees, and the equivalence also says that the parser returns nothing else", "anchors": ["xsd-parser/src/parser/mod.rs", "xsd-parser/src/parser/node_parser.rs", "xsd-parser/src/parser/schema.rs", "xsd-parser/src/parser/complex_type.rs", "xsd-parser/src/parser/sequence.rs", "xsd-parser/src/parser/choice.rs", "xsd-parser/src/parser/simple_type.rs", "xsd-parser/src/parser/extension.rs", "xsd-parser/src/parser/union.rs", "xsd-parser/src/parser/list.rs"]}
{"id": "C74", "title": "Values compare as XML Schema says, so bounds are enforced", "statement": "The derived order of the value types is the order of XML Schema: integers and decimals by value, date-times by their place on the time line, durations by what they give when added to the four reference dates; so the checks generated for minInclusive, minExclusive, maxInclusive and maxExclusive accept exactly the values within the bounds.", "quantifier": "every pair of values of each type, and every restriction with any list of bounds, each with any legal literal", "why_tests_cant": "pairs of values and lists of bounds are unbounded; the order of date-times needs the calendar across all years and offsets", "anchors": ["xsd-types/src/types/duration.rs:5-14", "xsd-types/src/types/datetime.rs:6-9", "xsd-types/src/types/datetimestamp.rs:9-12", "xsd-types/src/types/decimal.rs:6-7", "xsd-types/src/types/integer.rs:7-8", "xsd-types/src/types/non_negative_integer.rs:7-8", "xsd-types/src/types/positive_integer.rs:7-8", "xsd-parser/src/generator/validator.rs:52-133"]}
{"id": "C75", "title": "Checks only use operations which the wrapped type has", "statement": "Every check in a generated Validate implementation uses comparison, parsing and printing of the wrapped type (bounds) or its length (lengths); the wrapped type, found through aliases and enclosing modules, has these operations, by an implementation in the generated code or from the library.", "quantifier": "every schema document, every Validate implementation on every level of nesting, every list of facets, every built-in type", "why_tests_cant": "bases, facets and nesting combine without bound; the tests of the project only compare texts and compile a handful of restrictions of built-in types", "anchors": ["xsd-parser/src/generator/validator.rs:5-133", "xsd-parser/src/generator/tuple_struct.rs:8-58", "xsd-types/src/types/date.rs:8", "xsd-types/src/types/time.rs:8", "xsd-types/src/types/gday.rs:8", "xsd-types/src/types/datetime.rs:6"]}
{"id": "C76", "title": "Members are read under the XML names of the schema", "statement": "For every type with a sequence, the attributes on the generated fields give each member element and attribute the namespace and local name which the schema declares for it (name, form and form default, or the name and namespace of the referenced declaration); likewise for the variants of a choice.", "quantifier": "every schema document, every global struct-like or choice type, every member, all prefixes and forms", "why_tests_cant": "the name depends on prefixes, forms, defaults and nesting of the whole document; the tests of the project compare the generated text of fixed inputs, in which these names are already wrong", "anchors": ["xsd-parser/src/generator/default.rs:67-101", "xsd-parser/src/generator/struct_field.rs:9-56", "xsd-parser/src/generator/struct.rs:8-115", "xsd-parser/src/generator/enum.rs:8-97", "xsd-parser/src/parser/element.rs:36-150", "xsd-parser/src/parser/attribute.rs:10-37", "xsd-parser/src/parser/choice.rs:9-25"]}
{"id": "C77", "title": "Document elements are called like the global elements", "statement": "For every global element the code has a type which is read from and written as a document with the name of this element in the target namespace.", "quantifier": "every schema document, every global declaration, every name", "why_tests_cant": "names are arbitrary words and the conversion to type names is not injective; only a theorem says for which names reading and writing the document element is right", "anchors": ["xsd-parser/src/generator/struct.rs:8-115", "xsd-parser/src/generator/default.rs:24-45", "xsd-parser/src/parser/element.rs:36-150"]}
{"id": "C78", "title": "Built-in types are read as XML Schema says", "statement": "For every built-in type of XML Schema in the documented table, the Rust type named there reads every literal of the built-in type as the value which XML Schema gives to it, and reads nothing else.", "quantifier": "every built-in type of the table, every text, every value, all year ranges and build profiles", "why_tests_cant": "the literals of each type are infinitely many and the table pairs 45 types with 27 implementations; tests try a few literals of a few types", "anchors": ["xsd-parser/src/generator/utils.rs:21-96", "README.md", "xsd-types/src/types/date.rs:1-75", "xsd-types/src/types/datetime.rs:1-60", "xsd-types/src/types/decimal.rs:1-60"]}
{"id": "C79", "title": "Texts are read as the values which the schema gives them", "statement": "For every simple type declared in a schema, the generated type reads a text as the value which the schema gives to it: through the restrictions, lists and unions by which the type is declared down to the built-in types.", "quantifier": "every schema document, every named simple type, every text, every value, all implementations of from_str which follow the generated text", "why_tests_cant": "types nest to any depth and each has infinitely many texts; the property spans parser, generator, derive macros and library types, which the tests of the project never run together on values", "anchors": ["xsd-parser/src/parser/restriction.rs", "xsd-parser/src/parser/list.rs", "xsd-parser/src/parser/union.rs", "xsd-parser/src/generator/tuple_struct.rs", "xsd-macro-utils/src/tuple.rs", "xsd-macro-utils/src/union.rs", "xsd-parser/src/generator/utils.rs:21-96"]}
{"id": "C80", "title": "Values of built-in types are written as literals which denote them", "statement": "For every built-in type, whatever the Display of its Rust type writes is a literal of the type, and denotes the value written.", "quantifier": "every row of the table, every value of the Rust type, every way of printing doubles which identifies them, every rule for exponents of decimals", "why_tests_cant": "the values are infinite in number and include those which no parser returns; the tests of the project print a handful of values which they parsed before", "anchors": ["xsd-types/src/types/date.rs:73-81", "xsd-types/src/types/time.rs:77-85", "xsd-types/src/types/datetime.rs:45-49", "xsd-types/src/types/duration.rs:213-253", "xsd-types/src/types/gyear.rs:82-96", "xsd-types/src/types/gyearmonth.rs:111-125", "xsd-types/src/types/gday.rs:70-77", "xsd-types/src/types/positive_integer.rs", "xsd-types/src/types/decimal.rs", "xsd-parser/src/generator/utils.rs:21-96"]}
{"id": "C81", "title": "Values of generated simple types are written as texts which denote them", "statement": "For every simple type of the schema, what the Display of the generated type writes for a value is a text of that simple type, and denotes the value written.", "quantifier": "every well-formed schema document, every simple type in it derived by restriction and list to any depth, every value of the generated type built from properly written library values", "why_tests_cant": "it relates all schemas to the code generated for them and to all values of the types in it", "anchors": ["xsd-macro-utils/src/tuple.rs:51-81", "xsd-parser/src/generator/tuple_struct.rs", "xsd-parser/src/parser/simple_type.rs", "xsd-parser/src/parser/restriction.rs", "xsd-parser/src/parser/list.rs"]}
{"id": "C82", "title": "What a type writes is read back as the same value", "statement": "For every built-in type and every generated simple type, the text written for a value is read by the same type as a value which is the same value of XML Schema.", "quantifier": "every value of the Rust types; every well-formed schema document, every simple type in it derived by restriction and list to any depth, every value of the generated type built from such values", "why_tests_cant": "it is a claim about all values of all types, and about all schemas and the code generated for them", "anchors": ["xsd-types/src/types/date.rs", "xsd-types/src/types/datetime.rs", "xsd-types/src/types/gyear.rs", "xsd-types/src/types/gyearmonth.rs", "xsd-types/src/types/time.rs", "xsd-types/src/types/duration.rs", "xsd-types/src/types/decimal.rs", "xsd-macro-utils/src/tuple.rs:17-81"]}
{"id": "C83", "title": "Every type which is mentioned in the generated code is defined", "statement": "For every schema which refers to built-in types and to its own declarations only, each type mentioned by a field, tuple component or enum variant of the generated code is, once Option and Vec are taken away, a type of the library or one which is defined in the same file at a place where Rust looks for it.", "quantifier": "every well-formed schema document, every item of the code generated for it, every type mentioned there", "why_tests_cant": "it relates every reference in an arbitrary schema, nested and inherited ones included, to a definition elsewhere in the output; a missing definition shows only when the generated code of that very schema is compiled", "anchors": ["xsd-parser/src/parser/utils.rs", "xsd-parser/src/parser/element.rs", "xsd-parser/src/parser/complex_type.rs", "xsd-parser/src/parser/choice.rs", "xsd-parser/src/generator/base.rs", "xsd-parser/src/generator/utils.rs", "xsd-parser/src/generator/struct_field.rs"]}
{"id": "C84", "title": "The derive macros expand on the generated code", "statement": "Every item of the generated code which derives UtilsTupleIo or UtilsUnionSerDe has the shape which the macro expects: the macro neither reports a compile error nor panics, and for a union it tries all written variants in the order of the schema.", "quantifier": "every well-formed schema document, every item of the code generated for it", "why_tests_cant": "the macros run on the output of the generator for an arbitrary schema; an item on which they fail shows only when the code generated for that schema is compiled", "anchors": ["xsd-macro-utils/src/lib.rs", "xsd-macro-utils/src/tuple.rs", "xsd-macro-utils/src/union.rs", "xsd-parser/src/parser/list.rs", "xsd-parser/src/parser/union.rs", "xsd-parser/src/generator/tuple_struct.rs", "xsd-parser/src/generator/enum.rs"]}
{"id": "C85", "title": "XML texts compare as equal exactly if they differ in white space between tags only", "statement": "assert_xml_eq passes for the texts of two documents if and only if these have the same declaration and the same tree of elements, names, attributes, namespaces and content, apart from texts which are nothing but white space; otherwise it fails, and a document which is an initial part of the other does not pass.", "quantifier": "all pairs of documents; all pairs of event streams of a reader", "why_tests_cant": "it is the function by which the tests of the library decide; the loop over zipped iterators ends with the shorter one, so that whether it can pass by mistake is a question about all pairs of documents", "anchors": ["xsd-types/src/utils/xml_eq.rs"]}
{"id": "C86", "title": "A value of a union is read back from its text as the same value of the same member type", "statement": "What the generated type of a union writes for a value of one of its member types is a literal of this value in the member type, and reading it gives the same value in the variant of the same member type.", "quantifier": "all grammatical schema documents, all unions declared in them, all member types and all values of these; all readers and writers which agree with the library and the expansions of the macros", "why_tests_cant": "it depends on whether the values of the types before are written in ways which overlap, for which there is no end of combinations of types and values; the tests of the macro use two variants", "anchors": ["xsd-macro-utils/src/union.rs", "xsd-parser/src/generator/enum.rs", "xsd-parser/src/parser/union.rs"]}
{"id": "C87", "title": "Validation accepts exactly the values which the schema admits", "statement": "A value read by a generated type passes validate() exactly if the bounds and lengths of the simple type in the schema, and of the types it restricts, admit the value; a struct passes if all its fields do.", "quantifier": "all grammatical schema documents, all restrictions of built-in types with bounds or lengths declared in them, all literals of the built-in type; all readers which agree with the library and the expansions of the macros", "why_tests_cant": "there is no end of bounds and literals (other spellings of a number, points in time with other offsets, decimals with more digits) and the tests only check the text of one or two validate functions, never what they do with a value", "anchors": ["xsd-parser/src/generator/validator.rs", "xsd-parser/src/generator/tuple_struct.rs", "xsd-parser/src/generator/struct.rs", "xsd-macro-utils/src/tuple.rs", "xsd-types/src/types/datetime.rs"]}
{"id": "C88", "title": "Nothing but the meaning of the document has an influence on the generated code", "statement": "Schema documents which differ only in comments, processing instructions, text between the elements, attributes without meaning for the code, the order of attributes and annotations other than the documentation give the same code.", "quantifier": "all pairs of schema documents which say the same, all Unicode tables", "why_tests_cant": "it speaks about all pairs of documents; every parser function has its own filter of children, and one which lets a comment or a text pass is noticed only on documents which have one at that place", "anchors": ["xsd-parser/src/parser/node_parser.rs", "xsd-parser/src/parser/utils.rs", "xsd-parser/src/parser/xsd_elements.rs", "xsd-parser/src/parser/schema.rs"]}
{"id": "C89", "title": "The code for a declaration depends only on what it derives from", "statement": "Let b be the schema a without one declaration d, where no declaration of b derives from the name of d or refers to an attribute group of this name. If a is converted then so is b, and the code for a is the code for b with one piece put in (an empty one if d is an attribute group).", "quantifier": "all schema documents, all declarations in them, all Unicode tables", "why_tests_cant": "it relates the results for two documents, for every document and every declaration; the resolution of bases goes by positions and names in one map for the whole file, and a mistake there shows only for particular orders and names", "anchors": ["xsd-parser/src/parser/mod.rs", "xsd-parser/src/parser/types.rs", "xsd-parser/src/parser/schema.rs", "xsd-parser/src/generator/mod.rs"]}
{"id": "C90", "title": "The order of declarations which do not depend on each other has no meaning", "statement": "If the declarations of a schema are put into another order, where declarations which derive from each other or have the same name keep their order, then the code consists of the same pieces in another order; the place of attribute groups has no influence at all.", "quantifier": "all schema documents, all reorderings by exchanges of independent neighbours, all Unicode tables", "why_tests_cant": "it relates the results for two documents, for every document and every reordering; the structs are changed one after the other in place, and which state of another struct is seen depends on the positions of both", "anchors": ["xsd-parser/src/parser/mod.rs", "xsd-parser/src/parser/types.rs", "xsd-parser/src/parser/schema.rs", "xsd-parser/src/generator/mod.rs"]}
{"id": "C91", "title": "Only schemas, messages and operations of a service description have an influence on the client", "statement": "Two WSDL documents which can be read and whose embedded schemas, messages (by name) and port types (by name) say the same give the same code; so everything but types, message and portType elements can be removed from a document, and declarations can be in any order.", "quantifier": "all WSDL documents, all pairs which describe the same service, all Unicode tables", "why_tests_cant": "it relates the results for all pairs of documents which differ in parts that should be ignored; a test can only vary a few such parts of a few documents", "anchors": ["wsdl-parser/src/parser/definitions.rs", "wsdl-parser/src/parser/port_type.rs", "wsdl-parser/src/generator/function.rs", "wsdl-parser-cli/src/main.rs"]}
{"id": "C92", "title": "The choice of the prefix for XML Schema has no influence on the code", "statement": "If a schema declares another, unused prefix for the namespace of XML Schema and uses it in all references to built-in types, or makes it the default namespace, or gives a prefix to it where it was the default namespace, the generated code is the same (and the conversion fails if and only if it failed before). Violated for types of XML Schema which are not in the table of supported types, and with the default namespace for types of the schema which are called like a built-in type.", "quantifier": "all schema documents, all pairs of prefixes (including none), all Unicode tables", "why_tests_cant": "it relates the results for all pairs of documents which differ in a prefix; the test suite fixes one prefix per input file", "anchors": ["xsd-parser/src/parser/schema.rs", "xsd-parser/src/generator/utils.rs", "xsd-parser/src/generator/base.rs", "xsd-parser/src/parser/utils.rs"]}
{"id": "C93", "title": "Default values are values of their types", "statement": "default() of the Rust type for a simple type of the schema is the initial value (nothing, no, zero, the first of January of the year one, no items) of the built-in type at the bottom of its restrictions; it is a value of this built-in type, its text is a literal of the type and is read back; the checks of a wrapper accept its default exactly if the facets admit the initial value; default() of an enumeration, which makes a value of the base type from a text, is well-typed. Violated: positiveInteger and negativeInteger start with 0, which is not one of their values; facets are not considered; the default of an enumeration is well-typed exactly for base types which become String.", "quantifier": "all schema documents, all built-in types, all restrictions and lists with any facets, all Unicode tables and library parameters", "why_tests_cant": "whether defaults are valid depends on the facets of arbitrary schemas; tests construct values by hand or read them", "anchors": ["xsd-parser/src/generator/tuple_struct.rs", "xsd-parser/src/generator/enum.rs", "xsd-types/src/types/positive_integer.rs", "xsd-types/src/types/date.rs", "xsd-types/src/types/gday.rs", "xsd-parser/src/generator/validator.rs"]}
{"id": "C94", "title": "Unicode tables matter only at the characters of names, references and values", "statement": "Two versions of the Unicode tables of std (char::is_alphanumeric, is_numeric, is_lowercase, is_uppercase) which agree on the characters in the attributes name, ref, type, base, itemType, memberTypes, value and element of a document give the same code for it, or the same failure, for schemas and for service descriptions. In particular the code for documents whose names, references and values are ASCII does not depend on the Unicode version, whatever their comments contain. Documents with other letters do depend on it.", "quantifier": "all documents, all pairs of Unicode tables, all orders of port types", "why_tests_cant": "a test runs with the tables of one compiler version; this compares arbitrary tables on arbitrary documents", "anchors": ["xsd-parser/src/generator/utils.rs", "xsd-parser/src/generator/default.rs", "xsd-parser/src/parser/restriction.rs", "wsdl-parser/src/generator/mod.rs", "wsdl-parser-cli/src/main.rs"]}
{"id": "C95", "title": "Documentation stands above what it documents", "statement": "Reading the generated code line by line, comments, heads of definitions and members come in this order: above each definition, field and case stand the wrapped words of its documentation, each line of it on its own, and there are no other comments but commented-out aliases and imports. For a schema: the documentation of a complex type is above its struct (for a choice above the struct which holds it), that of elements, attributes and choice alternatives above their fields and cases, that of enumerated values above their variants, that of a simple type above its definition; an element or attribute with a type is an alias only if it has documentation, otherwise a comment. For a derived type the documentation of the derivation is taken and that of the type is lost, for a global element with an inline type that of the element is lost.", "quantifier": "all schema documents that are grammatical and have no line breaks or quotes in names, for which code is generated; all files of entities", "why_tests_cant": "the tests of the repository compare whole files for a few schemas; they say nothing about which documentation is kept for other combinations", "anchors": ["xsd-parser/src/generator/base.rs", "xsd-parser/src/generator/struct.rs", "xsd-parser/src/generator/enum.rs", "xsd-parser/src/generator/tuple_struct.rs", "xsd-parser/src/generator/alias.rs", "xsd-parser/src/generator/struct_field.rs", "xsd-parser/src/generator/enum_case.rs", "xsd-parser/src/generator/default.rs", "xsd-parser/src/parser/node_parser.rs", "xsd-parser/src/parser/utils.rs"]}
{"id": "C96", "title": "The generated code is a sequence of Rust items", "statement": "The text generated for a schema with plain names splits into Rust tokens (words, numbers, strings without escapes, operators, plain comments) in exactly one way, and these are a sequence of items: structs, tuple structs and enums with attributes and correct field or variant lists, type aliases, impl blocks with functions of well-formed statements, use declarations and modules holding such items. All names are legal identifiers, all types are paths or generic types. A field called try, and a keyword as prefix of another namespace, break this.", "quantifier": "all schema documents that are grammatical, with plain names and without quotes in copied texts, for which code is generated; all files of well named entities", "why_tests_cant": "the tests parse the output with syn for a few schemas only; that no combination of declarations, facets, documentation and nesting gives a syntax error needs an induction over the entities and the text", "anchors": ["xsd-parser/src/generator/base.rs", "xsd-parser/src/generator/struct.rs", "xsd-parser/src/generator/enum.rs", "xsd-parser/src/generator/tuple_struct.rs", "xsd-parser/src/generator/alias.rs", "xsd-parser/src/generator/import.rs", "xsd-parser/src/generator/struct_field.rs", "xsd-parser/src/generator/enum_case.rs", "xsd-parser/src/generator/default.rs", "xsd-parser/src/generator/utils.rs", "xsd-parser/src/generator/validator.rs"]}
{"id": "C97", "title": "The code for a service description is Rust exactly if every operation gives something back", "statement": "For a WSDL document with plain names the text generated by the command line program splits into Rust tokens, and these are a sequence of items (C96) and of functions `pub async fn name<T: path>(name: &type, ...) -> type { call.await }` if and only if each operation has an output message whose first part has an element. Otherwise the text has `Result<, transport::Error>`, and no sequence of items and functions has a `<` before a comma. The words of such code are identifiers or one of seventeen keywords.", "quantifier": "all WSDL documents with plain names for which code is generated, all orders in which the hash map yields the port types", "why_tests_cant": "there is no test of the text of functions, and none with one-way operations; the equivalence is about all operations of all documents and about all derivations of the grammar", "anchors": ["wsdl-parser/src/generator/mod.rs:10-51", "wsdl-parser/src/generator/function.rs:10-106", "wsdl-parser-cli/src/main.rs:63-71", "xsd-parser/src/generator/base.rs"]}
{"id": "C98", "title": "Nothing is defined twice", "statement": "In the code for a schema no module, at any depth, has two types, two modules or a type and a module of the same name, if the global declarations, and the inline types of each type with those which it inherits, have names which differ in more than case and punctuation. Likewise no struct in the code, at any depth, has two fields of the same name if for each type the names of its elements, attributes, inherited fields and fields of attribute groups, without prefixes, differ in more than case and punctuation. The enums for two choices in a sequence, an element and an attribute of the same name, and the alias for a documented element beside its type are defined twice.", "quantifier": "all schema documents that are grammatical, with plain names and proper forms, in which names differ in more than case and punctuation, for which code is generated", "why_tests_cant": "the tests have few types in each schema, and syn which the tests use does not look for duplicate names; that no two of all the names which are derived (with Type, Choice, module names in snake case, type names in Pascal case) coincide needs that the conversions of names keep letters and digits, and an induction over the nested types, those inherited included", "anchors": ["xsd-parser/src/generator/base.rs", "xsd-parser/src/generator/default.rs", "xsd-parser/src/generator/struct.rs", "xsd-parser/src/generator/utils.rs", "xsd-parser/src/parser/choice.rs", "xsd-parser/src/parser/element.rs", "xsd-parser/src/parser/sequence.rs", "xsd-parser/src/parser/schema.rs", "xsd-parser/src/parser/utils.rs"]}
{"id": "C99", "title": "The variants of an enum have different names", "statement": "The name of a variant has the letters and digits, up to case, of the local name for which it stands. Hence the variants of every enum in the code, at any depth, including the one for unknown values, have different names, if the local names of the elements of each choice, the values of each enumeration and the local names of the member types of each union differ in more than case and punctuation, and no member type is called like the numbered variants for the inline types of the union. Values a and A, or 1-0 and 10, elements by_car and byCar, member types xs:int and tns:int, and a type enum-case-0 beside an inline type give two variants of the same name.", "quantifier": "all Unicode tables, all enums; all schema documents that are grammatical, with proper forms, whose texts can be copied into code and in which those names differ in more than case and punctuation, for which code is generated", "why_tests_cant": "the tests have a few enumerations with values which differ in letters; that no two variants coincide for all values needs that the conversion to Pascal case, the filter and the escape of digits and keywords keep letters and digits, and an induction over all places in a schema where an enum can arise", "anchors": ["xsd-parser/src/generator/enum.rs", "xsd-parser/src/generator/enum_case.rs", "xsd-parser/src/generator/utils.rs", "xsd-parser/src/parser/choice.rs", "xsd-parser/src/parser/restriction.rs", "xsd-parser/src/parser/union.rs"]}
{"id": "C100", "title": "The functions of a client name nothing twice and use only what they are given", "statement": "For each operation of a service description the function has no two parameters of the same name exactly if the input message has a single part, or its parts have different names and none is called transport. The function passes on its parameter transport and request; request is one of its parameters exactly if the input message exists and has a single part or a part called request. The functions for all port types have different names if the names of the operations differ in more than case and punctuation. Operations of the same name in two port types or differing in case only give two functions of the same name.", "quantifier": "all Unicode tables, all service descriptions whose part names and type prefixes can be copied into code, all orders of the port types, all operations", "why_tests_cant": "the tests generate code for one or two descriptions, each with messages of one part; which messages give a function whose parameters clash or whose body uses a name that is not in scope depends on the number and names of parts of any message", "anchors": ["wsdl-parser/src/generator/mod.rs", "wsdl-parser/src/generator/function.rs", "wsdl-parser/src/parser/message.rs", "wsdl-parser/src/parser/port_type.rs", "wsdl-parser/src/parser/definitions.rs"]}
{"id": "C101", "title": "The types which the functions of a client mention are defined", "statement": "In the code for a service description, each type of a parameter, except the transport, and each result type of a function is the name of a definition at the top level of the code for one of its schemas, if the parts of the messages refer to global types, to global elements without a type attribute or to documented ones, of schemas with the target namespace of the description. An undocumented element with a type attribute has no definition, and a type of a schema with another target namespace is looked for in a module which does not exist.", "quantifier": "all Unicode tables, all service descriptions with grammatical schemas whose texts can be copied, all orders of port types, all operations, all parts", "why_tests_cant": "two generators have to agree: the one for schemas forms the name of the definition from the name attribute, the one for functions from the reference, with different namespaces at hand; a test compares the text for single documents", "anchors": ["wsdl-parser/src/generator/mod.rs", "wsdl-parser/src/generator/function.rs", "wsdl-parser-cli/src/main.rs", "xsd-parser/src/generator/default.rs", "xsd-parser/src/generator/base.rs", "xsd-parser/src/parser/element.rs"]}
{"id": "C102", "title": "Each schema and each operation of a service description has a piece of code of its own", "statement": "The code for a service description is the code of its schemas, each as if it were alone, followed by the functions of its operations. If a schema is put into a description, its code is put in between those of the schemas before and after it, and nothing else changes; if an operation is put in, its function is; if a message is put in to which no operation refers, nothing changes. In particular the smaller description is converted if the larger one is, and the larger one if the smaller one and the piece are. The functions of each port type stay together; the order in which the port types are taken from the hash map changes only the order of these pieces, and nothing if there is at most one.", "quantifier": "all Unicode tables, all pairs of service descriptions which differ in one schema, one operation or one message, all texts, all orders of port types", "why_tests_cant": "it relates the results for two documents for every document; state shared between schemas or operations would only show for particular combinations", "anchors": ["wsdl-parser-cli/src/main.rs", "wsdl-parser/src/generator/mod.rs: generate", "wsdl-parser/src/generator/function.rs: Function::new", "wsdl-parser/src/parser/definitions.rs: get_message_by_param", "wsdl-parser/src/parser/types.rs"]}
{"id": "C103", "title": "Legal service descriptions are converted without panic", "statement": "There is a client for a service description exactly if imports have different namespaces and messages, port types and bindings different names; each operation has a name and either an input after which nothing comes or an input directly followed by an output; both refer to messages, which need not exist; the input message has a single part with an element, or several or no parts, each with a name and an element or type; the output message has a part; and each embedded schema can be converted. (Violated: WSDL also allows empty answers, a single part with a type, operations without input and extensions after the input; for these the program panics.)", "quantifier": "all Unicode tables, all XML documents as service descriptions, all orders of port types", "why_tests_cant": "it says of every document whether it is converted, including those which nobody thought of; the conditions concern combinations of operations and messages in different places", "anchors": ["wsdl-parser-cli/src/main.rs", "wsdl-parser/src/generator/function.rs:28-79", "wsdl-parser/src/parser/definitions.rs:84-136", "wsdl-parser/src/parser/port_type.rs:119-172"]}
{"id": "C104", "title": "The names which the code uses are not hidden", "statement": "The generated code uses names of the prelude and the libraries (String, Vec, Option, Result, Validate, Default, the library types). Such a name is defined at the top level of the code, and thereby hidden, exactly if a global declaration which becomes a definition has a name which is written like it; definitions for choices, enumerations and members of unions never hide one; a declared name hides a name only if it has the same letters and digits. In the modules for inline types, at any depth, nothing more is hidden, if no inline type is a choice or derived and no name ends in anySimple. (Violated: nothing prevents it; a type called String with a member of the type xs:string contains itself; an element called string with a choice as its inline type hides String in the module of its type.)", "quantifier": "all Unicode tables, all converted schema documents which are grammatical and whose texts can be copied, all names", "why_tests_cant": "tests use names which somebody chose; that no combination of declarations, inline types and spellings hides a name is a statement about all names", "anchors": ["xsd-parser/src/generator/base.rs:23-60", "xsd-parser/src/generator/default.rs", "xsd-parser/src/generator/enum.rs:12", "xsd-parser/src/generator/validator.rs:15-18"]}
