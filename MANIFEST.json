{"claims": [
  {"property": "C01", "status": "proved", "theorems": ["Verif.Props.C01_parse_timezone_iff", "Verif.Props.C01_parse_timezone_panic_iff", "Verif.Props.C01_parse_timezone_no_panic"], "note": "Full iff with the XSD timezone grammar; exact panic set."},
  {"property": "C02", "status": "proved", "theorems": ["Verif.Props.C02_roundtrip_iff", "Verif.Props.C02_parse_range", "Verif.Props.C02_canonical"], "note": "Round trip holds exactly for whole-minute offsets within 14 hours."},
  {"property": "C03", "status": "proved", "theorems": ["Verif.Props.C03_gday_iff", "Verif.Props.C10_no_panic_partial"], "note": "Full iff for every string; ASCII text never panics."},
  {"property": "C04", "status": "proved", "theorems": ["Verif.Props.C04_gmonth_iff", "Verif.Props.C10_no_panic_partial"], "note": "Full iff for every string."},
  {"property": "C05", "status": "proved", "theorems": ["Verif.Props.C05_gmonthday_iff", "Verif.Props.C10_no_panic_partial"], "note": "Full iff for every string."},
  {"property": "C06", "status": "proved", "theorems": ["Verif.Props.C06_gyear_iff", "Verif.Props.C06_gyear_no_panic", "Verif.Props.C06_leading_zeros_accepted"], "note": "Full iff; no panic on any string. Finding: years longer than four digits with leading zeros are accepted although XSD forbids them."},
  {"property": "C07", "status": "proved", "theorems": ["Verif.Props.C07_gyearmonth_iff", "Verif.Props.C07_gyearmonth_no_panic", "Verif.Props.C07_leading_zeros_accepted"], "note": "As C06."},
  {"property": "C08", "status": "proved", "theorems": ["Verif.Props.C08_gday_roundtrip", "Verif.Props.C08_gmonth_roundtrip", "Verif.Props.C08_gmonthday_roundtrip", "Verif.Props.C08_gyear_roundtrip", "Verif.Props.C08_gyearmonth_roundtrip", "Verif.Props.C08_gyear_min_display"], "note": "Round trip iff the timezone is an XSD one. Finding: i32::MIN can be constructed but not formatted (excluded from the year theorems, witness given)."},
  {"property": "C09", "status": "proved", "theorems": ["Verif.Props.C09_new_iff", "Verif.Props.C09_new_no_panic", "Verif.Props.C09_parse_range", "Verif.Props.C09_projections", "Verif.Props.C09_default_valid"], "note": ""},
  {"property": "C10", "status": "partial", "theorems": ["Verif.Props.C10_violated", "Verif.Props.C10_gday_panic_iff", "Verif.Props.C10_gmonth_panic_iff", "Verif.Props.C10_gmonthday_panic_iff", "Verif.Props.C10_no_panic_partial"], "note": "The full claim is false: non-ASCII witnesses panic. Exact panic condition proved for each type; ASCII text never panics."},
  {"property": "C11", "status": "proved", "theorems": ["Verif.Props.C11_complete", "Verif.Props.C11_exact_seconds", "Verif.Props.C11_ieee_seconds", "Verif.Props.C11_ieee_whole", "Verif.Props.C11_not_nearest", "Verif.Props.C11_rounding", "Verif.Props.C11_ieee_below_one"], "note": "Components exact in both profiles for every float implementation; seconds exact in exact arithmetic, within relative error 2^-50 in binary64, exact for whole seconds below 2^53. Finding C11_not_nearest: PT1.14S is not read as the nearest double."},
  {"property": "C12", "status": "partial", "theorems": ["Verif.Props.C12_accepts_iff", "Verif.Props.C12_sound_partial", "Verif.Props.C12_violated", "Verif.Props.C12_digits_before_T"], "note": "Property is violated by the code (witnesses in C12_violated, C12_digits_before_T). The accepted language is characterised exactly (C12_accepts_iff); soundness proved for texts without leftover digits."},
  {"property": "C13", "status": "partial", "theorems": ["Verif.Props.C13_display_parse", "Verif.Props.C13_roundtrip_whole", "Verif.Props.C13_violated", "Verif.Props.C13_large_seconds", "Verif.Props.C13_roundtrip_below_one", "Verif.Props.C13_roundtrip_close", "Verif.Props.C13_roundtrip_dyadic"], "note": "Round trip up to recomputation of the seconds from the printed digits: exact for whole seconds below 2^53, for less than a second and for binary fractions, otherwise with a relative error of at most 2^-49 (for digits that identify the number, as std prints them). Violated for 1.14 s (rounding) and for seconds >= 2^64. The digits printed by std for an f64 are a parameter."},
  {"property": "C14", "status": "partial", "theorems": ["Verif.Props.C14_err_iff", "Verif.Props.C14_value", "Verif.Props.C14_exact", "Verif.Props.C14_sign_ignored", "Verif.Props.C14_violated_sign", "Verif.Props.C14_nanos_truncated", "Verif.Props.C14_violated_overflow"], "note": "Err condition and value proved for all durations; sign and overflow parts of the property are violated by the code (witnesses)."},
  {"property": "C15", "status": "partial", "theorems": ["Verif.Props.C15_no_overflow_partial", "Verif.Props.C15_profiles_agree", "Verif.Props.C15_release_no_panic", "Verif.Props.C15_violated", "Verif.Props.C12_accepts_iff"], "note": "Violated above u64::MAX (witnesses); exact reading in both profiles characterised by C12_accepts_iff, no overflow for at most 19 digits."},
  {"property": "C16", "status": "partial", "theorems": ["Verif.Props.C16_integer_iff", "Verif.Props.C16_nonNegative_iff", "Verif.Props.C16_positive_iff", "Verif.Props.C16_nonPositive_iff", "Verif.Props.C16_negative_iff", "Verif.Props.C16_complete", "Verif.Props.C16_violated_minus_zero", "Verif.Props.C16_no_panic"], "note": "Exact acceptance condition and value for all five types, unbounded. Finding C16_violated_minus_zero: NonNegativeInteger refuses \"-0\" (legal in XSD), since num-bigint BigUint rejects any minus sign."},
  {"property": "C17", "status": "proved", "theorems": ["Verif.Props.C17_integer_roundtrip", "Verif.Props.C17_nonNegative_roundtrip", "Verif.Props.C17_positive_roundtrip", "Verif.Props.C17_nonPositive_roundtrip", "Verif.Props.C17_negative_roundtrip", "Verif.Props.C17_default_violated", "Verif.Props.C17_display_lexical"], "note": "Round trip for every in-range value of any size; the out-of-range Default of PositiveInteger/NegativeInteger does not parse back (C17_default_violated)."},
  {"property": "C18", "status": "partial", "theorems": ["Verif.Props.C18_sound_partial", "Verif.Props.C18_violated", "Verif.Props.C16_integer_iff"], "note": "Violated: underscores between digits are accepted (C18_violated). Soundness proved for texts without underscore; exact language in C16_integer_iff."},
  {"property": "C19", "status": "partial", "theorems": ["Verif.Props.C19_roundtrip", "Verif.Props.C19_roundtrip_iff", "Verif.Props.C19_violated", "Verif.Props.C19_default", "Verif.Props.C19_chrono_conversion"], "note": "The four-digit-year claim is proved for every date and XSD timezone (C19_roundtrip), and C19_roundtrip_iff says exactly when the round trip holds for every chrono date and offset. Violations: five-digit years, negative years without timezone or west of UTC."},
  {"property": "C20", "status": "proved", "theorems": ["Verif.Props.C20_accepts_iff", "Verif.Props.C20_complete", "Verif.Props.C20_sound", "Verif.Props.C20_no_panic", "Verif.Props.C20_long_year_refused", "Verif.Props.C20_lenient"], "note": "Exact acceptance condition and value for every string; also the leniencies (spaces, one-digit months) and the refusal of years with more than four digits."},
  {"property": "C21", "status": "partial", "theorems": ["Verif.Props.C21_accepts_iff", "Verif.Props.C21_complete_whole", "Verif.Props.C21_display_parse", "Verif.Props.C21_roundtrip_iff", "Verif.Props.C21_violated", "Verif.Props.C21_fraction_refused", "Verif.Props.C21_no_panic", "Verif.Props.C21_chrono_conversion"], "note": "Exact acceptance condition, exact round-trip condition. Violation proved: every text with a fraction of a second is refused, and 24:00:00."},
  {"property": "C22", "status": "proved", "theorems": ["Verif.Props.C22_accepts_iff", "Verif.Props.C22_missing_is_utc", "Verif.Props.C22_keeps_offset", "Verif.Props.C22_limits", "Verif.Props.C22_nano_truncates"], "note": "Exact acceptance condition and value for every string."},
  {"property": "C23", "status": "proved", "theorems": ["Verif.Props.C23_roundtrip_iff", "Verif.Props.C23_stamp_roundtrip_iff", "Verif.Props.C23_offset_rounded", "Verif.Props.C23_outside", "Verif.Props.C23_default", "Verif.Props.C23_chrono_conversion"], "note": "Exact round-trip condition for every chrono DateTime<FixedOffset> value; offsets with seconds are written as the nearest minute."},
  {"property": "C24", "status": "partial", "theorems": ["Verif.Props.C24_accepts_iff", "Verif.Props.C24_requires_timezone", "Verif.Props.C24_agree_partial", "Verif.Props.C24_difference", "Verif.Props.C24_violated"], "note": "A timezone is always required (proved). The agreement with DateTime is violated for lower-case z and U+2212 designators (C24_violated); C24_difference proves these are the only two cases."},
  {"property": "C25", "status": "proved", "theorems": ["Verif.Props.C25_serialize", "Verif.Props.C25_deserialize", "Verif.Props.C25_read_error_swallowed", "Verif.Props.C25_roundtrip", "Verif.Props.C25_integers", "Verif.Props.C25_gregorian", "Verif.Props.C25_date_time", "Verif.Props.C25_roundtrip_trimmed", "Verif.Props.C25_derived"], "note": "For every value type, name, skip flag, sink and reader. Round trip needs text without white space at its ends (the reader trims); instantiated for the integer, gDay/gMonth/gMonthDay, Date and Time types. Finding: a read error right after the start tag is treated as empty text."},
  {"property": "C26", "status": "proved", "theorems": ["Verif.Props.C26_words_iff", "Verif.Props.C26_list_parse", "Verif.Props.C26_list_roundtrip", "Verif.Props.C26_integer_list", "Verif.Props.C26_string_list_iff", "Verif.Props.C26_item_lost", "Verif.Props.C26_macro_cases", "Verif.Props.C26_simple_iff"], "note": "Generic over the item type; exact condition for string lists. The stronger claim (no item lost) is refuted by C26_item_lost."},
  {"property": "C27", "status": "proved", "theorems": ["Verif.Props.C27_first_wins", "Verif.Props.C27_unknown_iff", "Verif.Props.C27_never_err", "Verif.Props.C27_deserialize", "Verif.Props.C27_variants", "Verif.Props.C27_text", "Verif.Props.C27_roundtrip_iff", "Verif.Props.C27_violated", "Verif.Props.C27_serialize"], "note": "Generic over the member list. C27_roundtrip_iff says exactly when a union value survives; C27_violated shows member confusion and the loss of unknown content."},
  {"property": "C28", "status": "proved", "theorems": ["Verif.Props.C28_builtin", "Verif.Props.C28_missing"], "note": "Exact: iff a row of the README table (or the undocumented anySimpleType row) under the XML Schema prefix. Finding: four XSD 1.1 built-ins (anyType, anyAtomicType, yearMonthDuration, dayTimeDuration) have no row."},
  {"property": "C29", "status": "proved", "theorems": ["Verif.Props.C29_not_keyword", "Verif.Props.C29_not_numeric", "Verif.Props.C29_value", "Verif.Props.C29_idempotent", "Verif.Props.C29_keywords", "Verif.Props.C29_not_injective_violated", "Verif.Props.C29_injective_partial"], "note": "For every Unicode table and string. The stronger claims are refuted (try is not covered, not injective); injectivity holds for strings not starting with an underscore."},
  {"property": "C30", "status": "partial", "theorems": ["Verif.Props.C30_field_name", "Verif.Props.C30_field_letters", "Verif.Props.C30_field_camel", "Verif.Props.C30_field_words", "Verif.Props.C30_field_styles", "Verif.Props.C30_field_digits", "Verif.Props.C30_field_acronyms", "Verif.Props.C30_type_name", "Verif.Props.C30_type_camel", "Verif.Props.C30_type_words", "Verif.Props.C30_type_styles", "Verif.Props.C30_type_digits", "Verif.Props.C30_violated", "Verif.Props.C30_non_ascii_violated", "Verif.Props.C30_styles_violated", "Verif.Props.C30_acronyms_violated"], "note": "Field and bare type names: exact condition for a legal identifier (only the keyword try escapes for ASCII names). Names of several words, with separators or with capital letters, are put together from these words (C30_field_styles, C30_type_styles; a single letter before a capital letter spoils the type name, C30_styles_violated); C30_field_digits and C30_type_digits say what becomes of single digits between and after words, C30_field_acronyms of runs of capital letters (the type name loses the word after them, C30_acronyms_violated). Not true, hence partial: names without ASCII letter or digit give the empty name, and references with a foreign prefix are not made legal (C30_violated, C30_non_ascii_violated). Legality of non-ASCII field names (XID) is not modelled."},
  {"property": "C31", "status": "partial", "theorems": ["Verif.Props.C31_clash_violated", "Verif.Props.C31_field_partial", "Verif.Props.C31_type_partial", "Verif.Props.C31_snake_partial", "Verif.Props.C31_camel_partial", "Verif.Props.C31_field_words", "Verif.Props.C31_type_words", "Verif.Props.C31_field_styles", "Verif.Props.C31_type_styles"], "note": "The claim is false (C31_clash_violated). Proved for all Unicode names: clashes only between names equal up to case, punctuation and prefix; none among lower snake case names, none among UpperCamelCase type names. For names of several words, with separators or with capital letters, the clashes are exactly those of names with the same words (C31_field_styles, C31_type_styles, equivalences)."},
  {"property": "C32", "status": "proved", "theorems": ["Verif.Props.C32_builtin", "Verif.Props.C32_qualified", "Verif.Props.C32_shadow_violated"], "note": "Decision logic exact for every reference and namespace pair. Finding: built-in and schema types can be written the same."},
  {"property": "C33", "status": "proved", "theorems": ["Verif.Props.C33_empty", "Verif.Props.C33_recursive", "Verif.Props.C33_nesting"], "note": "Complete recursive description over all modifier lists."},
  {"property": "C34", "status": "proved", "theorems": ["Verif.Props.C34_comment", "Verif.Props.C34_every_line", "Verif.Props.C34_one_byte_lost"], "note": "For every documentation, limit and indentation: exact content of the comment up to greedy wrapping. Finding: documentation lines of a single one-byte character are lost."},
  {"property": "C35", "status": "partial", "theorems": ["Verif.Props.C35_validate", "Verif.Props.C35_unchecked", "Verif.Props.C35_nan_violated", "Verif.Props.C35_byte_length_violated"], "note": "The emitted checks accept exactly the values meeting the bound and length facets, for every linearly ordered value type (C35_validate), and C35_unchecked says exactly when nothing is checked. Partial because the stronger claims fail: enumeration, pattern and digit facets are not enforced, NaN passes bounds, lengths count bytes."},
  {"property": "C36", "status": "proved", "theorems": ["Verif.Props.C36_fields", "Verif.Props.C36_definitions"], "note": "The definitions and fields are read back from the generated text by an independent scanner, for all entities whose strings cannot leave a literal."},
  {"property": "C37", "status": "partial", "theorems": ["Verif.Props.C37_unchanged_iff", "Verif.Props.C37_repeat_violated"], "note": "Violated when a struct has a field with inline types (C37_repeat_violated); otherwise generation leaves the entity unchanged (exact condition), so a second run gives the same text."},
  {"property": "C38", "status": "partial", "theorems": ["Verif.Props.C38_cases", "Verif.Props.C38_case_name", "Verif.Props.C38_unknown_distinct", "Verif.Props.C38_case_names_violated"], "note": "One variant per case in order plus the unknown one, read back from the text. Partial: variants of different cases can have the same or an empty name (witnesses)."},
  {"property": "C39", "status": "proved", "theorems": ["Verif.Props.C39_build", "Verif.Props.C39_dispatch"], "note": "Every call sequence; user parts abstract."},
  {"property": "C40", "status": "partial", "theorems": ["Verif.Props.C40_wrapper", "Verif.Props.C40_holds_partial", "Verif.Props.C40_option", "Verif.Props.C40_violated", "Verif.Props.C40_numbers_violated", "Verif.Props.C40_choice_violated"], "note": "The wrapper is determined exactly from the occurrences; it can hold all legal numbers exactly unless minOccurs is 0 and maxOccurs is given and at most 1 (violated there). Spaced or oversized numbers and the occurrences of a choice are ignored (violated)."},
  {"property": "C41", "status": "partial", "theorems": ["Verif.Props.C41_sequence", "Verif.Props.C41_count", "Verif.Props.C41_refused", "Verif.Props.C41_untyped_violated", "Verif.Props.C41_choice_violated"], "note": "Exact iff for sequence/all whose members have the form the grammar of schemas admits; one field per member always. Legal untyped local elements panic and inline types of choice elements are lost (violated)."},
  {"property": "C42", "status": "partial", "theorems": ["Verif.Props.C42_attribute", "Verif.Props.C42_inline_violated"], "note": "Exact iff for local attributes; the inline type of a local attribute is ignored (violated)."},
  {"property": "C43", "status": "partial", "theorems": ["Verif.Props.C43_schema", "Verif.Props.C43_element", "Verif.Props.C43_attribute", "Verif.Props.C43_attributeGroup", "Verif.Props.C43_complexType", "Verif.Props.C43_declared_name", "Verif.Props.C43_type_name", "Verif.Props.C43_choice_element_violated", "Verif.Props.C43_group_violated"], "note": "Exact iff for the whole schema and for each kind of global declaration. A complex type with a choice is an enum with another name; an element with such an inline type refers to an undefined name; group, notation and redefine panic (violated)."},
  {"property": "C44", "status": "partial", "theorems": ["Verif.Props.C44_extended", "Verif.Props.C44_parse", "Verif.Props.C44_names_partial", "Verif.Props.C44_order_violated", "Verif.Props.C44_own_first", "Verif.Props.C44_no_marker", "Verif.Props.C44_no_duplicates", "Verif.Props.C44_panic", "Verif.Props.C44_panic_violated", "Verif.Props.C44_choice_base_violated", "Verif.Props.C44_sequence_lost_violated", "Verif.Props.C44_choice_lost_violated", "Verif.Props.C44_simple_content_violated"], "note": "Exact iff for the result of the derivation step and for its panics; transitive inheritance proved for base-before-derived order, violated otherwise; several losses of content are proved as violations."},
  {"property": "C45", "status": "partial", "theorems": ["Verif.Props.C45_groups", "Verif.Props.C45_group_fields", "Verif.Props.C45_nested_violated", "Verif.Props.C45_sequence_violated", "Verif.Props.C45_duplicate_violated", "Verif.Props.C45_name_clash_violated", "Verif.Props.C45_marker_violated"], "note": "Expansion for top-level structs proved; nested groups, groups of types with a sequence, duplicates and name clashes violate the stronger claim."},
  {"property": "C46", "status": "partial", "theorems": ["Verif.Props.C46_restriction", "Verif.Props.C46_simpleType", "Verif.Props.C46_inline_base_violated", "Verif.Props.C46_list", "Verif.Props.C46_list_violated"], "note": "Exact iff for restriction, simpleType and list. A restriction of an inline base panics and item facets become facets of the list (violated)."},
  {"property": "C47", "status": "proved", "theorems": ["Verif.Props.C47_union", "Verif.Props.C47_separator_violated"], "note": "Exact iff for unions without attribute children (which the grammar of schemas excludes). Only the space character separates member types."},
  {"property": "C48", "status": "partial", "theorems": ["Verif.Props.C48_target", "Verif.Props.C48_xsd", "Verif.Props.C48_second_prefix_violated"], "note": "Exact iff for both namespaces. With two prefixes for the XML Schema namespace only one is recognised (violated)."},
  {"property": "C49", "status": "partial", "theorems": ["Verif.Props.C49_kind", "Verif.Props.C49_one_kind", "Verif.Props.C49_panic", "Verif.Props.C49_input_first_partial", "Verif.Props.C49_output_first_partial", "Verif.Props.C49_neither", "Verif.Props.C49_one_way_violated"], "note": "Exact characterisation of the kind for every operation. The property fails where an input (output) is followed by an element which is not its counterpart: the program panics instead of giving a one-way (notification) operation; the theorems with _partial state all the cases."},
  {"property": "C50", "status": "partial", "theorems": ["Verif.Props.C50_generated", "Verif.Props.C50_one_signature", "Verif.Props.C50_functions", "Verif.Props.C50_kinds_violated", "Verif.Props.C50_one_way_violated", "Verif.Props.C50_body_violated", "Verif.Props.C50_type_part_violated", "Verif.Props.C50_part_name_violated", "Verif.Props.C50_order_violated"], "note": "The generated text is read back line by line: one function per operation in order, with the parameters and the result of the specification (for names which can be copied). Partial because of the violations: operations of the other two kinds panic, a one-way function has an empty result type, the body uses `request` even if there is no such parameter, a single part with a type is refused, part names are not made legal identifiers, and the order of port types is that of a hash map."},
  {"property": "C51", "status": "partial", "theorems": ["Verif.Props.C51_lookup", "Verif.Props.C51_lookup_panic", "Verif.Props.C51_unique", "Verif.Props.C58_duplicates", "Verif.Props.C51_prefix_violated", "Verif.Props.C51_dangling_violated"], "note": "Exact lookup for every document and reference, duplicates refused. Violated: prefixes are ignored, so that references into different namespaces meet; a dangling reference is silently dropped."},
  {"property": "C52", "status": "partial", "theorems": ["Verif.Props.C52_name", "Verif.Props.C52_mirror", "Verif.Props.C52_mirror_partial", "Verif.Props.C52_succeeds", "Verif.Props.C52_violated", "Verif.Props.C52_main"], "note": "Exact effect of every complete run for every tree, listing order and previous content, and a condition under which the run is complete. Partial: the property fails for two files which differ only in the extension (proved); C52_mirror_partial needs that no two files have the same place. Links, permissions and other programs are not modelled."},
  {"property": "C53", "status": "partial", "theorems": ["Verif.Props.C53_failed_conversion", "Verif.Props.C53_single", "Verif.Props.C53_states", "Verif.Props.C53_input", "Verif.Props.C53_violated"], "note": "Exact description of the state at every point where a run may stop. Partial: the property fails because the output is truncated first (proved); what holds is that conversion precedes every change, that at most one output is incomplete and that it holds an initial part of the code."},
  {"property": "C54", "status": "partial", "theorems": ["Verif.Props.C54_lex_complete", "Verif.Props.C54_injection_violated"], "note": "Violated for schema strings with quotes or line feeds (witnesses for four places); proved for all entities, at any nesting, whose copied strings have none."},
  {"property": "C55", "status": "proved", "theorems": ["Verif.Props.C55_panic_iff", "Verif.Props.C55_total"], "note": "Exact condition for every list of entities."},
  {"property": "C56", "status": "partial", "theorems": ["Verif.Props.C56_alias", "Verif.Props.C56_alias_violated", "Verif.Props.C56_import"], "note": "Exact condition; violated by documented aliases."},
  {"property": "C57", "status": "partial", "theorems": ["Verif.Props.C57_inline_partial", "Verif.Props.C57_inline_violated"], "note": "Violated when the type name gets an underscore, is a keyword or reads as a built-in (witnesses); proved outside of these cases."},
  {"property": "C58", "status": "proved", "theorems": ["Verif.Props.C58_document", "Verif.Props.C58_panic", "Verif.Props.C58_duplicates"], "note": "Exact characterisation of what is read from a document; otherwise panic."},
  {"property": "C59", "status": "proved", "theorems": ["Verif.Props.C59_complete"], "note": "For all documents whose part names and type prefixes have no characters outside of names."},
  {"property": "C60", "status": "partial", "theorems": ["Verif.Props.C60_code", "Verif.Props.C60_derivation_violated"], "note": "The code of a document is that of its schemas in order and then the functions. Violated: embedded schemas are not run through the derivation step, so members of a base type are missing from derived types."},
  {"property": "C61", "status": "proved", "theorems": ["Verif.Props.C61_inside"], "note": "For every depth limit, file system and listing order. In reality the run ends with an error of the operating system (path too long) or a stack overflow."},
  {"property": "C62", "status": "partial", "theorems": ["Verif.Props.C62_accepts_iff", "Verif.Props.C62_no_panic", "Verif.Props.C62_complete", "Verif.Props.C62_sound_partial", "Verif.Props.C62_violated"], "note": "Exact language and value for all texts (fewer than 2^63 fraction digits). Partial: exponents, underscores and a sign after a leading point are accepted (proved); C62_sound_partial says that these are the only texts accepted beyond XSD."},
  {"property": "C63", "status": "partial", "theorems": ["Verif.Props.C63_roundtrip", "Verif.Props.C63_full_partial", "Verif.Props.C63_exponent_violated", "Verif.Props.C63_default"], "note": "The value survives writing and reading for every number and every choice of when an exponent is written. Partial: with an exponent the written text is not in the lexical space of xs:decimal (proved). The threshold of bigdecimal is a parameter."},
  {"property": "C64", "status": "partial", "theorems": ["Verif.Props.C64_lex_complete_partial", "Verif.Props.C64_lex_complete_violated"], "note": "End to end, for every schema whose names, prefixes, URIs and bounds have no quotes, backslashes or line feeds (enumeration values may have anything). Violated by a line feed in the location of an import."},
  {"property": "C65", "status": "partial", "theorems": ["Verif.Props.C65_definitions_partial", "Verif.Props.C65_names_violated"], "note": "The definitions at the top level are read back from the text and are exactly those of the global declarations in document order (for grammatical schemas whose texts can be copied). Partial: the names are not always distinct or non-empty (three witnesses)."},
  {"property": "C66", "status": "partial", "theorems": ["Verif.Props.C66_defined_partial", "Verif.Props.C66_undefined_violated"], "note": "Proved for references to global types and to elements without type, with one prefix for the target namespace. Violated for elements with a type, for a second prefix, and for types called like built-in ones if these have no prefix."},
  {"property": "C67", "status": "partial", "theorems": ["Verif.Props.C67_converted_partial", "Verif.Props.C67_definitions_partial", "Verif.Props.C67_panic_violated"], "note": "Every schema that satisfies the explicit list of conditions Supported is converted (no panic in parser, derivation step or generator). Partial: legal schemas outside of it panic (ten witnesses: groups, nested sequences, elements without type, redefine, notation, ...)."},
  {"property": "C68", "status": "partial", "theorems": ["Verif.Props.C68_fields_partial", "Verif.Props.C68_determined_partial", "Verif.Props.C68_sequence_partial", "Verif.Props.C68_inherits_partial", "Verif.Props.C68_namespace_violated", "Verif.Props.C68_order_violated", "Verif.Props.C68_groups_violated"], "note": "For every converted schema, each global complex type (named or inline in a global element) which is not a choice has a struct at the top level of the text, and its members are exactly the described fields, in order, with name, type and XML name. Partial: only regular schemas (distinct names, no names on inline types) and only top-level structs; the description follows the code where it loses inherited fields or groups (three witnesses)."},
  {"property": "C69", "status": "proved", "theorems": ["Verif.Props.C69_items", "Verif.Props.C69_determined", "Verif.Props.C69_document", "Verif.Props.C69_validated"], "note": "The whole generated file is read back by an independent line reader: every item on every level, with its module path, attributes, first line and block. They are exactly the items for the entities, in order. Texts which are copied must be harmless (SafeTexts, CopySafe) and the entities definitions, as for C36 and C64."},
  {"property": "C70", "status": "partial", "theorems": ["Verif.Props.C70_traits", "Verif.Props.C70_always", "Verif.Props.C70_document", "Verif.Props.C70_clone_partial", "Verif.Props.C70_clone_violated", "Verif.Props.C70_text_violated"], "note": "The implementations (derived or written) in the whole text are read back and are, up to order, exactly those of the table traitsOf for the types of the file, each once. Partial because the traits do not always suffice: unions do not implement Clone although types containing them derive it, and enumerations cannot be read from a text although simple types and unions made of them need it (both proved, the code does not compile). Without unions everything implements Clone. That derive macros implement the traits of their names is taken from their documentation and xsd-macro-utils."},
  {"property": "C71", "status": "partial", "theorems": ["Verif.Props.C71_self_partial", "Verif.Props.C71_mutual_violated", "Verif.Props.C71_inherited_violated", "Verif.Props.C71_choice_violated", "Verif.Props.C71_suffix_violated"], "note": "The property is violated: types which contain each other, inherit an element of their own type or have themselves in a choice get no indirection (three documents whose code has a type of infinite size), and the test by the last letters of the name makes vectors of unrelated types. Proved for every regular schema: an element of a sequence whose type is the type itself becomes a vector."},
  {"property": "C72", "status": "partial", "theorems": ["Verif.Props.C72_restriction_partial", "Verif.Props.C72_enumeration_partial", "Verif.Props.C72_list_partial", "Verif.Props.C72_union_partial"], "note": "From the schema document to the items read back from the generated text: wrapper with the checks of the facets, enum with a variant per value, wrapper of a vector, enum with a variant per member type. Partial: for documents which are Grammatical (every element where XSD allows it) and CopySafe (texts which are copied into the code hold no line breaks or quotes), and lists only with an itemType; what the inline types of a list or union become is not stated here."},
  {"property": "C73", "status": "proved", "theorems": ["Verif.Props.C73_part", "Verif.Props.C73_file", "Verif.Props.C73_determined", "Verif.Props.C73_converted", "Verif.Props.C73_code", "Verif.Props.C73_items"], "note": "The whole parser as one closed relation between documents and files (Spec/Denote.lean), equivalent to the modelled parser in both directions, at any depth of inline types; composed with the derivation step (ExtendedFile of C44) and the items of C69. The documents are those which follow the grammar of XML Schema where it matters (Grammatical, ProperForms: elements where the grammar allows them; elements are named or references, not both); the statements about the items of the code also need CopySafe (no quotes or line breaks in texts which are copied)."},
  {"property": "C74", "status": "partial", "theorems": ["Verif.Props.C74_integers", "Verif.Props.C74_decimal", "Verif.Props.C74_datetime", "Verif.Props.C74_stamp", "Verif.Props.C74_bounds", "Verif.Props.C74_bounds_integers", "Verif.Props.C74_bounds_decimal", "Verif.Props.C74_bounds_datetime", "Verif.Props.C74_bounds_machine", "Verif.Props.C74_duration_partial", "Verif.Props.C74_negative_violated", "Verif.Props.C74_mixed_violated", "Verif.Props.C74_carry_violated", "Verif.Props.C74_duration_bounds_violated"], "note": "Holds for integers, decimals and date-times (leap seconds: seconds first, then fraction), and bounds of these types are enforced exactly. Violated for durations: the derived order compares field by field, so negative durations compare the wrong way round (all of them), a negative duration is larger than every non-negative one (so minInclusive PT0S lets all negative durations in), and components are not carried (PT61M < PT1H). Holds for non-negative durations with normal components (C74_duration_partial). The order of chrono date-times (UTC first) and of bigdecimal is trusted (Ext/ChronoOrder, Ext/BigDecimal); f64 comparison is that of finite numbers."},
  {"property": "C75", "status": "partial", "theorems": ["Verif.Props.C75_never", "Verif.Props.C75_checks", "Verif.Props.C75_builtin", "Verif.Props.C75_derived", "Verif.Props.C75_derived_violated", "Verif.Props.C75_date_violated"], "note": "C75_checks says exactly when the operations are there, for every Validate implementation on every level. Violated: no generated type has an order or a length, so a restriction with a bound or a length of a type defined in the schema uses operations which are not there (C75_derived, C75_derived_violated); the same for bounds of xs:date, xs:time and the five g* types (C75_date_violated) and of the built-in lists. All other built-in types have what their facets need (C75_builtin). Which operations the library types have is read off the derives in xsd-types/src/types/*.rs and the Rust standard library (Spec/Checks.lean); names which come from other files by `use` are not followed."},
  {"property": "C76", "status": "partial", "theorems": ["Verif.Props.C76_sequence_partial", "Verif.Props.C76_members_partial", "Verif.Props.C76_right_partial", "Verif.Props.C76_everywhere_partial", "Verif.Props.C76_variants_partial", "Verif.Props.C76_right_everywhere_partial", "Verif.Props.C76_choice_partial", "Verif.Props.C76_element_iff", "Verif.Props.C76_elementRef_iff", "Verif.Props.C76_attribute_iff", "Verif.Props.C76_attributeRef_iff", "Verif.Props.C76_variant_iff", "Verif.Props.C76_qualified_partial", "Verif.Props.C76_unqualified_violated", "Verif.Props.C76_foreign_violated", "Verif.Props.C76_attribute_violated", "Verif.Props.C76_nested_violated", "Verif.Props.C76_variant_violated"], "note": "C76_sequence_partial and C76_choice_partial give exactly the names which the code reads and writes for the members of every struct-like type and the elements of every global choice; C76_members_partial does so for all members of every named type, also those inherited by extension and copied from attribute groups, tracing each back to the part of the schema it comes from; the _iff theorems say exactly when such a name is the declared one; C76_everywhere_partial and C76_variants_partial do so for every member of every struct and every variant of every choice in the code, on every level, so also for types nested in other types (there the part of the schema is only said to exist; for named types it is determined); C76_qualified_partial, C76_right_partial and C76_right_everywhere_partial are the cases where all is right. Violated: local elements which are not qualified, references to other namespaces, qualified attributes, choices inside sequences and qualified elements of choices get wrong names or none. What the attributes of the code mean is an assumption about yaserde, stated in Spec/XmlNames.lean."},
  {"property": "C77", "status": "partial", "theorems": ["Verif.Props.C77_root_partial", "Verif.Props.C77_only", "Verif.Props.C77_right_iff", "Verif.Props.C77_capital", "Verif.Props.C77_lower", "Verif.Props.C77_case_violated", "Verif.Props.C77_typed_violated"], "note": "C77_root_partial: the document element of every type defined from a struct-like global declaration; C77_only: no other item has another name than its own in the target namespace; C77_right_iff: right exactly if the type name is the declared name, which holds for words with capitals (C77_capital) and never for names with a small first letter (C77_lower). Violated: `invoice` is read as `Invoice` (C77_case_violated); elements with a named type are only aliases, so nothing reads documents called like them (C77_typed_violated). The meaning of the attributes is an assumption about yaserde."},
  {"property": "C78", "status": "partial", "theorems": ["Verif.Props.C78_reads_iff_partial", "Verif.Props.C78_sound", "Verif.Props.C78_reads_violated", "Verif.Props.C78_sound_violated", "Verif.Props.C78_single_violated"], "note": "C78_reads_iff_partial: for every row of the table of built-in types which is no list and every literal written from XML Schema, from_str of the Rust type gives the denoted value exactly if the literal is none of an explicit list (Lost): digits for truth values, minus zero for types without negative values, more than single precision for float, dates outside 0 to 9999 in some forms, fractions of seconds of times, the end of the day, date-times without timezone or finer than nanoseconds, the year 0. Each kind in the list is really lost, that is the other direction. C78_sound: types with bounded integers, texts, truth values and gregorian days and months read nothing but literals; the others do (C78_sound_violated; C16, C62, C06, C07, C02, C11 say exactly what). Missing: literals with 2^63 fraction digits or durations with numbers beyond 64 bits; the list types (C26); white space around literals, which XML Schema collapses beforehand and from_str refuses; doubles are represented by the number whose nearest double they are."},
  {"property": "C79", "status": "partial", "theorems": ["Verif.Props.C79_reads_partial", "Verif.Props.C79_sound_partial", "Verif.Props.C79_union_partial", "Verif.Props.C79_list_violated", "Verif.Props.C79_reserved_violated"], "note": "From the schema document through the generated text, the derive macros and the library to values. C79_reads_partial: whenever the schema, facets aside, gives a text a value in a simple type (built-in types, restrictions, lists with named item types, nested in any way), every reader which follows the definitions in the generated text reads that text as that value, both in a wrapper and by from_str of the type itself. C79_sound_partial: chains of restrictions of texts, truth values, bounded integers and gregorian days and months read nothing else. C79_union_partial: in a union, the first member which reads the text gives its variant with the value. Missing and false: items of lists which cannot be read are dropped (C79_list_violated), types whose names become Vec or String are taken for the standard types by the macros (C79_reserved_violated; excluded by Unshadowed), enumerations of names and inline base or item types are left out, built-in literals are those of C78 (Kept); facets are not looked at when reading (C74, C75 are about validate)."},
  {"property": "C80", "status": "partial", "theorems": ["Verif.Props.C80_writes_iff_partial", "Verif.Props.C80_writes_violated", "Verif.Props.C80_total", "Verif.Props.C80_one_type"], "note": "C80_writes_iff_partial: for every row of the table of built-in types and every value of its Rust type (not only those from_str returns), the text printed is a literal of the built-in type which denotes the value exactly if the value is Proper, a condition on the value alone; Shows says that doubles print as decimal digits which identify them and is satisfiable (shows_exists). C80_total: printing panics exactly for gYear and gYearMonth of i32::MIN. The property itself is false: C80_writes_violated lists ten values, among them the defaults of PositiveInteger and NegativeInteger. Partial: list types are not covered, doubles have unbounded exponents, Single and the closeness of seconds are as in C78."},
  {"property": "C81", "status": "partial", "theorems": ["Verif.Props.C81_writes_partial", "Verif.Props.C81_list_violated"], "note": "C81_writes_partial: by induction over the chain of restrictions and lists in the schema, every value built from Proper library values (C80) is printed by the generated type as a text which the schema gives that value (ValueOf, Represents), on its own and as the field of a wrapper. The Display of the generated types is any function which follows the definitions in the generated text (Prints). Partial: no enumerations of names, unions and inline types, and items of lists have to be single words; C81_list_violated shows that this is needed: a text with a blank in a list of texts is written as two items."},
  {"property": "C82", "status": "partial", "theorems": ["Verif.Props.C82_back_iff_partial", "Verif.Props.C82_returns_partial", "Verif.Props.C82_back_violated"], "note": "C82_back_iff_partial: for every built-in type and every value of its Rust type which is written as a literal denoting it (C80), what is written is read back as the same value of XML Schema exactly if the value is in Returns: no dates of years before zero unless with a timezone of Greenwich or east of it, no date-times of years before zero, no year zero in gYear and gYearMonth. C82_returns_partial carries this through the generated types: a value built from such library values by restrictions and lists is written as a text which the generated type reads as the same value. C82_back_violated: the values left out are written and not read back. Partial: texts with numbers beyond 64 bits (Huge) are left out, and what C81 leaves out."},
  {"property": "C83", "status": "partial", "theorems": ["Verif.Props.C83_closed_partial", "Verif.Props.C83_choice_violated", "Verif.Props.C83_prefix_violated", "Verif.Props.C83_reference_violated"], "note": "C83_closed_partial: in the code generated for a schema which refers to built-in types and its own declarations only (SelfContained), every type mentioned by a field, a component or a variant is, inside Option and Vec, a type of the library or the prelude, or defined in the module of the item, in a module around it, or in the module named in the path. The violated theorems are the three ways in which this fails and which the hypotheses leave out: a choice in an inline complex type (the struct mentions an enum under the wrong name), a target prefix which is the name of a module, a reference to an element which is given a type and has no documentation. Partial also because the targets of aliases and the uniqueness of definitions are not covered."},
  {"property": "C84", "status": "partial", "theorems": ["Verif.Props.C84_union", "Verif.Props.C84_tuple_partial", "Verif.Props.C84_tuple_ok_iff", "Verif.Props.C84_tuple_err_iff", "Verif.Props.C84_tuple_panic_iff", "Verif.Props.C84_union_ok_iff", "Verif.Props.C84_union_err_iff", "Verif.Props.C84_list_violated", "Verif.Props.C84_vec_violated"], "note": "C84_union: UtilsUnionSerDe expands on every generated item which derives it, for every grammatical schema whose texts can be copied, and treats exactly the written variants other than __Unknown__, in order. C84_tuple_partial: UtilsTupleIo expands (no compile error, no panic) on every generated item which derives it, if the schema refers to built-in types and its own declarations only (SelfContained), no list is a list of a built-in list and none of an inline list or union (FlatLists), and no declaration is called like Vec (NoVec). The _iff theorems say for all inputs of the macros (generated or not) exactly when they expand, give a compile error, or panic. The violated theorems show the failures outside of these hypotheses: a list of xs:NMTOKENS, and a restriction of a declared type named vec. Partial because of these hypotheses; lists of a declared list are covered (the type is then a name). The tokens which the macros are given are read from the text of the item (Spec/Macros)."},
  {"property": "C85", "status": "proved", "theorems": ["Verif.Props.C85_prefix", "Verif.Props.C85_streams", "Verif.Props.C85_documents", "Verif.Props.C85_blank", "Verif.Props.C85_malformed"], "note": "C85_documents: for the events of two document trees. C85_streams: for anything readers deliver, errors included. C85_prefix: for arbitrary lists of events, where only the common initial part is compared. C85_blank and C85_malformed are consequences: an element with a blank text passes for an empty one, and texts which are no XML pass if the first error is the same. xml-rs (from text to events, default configuration) is not modelled."},
  {"property": "C86", "status": "partial", "theorems": ["Verif.Props.C86_union_partial", "Verif.Props.C86_union_violated"], "note": "Partial: the member type is named (not an inline one) and its variant is not named as one before; values as in C82 (no unions and inline types inside). Violated: the property is false for a value whose text an earlier member type reads; C86_union_partial says that this is the only way it fails, and what is read then."},
  {"property": "C87", "status": "partial", "theorems": ["Verif.Props.C87_validates_partial", "Verif.Props.C87_own_facets", "Verif.Props.C87_only_wrappers", "Verif.Props.C87_inherited_violated", "Verif.Props.C87_struct_violated"], "note": "Partial: restrictions of built-in types by bounds of numbers and points in time and by lengths of texts (of one-byte characters) and lists; literals as in C78. Violated: facets of a base type declared in the schema are not checked (C87_inherited_violated; C87_own_facets says exactly when there are checks), and structs do not validate their fields (C87_struct_violated; C87_only_wrappers says that only tuple structs check anything)."},
  {"property": "C88", "status": "partial", "theorems": ["Verif.Props.C88_meaning", "Verif.Props.C88_remarks", "Verif.Props.C88_comment_violated"], "note": "Partial: documentation counts as read (its text up to the first comment or element). Violated: a comment in front of the text of a documentation element makes the generator drop the documentation (C88_comment_violated); outside annotations no comment, processing instruction, text, unread attribute or order of attributes matters. For the schema parser; WSDL documents are covered by C91."},
  {"property": "C89", "status": "proved", "theorems": ["Verif.Props.C89_locality", "Verif.Props.C89_replace", "Verif.Props.C89_prune", "Verif.Props.C89_element_violated"], "note": "Proved for names: a declaration whose name no other one derives from or refers to as an attribute group contributes one piece of the code and changes nothing else (an element or attribute with a named type never matters to others); so another declaration in its place changes one piece only, and removing such declarations one after the other removes pieces only. Documents with an element or attribute named __base__ are left out (that name is the parser's marker). C89_element_violated shows that the names of elements and types are not kept apart: a global element with the name of a base type, which XSD allows, replaces what the derived type inherits."},
  {"property": "C90", "status": "partial", "theorems": ["Verif.Props.C90_exchange", "Verif.Props.C90_order", "Verif.Props.C90_base_violated"], "note": "Partial: shown for declarations which do not depend on each other and do not have the same name. Violated: in XSD the order of declarations has no meaning, but a type in front of its base gets only what the base declares itself (C90_base_violated). Documents with an element or attribute named __base__ are left out."},
  {"property": "C91", "status": "proved", "theorems": ["Verif.Props.C91_service", "Verif.Props.C91_essence"], "note": "Proved for documents which can be read at all (C58 says exactly which): schemas which say the same (C88), messages with the same parts under the same names, port types with the same operations, in whatever order, give the same code; the order in which the hash map yields the port types is the same in both. In particular bindings, services, imports, faults and comments do not matter (they can still make the reading panic: C58)."},
  {"property": "C92", "status": "partial", "theorems": ["Verif.Props.C92_prefix_partial", "Verif.Props.C92_prefix_violated", "Verif.Props.C92_default_violated"], "note": "C92_prefix_partial holds for schemas which use the prefix of XML Schema (or the default namespace) only for the types of the published table (any kind of schema otherwise, and also where the conversion panics); names must not contain colons and ref attributes must not point into XML Schema; if the default namespace is involved, nothing may be called like a built-in type. Missing: other types of XML Schema such as xs:anyType, for which the property is false: the prefix is copied into the code as the name of a module (C92_prefix_violated); and own types called like built-in ones, which are taken for these if XML Schema is the default namespace: a type called token becomes a struct called String (C92_default_violated)."},
  {"property": "C93", "status": "partial", "theorems": ["Verif.Props.C93_library_iff", "Verif.Props.C93_value_iff", "Verif.Props.C93_default_partial", "Verif.Props.C93_facets_partial", "Verif.Props.C93_fromText_iff", "Verif.Props.C93_enumeration", "Verif.Props.C93_builtin_base_iff", "Verif.Props.C93_declared_base", "Verif.Props.C93_bounds_violated", "Verif.Props.C93_facets_violated", "Verif.Props.C93_enumeration_violated"], "note": "Exact for the library types (which defaults are values, are written as literals and read back), for wrappers of restrictions and lists at the top level, for the checks of one restriction of integers, texts and lists, and for when the default of an enumeration of names is well-typed. Missing: unions, inline types, structs, facets on other built-in types. Violated: xs::PositiveInteger and xs::NegativeInteger start with 0 (C93_bounds_violated); a wrapper may start with a value its own Validate refuses (C93_facets_violated); an enumeration which restricts a type of the schema or a number does not compile (C93_enumeration_violated)."},
  {"property": "C94", "status": "proved", "theorems": ["Verif.Props.C94_schema", "Verif.Props.C94_service", "Verif.Props.C94_ascii", "Verif.Props.C94_needed"], "note": "For the whole programs xsd-parser and wsdl-parser-cli as modelled, including failures. Where names, references and values are ASCII the code can be computed with the ASCII table; C94_needed shows a document with another letter where tables give different code."},
  {"property": "C95", "status": "partial", "theorems": ["Verif.Props.C95_file", "Verif.Props.C95_determined", "Verif.Props.C95_document", "Verif.Props.C95_declarations_partial", "Verif.Props.C95_derived_violated", "Verif.Props.C95_inline_violated"], "note": "C95_file and C95_document describe the complete outline for the entities. C95_declarations_partial says it for the document: derived types, wrappers, lists and unions only with the comment and the head of their definition; the members of inline types and fields of attribute groups are not described there. Needs that no member is called __base__. The documentation of derived types and of global elements with an inline type is lost (violated)."},
  {"property": "C96", "status": "partial", "theorems": ["Verif.Props.C96_file", "Verif.Props.C96_determined", "Verif.Props.C96_words", "Verif.Props.C96_document_partial", "Verif.Props.C96_field_violated", "Verif.Props.C96_prefix_violated"], "note": "The grammar (Spec/Syntax) covers the subset of Rust which the generator writes, not all of Rust. C96_document_partial needs plain names: ASCII, first letter or digit a letter, not made of the letters of Self or try, prefixes of references which are Rust identifiers, a prefix for XML Schema, no global attribute with ref, no list of an inline union, enumerated values of letters and hyphens with a letter or digit. Names like Try and prefixes which are keywords give code which is no Rust (violated). That the names mean something, that types exist and that definitions are not repeated is C83, C80 and C31, not this."},
  {"property": "C97", "status": "partial", "theorems": ["Verif.Props.C97_document_partial", "Verif.Props.C97_gap", "Verif.Props.C97_words", "Verif.Props.C97_items", "Verif.Props.C97_one_way_violated", "Verif.Props.C97_part_violated"], "note": "C97_document_partial is an equivalence, but for plain names only (as in C96 for the embedded schemas; operations with plain names, parts of messages called like Rust identifiers unless they are alone, references to plain names). One-way operations, operations without output element and parts called like keywords give code which is no Rust (violated). That the body of a function refers to a parameter called request is C50, not this."},
  {"property": "C98", "status": "partial", "theorems": ["Verif.Props.C98_definitions_partial", "Verif.Props.C98_fields_partial", "Verif.Props.C98_fields_everywhere_partial", "Verif.Props.C98_top", "Verif.Props.C98_definitions_violated", "Verif.Props.C98_choice_violated", "Verif.Props.C98_fields_violated"], "note": "For plain names and proper forms (as C96, C68), and if the names which the schema gives to definitions differ in more than case and punctuation; inline types of elements are neither choices nor derived, inline simple types have no inline types of their own. The hypothesis is about the names in the schema (GlobalDefs, TypeFields, OwnFields), not about the generated names. Fields are those of all structs at any depth (C98_fields_everywhere_partial); the attributes of a type with a choice must not be called like a choice (any name followed by Choice). Two choices in one sequence, a documented element called like its type, and an element and an attribute of the same name break it (violated; others in C65_names_violated). Variants of enums are C99. Conversely, if nothing is defined twice then what the global declarations define is written differently (C98_top), so every schema with a global element whose inline type is a choice has a name which is defined twice (C98_choice_violated, for all such schemas)."},
  {"property": "C99", "status": "partial", "theorems": ["Verif.Props.C99_letters", "Verif.Props.C99_cases_partial", "Verif.Props.C99_cases_iff", "Verif.Props.C99_enumeration_partial", "Verif.Props.C99_enumeration_iff", "Verif.Props.C99_union_partial", "Verif.Props.C99_everywhere_partial", "Verif.Props.C99_variants_violated"], "note": "C99_letters holds of all cases. For names of cases and enumerated values which are made of words, in the styles of C30, C99_cases_iff and C99_enumeration_iff are equivalences. The others ask that the local names of the elements of each choice, the values of each enumeration (which becomes an enum) and the member types of each union differ in more than case and punctuation, and that no member type is called like the numbered variants for inline types; C99_everywhere_partial also for proper forms. Without this there are two variants of the same name (violated)."},
  {"property": "C100", "status": "partial", "theorems": ["Verif.Props.C100_parameters", "Verif.Props.C100_request", "Verif.Props.C100_functions_partial", "Verif.Props.C100_functions_iff", "Verif.Props.C100_parameters_violated", "Verif.Props.C100_functions_violated"], "note": "C100_parameters and C100_request are exact (iff for each operation). The different names of functions are shown for names of operations which differ in more than case and punctuation, a condition which is sufficient but not necessary; for names made of words, in the styles of C30, C100_functions_iff is an equivalence. Texts copied unchanged (names of parts, prefixes of their types) must be free of characters which have a meaning in code. Functions which use a request that they do not have, have two parameters of a name or are defined twice do arise (violated)."},
  {"property": "C101", "status": "partial", "theorems": ["Verif.Props.C101_definitions_partial", "Verif.Props.C101_reference_partial", "Verif.Props.C101_reference_iff", "Verif.Props.C101_functions_partial", "Verif.Props.C101_typed_violated", "Verif.Props.C101_foreign_violated"], "note": "For messages whose parts refer to declarations that become definitions (types, elements with inline or without type, documented elements) in a schema which has the target namespace of the description (Provided), and for schemas that are grammatical and whose texts can be copied. Missing: that definitions of other schemas or functions do not have the same name (C98, C100); an undocumented element with a type attribute and a schema with another target namespace are not covered, there the type is missing (violated). That a result is missing at all is C97. C101_reference_iff is exact for a declaration whose name no other definition of its schema resembles: its type is defined if and only if it is Written (a type, or an element without type attribute or with documentation)."},
  {"property": "C102", "status": "proved", "theorems": ["Verif.Props.C102_code", "Verif.Props.C102_schema", "Verif.Props.C102_operation", "Verif.Props.C102_message", "Verif.Props.C102_order", "Verif.Props.C102_single"], "note": "All are equivalences: what is generated for the larger description says what is generated for the smaller one, and conversely. Both descriptions have to be readable (IsDefinitions), with the same target namespace; the order in which the hash map yields the port types is taken to be the same for the operations which both have. No other hypotheses on names or texts. C102_order and C102_single say what the order of the hash map can change: only the order of the pieces of the port types, and nothing if there is only one."},
  {"property": "C103", "status": "partial", "theorems": ["Verif.Props.C103_converted", "Verif.Props.C103_refused", "Verif.Props.C103_supported", "Verif.Props.C103_legal_violated", "Verif.Props.C103_operation_violated"], "note": "C103_converted is an equivalence for all documents (for any order in which the hash map yields the port types); that each embedded schema has code is one of the conditions there, and follows for schemas with the features the program knows (C103_supported, Supported as in C67). Partial because what WSDL allows is more: an answer without parts, a single part with a type, operations without input, and extensions after the only input are refused (violated; C103_operation_violated says it of every such document, C50_kinds_violated of every operation without input)."},
  {"property": "C104", "status": "partial", "theorems": ["Verif.Props.C104_hidden_iff", "Verif.Props.C104_declared_iff", "Verif.Props.C104_unshadowed", "Verif.Props.C104_letters", "Verif.Props.C104_everywhere_partial", "Verif.Props.C104_violated", "Verif.Props.C104_everywhere_violated"], "note": "C104_hidden_iff and C104_declared_iff are equivalences for every converted schema which is grammatical and whose texts can be copied; they describe the top level of the code. C104_everywhere_partial is the same for all modules, under the assumptions of C98 on inline types (none is a choice or derived, inline simple types have no inline types) and if no name ends in anySimple; both are needed (C104_everywhere_violated). Partial also because the property is violated (a type called String, Vec or Validate hides the one which the code uses; C104_violated). C104_unshadowed derives the assumption Unshadowed of C79, C81, C82 and C86 from the names in the schema."}
]}
