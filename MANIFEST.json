{
 "claims": [
  {
   "property": "C01",
   "status": "proved",
   "theorems": [
    "Verif.C01_type_proto_roundtrip"
   ],
   "note": "All type kinds; nil child types are not represented."
  },
  {
   "property": "C02",
   "status": "partial",
   "theorems": [
    "Verif.C02_type_from_to_partial",
    "Verif.C02_negation",
    "Verif.C02_compound_panics"
   ],
   "note": "False of the code: an interval_compound (or unset type parameter) read from protobuf makes TypeToProto panic. Proved for all other messages."
  },
  {
   "property": "C03",
   "status": "proved",
   "theorems": [
    "Verif.C03_equals_exact",
    "Verif.C03_equals_equivalence",
    "Verif.C03_enum_asymmetric"
   ],
   "note": "Plan types (no enum argument types, no nil type parameter); enum asymmetry exhibited separately."
  },
  {
   "property": "C04",
   "status": "partial",
   "theorems": [
    "Verif.C04_withNullability_value",
    "Verif.C04_only_outermost",
    "Verif.C04_receiver_unchanged_partial",
    "Verif.C04_receiver_negation"
   ],
   "note": "Value part proved for all types; receiver is mutated by interval_day (negation proved), unchanged for all other kinds."
  },
  {
   "property": "C05",
   "status": "proved",
   "theorems": [
    "Verif.C05_name_count"
   ],
   "note": ""
  },
  {
   "property": "C06",
   "status": "proved",
   "theorems": [
    "Verif.C06_encoding_exact",
    "Verif.C06_encoding_succeeds_iff"
   ],
   "note": "apd decimal = sign, coefficient, exponent; exponents within apd limits."
  },
  {
   "property": "C07",
   "status": "proved",
   "theorems": [
    "Verif.C07_decode_value",
    "Verif.C07_negate",
    "Verif.C07_reencode"
   ],
   "note": "Rendering of the decoded apd value as text is external."
  },
  {
   "property": "C08",
   "status": "proved",
   "theorems": [
    "Verif.C08_same_value",
    "Verif.C08_succeeds_iff",
    "Verif.C08_zero"
   ],
   "note": "Zero is refused at scale = precision although it fits (C08_zero); Reduce and Quantize are external, given their documented meaning."
  },
  {
   "property": "C09",
   "status": "proved",
   "theorems": [
    "Verif.C09_exact_instant",
    "Verif.C09_roundtrip"
   ],
   "note": "time.Time is seconds + nanoseconds with int64 wrap-around; round trip holds exactly when the instant fits int64 in the next SI unit."
  },
  {
   "property": "C10",
   "status": "partial",
   "theorems": [
    "Verif.C10_newTime_partial",
    "Verif.C10_newTime_in_day",
    "Verif.C10_newTimeFromMicros",
    "Verif.C10_negation"
   ],
   "note": "False of the code: durations beyond int64 nanoseconds wrap and can be accepted (5124096 hours). Proved otherwise."
  },
  {
   "property": "C100",
   "status": "partial",
   "theorems": [
    "Verif.C100_literal",
    "Verif.C100_declared_partial",
    "Verif.C100_decimal_partial",
    "Verif.C100_varchar_partial",
    "Verif.C100_negation",
    "Verif.C100_negation_list",
    "Verif.C100_negation_interval"
   ],
   "note": "The literal always has the recorded type, which is the declared one unless a number in it exceeds 32 bits or a null stands in a list of day-time intervals. Decimals and varchars belong to their type; fixed-length texts and list elements need not."
  },
  {
   "property": "C101",
   "status": "partial",
   "theorems": [
    "Verif.C101_integers_partial",
    "Verif.C101_words_partial",
    "Verif.C101_negation",
    "Verif.C101_negation_empty",
    "Verif.C101_interval_lists"
   ],
   "note": "Proved for nested lists of integers at every depth (values included) and for lists of numbers and strings (count and types). Elements of other types are silently dropped; empty inner lists are refused or of the wrong type."
  },
  {
   "property": "C102",
   "status": "partial",
   "theorems": [
    "Verif.C102_plain_partial",
    "Verif.C102_printed_partial",
    "Verif.C102_negation",
    "Verif.C102_negation_doubled"
   ],
   "note": "Read as written without quotes inside. Doubled quotes stay doubled, and quotes at the ends are lost."
  },
  {
   "property": "C103",
   "status": "partial",
   "theorems": [
    "Verif.C103_shape_partial",
    "Verif.C103_like_column_partial",
    "Verif.C103_integers_partial",
    "Verif.C103_compact_partial",
    "Verif.C103_data",
    "Verif.C103_data_column",
    "Verif.C103_negation",
    "Verif.C103_negation_type",
    "Verif.C103_negation_unnamed",
    "Verif.C103_negation_refused",
    "Verif.C103_negation_conflict",
    "Verif.C103_negation_lost",
    "Verif.C103_intervals",
    "Verif.C103_negation_order"
   ],
   "note": "Short rows are refused, columns have the declared type with the nullability rule, and columns of numbers, strings and nulls are read like single columns; extra cells are dropped, other literals keep their own type, columns not named in a compact call are strings or refused."
  },
  {
   "property": "C104",
   "status": "partial",
   "theorems": [
    "Verif.C104_table_partial",
    "Verif.C104_compact_partial",
    "Verif.C104_column",
    "Verif.C104_negation",
    "Verif.C104_negation_refused",
    "Verif.C104_negation_wraps",
    "Verif.C104_refused"
   ],
   "note": "Proved when column N is argument N, and for single columns; otherwise the type is that of another column or the call is refused, because the schema is made in the order of the arguments."
  },
  {
   "property": "C105",
   "status": "proved",
   "theorems": [
    "Verif.C105_urn",
    "Verif.C105_scalar",
    "Verif.C105_aggregate",
    "Verif.C105_which",
    "Verif.C105_kind",
    "Verif.C105_urn_outside",
    "Verif.C105_which_aggregate"
   ],
   "note": "For reachable collections and tidy extension sets; C105_which is for scalar functions."
  },
  {
   "property": "C106",
   "status": "partial",
   "theorems": [
    "Verif.C106_contents",
    "Verif.C106_total",
    "Verif.C106_accepted_partial",
    "Verif.C106_options",
    "Verif.C106_results",
    "Verif.C106_arguments",
    "Verif.C106_negation"
   ],
   "note": "False of the code only for groups without a description, which the grammar allows (C106_negation); everything else is proved."
  },
  {
   "property": "C107",
   "status": "partial",
   "theorems": [
    "Verif.C107_simple",
    "Verif.C107_date",
    "Verif.C107_time",
    "Verif.C107_timestamp",
    "Verif.C107_year_interval",
    "Verif.C107_precision_partial",
    "Verif.C107_day_interval_partial",
    "Verif.C107_day_fraction_partial",
    "Verif.C107_fixed",
    "Verif.C107_negation",
    "Verif.C107_negation_range"
   ],
   "note": "Relative to time.Parse and strconv.ParseFloat (parameters). False of the code: what is finer than the precision is dropped (C107_negation), and instants outside int64 nanoseconds wrap (C107_negation_range). Proved for whole units in range."
  },
  {
   "property": "C108",
   "status": "partial",
   "theorems": [
    "Verif.C108_type",
    "Verif.C108_integer",
    "Verif.C108_null",
    "Verif.C108_bool",
    "Verif.C108_plain",
    "Verif.C108_string_partial",
    "Verif.C108_fixed_partial",
    "Verif.C108_year_interval",
    "Verif.C108_day_token",
    "Verif.C108_day_interval_partial",
    "Verif.C108_float_partial",
    "Verif.C108_date_partial",
    "Verif.C108_timestamp_partial",
    "Verif.C108_list_partial",
    "Verif.C108_negation",
    "Verif.C108_negation_subsecond",
    "Verif.C108_negation_panic",
    "Verif.C108_negation_timestamp_tz",
    "Verif.C108_negation_string",
    "Verif.C108_negation_binary",
    "Verif.C108_negation_list",
    "Verif.C108_decimal_partial",
    "Verif.C108_time_partial",
    "Verif.C108_precision_partial",
    "Verif.C108_negation_decimal",
    "Verif.C108_negation_prec_tz"
   ],
   "note": "Proved for all types, integers, booleans, nulls and year intervals; for strings whose text is a string token, intervals of whole seconds, lists of integers and booleans; for floats, dates, times, decimals and timestamps (also with a precision) if Go's text of the value is a token that is read back. False in full: empty intervals, parts of a second, time zones, decimals of scale 38, strings that look like dates, fixed binaries, lists of strings, precisions over 9 (panic). float32 is not covered."
  },
  {
   "property": "C109",
   "status": "partial",
   "theorems": [
    "Verif.C109_built_partial",
    "Verif.C109_aggregate_partial",
    "Verif.C109_set",
    "Verif.C109_complete_partial",
    "Verif.C109_roundtrip_partial",
    "Verif.C109_plan_partial",
    "Verif.C109_negation",
    "Verif.C109_negation_panics",
    "Verif.C109_negation_lambda",
    "Verif.C109_negation_sparse",
    "Verif.C109_calls"
   ],
   "note": "False as stated: a nil expression given as an argument is not counted (a call with too many arguments is built, which cannot be written), the type of lambda parameter references is lost in a message, and in an extension set with gaps a new anchor overwrites an old one. Proved without these, for types a message can carry; that described expressions are built is proved without function builders (see C85 for functions)."
  },
  {
   "property": "C11",
   "status": "proved",
   "theorems": [
    "Verif.C11_newList",
    "Verif.C11_newMap",
    "Verif.C11_newList_homogeneous",
    "Verif.C11_empty"
   ],
   "note": "NewList/NewMap succeed exactly on non-empty homogeneous input; result type stated."
  },
  {
   "property": "C110",
   "status": "proved",
   "theorems": [
    "Verif.C110_types",
    "Verif.C110_literals",
    "Verif.C110_expressions",
    "Verif.C110_relations",
    "Verif.C110_plans",
    "Verif.C110_expression_roundtrip",
    "Verif.C110_plan_roundtrip"
   ],
   "note": "Exact conditions for writing. Relations inside subquery expressions, masks and Any messages are parameters of the registry (Reg), as in C72 and C75."
  },
  {
   "property": "C111",
   "status": "partial",
   "theorems": [
    "Verif.C111_types_partial",
    "Verif.C111_literals_partial",
    "Verif.C111_expressions_partial",
    "Verif.C111_relations_partial",
    "Verif.C111_plans_partial",
    "Verif.C111_normal_partial",
    "Verif.C111_functions",
    "Verif.C111_negation_type",
    "Verif.C111_negation_literal",
    "Verif.C111_negation_compound",
    "Verif.C111_negation_mode",
    "Verif.C111_negation"
   ],
   "note": "The claim is false of the code (C111_negation): interval_compound types and literals read as nil make writing panic; the precision of an all-zero compound interval and the output mode of a write are lost. Proved for messages without these (Plain), for registries in which a made-up declaration is found again (C111_functions: true if the names of undeclared functions are kept, C90), and for subqueries, masks and extension details that themselves are read back, which are opaque in the model."
  },
  {
   "property": "C112",
   "status": "partial",
   "theorems": [
    "Verif.C112_described",
    "Verif.C112_tables",
    "Verif.C112_extensions_made",
    "Verif.C112_references",
    "Verif.C112_literal_rows",
    "Verif.C112_relations_partial",
    "Verif.C112_plan_partial",
    "Verif.C112_extensions_partial",
    "Verif.C112_negation",
    "Verif.C112_negation_write",
    "Verif.C112_measure"
   ],
   "note": "What each call returns is proved for all calls; the round trip for all relations made without writes and all plans without further relations. False of the code for plans with further relations (they cannot be written, C43) and for writes (the output mode is lost, C46)."
  },
  {
   "property": "C113",
   "status": "partial",
   "theorems": [
    "Verif.C113_plan_partial",
    "Verif.C113_made_partial",
    "Verif.C113_anchors_partial",
    "Verif.C113_references",
    "Verif.C113_negation"
   ],
   "note": "Proved for every session from a new builder in which what is put into the builders can be carried, the types returned by functions can be carried, no builder refers to a lambda parameter or passes a nil argument, and functions and types asked for by reference belong to loaded extensions. False for user-defined types of extensions the collection does not have: the plan is written but cannot be read (C113_negation). Plans with further relations are covered by C43 and C112's negation."
  },
  {
   "property": "C114",
   "status": "partial",
   "theorems": [
    "Verif.C114_contents_partial",
    "Verif.C114_stable_partial",
    "Verif.C114_rebuilt",
    "Verif.C114_rebuild_partial",
    "Verif.C114_negation",
    "Verif.C114_negation_rebuild"
   ],
   "note": "The code keeps the slices handed to AddRollup, AddGroupingSet and SetGroupingReferences without copying them, so a program that fills such a slice again changes grouping sets added before (negation proved); ToBuilder followed by Build loses the output mapping, hint and extensions (negation proved). Proved: for all programs that do not write to such a slice afterwards, memory refines the values, built aggregates are stable, and rebuilding keeps everything else."
  },
  {
   "property": "C115",
   "status": "partial",
   "theorems": [
    "Verif.C115_loaded",
    "Verif.C115_offered",
    "Verif.C115_attributes",
    "Verif.C115_resolveURN_partial",
    "Verif.C115_negation_resolveURN",
    "Verif.C115_made_partial",
    "Verif.C115_negation_made",
    "Verif.C115_negation_match",
    "Verif.C115_options_partial",
    "Verif.C115_options_accepted",
    "Verif.C115_negation_options",
    "Verif.C115_negation"
   ],
   "note": "Functions of loaded files: proved in full. False of the code for ResolveURN (no defaults for decomposability and window type), for declarations made on the fly (not deterministic, no nullability handling, so that they match no arguments) and for a MaxSet option of 2^63 and more; the negations are proved and the partial theorems say what holds."
  },
  {
   "property": "C116",
   "status": "partial",
   "theorems": [
    "Verif.C116_negative",
    "Verif.C116_undeclared",
    "Verif.C116_exact_partial",
    "Verif.C116_each_partial",
    "Verif.C116_together_partial",
    "Verif.C116_negation_first",
    "Verif.C116_negation_refused",
    "Verif.C116_negation_panic",
    "Verif.C116_negation_interval"
   ],
   "note": "False with an upper limit: one parameter and at most one argument accepts the second position, three parameters refuse the last; variadic functions without parameters panic; nullable interval_day arguments accepted by a DISCRETE consistent variadic are refused one by one. Proved for the rest without user-defined types."
  },
  {
   "property": "C117",
   "status": "partial",
   "theorems": [
    "Verif.C117_made_partial",
    "Verif.C117_refused_partial",
    "Verif.C117_roundtrip_partial",
    "Verif.C117_same_clock",
    "Verif.C117_negation",
    "Verif.C117_negation_date",
    "Verif.C117_negation_uuid",
    "Verif.C117_negation_decimal",
    "Verif.C117_negation_precision",
    "Verif.C117_negation_day",
    "Verif.C117_negation_zone",
    "Verif.C117_negation_before_1970",
    "Verif.C117_varchar",
    "Verif.C117_negation_panics"
   ],
   "note": "Full statement C117_statement is false of the code (C117_negation...): days beyond 32 bits wrap around, UUIDs of any length, decimals with more digits than their precision, precisions above 9 and times of day beyond a day are accepted, times of day are taken in UTC, tenths and hundredths before 1970 are rounded up. Proved: for arguments that can be represented, apart from the last two cases, the literal asked for is returned and says what was given; refusals of times and misshapen decimals; the round trip except for year-month intervals and timestamps before 1970 (see C12)."
  },
  {
   "property": "C118",
   "status": "partial",
   "theorems": [
    "Verif.C118_read",
    "Verif.C118_accepted",
    "Verif.C118_only_partial",
    "Verif.C118_signature",
    "Verif.C118_roundtrip_partial",
    "Verif.C118_negation",
    "Verif.C118_negation_panic",
    "Verif.C118_negation_nil",
    "Verif.C118_negation_load"
   ],
   "note": "Well-formed entries are read as exactly the arguments declared, or refused only because a text is no type (all lists of entries), and what was accepted without a nil argument was well-formed. The full statement is false: texts of the wrong YAML kind make the reader panic, and an entry with none of the keys becomes a nil argument which makes loading panic. The round trip covers the types for which C88 has one."
  },
  {
   "property": "C119",
   "status": "partial",
   "theorems": [
    "Verif.C119_columns_partial",
    "Verif.C119_built",
    "Verif.C119_by_columns",
    "Verif.C119_hash_exact",
    "Verif.C119_grouping_sets",
    "Verif.C119_negation_projection",
    "Verif.C119_negation_hash",
    "Verif.C119_negation_union",
    "Verif.C119_negation_grouping"
   ],
   "note": "Proved for all relations with plain output (no projection mask, hash/merge joins that are meant to keep all columns, set inputs nullable only where the first is, at most one grouping set listing all expressions in order), for every relation made by the plain builder calls and for AggregateColumns. False otherwise: masks are ignored, hash and merge joins ignore their type (exactly characterised), unions take the first input only, several grouping sets give one column per reference and no set number. Projection masks are opaque; intersections are prescribed only for inputs with equal columns."
  },
  {
   "property": "C12",
   "status": "partial",
   "theorems": [
    "Verif.C12_negation",
    "Verif.C12_negation_interval_year",
    "Verif.C12_negation_variation",
    "Verif.C12_negation_compound",
    "Verif.C12_literal_roundtrip_partial",
    "Verif.C12_newLiteral_faithful_partial"
   ],
   "note": "False as stated: negative precision timestamps read back as nil, year-month intervals change kind, precision times lose their variation, zero compound intervals lose their precision. Proved for literals whose type agrees with their value at every depth, and that NewLiteral builds such literals."
  },
  {
   "property": "C120",
   "status": "partial",
   "theorems": [
    "Verif.C120_values_partial",
    "Verif.C120_required",
    "Verif.C120_newIfThen",
    "Verif.C120_newSwitch",
    "Verif.C120_newFieldRef",
    "Verif.C120_column",
    "Verif.C120_or_null",
    "Verif.C120_negation_or",
    "Verif.C120_negation_cast",
    "Verif.C120_negation_return_null",
    "Verif.C120_negation_subquery",
    "Verif.C120_negation_list",
    "Verif.C120_negation_path",
    "Verif.C120_negation_in",
    "Verif.C120_negation_comparison"
   ],
   "note": "Proved for all expressions that avoid the cases where GetType overlooks null, which are: or-lists, IN and set comparisons over nullable operands, casts of nullable values or with null on failure to a required type, scalar subqueries of a required column, lists and maps of mixed nullability, required fields inside nullable containers. Each of them is refuted by a witness. Masks and the insides of lambdas are not looked into."
  },
  {
   "property": "C121",
   "status": "partial",
   "theorems": [
    "Verif.C121_rows_partial",
    "Verif.C121_required",
    "Verif.C121_call",
    "Verif.C121_aggregateColumns",
    "Verif.C121_built",
    "Verif.C121_negation_hash",
    "Verif.C121_negation_union",
    "Verif.C121_negation_grouping",
    "Verif.C121_negation_mask",
    "Verif.C121_negation_virtual",
    "Verif.C121_negation_ctas",
    "Verif.C121_negation_undecoded"
   ],
   "note": "Proved for relations whose column expressions satisfy C120 and which have plain rows, and for everything assembled by builder calls (C121_built: virtual tables with rows of equal length, created tables with columns for the rows). False of the code for outer hash and merge joins, unions with a nullable later input, several grouping sets, projection masks, virtual tables with short rows, created tables of other columns and undecoded extensions."
  },
  {
   "property": "C122",
   "status": "partial",
   "theorems": [
    "Verif.C122_remap_partial",
    "Verif.C122_builder",
    "Verif.C122_negation"
   ],
   "note": "Proved for relations whose rows are of the record type (C121) and, without any condition, for builder calls. False where the record type is wrong: asking an anti hash join for both columns it claims to have."
  },
  {
   "property": "C123",
   "status": "proved",
   "theorems": [
    "Verif.C123_rewrite",
    "Verif.C123_tree",
    "Verif.C123_rows"
   ],
   "note": "Rows as sets (order and number of rows are not looked at), measures as any value of their type; the relation version C123_tree is free of any semantics."
  },
  {
   "property": "C124",
   "status": "partial",
   "theorems": [
    "Verif.C124_visit_partial",
    "Verif.C124_result_partial",
    "Verif.C124_ends_partial",
    "Verif.C124_every",
    "Verif.C124_negation_window",
    "Verif.C124_negation_multiOr",
    "Verif.C124_negation"
   ],
   "note": "Proved for all expressions and steps: whatever is returned is the expression with the step applied to every node handed to a visitor, innermost first, and existing memory is untouched; it ends without panic unless a switch label stops being a literal or a multi-or-list with options keeps all its values. False in full: partitions and sort fields of window functions and roots of field references are not visited (C124_negation_window), and rewriting only the options of a multi-or-list panics (C124_negation_multiOr)."
  },
  {
   "property": "C125",
   "status": "proved",
   "theorems": [
    "Verif.C125_visit",
    "Verif.C125_rewrite",
    "Verif.C125_plan"
   ],
   "note": "Types are those GetType reports; values are those of the evaluation relation in Spec/Value.lean; with C123 for relation trees."
  },
  {
   "property": "C126",
   "status": "partial",
   "theorems": [
    "Verif.C126_build_partial",
    "Verif.C126_user_partial",
    "Verif.C126_func_partial",
    "Verif.C126_negation_any",
    "Verif.C126_negation_func",
    "Verif.C126_negation_user",
    "Verif.C126_count"
   ],
   "note": "Proved for simple types, integer parameters, lists, maps, structs of such, and function types of simple types; for user-defined types up to the reference, which is lost (C126_user_partial, C126_negation_user). False for type variables (C126_negation_any) and other function types (C126_negation_func)."
  },
  {
   "property": "C127",
   "status": "partial",
   "theorems": [
    "Verif.C127_signature_partial",
    "Verif.C127_signature_kinds",
    "Verif.C127_found_partial",
    "Verif.C127_negation"
   ],
   "note": "Proved for user-defined types without an underscore in their names; with one, f(u!a, i32) hides f(u!a_i32)."
  },
  {
   "property": "C128",
   "status": "partial",
   "theorems": [
    "Verif.C128_blanks",
    "Verif.C128_signs",
    "Verif.C128_comments_partial",
    "Verif.C128_negation_block",
    "Verif.C128_negation_characters",
    "Verif.C128_negation",
    "Verif.C128_negation_empty"
   ],
   "note": "White space is proved in full, comments to the end of the line and /* */ with one character; longer /* */ comments are refused, and characters that no type expression has are skipped."
  },
  {
   "property": "C129",
   "status": "partial",
   "theorems": [
    "Verif.C129_resolved",
    "Verif.C129_call_partial",
    "Verif.C129_derived_partial",
    "Verif.C129_negation",
    "Verif.C129_negation_variadic"
   ],
   "note": "C129_resolved: what Match accepts passes the checks of ResolveType, which then answers what the declared return type gives. C129_call_partial and C129_derived_partial are the whole way, variadic functions included if every declared parameter is given (and, under MIRROR, further arguments only for consistent ones), without interval_day arguments, parameters without function or user-defined types and with integer variables at the top. False as stated: a length inside a list of varchars cannot be used for the result (C129_negation), and a call that leaves out a variadic parameter with integer variables is accepted but its type panics (C129_negation_variadic)."
  },
  {
   "property": "C13",
   "status": "partial",
   "theorems": [
    "Verif.C13_segment_roundtrip_partial",
    "Verif.C13_no_keys",
    "Verif.C13_message",
    "Verif.C13_negation"
   ],
   "note": "Holds for every chain whose map keys are faithful literals, and unconditionally without map keys; false for keys whose literal does not survive (C12)."
  },
  {
   "property": "C130",
   "status": "partial",
   "theorems": [
    "Verif.C130_scalar_partial",
    "Verif.C130_column_partial",
    "Verif.C130_compact_partial",
    "Verif.C130_order_partial",
    "Verif.C130_negation",
    "Verif.C130_negation_column",
    "Verif.C130_negation_table"
   ],
   "note": "False in full: with two options the text depends on the order in which Go ranges over the map, a null in a column makes the printed type nullable so the other values are read as nullable, and named tables lose their name. Proved: scalar tests whose arguments and result read back (C108), tests of one column, and tests of rows of integers or truth values read back as the same test; with at most one option the text does not depend on the order."
  },
  {
   "property": "C131",
   "status": "partial",
   "theorems": [
    "Verif.C131_text_partial",
    "Verif.C131_equal_partial",
    "Verif.C131_same_text_partial",
    "Verif.C131_negation",
    "Verif.C131_negation_variation",
    "Verif.C131_negation_unspecified"
   ],
   "note": "False in full: all user-defined types print alike, variations are not printed, and unspecified nullability prints like required. C131_text_partial is exact for all types without enumerations: texts are equal exactly if the types differ in nothing but these; hence of types without these, texts are equal exactly if the types are. Types that Equals finds equal always print the same (enumerations apart)."
  },
  {
   "property": "C132",
   "status": "proved",
   "theorems": [
    "Verif.C132_only",
    "Verif.C132_every",
    "Verif.C132_once",
    "Verif.C132_by_name",
    "Verif.C132_by_count"
   ],
   "note": "For all histories of loads in which the external defaults.Set refuses nothing halfway, and all orders of ranging over the maps. For which calls the lookup by number of arguments is right is C81."
  },
  {
   "property": "C133",
   "status": "partial",
   "theorems": [
    "Verif.C133_count_partial",
    "Verif.C133_any_count",
    "Verif.C133_inputs",
    "Verif.C133_rest",
    "Verif.C133_own",
    "Verif.C133_rows",
    "Verif.C133_tree",
    "Verif.C133_negation",
    "Verif.C133_negation_set"
   ],
   "note": "The number of inputs is not checked by reads and extension leaves (what they are given is ignored) nor by sets and multi-input extensions, so that part is proved for relations with one or two inputs (C133_count_partial) and refuted for the others (C133_negation, C133_negation_set). Everything else is proved for all relations: inputs, rest, own inputs, rows, trees."
  },
  {
   "property": "C134",
   "status": "partial",
   "theorems": [
    "Verif.C134_set_get",
    "Verif.C134_rest",
    "Verif.C134_rows",
    "Verif.C134_roundtrip",
    "Verif.C134_wire_partial",
    "Verif.C134_files",
    "Verif.C134_negation",
    "Verif.C134_copy_partial",
    "Verif.C134_negation_copy"
   ],
   "note": "Set, get, the rest and the round trip are proved for all relations. In the message, the extension set on a read of files becomes the one of the list of files instead of that of the relation (C134_files, C134_negation). What is set on a copy of a leaf shows in the leaf, since Copy returns the receiver (C134_negation_copy); for relations with inputs it does not (C134_copy_partial). Rows are those of the specification Rel.Yields; for files the extension is part of the list an engine reads, so C134_rows leaves files out."
  },
  {
   "property": "C135",
   "status": "partial",
   "theorems": [
    "Verif.C135_message_partial",
    "Verif.C135_values_partial",
    "Verif.C135_type_partial",
    "Verif.C135_meaning_partial",
    "Verif.C135_rows_partial",
    "Verif.C135_negation",
    "Verif.C135_negation_zero",
    "Verif.C135_negation_arguments",
    "Verif.C135_negation_type"
   ],
   "note": "Equal expressions have one message, one type, the same values, and relations in which they replace each other the same rows, when calls of one function have one argument count, nothing is missing, and there is no negative zero, no interval_compound type and one bounds type. False beyond: bounds types, signs of zeros, further arguments and recorded types are not compared."
  },
  {
   "property": "C136",
   "status": "partial",
   "theorems": [
    "Verif.C136_dates",
    "Verif.C136_strings",
    "Verif.C136_string_text",
    "Verif.C136_intervals",
    "Verif.C136_arguments_partial",
    "Verif.C136_negation",
    "Verif.C136_negation_dates"
   ],
   "note": "False of strings that look like dates, times or intervals: '1991-07-23'::string is refused, since the text is read as a date (C136_negation). Proved as stated for dates, times and timestamps; for strings that do not begin with a P exactly which ones are read. The lexer is external: the rule that is first among those that match a whole text gives its kind."
  },
  {
   "property": "C137",
   "status": "partial",
   "theorems": [
    "Verif.C137_tells_partial",
    "Verif.C137_scalar_partial",
    "Verif.C137_window_partial",
    "Verif.C137_aggregate_partial",
    "Verif.C137_negation",
    "Verif.C137_negation_enum",
    "Verif.C137_negation_type"
   ],
   "note": "False with enumeration values: their type has a name in no dialect, so whatever a dialect lists, no call with such an argument is found (C137_negation_enum); and with types as arguments, which GetArgTypes counts and resolving does not (C137_negation_type). Proved for calls whose arguments are expressions. That resolving overwrites interval_day types of the arguments is left out of the model of the call (C64)."
  },
  {
   "property": "C138",
   "status": "partial",
   "theorems": [
    "Verif.C138_tells_partial",
    "Verif.C138_same",
    "Verif.C138_keys",
    "Verif.C138_prints",
    "Verif.C138_negation",
    "Verif.C138_negation_mask"
   ],
   "note": "C138_prints, C138_same and C138_keys as stated. C138_tells_partial for keys and root expressions that read without a closing bracket; false otherwise: a string key can look like the end of one key and the beginning of the next (C138_negation). A reference by a mask is read from a plan, but printing it panics (C138_negation_mask). The texts of other expressions than field references are a parameter."
  },
  {
   "property": "C139",
   "status": "partial",
   "theorems": [
    "Verif.C139_prints",
    "Verif.C139_part",
    "Verif.C139_contains",
    "Verif.C139_says",
    "Verif.C139_read_partial",
    "Verif.C139_negation",
    "Verif.C139_negation_decimal",
    "Verif.C139_negation_nil",
    "Verif.C139_reference"
   ],
   "note": "Printing and containment (of parts, and of what each expression says itself) are proved for all expressions in which nothing lacks what it needs. That everything read can be printed is false of the code: references by a mask, decimals of fewer than 16 bytes and literals read as nil panic (C139_negation, C139_negation_decimal, C139_negation_nil); C139_read_partial is the rest."
  },
  {
   "property": "C14",
   "status": "proved",
   "theorems": [
    "Verif.C14_getType"
   ],
   "note": "Map keys must be non-nil literals of plan types."
  },
  {
   "property": "C140",
   "status": "partial",
   "theorems": [
    "Verif.C140_prints",
    "Verif.C140_needs",
    "Verif.C140_shows_partial",
    "Verif.C140_negation"
   ],
   "note": "Printing, name, arguments and output type are proved. Options, sort fields, phase and invocation are not in the text: a count of distinct values reads like a count of all (C140_negation)."
  },
  {
   "property": "C15",
   "status": "partial",
   "theorems": [
    "Verif.C15_mask_roundtrip_partial",
    "Verif.C15_accessors",
    "Verif.C15_negation",
    "Verif.C15_negation_list"
   ],
   "note": "Childless map/list selections panic; everything else is proved."
  },
  {
   "property": "C16",
   "status": "partial",
   "theorems": [
    "Verif.C16_visit_identity_partial",
    "Verif.C16_same_node",
    "Verif.C16_negation",
    "Verif.C16_switch_nil_default"
   ],
   "note": "Same node, unchanged memory for every node (C16_same_node). The visitor is called exactly on the children in order except window sorts/partitions and field-reference roots, which Visit skips (negation proved); for a switch without default it is additionally called with nil."
  },
  {
   "property": "C17",
   "status": "partial",
   "theorems": [
    "Verif.C17_visit_rewrites_partial",
    "Verif.C17_window_partial",
    "Verif.C17_negation_window",
    "Verif.C17_negation_fieldRef",
    "Verif.C17_multiOr_panics",
    "Verif.C17_negation_label"
   ],
   "note": "Proved for every node kind; the exceptions are false of the code and have proved negations: hidden children (window sorts/partitions, field-reference root), multi-or-list options changing while values do not (panics for every such input), switch labels replaced by non-literals (panics)."
  },
  {
   "property": "C18",
   "status": "partial",
   "theorems": [
    "Verif.C18_equals_partial",
    "Verif.C18_equivalence_partial",
    "Verif.C18_nil",
    "Verif.C18_scalar_partial",
    "Verif.C18_window_partial",
    "Verif.C18_negation",
    "Verif.C18_negation_arguments",
    "Verif.C18_negation_ifThen",
    "Verif.C18_negation_boundsType",
    "Verif.C18_negation_nan",
    "Verif.C18_negation_noReference",
    "Verif.C18_negation_setComparison"
   ],
   "note": "Equals returns and decides equality of contents, hence is an equivalence, on expressions in which calls of one function have one argument count and nothing is missing. False beyond that: proved negations (variadic argument counts, if-then default, bounds type, NaN)."
  },
  {
   "property": "C19",
   "status": "partial",
   "theorems": [
    "Verif.C19_switch_type",
    "Verif.C19_newSwitch_partial",
    "Verif.C19_negation",
    "Verif.C19_accepts",
    "Verif.C19_contents_partial",
    "Verif.C19_kind"
   ],
   "note": "GetType of every switch is proved; for switches made by NewSwitch the partial theorem excludes interval_day results, whose nullability NewSwitch erases in place (negation proved). C19_accepts says which switches are accepted, C19_contents_partial that the parts are kept, C19_kind that the type is right apart from nullability for interval_day as well."
  },
  {
   "property": "C20",
   "status": "proved",
   "theorems": [
    "Verif.C20_scoped",
    "Verif.C20_rejected",
    "Verif.C20_reference",
    "Verif.C20_context",
    "Verif.C20_returns"
   ],
   "note": "For all builder trees of one ExprBuilder, by mutual induction with the mutable scope stack threaded through. Builds that panic (nil builder, panicking registry) are outside."
  },
  {
   "property": "C21",
   "status": "proved",
   "theorems": [
    "Verif.C21_anchors",
    "Verif.C21_exhausted"
   ],
   "note": "For fewer than 2^32 different ids; C21_exhausted shows the bound is inherent."
  },
  {
   "property": "C22",
   "status": "partial",
   "theorems": [
    "Verif.C22_requests_partial",
    "Verif.C22_negation",
    "Verif.C22_panics"
   ],
   "note": "False for plans with gaps in their anchor numbering (witness). Proved for sets whose anchors do not exceed the number of ids of their kind."
  },
  {
   "property": "C23",
   "status": "partial",
   "theorems": [
    "Verif.C23_roundtrip_partial",
    "Verif.C23_fresh_tidy",
    "Verif.C23_fresh_partial",
    "Verif.C23_panics",
    "Verif.C23_negation",
    "Verif.C23_negation_duplicate"
   ],
   "note": "False with one type and two type variations (ToProto panics) and for plans giving one id two anchors (witnesses). Proved for all other sets and all iteration orders."
  },
  {
   "property": "C24",
   "status": "partial",
   "theorems": [
    "Verif.C24_order_partial",
    "Verif.C24_negation",
    "Verif.C24_negation_order"
   ],
   "note": "False: panic with one type and two variations; functions in map order when a type or variation exists (witnesses). Proved for all other sets."
  },
  {
   "property": "C25",
   "status": "proved",
   "theorems": [
    "Verif.C25_rejected",
    "Verif.C25_others",
    "Verif.C25_again"
   ],
   "note": "all collections; C25_rejected assumes that the external defaults.Set does not fail on the declarations of the file"
  },
  {
   "property": "C26",
   "status": "partial",
   "theorems": [
    "Verif.C26_found_partial",
    "Verif.C26_ambiguous_partial",
    "Verif.C26_negation_aggregate",
    "Verif.C26_negation_thrice",
    "Verif.C26_negation_mixed"
   ],
   "note": "proved for sole scalar and window implementations, and for an even number of one-implementation declarations; false for aggregate functions and for three declarations or a mixture"
  },
  {
   "property": "C27",
   "status": "partial",
   "theorems": [
    "Verif.C27_accepts_partial",
    "Verif.C27_no_panic_partial",
    "Verif.C27_negation_name",
    "Verif.C27_negation_panic",
    "Verif.C27_negation_panic_udt",
    "Verif.C27_negation_panic_sync",
    "Verif.C27_negation_interval"
   ],
   "note": "False in general: names of user-defined types are not compared, variadic calls with too few arguments, user-defined types with type arguments and omitted variadic arguments with shared integer parameters panic, and nullable interval_day arguments pass a DISCRETE consistent variadic. Proved for the rest."
  },
  {
   "property": "C28",
   "status": "partial",
   "theorems": [
    "Verif.C28_mirror_partial",
    "Verif.C28_negation",
    "Verif.C28_negation_unspecified"
   ],
   "note": "False for arguments beyond the declared parameters of an inconsistent variadic, and for unspecified nullability; proved otherwise."
  },
  {
   "property": "C29",
   "status": "partial",
   "theorems": [
    "Verif.C29_counts_partial",
    "Verif.C29_negation",
    "Verif.C29_negation_unlimited"
   ],
   "note": "Proved for functions that are not variadic; variadic counts are one too high, and unlimited ones advertise a small maximum. The partial theorem states the exact relation."
  },
  {
   "property": "C30",
   "status": "partial",
   "theorems": [
    "Verif.C30_strict_implies_loose",
    "Verif.C30_loose_ignores_nullability_partial",
    "Verif.C30_negation"
   ],
   "note": "First half proved for all types. Second half false for enum arguments (C30_negation), proved for all others."
  },
  {
   "property": "C31",
   "status": "partial",
   "theorems": [
    "Verif.C31_variables_partial",
    "Verif.C31_negation_sync",
    "Verif.C31_negation_func"
   ],
   "note": "False when two parameters share an integer parameter, and inside function types; proved otherwise."
  },
  {
   "property": "C32",
   "status": "partial",
   "theorems": [
    "Verif.C32_expressions",
    "Verif.C32_assignments",
    "Verif.C32_return_partial",
    "Verif.C32_negation_wrap",
    "Verif.C32_negation_nested",
    "Verif.C32_negation_time"
   ],
   "note": "Expressions and assignment sequences are proved in full. For whole derivations: parameters with integer variables at the top, flat final types, no time precisions, results within int32; false otherwise."
  },
  {
   "property": "C33",
   "status": "proved",
   "theorems": [
    "Verif.C33_remap_exact",
    "Verif.C33_remap_compose"
   ],
   "note": "For relations whose schema is computable and whose column counts fit the int32 the code counts them in."
  },
  {
   "property": "C34",
   "status": "partial",
   "theorems": [
    "Verif.C34_receiver_unchanged_partial",
    "Verif.C34_negation"
   ],
   "note": "False for leaf relations: Copy returns the receiver, so a successful Remap changes it. Proved for relations with inputs and for failing calls."
  },
  {
   "property": "C35",
   "status": "partial",
   "theorems": [
    "Verif.C35_builds_well_partial",
    "Verif.C35_accepts",
    "Verif.C35_negation_filter",
    "Verif.C35_negation_write",
    "Verif.C35_negation_ctas",
    "Verif.C35_negation_project"
   ],
   "note": "False for filters over remapped inputs, writes with a mapping, create-table-as-select with fewer table than input columns, and untyped project expressions; proved for all other calls of the modelled builders."
  },
  {
   "property": "C36",
   "status": "proved",
   "theorems": [
    "Verif.C36_join_columns"
   ],
   "note": ""
  },
  {
   "property": "C37",
   "status": "partial",
   "theorems": [
    "Verif.C37_schema_pure_partial",
    "Verif.C37_negation_capacity",
    "Verif.C37_negation_outer",
    "Verif.C37_negation_interval"
   ],
   "note": "False when a schema slice has spare capacity, for outer joins with an empty right side, and for interval_day columns made nullable; proved for all sequences of calls otherwise."
  },
  {
   "property": "C38",
   "status": "partial",
   "theorems": [
    "Verif.C38_references_partial",
    "Verif.C38_contents_partial",
    "Verif.C38_negation"
   ],
   "note": "Comparison is not symmetric (C18), so two listed expressions may be equal in one direction. Proved in full for regular expressions."
  },
  {
   "property": "C39",
   "status": "proved",
   "theorems": [
    "Verif.C39_cube",
    "Verif.C39_limit"
   ],
   "note": ""
  },
  {
   "property": "C40",
   "status": "proved",
   "theorems": [
    "Verif.C40_rollup"
   ],
   "note": "Contents; the sets share the caller's slice."
  },
  {
   "property": "C41",
   "status": "partial",
   "theorems": [
    "Verif.C41_build_partial",
    "Verif.C41_build_iff",
    "Verif.C41_addExpression",
    "Verif.C41_negation_unused",
    "Verif.C41_negation_measure"
   ],
   "note": "Unused expressions and nil measures are accepted."
  },
  {
   "property": "C42",
   "status": "partial",
   "theorems": [
    "Verif.C42_build",
    "Verif.C42_build_iff",
    "Verif.C42_decode_partial",
    "Verif.C42_decode_root",
    "Verif.C42_negation"
   ],
   "note": "proved for the builder; for decoded plans except roots that are writes or undecoded extensions, whose names are not checked (negation)"
  },
  {
   "property": "C43",
   "status": "partial",
   "theorems": [
    "Verif.C43_plan_partial",
    "Verif.C43_others_lost",
    "Verif.C43_negation"
   ],
   "note": "holds only without further relations; with any, the first is lost and writing the plan always panics"
  },
  {
   "property": "C44",
   "status": "partial",
   "theorems": [
    "Verif.C44_accepted_partial",
    "Verif.C44_complete_partial",
    "Verif.C44_rejected",
    "Verif.C44_plan_partial",
    "Verif.C44_negation_null",
    "Verif.C44_negation_twice",
    "Verif.C44_negation_aggregate",
    "Verif.C44_negation_decode"
   ],
   "note": "anchors and types are checked; null for required parameters, repeated bindings, parameters outside project/filter/join/sort and decoded plans are not handled (negations)"
  },
  {
   "property": "C45",
   "status": "partial",
   "theorems": [
    "Verif.C45_memory",
    "Verif.C45_relation",
    "Verif.C45_bytes_partial",
    "Verif.C45_tree_partial",
    "Verif.C45_negation",
    "Verif.C45_negation_empty",
    "Verif.C45_negation_schema"
   ],
   "note": "Exact in memory, for every relation; false over bytes, where an empty mapping becomes no mapping (proved otherwise)."
  },
  {
   "property": "C46",
   "status": "partial",
   "theorems": [
    "Verif.C46_roundtrip_partial",
    "Verif.C46_negation",
    "Verif.C46_negation_mode",
    "Verif.C46_negation_op"
   ],
   "note": "False of the code: the output mode is not written, so the schema of every write read back panics; updates cannot be read. Everything else is kept."
  },
  {
   "property": "C47",
   "status": "partial",
   "theorems": [
    "Verif.C47_keys_partial",
    "Verif.C47_legacy_partial",
    "Verif.C47_negation"
   ],
   "note": "All key lists whose references can be carried (C72); keys referring to outer rows or lambda parameters lose their recorded type."
  },
  {
   "property": "C48",
   "status": "partial",
   "theorems": [
    "Verif.C48_rewrite_partial",
    "Verif.C48_same",
    "Verif.C48_error",
    "Verif.C48_virtual",
    "Verif.C48_negation",
    "Verif.C48_negation_virtual",
    "Verif.C48_negation_sorts",
    "Verif.C48_negation_keys",
    "Verif.C48_negation_inputs",
    "Verif.C48_negation_nil"
   ],
   "note": "Proved for functions that do not change the expressions rewriting overlooks: values of virtual tables (unless a filter changed), sort fields of aggregate functions, join keys. Reads, leaves, sets and multi-input extensions do not check the number of inputs; absent expressions are passed to the function as nil."
  },
  {
   "property": "C49",
   "status": "partial",
   "theorems": [
    "Verif.C49_accepts",
    "Verif.C49_rows_partial",
    "Verif.C49_negation",
    "Verif.C49_negation_short",
    "Verif.C49_negation_long",
    "Verif.C49_negation_nil"
   ],
   "note": "False of the code: later rows may be shorter (accepted) or longer (panic). C49_accepts says exactly which rows of typed values are accepted."
  },
  {
   "property": "C50",
   "status": "partial",
   "theorems": [
    "Verif.C50_accepted_partial",
    "Verif.C50_same_partial",
    "Verif.C50_negation",
    "Verif.C50_negation_order"
   ],
   "note": "Without name clashes acceptance does not depend on the order (exactly the dialects whose functions are all registered); accepted orders give the same functions and the same lists per Substrait name. False for dialects that use the Substrait name of one function as local name of another, and for the order of lists."
  },
  {
   "property": "C51",
   "status": "partial",
   "theorems": [
    "Verif.C51_right",
    "Verif.C51_absent",
    "Verif.C51_decision",
    "Verif.C51_safe_partial",
    "Verif.C51_negation",
    "Verif.C51_negation_kind"
   ],
   "note": "Complete decision proved. Panics when another kind registers the identifier (C51_negation) or the kind is wrong."
  },
  {
   "property": "C52",
   "status": "partial",
   "theorems": [
    "Verif.C52_accepts",
    "Verif.C52_mapped",
    "Verif.C52_written",
    "Verif.C52_roundtrip_partial",
    "Verif.C52_roundtrip_nullable_partial",
    "Verif.C52_negation",
    "Verif.C52_negation_mark",
    "Verif.C52_negation_paren",
    "Verif.C52_negation_precision",
    "Verif.C52_negation_year"
   ],
   "note": "Round trip proved for simple, fixed-length and decimal types without variation whose local name does not end in '?' and contains no '('; which types have a local name and how it is written is exact. Variations, such names, and types with a time precision do not come back (negations)."
  },
  {
   "property": "C53",
   "status": "partial",
   "theorems": [
    "Verif.C53_interval_text_roundtrip",
    "Verif.C53_reject_negation"
   ],
   "note": "Round trip proved for all int32 pairs; rejection of out-of-range components is false of the code (2^32+1 years read as 1)."
  },
  {
   "property": "C54",
   "status": "proved",
   "theorems": [
    "Verif.C54_newIfThen"
   ],
   "note": "All clause lists; result expressions are assumed to have types."
  },
  {
   "property": "C55",
   "status": "proved",
   "theorems": [
    "Verif.C55_urn_exact"
   ],
   "note": "the regular expression is modelled with a derivative matcher"
  },
  {
   "property": "C56",
   "status": "partial",
   "theorems": [
    "Verif.C56_interval_precision_partial",
    "Verif.C56_finer_and_back",
    "Verif.C56_negation"
   ],
   "note": "False of the code: coarser precision truncates silently. Proved whenever the fraction is representable."
  },
  {
   "property": "C57",
   "status": "proved",
   "theorems": [
    "Verif.C57_wire_kind"
   ],
   "note": ""
  },
  {
   "property": "C58",
   "status": "proved",
   "theorems": [
    "Verif.C58_change_precision"
   ],
   "note": ""
  },
  {
   "property": "C59",
   "status": "proved",
   "theorems": [
    "Verif.C59_literal_wire",
    "Verif.C59_literal_read"
   ],
   "note": "Both directions, any nesting through the children equation."
  },
  {
   "property": "C60",
   "status": "proved",
   "theorems": [
    "Verif.C60_decode"
   ],
   "note": ""
  },
  {
   "property": "C61",
   "status": "partial",
   "theorems": [
    "Verif.C61_loose_exact_partial",
    "Verif.C61_loose_udt_partial",
    "Verif.C61_strict_exact_partial",
    "Verif.C61_negation_name",
    "Verif.C61_negation_integer",
    "Verif.C61_negation_func"
   ],
   "note": "Exact for all declared types without user-defined types (strict: also without function types). False otherwise: names of user-defined types are not compared, integers are truncated to 32 bits, nullability inside function types is ignored."
  },
  {
   "property": "C62",
   "status": "partial",
   "theorems": [
    "Verif.C62_accepts_partial",
    "Verif.C62_negation",
    "Verif.C62_negation_struct",
    "Verif.C62_negation_sorts"
   ],
   "note": "False for variadics whose upper limit is below the position of an argument, for integer variables in only some components of a type, and for integer variables that are a length in one parameter and a time precision in another; proved for all other calls without user-defined types (shared integer variables included)."
  },
  {
   "property": "C63",
   "status": "partial",
   "theorems": [
    "Verif.C63_consistent_partial",
    "Verif.C63_negation"
   ],
   "note": "Proved for minimum at most one; with a larger minimum the first arguments are skipped."
  },
  {
   "property": "C64",
   "status": "partial",
   "theorems": [
    "Verif.C64_unchanged_partial",
    "Verif.C64_negation"
   ],
   "note": "Proved for arguments without interval_day types, which matching overwrites."
  },
  {
   "property": "C65",
   "status": "partial",
   "theorems": [
    "Verif.C65_integers_partial",
    "Verif.C65_negation",
    "Verif.C65_negation_nested"
   ],
   "note": "Proved for two different parameters that are single-parameter types or decimals; false within one parameter and for nested parameters."
  },
  {
   "property": "C66",
   "status": "partial",
   "theorems": [
    "Verif.C66_sound",
    "Verif.C66_total_partial",
    "Verif.C66_negation",
    "Verif.C66_negation_kind"
   ],
   "note": "The first half is proved in full, user-defined types in the result included (their reference is not said); the second for parameters with integer variables at the top that are not used both as time precision and length, and false otherwise."
  },
  {
   "property": "C67",
   "status": "proved",
   "theorems": [
    "Verif.C67_found",
    "Verif.C67_only",
    "Verif.C67_types"
   ],
   "note": "C67_only for files without colons in function names"
  },
  {
   "property": "C68",
   "status": "partial",
   "theorems": [
    "Verif.C68_accepts_partial",
    "Verif.C68_negation_panic"
   ],
   "note": "proved for files without malformed parameters, which make Load panic"
  },
  {
   "property": "C69",
   "status": "proved",
   "theorems": [
    "Verif.C69_only_matching"
   ],
   "note": ""
  },
  {
   "property": "C70",
   "status": "proved",
   "theorems": [
    "Verif.C70_aggregateExprs"
   ],
   "note": ""
  },
  {
   "property": "C71",
   "status": "proved",
   "theorems": [
    "Verif.C71_column_reference",
    "Verif.C71_joined_reference",
    "Verif.C71_aggregateColumns"
   ],
   "note": ""
  },
  {
   "property": "C72",
   "status": "partial",
   "theorems": [
    "Verif.C72_wire",
    "Verif.C72_roundtrip_partial",
    "Verif.C72_arguments_partial",
    "Verif.C72_negation",
    "Verif.C72_negation_switch",
    "Verif.C72_negation_lambda",
    "Verif.C72_negation_empty",
    "Verif.C72_negation_sort"
   ],
   "note": "The claim about the message (C72_wire) is proved for every expression. The round trip is proved for Expr.Sendable expressions; it is false in general: a switch without else, empty nested lists/maps, a sort field without direction can be written but not read, and references into lambdas lose their type. Subquery relations and masks are parameters of the model. interval_compound types are excluded because they come back as a different Go value (C01)."
  },
  {
   "property": "C73",
   "status": "partial",
   "theorems": [
    "Verif.C73_no_nil_partial",
    "Verif.C73_literals",
    "Verif.C73_missing",
    "Verif.C73_negation"
   ],
   "note": "False of the code for literals with a negative time or a bad precision, which are read as nil without an error: which ones is proved exactly (C73_literals). For all other messages nothing is nil, by structural induction over messages; subquery relations are parameters."
  },
  {
   "property": "C74",
   "status": "partial",
   "theorems": [
    "Verif.C74_wire",
    "Verif.C74_roundtrip_partial",
    "Verif.C74_negation",
    "Verif.C74_negation_iceberg",
    "Verif.C74_negation_groupings",
    "Verif.C74_negation_path",
    "Verif.C74_literal_rows"
   ],
   "note": "Exact for all trees a message can carry (Rel.Sendable); the losses are proved here and with C46 and C72."
  },
  {
   "property": "C75",
   "status": "partial",
   "theorems": [
    "Verif.C75_registered_partial",
    "Verif.C75_scalar",
    "Verif.C75_negation",
    "Verif.C75_negation_unregistered"
   ],
   "note": "False for aggregate functions that are not in the collection: their accessors panic."
  },
  {
   "property": "C76",
   "status": "partial",
   "theorems": [
    "Verif.C76_wire",
    "Verif.C76_roundtrip_partial",
    "Verif.C76_built_partial",
    "Verif.C76_negation",
    "Verif.C76_extensions_partial"
   ],
   "note": "Exact for plans a message can carry; false for a relation stored beside a root (C43). With the extension set of the plan: C76_extensions_partial."
  },
  {
   "property": "C77",
   "status": "partial",
   "theorems": [
    "Verif.C77_roundtrip_partial",
    "Verif.C77_local_partial",
    "Verif.C77_refused",
    "Verif.C77_negation"
   ],
   "note": "Proved for all simple, fixed-length and decimal types. Strings of types with a time precision and of nested types are always refused (C77_refused)."
  },
  {
   "property": "C78",
   "status": "partial",
   "theorems": [
    "Verif.C78_value",
    "Verif.C78_stable_partial",
    "Verif.C78_negation"
   ],
   "note": "Every type but interval_day is stable. The interval_day object is shared and its nullability overwritten by the next read (C78_negation)."
  },
  {
   "property": "C79",
   "status": "proved",
   "theorems": [
    "Verif.C79_registry",
    "Verif.C79_exact",
    "Verif.C79_presented",
    "Verif.C79_lookup",
    "Verif.C79_refused"
   ],
   "note": "For every iteration order that is accepted; which are accepted is C50."
  },
  {
   "property": "C80",
   "status": "proved",
   "theorems": [
    "Verif.C80_no_panic",
    "Verif.C80_accepts",
    "Verif.C80_contents",
    "Verif.C80_names"
   ],
   "note": "Dependencies are a Go map, hence distinct names. If two kernels give the same identifier one of them is kept."
  },
  {
   "property": "C81",
   "status": "partial",
   "theorems": [
    "Verif.C81_exact",
    "Verif.C81_found_partial",
    "Verif.C81_negation"
   ],
   "note": "False for variadic functions with several parameters and an upper limit: the lookup compares the limit with the number of all arguments."
  },
  {
   "property": "C82",
   "status": "partial",
   "theorems": [
    "Verif.C82_listed_partial",
    "Verif.C82_refused",
    "Verif.C82_negation"
   ],
   "note": "Proved for primitive, any, decimal, fixed-length and time-precision parameters. Functions with enum, type, list, map, struct or function parameters cannot be listed (C82_refused)."
  },
  {
   "property": "C83",
   "status": "partial",
   "theorems": [
    "Verif.C83_expr_partial",
    "Verif.C83_rel_partial",
    "Verif.C83_plan_partial",
    "Verif.C83_negation",
    "Verif.C83_negation_precision",
    "Verif.C83_negation_input",
    "Verif.C83_negation_common",
    "Verif.C83_negation_mapping",
    "Verif.C83_negation_literal",
    "Verif.C83_negation_measure",
    "Verif.C83_negation_write",
    "Verif.C83_negation_function"
   ],
   "note": "False of the code (eight kinds of messages that panic are proved to). The partial theorems: every expression, relation and plan message in which what is there is complete (spec Verif.Spec.NoPanic, predicates on messages and the registry) is read or refused with an error; row types of relations read have the described width. Functions of calls must be declared, or have a name that a declaration can be made of (C90). Assumes no decoders for extension relations."
  },
  {
   "property": "C84",
   "status": "partial",
   "theorems": [
    "Verif.C84_scalar_partial",
    "Verif.C84_window_partial",
    "Verif.C84_aggregate_partial",
    "Verif.C84_roundtrip_partial",
    "Verif.C84_negation",
    "Verif.C84_window_roundtrip_partial",
    "Verif.C84_aggregate_roundtrip_partial"
   ],
   "note": "Proved for arguments that are expressions or enumeration values; types given as arguments are left out by the lookup, with a witness. The round trip is proved for scalar, window and aggregate calls with sendable arguments and type."
  },
  {
   "property": "C85",
   "status": "partial",
   "theorems": [
    "Verif.C85_compound_partial",
    "Verif.C85_sole_partial",
    "Verif.C85_overloaded_partial",
    "Verif.C85_negation_any",
    "Verif.C85_negation_variadic",
    "Verif.C85_negation_mixed"
   ],
   "note": "Always by the compound name; by the function's name for the only implementation of a scalar or window function, and for overloads whose parameters name the argument types, without variadic arguments. False otherwise, with witnesses."
  },
  {
   "property": "C86",
   "status": "partial",
   "theorems": [
    "Verif.C86_window_partial",
    "Verif.C86_negation"
   ],
   "note": "Proved for window functions; false for aggregate functions, which are not checked."
  },
  {
   "property": "C87",
   "status": "partial",
   "theorems": [
    "Verif.C87_scalar_partial",
    "Verif.C87_window_partial",
    "Verif.C87_aggregate_partial",
    "Verif.C87_total_partial",
    "Verif.C87_no_type_partial",
    "Verif.C87_negation"
   ],
   "note": "Proved for scalar and window functions; for aggregate functions everything except the name: a custom aggregate call has no declaration and asking for its name panics (C87_negation)."
  },
  {
   "property": "C88",
   "status": "partial",
   "theorems": [
    "Verif.C88_written_partial",
    "Verif.C88_read_partial",
    "Verif.C88_different_partial",
    "Verif.C88_negation",
    "Verif.C88_negation_expression"
   ],
   "note": "Proved for type expressions whose function types have one parameter, and for derivations ending in one whose operators have closed left sides and no ? conditionals on the right, negated or last in a conditional. False otherwise: parentheses around function parameters and around conditionals are not written. Derivations inside other type expressions are not covered."
  },
  {
   "property": "C89",
   "status": "proved",
   "theorems": [
    "Verif.C89_parsed",
    "Verif.C89_no_panic"
   ],
   "note": "The grammar is modelled as all readings in the order of the alternatives; the generated lexer and parser are taken at their automaton's word (ANTLR runtime external)."
  },
  {
   "property": "C90",
   "status": "partial",
   "theorems": [
    "Verif.C90_kept_partial",
    "Verif.C90_unchanged_partial",
    "Verif.C90_negation",
    "Verif.C90_negation_signature",
    "Verif.C90_negation_name",
    "Verif.C90_negation_other"
   ],
   "note": "False of the code: signatures with str, bool, dec, list, ... make the reader panic, names without a signature are changed, and reading can redirect the reference of another function. Proved for compound names whose signature consists of i8, i16, i32, i64, fp32, fp64, date, time, uuid, any and user-defined types."
  },
  {
   "property": "C91",
   "status": "partial",
   "theorems": [
    "Verif.C91_usual_partial",
    "Verif.C91_left_to_right",
    "Verif.C91_negation",
    "Verif.C91_negation_value"
   ],
   "note": "False of the code: all operators have one precedence, so y = 1 + 2 * 3 gives varchar<9>. Proved: chains are read from left to right whatever the operators, which is the usual order when no operator follows one of lower precedence. Chains with the operator = are left out (after a name it can begin an assignment)."
  },
  {
   "property": "C92",
   "status": "partial",
   "theorems": [
    "Verif.C92_size_partial",
    "Verif.C92_decimal_partial",
    "Verif.C92_size_refused",
    "Verif.C92_decimal_refused",
    "Verif.C92_constant",
    "Verif.C92_negation"
   ],
   "note": "False of the code for sizes between 32 and 64 bits, which are cut to 32 bits: varchar<4294967297> is read as varchar<1>. Proved: 32-bit sizes and 64-bit constants are read as written, numbers beyond 64 bits are refused."
  },
  {
   "property": "C93",
   "status": "partial",
   "theorems": [
    "Verif.C93_no",
    "Verif.C93_partial",
    "Verif.C93_answered",
    "Verif.C93_read_partial",
    "Verif.C93_negation",
    "Verif.C93_negation_read"
   ],
   "note": "False of the code for fields of the value of a window function, and for literals that are read as nil (C73). Proved: a negative answer is always right, the answer is right for expressions that take no field from the value of an expression, every expression without nil parts gets an answer, and so does what was read from a message without such literals."
  },
  {
   "property": "C94",
   "status": "partial",
   "theorems": [
    "Verif.C94_roundtrip_partial",
    "Verif.C94_wire",
    "Verif.C94_one",
    "Verif.C94_one_read",
    "Verif.C94_negation",
    "Verif.C94_negation_twice",
    "Verif.C94_last"
   ],
   "note": "False of the code: subqueries are written but not read back, and functions that are declared twice are lost. Proved for references and extension sets that can be carried (C72, C23)."
  },
  {
   "property": "C95",
   "status": "partial",
   "theorems": [
    "Verif.C95_in_partial",
    "Verif.C95_exists",
    "Verif.C95_scalar_partial",
    "Verif.C95_comparison_partial",
    "Verif.C95_no_relation",
    "Verif.C95_boolean",
    "Verif.C95_negation",
    "Verif.C95_negation_scalar",
    "Verif.C95_negation_comparison"
   ],
   "note": "False of the code: scalar subqueries and ANY/ALL comparisons are built over relations with any number of columns; the type of such a scalar subquery panics. Proved: IN (fewer than 2^31 columns), EXISTS and UNIQUE accept exactly what makes sense; the others do when the relation has one column."
  },
  {
   "property": "C96",
   "status": "partial",
   "theorems": [
    "Verif.C96_whole_partial",
    "Verif.C96_fraction_partial",
    "Verif.C96_close_partial",
    "Verif.C96_form",
    "Verif.C96_negation",
    "Verif.C96_negation_refusal"
   ],
   "note": "False of the code: fractions lose up to a nanosecond in float64, whole numbers wrap at 32 bits, and seconds without digits are accepted. Proved: whole seconds are exact; below 2^24 seconds the result is exact or one nanosecond less; within 121 nanoseconds for any fraction; every accepted text has the form."
  },
  {
   "property": "C97",
   "status": "partial",
   "theorems": [
    "Verif.C97_text_partial",
    "Verif.C97_roundtrip_partial",
    "Verif.C97_whole_partial",
    "Verif.C97_subsecond",
    "Verif.C97_negation",
    "Verif.C97_negation_empty"
   ],
   "note": "False of the code: a time of less than a second is never read back, and empty or negative intervals are printed as P. Proved: from one second on the text stands for exactly the interval and is read back exactly or with one nanosecond less."
  },
  {
   "property": "C98",
   "status": "partial",
   "theorems": [
    "Verif.C98_type_partial",
    "Verif.C98_value_partial",
    "Verif.C98_refusal_partial",
    "Verif.C98_success_partial",
    "Verif.C98_negation",
    "Verif.C98_negation_struct",
    "Verif.C98_negation_micros",
    "Verif.C98_negation_variation"
   ],
   "note": "The type, and for values that fit the type the value, are kept; values that fit are accepted; too long varchar and decimals with too many digits are refused. False in full: fixedchar and fixedbinary lengths and list elements are not compared with the new type, a struct literal becomes a list, the deprecated microseconds of an interval are lost, a decimal drops the type variation. Decimals of 16 bytes, precisions 0 to 9 and counts within 64 bits are assumed."
  },
  {
   "property": "C99",
   "status": "partial",
   "theorems": [
    "Verif.C99_exact_partial",
    "Verif.C99_accepted_partial",
    "Verif.C99_negation",
    "Verif.C99_negation_parameter"
   ],
   "note": "Integers of the type are read exactly; texts that are no 64-bit integer are refused; others are accepted modulo the size of the type (300::i8 is 44), and numbers in types wrap at 32 bits."
  }
 ]
}