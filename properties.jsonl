{"id": "C01", "title": "Serialised types read back equal", "statement": "For every type value with time precisions in 0..9 that TypeToProto can serialise (it returns rather than panics), TypeFromProto applied to the message returns, without panicking, a type that Equals the original: same kind, parameters, children, nullability and type-variation reference at every nesting level.", "quantifier": "all type trees of any depth and width, any nullability, variation reference, length, precision, scale and user-defined parameters", "why_tests_cant": "Types nest without bound; a test fixes finitely many shapes, while a lost field in one nested kind only shows in a particular combination.", "anchors": ["types/types.go:TypeToProto", "types/types.go:TypeFromProto", "types/types.go:TypeParamFromProto"]}
{"id": "C02", "title": "Types read from protobuf can be written back unchanged", "statement": "For every protobuf type message that TypeFromProto accepts, TypeToProto of the result returns the same message (up to interval_day's documented default precision of 6 when the precision is absent); it never panics.", "quantifier": "all protobuf type messages accepted by the reader, nested to any depth", "why_tests_cant": "Needs every message kind at every nesting position; the failing kind (interval_compound) makes a panic reachable from any container.", "anchors": ["types/types.go:TypeFromProto", "types/types.go:TypeToProto", "types/interval_compound_type.go"]}
{"id": "C03", "title": "Type equality is an equivalence relation", "statement": "Type.Equals on plan-serialisable types is reflexive, symmetric and transitive, never panics, and answers true exactly when the two types are structurally the same (including nullability and variation reference at every level).", "quantifier": "all pairs and triples of serialisable types", "why_tests_cant": "Symmetry and transitivity quantify over pairs and triples of unbounded trees.", "anchors": ["types/types.go:Equals methods of every Type"]}
{"id": "C04", "title": "WithNullability only changes the outermost nullability", "statement": "t.WithNullability(n) has GetNullability n, is otherwise equal to t, leaves every nested type unchanged, is idempotent and last-write-wins, and does not modify t itself.", "quantifier": "all types and nullabilities; for the non-mutation part all heaps in which the receiver lives", "why_tests_cant": "The non-mutation clause is about aliasing: a test only sees it if it keeps the old pointer of the one kind that misbehaves.", "anchors": ["types/types.go:WithNullability", "types/interval_day_type.go:WithNullability"]}
{"id": "C05", "title": "Name count of a schema is exactly what printing consumes", "statement": "StructType.DepthFirstNameCount returns exactly the number of names that NamedStruct.String consumes: with that many names or more printing succeeds and reads precisely the first count names once each in order; with fewer it fails.", "quantifier": "all struct types (nested structs, lists, maps) and all name lists", "why_tests_cant": "The two recursions are separate code; agreement is over unbounded nesting.", "anchors": ["types/types.go:DepthFirstNameCount", "types/types.go:nestedNameCount", "types/types.go:NamedStruct.String"]}
{"id": "C06", "title": "Decimal encoding denotes the number", "statement": "When DecimalToBytes succeeds, the 16 bytes read as a little-endian two's-complement integer divided by 10^scale equal the input decimal exactly, scale is non-negative, and precision is at most 38 and at least the number of digits and scale; it succeeds exactly when the number written out in plain notation needs at most 38 digits.", "quantifier": "all finite decimals (sign, coefficient, exponent) within apd's limits (exponent magnitude at most 100000)", "why_tests_cant": "Carries in the byte-wise negation and the 2^127 boundary depend on particular byte patterns among 2^128.", "anchors": ["expr/decimal_util.go:DecimalToBytes", "expr/decimal_util.go:negate"]}
{"id": "C07", "title": "Decimal byte/number round trip", "statement": "Decoding the bytes produced for a decimal, and printing/decoding any 16-byte two's-complement value, are mutually inverse: every 16-byte value with non-negative scale denotes one integer, byte-wise negation maps it to its arithmetic negation modulo 2^128, and re-encoding gives the same bytes whenever the value is within the encoder's limits (38 digits, scale 37).", "quantifier": "all 16-byte strings", "why_tests_cant": "2^128 inputs; the most negative value is its own negation.", "anchors": ["expr/decimal_util.go:negate", "expr/decimal_util.go:decimalBytesToString"]}
{"id": "C08", "title": "Changing a decimal's precision/scale never changes its value", "statement": "modifyDecimalPrecisionAndScale (used by Decimal literal WithType) either fails or returns bytes denoting exactly the same number at the requested scale, whose digits fit the requested precision; it fails whenever the number does not fit.", "quantifier": "all 16-byte values, all int32 targets, all scales within apd's exponent limits", "why_tests_cant": "Interaction of trailing-zero removal, scale extension and precision limit has unbounded combinations.", "anchors": ["expr/decimal_util.go:modifyDecimalPrecisionAndScale", "expr/decimal_util.go:validatePrecisionAndScale", "expr/decimal_util.go:getMinimumPrecisionAndScale"]}
{"id": "C09", "title": "Timestamp conversion keeps the instant", "statement": "Converting int64 units at a precision to a time and back with GetTimeValueByPrecision at the same precision gives the same units for each of the ten precisions, for every value whose conversion does not leave the int64 range; the time represents exactly units*10^-p seconds.", "quantifier": "all int64 unit counts (negative too) and all precisions 0..9", "why_tests_cant": "Truncating division and remainder on negative values and int64 overflow boundaries.", "anchors": ["types/types.go:timeFromPrecisionUnits", "types/types.go:GetTimeValueByPrecision"]}
{"id": "C10", "title": "Time-of-day constructor accepts exactly valid times", "statement": "literal.NewTime(h,m,s,us) succeeds exactly when the described duration lies in [0,24h) and then holds that number of microseconds; literal.NewTimeFromMicros accepts exactly 0 <= us < 86400000000.", "quantifier": "all int32 quadruples and all int64 values", "why_tests_cant": "Fixed-width multiplication wraps for a handful of the 2^128 inputs.", "anchors": ["literal/utils.go:NewTime", "literal/utils.go:NewTimeFromMicros"]}
{"id": "C11", "title": "List and map literals are homogeneous", "statement": "literal.NewList succeeds exactly on non-empty lists whose elements all have equal types, and literal.NewMap exactly on non-empty maps whose keys have equal types and values have equal types; the result's type is the list/map of that element type.", "quantifier": "all lists and maps of literals", "why_tests_cant": "Element lists are unbounded and the offending element may be anywhere.", "anchors": ["literal/utils.go:NewList", "literal/utils.go:NewMap", "literal/utils.go:hasTypeMismatch"]}
{"id": "C12", "title": "Literals survive a protobuf round trip", "statement": "Every literal written with ToProtoLiteral and read with LiteralFromProto has the same value, nullability, variation reference and type.", "quantifier": "all literals incl. nested list/map/struct literals of any depth", "why_tests_cant": "Unbounded nesting; losses occur only for particular kind/attribute combinations.", "anchors": ["expr/literals.go:ToProtoLiteral methods", "expr/literals.go:LiteralFromProto"]}
{"id": "C13", "title": "Reference segments survive a protobuf round trip", "statement": "RefSegmentFromProto(ToProto(seg)) rebuilds the same chain of map-key, struct-field and list-element segments, for chains of any length.", "quantifier": "all reference segment chains", "why_tests_cant": "Chains are unbounded; a dropped child shows only in the middle of a chain.", "anchors": ["expr/field_reference.go:RefSegmentFromProto", "expr/field_reference.go:ToProto methods"]}
{"id": "C14", "title": "Field references resolve to the right type", "statement": "Resolving a chain of segments against a type succeeds exactly when every step is legal (struct index in range, list step on list, map step on map with a key of the map's key type), and yields exactly the type found by walking the steps one at a time.", "quantifier": "all chains and all types", "why_tests_cant": "Chains and types are unbounded.", "anchors": ["expr/field_reference.go:GetType methods of StructFieldRef, ListElementRef, MapKeyRef"]}
{"id": "C15", "title": "Mask expressions survive a protobuf round trip", "statement": "Reading a mask expression and writing it back gives the same message, without panicking.", "quantifier": "all mask messages with struct/list/map selections nested to any depth", "why_tests_cant": "Unbounded nesting with optional children at every level.", "anchors": ["expr/field_reference.go:MaskExpressionFromProto", "expr/field_reference.go:maskSelectFromProto", "expr/field_reference.go:ToProto of mask selects"]}
{"id": "C16", "title": "Visiting with the identity returns the same expression", "statement": "For every expression node, Visit with a function that returns each child unchanged returns the node itself (same pointer), allocates no changed copy, and calls the function on each child.", "quantifier": "all expression nodes with any number of children", "why_tests_cant": "Child lists are unbounded; the copy-on-write logic differs per node kind.", "anchors": ["expr/expression.go:Visit methods", "expr/functions.go:Visit methods"]}
{"id": "C17", "title": "Visiting with a rewrite replaces every child exactly once", "statement": "Visit(f) returns a node of the same kind whose children are exactly f of the old children in order, all other attributes unchanged, and the original node is not modified.", "quantifier": "all nodes, all visitor functions (any subset of children changed, in any position)", "why_tests_cant": "The clone happens at the first changed child, so correctness depends on which position changes first.", "anchors": ["expr/expression.go:Visit methods", "expr/functions.go:Visit methods"]}
{"id": "C18", "title": "Expression equality is an equivalence", "statement": "Expression.Equals never panics and is reflexive, symmetric and transitive; equal expressions have equal argument lists, options and modes.", "quantifier": "all pairs/triples of expressions", "why_tests_cant": "Quantifies over pairs of unbounded trees, including pairs of unequal arity that no test compares.", "anchors": ["expr/functions.go:ScalarFunction.Equals", "expr/functions.go:WindowFunction.Equals", "expr/expression.go:IfThen.Equals", "expr/expression.go:SwitchExpr.Equals"]}
{"id": "C19", "title": "Switch result nullability", "statement": "A switch expression's type is nullable exactly when it has no default, or some branch result or the default is nullable; its kind is that of its branches.", "quantifier": "all switch expressions with any number of branches", "why_tests_cant": "The scan stops early; the nullable branch may be anywhere.", "anchors": ["expr/expression.go:NewSwitch", "expr/expression.go:SwitchExpr.GetType"]}
{"id": "C20", "title": "Lambda parameters are lexically scoped", "statement": "In a built lambda body a parameter reference with stepsOut k and field i has the type of parameter i of the k-th enclosing lambda, references outside any enclosing lambda or past the parameter list are rejected, and building (successfully or not) leaves the builder's scope as it was.", "quantifier": "all nestings of lambdas and all references in them, including failing builds", "why_tests_cant": "Scope is mutable builder state pushed and popped; correctness is over every nesting and every failure point.", "anchors": ["expr/builder.go:lambdaBuilder.Build", "expr/builder.go:lambdaParamRefBuilder.getLambdaParamType"]}
{"id": "C21", "title": "Anchors issued by a fresh extension set are unique and stable", "statement": "Starting from NewSet and after any sequence of GetTypeAnchor/GetFuncAnchor/GetTypeVariationAnchor calls: asking again for the same id returns the same anchor, different ids of one kind have different anchors, decoding an issued anchor returns the id, and every referenced URN has exactly one anchor.", "quantifier": "all call histories that ask for fewer than 2^32 different ids (anchors are uint32)", "why_tests_cant": "Quantifies over unbounded call sequences.", "anchors": ["extensions/extension_mgr.go:set.GetTypeAnchor", "extensions/extension_mgr.go:set.GetFuncAnchor", "extensions/extension_mgr.go:set.GetTypeVariationAnchor", "extensions/extension_mgr.go:set.addOrGetURN"]}
{"id": "C22", "title": "Anchors issued on a decoded extension set never disturb existing ones", "statement": "For a set obtained from a plan with GetExtensionSet, asking for the anchor of a new id does not change what any anchor of the plan decodes to.", "quantifier": "all plans accepted by GetExtensionSet (arbitrary anchor numbering) and all following calls", "why_tests_cant": "Depends on arbitrary anchor numbering chosen by other producers.", "anchors": ["extensions/extension_mgr.go:GetExtensionSet", "extensions/extension_mgr.go:set.GetFuncAnchor", "extensions/extension_mgr.go:set.addOrGetURN"]}
{"id": "C23", "title": "Extension sets survive a protobuf round trip", "statement": "Writing a set with ToProto and reading it back with GetExtensionSet against a collection holding its URNs gives a set that decodes every anchor to the same id.", "quantifier": "all histories producing the set and all map iteration orders", "why_tests_cant": "Map iteration order is a schedule; histories are unbounded.", "anchors": ["extensions/extension_mgr.go:set.ToProto", "extensions/extension_mgr.go:GetExtensionSet"]}
{"id": "C24", "title": "Extension declarations are emitted in a deterministic order", "statement": "set.ToProto returns the same URN and declaration lists whatever order Go iterates its maps in, with URNs, types, type variations and functions each sorted by anchor; it never panics.", "quantifier": "all sets and all map iteration orders", "why_tests_cant": "Iteration order is randomised by the runtime; tests cannot enumerate it.", "anchors": ["extensions/extension_mgr.go:set.ToProto"]}
{"id": "C25", "title": "Loading an extension file is all-or-nothing", "statement": "Collection.Load of a file that is rejected (bad or empty URN, URN already loaded, missing dependency, undeclared type reference) leaves every lookup unchanged; a successful load leaves lookups for all other URNs unchanged, and loading the same URN again is rejected.", "quantifier": "all collections reachable by any sequence of loads, and all files", "why_tests_cant": "Histories of loads are unbounded.", "anchors": ["extensions/extension_mgr.go:Collection.Load"]}
{"id": "C26", "title": "Functions with one implementation are found by simple name", "statement": "After loading a file, looking up {urn, name} without a signature finds the function when the file declares exactly one implementation of that name, and finds nothing (rather than an arbitrary one) when it declares several.", "quantifier": "all extension files", "why_tests_cant": "Depends on the count and interleaving of same-named implementations in a file.", "anchors": ["extensions/extension_mgr.go:addToMaps", "extensions/extension_mgr.go:Collection.Load", "extensions/extension_mgr.go:checkMaps"]}
{"id": "C27", "title": "Accepted calls have matching arguments", "statement": "If a function variant's Match accepts a list of argument types then the number of arguments is admissible for the declared parameters and variadic rule, and every argument is compatible with its declared parameter (the last one, for variadic positions); it never panics.", "quantifier": "all parameter lists, variadic settings, nullability modes and argument lists", "why_tests_cant": "Arity and positions are unbounded and interact with variadic minimum/maximum.", "anchors": ["extensions/variants.go:matchArguments", "extensions/variants.go:matchArgumentAtCommon", "extensions/variants.go:validateVariadicBehaviorForMatch"]}
{"id": "C28", "title": "MIRROR result nullability", "statement": "Under MIRROR nullability, the derived result type is nullable when some argument is nullable and required otherwise.", "quantifier": "all parameter lists, variadic settings and argument lists", "why_tests_cant": "The nullable argument may be at any position, including variadic ones.", "anchors": ["extensions/variants.go:EvaluateTypeExpression"]}
{"id": "C29", "title": "Advertised argument counts agree with matching", "statement": "Every argument list a variant accepts has a length between MinArgumentCount and MaxArgumentCount.", "quantifier": "all variants and argument lists", "why_tests_cant": "Two independent formulas over unbounded arities.", "anchors": ["extensions/variants.go:minArgumentCount", "extensions/variants.go:maxArgumentCount", "extensions/variants.go:matchArguments"]}
{"id": "C30", "title": "Strict matching implies loose matching", "statement": "For every declared parameter type and argument type, MatchWithNullability implies MatchWithoutNullability, and MatchWithoutNullability does not depend on the argument's outermost nullability.", "quantifier": "all parameter type expressions and argument types, nested to any depth", "why_tests_cant": "Unbounded nesting; each kind has its own two matchers.", "anchors": ["types/*:MatchWithNullability", "types/*:MatchWithoutNullability"]}
{"id": "C31", "title": "Shared type variables are bound consistently", "statement": "If a variant with any1, any2, ... parameters accepts a call then all arguments in positions with the same numbered any have the same type (ignoring nullability).", "quantifier": "all parameter lists and argument lists", "why_tests_cant": "The two occurrences may be arbitrarily far apart and nested.", "anchors": ["extensions/variants.go:validateAnyTypeBinding", "extensions/variants.go:ValidateConstrainedAnyTypeConsistency", "extensions/variants.go:matchArguments"]}
{"id": "C32", "title": "Return-type expressions compute ordinary arithmetic", "statement": "Evaluating a return-type derivation (constants, parameters, + - * / min max, comparisons, conditionals, assignments in order) yields the value of the corresponding integer expression whenever no intermediate result leaves int64 and no division by zero occurs, and each variable sees the latest earlier assignment.", "quantifier": "all derivation programs and parameter values", "why_tests_cant": "Expression trees are unbounded.", "anchors": ["types/type_derivation.go:BinaryExpr.Evaluate", "types/type_derivation.go:IfExpr.Evaluate", "types/type_derivation.go:FunctionCallExpr.Evaluate", "types/type_derivation.go:OutputDerivation.ReturnType"]}
{"id": "C33", "title": "Output remapping composes", "statement": "For every relation r and mapping m, r.Remap(m) fails exactly when some index is outside [0, number of output columns), and otherwise the i-th output column of the result is output column m[i] of r; remapping twice equals remapping once by the composition.", "quantifier": "all relations, mappings and chains of remaps", "why_tests_cant": "Chains and mapping lengths are unbounded; identity mappings are special-cased.", "anchors": ["plan/relations.go:RemapHelper", "plan/common.go:RelCommon.remap", "plan/relations.go:isSequentialFromZero"]}
{"id": "C34", "title": "Remap does not modify the relation it is called on", "statement": "r.Remap(m) returns a relation with the new mapping and leaves r's own output unchanged, whether or not it succeeds.", "quantifier": "all relations and mappings", "why_tests_cant": "An aliasing property: only visible if the old relation is inspected afterwards for the affected kinds.", "anchors": ["plan/relations.go:RemapHelper", "plan/relations.go:Copy methods"]}
{"id": "C35", "title": "Relations accepted by a builder have a computable schema", "statement": "If a builder call taking an output mapping succeeds, RecordType of the result does not panic and has one column per mapping entry; a mapping with an out-of-range index is rejected.", "quantifier": "all builder calls for project, filter, fetch, sort, cross, join, set, scan and write over any inputs", "why_tests_cant": "Depends on input relations that were themselves remapped.", "anchors": ["plan/builders.go:*Remap methods", "plan/relations.go:directOutputSchema methods"]}
{"id": "C36", "title": "Join output schema follows the join type", "statement": "The output columns of a join are: left then right columns for inner/outer/left/right joins with the optional side(s) made nullable, only the left (right) columns for left (right) semi/anti joins, and the other side's columns made nullable for single joins.", "quantifier": "all join types and all input schemas", "why_tests_cant": "Schemas are unbounded.", "anchors": ["plan/relations.go:JoinRel.directOutputSchema"]}
{"id": "C37", "title": "Computing a schema has no side effects", "statement": "Calling RecordType on a relation never changes the RecordType of any relation it was built from, nor a previously returned record type.", "quantifier": "all relation trees, all slice capacities, all sequences of RecordType calls", "why_tests_cant": "Depends on spare slice capacity and aliasing, invisible to value-based tests.", "anchors": ["types/types.go:RecordType.Concat", "plan/relations.go:JoinRel.directOutputSchema"]}
{"id": "C38", "title": "Grouping sets denote the grouping expressions given", "statement": "Decoding legacy grouping sets yields a de-duplicated expression list and reference lists such that looking the references up gives, set by set and in order, expressions equal to the originals; no two listed expressions are equal.", "quantifier": "all lists of lists of grouping expressions", "why_tests_cant": "Duplicates may be anywhere across sets.", "anchors": ["plan/plan.go:groupingExprs"]}
{"id": "C39", "title": "AddCube enumerates every non-empty combination exactly once", "statement": "AddCube over n distinct grouping references adds exactly the 2^n-1 non-empty sub-lists, each once, each in the original order; above 20 references it fails and adds nothing.", "quantifier": "all reference lists", "why_tests_cant": "Exponentially many results for arbitrary n.", "anchors": ["plan/builders.go:AggregateRelBuilder.AddCube", "plan/builders.go:extractGroup"]}
{"id": "C40", "title": "AddRollup adds exactly the non-empty prefixes", "statement": "AddRollup over a reference list adds its non-empty prefixes from longest to shortest and nothing else.", "quantifier": "all reference lists", "why_tests_cant": "Unbounded length.", "anchors": ["plan/builders.go:AggregateRelBuilder.AddRollup"]}
{"id": "C41", "title": "A built aggregate's grouping references are in range", "statement": "After any sequence of builder calls, if Build succeeds then every grouping reference denotes an added grouping expression, every added expression is used, and the schema (grouping columns then measures) is computable.", "quantifier": "all builder call sequences", "why_tests_cant": "Builder histories are unbounded.", "anchors": ["plan/builders.go:AggregateRelBuilder.Build", "plan/builders.go:AggregateRelBuilder.validate", "plan/relations.go:AggregateRel.directOutputSchema"]}
{"id": "C42", "title": "Plan roots have exactly the right number of names", "statement": "A plan is accepted (by the builder and by FromProto) only if each root's name list has exactly the depth-first name count of the root schema.", "quantifier": "all plans and name lists", "why_tests_cant": "Unbounded schemas and names.", "anchors": ["plan/plan.go:validateRootNamesForSchema", "plan/builders.go:PlanWithBindings", "plan/plan.go:FromProtoWithDecoder"]}
{"id": "C43", "title": "A plan keeps every relation it is given", "statement": "Builder.Plan(root, names, others...) yields a plan whose relations are the root followed by every other relation, in order, and which can be written to protobuf.", "quantifier": "any number of additional relations", "why_tests_cant": "Off-by-one in the copy loop shows only with extra relations.", "anchors": ["plan/builders.go:PlanWithBindings"]}
{"id": "C44", "title": "Parameter bindings are checked against the plan", "statement": "A plan is accepted only if each binding names a dynamic parameter used in the plan, has its type (and is null only if nullable) and no parameter is bound twice; and bindings for every dynamic parameter that occurs anywhere in the plan are accepted.", "quantifier": "all relation trees and binding lists", "why_tests_cant": "Parameters may be arbitrarily deep in any kind of relation.", "anchors": ["plan/common.go:ValidateParameterBindings", "plan/common.go:collectDynamicParams", "plan/common.go:walkRelExprs"]}
{"id": "C45", "title": "Output mapping survives a protobuf round trip", "statement": "Writing a relation's common part and reading it back keeps its output mapping (including the distinction between no mapping and an empty mapping) and hints.", "quantifier": "all mappings", "why_tests_cant": "Boundary between nil and empty.", "anchors": ["plan/common.go:fromProtoCommon", "plan/common.go:toProto"]}
{"id": "C46", "title": "Write relations survive a protobuf round trip", "statement": "Writing a named-table write relation and reading it back keeps operation, table name, schema, input and output mode, so that its schema is the same.", "quantifier": "all write relations", "why_tests_cant": "A dropped field is invisible until the decoded value's schema is asked for.", "anchors": ["plan/relations.go:NamedTableWriteRel.ToProto", "plan/plan.go:RelFromProto"]}
{"id": "C47", "title": "Join keys survive a protobuf round trip", "statement": "Keys of hash and merge joins written to protobuf and read back are the same keys with the same comparison, both when they are emitted in the legacy form and in the current form; keys that need the current form are never emitted as legacy.", "quantifier": "all key lists", "why_tests_cant": "The choice of form is a property of the whole list.", "anchors": ["plan/relations.go:tryEqualityJoinKeysToLegacyProto", "plan/relations.go:comparisonJoinKeysFromProto"]}
{"id": "C48", "title": "Expression rewriting reaches every expression", "statement": "CopyWithExpressionRewrite(f, inputs) returns the relation with f applied to each of its expressions, returns the same relation when nothing changed, and fails if the number of inputs is wrong.", "quantifier": "all relations and rewrite functions", "why_tests_cant": "Whether a later expression is rewritten depends on which earlier ones changed.", "anchors": ["plan/relations.go:CopyWithExpressionRewrite methods"]}
{"id": "C49", "title": "Virtual-table rows match the schema", "statement": "VirtualTableFromExpr accepts exactly row lists in which every row has one value per column of a matching type, and never panics.", "quantifier": "all row lists", "why_tests_cant": "The offending row may be any row, shorter or longer.", "anchors": ["plan/builders.go:VirtualTableFromExprRemap"]}
{"id": "C50", "title": "Dialect localisation does not depend on map order", "statement": "Localising a function registry for a dialect gives the same result (or error) whatever order Go iterates the dialect's function map in.", "quantifier": "all dialects, registries and iteration orders", "why_tests_cant": "Iteration order is randomised by the runtime.", "anchors": ["functions/dialect.go:makeLocalFunctionVariantMapAndSlice"]}
{"id": "C51", "title": "Invocation lookup returns the right kind of function", "statement": "A local registry's GetScalar/Aggregate/WindowFunctionByInvocation returns the registered local function of that kind or an error, and never panics.", "quantifier": "all sets of local variants and invocations", "why_tests_cant": "Depends on the same id being registered under two kinds.", "anchors": ["functions/local_functions.go:makeLocalFunctionVariantsMap", "functions/local_functions.go:getFunctionVariantByInvocation"]}
{"id": "C52", "title": "Local type names round trip", "statement": "For a type registry and every type whose name it maps, translating to the local name and back returns the type (apart from nullability), including parameters such as DECIMAL(38,0).", "quantifier": "all registries with distinct local names and all simple, fixed-length and decimal types", "why_tests_cant": "Numeric parameters are unbounded; string splitting has boundary cases.", "anchors": ["functions/types.go:GetLocalTypeFromSubstraitType", "functions/types.go:getTypeFromTypeString", "functions/types.go:extractTypeAndParameters"]}
{"id": "C53", "title": "Year-month interval text round trip", "statement": "Parsing the ISO text PxYyM of a year-month interval gives back its years and months, and text with a component outside int32 is rejected.", "quantifier": "all pairs of int32", "why_tests_cant": "2^64 values and all digit strings.", "anchors": ["literal/utils.go:parseIntervalYearsToMonth", "types/interval_year_month_type.go"]}
{"id": "C54", "title": "If-then construction", "statement": "NewIfThen succeeds exactly when a default is given, every condition and result is present and every result's type equals the default's type (nullability included); the accepted expression keeps all clauses in order and its type is the type of every branch.", "quantifier": "all clause lists", "why_tests_cant": "Unbounded clause lists.", "anchors": ["expr/expression.go:NewIfThen"]}
{"id": "C55", "title": "Extension URNs are well-formed", "statement": "A URN is accepted exactly when it is 'extension:' followed by a non-empty owner without ':' , one ':' and a non-empty name without ':'.", "quantifier": "all strings", "why_tests_cant": "All strings.", "anchors": ["extensions/extension_mgr.go:validateUrn"]}
{"id": "C56", "title": "Interval precision change keeps the duration or fails", "statement": "Changing a day-time interval literal's precision with WithType either fails or keeps days, seconds and exactly the same sub-second fraction; converting to a finer precision and back gives the original.", "quantifier": "all sub-second counts and pairs of precisions", "why_tests_cant": "Overflow and truncation depend on the values.", "anchors": ["expr/literals.go:newIntervalDayWithType"]}
{"id": "C57", "title": "Type message carries the type's kind and attributes", "statement": "The protobuf message written for a type (and the type read from a message) has the same kind, nullability, type variation reference, and length / scale / precision / type reference; two kinds are never confused, not even consistently in both directions.", "quantifier": "all types and all type messages", "why_tests_cant": "A round-trip test passes when both directions make the same mistake; only a per-kind statement over all attribute values excludes it.", "anchors": ["types/types.go:TypeToProto", "types/types.go:TypeFromProto"]}
{"id": "C58", "title": "Changing a time literal's precision keeps the instant", "statement": "WithType between precision time/timestamp types of different precision (when the instant fits int64 in the SI unit used) is exact towards finer precisions, off by less than one unit towards coarser ones, and exact when the value is a whole number of coarser units.", "quantifier": "all int64 values and all pairs of precisions 0..9", "why_tests_cant": "100 precision pairs, negative values, flooring to SI units followed by truncation, and int64 limits.", "anchors": ["expr/literals.go:newPrecisionTimestampWithType", "types/types.go:GetTimeValueByPrecision"]}
{"id": "C59", "title": "A literal message names the literal's kind and carries its value", "statement": "The protobuf message written for a literal names the literal's kind, carries its value, variation reference and nullable flag, and contains the messages of its child literals in order; a literal read from a message has the kind, children and value the message names.", "quantifier": "all literals and literal messages, nested to any depth", "why_tests_cant": "A round-trip test cannot see two kinds swapped consistently in both directions, and the kinds nest without bound.", "anchors": ["expr/literals.go:ToProtoLiteral methods", "expr/literals.go:LiteralFromProto"]}
{"id": "C60", "title": "A decoded extension set answers exactly what the plan declares", "statement": "GetExtensionSet never panics; it succeeds exactly when every declaration of the plan refers to a URN the plan lists and whose file is loaded in the collection; afterwards every anchor of every kind decodes to the URN and name of the (last) declaration with that anchor, and anchors without declaration decode to nothing.", "quantifier": "all plans and all collections", "why_tests_cant": "Needs all numberings, duplicates, unknown declaration kinds and dangling references.", "anchors": ["extensions/extension_mgr.go:GetExtensionSet", "extensions/extension_mgr.go:set.DecodeFunc"]}
{"id": "C61", "title": "Parameter matching is exact", "statement": "MatchWithoutNullability of a declared parameter type accepts exactly the argument types that are instances of it (same kind, constants equal, variables and any accept everything, children position by position), and MatchWithNullability accepts exactly those that in addition agree in nullability at every level.", "quantifier": "all declared parameter types and all argument types, nested to any depth", "why_tests_cant": "both sides are unbounded recursive types; the existing tests compare a few hand-written pairs per kind", "anchors": ["types/*:MatchWithNullability", "types/*:MatchWithoutNullability", "types/integer_parameters/concrete_int_param.go:IsCompatible"]}
{"id": "C62", "title": "Compatible calls are accepted", "statement": "If the number of arguments is admissible, every argument is compatible with its declared parameter, and the arguments agree about numbered any types, integer parameters and (for consistent variadics) their common type, then Match accepts the call.", "quantifier": "all parameter lists, variadic settings, nullability modes and argument lists", "why_tests_cant": "completeness of matching quantifies over all calls; tests only exercise the handful of combinations somebody thought of, and positions, counts and shared parameters interact", "anchors": ["extensions/variants.go:matchArguments", "extensions/variants.go:matchArgumentAtCommon", "extensions/simple_extension.go:IsValidArgumentPosition"]}
{"id": "C63", "title": "Consistent variadic arguments have one type", "statement": "If a function with parameterConsistency CONSISTENT accepts a call then all arguments in variadic positions have the same type, ignoring the outer nullability.", "quantifier": "all parameter lists, variadic bounds and argument lists", "why_tests_cant": "the number of variadic arguments is unbounded and the comparison depends on the declared minimum", "anchors": ["extensions/variants.go:validateVariadicBehaviorForMatch", "extensions/variants.go:matchArguments"]}
{"id": "C64", "title": "Matching leaves the argument types alone", "statement": "Match does not change the types it is given: whatever the answer, every argument type has afterwards the nullability and contents it had before.", "quantifier": "all parameter lists, variadic settings and argument lists, nested types included", "why_tests_cant": "absence of side effects for every kind of argument type; the tests compare only the answer", "anchors": ["extensions/variants.go:matchArguments", "extensions/variants.go:validateVariadicBehaviorForMatch", "types/types.go:WithNullability"]}
{"id": "C65", "title": "Shared integer parameters are bound consistently", "statement": "If a call is accepted then an integer parameter name (such as P in decimal<P,S>) stands for the same number wherever it occurs in the declared parameters.", "quantifier": "all parameter lists and argument lists", "why_tests_cant": "names can be shared between any positions at any depth; tests cover a few pairs of top-level parameters", "anchors": ["types/type_derivation.go:AreSyncTypeParametersMatching", "extensions/variants.go:HasSyncParams", "extensions/variants.go:matchArguments"]}
{"id": "C66", "title": "Return types are the declared type with its variables replaced", "statement": "For a call whose arguments match, ReturnType of a declared type without derivation yields that type with every integer parameter and every any type replaced by what stands in its place in the call (made nullable for any1?), and it succeeds whenever every variable of the return type occurs in the declared parameters.", "quantifier": "all declared parameter lists, argument lists and return types, nested to any depth", "why_tests_cant": "substitution over unbounded recursive types on both sides; tests have a few flat signatures", "anchors": ["types/any_type.go:ReturnType", "types/any_type.go:unwrapAnyTypeWithName", "types/type_derivation.go:buildTypeParametersNameValueMap", "types/parameterized_*:ReturnType"]}
{"id": "C67", "title": "A loaded extension file answers for exactly what it declares", "statement": "After Load accepts a file, every declared implementation is found under {urn, name:signature} as a function of its kind (aggregate functions also as window functions); every function found under the file's URN presents an implementation declared in the file, under its compound name or its plain name; types and type variations are found with the last declaration of their name and undeclared names are not found; the file metadata is the declared one.", "quantifier": "all collections reachable by any sequence of loads, and all files whose function names contain no ':'", "why_tests_cant": "quantifies over all files and earlier loads; tests load fixed YAML documents", "anchors": ["extensions/extension_mgr.go:Collection.Load", "extensions/extension_mgr.go:addToMaps", "extensions/extension_mgr.go:checkMaps"]}
{"id": "C68", "title": "Extension files are accepted exactly when they are self-contained", "statement": "Collection.Load accepts a file exactly when its URN is well-formed and not loaded yet, every dependency alias is an identifier and its URN is loaded, and every user-defined type mentioned at any depth of a function signature (arguments, return, intermediate) is declared in the file; otherwise it returns an error, and it never panics.", "quantifier": "all collections and all files, with types nested to any depth", "why_tests_cant": "unbounded nesting of types and unbounded files", "anchors": ["extensions/extension_mgr.go:Collection.Load", "extensions/validation.go:validateUserDefinedTypeReferences", "types/parameterized_user_defined_type.go:ReferencedUserDefinedTypes", "extensions/extension_mgr.go:validateDependencyAlias"]}
{"id": "C69", "title": "Return types are only computed for matching calls", "statement": "Whenever ResolveType of a variant yields a type for some argument types, Match of the variant accepts these argument types.", "quantifier": "all variants and argument lists", "why_tests_cant": "universal over signatures and argument types", "anchors": ["extensions/variants.go:EvaluateTypeExpression", "extensions/variants.go:matchArguments"]}
{"id": "C70", "title": "AggregateExprs groups by exactly the expressions given", "statement": "AggregateExprs(input, measures, groups...) succeeds exactly when there is an input, at least one measure or grouping expression, and no expression is nil; the resulting aggregate has that input and those measures, and resolving its grouping references gives, set by set and in order, exactly the expressions given, with no others listed.", "quantifier": "all inputs, measure lists and lists of groups, with expressions shared between groups in any way", "why_tests_cant": "Expressions are shared by pointer identity across any number of groups; the reference bookkeeping must be right for every sharing pattern and group shape.", "anchors": ["plan/builders.go:AggregateExprs", "plan/builders.go:AggregateRelBuilder.AddExpression", "plan/builders.go:AggregateRelBuilder.Build"]}
{"id": "C71", "title": "Column references exist exactly for existing columns", "statement": "RootFieldRef(input, i) and JoinedRecordFieldRef(left, right, i) return a reference to column i with that column's type when 0 <= i < number of columns, and an error (never a panic) otherwise; AggregateColumns succeeds exactly when every given column exists and then groups by those columns in order.", "quantifier": "all inputs with a computable schema, all int32 indices and lists of them", "why_tests_cant": "The range check itself is off by one and correctness relies on a second check further down; only a statement over all indices and schemas shows that the two together are exact.", "anchors": ["plan/builders.go:RootFieldRef", "plan/builders.go:JoinedRecordFieldRef", "plan/builders.go:AggregateColumns", "expr/field_reference.go:NewFieldRef"]}
{"id": "C72", "title": "Expressions survive the protobuf round trip", "statement": "For every expression e whose ToProto succeeds, the message says the same as e (same kind, same attributes, same parts in the same order, each part being the message of the corresponding part), and if e is built from round-trippable literals, types, references and subqueries and uses functions that the registry resolves from their own anchor, then ExprFromProto on that message with the same registry and base schema returns an expression equal to e. Full-strength claim: this holds for every expression that ToProto accepts.", "quantifier": "all expressions of all 18 kinds nested to any depth, all registries, all base schemas", "why_tests_cant": "Expressions nest arbitrarily (functions in casts in switches in lambdas); sample expressions can't show that no attribute or position is lost in some combination.", "anchors": ["expr/expression.go:ExprFromProto", "expr/expression.go:Expression.ToProto", "expr/functions.go:ScalarFunction.ToProto", "expr/functions.go:WindowFunction.ToProto", "expr/field_reference.go:FieldReferenceFromProto", "expr/lambda.go:Lambda.ToProto", "plan/subquery.go"]}
{"id": "C73", "title": "Reading an expression never yields a nil part", "statement": "If ExprFromProto returns an expression without an error, then neither it nor any expression inside it, at any depth, is nil; a message that lacks a required part (kind, else branch, type of a call or cast, elements of a nested list or map, lambda parameters or body, an anchor known to the registry) is refused with an error.", "quantifier": "all expression messages, all registries and base schemas", "why_tests_cant": "Every caller that walks a decoded tree relies on it; a test suite only covers the malformed messages somebody thought of.", "anchors": ["expr/expression.go:ExprFromProto", "expr/functions.go:FuncArgFromProto", "expr/functions.go:SortFieldFromProto"]}
{"id": "C74", "title": "Relation trees survive a protobuf round trip", "statement": "Writing any relation (all read kinds, project, join, cross, fetch, aggregate, sort, filter, set, extensions, hash join, merge join, write) and reading it back with the same registry gives the same tree: same kinds, inputs in the same order, expressions, schemas, names, enum values and mappings. The message states the same as the relation.", "quantifier": "all relation trees, of any depth and width", "why_tests_cant": "trees are unbounded and mix fifteen relation kinds with all expressions; a swapped field or input shows only for particular combinations, and a swap in both directions not at all in a round-trip test", "anchors": ["plan/plan.go:RelFromProto", "plan/relations.go:ToProto methods", "plan/relations.go:fromProtoReadRel"]}
{"id": "C75", "title": "Decoded functions have a declaration", "statement": "Every scalar, window or aggregate function read from a message can be asked for its name: it has the declaration registered for its anchor, or one made from its id.", "quantifier": "all messages and registries", "why_tests_cant": "depends on which functions are registered; test plans use registered ones", "anchors": ["expr/functions.go:NewAggregateFunctionFromProto", "expr/functions.go:NewCustomAggregateFunc", "expr/expression.go:ExprFromProto"]}
{"id": "C76", "title": "Plans survive a protobuf round trip", "statement": "Writing a plan and reading it back gives the same relations in the same order, the same roots with their names, the same parameter bindings (anchor and value) and the same expected type URLs.", "quantifier": "all plans", "why_tests_cant": "combines unbounded relation trees, literals and lists of bindings", "anchors": ["plan/plan.go:Plan.ToProto", "plan/plan.go:FromProtoWithDecoder", "plan/plan.go:Relation.FromProto"]}
{"id": "C77", "title": "Type strings can be read", "statement": "A type registry's GetTypeFromTypeString reads the String() of any type as that type (kind, parameters, and whether it is nullable); a local type registry does so exactly for the types its dialect lists.", "quantifier": "all plan types and dialects", "why_tests_cant": "parameters are unbounded integers and nested types unbounded trees; tests read a fixed list of strings", "anchors": ["functions/types.go:getTypeFromTypeString", "functions/types.go:extractTypeAndParameters", "types/types.go:String methods"]}
{"id": "C78", "title": "Types handed out by a registry do not change", "statement": "A type obtained from a type registry keeps its kind, parameters and nullability when the registry is used again.", "quantifier": "all sequences of type strings", "why_tests_cant": "needs two reads of the same registry and a comparison of the first result afterwards; the effect is global state shared between unrelated callers", "anchors": ["functions/types.go:getTypeWithParameters", "functions/types.go:nameToTypeMap", "types/interval_day_type.go:WithNullability"]}
{"id": "C79", "title": "A local registry has exactly the dialect's functions", "statement": "A function registry localised for a dialect has each function the dialect lists exactly once and no others, with the local name, options and notation the dialect gives; lookup by local or Substrait name and argument count finds exactly those that fit; a dialect with an unregistered function is refused.", "quantifier": "all dialects, registries, iteration orders and names", "why_tests_cant": "the loop skips names and identifiers already seen, in random map order; tests cover a few small dialects", "anchors": ["functions/dialect.go:makeLocalFunctionVariantMapAndSlice", "functions/local_functions.go:GetScalarFunctions", "functions/functions.go:processFunctions"]}
{"id": "C80", "title": "Loading a dialect file", "statement": "Loading a dialect never panics. It accepts exactly the files that list types and functions, where each function names a declared dependency and has kernels of known argument types; the dialect then has an entry for each function and kernel with the right identifier, local name, options and notation, and no others.", "quantifier": "all decoded dialect files", "why_tests_cant": "unbounded lists of functions and kernels; names are arbitrary strings that are split at dots and underscores", "anchors": ["functions/dialect.go:Load", "functions/dialect.go:validate", "functions/dialect.go:validateAndFixKernels", "functions/dialect.go:buildFunctionInfoMap"]}
{"id": "C81", "title": "Lookup by argument count finds the functions that match", "statement": "A function whose Match accepts the arguments of a call is among the functions its registry returns for its name and the number of arguments.", "quantifier": "all registries, functions, variadic behaviours and argument lists", "why_tests_cant": "relates two independently written count checks over all variadic limits", "anchors": ["functions/functions.go:getFunctionVariantsByCount", "extensions/variants.go:matchArguments"]}
{"id": "C82", "title": "Any function can be listed in a dialect by its signature", "statement": "The signature of a function (the part of its compound name after the colon) is accepted as a kernel in a dialect file and kept as it is, so that the dialect entry gets the identifier of the function.", "quantifier": "all parameter lists", "why_tests_cant": "the signature is built and parsed in different packages, for all combinations of parameter kinds", "anchors": ["functions/dialect.go:validateAndFixKernels", "extensions/simple_extension.go:signatureKey"]}
{"id": "C83", "title": "Reading a message never panics", "statement": "ExprFromProto, RelFromProto and plan.FromProto return a value or an error for every protobuf message; and when a relation message is read successfully, RecordType of the relation returns a row type with the number of columns the message describes.", "quantifier": "all expression, relation and plan messages, including incomplete ones", "why_tests_cant": "the messages are trees of any depth in which any part may be missing or out of range; tests cover a handful of complete ones", "anchors": ["plan/plan.go:RelFromProto", "expr/expression.go:ExprFromProto", "plan/plan.go:FromProto", "plan/common.go:remap", "plan/common.go:fromProtoCommon"]}
{"id": "C84", "title": "A built function call is a call of the function asked for", "statement": "When NewScalarFunc, NewWindowFunc or NewAggregateFunc returns a call, the call belongs to an implementation registered for that kind of function, in the extension and under the name asked for; the call's reference decodes to that implementation's id in the extension set afterwards; the implementation's Match accepts the types of all arguments and the type of the call is the return type it derives from them; options, phase, invocation, sorts and arguments are those given. Written to a message and read back by the same registry it is the same call.", "quantifier": "all collections built by loading files, all extension sets, ids, options and arguments", "why_tests_cant": "the lookup has a fallback by argument signature and short names, and the set changes during the call; tests check a few registered functions", "anchors": ["expr/functions.go:resolveVariant", "expr/functions.go:NewScalarFunc", "expr/functions.go:NewWindowFunc", "expr/functions.go:NewAggregateFunc", "extensions/variants.go:EvaluateTypeExpression"]}
{"id": "C85", "title": "A declared implementation can be called by the function's name", "statement": "After a file is loaded, an implementation declared in it, the only one of its function with its signature, can be called through NewScalarFunc, NewWindowFunc or NewAggregateFunc by the name of the function with any arguments that the implementation accepts, and the call belongs to that implementation.", "quantifier": "all files, functions, implementations and accepted arguments", "why_tests_cant": "depends on how signatures of declarations and of argument types agree for all types and on all combinations of overloads", "anchors": ["expr/functions.go:resolveVariant", "extensions/extension_mgr.go:Load", "extensions/simple_extension.go:signatureKey"]}
{"id": "C86", "title": "A function that cannot be decomposed is only called for the whole computation", "statement": "A window or aggregate call of a function whose declaration is not decomposable (NONE) is built only with the phase InitialToResult.", "quantifier": "all collections, sets, functions, phases and arguments", "why_tests_cant": "quantifies over all registered functions and both constructors; a missing check in one of them stays unnoticed", "anchors": ["expr/functions.go:NewWindowFunc", "expr/functions.go:NewAggregateFunc"]}
{"id": "C87", "title": "A custom call answers for the declaration it was given", "statement": "NewCustomScalarFunc, NewCustomWindowFunc and NewCustomAggregateFunc return an error exactly when the output type is nil; otherwise the name, id and reference of the call are those of the variant given, and type, options, phase, invocation, sorts and arguments are those given.", "quantifier": "all variants, registered or not, all sets, output types, options and arguments", "why_tests_cant": "quantifies over variants that are in no registry and over all states of the set", "anchors": ["expr/functions.go:NewCustomScalarFunc", "expr/functions.go:NewCustomWindowFunc", "expr/functions.go:NewCustomAggregateFunc"]}
{"id": "C88", "title": "The text of a type expression reads back as that type expression", "statement": "For every text that parser.ParseType accepts, the String of the type expression it returns is accepted too and read as an equal type expression; in particular different type expressions are never written alike.", "quantifier": "all texts and all type expressions, including derivations with any nesting of operators, conditionals and calls", "why_tests_cant": "texts and type expressions are unboundedly many, and whether parentheses that are dropped change the meaning depends on how operators and conditionals are nested", "anchors": ["types/parser/parse.go:ParseType", "types/parser/visitor.go", "types/type_derivation.go:String", "types/parameterized_func_type.go:String"]}
{"id": "C89", "title": "ParseType returns only type expressions that are in order, and never panics", "statement": "Whatever the text, ParseType either returns an error or a type expression that is marked nullable or required at every level, has no type variation references, only uses names that the grammar allows, has no struct without fields and no derivation without assignments; it does not panic.", "quantifier": "all texts", "why_tests_cant": "arbitrary texts, including malformed ones, and arbitrarily deep results", "anchors": ["types/parser/parse.go:ParseType", "types/parser/visitor.go", "types/parser/baseparser/substraittype_lexer.go", "types/parser/baseparser/substraittype_parser.go"]}
{"id": "C90", "title": "Calls of functions that no loaded extension declares stay calls of those functions", "statement": "When a plan declares a function of a loaded extension that the extension file does not have, a scalar, window or aggregate call of it is read (ExprFromProto, NewAggregateFunctionFromProto) to a call with the same function reference, options, output type and arguments, and (scalar, window) with a declaration whose compound name is the name in the plan. Reading it leaves what all function references stand for as it is.", "quantifier": "all extension sets, collections, function names, references, arguments, options and output types", "why_tests_cant": "arbitrary names and signatures; the damage is in references of other functions and shows only for some numberings", "anchors": ["extensions/variants.go:parseFuncName", "extensions/variants.go:NewScalarFuncVariant", "expr/expression.go:ExprFromProto", "expr/functions.go:NewCustomScalarFunc", "expr/functions.go:NewAggregateFunctionFromProto"]}
{"id": "C91", "title": "Operators in derivations bind with the usual precedence", "statement": "When ParseType reads a derivation whose assignment is a chain of numbers and names joined by operators without parentheses, the expression it returns applies the operators in the usual order (* and / before + and -, then comparisons, then and, then or; left to right among equals), with the operands in the order of the text.", "quantifier": "all chains of operators and operands of any length, all assigned names, all final types", "why_tests_cant": "the number of operator sequences grows without bound, and tests in the repository use sequences for which reading from left to right gives the same result", "anchors": ["types/parser/parse.go:ParseType", "types/parser/visitor.go:VisitBinaryExpr", "types/parser/baseparser/substraittype_parser.go:expr", "types/type_derivation.go:Evaluate"]}
{"id": "C92", "title": "Numbers in type expressions are read as written or refused", "statement": "When ParseType accepts the text of a type with a size or precision (varchar<5>, decimal?<38,10>, ...), or of a derivation that assigns a constant, the numbers in the result are the numbers written; numbers that do not fit are refused.", "quantifier": "all integers, all types with one or two integer parameters, nullable and required, all assigned names and final types", "why_tests_cant": "there are 2^64 numbers that are accepted and infinitely many that must be refused", "anchors": ["types/parser/visitor.go:VisitNumericLiteral", "types/parser/visitor.go:VisitLiteralNumber", "types/parser/parse.go:ParseType"]}
{"id": "C93", "title": "IsScalar tells whether an expression contains window functions or lambdas", "statement": "For every expression that has no nil parts, in particular every one ExprFromProto returned, IsScalar returns (it does not panic), and it returns true exactly when neither the expression nor anything inside it is a call of a window function or a lambda.", "quantifier": "all expressions of any depth and shape", "why_tests_cant": "expressions nest without bound and each kind of expression walks its parts with its own loop; one forgotten part makes a planner treat a window expression as scalar", "anchors": ["expr/expression.go:IsScalar", "expr/functions.go:IsScalar", "expr/field_reference.go:IsScalar", "plan/subquery.go:IsScalar"]}
{"id": "C94", "title": "Extended expressions survive a protobuf round trip with the meaning of their functions", "statement": "Writing an extended expression (Extended.ToProto) and reading it back (ExtendedFromProto) with the same collection gives the same expressions and measures with the same output names in the same order, the same base schema and expected type URLs, and every function, type and variation anchor stands for the same thing. A reference never has both an expression and a measure.", "quantifier": "all extended expressions, all extension sets and collections, all iteration orders of the maps", "why_tests_cant": "combines unbounded expressions, lists of references and extension sets whose maps are ranged over in random order", "anchors": ["expr/expression.go:Extended.ToProto", "expr/expression.go:ExtendedFromProto", "expr/expression.go:ExpressionReference", "extensions/extension_mgr.go:GetExtensionSet"]}
{"id": "C95", "title": "Subquery builders accept exactly the subqueries that make sense", "statement": "The builder's ScalarSubquery, InPredicateSubquery, SetPredicateSubquery and SetComparisonSubquery return a subquery exactly when there is a relation and no missing expression or unspecified operation, scalar subqueries and ANY/ALL comparisons have a relation of one column, and IN has one expression for each column of the relation; asking the result for its type then gives the type of the column, or boolean.", "quantifier": "all expressions, all relations with any number of columns, all operation codes", "why_tests_cant": "numbers of columns and expressions are unbounded, and the missing checks show only when the type of the result is asked for", "anchors": ["plan/builders.go:ScalarSubquery", "plan/builders.go:InPredicateSubquery", "plan/builders.go:SetPredicateSubquery", "plan/builders.go:SetComparisonSubquery", "plan/subquery.go:GetType"]}
{"id": "C96", "title": "Text of a day-time interval is read as the duration it stands for", "statement": "literal.NewIntervalDaysToSecondFromString reads a text of the form P[n]DT[n]H[n]M[n]S, with up to nine digits after the point, as exactly the days, seconds and part of a second that it stands for if these fit into their fields, and refuses any other text.", "quantifier": "all texts: any number of digits in every part, any subset of the parts", "why_tests_cant": "unbounded digit strings; the fraction goes through a float64, so that some of a billion fractions come out wrong", "anchors": ["literal/utils.go:parseIntervalDaysToSecond", "literal/utils.go:NewIntervalDaysToSecondFromString"]}
{"id": "C97", "title": "The ISO text of a day-time interval is read back as the same interval", "statement": "For every interval_day literal, the text of IsoValueString is accepted by literal.NewIntervalDaysToSecondFromString and gives an interval of the same days, seconds and part of a second.", "quantifier": "all days and seconds, all precisions 0 to 9, all parts of a second", "why_tests_cant": "2^31 days, 2^31 seconds and 10^9 parts of a second; Go's duration text changes its unit with the size", "anchors": ["expr/literals.go:IsoValueString", "types/precison_timestamp_types.go:SubSecondsToDuration", "literal/utils.go:parseIntervalDaysToSecond"]}
{"id": "C98", "title": "Changing the type of a literal keeps its value, and only values that fit are accepted", "statement": "When WithType of a literal (fixed and variable length characters, binary, list, decimal, precision times, day-time interval) succeeds, the new literal has exactly the type asked for, stands for the same value as before, and the value belongs to that type: lengths, digits and list element types agree.", "quantifier": "all literals with a WithType method, all target types", "why_tests_cant": "every value combines with every target type; the interesting failures are at boundaries of lengths, digits and precisions", "anchors": ["expr/literals.go:WithType", "expr/literals.go:newDecimalWithType", "expr/literals.go:newVarCharWithType", "expr/literals.go:newIntervalDayWithType"]}
{"id": "C99", "title": "Integers in function test files are read as written", "statement": "An integer argument or result of a function test case that is accepted is a literal with exactly the integer that is written and of the type that is written; an integer that does not belong to its type is refused. Numbers in types (lengths, precisions, scales) are read as written too.", "quantifier": "all integer types, nullabilities and texts", "why_tests_cant": "the claim is about every text including those far outside the type; the test files of the repository contain in-range values", "anchors": ["testcases/parser/visitor.go:getIntLiteral", "testcases/parser/visitor.go:VisitIntArg", "testcases/parser/visitor.go:VisitIntegerLiteral"]}
{"id": "C100", "title": "Arguments of function test cases have the type written behind them", "statement": "When an argument or result of a function test case is accepted, its type is the type written behind it, the literal has exactly this type, and the value of the literal belongs to it: strings are not longer than the length, decimals have no more digits, list elements have the element type.", "quantifier": "all arguments and results, all data types, all nesting depths of lists", "why_tests_cant": "types, lengths, precisions and nesting combine without bound", "anchors": ["testcases/parser/visitor.go:VisitArgument", "testcases/parser/visitor.go:VisitArguments", "testcases/parser/nodes.go:updateLiteralType"]}
{"id": "C101", "title": "Lists in function test files keep all their elements", "statement": "A list argument that is accepted has one element for every element that is written, in order, each of the element type; nested lists likewise at every depth.", "quantifier": "all element types, all lists, all nesting depths", "why_tests_cant": "lists nest without bound and every element type combines with every kind of literal", "anchors": ["testcases/parser/visitor.go:VisitListArg", "testcases/parser/visitor.go:VisitLiteralList", "testcases/parser/visitor.go:VisitListElement", "testcases/parser/visitor.go:getLiteralFromString"]}
{"id": "C102", "title": "String literals of function test files are read as written", "statement": "The text of a string literal between single quotes, with every quote inside doubled, is read as the string it stands for.", "quantifier": "all byte strings, both nullabilities", "why_tests_cant": "infinitely many strings; quotes at the ends and in the middle behave differently", "anchors": ["testcases/parser/visitor.go:getRawStringFromStringLiteral", "testcases/parser/visitor.go:VisitStringArg"]}
{"id": "C103", "title": "Tables of aggregate function tests become columns of the declared types", "statement": "In a test case with a table that is accepted, every row has as many cells as there are columns. Each column has one value per row, in order, and its values have the declared type of the column; the type of the column is nullable if declared so or if there is a null in it. The data of the test case are these columns.", "quantifier": "all tables of any size and any column types, compact calls and single columns", "why_tests_cant": "unbounded tables; short and long rows, nulls and unnamed columns combine with every type", "anchors": ["testcases/parser/visitor.go:getColumnsFromRows", "testcases/parser/visitor.go:VisitCompactAggregateFuncCall", "testcases/parser/visitor.go:VisitDataColumn", "testcases/parser/nodes.go:GetAggregateColumnsData"]}
{"id": "C104", "title": "Column arguments of aggregate function tests refer to the columns they name", "statement": "In the call that is built from a test case of an aggregate function, the argument colN is a reference to field N of the input with the type of column N, and scalar arguments are the literals written.", "quantifier": "all test cases with a table, a compact call or a single column; any number and order of arguments", "why_tests_cant": "orders, repetitions and gaps of columns are unbounded; tests name the columns in order", "anchors": ["testcases/parser/nodes.go:getAggregateFuncTableSchema", "testcases/parser/nodes.go:GetAggregateFunctionInvocation", "testcases/parser/nodes.go:newAggregateArgument"]}
{"id": "C105", "title": "The call of a function test calls the function the test is about", "statement": "The call built from a test case calls an implementation registered for the extension and the function name of the test, whose parameters accept the types of the arguments; the reference stands for that implementation. The implementation whose signature is exactly the argument types is preferred, otherwise the first one in the registry that accepts them is called. The file /extensions/name.yaml stands for extension:io.substrait:name.", "quantifier": "all collections, extension sets, registries and test cases", "why_tests_cant": "depends on every combination of registered overloads and argument types", "anchors": ["testcases/parser/nodes.go:ID", "testcases/parser/nodes.go:GetScalarFunctionInvocation", "testcases/parser/nodes.go:GetAggregateFunctionInvocation"]}
{"id": "C106", "title": "A function test file is read completely and in order", "statement": "A test file whose test cases can be read and whose groups are of the kind of the header is accepted, and reading never panics. Its test cases are those written, in order, each with the included extension, the description of its group, its function name, and for each option the value written last.", "quantifier": "all parse trees of test files", "why_tests_cant": "unbounded number of groups, cases and options", "anchors": ["testcases/parser/visitor.go:VisitDoc", "testcases/parser/visitor.go:VisitScalarFuncTestGroup", "testcases/parser/visitor.go:VisitFuncOptions", "testcases/parser/parse.go:parseTestCasesFromStream"]}
{"id": "C107", "title": "Booleans, floats, dates, times, intervals and texts of a function test are the values written", "statement": "An argument of a function test that is a boolean, float, date, time, timestamp, interval or text with a length is read as the value that its text stands for, with the declared type. A timestamp with a precision that is accepted is exactly the instant of the text.", "quantifier": "all texts, days, instants, precisions and intervals in the range of their types", "why_tests_cant": "unbounded texts and values; range limits and cut-off digits only show at particular values", "anchors": ["testcases/parser/visitor.go:VisitArgument", "literal/utils.go:NewDateFromString", "literal/utils.go:NewTimeFromString", "literal/utils.go:NewTimestampFromString", "literal/utils.go:NewPrecisionTimestampFromString", "literal/utils.go:NewIntervalYearsToMonthFromString", "literal/utils.go:NewIntervalDaysToSecondFromString"]}
{"id": "C108", "title": "The printed form of a function-test argument is read as the same argument", "statement": "An argument of a function test that was read from a file is printed by String as a text which, written in a file, is read as the same argument: the same value with the same type. The text of every type that a file can have is read as that type.", "quantifier": "all arguments and types that can be read from a file", "why_tests_cant": "unbounded texts, values and nested types; whether a text is one token of the right kind depends on every character", "anchors": ["testcases/parser/nodes.go:CaseLiteral.String", "testcases/parser/nodes.go:literalToString", "expr/literals.go:IsoValueString", "expr/literals.go:ValueString"]}
{"id": "C109", "title": "An expression made with an ExprBuilder is the one described, and survives being written and read", "statement": "Build of a tree of builders made with one ExprBuilder returns the expression the tree describes: the same shape, types, options and settings, each function being an implementation registered for the id given that accepts the arguments and is referred to by its anchor in the registry's extension set afterwards, field references with the type found in the schema, lambda parameter references with the type of the parameter of the lambda that many steps out. Building leaves the anchors handed out before as they were. Written to a message and read back with the same registry, or with the extension set written to the plan and read from it, the expression is the same.", "quantifier": "all trees of builders, schemas, collections and extension sets", "why_tests_cant": "unbounded trees of builders; whether a reference is still right depends on everything built before and after it", "anchors": ["expr/builder.go:BuildExpr", "expr/builder.go:windowFuncBuilder.Build", "expr/builder.go:lambdaBuilder.Build", "expr/functions.go:NewScalarFunc", "expr/functions.go:NewWindowFunc", "extensions/extension_mgr.go:GetFuncAnchor"]}
{"id": "C110", "title": "Writing to protobuf returns a message exactly when nothing a message needs is missing", "statement": "ToProto of a type, literal, expression, relation or plan returns a message exactly if the value contains none of the things no message exists for: an enumeration argument, the type of an IntervalYearToMonthLiteral, a pointer to an interval_compound type or a nil type parameter where a type is written; a nil literal, expression (other than an else branch), argument, root or function; a value whose Go type has no literal message; a join key that is not a field reference with a comparison. In all other cases it fails. A value that can be written and has the shape reading produces is read back as the same value.", "quantifier": "all types, literals, expressions, relation trees and plans", "why_tests_cant": "one bad node at any depth of an unbounded tree decides; tests only write values that work", "anchors": ["types/types.go:TypeToProto", "expr/literals.go:ToProtoLiteral", "expr/expression.go:ToProto", "expr/functions.go:ToProto", "plan/relations.go:ToProto", "plan/plan.go:ToProto"]}
{"id": "C111", "title": "What was read can be written again and is then read as the same", "statement": "If ExprFromProto, LiteralFromProto, TypeFromProto, RelFromProto or plan.FromProto accepts a message, in whatever older or incomplete form, ToProto of the result succeeds, reading what it wrote gives the same value again, and so passing a plan on changes its message at most the first time.", "quantifier": "all type, literal, expression, relation and plan messages that are read", "why_tests_cant": "messages are unbounded trees with deprecated, defaulted and optional forms at every node; tests only pass on plans written by the library itself", "anchors": ["types/types.go:TypeFromProto", "expr/literals.go:LiteralFromProto", "expr/expression.go:ExprFromProto", "plan/plan.go:RelFromProto", "plan/plan.go:FromProto", "plan/plan.go:ToProto"]}
{"id": "C112", "title": "A plan made with the plan builder is the one asked for, and is sent and received unchanged", "statement": "Each relation-building method of the plan Builder that succeeds returns the relation asked for: of that kind, with exactly the inputs, expressions, settings and output mapping given and nothing else set. If the types, expressions and measures put in can themselves be sent, then the relation, however many calls it took, and the plan made of it, with its names, parameter values and extensions, can be written, and reading the message gives the same plan.", "quantifier": "all sequences of builder calls, all inputs, expressions, mappings, grouping sets and bindings", "why_tests_cant": "relations nest without bound and each of about twenty builder methods checks something else than the reader does; tests send a few fixed plans", "anchors": ["plan/builders.go:ProjectRemap", "plan/builders.go:JoinAndFilterRemap", "plan/builders.go:SetRemap", "plan/builders.go:AggregateColumns", "plan/builders.go:IcebergTableFromMetadataFile", "plan/builders.go:ExtensionMulti", "plan/builders.go:SortFields", "plan/builders.go:PlanWithBindings", "plan/plan.go:ToProto", "plan/plan.go:FromProto"]}
{"id": "C113", "title": "A whole session with a plan builder yields a plan that is sent and received unchanged", "statement": "Take a new plan Builder over a collection of extensions and use it, and the expression builders it gives out, in any order and as long as wanted: build expressions and aggregate functions by name, ask for function references and user-defined types, make relations from what was built, and make the plan. All of it shares one extension set, which each call may extend. Then everything made early still means the same at the end, and the plan can be written with its extensions and is read back, with the same collection, as the same plan, every anchor standing for the same function or type.", "quantifier": "all collections, all sequences of builder calls, all orders in which Go ranges over the maps of the set", "why_tests_cant": "expressions refer to functions by numbers handed out by a set that keeps changing while the plan is made; whether an early number still means the same at the end depends on everything done in between", "anchors": ["plan/builders.go:NewBuilder", "plan/builders.go:GetExprBuilder", "plan/builders.go:GetFunctionRef", "plan/builders.go:UserDefinedType", "plan/builders.go:PlanWithBindings", "expr/builder.go:BuildExpr", "expr/functions.go:resolveVariant", "extensions/extension_mgr.go:GetFuncAnchor", "plan/plan.go:ToProto", "plan/plan.go:FromProtoWithDecoder"]}
{"id": "C114", "title": "Aggregates stay as they were built, whatever their builders do later", "statement": "However slices are allocated, a program that makes aggregate builders (RelBuilder.AggregateRel, AggregateRel.ToBuilder), calls them in any order and builds, copies and receives aggregates sees every builder and aggregate hold what it would hold if no slice were shared; in particular an aggregate changes only through its own setters, and ToBuilder followed by Build gives the same aggregate.", "quantifier": "all sequences of calls on any number of builders and aggregates, all growth policies of append, all capacities of the slices handed in", "why_tests_cant": "Sharing shows only for particular capacities and interleavings of calls on several objects; tests look at one object right after it was built.", "anchors": ["plan/relations.go:AggregateRel.ToBuilder", "plan/relations.go:AggregateRel.Copy", "plan/builders.go:AggregateRelBuilder", "plan/builders.go:AggregateRelBuilder.Build", "plan/builders.go:AggregateRelBuilder.AddRollup"]}
{"id": "C115", "title": "Attributes of functions are what was written or the documented default", "statement": "Every function variant a Collection returns for a loaded extension file reports, for some implementation written in the file under that name, exactly the attributes written there, and for each attribute left out the default of the extension format: Deterministic true, SessionDependent false, Nullability MIRROR, variadic ParameterConsistency CONSISTENT, Decomposability NONE, WindowType PARTITION (STREAMING for an aggregate function used as a window function); ResolveURN returns the same variants as GetVariants; variants made with NewScalarFuncVariant, NewAggFuncVariant and NewWindowFuncVariant use these defaults for everything but name and URN, and those made with NewScalarFuncVariantWithProps, NewAggFuncVariantOpts and NewWindowFuncVariantOpts report the options they were given.", "quantifier": "for all collections reached by loads, all extension files with any attributes written or left out, all function identifiers and all options", "why_tests_cant": "Each attribute is filled in at a different place (decoder, default tags, GetVariants, Load), and the constructors fill in only some of them; tests look at single attributes of the shipped files.", "anchors": ["extensions/simple_extension.go:266-322", "extensions/simple_extension.go:349-408", "extensions/simple_extension.go:431-493", "extensions/extension_mgr.go:257-299", "extensions/variants.go:305-335", "extensions/variants.go:381-449", "extensions/variants.go:509-579"]}
{"id": "C116", "title": "MatchAt agrees with Match", "statement": "MatchAt of a function variant says yes exactly when a call with an admissible number of arguments can have an argument at that position and the type is compatible with the parameter declared for it; a negative position is an error. Every argument of a call that Match accepts is accepted by MatchAt at its position, and a call with an admissible number of arguments that MatchAt accepts one by one is accepted by Match if the arguments agree where the declaration demands it.", "quantifier": "all parameter lists, variadic settings, nullability modes, types and positions, and all argument lists", "why_tests_cant": "the two functions share only a helper: that they agree is a statement about all calls of any length, and the upper limit, the fixed parameters and the positions interact", "anchors": ["extensions/variants.go:matchArgumentAt", "extensions/variants.go:matchArguments", "extensions/variants.go:matchArgumentAtCommon", "extensions/simple_extension.go:IsValidArgumentPosition"]}
{"id": "C117", "title": "The constructors of package literal make the literal asked for, or refuse", "statement": "For every constructor of package literal that takes numbers, bytes or a time.Time (NewBool ... NewString, NewDate, NewTime, NewTimeFromMicros, NewTimestamp*, NewTimestampTZ*, NewIntervalYearsToMonth, NewIntervalDaysToSecond, NewUUID, NewUUIDFromBytes, NewFixedChar, NewFixedBinary, NewVarChar, NewDecimalFromTwosComplement, NewPrecisionTime*, NewPrecisionTimestamp*, NewPrecisionTimestampTz*, NewUserDefinedLiteral): if the arguments can be said with a literal of that type (the day fits the date type, the time is within a day, a UUID has 16 bytes, a decimal has no more digits than its precision, the precision is 0 to 9), the constructor returns a literal whose type has the nullability, length, precision and scale that belong to it and whose protobuf message holds the very number or bytes given (for a time.Time: the whole units of the precision since 1970, or since midnight on its own clock); otherwise it returns an error. The message is read back as the same literal.", "quantifier": "all constructors, all arguments, both values of nullable", "why_tests_cant": "The arguments range over whole integer types, byte strings and instants; truncation, rounding and overflow only show for particular values such as days beyond 32 bits, instants before 1970 or times with a zone.", "anchors": ["literal/utils.go:18-142", "literal/utils.go:188-190", "literal/utils.go:266-315", "literal/utils.go:334-401", "literal/utils.go:479-495", "expr/literals.go:786-998", "types/types.go:1904-1929"]}
{"id": "C118", "title": "Arguments of functions in extension files are read as written", "statement": "Let the args entry of a function in an extension file be a list of YAML maps. If every map is one of the three forms of the format (options: a list of texts; value: the text of a type, perhaps with constant; type: the text of a type; each perhaps with name and description, and with any unknown keys), then loading yields exactly the declared EnumArg, ValueArg and TypeArg values in order, with empty strings and false for what was left out, unless the text of some type is not a type expression, in which case an error is returned. The compound name of the function joins req, the short name of the value's type, or type, for each argument in order. Maps that are none of these forms are refused with an error and never panic. Arguments that are written and read again are the same arguments.", "quantifier": "all lists of YAML maps; all argument lists", "why_tests_cant": "The maps have any keys and any YAML values; the sample files only contain well-formed entries, so the behaviour for all other entries and for all types is not exercised.", "anchors": ["extensions/simple_extension.go:62-195", "types/parser/parse.go:17-42", "extensions/simple_extension.go:246-261"]}
{"id": "C119", "title": "RecordType tells the columns a relation produces", "statement": "For every relation whose inputs have record types, RecordType is the list of columns the Substrait specification prescribes for the relation, selected by its output mapping: the table schema under the projection mask for reads; the input columns followed by the types of the expressions for project; the columns of both inputs, made nullable or left out as the type of the join demands, for logical, hash and merge joins; both inputs for cross; the columns of the input for fetch, sort and filter; the columns of the inputs, nullable where some input is nullable, for unions; the grouping expressions in order (nullable if some grouping set leaves them out), the measures and, for several grouping sets, the number of the grouping set for aggregates; the written records or nothing for writes, by output mode; the user's definition for extensions.", "quantifier": "all relations and all record types of their inputs", "why_tests_cant": "Tests look at the record types of a few hand-written plans; the claim concerns every relation, every join type, every combination of grouping sets and every nesting of inputs.", "anchors": ["plan/relations.go:94-96", "plan/relations.go:706-718", "plan/relations.go:823-860", "plan/relations.go:1137-1151", "plan/relations.go:1508", "plan/relations.go:2028-2030", "plan/relations.go:2145-2147"]}
{"id": "C120", "title": "GetType tells what values an expression can have", "statement": "Every value an expression can have under the Substrait specification, in a world whose rows, parameters and function results are of their declared types, belongs to the type that GetType states for the expression: in particular an expression whose stated type is not nullable is never null, elements of a list are of the stated element type and fields of a struct of the stated field types.", "quantifier": "all expressions the constructors accept, all rows and tables of the stated types, all possible results of evaluation", "why_tests_cant": "Tests compare GetType with a type written down by hand and never evaluate anything; the claim is about every nesting of expressions and every row they may be evaluated on.", "anchors": ["expr/expression.go:543-545", "expr/expression.go:642-644", "expr/expression.go:855-880", "expr/expression.go:1027-1029", "expr/expression.go:1146-1148", "expr/expression.go:1299-1309", "expr/expression.go:1425-1435", "expr/expression.go:1544-1553", "expr/field_reference.go:752-754", "plan/subquery.go:97-104", "plan/subquery.go:184-186", "plan/subquery.go:422-424"]}
{"id": "C121", "title": "The rows of a relation are of its record type", "statement": "Let a relation be executed as the Substrait specification says, over tables whose rows are of their declared schemas, with functions and extension definitions returning values of the types they declare. Every row the relation puts out then has exactly one value per column of RecordType, and each value belongs to the type of its column; in particular a column that is not nullable never holds null.", "quantifier": "all relations, however nested, all contents of the tables, all join and set operation types, all output mappings", "why_tests_cant": "Tests compare record types with types written down by hand and execute nothing; the claim concerns every nesting of relations and every content of the tables.", "anchors": ["plan/relations.go:94-100", "plan/relations.go:706-718", "plan/relations.go:823-862", "plan/relations.go:962-967", "plan/relations.go:1137-1155", "plan/relations.go:1508-1511", "plan/relations.go:1590-1601", "plan/relations.go:2028-2034", "plan/relations.go:2145-2151", "plan/relations.go:2283-2297", "plan/builders.go:338-358", "plan/builders.go:576-623"]}
{"id": "C122", "title": "Remap picks columns of the rows", "statement": "For every relation r and every list m of column positions for which r.Remap(m) succeeds: whatever the tables hold, the rows that the returned relation can put out are exactly the rows of r, of each the columns m[0], m[1], ... in that order (left out and repeated columns included). The same holds between a plan builder call with an output mapping and the call without.", "quantifier": "all relations with computable record type, all mappings, all earlier mappings, all contents of tables (set of rows an engine can put out)", "why_tests_cant": "A test looks at the mapping stored for one relation; that the stored mapping, combined with an earlier one and dropped when it is the identity, denotes the right columns of every row for every tree is a statement about all of them.", "anchors": ["plan/relations.go:162-200", "plan/common.go:145-171", "plan/builders.go"]}
{"id": "C123", "title": "Rewriting expressions by equivalent ones keeps the rows", "statement": "If a rewriting function replaces every expression it is given by one that states the same type and has the same values, then rewriting a tree of relations with CopyWithExpressionRewrite from the leaves to the root gives a tree with the same record type and the same rows. More generally the result differs from the tree only in that expressions are replaced by related ones, whatever reflexive relation the function respects; this holds although some expressions are not handed to the function (C48) and whatever it reports about identity.", "quantifier": "all trees of relations, all rewriting functions, all reflexive relations between expressions", "why_tests_cant": "Tests rewrite one node with one function; that no combination of node kinds, changed and unchanged expressions and inputs drops, swaps or mixes up an expression needs an argument over all trees and all functions.", "anchors": ["plan/relations.go:140-158", "plan/relations.go:249-260", "plan/relations.go:308-336", "plan/relations.go:769-787", "plan/relations.go:929-948", "plan/relations.go:1239-1295", "plan/relations.go:1380-1401", "plan/relations.go:2111-2126"]}
{"id": "C124", "title": "Rewriting recursively with Visit rewrites every subexpression", "statement": "The usual recursive program rewrite(e) = step(e.Visit(rewrite)) (nil for nil) returns the expression with step applied to every subexpression, innermost first; the original expression and everything it shares stay unchanged; and the program does not panic when step does not.", "quantifier": "all expressions, all shapes and sharing in memory, all step functions (also ones that allocate and that return new nodes)", "why_tests_cant": "The copy made by each Visit method depends on which child changes first, at every level at once; a test covers one tree and one step.", "anchors": ["expr/expression.go:Visit methods", "expr/functions.go:Visit methods", "expr/lambda.go:Lambda.Visit", "plan/subquery.go:Visit methods"]}
{"id": "C125", "title": "Rewriting with a meaning-preserving step preserves the meaning", "statement": "If a visitor replaces expressions only by expressions with the same type and the same values, then the expression that Visit, or the recursive rewriting, returns has the type and values of the original; and a plan whose expressions are rewritten so has the same columns and rows.", "quantifier": "all expressions, steps, worlds and values; all relation trees", "why_tests_cant": "Equality of meaning is a statement about all worlds and values; a test evaluates nothing, the library has no evaluator.", "anchors": ["expr/expression.go:Visit methods", "expr/functions.go:Visit methods", "plan/relations.go:CopyWithExpressionRewrite"]}
{"id": "C126", "title": "WithParameters is the inverse of GetParameters", "statement": "If a type (without type variations) is an instance of a declared type, nullability included, then WithParameters of the declared type applied to the type's GetParameters returns the type.", "quantifier": "all declared types that the parser yields and all types that are instances of them, nested to any depth", "why_tests_cant": "relates two recursive methods over unbounded nested types; tests call WithParameters on a few flat ones", "anchors": ["types/parameterized_*:WithParameters", "types/types.go:GetParameters"]}
{"id": "C127", "title": "Overloads of a function do not hide each other", "statement": "Parameter lists have the same signature exactly if their parameters are of the same kinds (the same simple type, varchar, decimal, list, map, struct, any, enum, user-defined type of the same name, ...). So when an extension file is loaded, every implementation whose parameters are not of the same kinds as those of another implementation of that function is found under its function name and signature, with its own parameters and return type.", "quantifier": "all extension files, functions, implementations and parameter lists", "why_tests_cant": "quantifies over pairs of parameter lists of any length and user-chosen type names; tests look at the functions of the core extensions", "anchors": ["extensions/simple_extension.go:signatureKey", "types/*:ShortString", "extensions/extension_mgr.go:Load"]}
{"id": "C128", "title": "The layout of a type expression does not matter, and only layout is skipped", "statement": "ParseType reads a text the same whatever the amount of spaces and tabs between its words, around its signs (commas, brackets, angle brackets, question marks) and at both ends; a comment, // to the end of the line or /* ... */, counts as white space; a text with a character that occurs in no type expression is refused.", "quantifier": "all texts", "why_tests_cant": "texts and comments are unbounded; the tests of the parser have a handful of texts written by hand", "anchors": ["types/parser/parse.go:ParseType", "types/parser/baseparser/substraittype_lexer.go"]}
{"id": "C129", "title": "A call that matches has the type its declaration gives", "statement": "If Match of a function variant accepts the types of the arguments, and every variable in the declared return type stands for something in the call, then ResolveType yields a type: the declared return type with its integer and type variables replaced by what they stand for, or the type computed by the derivation program; a user-defined result refers to the type of that name in the extension of the function; under MIRROR the result is nullable exactly if some argument is, under DECLARED_OUTPUT and DISCRETE it is as declared.", "quantifier": "all function variants, argument types that Match accepts, and declared return types", "why_tests_cant": "Match and ResolveType count arguments, look at nullability and bind variables separately: that the second never refuses what the first accepted, and what it then answers, is a statement about all signatures and calls", "anchors": ["extensions/variants.go:EvaluateTypeExpression", "extensions/variants.go:validateType", "extensions/variants.go:matchArguments", "types/type_derivation.go:ReturnType"]}
{"id": "C130", "title": "The printed form of a function test is determined by it and is read as the same test", "statement": "TestCase.String of a test case that the test-file parser produced succeeds, does not depend on chance, and is a text that the grammar of test files accepts; parsing that text under the same include and group yields a test case with the same function, arguments, columns, table, options and expected result.", "quantifier": "all test cases of a test file that the parser accepts", "why_tests_cant": "the printer distinguishes four layouts and ranges over a Go map of options; that whatever it prints is read as the same test is a statement about all test cases and all iteration orders, and unit tests compare a few sample strings", "anchors": ["testcases/parser/nodes.go:String", "testcases/parser/nodes.go:AsAggregateArgumentString", "testcases/parser/nodes.go:getAggregateFuncTableString", "testcases/parser/visitor.go:VisitTestCase"]}
{"id": "C131", "title": "Types that print the same are the same type", "statement": "String() of two types gives the same text exactly if Equals finds the types equal.", "quantifier": "all pairs of types, nested to any depth", "why_tests_cant": "texts of nested types are glued together from the texts of their parts, names are prefixes of each other (timestamp, timestamp_tz) and ?, <, comma, arrow are the only separators; that no two different types ever run into the same text is a statement about all pairs of trees", "anchors": ["types/types.go:String", "types/precison_timestamp_types.go:String", "types/interval_day_type.go:String", "types/types.go:Equals"]}
{"id": "C132", "title": "A function registry lists exactly the functions of the files loaded", "statement": "For a collection into which files were loaded (refused loads in between do not matter), GetAllFunctions of NewFunctionRegistry lists for every declared implementation a function of its file, name and signature, and lists nothing that no loaded file declares; implementations of aggregate functions are listed as window functions, too; no kind lists two functions with the same file, name and signature. Get...FunctionsByName gives exactly the listed functions of the kind and name in the order of the list, and Get...Functions with a number of arguments exactly those of them that have as many parameters or, if variadic, allow as many. All this whatever the order in which Go ranges over the maps.", "quantifier": "all sequences of loads, all files, all iteration orders of the maps", "why_tests_cant": "the registry is filled by ranging over maps whose order changes from run to run, and what is in the maps depends on the whole history of loads", "anchors": ["functions/functions.go:NewFunctionRegistry", "functions/functions.go:processFunctions", "functions/functions.go:getFunctionVariantsByCount", "extensions/extension_mgr.go:getValues", "extensions/extension_mgr.go:Load"]}
{"id": "C133", "title": "Copy replaces the inputs of a relation and nothing else", "statement": "r.Copy(inputs...) succeeds exactly when it is given as many inputs as r has; the copy has these inputs, in order, and everything else of r: hint, output mapping, expressions, names, flags, extensions. A copy with r's own inputs is r. Hence if inputs are replaced by equivalent ones (same record type, same rows in every engine), the copy is equivalent to r, and replacing any parts of a tree by equivalent ones, rebuilding what is above them with Copy, gives an equivalent tree.", "quantifier": "all relations of all kinds, all lists of inputs, all trees and sequences of replacements, all engines", "why_tests_cant": "Tests copy one relation of each kind with one input; that no attribute of any kind is lost and that no nesting of replacements changes the rows needs an argument over all trees.", "anchors": ["plan/relations.go:245-247", "plan/relations.go:760-767", "plan/relations.go:920-927", "plan/relations.go:1004-1011", "plan/relations.go:1215-1222", "plan/relations.go:1552-1556", "plan/relations.go:1792-1796", "plan/relations.go:2102-2109", "plan/relations.go:2344-2351", "plan/plan.go:422"]}
{"id": "C134", "title": "Advanced extensions are kept where they were set", "statement": "SetAdvancedExtension returns the extension a relation had, GetAdvancedExtension then returns the one set; nothing else of the relation changes: inputs, output mapping, expressions, record type, rows. The extension is the advanced_extension of the relation's message and is read back from it. Setting it on a copy of a relation does not change the relation.", "quantifier": "all relations of all kinds, all extensions, all registries", "why_tests_cant": "Relations have up to three extensions (common part, relation, table) whose fields shadow each other through embedding; tests set and get but do not check which of them is written, read and shared.", "anchors": ["plan/relations.go:106-111", "plan/relations.go:636-644", "plan/relations.go:1162-1169", "plan/common.go:173-181", "plan/plan.go:414-416"]}
{"id": "C135", "title": "Expressions that are equal can stand for each other", "statement": "If Equals finds two expressions equal, ToProto writes them as the same message, they state the same type, and they have the same values wherever they are evaluated; so replacing an expression of a plan by one that is equal changes neither the columns nor the rows of the plan.", "quantifier": "all pairs of expressions, all worlds they are evaluated in, all trees of relations", "why_tests_cant": "Quantifies over pairs of unbounded trees that differ in details no test compares, and over all inputs they could be evaluated on.", "anchors": ["expr/expression.go:Equals methods", "expr/functions.go:ScalarFunction.Equals", "expr/functions.go:WindowFunction.Equals", "expr/field_reference.go:FieldReference.Equals", "plan/subquery.go:Equals methods", "expr/literals.go:Equals methods"]}
{"id": "C136", "title": "Which quoted texts are dates, times and strings in a function test file", "statement": "In a function test file 'text'::date is an argument exactly if the text is a year of four digits, a month and a day of two; 'text'::time exactly if it is hours, minutes and seconds with an optional fraction; 'text'::timestamp exactly if it is a date, a T and a time; 'text'::timestamp_tz exactly if an offset with a sign follows; and 'text'::string exactly if its quotes are doubled or escaped and every backslash has a character behind it.", "quantifier": "all texts", "why_tests_cant": "unbounded texts; the kind of a token depends on every character and on the rules tried before", "anchors": ["testcases/parser/baseparser/functestcase_lexer.go", "testcases/parser/baseparser/functestcase_parser.go"]}
{"id": "C137", "title": "A call tells what it was built with, and a dialect finds it by that", "statement": "GetArgTypes of a call made by NewScalarFunc, NewWindowFunc or NewAggregateFunc is the list of the types its declaration was resolved with, and GetOption gives the values of the option asked for. If a dialect lists the function the call was built with, has names for the types of the values among the arguments, and allows the options, looking up the call in the dialect's registry gives the dialect's function; if one of these is missing, an error.", "quantifier": "all collections, extension sets, functions, arguments, options and dialects", "why_tests_cant": "three registries take part (collection, extension set, dialect) and each looks at the arguments in its own way; tests fix one dialect and calls with plain values", "anchors": ["expr/functions.go:getArgTypes", "expr/functions.go:ScalarFunction.GetOption", "functions/local_functions.go:getFunctionVariantByInvocation", "expr/functions.go:resolveVariant"]}
{"id": "C138", "title": "The text of a field reference tells where it points", "statement": "String of a field reference returns a text exactly if the reference is a path whose map keys can be printed, and starts at a row or at an expression that can be printed. Two field references have the same text exactly if they start at the same place (the row, an outer row or the parameters of a lambda the same number of steps out, or expressions that read the same), go through the same struct fields, list elements and map keys in the same order, and their known types read the same; keys of simple types read the same only if their types do and they are the same number or string.", "quantifier": "all field references, of any depth, field numbers, offsets and map keys", "why_tests_cant": "texts are glued together from parts of any length, and that no two places share a text is a statement about all pairs of paths", "anchors": ["expr/field_reference.go:FieldReference.String", "expr/field_reference.go:MapKeyRef.String", "expr/field_reference.go:StructFieldRef.String", "expr/field_reference.go:ListElementRef.String", "expr/literals.go:PrimitiveLiteral.String"]}
{"id": "C139", "title": "Expressions that are read can be printed, and the text shows every part", "statement": "String of an expression returns a text, without panicking, if nothing in it is nil, all its literals can be printed, its field references have paths, and its calls have declarations, arguments and sort kinds; and that text contains the texts of all expressions in it, at any depth, and what the expression says itself: the types it names, the name, options, enum and type arguments, sort directions and bounds of a call, the parameters of a lambda, the relation and comparison of a subquery. In particular every expression that ExprFromProto returned can be printed.", "quantifier": "all expressions of any kind and depth, all messages and registries", "why_tests_cant": "expressions nest without bound and the String methods call each other, so that one part that cannot be printed takes the whole expression with it; whether reading can produce such a part is a statement about all messages", "anchors": ["expr/expression.go:IfThen.String", "expr/expression.go:SwitchExpr.String", "expr/expression.go:Cast.String", "expr/functions.go:ScalarFunction.String", "expr/functions.go:WindowFunction.String", "expr/lambda.go:Lambda.String", "plan/subquery.go:InPredicateSubquery.String", "expr/field_reference.go:FieldReference.String", "expr/expression.go:ExprFromProto"]}
{"id": "C140", "title": "The text of an aggregate function tells which call it is", "statement": "String of an aggregate function returns a text exactly if it has a declaration and all its arguments are there and can be printed. The text starts with the name of the function, ends with its output type, and shows all its arguments, its options, its sort fields, its phase and whether it is over all or distinct values.", "quantifier": "all aggregate functions with any arguments", "why_tests_cant": "arguments are expressions of any depth, and that no two different calls share a text is a statement about all pairs", "anchors": ["expr/functions.go:AggregateFunction.String"]}
