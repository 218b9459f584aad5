# Formal model of substrait-go: design

The Go source in `/repo` is read as text. Nothing is executed. Each Lean definition
in `lean/Verif/Model` cites the file and lines it models. Property theorems are in
`lean/Verif/Props`, the small independent specifications they use in
`lean/Verif/Spec`, and helper lemmas in `lean/Verif/Lemmas`.

## Modelling conventions

* A Go function that can fail returns `Res α` with three outcomes: `ok a`,
  `err` (an `error` was returned), `panic` (run-time panic, explicit `panic(...)`,
  nil dereference, index out of range, failed type assertion). Error texts are not modelled.
* Interfaces become inductive types with one constructor per concrete Go type that
  matters to the property; `nil` is an explicit case (`Option`) wherever the code can see it.
* Slices are lists. Where a property is about aliasing (C04, C34, C37) the
  relevant memory is modelled explicitly (cells, or backing array + length + capacity).
* Maps are association lists or finite functions. Where Go's random map iteration
  order is observable (C23, C24, C50) the order is an explicit argument ranging over
  all permutations.
* Fixed-width integers are `Int32`/`Int64`/`UInt32` (wrapping) where the property can
  observe wrap-around; otherwise values are only carried and the exact width is irrelevant.
* External libraries (`apd` decimals, `time.Time`, protobuf runtime, YAML, ANTLR) are replaced by
  their documented mathematical meaning; each such replacement is listed below.

## Plan per property

| id | modelled | proof idea |
|----|----------|-----------|
| C01 | all `Type` kinds, `proto.Type` kinds, both conversions | mutual structural induction over types / parameter lists |
| C02 | same | induction over messages; negation witness for `interval_compound` |
| C03 | every `Equals` method | `equals a b = true ↔ canonical a = canonical b`, then equivalence is inherited |
| C04 | `WithNullability` on values; one-cell heap model for pointer receivers | case analysis; negation witness for `interval_day` receiver mutation |
| C05 | both recursions, names consumed explicitly | mutual induction |
| C06, C07 | byte-level encoder, negation, decoder | weighted-sum semantics of byte lists, induction with carry |
| C08 | re-precision function with `Reduce` and `Quantize` as arithmetic | arithmetic on coefficient and exponent |
| C09 | all ten precisions with Go truncating division and wrap-around | per-precision integer arithmetic |
| C10 | int64 wrap-around arithmetic | arithmetic; negation witness for wrap-around |
| C11 | `NewList`/`NewMap`, `hasTypeMismatch` | induction on element list |
| C12 | literal kinds both directions | structural induction; negation witnesses (negative precision timestamps, empty lists, ...) |
| C13, C14 | segments, proto segments, types | induction on chains |
| C15 | mask selects | nested induction; negation witness for childless map/list selections |
| C16, C17 | copy-on-write `Visit` loops over node identities | loop invariants; negation witness for `MultiOrList` |
| C18 | `Equals` methods on an expression tree | structural induction; negation witnesses for scalar/window functions and if-then |
| C19, C54 | constructors and `GetType`; the in-place change of case types by `NewSwitch` | induction on branches; iff characterisation of the accepted switches (`C19_accepts`), contents and kind of what is made |
| C20 | builder with a mutable scope stack | simulation against an environment-passing spec |
| C21, C22 | extension set state machine | invariant over histories; negation witness on decoded sets |
| C23, C24 | `ToProto` with explicit iteration order and the real comparator indices | permutation/sortedness lemmas; negation witnesses |
| C25, C26 | collection state machine, simple-name toggling | invariant; negation witnesses |
| C27–C31 | matching of parameter types against argument types | structural induction; negation witnesses |
| C32 | derivation evaluator | induction on expressions against an integer semantics |
| C33–C37 | relations with mapping and inputs, aliasing heap | list algebra, heap frame lemmas, negation witnesses |
| C38–C41 | grouping decoder and aggregate builder | list induction, bitmask/subset bijection |
| C42–C44 | plan construction | case analysis, induction on relation trees |
| C45–C47, C74–C76 | `RelFromProto`, all `ToProto` methods of relations, plans | mutual structural induction, exact equality; the message states kind and parts; negation witnesses |
| C48 | `CopyWithExpressionRewrite` methods; rewrite functions report whether their result is the object they were given | case analysis, list induction; negation witnesses |
| C49 | virtual-table builder | list induction, exact acceptance; negation witnesses |
| C50, C51, C79 | dialect localisation with explicit iteration order | loop invariants, permutation argument; negation witnesses |
| C80, C82 | decoded dialect files, kernels as strings | list induction, both directions; negation witness |
| C83 | the readers of C72, C74, C76 | mutual structural induction on messages with "reads or errs, and has a type" as invariant; negation witnesses |
| C84, C85, C86, C87 | function call constructors over the collection of C67 and the extension set of C02, set as state | invariant of reachable collections (every key is a compound name or the short name of its variant), decision logic; signature path by list induction; negation witnesses |
| C88, C89 | lexer and parser of type expressions as all readings of the grammar in the order of its alternatives, visitor, `String` methods | lexing by induction on the text; the intended reading is shown to come first among those that can be completed; invariant of all readings (balanced parentheses, names in order); negation witnesses |
| C90 | `parseFuncName` over the parser of C88, custom calls over the extension set of C02 | list induction over the parts of a signature, C88's reading theorem; negation witnesses |
| C91 | operator loop of the expression rule in the parser of C88 | induction over the chain: the reading from left to right comes first among those that can be completed; negation witness `1 + 2 * 3` |
| C92 | numbers in the lexer, parser and visitor of C88, `strconv.ParseInt` | the reading of the number comes first; decimal digits by induction; negation witness beyond 32 bits |
| C93 | the `IsScalar` methods over the expressions of C72 | mutual structural induction against "occurs in"; negation witness |
| C94 | extended expressions over the expressions of C72, the extension sets of C23 and the collection of C67 | composition: sets with the same contents make the same registry; setters by invariant; negation witnesses |
| C95 | subquery builders, relations given by their columns | decision logic; negation witnesses |
| C96 | the regular expression and arithmetic of reading day-time intervals, with double precision numbers as rational numbers | grammar by cases; error bounds of rounding; negation witnesses |
| C97 | printing day-time intervals, Go's duration text external | induction over the digit loops; composition with C96; negation witnesses |
| C98 | the `WithType` methods over the literals of C03, decimals of C06, times of C56 | case analysis against the value a literal stands for; negation witnesses |
| C99-C102 | the visitor of function test files on parse trees (`Model/TestCase.lean`): types, literals, lists, arguments | spec of what a text means (`Spec/TestCase.lean`), induction over nested lists, C06 and C98 for values; negation witnesses |
| C103-C106 | tables, compact calls, columns, calls built from test cases, groups and files (`Model/TestCaseAgg.lean`) on parse trees | column-wise specification (`columnAt`, `nullableIf`), tables against single columns, C84 for the calls, induction over groups and options; negation witnesses |
| C107 | `newDateFromString` etc. of `Model/TestCase.lean`, with `time.Parse`/`ParseFloat` as parameters | exact value per kind; precisions via `getTime_spec` and `wrapdiv_iff`; intervals via C53 and C96; negation witnesses |
| C108 | token rules as byte regexes (`Model/TestLex.lean`), `literalToString` and the value strings (`Model/TestPrint.lean`) | the printed text is one token of the right kind (language of the regexes), which is read as the same literal; induction over list elements; negation witnesses |
| C109 | the builders with the extension set threaded through (`Model/ExprBuild.lean`) | every step advances the set (tidy, compact, growing); induction over the builder tree for the described expression, what can be carried stays so as the set grows, then C72 and C23; negation witnesses |
| C110 | the writing functions of C01, C12, C72, C75, C76 | exact condition for a message by induction over types, literals, expressions, relations and plans (`Spec/Writable.lean`); round trips from C72 and C76 |
| C111 | the reading and writing functions of C01, C12, C72, C75, C76 | from the message: by induction over the message, what is read from a plain one (`Spec/Reread.lean`) is written and read again as the same; the conditions on functions from C90; the losses as negations |
| C112 | the relation builders of `plan/builders.go` (`Model/RelBuild.lean`, `Model/Aggregate.lean`, `Model/BuildMore.lean`) with plans of C42 and messages of C75, C76 | what each call returns by cases; the relations made by sequences of calls as an inductive predicate (`Spec/PlanBuild.lean`), induction over it: each can be carried and written, then C110, C76; negation witnesses |
| C113 | the builders of C109 and C112 over one extension set, `UserDefinedType` and `GetFunctionRef` (`Model/BuildMore.lean`) | the states reached by builder calls as an inductive predicate (`Spec/Session.lean`); invariant: the set is tidy, compact and has anchors for functions and types of loaded extensions only, and everything made so far can be carried with it; then C112; negation witness |
| C114 | aggregates and builders as objects whose slices share arrays with capacities (`Model/AggMem.lean`): all methods of `AggregateRelBuilder`, `AggregateRel.Copy`, `ToBuilder`, the setters, slices made and written by the program | refinement: an invariant (each builder owns its arrays, no aggregate reaches beyond its builder, unshared slices of the program are apart from all grouping sets) by induction over the calls shows that memory always shows the values of a sharing-free specification; negations with concrete programs |
| C115 | an extension file with every attribute written or left out (`RawFile`), `UnmarshalYAML`, `defaults.Set` on the two tagged fields, `GetVariants`, `ResolveURN`, the constructors with and without options (`Model/Attrs.lean`) | on top of C67: every step of a load puts variants into the maps that answer for a written implementation (`Variant.Answers` lists the defaults); constructors by unfolding. False for `ResolveURN` and for the constructors, negations proved |
| C116 | `MatchAt` (`matchArgumentAt`, `Model/Variants.lean`) beside the matching of C27 | the answer for one position is characterised by the positions some admissible call has and by C61; accepted calls taken apart (C27), put together again (C62); negation witnesses |
| C117 | the constructors of package `literal` from numbers, bytes and `time.Time` (`Model/LitCons.lean`, on top of `newLiteral`, `newTime`, `getTimeValueByPrecision`); a `time.Time` is an instant with the offset of its location | case analysis over the constructors against a separate reading of what the message must say (`LitCall.Says`, `TypedAs`, `Representable`); whole units by integer division; round trip through C12; negations with witnesses |
| C118 | `FuncParameterList.UnmarshalYAML`, `TypeExpression.UnmarshalYAML`/`MarshalYAML` (`Model/ArgFile.lean`) on maps of decoded YAML values; the types go through the parser of C88/C89 | a separate description of the three forms of entries (`ArgDecl`), induction over the list of entries in both directions; compound names through `signatureKey`; round trip through C88; negations with witnesses |
| C119 | `directOutputSchema`/`RecordType` of all relations (`Model/Rel.lean`) | the columns prescribed by the Substrait specification are described per relation in `Spec/Output.lean` (`Rel.Prescribes`); case analysis over the relation with the record types of the inputs given; the builder calls through `run_asks`; hash and merge joins exactly (`C119_hash_exact`), several grouping sets by counting columns; negations with witnesses |
| C120 | `GetType` of all expressions (`Model/Expr.lean`), `newIfThen`, `newSwitch`, `newFieldRef` | values, belonging to a type and evaluation as a relation are defined independently of the library in `Spec/Value.lean`; induction over the expression, mutual with its lists, shows that every possible value belongs to the stated type; the constructors are shown to give expressions in order from parts in order; negations with witnesses |
| C121 | rows of relations: a set semantics of relations (`Verif/Spec/Rows.lean`: `Rel.Makes`, `Rel.Yields`, joins filling up with nulls, grouping sets, set operations, output mappings) over engines that respect declared types, on top of the expression semantics of C120 | induction over relations: every row of a relation with plain rows belongs to `Rel.recordType` (`C121_rows_partial`); builder calls make such relations (`C121_call`, `C121_aggregateColumns`, `C121_built`); negations with a concrete engine and plan |
| C122 | `Rel.remap` / `RemapHelper` (Model/Rel), the builder calls (Model/RelBuild) and the row semantics of C121 | refinement: rows of `r.Remap(m)` = columns `m` of rows of `r`, composed mappings and dropped identity mappings included (`C122_remap_partial`, conditions of C121); unconditional for builder calls (`C122_builder`); negation for an anti hash join (`C122_negation`) |
| C123 | `CopyWithExpressionRewrite` of every relation (Model/RelRewrite) and the row semantics of C121; `Verif/Spec/Alike.lean` says when two trees differ only in related expressions | simulation: the result is alike to the tree for every reflexive relation the function respects (`C123_rewrite`, `C123_tree`); with "same type and same values" the record type and rows stay the same (`C123_rows`) |
| C124, C125 | the `Visit` methods of C17 with visitors that read and allocate memory, and the recursive program built from them (`Spec/VisitTree.lean`) | Hoare triples over the heap with private cells (`Lemmas/VisitTree.lean`), loop invariants for each method, induction on the depth; congruence of types and values for C125; negation witnesses |
| C126 | `WithParameters` and `GetParameters` methods | structural induction over the instance relation of C61; negation witnesses |
| C127 | `signatureKey`, `ShortString`, `Load` | injectivity of the short names and of joining, on top of C67; negation witness |
| C128 | the lexer of C88 | texts are cut into tokens before every character that cannot continue one (induction on the text); negation witnesses |
| C129 | `evaluateTypeExpression` for calls that `matchArguments` accepts, against `Instance`/`Runs` of `Spec/Derivation` | the checks of `ResolveType` pass (`C129_resolved`), then C27, C65 and C28 supply what C66 and C32 need; variadic functions with every declared parameter given included, no interval_day arguments in the end-to-end theorems; nested integer variables: `C129_negation`; variadic parameters left out: `C129_negation_variadic` |
| C130 | `TestCase.String` and what it calls (`Model/CaseText.lean`); which texts the grammar reads as which call (`Spec/CaseText.lean`) | the text is cut at the places where the printer joined it, each argument is one token with a type (C108), options by permutation of the map; negation witnesses |
| C131 | `Ty.string` (`Model/LocalTypes.lean`) against `Ty.shown` of `Spec/TypeStrings.lean` | unique decoding: name, `?` and arguments are cut off at the first character that cannot belong to them, by induction over both types at once |
| C132 | `NewFunctionRegistry` and its lookups on the variants of a collection (`Model/FuncRegistry.lean`), ranging order as an argument | invariants over histories of loads (every entry is a declaration under its own identifier, every declaration has an entry), keys of a map are distinct, fold over the functions listed |
| C133 | `Copy` and `GetInputs` of all relations (values, `Model/Rel.lean`); equivalence by the rows of `Spec/Rows.lean` | case analysis over the kinds of relations; congruence of rows and record types in the inputs; induction over sequences of replacements |
| C134 | `GetAdvancedExtension`, `SetAdvancedExtension` (`Model/RelAdv.lean`) with the fields of common part, relation and table; `ToProto`, `RelFromProto` | case analysis; round trip on the messages of C74 |
| C135 | `Equals`, `ToProto`, `GetType` of expressions (`Model/Expr.lean`, `Model/ExprProto.lean`), evaluation of `Spec/Value.lean` | induction over pairs of expressions with equal contents; negation witnesses |
| C136 | the token rules and `tcArgOf` of C108 (`Model/TestLex.lean`) | the language of each rule is the form written down in `Spec/TestTokens.lean`; the forms exclude each other; so the first rule that matches is the only one; negation: texts that look like dates are no strings |
| C137 | `getArgTypes`, `GetOption` and the lookup of a call in a local registry (`Model/CallLookup.lean`), on top of C84 (building calls) and C51 (lookups) | the lookup of a call is the lookup of an invocation with its types; C84 gives the types, C51 the decision; induction over the entries of a dialect for the types none can list; negations with witnesses and for all dialects |
| C138 | `Lit.string`, `Seg.string`, `fieldRefString` (texts as bytes) against `SamePath` | induction over both paths: each segment ends at its first closing sign, numbers are read back with `atoi`; `C138_negation`, `C138_negation_mask` |
| C139 | `Expr.string` (all kinds of expressions, texts as bytes; what `fmt` and generated code write are parameters) against `Expr.Ready`, `Expr.Within`, `Expr.Says` and infixes of texts | mutual induction over expressions for printing, a case for each kind for containment, mutual induction over messages for what reading returns; `C139_negation`, `C139_negation_decimal`, `C139_negation_nil` |
| C140 | `AggFn.string` with the texts of C139 | from the lemmas on arguments of C139; `C140_negation` |
| C81 | registry lookup against the matching of C27 | decision logic; negation witness |
| C52, C53, C55, C77 | string functions over character lists | list induction |
| C78 | type registry with the one shared interval_day object as state | case analysis; negation witness |
| C56, C58 | precision rescaling | arithmetic |
| C57 | type messages | induction; the message states kind and attributes |
| C59 | literal messages | induction; the message states kind and value |
| C60 | `GetExtensionSet` | induction over the declarations, both directions |
| C61 | the matching functions of C30 | against an inductive instance relation, both directions; negation witnesses |
| C62 | the matching of C27 | from the specification of a compatible call to acceptance, with shared integer variables by an invariant on the map of names and values; negation witnesses |
| C63–C65 | the matching of C27, argument types as cells that `WithNullability` may overwrite | loop invariants over the bindings; negation witnesses |
| C66 | `ReturnType` methods | structural induction against a substitution relation, both directions; negation witnesses |
| C67, C68 | the collection of C25, with declared types as recursive values | refinement of the loops to one list of steps; both directions; negation witness |
| C69 | `EvaluateTypeExpression` of C28 | decision logic |
| C70, C71 | aggregate builder of C41, expressions with pointer identity; field reference constructor | loop invariants |
| C72, C73 | `ExprFromProto` and all `ToProto` methods over expression messages | mutual structural induction, exact equality; negation witnesses |

No property is expected to be inexpressible; those that turn out to be false of the
code are recorded under "Disagreements" with a proved negation and a `_partial` theorem.

## Trusted base

* Lean 4.33.0's kernel, and the axioms `propext`, `Classical.choice`, `Quot.sound` only.
* The reading of `/repo` that produced the model (citations beside each definition).
* The assumptions about external libraries listed under "External behaviour".

(The sections below are extended as the model grows.)

## External behaviour assumed

* protobuf-go: messages are immutable data while read; a oneof is either unset or holds a non-nil inner
  message; repeated fields hold no nil entries. An empty repeated field is not written to bytes, and
  is nil once read (`RelMsg.overWire`, used only by C45).
* Enum numbers of the Substrait messages: `WRITE_OP` insert 1, delete 2, update 3, create-table-as 4;
  `SIMPLE_COMPARISON_TYPE_EQ` 1.
* `cockroachdb/apd`: a decimal is sign, coefficient, exponent; `NumDigits` counts decimal digits (1
  for zero); `Reduce` strips trailing zeros (zero becomes `0E0`); `Context.Quantize` to an exponent
  that is not larger multiplies the coefficient and fails when the result has more digits than the
  context precision. The code's validation rules out the rounding direction, which is not modelled
  (`Model/Decimal.lean`).
* `math/big.Int.Bytes/SetBytes`: big-endian magnitude.
* `time.Time`: int64 seconds since 1970 and nanoseconds in [0, 10^9); `time.Unix`, `UnixMilli`,
  `UnixMicro` and the `Unix*` methods with int64 wrap-around (`Model/Time.lean`).
* `reflect.DeepEqual` on protobuf values inside literals and segments: equality of contents
  (`Model/Expr.lean`). Interface comparison `==` of pointers may be true only for equal contents
  (`Sharing.Sound`).
* Go maps: finite maps without duplicate keys (`Model/GoMap.lean`); `range` visits the entries in an
  arbitrary order, an explicit argument where it can be observed.
* `sort.Slice`: the insertion sort Go uses for up to 12 elements (`Model/ExtSet.lean`). For longer
  slices the theorems about sorted results rest on any comparison sort giving the one sorted
  arrangement, and those about panics on the sort comparing at least one pair of elements.
* `regexp`: the two anchored patterns of `extensions/extension_mgr.go` match whole texts; the matcher is
  modelled by derivatives (`Model/Urn.lean`).
* `creasty/defaults.Set` does not fail on function declarations (`ExtFile.DefaultsOk`; the only
  `default` tags there are on string fields). The model lets it fail; C25_rejected and C68 assume not. In `Model/Attrs.lean` it fills empty string fields
  with the text of their tag, in nested structures and slices as well (`GoImpl.setDefaults`).
* `goccy/go-yaml` leaves a field whose key is missing at its zero value, and gives a key to the outer of two fields
  of that name (`Deterministic` of the `UnmarshalYAML` methods, C115).
* ANTLR: the lexer takes the longest match and of several the first rule, and drops a character that
  starts no token; the parser takes the first alternative with which the whole input can be read and
  reports an error when there is none; adaptive prediction in SLL mode is assumed to find it
  (`Model/TypeParser.lean`). Keywords are matched without regard to the case of ASCII letters.
* float64: IEEE 754 with rounding to nearest even, non-negative numbers as rational numbers
  (`Model/Float64.lean`); `strconv.ParseFloat` rounds the exact value; conversion of 2^63 or more to int is a
  parameter. `time.Duration.String` and `strings.ToUpper` as in `Model/DayIntervalText.lean`.
* Function test files: the trees ANTLR builds for `testcases/parser/baseparser` are given; the lexer drops
  unknown characters without a report. `TcExt` holds what else is external: time layouts, `ParseFloat` and
  its conversion to float32, `apd.NewFromString` (`Model/TestCase.lean`).
* ANTLR's lexer (C108): a text that is one whole token is of the kind of the first rule that matches all of it. Printing of
  floats, dates, times and decimals is a parameter (`TcFmt`); C108 for them assumes that their texts are read back.
* The YAML decoder and encoder (`goccy/go-yaml`) for C118: an entry of `args` is decoded into `map[string]any` with texts as `string`, sequences as `[]any`, `null` as nil; fields with `omitempty` and the zero value are not written. `reflect.Value.Set` with the zero `reflect.Value` panics.
* `strconv.Atoi`, `regexp`, `fmt`: documented meaning on the inputs the cited code gives them.

## Disagreements between property and code

* **C02** an `interval_compound` type, at any depth, is read but writing it back panics
  (`C02_negation`, `C02_compound_panics`). Unset type parameters are also excluded.
* **C04** `WithNullability` on an `IntervalDayType` pointer receiver changes the receiver
  (`C04_receiver_negation`).
* **C08** remark: `decimal<p,p>` is refused as a target for zero, although zero fits
  (`C08_zero`).
* **C10** `NewTime` with 5124096 hours is accepted because the product wraps around
  (`C10_negation`).
* **C12** literals that do not survive: negative `precision_time`/`precision_timestamp` values read
  back as nil (`C12_negation`); a year-month interval held as `ProtoLiteral` changes kind
  (`C12_negation_interval_year`); precision types lose the type variation
  (`C12_negation_variation`); a zero compound interval loses its precision
  (`C12_negation_compound`); and, outside the hypothesis of the partial theorem but without a
  separate witness: unspecified nullability becomes required; fixed lengths are recomputed from the value;
  list and map element types are replaced by those of the first element.
* **C13** fails only through C12: a map key that is not a faithful literal (`C13_negation`).
* **C15** a map selection without child is read but writing it panics (`C15_negation`); a list
  selection without child panics on reading (`C15_negation_list`).
* **C16** the sort and partition expressions of a window function are not visited (`C16_negation`); a
  switch without default calls the visitor with nil, so a recursive traversal panics
  (`C16_switch_nil_default`).
* **C17** not replaced: window sorts and partitions (`C17_negation_window`), the root expression of a
  field reference (`C17_negation_fieldRef`). A multi-or-list whose options change while its values do
  not always panics (`C17_multiOr_panics`); a switch label replaced by a non-literal panics
  (`C17_negation_label`).
* **C18** two calls of one variadic function with different argument counts: the shorter one on the
  left compares as a prefix (equal), the longer one on the left panics (`C18_negation_arguments`,
  `C18_negation`); an if-then without default equals one with, but not the other way round
  (`C18_negation_ifThen`); the bounds type of window functions is ignored
  (`C18_negation_boundsType`); a NaN literal is not equal to itself (`C18_negation_nan`); nor is a
  field reference without a reference part (`C18_negation_noReference`); different set comparisons
  without left side are equal (`C18_negation_setComparison`).
* **C19** `NewSwitch` erases the nullability of `interval_day` results in place (through C04), so the
  switch can lose its nullability (`C19_negation`).
* **C20** holds for builds that return. The scope is popped without `defer`, so a panic inside a
  body (a nil argument builder, a panicking registry) leaves the scope pushed when it is recovered.
* **C21** needs fewer than 2^32 different ids: anchors are 32-bit (`C21_exhausted`).
* **C22** new anchors are the number of ids plus one, so in a plan with gaps in its numbering an
  existing anchor is overwritten (`C22_negation`), and a taken URN anchor makes the request panic
  (`C22_panics`). Compact numberings are safe (`C22_requests_partial`).
* **C23** writing a set with at least one type and two type variations always panics
  (`C23_negation`, `C23_panics`); a plan that gives one id two anchors loses one on rewriting
  (`C23_negation_duplicate`).
* **C24** the comparators index the whole declaration list instead of the part being sorted: the
  panic of C23 (`C24_negation`), and with a type or type variation and two functions the functions
  come out in map iteration order (`C24_negation_order`).
* **C30** a copy of an enum argument with another nullability no longer matches enum parameters
  (`C30_negation`): `WithNullability` returns a new pointer, and enum arguments are recognised by
  pointer.
* **C61** the name of a user-defined type is not compared (`C61_negation_name`), its integer
  parameters only modulo 2^32 (`C61_negation_integer`); nullability inside function types is ignored
  by the strict match (`C61_negation_func`).
* **C27** names of user-defined types are not compared (`C27_negation_name`). Matching panics for a
  variadic function called with too few arguments (`C27_negation_panic`), for a declared user-defined
  type with a type argument (`C27_negation_panic_udt`), and when an omitted variadic argument has an
  integer parameter shared with another (`C27_negation_panic_sync`). Under DISCRETE a nullable
  `interval_day` passes for a required one in a consistent variadic (`C27_negation_interval`).
* **C28** arguments beyond the declared parameters of an inconsistent variadic are not looked at
  (`C28_negation`); unspecified nullability counts as nullable (`C28_negation_unspecified`).
* **C29** for variadic functions both advertised counts are one too high (`C29_negation`), and an
  unlimited number of arguments is advertised as a small one (`C29_negation_unlimited`).
* **C31** type variables are not compared when two parameters share an integer parameter
  (`C31_negation_sync`), nor inside function types (`C31_negation_func`).
* **C62** the position in the whole call is compared with the maximum number of variadic arguments
  (`C62_negation`); an integer variable shared with a struct that has a field without parameters
  makes every call fail (`C62_negation_struct`).
* **C63** with a minimum `m` above one the first `m - 1` variadic arguments are not compared
  (`C63_negation`).
* **C64** matching overwrites the nullability of `interval_day` arguments (`C64_negation`, through
  C04).
* **C65** `decimal<P,P>` accepts different numbers (`C65_negation`); parameters nested in a list or
  struct are not compared with others (`C65_negation_nested`).
* **C32** results are cut to int32 without an error (`C32_negation_wrap`); a final type with its
  variables below the top fails (`C32_negation_nested`); computing with the precision of a time type
  panics (`C32_negation_time`).
* **C66** a variable that occurs only below the top of the parameters cannot be used in the result
  (`C66_negation`), nor one that is a time precision in one parameter and a length in another
  (`C66_negation_kind`).
* **C26** a sole aggregate implementation is not found by its name (`C26_negation_aggregate`); a name
  declared three times, or once alone and once with several implementations, is found
  (`C26_negation_thrice`, `C26_negation_mixed`).
* **C68** a parameter that is neither a value, a type nor an enumeration makes `Load` panic
  (`C68_negation_panic`).
* **C34** `Copy` of a relation without inputs returns the receiver, so `Remap` changes the relation it
  is called on (`C34_negation`).
* **C42** reading a plan does not check the names of a root that is a write or an undecoded extension
  (`C42_negation`).
* **C43** further relations are stored one slot too early: the first is lost behind the root, the last
  slot stays empty, and writing the plan panics (`C43_negation`, `C43_others_lost`).
* **C44** null is accepted for a required parameter (`C44_negation_null`), a parameter may be bound twice
  (`C44_negation_twice`), parameters in aggregates (and reads, hash and merge joins) are not found
  (`C44_negation_aggregate`), and reading a plan checks no bindings (`C44_negation_decode`).
* **C35** filters are checked against the direct schema of the input instead of its output columns
  (`C35_negation_filter`); mappings of writes and of create-table-as-select are checked against the
  input although the output is empty or the table schema (`C35_negation_write`,
  `C35_negation_ctas`); project accepts nil expressions (`C35_negation_project`).
* **C37** `RecordType.Concat` appends to the left slice: with spare capacity two relations share the
  slots behind it (`C37_negation_capacity`). An outer join whose right side is empty makes the left
  schema nullable in place (`C37_negation_outer`). interval_day columns are made nullable in place
  (`C37_negation_interval`, through C04).
* **C38** since comparison is not symmetric (C18), the list of grouping expressions can contain two
  of which the later equals the earlier (`C38_negation`).
* **C41** `Build` accepts expressions no grouping set refers to (`C41_negation_unused`) and nil
  measures (`C41_negation_measure`).
* **C50** a dialect that calls `add` `plus`, and `plus` something else, is accepted or refused depending on
  the map order (`C50_negation`); the order of all functions always depends on it
  (`C50_negation_order`).
* **C51** a function listed as aggregate and as window function makes the lookup of the aggregate
  invocation panic (`C51_negation`), as does an invocation of the wrong kind (`C51_negation_kind`).
* **C52** variations are lost (`C52_negation`); local names ending in `?` or with parameters of their own
  (`NUMBER(19)`) cannot be read back (`C52_negation_mark`, `C52_negation_paren`); neither can types with
  a time precision (`C52_negation_precision`); one Go type for year intervals comes back as the other
  (`C52_negation_year`).
* **C53** components beyond int32 are not rejected: 2^32+1 years is read as one year
  (`C53_reject_negation`).
* **C56** lowering the precision of an interval drops digits without an error (`C56_negation`).
* **C72** what `ToProto` writes cannot always be read back: a switch without else
  (`C72_negation_switch`), empty nested lists and maps (`C72_negation_empty`), a sort field without
  direction (`C72_negation_sort`); references into lambda parameters or outer queries come back
  without their type (`C72_negation_lambda`).

* **C45** an empty output mapping becomes no mapping when the plan goes through bytes, so all columns
  reappear (`C45_negation`, `C45_negation_empty`, `C45_negation_schema`).
* **C46** the output mode of a write is not written: the schema of every write read back panics
  (`C46_negation`, `C46_negation_mode`); updates are written but not read (`C46_negation_op`).
* **C47** only through C72: keys that refer to outer rows or lambda parameters lose their recorded
  type (`C47_negation`).
* **C48** the function is not applied to the values of a virtual table unless a filter changes
  (`C48_negation`, `C48_negation_virtual`), nor ever to the sort fields of aggregate functions
  (`C48_negation_sorts`) and join keys (`C48_negation_keys`); reads, extension leaves, sets and
  extensions with several inputs take any number of inputs (`C48_negation_inputs`); absent expressions
  are passed to the function as nil (`C48_negation_nil`).
* **C49** rows after the first may lack values (`C49_negation_short`); one value too many panics
  (`C49_negation`, `C49_negation_long`), as does a nil value (`C49_negation_nil`).
* **C74** through C46 and C72; the extension of an Iceberg table and one of its two snapshot kinds are
  lost (`C74_negation`, `C74_negation_iceberg`); grouping references without grouping expressions
  are emptied (`C74_negation_groupings`); an undefined path type loses its path
  (`C74_negation_path`).
* **C75** an aggregate function that is not in the collection is read without declaration, and its
  accessors panic (`C75_negation`, `C75_negation_unregistered`).
* **C76** through C74 and C43 (`C76_negation`).
* **C77** strings of types with a time precision and of nested types are refused (`C77_refused`,
  `C77_negation`).
* **C78** all interval_day types are one object whose nullability the next read overwrites
  (`C78_negation`).
* **C81** the upper limit of a variadic function is compared with the number of all arguments
  (`C81_negation`).
* **C82** functions with enum, type or nested parameters cannot be in a dialect (`C82_refused`,
  `C82_negation`).
* **C83** readers panic on time precisions outside 0 to 9 (`C83_negation_precision`), missing inputs
  (`C83_negation_input`), a missing common part of cross joins and others (`C83_negation_common`),
  output mappings out of range below another relation (`C83_negation_mapping`), empty list literals and
  negative timestamps inside lists (`C83_negation_literal`), measures without a function
  (`C83_negation_measure`), writes without output mode below another relation (`C83_negation_write`),
  calls of functions of strings, booleans, ... that the loaded extension does not have
  (`C83_negation_function`, see C90).
* **C84** types given as arguments are left out when the function is looked up (`C84_negation`).
* **C85** an overloaded implementation with an `any` parameter (`C85_negation_any`) or a variadic one
  called with another number of arguments (`C85_negation_variadic`) cannot be called by the function's
  name; a declaration with one implementation hides the others (`C85_negation_mixed`).
* **C86** calls of aggregate functions are built with any phase (`C86_negation`).
* **C87** a custom aggregate call has no declaration and its accessors panic (`C87_negation`).
* **C88** the parentheses around several function parameters (`C88_negation`) and around conditionals
  inside operators (`C88_negation_expression`) are not written; the first text is then refused, the second
  means something else.
* **C90** a declaration is made by parsing the parts of the signature as types, which fails for most short
  type names and then panics (`C90_negation_signature`); a name without signature comes back with a colon
  (`C90_negation_name`), and the new name may take the reference of another function of the plan
  (`C90_negation_other`). The set after reading is followed by `ExtSet.customCall`; the readers of C72 and
  C74 see one set throughout, so their theorems ask that made-up declarations keep their name.
* **C91** the grammar gives all binary operators one precedence (`C91_negation`); a return type
  `varchar<y>` with `y = 1 + 2 * 3` is `varchar<9>` (`C91_negation_value`).
* **C92** sizes are parsed as 64-bit numbers and converted to int32 (`C92_negation`): `varchar<4294967297>`
  is `varchar<1>`.
* **C93** `IsScalar` of a field reference is always true, also if the field is taken from the value of a window
  function (`C93_negation`). A timestamp before 1970 is read as nil (C73), on which it panics (`C93_negation_read`).
* **C73** A literal with a negative time or timestamp, a precision outside 0..9 or a malformed day part of a compound
  interval is read as nil without an error, so `ExprFromProto` returns a nil expression and no error for it, and trees
  that contain it have a nil part (`C73_literals`, `C73_negation`). An earlier version of the model kept such an
  expression apart from the nil expression (as a literal that is nil), which hid this; converting a nil `Literal` to an
  `Expression` or `FuncArg` gives nil in Go, and the model now says so (`Expr.ofLit`, `EArg.ofExpr`).
* **C94** the registry of an extended expression has no converter of subqueries, so one with a subquery is
  written but not read back (`C94_negation`); a function that is declared twice is written once, and calls of the
  other anchor cannot be read again (`C94_negation_twice`).
* **C95** the builder of scalar subqueries accepts relations that do not have one column; asking the result for
  its type panics (`C95_negation_scalar`). The builder of ANY and ALL does not look at the columns either
  (`C95_negation_comparison`).
* **C96** the fraction of a second is read through a float64: `PT1.000001S` is read as 999 nanoseconds
  (`C96_negation`; at most one nanosecond is lost below 2^24 seconds, `C96_fraction_partial`). Days or seconds
  that do not fit into an int32 wrap around, and `PT500MS` is accepted as 500 minutes
  (`C96_negation_refusal`).
* **C97** a time of less than a second is printed with Go's units `MS`, `ΜS` and `NS`, and is never read back
  (`C97_subsecond`, `C97_negation`); empty and negative intervals are printed as `P` (`C97_negation_empty`).
* **C98**: `WithType` of a fixed-length character or binary literal does not compare its length with the
  new type, that of a list does not look at its elements, and a struct literal asked to become a list does
  (`expr/literals.go:241-252,338-347,486-500`). An interval that uses the deprecated `microseconds` field
  loses its sub-seconds (747-772). A decimal drops the type variation (700-711).
* **C99** an integer outside its type is accepted modulo the size of the type, `300::i8` is 44
  (`C99_negation`); so are numbers in types, `fixedchar<4294967298>` is `fixedchar<2>`
  (`C99_negation_parameter`).
* **C100** `'abc'::fixedchar<2>` and `[true]::list<string>` are accepted (`C100_negation`,
  `C100_negation_list`); a null in a list of day-time intervals makes the element type nullable
  (`C100_negation_interval`).
* **C101** `[1, 2]::list<boolean>` is an empty list (`C101_negation`); `[[]]::list<list<i32>>` is refused
  and `[[]]::list<list<list<i32>>>` has an element of the wrong type (`C101_negation_empty`).
* **C102** doubled quotes in strings stay doubled, quotes at the ends are lost (`C102_negation`,
  `C102_negation_doubled`).
* **C103** cells beyond the last column of a table are dropped (`C103_negation`); literals other than
  numbers, strings and nulls keep their own type in tables (`C103_negation_type`); in compact calls a
  column that no argument names has strings and a nil type (`C103_negation_unnamed`), or with a null the
  file is refused (`C103_negation_refused`), and of two types for a column the last counts
  (`C103_negation_conflict`); numbers in a single column of booleans vanish (`C103_negation_lost`).
* **C104** the schema for the references is in the order of the arguments while references count columns:
  `f(t1.col1, t1.col0)` gets the types swapped (`C104_negation`), `f(col1::i32)` is refused for every
  collection (`C104_negation_refused`); indexes wrap at 32 bits (`C104_negation_wraps`).
* **C106** a group without a description makes the file unreadable although the grammar has it optional
  (`C106_negation`).
* **C107** digits finer than the precision are dropped without an error (`'…00.5'::pts<0>`, `C107_negation`), and instants
  outside the int64 range of nanoseconds wrap around for precisions 7 to 9 (`C107_negation_range`).
* **C108** printed arguments that are not read as the same argument: `'PT0S'::interval_day` prints `'P'`
  (`C108_negation`), parts of a second print as `'PT500MS'` (`C108_negation_subsecond`), a precision over 9 makes printing
  panic (`C108_negation_panic`), timestamps with a time zone print without one (`C108_negation_timestamp_tz`, `C108_negation_prec_tz`), decimals of scale 38
  print a zero before the point and are refused as too long (`C108_negation_decimal`), strings that
  look like dates print as date tokens (`C108_negation_string`), fixed binaries print in hexadecimal but are read as plain
  bytes (`C108_negation_binary`), strings in lists print without quotes (`C108_negation_list`).
* **C109** a nil expression given as an argument is not counted when the function is resolved: a call with too many arguments
  is built (`C109_negation`), and writing it panics (`C109_negation_panics`); the type of references to lambda parameters is
  not read back (`C109_negation_lambda`); in an extension set with gaps, building a call of another function can take over
  the reference of a function in use, whose calls are then read as calls of the other (`C109_negation_sparse`).
* C111: passing a plan on may panic or lose something although it was read: interval_compound types
  (`C111_negation_type`), literals with a negative time or a bad precision, which are read as nil
  (`C111_negation_literal`), the precision of an all-zero compound interval (`C111_negation_compound`), the
  output mode of a write (`C111_negation_mode`).
* C112: a plan with further relations besides its root cannot be written (`C112_negation`, as C43); one whose root is
  a write to a table is read back without its output mode, and then has no columns (`C112_negation_write`).
* C113: `UserDefinedType` and `GetFunctionRef` of the plan builder (`plan/builders.go:230-241`) hand out references
  for extensions the builder's collection does not have; the plan is written, but reading it with the same collection
  fails (`C113_negation`).
* C114: `AddRollup` and `AddGroupingSet` (and `SetGroupingReferences`) keep the caller's slice of
  references, so filling the slice again for the next grouping set changes the sets added before
  (`plan/builders.go:878-888`); `AddCube` copies. `ToBuilder` (`plan/relations.go:1226-1237`) drops the
  output mapping, the hint and the extensions of the aggregate, so that rebuilding a remapped aggregate
  changes its output columns.
* C115: declarations made with `NewScalarFuncVariant`, `NewAggFuncVariant` and `NewWindowFuncVariant` ("uses the
  defaults for everything else") are not deterministic and have no nullability handling; because of the latter
  `Match` and `MatchAt` accept no argument at all (they return an error), also for those made with options.
  `ResolveURN` leaves out the defaults for decomposability and window type that `GetVariants` fills in. A `MaxSet`
  option of 2^63 or more becomes negative.
* C116: `IsValidArgumentPosition` (`extensions/simple_extension.go:227-229`) compares the position in the whole call with the maximum number of variadic arguments. With one parameter and a maximum of 1 `MatchAt` accepts position 1, with three it refuses position 2; `MatchAt` on a variadic function without parameters panics (`extensions/variants.go:225`).
* C62: an integer variable that is a length in one parameter and the precision of a timestamp in another is bound to values of different Go types (`int64` and `TimePrecision`), so the comparison at `types/type_derivation.go:322` never succeeds.
* C117: `literal.NewDate` converts an `int` to `int32` without a check: day 4294967296 becomes day 0. `NewUUIDFromBytes` accepts any number of bytes, `NewDecimalFromTwosComplement` does not compare the value with the precision, `NewPrecisionTime`/`NewPrecisionTimestamp` accept any precision (the literal is then read back as nil) and times of 24 hours and more. `NewPrecisionTimeFromTime` takes the time of day in UTC while `NewTimeFromString` takes it in the zone written, so the same text gives two different times of day. `GetTimeValueByPrecision` truncates toward zero for the precisions 1, 2, 4, 5, 7 and 8 and downward for the others, so instants before 1970 are rounded in different directions.
* C118: `FuncParameterList.UnmarshalYAML` asserts the kinds of YAML values without checking: `name: 5`, `options: [1]`, `constant: "yes"` and `value:` make loading panic instead of returning an error. An entry with none of `options`, `value` and `type` (for example a misspelt key) is left as a nil argument, and loading the file then panics when the compound name is made.
* C119: the record type of a read ignores its projection mask (`plan/relations.go:94-96`); a hash or merge join always has the columns of both inputs, whatever its type (2028-2030, 2145-2147); a set relation has the columns of its first input even if a union has a nullable column in another one (1508; the builder demands equal types, decoding does not); an aggregate has one column per reference of each grouping set, so that an expression in two sets appears twice, none is made nullable and the number of the grouping set is missing (1137-1151).
* C120: the stated type overlooks null in several places. Or-lists (`expr/expression.go:1027-1029,1146-1148`), IN predicates and set comparisons (`plan/subquery.go:184-186,422-424`) always state the required boolean although comparing with null gives null; a cast states its target type even if its input is nullable or its failure behaviour is to return null (`expr/expression.go:642-644`); a scalar subquery states the type of its column although it is null when there are no rows (`plan/subquery.go:97-104`); list and map expressions state the type of their first element and their constructor compares no types (1299-1309, 1499-1504, 1544-1553); a reference states the type of the field even if a struct around it is nullable (`expr/field_reference.go:752-754`). That comparisons with null give null and an empty scalar subquery null is taken from the Substrait specification (SQL), not from the library.
* C121: rows do not fit the stated record type in these cases: a left, right or outer hash or merge join over a required column (nulls filled in, `plan/relations.go:2028-2030`, `C121_negation_hash`); a union whose later input is nullable (1508, `C121_negation_union`); several grouping sets (1137-1151, `C121_negation_grouping`); a read with a projection mask (94-96, `C121_negation_mask`); a virtual table with a short row, accepted by the builder (`plan/builders.go:599-606`, `C121_negation_virtual`); `CreateTableAsSelect` with a schema that does not admit the rows of the input, accepted by the builder (338-358, `C121_negation_ctas`); undecoded extensions, which are said to put out the rows of their input (`plan/relations.go:1590-1601`, `C121_negation_undecoded`).
* C122: where the record type is wrong (C121) `Remap` is too: an anti hash join has the columns of its left input but states those of both (`plan/relations.go:2028-2030`), so `Remap(0, 1)` is taken for the identity (194-195) and returns rows of one column (`C122_negation`).
* **C124** partitions and sort fields of window functions and roots of field references are not rewritten
  (`C124_negation_window`); rewriting the options of a multi-or-list whose values stay panics
  (`C124_negation_multiOr`).
* **C126** nothing can be built from a type variable (`C126_negation_any`), the parameters of a function type
  are each given to all of its parts (`C126_negation_func`), a user-defined type loses its reference
  (`C126_negation_user`).
* **C127** the names of user-defined types may have underscores, which also separate the parts of a signature:
  of `f(u!a_i32)` and `f(u!a, i32)` only the one declared last is found (`C127_negation`).
* **C128** the rule for `/* */` admits one character only (`C128_negation_block`); the lexer has no error listener
  of the library, so characters outside the grammar are skipped and `i32@` is read as `i32`
  (`C128_negation_characters`).
* C129: `f(list<varchar<L>>) -> varchar<L>` is accepted by `Match` but `ResolveType` fails, because lengths inside a list are not bound (`C129_negation`, same cause as `C66_negation`). `f(varchar<L1>, varchar<L2>...) -> varchar<L1>` with a minimum of 0 accepts a call with one argument, for which `ResolveType` panics: the names of the missing argument are looked up (`C129_negation_variadic`).
* **C130** `TestCase.String` ranges over the map of options, so with two options the text depends on chance
  (nodes.go:227-240, `C130_negation`); `f((1, null)::i8)` prints as `f((1, null)::i8?)`, which makes the `1` nullable
  (nodes.go:83-92, `C130_negation_column`); a named table prints without its name (nodes.go:165-225, `C130_negation_table`).
* **C131** `String` prints every user-defined type as `user_defined_type`, without reference, arguments and nullability, no
  type variations, and unspecified nullability like required (types.go:1678-1680, `C131_negation`, `C131_negation_variation`,
  `C131_negation_unspecified`).
* **C133** `Copy` of a read or an extension leaf ignores the inputs it is given (`C133_negation`); a set
  operation is copied without inputs, and its `RecordType` then panics (`C133_negation_set`).
* **C134** the extension set on a read of files is not written as the one of the relation but as that of the
  list of files (`C134_negation`); an extension set on a copy of a leaf is set on the leaf
  (`C134_negation_copy`).
* C135: equal expressions are not always written as the same message. `Equals` compares neither the bounds type of window functions (`expr/functions.go:641-671`) nor the sign of float zeros (`expr/literals.go:227`) nor further arguments of the other call (`expr/functions.go:426-430`), and references to one column are equal although they record different types (`expr/field_reference.go:696-750`).
- C136: `'1991-07-23'::string` is refused in a test file, because the lexer takes the text for a date (the same for times, timestamps and intervals); no test can have a string argument of that form.
- C103: a value that is no interval is accepted in a column of intervals, and whether it is nullable depends on which side of the first null it stands (`C103_negation_order`).
- C117: the constructors from a `time.Time` panic for precisions outside 0 to 9 instead of returning an error (`C117_negation_panics`).
- C137: no dialect can find a call with an enumeration value among its arguments (as `extract(YEAR, x)`): the lookup asks for the local name of its type, `req`, which a dialect file cannot list. `GetArgTypes` of a call with a type as an argument has more types than its declaration was resolved with.
* C138: the string key `a)].[string(b` gives the same text as the keys `a` and `b` in a row (`C138_negation`). `FieldReference.String` panics for references by a mask, which `FieldReferenceFromProto` reads from plans (`C138_negation_mask`).
* C139: not everything that `ExprFromProto` returns can be printed. A reference by a mask panics in `String`, and with it a list or call that contains it, while a cast of it is printed with a note of `fmt` in its place (`C139_negation`); decimals of fewer than 16 bytes (`C139_negation_decimal`) and literals that are read as nil (`C139_negation_nil`) panic too.
* C140: `AggregateFunction.String` leaves out options, sort fields, phase and invocation, which `ScalarFunction` and `WindowFunction` show, so that `count` of all and of distinct values have the same text (`C140_negation`).

## Not modelled

* Texts of errors and of `String()` methods unless a property is about them.
* YAML parsing: the decoded data structures are the starting point. Extension files enter with their type
  texts already parsed; `ParseType` itself is modelled for C88 and C89.
* Concurrency: every function is modelled as running alone.
* Visitors that modify the expressions they are given: C16 and C17 are about visitors that do not use the
  expression heap, C124 and C125 about visitors that read it and allocate (`HVisitor.Does` requires existing
  cells to stay).
* `NewSwitch`'s in-place change of `interval_day` types is followed into all result expressions
  (`Expr.touch`) but nested switches and scalar subqueries. A field reference without known type
  makes `Expr.getType` panic at once; in Go it returns nil and the first use panics.
* Builders of one tree belong to one `ExprBuilder`; function resolution inside builders is a parameter;
  relations inside subqueries are opaque (`Model/Lambda.lean`, `Model/ExprProto.lean`); in
  `Model/ExprProto.lean` the masks of field references are opaque too.
* Pointer identity, except where a definition models it explicitly and says so.
