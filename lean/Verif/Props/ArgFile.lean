import Verif.Spec.ArgFile
import Verif.Props.TypeText
import Mathlib.Data.List.Forall2
/-!
# Property C118: arguments of functions in extension files
-/

namespace Verif

/-- **C118 (full statement, false).** Entries of `args` are read as the arguments they declare, or
refused; reading never panics. -/
def C118_statement : Prop :=
  ∀ ms : List YamlMap, readArgs ms ≠ .panic ∧
    ∀ gs, readArgs ms = .ok gs → ∃ ds : List ArgDecl,
      List.Forall₂ ArgDecl.WrittenAs ds ms ∧ List.Forall₂ ArgDecl.Is ds gs

theorem mapL_asString (os : List String) : Res.mapL Yaml.asString (os.map .text) = .ok os := by
  induction os with
  | nil => rfl
  | cons o os ih => simp [Yaml.asString, ih]

theorem string_of {m : YamlMap} {key : String} {n : Option String} (h : m.get key = n.map .text) :
    m.string key = .ok (n.getD "") := by
  unfold YamlMap.string
  rw [h]
  cases n <;> rfl

theorem readArg_written {d : ArgDecl} {m : YamlMap} (h : d.WrittenAs m) :
    (∃ g, readArg m = .ok g ∧ d.Is g) ∨
    (readArg m = .err ∧ ∃ s, d.text = some s ∧ parseType s = .err) := by
  cases d with
  | enum n d os =>
    obtain ⟨h1, h2, h3⟩ := h
    refine Or.inl ⟨_, ?_, rfl⟩
    simp only [readArg, string_of h1, string_of h2, h3, Yaml.asStrings, mapL_asString, Res.ok_bind]
  | value n d s c =>
    obtain ⟨h1, h2, h3, h4, h5⟩ := h
    have e : readArg m = (parseType s >>= fun t => .ok (.value (n.getD "") (d.getD "") t (c.getD false))) := by
      cases c <;>
        simp only [readArg, string_of h1, string_of h2, h3, h4, h5, Option.map_none, Option.map_some,
          Yaml.asBool, readArgType, readTypeExpression, Res.ok_bind, Option.getD]
    rw [e]
    cases hp : parseType s with
    | ok t => exact Or.inl ⟨_, rfl, t, hp, rfl⟩
    | err => exact Or.inr ⟨rfl, s, rfl, hp⟩
    | panic => exact absurd hp (C89_no_panic s)
  | type n d s =>
    obtain ⟨h1, h2, h3, h4, h5⟩ := h
    have e : readArg m = (parseType s >>= fun t => .ok (.type (n.getD "") (d.getD "") t)) := by
      simp only [readArg, string_of h1, string_of h2, h3, h4, h5, readArgType, readTypeExpression,
        Res.ok_bind]
    rw [e]
    cases hp : parseType s with
    | ok t => exact Or.inl ⟨_, rfl, t, hp, rfl⟩
    | err => exact Or.inr ⟨rfl, s, rfl, hp⟩
    | panic => exact absurd hp (C89_no_panic s)

/-- **C118 (declared arguments).** Entries that are written as the format has it are read as exactly
the arguments declared, in order, provided the texts of all their types are types; otherwise they are
refused. Nothing else happens. -/
theorem C118_read (ds : List ArgDecl) (ms : List YamlMap) (h : List.Forall₂ ArgDecl.WrittenAs ds ms) :
    (∃ gs, readArgs ms = .ok gs ∧ List.Forall₂ ArgDecl.Is ds gs) ∨
    (readArgs ms = .err ∧ ∃ d ∈ ds, ∃ s, d.text = some s ∧ parseType s = .err) := by
  induction h with
  | nil => exact Or.inl ⟨[], rfl, .nil⟩
  | @cons d m ds ms hd _ ih =>
    simp only [readArgs, Res.mapL] at ih ⊢
    rcases readArg_written hd with ⟨g, e, hg⟩ | ⟨e, s, hs⟩
    · rw [e, Res.ok_bind]
      rcases ih with ⟨gs, e', hgs⟩ | ⟨e', d', hd', hs⟩
      · rw [e']
        exact Or.inl ⟨g :: gs, rfl, .cons hg hgs⟩
      · rw [e']
        exact Or.inr ⟨rfl, d', List.mem_cons_of_mem _ hd', hs⟩
    · rw [e]
      exact Or.inr ⟨rfl, d, List.mem_cons_self .., s, hs⟩

theorem C118_accepted (ds : List ArgDecl) (ms : List YamlMap)
    (h : List.Forall₂ ArgDecl.WrittenAs ds ms)
    (hp : ∀ d ∈ ds, ∀ s, d.text = some s → ∃ t, parseType s = .ok t) :
    ∃ gs, readArgs ms = .ok gs ∧ List.Forall₂ ArgDecl.Is ds gs := by
  rcases C118_read ds ms h with h | ⟨-, d, hd, s, hs, he⟩
  · exact h
  · obtain ⟨t, ht⟩ := hp d hd s hs
    rw [ht] at he
    cases he

theorem string_ok {m : YamlMap} {key s : String} (h : m.string key = .ok s) :
    ∃ n : Option String, m.get key = n.map .text ∧ s = n.getD "" := by
  unfold YamlMap.string at h
  split at h
  · rename_i v hv
    cases v <;> simp only [Yaml.asString, Res.ok.injEq, reduceCtorEq] at h
    subst h
    exact ⟨some _, hv, rfl⟩
  · rename_i hv
    cases h
    exact ⟨none, hv, rfl⟩

theorem mapL_strings : ∀ (vs : List Yaml) (os : List String), Res.mapL Yaml.asString vs = .ok os →
    vs = os.map .text
  | [], os, h => by cases h; rfl
  | v :: vs, os, h => by
    simp only [Res.mapL, Res.bind_eq_ok] at h
    obtain ⟨o, h1, os', h2, h3⟩ := h
    cases h3
    cases v <;> simp only [Yaml.asString, Res.ok.injEq, reduceCtorEq] at h1
    subst h1
    rw [mapL_strings vs os' h2]
    rfl

theorem readArgType_ok {v : Yaml} {t : FTy} (h : readArgType v = .ok t) :
    ∃ s, v = .text s ∧ parseType s = .ok t := by
  cases v <;> simp only [readArgType, readTypeExpression, reduceCtorEq] at h
  exact ⟨_, rfl, h⟩

theorem readArg_ok {m : YamlMap} {g : GoArg} (h : readArg m = .ok g) :
    (∃ d : ArgDecl, d.WrittenAs m ∧ d.Is g) ∨
    (g = .missing ∧ m.get "options" = none ∧ m.get "value" = none ∧ m.get "type" = none) := by
  simp only [readArg, Res.bind_eq_ok] at h
  obtain ⟨name, h1, desc, h2, h⟩ := h
  obtain ⟨n, hn, rfl⟩ := string_ok h1
  obtain ⟨d, hd, rfl⟩ := string_ok h2
  split at h
  · rename_i opt ho
    cases opt <;> simp only [Yaml.asStrings, Res.panic_bind, reduceCtorEq] at h
    simp only [Res.bind_eq_ok] at h
    obtain ⟨os, h3, h4⟩ := h
    cases h4
    rw [mapL_strings _ _ h3] at ho
    exact Or.inl ⟨.enum n d os, ⟨hn, hd, ho⟩, rfl⟩
  · rename_i ho
    split at h
    · rename_i val hv
      simp only [Res.bind_eq_ok] at h
      obtain ⟨c, h3, t, h4, h5⟩ := h
      cases h5
      obtain ⟨s, rfl, hs⟩ := readArgType_ok h4
      split at h3
      · rename_i cv hc
        cases cv <;> simp only [Yaml.asBool, Res.ok.injEq, reduceCtorEq] at h3
        subst h3
        exact Or.inl ⟨.value n d s (some _), ⟨hn, hd, ho, hv, hc⟩, t, hs, rfl⟩
      · rename_i hc
        cases h3
        exact Or.inl ⟨.value n d s none, ⟨hn, hd, ho, hv, hc⟩, t, hs, rfl⟩
    · rename_i hv
      split at h
      · rename_i typ ht
        simp only [Res.bind_eq_ok] at h
        obtain ⟨t, h4, h5⟩ := h
        cases h5
        obtain ⟨s, rfl, hs⟩ := readArgType_ok h4
        exact Or.inl ⟨.type n d s, ⟨hn, hd, ho, hv, ht⟩, t, hs, rfl⟩
      · rename_i ht
        cases h
        exact Or.inr ⟨rfl, ho, hv, ht⟩

/-- **C118 (what is read was written, partial).** Every argument read is the one its entry declares.
Missing: an entry with none of the keys `options`, `value` and `type` is read as a nil argument
(`C118_negation_nil`). -/
theorem C118_only_partial (ms : List YamlMap) (gs : List GoArg) (h : readArgs ms = .ok gs) :
    List.Forall₂ (fun m g =>
      (∃ d : ArgDecl, d.WrittenAs m ∧ d.Is g) ∨
      (g = .missing ∧ m.get "options" = none ∧ m.get "value" = none ∧ m.get "type" = none)) ms gs := by
  induction ms generalizing gs with
  | nil => cases h; exact .nil
  | cons m ms ih =>
    simp only [readArgs, Res.mapL, Res.bind_eq_ok] at h
    obtain ⟨g, h1, gs', h2, h3⟩ := h
    cases h3
    exact .cons (readArg_ok h1) (ih gs' h2)

/-- **C118 (names).** The arguments declared give the compound name of the function: its parts are
`req` for enumerations, `type` for types and the short names of the types of values. -/
theorem C118_signature (ds : List ArgDecl) (gs : List GoArg) (h : List.Forall₂ ArgDecl.Is ds gs) :
    ∃ parts, List.Forall₂ ArgDecl.NamePart ds parts ∧
      signatureKey (gs.map GoArg.param) = .ok ("_".intercalate parts) := by
  have key : ∃ parts, List.Forall₂ ArgDecl.NamePart ds parts ∧
      Res.mapL FuncParam.toTypeString (gs.map GoArg.param) = .ok parts := by
    induction h with
    | nil => exact ⟨[], .nil, rfl⟩
    | @cons d g ds gs hd _ ih =>
      obtain ⟨parts, hp, e⟩ := ih
      cases d with
      | enum n d os => cases hd; exact ⟨"req" :: parts, .cons rfl hp, by simp [GoArg.param, FuncParam.toTypeString, e]⟩
      | value n d s c =>
        obtain ⟨t, ht, rfl⟩ := hd
        exact ⟨t.shortString :: parts, .cons ⟨t, ht, rfl⟩ hp, by simp [GoArg.param, FuncParam.toTypeString, e]⟩
      | type n d s =>
        obtain ⟨t, ht, rfl⟩ := hd
        exact ⟨"type" :: parts, .cons rfl hp, by simp [GoArg.param, FuncParam.toTypeString, e]⟩
  obtain ⟨parts, hp, e⟩ := key
  exact ⟨parts, hp, by simp only [signatureKey, e, Res.ok_bind]⟩

/-! ## Writing and reading -/

theorem get_omit (key k s : String) (rest : YamlMap) :
    YamlMap.get (omitEmpty key s ++ rest) k =
      if k = key ∧ s ≠ "" then some (.text s) else YamlMap.get rest k := by
  unfold omitEmpty YamlMap.get
  split
  · rename_i h; simp [h]
  · rename_i h
    by_cases hk : k = key
    · subst hk; simp [h]
    · have : (k == key) = false := by simpa using hk
      simp [List.lookup, this, hk]

theorem optional (s : String) : ∃ n : Option String,
    (if s ≠ "" then some (Yaml.text s) else none) = n.map .text ∧ n.getD "" = s := by
  by_cases h : s = ""
  · exact ⟨none, by simp [h], by simp [h]⟩
  · exact ⟨some s, by simp [h], rfl⟩

/-- The argument can be written: it is there, and the text of its type reads back (see C88). -/
def GoArg.Readable : GoArg → Prop
  | .enum .. => True
  | .value _ _ t _ => ReadableReturn t
  | .type _ _ t => ReadableReturn t
  | .missing => False

/-- **C118 (round trip, partial).** Arguments that are written to an extension file are read as the
same arguments, with their names, descriptions, options and types. Missing: types whose text does not
read back, see C88. -/
theorem C118_roundtrip_partial (gs : List GoArg) (h : ∀ g ∈ gs, g.Readable) :
    readArgs (gs.map GoArg.write) = .ok gs := by
  induction gs with
  | nil => rfl
  | cons g gs ih =>
    have e : readArg g.write = .ok g := by
      have hg := h g (List.mem_cons_self ..)
      cases g with
      | missing => exact hg.elim
      | enum name desc options =>
        obtain ⟨n, hn, en⟩ := optional name
        obtain ⟨d, hd, ed⟩ := optional desc
        have w : (ArgDecl.enum n d options).WrittenAs (GoArg.enum name desc options).write := by
          simp only [GoArg.write, List.append_assoc, ArgDecl.WrittenAs, get_omit, ← hn, ← hd]
          simp [YamlMap.get, List.lookup]
        rcases readArg_written w with ⟨g', e, hi⟩ | ⟨-, s, hs, -⟩
        · rw [e, hi, en, ed]
        · cases hs
      | value name desc t constant =>
        obtain ⟨n, hn, en⟩ := optional name
        obtain ⟨d, hd, ed⟩ := optional desc
        have w : (ArgDecl.value n d t.string (if constant then some true else none)).WrittenAs
            (GoArg.value name desc t constant).write := by
          cases constant <;>
            simp only [GoArg.write, List.append_assoc, ArgDecl.WrittenAs, get_omit, ← hn, ← hd] <;>
            simp [YamlMap.get, List.lookup]
        have hp := C88_written_partial t hg
        rcases readArg_written w with ⟨g', e, t', ht, rfl⟩ | ⟨-, s, hs, he⟩
        · rw [hp] at ht
          cases ht
          rw [e, en, ed]
          cases constant <;> rfl
        · cases hs
          rw [hp] at he
          cases he
      | type name desc t =>
        obtain ⟨n, hn, en⟩ := optional name
        obtain ⟨d, hd, ed⟩ := optional desc
        have w : (ArgDecl.type n d t.string).WrittenAs (GoArg.type name desc t).write := by
          simp only [GoArg.write, List.append_assoc, ArgDecl.WrittenAs, get_omit, ← hn, ← hd]
          simp [YamlMap.get, List.lookup]
        have hp := C88_written_partial t hg
        rcases readArg_written w with ⟨g', e, t', ht, rfl⟩ | ⟨-, s, hs, he⟩
        · rw [hp] at ht
          cases ht
          rw [e, en, ed]
        · cases hs
          rw [hp] at he
          cases he
    simp only [readArgs, List.map_cons, Res.mapL, e, Res.ok_bind] at ih ⊢
    rw [ih (fun g hg => h g (List.mem_cons_of_mem _ hg))]
    rfl

/-! ## Cases -/

/-- entries for an enumeration, a value and a type -/
def someEntries : List YamlMap :=
  [[("name", .text "rounding"), ("options", .seq [.text "UP", .text "DOWN"])],
   [("value", .text "list?<any1>"), ("constant", .bool true), ("description", .text "the values")],
   [("type", .text "i32"), ("title", .number 3)]]

/-- what they declare -/
def someDecls : List ArgDecl :=
  [.enum (some "rounding") none ["UP", "DOWN"], .value none (some "the values") "list?<any1>" (some true),
   .type none none "i32"]

theorem someEntries_written : List.Forall₂ ArgDecl.WrittenAs someDecls someEntries :=
  .cons ⟨rfl, rfl, rfl⟩ (.cons ⟨rfl, rfl, rfl, rfl, rfl⟩ (.cons ⟨rfl, rfl, rfl, rfl, rfl⟩ .nil))

/-- The hypotheses are met, and the function is called `f:req_list_type`. -/
example : ∃ gs, readArgs someEntries = .ok gs ∧ List.Forall₂ ArgDecl.Is someDecls gs ∧
    signatureKey (gs.map GoArg.param) = .ok "req_list_type" := by
  have hp : ∀ d ∈ someDecls, ∀ s, d.text = some s → ∃ t, parseType s = .ok t := by
    intro d hd s hs
    simp only [someDecls, List.mem_cons, List.not_mem_nil, or_false] at hd
    rcases hd with rfl | rfl | rfl
    · cases hs
    · cases hs; exact ⟨_, rfl⟩
    · cases hs; exact ⟨_, rfl⟩
  obtain ⟨gs, h1, h2⟩ := C118_accepted _ _ someEntries_written hp
  refine ⟨gs, h1, h2, ?_⟩
  obtain ⟨parts, h3, h4⟩ := C118_signature _ _ h2
  rw [h4]
  cases h3 with
  | cons a h3 => cases h3 with
    | cons b h3 => cases h3 with
      | cons c h3 =>
        cases h3
        obtain ⟨t, ht, rfl⟩ := b
        have : parseType "list?<any1>" = .ok (.list 1 (.any 2 "any1")) := rfl
        rw [this] at ht
        cases ht
        cases a
        cases c
        decide +kernel

/-- A text that is no type is refused. -/
example : readArgs [[("value", .text "i33<")]] = .err := rfl

/-- Readable arguments for the round trip. -/
example : ∀ g ∈ [GoArg.enum "x" "" ["A"], .value "" "d" (.prim .i64 1 0) false], g.Readable := by
  intro g hg
  simp only [List.mem_cons, List.not_mem_nil, or_false] at hg
  rcases hg with rfl | rfl
  · trivial
  · exact .type _ (.prim _ _ (.inl rfl))

/-- **C118 is false of the code**: a name that is not a text, such as `name: 5` or `name: true`, makes
reading panic; so do options that are no texts (`options: [1, 2]`), a `constant` that is no boolean and
a value without type (`value:`). -/
theorem C118_negation_panic :
    readArgs [[("name", .number 5), ("value", .text "i32")]] = .panic ∧
    readArgs [[("options", .seq [.number 1, .number 2])]] = .panic ∧
    readArgs [[("value", .text "i32"), ("constant", .text "yes")]] = .panic ∧
    readArgs [[("value", .null)]] = .panic := ⟨rfl, rfl, rfl, rfl⟩

theorem C118_negation : ¬ C118_statement := fun h => (h _).1 C118_negation_panic.1

/-- An entry without type, or with a misspelt key, is not refused: it becomes a nil argument. -/
theorem C118_negation_nil : readArgs [[("name", .text "x"), ("vaule", .text "i32")]] = .ok [.missing] :=
  rfl

/-- A file with a function that has such an argument. -/
def misspelt : RawFile where
  urn := "extension:acme:misspelt"
  dependencies := []
  metadata := none
  types := []
  variations := []
  scalars := [⟨"f", "", [⟨[GoArg.missing.param], some (.prim .i32 2 0), none, none, none, none, none, 0, none, none,
    none, none⟩]⟩]
  aggregates := []
  windows := []

/-- Loading the file panics. -/
theorem C118_negation_load : (Collection.zero.load (some misspelt.file)).2 = .panic := rfl

end Verif
