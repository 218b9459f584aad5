import Verif.Lemmas.LocalTypes
import Verif.Spec.Types
/-!
# Type names: local names (C52), type strings (C77), shared type objects (C78)
-/

namespace Verif

/-- a dialect with an integer, a decimal, a fixed-length type and an interval -/
def exSupported : List (String × String × Bool) :=
  [("i32", "INT", true), ("dec", "NUMBER", true), ("fixedchar", "CHAR", false),
   ("interval_day", "INTERVAL DAY", true), ("interval_year", "INTERVAL YEAR", true)]

/-! ## C52 -/

/-- Which lists of supported types are accepted. -/
theorem C52_accepts (supported : List (String × String × Bool)) :
    (∃ r, localizeTypes supported = .ok r) ↔ ∀ e ∈ supported, e.1 ∈ knownTypeNames := by
  rw [← localizeTypes_total]
  exact forall_congr' fun e => forall_congr' fun _ => known_iff e.1

example : ∃ r, localizeTypes exSupported = .ok r := ⟨_, rfl⟩
example : localizeTypes [("i33", "INT", true)] = .err := rfl

/-- Which types have a local name. -/
theorem C52_mapped {supported : List (String × String × Bool)} {r : LocalTypes}
    (hr : localizeTypes supported = .ok r) {t : Ty} (ht : t.IsPlain) :
    (∃ s, r.toLocal t = .ok s) ↔ ∃ e ∈ supported, e.1 ∈ t.spellings := by
  unfold LocalTypes.toLocal
  constructor
  · rintro ⟨s, hs⟩
    cases hi : r.infos.get t.shortString with
    | none => rw [hi] at hs; cases hs
    | some ti =>
      obtain ⟨e, he, hsp, -⟩ := infos_of_plain hr ht hi
      exact ⟨e, he, hsp⟩
  · rintro ⟨e, he, hs⟩
    obtain ⟨ti, hi⟩ := infos_of_spelled hr ht he hs
    exact ⟨_, by rw [hi]⟩

/-- The local name is the one listed for the type, with the parameters in parentheses; and the type
may be a column exactly when that entry says so. -/
theorem C52_written {supported : List (String × String × Bool)} {r : LocalTypes}
    (hr : localizeTypes supported = .ok r) {t : Ty} (ht : t.IsPlain) {s : String}
    (hs : r.toLocal t = .ok s) :
    ∃ e ∈ supported, e.1 ∈ t.spellings ∧ s = e.2.1 ++ enclose "(" ")" t.writtenParams ∧
      r.supportedInTables t = e.2.2 := by
  unfold LocalTypes.toLocal at hs
  cases hi : r.infos.get t.shortString with
  | none => rw [hi] at hs; cases hs
  | some ti =>
    rw [hi] at hs
    obtain ⟨e, he, hsp, hl, hc, -⟩ := infos_of_plain hr ht hi
    cases hs
    exact ⟨e, he, hsp, by rw [localString_eq ti t ht, hl], by simp only [LocalTypes.supportedInTables, hi, hc]⟩

example : ∃ r, localizeTypes exSupported = .ok r ∧
    r.toLocal (.decimal 1 0 (-2) 38) = .ok "NUMBER(38,-2)" ∧ r.toLocal (.prim .i32 2 0) = .ok "INT" ∧
    r.toLocal (.fixed .fixedChar 2 0 7) = .ok "CHAR(7)" ∧ r.toLocal (.prim .i64 2 0) = .err ∧
    r.supportedInTables (.fixed .fixedChar 2 0 7) = false :=
  ⟨_, rfl, by decide +kernel, rfl, by decide +kernel, rfl, rfl⟩

/-- Translating to the local name and back returns the type: required, and without variation.

Missing from the full statement: type variations (lost, see `C52_negation`), and local names that end
in `?` or contain an opening parenthesis (`C52_negation_mark`, `C52_negation_paren`). -/
theorem C52_roundtrip_partial {supported : List (String × String × Bool)} {r : LocalTypes}
    (hr : localizeTypes supported = .ok r) (hd : (supported.map fun e => e.2.1).Nodup)
    {t : Ty} (ht : t.IsPlain) (hg : ∀ e ∈ supported, e.1 ∈ t.spellings → GoodLocalName t e.2.1)
    {s : String} (hs : r.toLocal t = .ok s) :
    r.fromLocal s = .ok (t.bare NullabilityRequired) := by
  unfold LocalTypes.toLocal at hs
  cases hi : r.infos.get t.shortString with
  | none => rw [hi] at hs; cases hs
  | some ti =>
    rw [hi] at hs
    obtain ⟨e, he, hsp, hl, -, -, hb⟩ := infos_of_plain hr ht hi
    obtain ⟨h1, h2, h3⟩ := hg e he hsp
    cases hs
    rw [localString_eq ti t ht, hl]
    exact (read_written '(' ')' _ _ t ht h1 h2 h3).1 (hb hd)

/-- Likewise with a `?` behind the name: the nullable type. -/
theorem C52_roundtrip_nullable_partial {supported : List (String × String × Bool)} {r : LocalTypes}
    (hr : localizeTypes supported = .ok r) (hd : (supported.map fun e => e.2.1).Nodup)
    {t : Ty} (ht : t.IsPlain) {e : String × String × Bool} (he : e ∈ supported) (hsp : e.1 ∈ t.spellings)
    (hg : t.writtenParams ≠ none → '(' ∉ e.2.1.toList) :
    r.fromLocal (e.2.1 ++ "?" ++ enclose "(" ")" t.writtenParams) = .ok (t.bare NullabilityNullable) := by
  refine (read_written_nullable '(' ')' _ _ t ht (by decide) (by decide) hg).1 ?_
  obtain ⟨infos, rfl, hf⟩ := localizeTypes_ok hr
  obtain ⟨ti, hm, hn, hl, -⟩ := forall₂_mem_left hf he
  rw [← localNames_eq hf] at hd
  rw [← hl, spelled ht hsp] at *
  rw [Option.some.inj hn]
  exact foldl_locals infos _ ti hd (.inl hm)

example : ∃ r, localizeTypes exSupported = .ok r ∧ (exSupported.map fun e => e.2.1).Nodup ∧
    (∀ e ∈ exSupported, e.1 ∈ Ty.spellings (.decimal 1 0 (-2) 38) → GoodLocalName (.decimal 1 0 (-2) 38) e.2.1) ∧
    r.fromLocal "NUMBER(38,-2)" = .ok (.decimal 2 0 (-2) 38) ∧
    r.fromLocal "NUMBER?(38,-2)" = .ok (.decimal 1 0 (-2) 38) :=
  ⟨_, rfl, by decide, by
    simp only [exSupported, List.mem_cons, List.not_mem_nil, or_false]
    rintro e (rfl | rfl | rfl | rfl | rfl) <;> simp [Ty.spellings, GoodLocalName, Ty.writtenParams], rfl, rfl⟩

/-- The full claim of C52. -/
def C52_statement : Prop :=
  ∀ (supported : List (String × String × Bool)) (r : LocalTypes) (t : Ty) (s : String),
    localizeTypes supported = .ok r → (supported.map fun e => e.2.1).Nodup → t.IsPlain →
    r.toLocal t = .ok s → ∃ u, r.fromLocal s = .ok u ∧ ∃ n, u.withNullability n = t

/-- It is false: type variations get lost. -/
theorem C52_negation : ¬ C52_statement := by
  intro h
  obtain ⟨u, hu, n, hn⟩ := h [("i32", "INT", true)] _ (.prim .i32 2 5) "INT" rfl (by decide) trivial rfl
  have : u = .prim .i32 2 0 := by
    have h' : Res.ok u = Res.ok (Ty.prim .i32 2 0) := hu.symm
    exact Res.ok.inj h'
  subst this
  simp [Ty.withNullability] at hn

/-- A local name that ends in `?` cannot be read back. -/
theorem C52_negation_mark : ∃ r, localizeTypes [("i32", "INT?", true)] = .ok r ∧
    r.toLocal (.prim .i32 2 0) = .ok "INT?" ∧ r.fromLocal "INT?" = .err := ⟨_, rfl, rfl, rfl⟩

/-- A local name that already has parameters cannot be read back. -/
theorem C52_negation_paren : ∃ r, localizeTypes [("i64", "NUMBER(19)", true)] = .ok r ∧
    r.toLocal (.prim .i64 2 0) = .ok "NUMBER(19)" ∧ r.fromLocal "NUMBER(19)" = .err := ⟨_, rfl, rfl, rfl⟩

/-- Types with a time precision are written with a parameter that is refused when read, in every
dialect that supports them under a good name. -/
theorem C52_negation_precision : ∃ r, localizeTypes exSupported = .ok r ∧
    r.toLocal (.prec .intervalDay 2 0 6) = .ok "INTERVAL DAY(6)" ∧ r.fromLocal "INTERVAL DAY(6)" = .err ∧
    r.fromLocal "INTERVAL DAY" = .ok (.prec .intervalDay 2 0 0) :=
  ⟨_, rfl, by decide +kernel, rfl, rfl⟩

/-- `IntervalYearToMonthType` comes back as another Go type. -/
theorem C52_negation_year : ∃ r, localizeTypes exSupported = .ok r ∧
    r.toLocal (.intervalYearToMonth 2 0) = .ok "INTERVAL YEAR" ∧
    r.fromLocal "INTERVAL YEAR" = .ok (.prim .intervalYear 2 0) := ⟨_, rfl, rfl, rfl⟩

/-! ## C77 -/

/-- The registry reads the string of a type as that type; of the nullability only `nullable` is told
from the rest, and the variation is not in the string.

Missing from the full statement: types with a time precision, nested and user-defined types, see
`C77_negation`. -/
theorem C77_roundtrip_partial {t : Ty} (ht : t.IsPlain) :
    registryTypeFromString t.string = .ok (t.bare (markedNullability t.nullability)) := by
  obtain ⟨l, hl, hs, hg, hlt, -⟩ := plain_string t ht
  rw [hs]
  unfold markedNullability strNullable registryTypeFromString
  split
  · exact (read_written_nullable '<' '>' _ _ t ht (by decide) (by decide) (fun _ => hlt)).1 hl
  · rw [String.append_empty]
    exact (read_written '<' '>' _ _ t ht hg (fun h => hlt h.1) (fun _ => hlt)).1 hl

open Classical in
/-- A local registry reads it in the same way if the dialect lists the type, and refuses it if not. -/
theorem C77_local_partial {supported : List (String × String × Bool)} {r : LocalTypes}
    (hr : localizeTypes supported = .ok r) {t : Ty} (ht : t.IsPlain) :
    r.typeFromString t.string =
      if ∃ e ∈ supported, e.1 ∈ t.spellings then .ok (t.bare (markedNullability t.nullability)) else .err := by
  obtain ⟨l, -, hs, hg, hlt, hr'⟩ := plain_string t ht
  have hn := names_of_plain hr ht
  rw [hs]
  unfold LocalTypes.typeFromString
  rw [← hr'] at hn
  unfold markedNullability strNullable
  by_cases h : ∃ e ∈ supported, e.1 ∈ t.spellings
  · rw [if_pos h] at hn
    rw [if_pos h]
    split
    · exact (read_written_nullable '<' '>' _ _ t ht (by decide) (by decide) (fun _ => hlt)).1 hn
    · rw [String.append_empty]
      exact (read_written '<' '>' _ _ t ht hg (fun h => hlt h.1) (fun _ => hlt)).1 hn
  · rw [if_neg h] at hn
    rw [if_neg h]
    split
    · exact (read_written_nullable '<' '>' _ _ t ht (by decide) (by decide) (fun _ => hlt)).2 hn
    · rw [String.append_empty]
      exact (read_written '<' '>' _ _ t ht hg (fun h => hlt h.1) (fun _ => hlt)).2 hn

example : (Ty.decimal 1 3 (-2) 38).IsPlain ∧ (Ty.decimal 1 3 (-2) 38).string = "decimal?<38,-2>" ∧
    registryTypeFromString "decimal?<38,-2>" = .ok (.decimal 1 0 (-2) 38) ∧
    (Ty.prim .boolean 0 0).string = "boolean" ∧ registryTypeFromString "boolean" = .ok (.prim .boolean 2 0) :=
  ⟨trivial, by decide +kernel, rfl, rfl, rfl⟩

example : ∃ r, localizeTypes exSupported = .ok r ∧
    r.typeFromString "decimal?<38,-2>" = .ok (.decimal 1 0 (-2) 38) ∧ r.typeFromString "i64" = .err :=
  ⟨_, rfl, rfl, rfl⟩

/-- The string of every type with a time precision, nested type, function type and user-defined type
is refused. -/
theorem C77_refused (t : Ty) (h : match t with
      | .prec .. | .intervalCompound .. | .struct .. | .func .. | .list .. | .map .. | .udt .. => True
      | _ => False) :
    registryTypeFromString t.string = .err := by
  have key : ∀ (l p : String) (n : Nullability), '<' ∉ l.toList → l.toList.getLast? ≠ some '?' →
      (nameToType l = none ∨ ∃ k, nameToType l = some (.prec k 0 0 0)) →
      t.string = l ++ strNullable n ++ "<" ++ p ++ ">" → registryTypeFromString t.string = .err := by
    intro l p n h1 h2 h3 h4
    rw [h4]
    refine read_refused nameToType l p n h1 h2 fun u hu ps hps => ?_
    rcases h3 with h3 | ⟨k, h3⟩ <;> rw [h3] at hu <;> cases hu
    simp only [getTypeWithParameters, hps, if_false]
  cases t with
  | prec k n v p =>
    refine key k.longName (intString p.toInt) n ?_ ?_ (.inr ⟨k, ?_⟩) ?_
    · cases k <;> decide +kernel
    · cases k <;> decide +kernel
    · cases k <;> rfl
    · simp only [Ty.string, Ty.pieces, joined, List.foldr, String.append_empty, String.append_assoc]
  | intervalCompound b n v p =>
    refine key "interval_compound" (intString p.toInt) n (by decide +kernel) (by decide +kernel) (.inl rfl) ?_
    simp only [Ty.string, Ty.pieces, joined, List.foldr, String.append_empty, String.append_assoc]
  | struct n v ts =>
    refine key "struct" (joined (Ty.piecesList ts)) n (by decide +kernel) (by decide +kernel) (.inl rfl) ?_
    simp only [Ty.string, Ty.pieces, joined_append, joined_cons, joined_nil, String.append_empty, String.append_assoc]
  | func n ps r =>
    refine key "func" (joined (Ty.piecesList ps) ++ " -> " ++ joined r.pieces) n (by decide +kernel)
      (by decide +kernel) (.inl rfl) ?_
    simp only [Ty.string, Ty.pieces, joined_append, joined_cons, joined_nil, String.append_empty, String.append_assoc]
  | list n v u =>
    refine key "list" (joined u.pieces) n (by decide +kernel) (by decide +kernel) (.inl rfl) ?_
    simp only [Ty.string, Ty.pieces, joined_append, joined_cons, joined_nil, String.append_empty, String.append_assoc]
  | map n v k e =>
    refine key "map" (joined k.pieces ++ ", " ++ joined e.pieces) n (by decide +kernel) (by decide +kernel) (.inl rfl) ?_
    simp only [Ty.string, Ty.pieces, joined_append, joined_cons, joined_nil, String.append_empty, String.append_assoc]
  | udt n v r ps => simp only [Ty.string, Ty.pieces]; rfl
  | _ => exact h.elim

/-- The full claim of C77. -/
def C77_statement : Prop :=
  ∀ t : Ty, t.PlanType → ∃ u, registryTypeFromString t.string = .ok u ∧ u.shortString = t.shortString

/-- It is false: parameters are only read for decimal and fixed-length types. -/
theorem C77_negation : ¬ C77_statement := by
  intro h
  obtain ⟨u, hu, -⟩ := h (.prec .precisionTimestamp 2 0 6) (by simp [Ty.PlanType])
  rw [C77_refused _ trivial] at hu
  cases hu

/-! ## C78 -/

/-- What a caller gets is the type the string says. -/
theorem C78_value (s : String) (n : Nullability) (h : TypeHandle) (n' : Nullability)
    (hs : typeFromString s n = (.ok h, n')) : registryTypeFromString s = .ok (h.see n') := by
  unfold typeFromString at hs
  split at hs
  · rename_i m v p hr
    obtain ⟨rfl, rfl⟩ := read_intervalDay hr
    cases hs
    exact hr
  · rename_i t _ hr
    cases hs
    exact hr
  · cases hs
  · cases hs

example : typeFromString "interval_day?" 2 = (.ok .sharedIntervalDay, 1) ∧
    typeFromString "i32" 2 = (.ok (.own (.prim .i32 2 0)), 2) := ⟨rfl, rfl⟩

/-- A type obtained from the registry stays as it is when more types are read.

Missing from the full statement: interval_day, see `C78_negation`. -/
theorem C78_stable_partial (s s' : String) (n : Nullability) (h : TypeHandle)
    (hs : (typeFromString s n).1 = .ok h)
    (hd : ∀ m v p, registryTypeFromString s ≠ .ok (.prec .intervalDay m v p)) :
    h.see (typeFromString s' (typeFromString s n).2).2 = h.see (typeFromString s n).2 := by
  have : ∃ t, h = .own t := by
    unfold typeFromString at hs
    split at hs
    · rename_i m v p hr
      exact absurd hr (hd m v p)
    · cases hs; exact ⟨_, rfl⟩
    · cases hs
    · cases hs
  obtain ⟨t, rfl⟩ := this
  rfl

example : (typeFromString "i32" 2).1 = .ok (.own (.prim .i32 2 0)) ∧
    ∀ m v p, registryTypeFromString "i32" ≠ .ok (.prec .intervalDay m v p) := by
  refine ⟨rfl, fun m v p h => ?_⟩
  have h' : Res.ok (Ty.prim .i32 2 0) = Res.ok (.prec .intervalDay m v p) := h
  simp at h'

/-- The full claim of C78. -/
def C78_statement : Prop :=
  ∀ (s s' : String) (n : Nullability) (h : TypeHandle), (typeFromString s n).1 = .ok h →
    h.see (typeFromString s' (typeFromString s n).2).2 = h.see (typeFromString s n).2

/-- It is false: whoever reads `interval_day?` turns every interval_day handed out before nullable. -/
theorem C78_negation : ¬ C78_statement := by
  intro h
  have := h "interval_day" "interval_day?" 0 .sharedIntervalDay rfl
  have h' : Ty.prec .intervalDay 1 0 0 = Ty.prec .intervalDay 2 0 0 := this
  simp at h'

end Verif
