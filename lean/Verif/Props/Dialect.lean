import Verif.Lemmas.Dialect
/-!
# Local function registries: contents (C79), order independence (C50), invocations (C51)
-/

namespace Verif

/-! ## Examples used below -/

/-- `add:i32_i32`, `add:i64_i64`, `plus:str` and `neg:i32` -/
def exRegistry : List RegFn :=
  [⟨⟨"u", "add:i32_i32"⟩, "add", [.value (.prim .i32 2 0), .value (.prim .i32 2 0)], none⟩,
   ⟨⟨"u", "plus:str"⟩, "plus", [.value (.prim .string 2 0)], some ⟨2, 0, false⟩⟩,
   ⟨⟨"u", "add:i64_i64"⟩, "add", [.value (.prim .i64 2 0), .value (.prim .i64 2 0)], none⟩,
   ⟨⟨"u", "neg:i32"⟩, "neg", [.value (.prim .i32 2 0)], none⟩]

/-- dialect entries: `add` is written `+` for i32 and `ADD64` for i64, `neg` is written `-` -/
def exAdd32 : FnInfo := ⟨⟨"u", "add:i32_i32"⟩, "add", "+", [("overflow", ["ERROR"])], .inf⟩
@[inherit_doc exAdd32] def exAdd64 : FnInfo := ⟨⟨"u", "add:i64_i64"⟩, "add", "ADD64", [], .pre⟩
@[inherit_doc exAdd32] def exNeg : FnInfo := ⟨⟨"u", "neg:i32"⟩, "neg", "-", [], .pre⟩

/-- the dialect with these entries -/
def exDialectMap : GoMap ExtId FnInfo :=
  ⟨[(exAdd32.id, exAdd32), (exAdd64.id, exAdd64), (exNeg.id, exNeg)], by decide⟩

/-! ## C79 -/

/-- A registry lists under a name the functions with that name, in their order. -/
theorem C79_registry (fs : List RegFn) (n : String) :
    functionsByName (processFunctions fs) n = fs.filter fun f => f.name = n := functionsByName_eq fs n

example : (functionsByName (processFunctions exRegistry) "add").map (·.id.name) =
    ["add:i32_i32", "add:i64_i64"] := rfl

theorem makeLocal_inv {D : GoMap ExtId FnInfo} {order : List FnInfo} {fs : List RegFn} {s : LocalizeState}
    (h : makeLocal D order (functionsByName (processFunctions fs)) = .ok s) :
    LocalizeInv D.get fs s ∧ ∀ i ∈ order, i.id ∈ s.processed :=
  let r := inv_loop (functionsByName_eq fs) order _ s (inv_start D.get fs) h
  ⟨r.1, r.2.1⟩

/-- A local registry has each function of the dialect exactly once and no others. -/
theorem C79_exact {D : GoMap ExtId FnInfo} {order : List FnInfo} {fs : List RegFn} {s : LocalizeState}
    (hk : Keyed D) (ho : IterationOrder D order)
    (h : makeLocal D order (functionsByName (processFunctions fs)) = .ok s) :
    (s.slice.map (·.fn.id)).Perm (D.entries.map Prod.fst) := by
  obtain ⟨hi, hd⟩ := makeLocal_inv h
  refine (List.perm_ext_iff_of_nodup hi.nodup D.nodup).2 fun x => ?_
  constructor
  · intro hx
    obtain ⟨v, hv, rfl⟩ := List.mem_map.1 hx
    obtain ⟨-, i, hi, -⟩ := hi.made v hv
    exact List.mem_map.2 ⟨_, (GoMap.get_eq_some D _ _).1 hi, rfl⟩
  · intro hx
    obtain ⟨p, hp, rfl⟩ := List.mem_map.1 hx
    rw [← hi.done, ← hk p hp]
    exact hd _ (ho.mem_iff.2 (List.mem_map_of_mem hp))

/-- Each is a function of the underlying registry with the local name, options and notation the dialect
gives for its identifier. -/
theorem C79_presented {D : GoMap ExtId FnInfo} {order : List FnInfo} {fs : List RegFn} {s : LocalizeState}
    (hk : Keyed D) (h : makeLocal D order (functionsByName (processFunctions fs)) = .ok s)
    {v : LocalFn} (hv : v ∈ s.slice) : ∃ f ∈ fs, ∃ p ∈ D.entries, v.Presents f p.2 := by
  obtain ⟨hf, i, hi, he⟩ := (makeLocal_inv h).1.made v hv
  have hm := (GoMap.get_eq_some D _ _).1 hi
  refine ⟨v.fn, hf, _, hm, rfl, (hk _ hm).symm, ?_⟩
  rw [he]
  exact ⟨rfl, rfl, rfl⟩

/-- Lookup finds exactly the functions with that local or Substrait name that take that many
arguments. -/
theorem C79_lookup {D : GoMap ExtId FnInfo} {order : List FnInfo} {fs : List RegFn} {s : LocalizeState}
    (h : makeLocal D order (functionsByName (processFunctions fs)) = .ok s) (name : String) (n : Int)
    (v : LocalFn) :
    (v ∈ s.byNameAndCount (.loc name) n ↔ v ∈ s.slice ∧ v.localName = name ∧ v.fn.Takes n) ∧
    (v ∈ s.byNameAndCount (.substrait name) n ↔ v ∈ s.slice ∧ v.fn.name = name ∧ v.fn.Takes n) := by
  have hi := (makeLocal_inv h).1
  unfold LocalizeState.byNameAndCount
  rw [hi.locs, hi.subs]
  simp only [List.mem_filter, decide_eq_true_eq, takesCount_iff, and_assoc, and_self]

/-- A dialect with a function that is not in the registry is refused. -/
theorem C79_refused {D : GoMap ExtId FnInfo} {order : List FnInfo} {fs : List RegFn}
    (hk : Keyed D) (ho : IterationOrder D order) (hr : ¬ AllRegistered D fs) :
    makeLocal D order (functionsByName (processFunctions fs)) = .err := by
  cases h : makeLocal D order (functionsByName (processFunctions fs)) with
  | err => rfl
  | panic => exact absurd h (makeLocal_ne_panic _ _ _)
  | ok s =>
    refine absurd (fun p hp => ?_) hr
    have hm := (C79_exact hk ho h).mem_iff.2 (List.mem_map_of_mem hp)
    obtain ⟨v, hv, he⟩ := List.mem_map.1 hm
    exact ⟨v.fn, ((makeLocal_inv h).1.made v hv).1, he.trans (hk p hp).symm⟩

theorem exKeyed : Keyed exDialectMap := by
  intro p hp
  simp only [exDialectMap, List.mem_cons, List.not_mem_nil, or_false] at hp
  rcases hp with rfl | rfl | rfl <;> rfl

example : Keyed exDialectMap ∧ IterationOrder exDialectMap [exNeg, exAdd64, exAdd32] ∧
    ∃ s, makeLocal exDialectMap [exNeg, exAdd64, exAdd32] (functionsByName (processFunctions exRegistry)) = .ok s ∧
      s.slice.map (·.localName) = ["-", "+", "ADD64"] ∧
      (s.byNameAndCount (.loc "+") 2).map (·.fn.id.name) = ["add:i32_i32"] ∧
      (s.byNameAndCount (.substrait "add") 2).map (·.fn.id.name) = ["add:i32_i32", "add:i64_i64"] ∧
      (s.byNameAndCount (.substrait "add") 1).map (·.fn.id.name) = [] :=
  ⟨exKeyed, by unfold IterationOrder; decide, _, rfl, rfl, rfl, rfl, rfl⟩

/-- a dialect entry without function -/
def exUnknown : FnInfo := ⟨⟨"u", "sub:i32"⟩, "sub", "-", [], .pre⟩

example : let D : GoMap ExtId FnInfo := ⟨[(exAdd32.id, exAdd32), (exUnknown.id, exUnknown)], by decide⟩
    ¬ AllRegistered D exRegistry ∧
      makeLocal D [exAdd32, exUnknown] (functionsByName (processFunctions exRegistry)) = .err := by
  refine ⟨fun h => ?_, rfl⟩
  obtain ⟨f, hf, he⟩ := h (exUnknown.id, exUnknown) (by simp)
  simp only [exRegistry, List.mem_cons, List.not_mem_nil, or_false] at hf
  rcases hf with rfl | rfl | rfl | rfl <;> exact absurd he (by decide)

/-! ## C50 -/

/-- Without name clashes, whether a dialect is accepted does not depend on the iteration order: exactly
the dialects all of whose functions are registered are.

Missing from the full statement: dialects that use the Substrait name of one of their functions as
the local name of another, see `C50_negation`. -/
theorem C50_accepted_partial {D : GoMap ExtId FnInfo} {fs : List RegFn} (hk : Keyed D)
    (hn : (fs.map (·.id)).Nodup) (ha : NamesAgree D fs) (hc : NoNameClash D)
    {order : List FnInfo} (ho : IterationOrder D order) :
    (∃ s, makeLocal D order (functionsByName (processFunctions fs)) = .ok s) ↔ AllRegistered D fs := by
  constructor
  · rintro ⟨s, h⟩
    by_contra hr
    rw [C79_refused hk ho hr] at h
    cases h
  · intro hr
    have hent : ∀ x j, D.get x = some j → (x, j) ∈ D.entries := fun x j h => (GoMap.get_eq_some D x j).1 h
    refine loop_ok (functionsByName_eq fs) hn ?_ order _ (inv_start _ _) (fun n => .inl rfl) ?_
    · intro f hf j hj
      exact ha f hf _ (hent _ _ hj) (hk _ (hent _ _ hj))
    · intro i hi
      obtain ⟨p, hp, rfl⟩ := List.mem_map.1 (ho.mem_iff.1 hi)
      refine ⟨?_, hr p hp, ?_⟩
      · rw [hk p hp, GoMap.get_eq_some]; exact hp
      · intro x j hj hl
        exact hc _ (hent _ _ hj) p hp hl

/-- Two iteration orders that are both accepted give the same functions with the same presentation, and
the same lists under each Substrait name; under each local name the same functions, perhaps in another
order (see `C50_negation_order`). -/
theorem C50_same_partial {D : GoMap ExtId FnInfo} {fs : List RegFn} (hk : Keyed D)
    (hn : (fs.map (·.id)).Nodup) {o o' : List FnInfo} (ho : IterationOrder D o) (ho' : IterationOrder D o')
    {s s' : LocalizeState} (h : makeLocal D o (functionsByName (processFunctions fs)) = .ok s)
    (h' : makeLocal D o' (functionsByName (processFunctions fs)) = .ok s') :
    s'.slice.Perm s.slice ∧
    (∀ name n, s'.byNameAndCount (.substrait name) n = s.byNameAndCount (.substrait name) n) ∧
    ∀ name n, (s'.byNameAndCount (.loc name) n).Perm (s.byNameAndCount (.loc name) n) := by
  have hi := (makeLocal_inv h).1
  have hi' := (makeLocal_inv h').1
  have key : ∀ (t t' : LocalizeState), LocalizeInv D.get fs t → LocalizeInv D.get fs t' →
      (t.slice.map (·.fn.id)).Perm (t'.slice.map (·.fn.id)) → ∀ v ∈ t.slice, v ∈ t'.slice := by
    intro t t' it it' hp v hv
    obtain ⟨w, hw, he⟩ := List.mem_map.1 (hp.mem_iff.1 (List.mem_map_of_mem hv))
    obtain ⟨hvf, i, hi, hvi⟩ := it.made v hv
    obtain ⟨hwf, j, hj, hwj⟩ := it'.made w hw
    have := eq_of_id hn hwf hvf he
    rw [he, hi] at hj
    cases hj
    rw [hvi, ← this, ← hwj]
    exact hw
  have e1 := C79_exact hk ho h
  have e2 := C79_exact hk ho' h'
  have hperm : s'.slice.Perm s.slice :=
    (List.perm_ext_iff_of_nodup (List.Nodup.of_map _ hi'.nodup) (List.Nodup.of_map _ hi.nodup)).2 fun v =>
      ⟨key s' s hi' hi (e2.trans e1.symm) v, key s s' hi hi' (e1.trans e2.symm) v⟩
  refine ⟨hperm, fun name n => ?_, fun name n => ?_⟩
  · unfold LocalizeState.byNameAndCount
    rw [hi.subs, hi'.subs]
    congr 1
    have w := whole_loop (functionsByName_eq fs) hn o _ s (inv_start D.get fs) (fun _ => .inl rfl) h name
    have w' := whole_loop (functionsByName_eq fs) hn o' _ s' (inv_start D.get fs) (fun _ => .inl rfl) h' name
    have hp := hperm.filter fun v => v.fn.name = name
    have hmap : (s'.slice.filter fun v => v.fn.name = name).map (·.fn) =
        (s.slice.filter fun v => v.fn.name = name).map (·.fn) := by
      rcases w with w | w
      · rw [w] at hp
        rw [w, hp.eq_nil]
      · rcases w' with w' | w'
        · rw [w'] at hp
          rw [w', hp.symm.eq_nil]
        · rw [w, w']
    let mk : RegFn → LocalFn := fun f => match D.get f.id with
      | some i => newLocalFn f i
      | none => ⟨f, "", [], .pre⟩
    have hmk : ∀ (t : LocalizeState), LocalizeInv D.get fs t →
        ((t.slice.filter fun v => v.fn.name = name).map (·.fn)).map mk =
          t.slice.filter fun v => v.fn.name = name := by
      intro t it
      rw [List.map_map]
      conv_rhs => rw [← List.map_id (t.slice.filter fun v => v.fn.name = name)]
      refine List.map_congr_left fun v hv => ?_
      obtain ⟨-, i, hi, hvi⟩ := it.made v (List.mem_filter.1 hv).1
      simp only [mk, Function.comp, hi, id]
      exact hvi.symm
    rw [← hmk s hi, ← hmk s' hi', hmap]
  · unfold LocalizeState.byNameAndCount
    rw [hi.locs, hi'.locs]
    exact (hperm.filter _).filter _

example : Keyed exDialectMap ∧ (exRegistry.map (·.id)).Nodup ∧ NamesAgree exDialectMap exRegistry ∧
    NoNameClash exDialectMap ∧ AllRegistered exDialectMap exRegistry ∧
    IterationOrder exDialectMap [exNeg, exAdd64, exAdd32] := by
  refine ⟨exKeyed, by decide, ?_, ?_, ?_, by unfold IterationOrder; decide⟩
  · intro f hf p hp
    simp only [exRegistry, exDialectMap, List.mem_cons, List.not_mem_nil, or_false] at hf hp
    rcases hf with rfl | rfl | rfl | rfl <;> rcases hp with rfl | rfl | rfl <;> decide
  · intro p hp q hq
    simp only [exDialectMap, List.mem_cons, List.not_mem_nil, or_false] at hp hq
    rcases hp with rfl | rfl | rfl <;> rcases hq with rfl | rfl | rfl <;> decide
  · intro p hp
    simp only [exDialectMap, List.mem_cons, List.not_mem_nil, or_false] at hp
    rcases hp with rfl | rfl | rfl <;> simp [exRegistry, exAdd32, exAdd64, exNeg]

/-- The full claim of C50. -/
def C50_statement : Prop :=
  ∀ (D : GoMap ExtId FnInfo) (fs : List RegFn) (o o' : List FnInfo) (s : LocalizeState),
    Keyed D → (fs.map (·.id)).Nodup → NamesAgree D fs → IterationOrder D o → IterationOrder D o' →
    makeLocal D o (functionsByName (processFunctions fs)) = .ok s →
    ∃ s', makeLocal D o' (functionsByName (processFunctions fs)) = .ok s' ∧ s'.slice = s.slice

/-- `add` is called `plus` in the dialect, and `plus` is called `||` -/
def exClashAdd : FnInfo := ⟨⟨"u", "add:i32_i32"⟩, "add", "plus", [], .pre⟩
@[inherit_doc exClashAdd] def exClashPlus : FnInfo := ⟨⟨"u", "plus:str"⟩, "plus", "||", [], .pre⟩

/-- It is false: a dialect that calls `add` `plus`, and `plus` `||`, is refused when `add` comes first,
and accepted otherwise. -/
theorem C50_negation : ¬ C50_statement := by
  intro h
  obtain ⟨s', hs', -⟩ := h ⟨[(exClashAdd.id, exClashAdd), (exClashPlus.id, exClashPlus)], by decide⟩
    exRegistry [exClashPlus, exClashAdd] [exClashAdd, exClashPlus] _
    (by
      intro p hp
      simp only [List.mem_cons, List.not_mem_nil, or_false] at hp
      rcases hp with rfl | rfl <;> rfl) (by decide)
    (by
      intro f hf p hp
      simp only [exRegistry, List.mem_cons, List.not_mem_nil, or_false] at hf hp
      rcases hf with rfl | rfl | rfl | rfl <;> rcases hp with rfl | rfl <;> decide)
    (by unfold IterationOrder; decide) (by unfold IterationOrder; decide) rfl
  cases hs'

/-- The order of all functions depends on the iteration order even for good dialects. -/
theorem C50_negation_order : ∃ s s',
    makeLocal exDialectMap [exNeg, exAdd64, exAdd32] (functionsByName (processFunctions exRegistry)) = .ok s ∧
    makeLocal exDialectMap [exAdd32, exAdd64, exNeg] (functionsByName (processFunctions exRegistry)) = .ok s' ∧
    s.slice.map (·.localName) = ["-", "+", "ADD64"] ∧ s'.slice.map (·.localName) = ["+", "ADD64", "-"] :=
  ⟨_, _, rfl, rfl, rfl, rfl⟩

/-! ## C51 -/

/-- What a lookup by invocation returns is a function of the right kind with the identifier of the
invocation, from the registry. -/
theorem C51_right {d : Dialect} {typeOrder : List (String × String × Bool)}
    {so ao wo : List FnInfo} {fs fa fw : List RegFn} {r : LocalRegistry}
    (hr : localizeFunctions d typeOrder so ao wo (functionsByName (processFunctions fs))
      (functionsByName (processFunctions fa)) (functionsByName (processFunctions fw)) = .ok r)
    {fold : String → String → Bool} {k : FuncKind} {i : Invocation} {f : LocalFn}
    (h : r.byInvocation fold k i = .ok f) : f ∈ r.ofKind k ∧ f.fn.id = i.id := by
  obtain ⟨-, -, -, -, -, hb⟩ := localizeFunctions_ok hr
  unfold LocalRegistry.byInvocation at h
  split at h
  · cases h
  · rename_i k' g hg
    split at h
    · cases h
    · split at h
      · cases h
      · split at h
        · rename_i hk
          cases h
          subst hk
          exact byId_some hb hg
        · cases h

/-- An invocation of a function that no kind registers is an error. -/
theorem C51_absent {d : Dialect} {typeOrder : List (String × String × Bool)}
    {so ao wo : List FnInfo} {fs fa fw : List RegFn} {r : LocalRegistry}
    (hr : localizeFunctions d typeOrder so ao wo (functionsByName (processFunctions fs))
      (functionsByName (processFunctions fa)) (functionsByName (processFunctions fw)) = .ok r)
    (fold : String → String → Bool) (k : FuncKind) (i : Invocation)
    (ha : ∀ k', ∀ g ∈ r.ofKind k', g.fn.id ≠ i.id) : r.byInvocation fold k i = .err := by
  obtain ⟨-, -, -, -, -, hb⟩ := localizeFunctions_ok hr
  unfold LocalRegistry.byInvocation
  rw [byId_absent hb ha]

/-- The complete decision for a function that is registered: of the kinds that register the identifier
the last (scalar, aggregate, window) is the one found. If the dialect supports the argument types and
options, the function is returned to a caller who asks for that kind, and a caller who asks for another
kind gets a panic; otherwise there is an error. (The options of a function are a Go map, so their names
are distinct.) -/
theorem C51_decision {d : Dialect} {typeOrder : List (String × String × Bool)}
    {so ao wo : List FnInfo} {fs fa fw : List RegFn} {r : LocalRegistry}
    (hr : localizeFunctions d typeOrder so ao wo (functionsByName (processFunctions fs))
      (functionsByName (processFunctions fa)) (functionsByName (processFunctions fw)) = .ok r)
    (fold : String → String → Bool) (k k' : FuncKind) (i : Invocation) {f : LocalFn}
    (hf : f ∈ r.ofKind k') (hid : f.fn.id = i.id) (ho : (f.options.map Prod.fst).Nodup)
    (hlast : ∀ k'', k'.rank < k''.rank → ∀ g ∈ r.ofKind k'', g.fn.id ≠ i.id) :
    (r.Supports fold f i → r.byInvocation fold k i = if k' = k then .ok f else .panic) ∧
    (¬ r.Supports fold f i → r.byInvocation fold k i = .err) := by
  obtain ⟨-, -, -, -, hn, hb⟩ := localizeFunctions_ok hr
  rw [← hid] at hlast
  have := byId_winner hn hb hf hlast
  rw [hid] at this
  exact byInvocation_found ho this

/-- Hence, for identifiers registered by one kind only, a lookup by that kind returns the function or an
error, never a panic.

Missing from the full statement: identifiers that several kinds register, see `C51_negation`, and
lookups of a function by another kind, see `C51_negation_kind`. -/
theorem C51_safe_partial {d : Dialect} {typeOrder : List (String × String × Bool)}
    {so ao wo : List FnInfo} {fs fa fw : List RegFn} {r : LocalRegistry}
    (hr : localizeFunctions d typeOrder so ao wo (functionsByName (processFunctions fs))
      (functionsByName (processFunctions fa)) (functionsByName (processFunctions fw)) = .ok r)
    (fold : String → String → Bool) (k : FuncKind) (i : Invocation)
    (honly : ∀ k', k' ≠ k → ∀ g ∈ r.ofKind k', g.fn.id ≠ i.id) :
    r.byInvocation fold k i ≠ .panic := by
  obtain ⟨-, -, -, -, hn, hb⟩ := localizeFunctions_ok hr
  unfold LocalRegistry.byInvocation
  split
  · intro h; cases h
  · rename_i k' f hg
    obtain ⟨hf, hid⟩ := byId_some hb hg
    have hk : k' = k := by
      by_contra hk
      exact honly k' hk f hf hid
    rw [if_pos hk]
    split
    · intro h; cases h
    · split <;> (intro h; cases h)

/-- `sum:i32`, called SUM -/
def exSumInfo : FnInfo := ⟨⟨"u", "sum:i32"⟩, "sum", "SUM", [("overflow", ["SILENT"])], .pre⟩

/-- a dialect for the type i32 with scalar functions and an aggregate function -/
def exDialect : Dialect :=
  ⟨[("i32", "INT", true)], exDialectMap, ⟨[(exSumInfo.id, exSumInfo)], by decide⟩, .empty⟩

/-- the function `sum:i32` -/
def exSumFn : RegFn := ⟨⟨"u", "sum:i32"⟩, "sum", [.value (.prim .i32 2 0)], none⟩

example : ∃ r, localizeFunctions exDialect exDialect.types [exAdd32, exAdd64, exNeg] [exSumInfo] []
      (functionsByName (processFunctions exRegistry)) (functionsByName (processFunctions [exSumFn]))
      (functionsByName (processFunctions [])) = .ok r ∧
    r.byInvocation (fun a b => a = b) .aggregate
      ⟨⟨"u", "sum:i32"⟩, [.prim .i32 1 0], [("overflow", ["SILENT"])]⟩ = .ok ⟨exSumFn, "SUM", [("overflow", ["SILENT"])], .pre⟩ ∧
    r.byInvocation (fun a b => a = b) .aggregate ⟨⟨"u", "sum:i32"⟩, [.prim .i64 1 0], []⟩ = .err ∧
    r.byInvocation (fun a b => a = b) .aggregate
      ⟨⟨"u", "sum:i32"⟩, [.prim .i32 1 0], [("overflow", ["ERROR"])]⟩ = .err ∧
    (∀ k', k' ≠ .aggregate → ∀ g ∈ r.ofKind k', g.fn.id ≠ ⟨"u", "sum:i32"⟩) := by
  refine ⟨_, rfl, rfl, rfl, rfl, ?_⟩
  intro k' hk g hg
  cases k'
  · have : g.fn.id ∈ ((exRegistry.take 1) ++ (exRegistry.drop 2)).map (·.id) := by
      obtain ⟨n, hn⟩ := List.mem_iff_getElem?.1 hg
      match n, hn with
      | 0, hn => cases hn; simp [exRegistry, newLocalFn]
      | 1, hn => cases hn; simp [exRegistry, newLocalFn]
      | 2, hn => cases hn; simp [exRegistry, newLocalFn]
      | n + 3, hn => cases hn
    intro h
    rw [h] at this
    revert this
    decide
  · exact absurd rfl hk
  · cases hg

/-- The full claim of C51. -/
def C51_statement : Prop :=
  ∀ (d : Dialect) (typeOrder : List (String × String × Bool)) (so ao wo : List FnInfo) (fs fa fw : List RegFn)
    (r : LocalRegistry) (fold : String → String → Bool) (k : FuncKind) (i : Invocation),
    localizeFunctions d typeOrder so ao wo (functionsByName (processFunctions fs))
      (functionsByName (processFunctions fa)) (functionsByName (processFunctions fw)) = .ok r →
    r.byInvocation fold k i ≠ .panic

/-- It is false: when a dialect lists a function as aggregate and as window function (all aggregate
functions are also registered as window functions), looking up the aggregate function panics. -/
theorem C51_negation : ¬ C51_statement := by
  intro h
  refine h ⟨[("i32", "INT", true)], .empty, ⟨[(exSumInfo.id, exSumInfo)], by decide⟩,
      ⟨[(exSumInfo.id, exSumInfo)], by decide⟩⟩ [("i32", "INT", true)]
    [] [exSumInfo] [exSumInfo] [] [exSumFn] [exSumFn] _ (fun _ _ => true) .aggregate
    ⟨⟨"u", "sum:i32"⟩, [.prim .i32 1 0], []⟩ rfl ?_
  rfl

/-- Asking for a scalar function with the identifier of an aggregate function panics as well. -/
theorem C51_negation_kind : ∃ r,
    localizeFunctions exDialect exDialect.types [exAdd32, exAdd64, exNeg] [exSumInfo] []
      (functionsByName (processFunctions exRegistry)) (functionsByName (processFunctions [exSumFn]))
      (functionsByName (processFunctions [])) = .ok r ∧
    r.byInvocation (fun a b => a = b) .scalar ⟨⟨"u", "sum:i32"⟩, [], []⟩ = .panic := ⟨_, rfl, rfl⟩

end Verif
