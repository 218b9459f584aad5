import Verif.Model.RelAdv
import Verif.Spec.RelCopy
import Verif.Props.RowsSame
import Verif.Props.RelProto
/-!
# Properties C133 and C134: copies of relations, and their advanced extensions
-/

namespace Verif

/-! ## C133 -/

/-- C133, the count: `Copy` succeeds exactly when it is given as many inputs as the relation has.
False: see the negations below. -/
def C133_statement : Prop :=
  ∀ (r : Rel) (ins : List Rel), (∃ r', r.copy ins = .ok r') ↔ ins.length = r.getInputs.length

/-- C133 for relations with a fixed number of inputs; missing: reads and extension leaves, which ignore
what they are given, and sets and multi-input extensions, which take any number. -/
theorem C133_count_partial (r : Rel) (ins : List Rel) (h : r.FixedInputs) :
    (ins.length = r.getInputs.length → ∃ r', r.copy ins = .ok r') ∧
    (ins.length ≠ r.getInputs.length → r.copy ins = .err) := by
  cases r <;> simp only [Rel.FixedInputs] at h <;>
    (match ins with
      | [] => simp [Rel.copy, Rel.getInputs]
      | [_] => simp [Rel.copy, Rel.getInputs]
      | [_, _] => simp [Rel.copy, Rel.getInputs]
      | _ :: _ :: _ :: _ => simp [Rel.copy, Rel.getInputs])

/-- ... sets and multi-input extensions are copied with any inputs, leaves are returned as they are. -/
theorem C133_any_count (r : Rel) (ins : List Rel) (h : ¬ r.FixedInputs) :
    ∃ r', r.copy ins = .ok r' ∧ (r.IsLeaf → r' = r) := by
  cases r <;> simp only [Rel.FixedInputs, not_true_eq_false] at h <;>
    first
      | exact ⟨_, rfl, fun _ => rfl⟩
      | exact ⟨_, rfl, fun h => h.elim⟩

/-- **C133 (inputs).** The inputs of a copy are the ones given, in order, for every relation that has
inputs. -/
theorem C133_inputs (r r' : Rel) (ins : List Rel) (hl : ¬ r.IsLeaf) (h : r.copy ins = .ok r') :
    r'.getInputs = ins := by
  cases r <;> simp only [Rel.IsLeaf, not_true_eq_false] at hl <;>
    (match ins with
      | [] => simp only [Rel.copy] at h <;> cases h <;> rfl
      | [_] => simp only [Rel.copy] at h <;> cases h <;> rfl
      | [_, _] => simp only [Rel.copy] at h <;> cases h <;> rfl
      | _ :: _ :: _ :: _ => simp only [Rel.copy] at h <;> cases h <;> rfl)

/-- **C133 (rest).** Nothing else changes: kind, hint, output mapping, extensions, names, flags, types
and expressions of a copy are those of the relation, and copying once more with the old inputs gives
the relation back. -/
theorem C133_rest (r r' : Rel) (ins : List Rel) (h : r.copy ins = .ok r') :
    r'.says = r.says ∧ r'.items = r.items ∧ r'.common = r.common ∧
      r'.copy r.getInputs = .ok r := by
  cases r <;>
    (match ins with
      | [] => simp only [Rel.copy] at h <;> cases h <;> exact ⟨rfl, rfl, rfl, rfl⟩
      | [_] => simp only [Rel.copy] at h <;> cases h <;> exact ⟨rfl, rfl, rfl, rfl⟩
      | [_, _] => simp only [Rel.copy] at h <;> cases h <;> exact ⟨rfl, rfl, rfl, rfl⟩
      | _ :: _ :: _ :: _ => simp only [Rel.copy] at h <;> cases h <;> exact ⟨rfl, rfl, rfl, rfl⟩)

/-- **C133 (own inputs).** A copy with the relation's own inputs is the relation. -/
theorem C133_own (r : Rel) : r.copy r.getInputs = .ok r := by
  cases r <;> simp only [Rel.copy, Rel.getInputs]

/-! ### Rows -/

private theorem types_equivalent : ∀ {is js : List Rel}, List.Forall₂ Rel.Equivalent is js →
    Rel.recordTypes js = Rel.recordTypes is
  | _, _, .nil => rfl
  | _, _, .cons h hs => by
    have h1 := h.1
    unfold Rel.recordType at h1
    simp only [Rel.recordTypes, h1, types_equivalent hs]

private theorem any_equivalent (g : Engine) (vs : List Val) : ∀ {is js : List Rel},
    List.Forall₂ Rel.Equivalent is js → (Rel.AnyMakes g js vs ↔ Rel.AnyMakes g is vs)
  | _, _, .nil => .rfl
  | _, _, .cons h hs => by
    have h1 := h.2 g vs
    unfold Rel.Yields at h1
    simp only [Rel.AnyMakes, h1, any_equivalent g vs hs]

private theorem all_equivalent (g : Engine) (vs : List Val) : ∀ {is js : List Rel},
    List.Forall₂ Rel.Equivalent is js → (Rel.AllMake g js vs ↔ Rel.AllMake g is vs)
  | _, _, .nil => .rfl
  | _, _, .cons h hs => by
    have h1 := h.2 g vs
    unfold Rel.Yields at h1
    simp only [Rel.AllMake, h1, all_equivalent g vs hs]

private theorem one_of {R : Rel → Rel → Prop} {i : Rel} {ins : List Rel}
    (h : List.Forall₂ R [i] ins) : ∃ x, ins = [x] ∧ R i x := by
  cases h with
  | cons h hs => cases hs; exact ⟨_, rfl, h⟩

private theorem two_of {R : Rel → Rel → Prop} {i j : Rel} {ins : List Rel}
    (h : List.Forall₂ R [i, j] ins) : ∃ x y, ins = [x, y] ∧ R i x ∧ R j y := by
  cases h with
  | cons h hs => cases hs with
    | cons h' hs => cases hs; exact ⟨_, _, rfl, h, h'⟩

private theorem forall₂_of_get {R : Rel → Rel → Prop} : ∀ {is js : List Rel}, js.length = is.length →
    (∀ (k : Nat) (i j : Rel), is[k]? = some i → js[k]? = some j → R i j) → List.Forall₂ R is js
  | [], [], _, _ => .nil
  | [], _ :: _, h, _ => by cases h
  | _ :: _, [], h, _ => by cases h
  | i :: is, j :: js, hl, h =>
    .cons (h 0 i j rfl rfl) (forall₂_of_get (by simpa using hl) fun k a b ha hb =>
      h (k + 1) a b (by simpa using ha) (by simpa using hb))

/-- Before their output mappings, too, a relation and its copy with equivalent inputs are the same. -/
private theorem copy_direct {r r' : Rel} {ins : List Rel} (h : r.copy ins = .ok r')
    (hi : List.Forall₂ Rel.Equivalent r.getInputs ins) :
    r'.directOutputSchema = r.directOutputSchema ∧ ∀ g vs, r'.Makes g vs ↔ r.Makes g vs := by
  cases r with
  | read c b k => simp only [Rel.copy] at h; cases h; exact ⟨rfl, fun _ _ => .rfl⟩
  | extLeaf c d => simp only [Rel.copy] at h; cases h; exact ⟨rfl, fun _ _ => .rfl⟩
  | set c is op a =>
    simp only [Rel.copy] at h
    cases h
    simp only [Rel.getInputs] at hi
    cases hi with
    | nil => exact ⟨rfl, fun _ _ => .rfl⟩
    | cons h1 hs =>
      obtain ⟨ht, hy⟩ := h1
      unfold Rel.recordType at ht
      unfold Rel.Yields at hy
      refine ⟨by simp only [Rel.directOutputSchema, ht], fun g vs => ?_⟩
      simp only [Rel.Makes, hy, any_equivalent g vs hs, all_equivalent g vs hs]
  | extMulti c is d =>
    simp only [Rel.copy] at h
    cases h
    simp only [Rel.getInputs] at hi
    have ht := types_equivalent hi
    refine ⟨?_, fun g vs => by simp only [Rel.Makes, ht]⟩
    cases d with
    | custom f n => simp only [Rel.directOutputSchema, ht]
    | undecoded n =>
      cases hi with
      | nil => rfl
      | cons h1 hs =>
        have h1 := h1.1
        unfold Rel.recordType at h1
        cases hs with
        | nil => simp only [Rel.directOutputSchema, h1]
        | cons _ _ => simp only [Rel.directOutputSchema]
  | project | fetch | aggregate | sort | filter | extSingle | write =>
    obtain ⟨x, rfl, ht, hy⟩ := one_of hi
    have ht' := ht
    unfold Rel.recordType at ht'
    unfold Rel.Yields at hy
    simp only [Rel.copy] at h
    cases h
    refine ⟨?_, fun g vs => by simp only [Rel.Makes, hy, ht]⟩
    try simp only [Rel.directOutputSchema, ht']
  | join | cross | hashJoin | mergeJoin =>
    obtain ⟨x, y, rfl, ⟨ht, hy⟩, hu, hz⟩ := two_of hi
    have ht' := ht
    have hu' := hu
    unfold Rel.recordType at ht' hu'
    unfold Rel.Yields at hy hz
    simp only [Rel.copy] at h
    cases h
    refine ⟨?_, fun g vs => by simp only [Rel.Makes, hy, hz, ht, hu]⟩
    simp only [Rel.directOutputSchema, ht', hu']

/-- **C133 (rows).** Inputs replaced by equivalent ones give an equivalent relation: the same columns,
and the same rows in every engine. -/
theorem C133_rows (r r' : Rel) (ins : List Rel) (hl : ins.length = r.getInputs.length)
    (hi : ∀ (k : Nat) (i j : Rel), r.getInputs[k]? = some i → ins[k]? = some j → i.Equivalent j)
    (h : r.copy ins = .ok r') : r.Equivalent r' := by
  obtain ⟨hd, hm⟩ := copy_direct h (forall₂_of_get hl hi)
  have hc := (C133_rest r r' ins h).2.2.1
  exact ⟨by simp only [Rel.recordType, hd, hc], fun g vs => by simp only [Rel.Yields, hm, hc]⟩

/-- **C133 (trees).** Replacing any parts of a tree by equivalent ones and rebuilding the rest of the tree
above them with `Copy` gives an equivalent tree. -/
theorem C133_tree (r r' : Rel) (h : Replaced r r') : r.Equivalent r' := by
  induction h with
  | swap _ _ h => exact h
  | copy r ins r' hl _ hc ih => exact C133_rows r r' ins hl ih hc
  | steps _ _ _ _ _ h1 h2 =>
    exact ⟨h2.1.trans h1.1, fun g vs => (h2.2 g vs).trans (h1.2 g vs)⟩

/-- a fetch of everything gives all rows: under a project and a cross product it can be left out -/
example : Replaced
    (.project {} (.cross {} (.fetch {} sampleScan 0 (-1) none) sampleScan none) [sampleCond] none)
    (.project {} (.cross {} sampleScan sampleScan none) [sampleCond] none) := by
  have h0 : Replaced (.fetch {} sampleScan 0 (-1) none) sampleScan := by
    refine .swap _ _ ⟨rfl, fun g vs => ?_⟩
    simp [Rel.Yields, Rel.Makes, Rel.common, RelCommon.EmitsRow]
  have same : ∀ r, Replaced r r := fun r => .swap _ _ ⟨rfl, fun _ _ => .rfl⟩
  refine .copy _ [.cross {} sampleScan sampleScan none] _ rfl ?_ (by simp only [Rel.copy])
  intro k i j hi hj
  match k, hi, hj with
  | k + 1, hi, _ => simp [Rel.getInputs] at hi
  | 0, hi, hj =>
    cases hi
    cases hj
    refine .copy _ [sampleScan, sampleScan] _ rfl ?_ (by simp only [Rel.copy])
    intro k i j hi hj
    match k, hi, hj with
    | 0, hi, hj => cases hi; cases hj; exact h0
    | 1, hi, hj => cases hi; cases hj; exact same _
    | k + 2, hi, _ => simp [Rel.getInputs] at hi

/-- A scan takes inputs it does not have. -/
theorem C133_negation : ¬ C133_statement := by
  intro h
  have := (h sampleScan [sampleScan]).1 ⟨sampleScan, by simp only [sampleScan, Rel.copy]⟩
  simp [sampleScan, Rel.getInputs] at this

/-- A set operation is copied without any inputs, and then has no record type: `RecordType` panics. -/
theorem C133_negation_set : ¬ C133_statement ∧
    ∃ r r' : Rel, (∃ ts, r.recordType = .ok ts) ∧ r.copy [] = .ok r' ∧ r'.recordType = .panic := by
  refine ⟨fun h => ?_, .set {} [sampleScan, sampleScan] 5 none, .set {} [] 5 none, ⟨_, rfl⟩, rfl, rfl⟩
  have := (h (.set {} [sampleScan, sampleScan] 5 none) []).1 ⟨_, rfl⟩
  simp [Rel.getInputs] at this

example : (Rel.cross {} sampleScan sampleScan none).FixedInputs ∧
    ¬ (Rel.cross {} sampleScan sampleScan none).IsLeaf := ⟨trivial, id⟩

/-! ## C134 -/

/-- **C134 (set and get).** `SetAdvancedExtension` returns the extension that was there,
`GetAdvancedExtension` then returns the one given. -/
theorem C134_set_get (r : Rel) (x : Option Nat) :
    r.setAdvReturns x = r.getAdv ∧ (r.setAdv x).getAdv = x := by
  refine ⟨rfl, ?_⟩
  cases r with
  | read c b k => cases k <;> rfl
  | _ => rfl

/-- **C134 (rest).** Inputs, output mapping, expressions and columns are as before, setting another
extension replaces it, and setting the old one again gives the relation as it was. -/
theorem C134_rest (r : Rel) (x : Option Nat) :
    (r.setAdv x).getInputs = r.getInputs ∧ (r.setAdv x).outputMapping = r.outputMapping ∧
    (r.setAdv x).items = r.items ∧ (r.setAdv x).recordType = r.recordType ∧
    (∀ y, (r.setAdv x).setAdv y = r.setAdv y) ∧ (r.setAdv x).setAdv r.getAdv = r := by
  have hc : (r.setAdv x).common.mapping = r.common.mapping := by
    cases r with
    | read c b k => cases k <;> rfl
    | _ => rfl
  have hd : (r.setAdv x).directOutputSchema = r.directOutputSchema := by
    cases r with
    | read c b k => cases k <;> simp only [Rel.setAdv, Rel.directOutputSchema]
    | set c is op a => cases is <;> simp only [Rel.setAdv, Rel.directOutputSchema]
    | extMulti c is d =>
      cases d with
      | custom f n => simp only [Rel.setAdv, Rel.directOutputSchema]
      | undecoded n =>
        match is with
        | [] => simp only [Rel.setAdv, Rel.directOutputSchema]
        | [_] => simp only [Rel.setAdv, Rel.directOutputSchema]
        | _ :: _ :: _ => simp only [Rel.setAdv, Rel.directOutputSchema]
    | _ => simp only [Rel.setAdv, Rel.directOutputSchema]
  refine ⟨?_, hc, ?_, ?_, ?_, ?_⟩
  · cases r with
    | read c b k => cases k <;> rfl
    | _ => rfl
  · cases r with
    | read c b k => cases k <;> rfl
    | _ => rfl
  · have : (r.setAdv x).common.remap = r.common.remap := by
      funext ts; unfold RelCommon.remap; rw [hc]
    rw [Rel.recordType, Rel.recordType, hd, this]
  · intro y
    cases r with
    | read c b k => cases k <;> rfl
    | _ => rfl
  · cases r with
    | read c b k => cases k <;> rfl
    | _ => rfl

/-- **C134 (rows).** The rows are as before, too, unless files are read, whose extension is part of the
list of files an engine is given. -/
theorem C134_rows (r : Rel) (x : Option Nat) (h : ∀ c b items a, r ≠ .read c b (.files items a))
    (g : Engine) (vs : List Val) : (r.setAdv x).Yields g vs ↔ r.Yields g vs := by
  have hc : (r.setAdv x).common.mapping = r.common.mapping := (C134_rest r x).2.1
  have hm : ∀ ds, (r.setAdv x).Makes g ds ↔ r.Makes g ds := by
    intro ds
    cases r with
    | read c b k =>
      cases k with
      | files items a => exact absurd rfl (h c b items a)
      | _ => simp only [Rel.setAdv, Rel.Makes]
    | set c is op a => cases is <;> simp only [Rel.setAdv, Rel.Makes]
    | write c ns a s op i m => cases m <;> simp only [Rel.setAdv, Rel.Makes]
    | _ => simp only [Rel.setAdv, Rel.Makes]
  simp only [Rel.Yields, hm, RelCommon.EmitsRow, hc]

/-- **C134 (round trip).** Whatever relation is written, and whatever registry it is read with: if reading
succeeds, its advanced extension is the one of the relation written. -/
theorem C134_roundtrip (reg : Reg) (reg' : RelReg) (r r' : Rel) (m : RelMsg)
    (h : r.toProto reg = .ok m) (hr : Rel.fromProto reg' m = .ok r') : r'.getAdv = r.getAdv := by
  have hcm := C45_relation reg reg' r r' m h hr
  cases r with
  | read c b k =>
    simp only [Rel.toProto, Res.bind_eq_ok] at h
    obtain ⟨_, _, _, _, _, _, k', hk, h⟩ := h
    cases h
    simp only [Rel.fromProto, Res.bind_eq_ok] at hr
    obtain ⟨k'', hk', _, _, _, _, _, _, _, _, hr⟩ := hr
    cases hr
    cases k with
    | files items a =>
      simp only [ReadKind.toMsg] at hk
      cases hk
      simp only [readTypeFromProto] at hk'
      cases hk'
      rfl
    | named ns a =>
      simp only [ReadKind.toMsg] at hk
      cases hk
      simp only [readTypeFromProto] at hk'
      cases hk'
      rfl
    | extTable d =>
      simp only [ReadKind.toMsg] at hk
      cases hk
      simp only [readTypeFromProto] at hk'
      cases hk'
      rfl
    | virt vs =>
      simp only [ReadKind.toMsg, Res.bind_eq_ok] at hk
      obtain ⟨_, _, hk⟩ := hk
      cases hk
      simp only [readTypeFromProto] at hk'
      split at hk'
      · cases hk'
      · simp only [Res.bind_eq_ok] at hk'
        obtain ⟨_, _, _, _, hk'⟩ := hk'
        cases hk'
        rfl
    | iceberg uri t id a =>
      simp only [ReadKind.toMsg] at hk
      cases hk
      generalize snapshotToMsg t id = sn at hk'
      cases sn <;> (simp only [readTypeFromProto] at hk'; cases hk'; rfl)
  | project c i es adv =>
    simp only [Rel.toProto, Res.bind_eq_ok] at h
    obtain ⟨_, _, _, _, h⟩ := h
    cases h
    simp only [Rel.fromProto, common?_exact, Res.ok_bind, Res.bind_eq_ok] at hr
    obtain ⟨_, _, _, _, _, _, hr⟩ := hr
    split at hr <;> cases hr; rfl
  | join c l r e p t adv =>
    simp only [Rel.toProto, Res.bind_eq_ok] at h
    obtain ⟨_, _, _, _, _, _, _, _, h⟩ := h
    cases h
    simp only [Rel.fromProto] at hr
    split at hr
    · cases hr
    simp only [common_exact, Res.ok_bind, Res.bind_eq_ok] at hr
    obtain ⟨_, _, _, _, _, _, _, _, _, _, _, _, hr⟩ := hr
    cases hr; rfl
  | cross c l r adv =>
    simp only [Rel.toProto, Res.bind_eq_ok] at h
    obtain ⟨_, _, _, _, h⟩ := h
    cases h
    simp only [Rel.fromProto, common_exact, Res.ok_bind, Res.bind_eq_ok] at hr
    obtain ⟨_, _, _, _, hr⟩ := hr
    cases hr; rfl
  | fetch c i o n adv =>
    simp only [Rel.toProto, Res.bind_eq_ok] at h
    obtain ⟨_, _, h⟩ := h
    cases h
    simp only [Rel.fromProto, common?_exact, Res.ok_bind, Res.bind_eq_ok] at hr
    obtain ⟨_, _, hr⟩ := hr
    cases hr; rfl
  | aggregate c i ms es refs adv =>
    simp only [Rel.toProto, Res.bind_eq_ok] at h
    obtain ⟨_, _, _, _, _, _, h⟩ := h
    cases h
    simp only [Rel.fromProto, common_exact, Res.ok_bind, Res.bind_eq_ok] at hr
    obtain ⟨_, _, _, _, _, _, _, _, hr⟩ := hr
    cases hr; rfl
  | sort c i ss adv =>
    simp only [Rel.toProto, Res.bind_eq_ok] at h
    obtain ⟨_, _, _, _, h⟩ := h
    cases h
    simp only [Rel.fromProto, common_exact, Res.ok_bind, Res.bind_eq_ok] at hr
    obtain ⟨_, _, _, _, _, _, hr⟩ := hr
    split at hr <;> cases hr; rfl
  | filter c i e adv =>
    simp only [Rel.toProto, Res.bind_eq_ok] at h
    obtain ⟨_, _, _, _, h⟩ := h
    cases h
    simp only [Rel.fromProto, common?_exact, Res.ok_bind, Res.bind_eq_ok] at hr
    obtain ⟨_, _, _, _, _, _, hr⟩ := hr
    cases hr; rfl
  | set c is op adv =>
    simp only [Rel.toProto, Res.bind_eq_ok] at h
    obtain ⟨_, _, h⟩ := h
    cases h
    simp only [Rel.fromProto] at hr
    split at hr
    · cases hr
    simp only [Res.bind_eq_ok] at hr
    obtain ⟨is', _, hr⟩ := hr
    split at hr
    · cases hr
    split at hr
    · cases hr
    simp only [common_exact, Res.ok_bind, Res.bind_eq_ok] at hr
    obtain ⟨_, _, _, _, hr⟩ := hr
    cases hr; rfl
  | extSingle c i d =>
    simp only [Rel.toProto, Res.bind_eq_ok] at h
    obtain ⟨_, _, h⟩ := h
    cases h
    simp only [Rel.fromProto, common_exact, Res.ok_bind, Res.bind_eq_ok] at hr
    obtain ⟨_, _, _, _, hr⟩ := hr
    cases hr; rfl
  | extLeaf c d =>
    simp only [Rel.toProto] at h
    cases h
    simp only [Rel.fromProto, common_exact, Res.ok_bind, Res.bind_eq_ok] at hr
    obtain ⟨_, _, hr⟩ := hr
    cases hr; rfl
  | extMulti c is d =>
    simp only [Rel.toProto, Res.bind_eq_ok] at h
    obtain ⟨_, _, h⟩ := h
    cases h
    simp only [Rel.fromProto, common_exact, Res.ok_bind, Res.bind_eq_ok] at hr
    obtain ⟨_, _, _, _, hr⟩ := hr
    cases hr; rfl
  | hashJoin c l r ks p t adv =>
    simp only [Rel.toProto, Res.bind_eq_ok] at h
    obtain ⟨_, _, _, _, _, _, _, _, _, _, h⟩ := h
    cases h
    simp only [Rel.fromProto, common_exact, Res.ok_bind, Res.bind_eq_ok] at hr
    obtain ⟨_, _, _, _, _, _, _, _, _, _, hr⟩ := hr
    split at hr
    · cases hr; rfl
    · simp only [Res.bind_eq_ok] at hr
      obtain ⟨_, _, _, _, hr⟩ := hr
      cases hr; rfl
  | mergeJoin c l r ks p t adv =>
    simp only [Rel.toProto, Res.bind_eq_ok] at h
    obtain ⟨_, _, _, _, _, _, _, _, _, _, h⟩ := h
    cases h
    simp only [Rel.fromProto, common_exact, Res.ok_bind, Res.bind_eq_ok] at hr
    obtain ⟨_, _, _, _, _, _, _, _, _, _, hr⟩ := hr
    split at hr
    · cases hr; rfl
    · simp only [Res.bind_eq_ok] at hr
      obtain ⟨_, _, _, _, hr⟩ := hr
      cases hr; rfl
  | write c ns adv s op i mode =>
    simp only [Rel.toProto, Res.bind_eq_ok] at h
    obtain ⟨_, _, _, _, h⟩ := h
    cases h
    simp only [Rel.fromProto, common?_exact, Res.ok_bind, Res.bind_eq_ok] at hr
    obtain ⟨_, _, _, _, hr⟩ := hr
    split at hr
    · cases hr; rfl
    · cases hr

example : ∃ m r', Rel.toProto exRelReg.toReg (exIceberg.setAdv (some 9)) = .ok m ∧
    Rel.fromProto exRelReg m = .ok r' := by
  refine ⟨.read (some ⟨none, none, .direct⟩) (some ⟨["a"], some (2, 0, [.prim .i32 2 0])⟩) .nil .nil none
    (some 9) (.iceberg (some ("u", .id "7"))),
    .read {} { schema := { names := ["a"], types := [.prim .i32 2 0] }, adv := some 9 }
      (.iceberg "u" 0 "7" none), ?_, ?_⟩
  · simp [exIceberg, Rel.setAdv, Rel.toProto, NamedStruct.toMsg, Res.mapL, typeToProto,
      primToProto, Expr.optToProto, Expr.isNil, ReadKind.toMsg, snapshotToMsg, RelCommon.toMsg]
  · simp [Rel.fromProto, readTypeFromProto, commonFromProto?, commonFromProto, namedStructFromProto,
      Res.mapL, typeFromProto, primFromProto, Expr.optFromProto, ExprMsg.isNil]

/-- C134, in the message: the extension set on a relation is the one in the field `advanced_extension` of
its message. False: see the negation below. -/
def C134_statement : Prop :=
  ∀ (reg : Reg) (r : Rel) (m : RelMsg), r.toProto reg = .ok m → m.advanced = r.getAdv

/-- C134, in the message; missing: reads of files, whose extension becomes the one of the list of files
(`C134_files`). -/
theorem C134_wire_partial (reg : Reg) (r : Rel) (m : RelMsg)
    (hf : ∀ c b items a, r ≠ .read c b (.files items a)) (h : r.toProto reg = .ok m) :
    m.advanced = r.getAdv := by
  have hc : ∀ c : RelCommon, c.toMsg.adv = c.adv := by
    intro c; unfold RelCommon.toMsg; cases c.mapping <;> rfl
  cases r with
  | read c b k =>
    simp only [Rel.toProto, Res.bind_eq_ok] at h
    obtain ⟨_, _, _, _, _, _, k', hk, h⟩ := h
    cases h
    cases k with
    | files items a => exact absurd rfl (hf c b items a)
    | _ => rfl
  | extLeaf c d => simp only [Rel.toProto] at h; cases h; exact hc c
  | fetch | set | extSingle | extMulti =>
    simp only [Rel.toProto, Res.bind_eq_ok] at h
    obtain ⟨_, _, h⟩ := h
    cases h
    first | rfl | exact hc _
  | project | cross | sort | filter | write =>
    simp only [Rel.toProto, Res.bind_eq_ok] at h
    obtain ⟨_, _, _, _, h⟩ := h
    cases h
    first | rfl | exact hc _
  | aggregate =>
    simp only [Rel.toProto, Res.bind_eq_ok] at h
    obtain ⟨_, _, _, _, _, _, h⟩ := h
    cases h; rfl
  | join =>
    simp only [Rel.toProto, Res.bind_eq_ok] at h
    obtain ⟨_, _, _, _, _, _, _, _, h⟩ := h
    cases h; rfl
  | hashJoin | mergeJoin =>
    simp only [Rel.toProto, Res.bind_eq_ok] at h
    obtain ⟨_, _, _, _, _, _, _, _, _, _, h⟩ := h
    cases h; rfl

example : ∀ c b items a, sampleFetch ≠ .read c b (.files items a) := by simp [sampleFetch]

/-- ... for files it is the one of the list of files. -/
theorem C134_files (reg : Reg) (c : RelCommon) (b : BaseRead) (items : List FileItem) (a x : Option Nat)
    (m : RelMsg) (h : ((Rel.read c b (.files items a)).setAdv x).toProto reg = .ok m) :
    m.advanced = b.adv ∧ ∃ c' s f be p items', m = .read c' s f be p b.adv (.files items' x) := by
  simp only [Rel.setAdv, Rel.toProto, ReadKind.toMsg, Res.ok_bind, Res.bind_eq_ok] at h
  obtain ⟨_, _, _, _, _, _, h⟩ := h
  cases h
  exact ⟨rfl, _, _, _, _, _, _, rfl⟩

/-- a read of a list of no files -/
def exFiles : Rel := .read {} { schema := { names := [], types := [] } } (.files [] none)

/-- C134 is false as stated: the message of a read of files does not have the extension set. -/
theorem C134_negation : ¬ C134_statement := by
  intro h
  have hm : (exFiles.setAdv (some 3)).toProto exRelReg.toReg =
      .ok (.read (some ⟨none, none, .direct⟩) (some ⟨[], some (2, 0, [])⟩) .nil .nil none none
        (.files [] (some 3))) := by
    simp [exFiles, Rel.setAdv, Rel.toProto, NamedStruct.toMsg, Res.mapL, Expr.optToProto, Expr.isNil,
      ReadKind.toMsg, RelCommon.toMsg]
  cases h _ _ _ hm

/-- What is set on a copy of a relation with inputs does not show in the relation. -/
theorem C134_copy_partial (r : Rel) (ins : List Rel) (x : Option Nat) (h : ¬ r.IsLeaf) :
    r.afterSetOnCopy ins x = r := by
  unfold Rel.afterSetOnCopy
  have : r.copyIsReceiver = false := by
    cases r <;> first | rfl | exact absurd trivial h
  rw [this]
  cases r.copy ins <;> rfl

/-- ... but in every leaf, since its copy is the leaf itself. -/
theorem C134_negation_copy (r : Rel) (ins : List Rel) (x : Option Nat) (h : r.IsLeaf) :
    (r.afterSetOnCopy ins x).getAdv = x := by
  unfold Rel.afterSetOnCopy
  cases r <;> simp only [Rel.IsLeaf] at h
  · simp only [Rel.copy, Rel.copyIsReceiver, if_true]; exact (C134_set_get _ x).2
  · simp only [Rel.copy, Rel.copyIsReceiver, if_true]; exact (C134_set_get _ x).2

example : ¬ sampleFetch.IsLeaf ∧ sampleScan.IsLeaf := ⟨id, trivial⟩

end Verif
