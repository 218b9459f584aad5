import Verif.Spec.Overloads
import Verif.Props.Collection
import Verif.Lemmas.DialectFile
import Verif.Lemmas.FuncName
/-!
# Overloads of a function do not hide each other (C127)
-/

namespace Verif

/-! ## C127 -/

/-- the short name of a kind -/
private def ParamKind.short : ParamKind → String
  | .nothing => ""
  | .enum => "req"
  | .type => "type"
  | .any => "any"
  | .prim k => k.shortString
  | .single k => k.shortString
  | .decimal => "dec"
  | .list => "list"
  | .map => "map"
  | .struct => "struct"
  | .func => "func"
  | .user n => "u!" ++ n

private theorem FTy.short : ∀ t : FTy, t.shortString = t.kind.short
  | .prim .. => rfl
  | .any .. => rfl
  | .enum .. => rfl
  | .single .. => rfl
  | .decimal .. => rfl
  | .list .. => rfl
  | .map .. => rfl
  | .struct .. => rfl
  | .func .. => rfl
  | .udt .. => rfl
  | .derivation _ f => by rw [FTy.shortString, FTy.kind]; exact FTy.short f

private theorem FuncParam.short {p : FuncParam} {s : String} (h : p.toTypeString = .ok s) :
    s = p.kind.short ∧ p ≠ .missing := by
  cases p with
  | missing => simp [FuncParam.toTypeString] at h
  | enum => simp [FuncParam.toTypeString] at h; subst h; exact ⟨rfl, by simp⟩
  | type => simp [FuncParam.toTypeString] at h; subst h; exact ⟨rfl, by simp⟩
  | value t => simp [FuncParam.toTypeString] at h; subst h; exact ⟨FTy.short t, by simp⟩

/-- the kinds that have a fixed short name -/
private def ParamKind.code : ParamKind → Nat
  | .nothing => 0
  | .enum => 1
  | .type => 2
  | .any => 3
  | .prim .boolean => 4
  | .prim .i8 => 5
  | .prim .i16 => 6
  | .prim .i32 => 7
  | .prim .i64 => 8
  | .prim .fp32 => 9
  | .prim .fp64 => 10
  | .prim .string => 11
  | .prim .binary => 12
  | .prim .timestamp => 13
  | .prim .date => 14
  | .prim .time => 15
  | .prim .timestampTz => 16
  | .prim .intervalYear => 17
  | .prim .uuid => 18
  | .single (.fixed .fixedChar) => 19
  | .single (.fixed .varChar) => 20
  | .single (.fixed .fixedBinary) => 21
  | .single (.prec .intervalDay) => 22
  | .single (.prec .precisionTime) => 23
  | .single (.prec .precisionTimestamp) => 24
  | .single (.prec .precisionTimestampTz) => 25
  | .decimal => 26
  | .list => 27
  | .map => 28
  | .struct => 29
  | .func => 30
  | .user _ => 31

private def shortNames : List String :=
  ["", "req", "type", "any", "bool", "i8", "i16", "i32", "i64", "fp32", "fp64", "str", "vbin", "ts", "date",
   "time", "tstz", "iyear", "uuid", "fchar", "vchar", "fbin", "iday", "pt", "pts", "ptstz", "dec", "list", "map",
   "struct", "func"]

private theorem short_code (k : ParamKind) (h : ∀ n, k ≠ .user n) : shortNames[k.code]? = some k.short := by
  cases k with
  | user n => exact absurd rfl (h n)
  | prim k => cases k <;> rfl
  | single k => cases k with
    | fixed k => cases k <;> rfl
    | prec k => cases k <;> rfl
  | _ => rfl

private theorem shortNames_nodup : shortNames.Nodup := by decide +kernel

private theorem code_inj {a b : ParamKind} (ha : ∀ n, a ≠ .user n) (hb : ∀ n, b ≠ .user n)
    (h : a.code = b.code) : a = b := by
  cases a with
  | user n => exact absurd rfl (ha n)
  | prim k => cases b with
    | user n => exact absurd rfl (hb n)
    | prim k' => cases k <;> cases k' <;> first | rfl | simp [ParamKind.code] at h
    | single k' => cases k <;> cases k' <;> rename_i k' <;> cases k' <;> simp [ParamKind.code] at h
    | _ => cases k <;> simp [ParamKind.code] at h
  | single k => cases b with
    | user n => exact absurd rfl (hb n)
    | prim k' => cases k <;> rename_i k <;> cases k <;> cases k' <;> simp [ParamKind.code] at h
    | single k' =>
      cases k <;> cases k' <;> rename_i k k' <;> cases k <;> cases k' <;> first | rfl | simp [ParamKind.code] at h
    | _ => cases k <;> rename_i k <;> cases k <;> simp [ParamKind.code] at h
  | _ => cases b with
    | user n => exact absurd rfl (hb n)
    | prim k' => cases k' <;> simp [ParamKind.code] at h
    | single k' => cases k' <;> rename_i k' <;> cases k' <;> simp [ParamKind.code] at h
    | _ => first | rfl | simp [ParamKind.code] at h

private theorem short_plain (k : ParamKind) (h : ∀ n, k ≠ .user n) :
    '_' ∉ k.short.toList ∧ k.short.toList.take 2 ≠ ['u', '!'] := by
  have h1 := List.mem_of_getElem? (short_code k h)
  have : ∀ s ∈ shortNames, '_' ∉ s.toList ∧ s.toList.take 2 ≠ ['u', '!'] := by decide +kernel
  exact this _ h1

private theorem user_short (n : String) : (ParamKind.user n).short.toList = 'u' :: '!' :: n.toList := by
  simp only [ParamKind.short, String.toList_append]
  rfl

private theorem short_inj {a b : ParamKind} (h : a.short = b.short) : a = b := by
  by_cases ha : ∃ n, a = .user n
  · obtain ⟨n, rfl⟩ := ha
    by_cases hb : ∃ n, b = .user n
    · obtain ⟨m, rfl⟩ := hb
      have h' := congrArg String.toList h
      rw [user_short, user_short] at h'
      simp only [List.cons.injEq, true_and] at h'
      rw [String.toList_inj.1 h']
    · have := (short_plain b (fun n e => hb ⟨n, e⟩)).2
      rw [← h, user_short] at this
      simp at this
  · by_cases hb : ∃ n, b = .user n
    · obtain ⟨m, rfl⟩ := hb
      have := (short_plain a (fun n e => ha ⟨n, e⟩)).2
      rw [h, user_short] at this
      simp at this
    · have ha' := fun n e => ha ⟨n, e⟩
      have hb' := fun n e => hb ⟨n, e⟩
      have h1 := short_code a ha'
      have h2 := short_code b hb'
      rw [h] at h1
      exact code_inj ha' hb' ((List.getElem?_inj
        (List.getElem?_eq_some_iff.1 h1).1 shortNames_nodup).1 (h1.trans h2.symm))

private theorem short_mapL {ps : List FuncParam} {ss : List String}
    (h : Res.mapL FuncParam.toTypeString ps = .ok ss) : ss = ps.map fun p => p.kind.short := by
  induction ps generalizing ss with
  | nil => simp [Res.mapL] at h; subst h; rfl
  | cons p ps ih =>
    rw [Res.mapL_cons] at h
    obtain ⟨s, h1, h⟩ := Res.bind_eq_ok.1 h
    obtain ⟨ts, h2, h3⟩ := Res.bind_eq_ok.1 h
    simp at h3; subst h3
    rw [List.map_cons, ih h2, (FuncParam.short h1).1]

private theorem missing_mapL {ps : List FuncParam} {ss : List String}
    (h : Res.mapL FuncParam.toTypeString ps = .ok ss) : ∀ p ∈ ps, p ≠ .missing := by
  induction ps generalizing ss with
  | nil => simp
  | cons p ps ih =>
    rw [Res.mapL_cons] at h
    obtain ⟨s, h1, h⟩ := Res.bind_eq_ok.1 h
    obtain ⟨ts, h2, h3⟩ := Res.bind_eq_ok.1 h
    intro q hq
    rcases List.mem_cons.1 hq with rfl | hq
    · exact (FuncParam.short h1).2
    · exact ih h2 q hq

private theorem kind_ne_nothing : ∀ t : FTy, t.kind ≠ .nothing
  | .derivation _ f => by rw [FTy.kind]; exact kind_ne_nothing f
  | .prim .. | .any .. | .enum .. | .single .. | .decimal .. | .list .. | .map .. | .struct .. | .func ..
  | .udt .. => by simp [FTy.kind]

private theorem short_ne {p : FuncParam} (h : p ≠ .missing) : p.kind.short ≠ "" := by
  intro e
  have : p.kind = .nothing := short_inj e
  cases p with
  | missing => exact h rfl
  | value t => exact kind_ne_nothing t this
  | enum => simp [FuncParam.kind] at this
  | type => simp [FuncParam.kind] at this

private theorem short_under {p : FuncParam} (h : p.PlainUser) : '_' ∉ p.kind.short.toList := by
  by_cases hu : ∃ n, p.kind = .user n
  · obtain ⟨n, hn⟩ := hu
    rw [hn, user_short]
    have := h n hn
    simp only [List.mem_cons, not_or]
    exact ⟨by decide, by decide, this⟩
  · exact (short_plain _ fun n e => hu ⟨n, e⟩).1

/-- C127 for signatures: parameter lists with one signature have parameters of the same kinds, if no name
of a user-defined type has an underscore. -/
theorem C127_signature_partial (ps qs : List FuncParam) (s : String) (hp : signatureKey ps = .ok s)
    (hq : signatureKey qs = .ok s) (hps : ∀ p ∈ ps, p.PlainUser) (hqs : ∀ q ∈ qs, q.PlainUser) :
    ps.map FuncParam.kind = qs.map FuncParam.kind := by
  obtain ⟨as, ha, ha'⟩ := Res.bind_eq_ok.1 hp
  obtain ⟨bs, hb, hb'⟩ := Res.bind_eq_ok.1 hq
  simp only [Res.ok.injEq] at ha' hb'
  have ea := short_mapL ha
  have eb := short_mapL hb
  have he : "_".intercalate as = "_".intercalate bs := ha'.trans hb'.symm
  have una : ∀ x ∈ as, '_' ∉ x.toList := by
    subst ea; intro x hx
    obtain ⟨p, hp, rfl⟩ := List.mem_map.1 hx
    exact short_under (hps p hp)
  have unb : ∀ x ∈ bs, '_' ∉ x.toList := by
    subst eb; intro x hx
    obtain ⟨p, hp, rfl⟩ := List.mem_map.1 hx
    exact short_under (hqs p hp)
  have nea : ∀ x ∈ as, x ≠ "" := by
    subst ea; intro x hx
    obtain ⟨p, hp, rfl⟩ := List.mem_map.1 hx
    exact short_ne (missing_mapL ha p hp)
  have neb : ∀ x ∈ bs, x ≠ "" := by
    subst eb; intro x hx
    obtain ⟨p, hp, rfl⟩ := List.mem_map.1 hx
    exact short_ne (missing_mapL hb p hp)
  have hab : as = bs := by
    by_cases h1 : as = []
    · by_cases h2 : bs = []
      · rw [h1, h2]
      · refine absurd ?_ (intercalate_ne_empty h2 neb)
        rw [← he, h1]; rfl
    · by_cases h2 : bs = []
      · refine absurd ?_ (intercalate_ne_empty h1 nea)
        rw [he, h2]; rfl
      · rw [← splitString_joined as h1 una, he, splitString_joined bs h2 unb]
  have : ps.map (fun p => p.kind.short) = qs.map (fun p => p.kind.short) := by rw [← ea, ← eb, hab]
  clear ea eb ha hb hp hq hps hqs
  induction ps generalizing qs with
  | nil => cases qs with
    | nil => rfl
    | cons => simp at this
  | cons p ps ih => cases qs with
    | nil => simp at this
    | cons q qs =>
      simp only [List.map_cons, List.cons.injEq] at this ⊢
      exact ⟨short_inj this.1, ih _ this.2⟩

/-- ... and conversely the kinds decide the signature. -/
theorem C127_signature_kinds (ps qs : List FuncParam) (h : ps.map FuncParam.kind = qs.map FuncParam.kind) :
    signatureKey ps = signatureKey qs := by
  have key : ∀ p q : FuncParam, p.kind = q.kind → p.toTypeString = q.toTypeString := by
    intro p q h
    have : ∀ p : FuncParam, p.toTypeString = if p.kind.short = "" then .panic else .ok p.kind.short := by
      intro p
      cases p with
      | missing => rfl
      | enum => rfl
      | type => rfl
      | value t =>
        have h1 := short_ne (p := .value t) (by simp)
        rw [if_neg h1]
        simp only [FuncParam.toTypeString, FuncParam.kind, FTy.short t]
    rw [this, this, h]
  have : Res.mapL FuncParam.toTypeString ps = Res.mapL FuncParam.toTypeString qs := by
    induction ps generalizing qs with
    | nil => cases qs with
      | nil => rfl
      | cons => simp at h
    | cons p ps ih => cases qs with
      | nil => simp at h
      | cons q qs =>
        simp only [List.map_cons, List.cons.injEq] at h
        rw [Res.mapL_cons, Res.mapL_cons, key p q h.1, ih qs h.2]
  rw [signatureKey, signatureKey, this]

example : signatureKey [.value (.decimal 2 (.var "P") (.var "S")), .value (.any 1 "any1")] = .ok "dec_any" ∧
    (FuncParam.value (.udt 2 0 "point" [])).PlainUser := by
  refine ⟨by decide +kernel, ?_⟩
  intro n h
  simp only [FuncParam.kind, FTy.kind, ParamKind.user.injEq] at h
  subst h
  decide

/-- C127 in full: an implementation with parameters of other kinds than the other implementations of the
function is found under its name and signature once the file is loaded. -/
def C127_statement : Prop :=
  ∀ (c c' : Collection) (f : ExtFile), c.Reachable → c.load (some f) = (c', .ok ()) → f.PlainNames →
    ∀ (p : FuncKind × FuncDecl), p ∈ f.declared → ∀ i ∈ p.2.impls, ∀ k, p.1.ServesAs k →
      f.Overloads k p.2.name i → ∀ sig, signatureKey i.args = .ok sig →
      ∃ v, c'.getFunc k ⟨f.urn, p.2.name ++ ":" ++ sig⟩ = some v ∧ v.Presents f.urn p.2.name i

/-- C127 for files in which no name of a user-defined type that is a parameter has an underscore. Missing:
those with one (`C127_negation`). -/
theorem C127_found_partial (c c' : Collection) (f : ExtFile) (hc : c.Reachable)
    (h : c.load (some f) = (c', .ok ())) (hn : f.PlainNames)
    (hu : ∀ p ∈ f.declared, ∀ i ∈ p.2.impls, ∀ a ∈ i.args, a.PlainUser)
    (p : FuncKind × FuncDecl) (hp : p ∈ f.declared) (i : Impl) (hi : i ∈ p.2.impls) (k : FuncKind)
    (hk : p.1.ServesAs k) (ho : f.Overloads k p.2.name i) (sig : String) (hs : signatureKey i.args = .ok sig) :
    ∃ v, c'.getFunc k ⟨f.urn, p.2.name ++ ":" ++ sig⟩ = some v ∧ v.Presents f.urn p.2.name i := by
  obtain ⟨v, h1, ⟨q, hq, hqk, j, hj, hpr⟩, h3⟩ := C67_found c c' f hc h p hp i hi k hk sig hs
  refine ⟨v, h1, ?_⟩
  simp only [Variant.compoundName] at h3
  obtain ⟨sj, hsj, h3⟩ := Res.bind_eq_ok.1 h3
  simp only [Res.ok.injEq] at h3
  rw [hpr.2.2.1] at hsj
  have hname : q.2.name = p.2.name := by
    rw [hpr.2.1] at h3
    exact name_of_compound h3 (hn q hq) (hn p hp)
  have hsig : sj = sig := by
    rw [hpr.2.1, hname] at h3
    have := congrArg String.toList h3
    simp only [String.toList_append, List.append_cancel_left_eq] at this
    exact String.toList_inj.1 this
  subst hsig
  have := ho q hq hname hqk j hj (C127_signature_partial _ _ _ hsj hs (hu q hq j hj) (hu p hp i hi))
  subst this
  rw [← hname]
  exact hpr

/-- the declared functions of a file with one scalar function -/
private theorem mem_scalar {f : ExtFile} {d : FuncDecl} (h : f.scalars = [d]) (h1 : f.aggregates = [])
    (h2 : f.windows = []) {p : FuncKind × FuncDecl} : p ∈ f.declared ↔ p = (.scalar, d) := by
  simp [ExtFile.declared, h, h1, h2]

/-- `distance`, for two points and for a point and a number -/
def overloadFile : ExtFile where
  urn := "extension:acme:geo"
  dependencies := []
  metadata := none
  types := [⟨"point", 1⟩]
  variations := []
  scalars := [⟨"distance", "",
    [⟨[.value (.udt 2 0 "point" []), .value (.udt 2 0 "point" [])], some (.prim .fp64 2 0), none, "", "", .mirror,
      none, {}⟩,
     ⟨[.value (.udt 2 0 "point" []), .value (.prim .i32 2 0)], some (.prim .fp32 2 0), none, "", "", .mirror,
      none, {}⟩], false, false⟩]
  aggregates := []
  windows := []

example : (Collection.zero.load (some overloadFile)).2 = .ok () ∧ overloadFile.PlainNames ∧
    (∀ p ∈ overloadFile.declared, ∀ i ∈ p.2.impls, ∀ a ∈ i.args, a.PlainUser) ∧
    ∀ p ∈ overloadFile.declared, ∀ i ∈ p.2.impls, overloadFile.Overloads .scalar p.2.name i := by
  refine ⟨rfl, ?_, ?_, ?_⟩
  · intro p hp
    rw [mem_scalar rfl rfl rfl] at hp
    subst hp
    decide +kernel
  · intro p hp i hi a ha n hn
    rw [mem_scalar rfl rfl rfl] at hp
    subst hp
    simp only [List.mem_cons, List.not_mem_nil, or_false] at hi
    rcases hi with rfl | rfl <;> simp only [List.mem_cons, List.not_mem_nil, or_false] at ha <;>
      rcases ha with rfl | rfl <;> simp [FuncParam.kind, FTy.kind] at hn <;> subst hn <;> decide
  · intro p hp i hi q hq _ _ j hj hij
    rw [mem_scalar rfl rfl rfl] at hp hq
    subst hp hq
    simp only [List.mem_cons, List.not_mem_nil, or_false] at hi hj
    rcases hi with rfl | rfl <;> rcases hj with rfl | rfl <;>
      first | rfl | (simp [FuncParam.kind, FTy.kind] at hij)

/-- `f`, for an `a_i32` and for an `a` and an `i32` -/
def hidingFile : ExtFile where
  urn := "extension:acme:geo"
  dependencies := []
  metadata := none
  types := [⟨"a", 1⟩, ⟨"a_i32", 2⟩]
  variations := []
  scalars := [⟨"f", "",
    [⟨[.value (.udt 2 0 "a_i32" [])], some (.prim .fp64 2 0), none, "", "", .mirror, none, {}⟩,
     ⟨[.value (.udt 2 0 "a" []), .value (.prim .i32 2 0)], some (.prim .fp32 2 0), none, "", "", .mirror,
      none, {}⟩], false, false⟩]
  aggregates := []
  windows := []

/-- C127 is false as stated: `f(u!a, i32)` hides `f(u!a_i32)`. -/
theorem C127_negation : ¬ C127_statement := by
  intro h
  obtain ⟨v, hv, hp⟩ := h .zero (Collection.zero.load (some hidingFile)).1 hidingFile .zero rfl
    (by
      intro p hp
      rw [mem_scalar rfl rfl rfl] at hp
      subst hp
      decide +kernel)
    (.scalar, ⟨"f", "",
      [⟨[.value (.udt 2 0 "a_i32" [])], some (.prim .fp64 2 0), none, "", "", .mirror, none, {}⟩,
       ⟨[.value (.udt 2 0 "a" []), .value (.prim .i32 2 0)], some (.prim .fp32 2 0), none, "", "", .mirror,
        none, {}⟩], false, false⟩) ((mem_scalar rfl rfl rfl).2 rfl)
    ⟨[.value (.udt 2 0 "a_i32" [])], some (.prim .fp64 2 0), none, "", "", .mirror, none, {}⟩ (by simp) .scalar
    (.inl rfl)
    (by
      intro q hq _ _ j hj hij
      rw [mem_scalar rfl rfl rfl] at hq
      subst hq
      simp only [List.mem_cons, List.not_mem_nil, or_false] at hj
      rcases hj with rfl | rfl
      · rfl
      · simp at hij)
    "u!a_i32" (by decide +kernel)
  have h1 := hp.2.2.1
  have h2 : ((Collection.zero.load (some hidingFile)).1.getFunc .scalar
      ⟨"extension:acme:geo", "f:u!a_i32"⟩).map (fun v => v.impl.args.length) = some 2 := by decide +kernel
  have h3 : (Collection.zero.load (some hidingFile)).1.getFunc .scalar
      ⟨"extension:acme:geo", "f:u!a_i32"⟩ = some v := hv
  rw [h3] at h2
  simp only [Option.map_some, Option.some.injEq] at h2
  rw [h1] at h2
  simp at h2

end Verif
