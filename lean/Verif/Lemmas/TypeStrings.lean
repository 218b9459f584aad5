import Verif.Spec.TypeStrings
import Verif.Lemmas.LocalTypes
/-!
# Lemmas about the texts of types (C131)
-/

namespace Verif

namespace TyStr

/-- the kind of a type, as far as its name tells -/
inductive Kind where
  | prim (k : Prim) | fixed (k : Fixed) | prec (k : Prec) | decimal | compound | struct | func | list | map | udt | enum
  deriving DecidableEq

def Kind.all : List Kind :=
  [.prim .boolean, .prim .i8, .prim .i16, .prim .i32, .prim .i64, .prim .fp32, .prim .fp64, .prim .string, .prim .binary,
   .prim .timestamp, .prim .date, .prim .time, .prim .timestampTz, .prim .intervalYear, .prim .uuid,
   .fixed .fixedChar, .fixed .varChar, .fixed .fixedBinary,
   .prec .intervalDay, .prec .precisionTime, .prec .precisionTimestamp, .prec .precisionTimestampTz,
   .decimal, .compound, .struct, .func, .list, .map, .udt, .enum]

theorem Kind.mem_all (k : Kind) : k ∈ Kind.all := by
  cases k with
  | prim k => cases k <;> decide
  | fixed k => cases k <;> decide
  | prec k => cases k <;> decide
  | _ => decide

def Kind.name : Kind → List Char
  | .prim k => k.longName.toList
  | .fixed k => k.longName.toList
  | .prec k => k.longName.toList
  | .decimal => "decimal".toList
  | .compound => "interval_compound".toList
  | .struct => "struct".toList
  | .func => "func".toList
  | .list => "list".toList
  | .map => "map".toList
  | .udt => "user_defined_type".toList
  | .enum => "#".toList

theorem Kind.name_inj (k k' : Kind) (h : k.name = k'.name) : k = k' := by
  have : ∀ k ∈ Kind.all, ∀ k' ∈ Kind.all, k.name = k'.name → k = k' := by decide +kernel
  exact this k k.mem_all k' k'.mem_all h

def nameChar (c : Char) : Bool := c.isLower || c.isDigit || c == '_' || c == '#'

theorem Kind.name_chars (k : Kind) : k.name.all nameChar = true ∧ k.name ≠ [] := by
  have : ∀ k ∈ Kind.all, k.name.all nameChar = true ∧ k.name ≠ [] := by decide +kernel
  exact this k k.mem_all

def kind : Ty → Kind
  | .prim k .. => .prim k
  | .fixed k .. => .fixed k
  | .decimal .. => .decimal
  | .prec k .. => .prec k
  | .intervalCompound .. => .compound
  | .intervalYearToMonth .. => .prim .intervalYear
  | .enum .. => .enum
  | .struct .. => .struct
  | .func .. => .func
  | .list .. => .list
  | .map .. => .map
  | .udt .. => .udt

def mark (n : Nullability) : List Char := if n = NullabilityNullable then ['?'] else []

def null : Ty → Nullability
  | .prim _ n _ => n
  | .fixed _ n _ _ => n
  | .decimal n _ _ _ => n
  | .prec _ n _ _ => n
  | .intervalCompound _ n _ _ => n
  | .intervalYearToMonth n _ => n
  | .enum .. => 0
  | .struct n _ _ => n
  | .func n _ _ => n
  | .list n _ _ => n
  | .map n _ _ _ => n
  | .udt .. => 0

def chars (t : Ty) : List Char := t.string.toList

def listChars (ts : List Ty) : List Char := (joined (Ty.piecesList ts)).toList
def restChars (ts : List Ty) : List Char := (joined (Ty.piecesRest ts)).toList

def body : Ty → List Char
  | .prim .. => []
  | .fixed _ _ _ l => '<' :: intChars l.toInt ++ ['>']
  | .decimal _ _ s p => '<' :: intChars p.toInt ++ ',' :: intChars s.toInt ++ ['>']
  | .prec _ _ _ p => '<' :: intChars p.toInt ++ ['>']
  | .intervalCompound _ _ _ p => '<' :: intChars p.toInt ++ ['>']
  | .intervalYearToMonth .. => []
  | .enum .. => []
  | .struct _ _ ts => '<' :: listChars ts ++ ['>']
  | .func _ ps r => '<' :: listChars ps ++ ' ' :: '-' :: '>' :: ' ' :: chars r ++ ['>']
  | .list _ _ t => '<' :: chars t ++ ['>']
  | .map _ _ k v => '<' :: chars k ++ ',' :: ' ' :: chars v ++ ['>']
  | .udt .. => []

theorem strNullable_toList (n : Nullability) : (strNullable n).toList = mark n := by
  unfold strNullable mark
  split <;> rfl

theorem empty_chars (l : List Char) : l ++ "".toList = l := List.append_nil l

theorem chars_word (t : Ty) (s : String) (hp : t.pieces = [s]) (hk : (kind t).name = s.toList)
    (hm : mark (null t) = []) (hb : body t = []) : chars t = (kind t).name ++ mark (null t) ++ body t := by
  simp only [chars, Ty.string, hp, hk, hm, hb, joined_cons, joined_nil, String.toList_append, empty_chars, List.append_nil]

theorem chars_mark (t : Ty) (s : String) (n : Nullability) (hp : t.pieces = [s, strNullable n])
    (hk : (kind t).name = s.toList) (hn : null t = n) (hb : body t = []) :
    chars t = (kind t).name ++ mark (null t) ++ body t := by
  have h : chars t = s.toList ++ (mark n ++ "".toList) := by
    simp only [chars, Ty.string, hp, joined_cons, joined_nil, String.toList_append, strNullable_toList]
  rw [h, empty_chars, hk, hn, hb, List.append_nil]

theorem chars_args (t : Ty) (s : String) (n : Nullability) (mid : List String)
    (hp : t.pieces = [s, strNullable n, "<"] ++ mid ++ [">"])
    (hk : (kind t).name = s.toList) (hn : null t = n) (hb : body t = '<' :: (joined mid).toList ++ ['>']) :
    chars t = (kind t).name ++ mark (null t) ++ body t := by
  have h : chars t = s.toList ++ (mark n ++ ("<".toList ++ ((joined mid).toList ++ (">".toList ++ "".toList)))) := by
    simp only [chars, Ty.string, hp, joined_append, joined_cons, joined_nil, String.toList_append, strNullable_toList,
      List.cons_append, List.nil_append]
  rw [h, hk, hn, hb, List.append_assoc]
  rfl

theorem chars_eq (t : Ty) (h : kind t ≠ .enum) : chars t = (kind t).name ++ mark (null t) ++ body t := by
  cases t with
  | enum => exact absurd (show kind _ = Kind.enum by simp only [kind]) h
  | udt n v rf ps => exact chars_word _ "user_defined_type" (by simp only [Ty.pieces]) rfl rfl rfl
  | prim k n v => exact chars_mark _ k.longName n (by simp only [Ty.pieces]) rfl rfl rfl
  | intervalYearToMonth n v => exact chars_mark _ "interval_year" n (by simp only [Ty.pieces]) rfl rfl rfl
  | fixed k n v l =>
    exact chars_args _ k.longName n [intString l.toInt] (by simp only [Ty.pieces]; rfl) rfl rfl (by
      simp only [body, joined_cons, joined_nil, String.toList_append, empty_chars, intString_toList])
  | prec k n v p =>
    exact chars_args _ k.longName n [intString p.toInt] (by simp only [Ty.pieces]; rfl) rfl rfl (by
      simp only [body, joined_cons, joined_nil, String.toList_append, empty_chars, intString_toList])
  | intervalCompound q n v p =>
    exact chars_args _ "interval_compound" n [intString p.toInt] (by simp only [Ty.pieces]; rfl) rfl rfl (by
      simp only [body, joined_cons, joined_nil, String.toList_append, empty_chars, intString_toList])
  | decimal n v sc p =>
    exact chars_args _ "decimal" n [intString p.toInt, ",", intString sc.toInt] (by simp only [Ty.pieces]; rfl) rfl rfl (by
      simp only [body, joined_cons, joined_nil, String.toList_append, empty_chars, intString_toList, List.cons_append,
        List.append_assoc]
      rfl)
  | struct n v ts =>
    exact chars_args _ "struct" n (Ty.piecesList ts) (by simp only [Ty.pieces]) rfl rfl (by
      simp only [body, listChars])
  | list n v t =>
    exact chars_args _ "list" n t.pieces (by simp only [Ty.pieces]) rfl rfl (by
      simp only [body, chars, Ty.string])
  | map n v k e =>
    exact chars_args _ "map" n (k.pieces ++ [", "] ++ e.pieces) (by simp only [Ty.pieces, List.append_assoc]) rfl rfl (by
      simp only [body, chars, Ty.string, joined_append, String.toList_append, joined_cons, joined_nil, List.append_assoc,
        List.cons_append]
      rfl)
  | func n ps r =>
    exact chars_args _ "func" n (Ty.piecesList ps ++ [" -> "] ++ r.pieces) (by simp only [Ty.pieces, List.append_assoc])
      rfl rfl (by
      simp only [body, chars, Ty.string, listChars, joined_append, String.toList_append, joined_cons, joined_nil,
        List.append_assoc, List.cons_append]
      rfl)

theorem listChars_nil : listChars [] = [] := rfl
theorem listChars_cons (t : Ty) (ts : List Ty) : listChars (t :: ts) = chars t ++ restChars ts := by
  simp only [listChars, Ty.piecesList, joined_append, String.toList_append, restChars, chars, Ty.string]
theorem restChars_nil : restChars [] = [] := rfl
theorem restChars_cons (t : Ty) (ts : List Ty) : restChars (t :: ts) = ',' :: ' ' :: (chars t ++ restChars ts) := by
  simp only [Ty.piecesRest, joined_append, joined_cons, String.toList_append, restChars, chars, Ty.string,
    List.cons_append]
  rfl

/-- what may stand behind a type -/
def Delim (r : List Char) : Prop := ∀ c ∈ r.head?, c = ',' ∨ c = ' ' ∨ c = '>'

/-- equal texts made of a word of some characters and something that does not begin with such a character -/
theorem span_eq (p : Char → Bool) : ∀ (a b r s : List Char), a.all p = true → b.all p = true →
    (∀ c ∈ r.head?, p c = false) → (∀ c ∈ s.head?, p c = false) → a ++ r = b ++ s → a = b ∧ r = s
  | [], [], r, s, _, _, _, _, h => ⟨rfl, h⟩
  | [], y :: b, r, s, _, hb, hr, _, h => by
      simp only [List.nil_append, List.cons_append] at h
      subst h
      have := hr y (by simp)
      simp [this] at hb
  | x :: a, [], r, s, ha, _, _, hs, h => by
      simp only [List.nil_append, List.cons_append] at h
      subst h
      have := hs x (by simp)
      simp [this] at ha
  | x :: a, y :: b, r, s, ha, hb, hr, hs, h => by
      simp only [List.cons_append, List.cons.injEq] at h
      simp only [List.all_cons, Bool.and_eq_true] at ha hb
      obtain ⟨h1, h2⟩ := span_eq p a b r s ha.2 hb.2 hr hs h.2
      exact ⟨by rw [h.1, h1], h2⟩

theorem body_head (t : Ty) (r : List Char) (hr : Delim r) :
    ∀ c ∈ (body t ++ r).head?, c = '<' ∨ c = ',' ∨ c = ' ' ∨ c = '>' := by
  intro c hc
  cases t <;> simp only [body, List.nil_append, List.cons_append, List.head?_cons, Option.mem_def, Option.some.injEq] at hc <;>
    first
    | exact .inl hc.symm
    | exact .inr (hr c hc)

theorem notName {c : Char} (h : c = '?' ∨ c = '<' ∨ c = ',' ∨ c = ' ' ∨ c = '>') : nameChar c = false := by
  rcases h with h | h | h | h | h <;> subst h <;> decide

theorem head_split (a b : Ty) (r s : List Char) (ha : kind a ≠ .enum) (hb : kind b ≠ .enum) (hr : Delim r)
    (hs : Delim s) (h : chars a ++ r = chars b ++ s) :
    kind a = kind b ∧ mark (null a) = mark (null b) ∧ body a ++ r = body b ++ s := by
  rw [chars_eq a ha, chars_eq b hb] at h
  simp only [List.append_assoc] at h
  have key : ∀ (t : Ty) (q : List Char), Delim q → ∀ c ∈ (mark (null t) ++ (body t ++ q)).head?, nameChar c = false := by
    intro t q hq c hc
    unfold mark at hc
    split at hc
    · simp only [List.cons_append, List.head?_cons, Option.mem_def, Option.some.injEq] at hc
      exact notName (.inl hc.symm)
    · exact notName (.inr (body_head t q hq c hc))
  obtain ⟨h1, h2⟩ := span_eq nameChar _ _ _ _ (Kind.name_chars _).1 (Kind.name_chars _).1 (key a r hr) (key b s hs) h
  obtain ⟨h3, h4⟩ := span_eq (· == '?') (mark (null a)) (mark (null b)) (body a ++ r) (body b ++ s)
    (by unfold mark; split <;> rfl) (by unfold mark; split <;> rfl)
    (fun c hc => by rcases body_head a r hr c hc with e | e | e | e <;> subst e <;> rfl)
    (fun c hc => by rcases body_head b s hs c hc with e | e | e | e <;> subst e <;> rfl) h2
  exact ⟨Kind.name_inj _ _ h1, h3, h4⟩

theorem mark_inj {n n' : Nullability} (h : mark n = mark n') :
    (if n = NullabilityNullable then NullabilityNullable else NullabilityRequired) =
      (if n' = NullabilityNullable then NullabilityNullable else NullabilityRequired) := by
  unfold mark at h
  split at h <;> split at h <;> simp_all

theorem int_span (x y : Int32) (c : Char) (r s : List Char) (hc : c = ',' ∨ c = '>')
    (h : intChars x.toInt ++ c :: r = intChars y.toInt ++ c :: s) : x = y ∧ r = s := by
  have hn : ∀ i : Int, (intChars i).all (· != c) = true := by
    intro i
    rw [List.all_eq_true]
    intro d hd
    simp only [bne_iff_ne, ne_eq]
    intro e
    subst e
    exact intChars_not_mem i d (by rcases hc with e | e <;> subst e <;> decide)
      (by rcases hc with e | e <;> subst e <;> decide) hd
  obtain ⟨h1, h2⟩ := span_eq (· != c) _ _ _ _ (hn _) (hn _) (by simp) (by simp) h
  simp only [List.cons.injEq, true_and] at h2
  have h3 := congrArg parseInt32 h1
  rw [parseInt32_intChars, parseInt32_intChars] at h3
  exact ⟨Res.ok.inj h3, h2⟩

theorem delim_cons {c : Char} {r : List Char} (h : c = ',' ∨ c = ' ' ∨ c = '>') : Delim (c :: r) := by
  intro d hd
  simp only [List.head?_cons, Option.mem_def, Option.some.injEq] at hd
  exact hd ▸ h

theorem noEnum_kind {t : Ty} (h : t.NoEnums) : kind t ≠ .enum := by
  cases t <;> simp_all [kind, Ty.NoEnums]

theorem chars_head (t : Ty) (h : kind t ≠ .enum) (r : List Char) : ∀ c ∈ (chars t ++ r).head?, nameChar c = true := by
  intro c hc
  rw [chars_eq t h] at hc
  have h1 := Kind.name_chars (kind t)
  cases e : (kind t).name with
  | nil => exact (h1.2 e).elim
  | cons d l =>
    rw [e] at hc h1
    simp only [List.cons_append, List.head?_cons, Option.mem_def, Option.some.injEq] at hc
    subst hc
    simp only [List.all_cons, Bool.and_eq_true] at h1
    exact h1.1.1

theorem chars_ne (t : Ty) (h : kind t ≠ .enum) (r : List Char) (c : Char) (s : List Char) (hc : nameChar c = false) :
    chars t ++ r ≠ c :: s := by
  intro e
  have := chars_head t h r c (by rw [e]; rfl)
  rw [hc] at this
  cases this

mutual
theorem decode : ∀ (a b : Ty) (r s : List Char), a.NoEnums → b.NoEnums → Delim r → Delim s →
    chars a ++ r = chars b ++ s → a.shown = b.shown ∧ r = s
  | a, b, r, s, ha, hb, hr, hs, h => by
    replace h := head_split a b r s (noEnum_kind ha) (noEnum_kind hb) hr hs h
    obtain ⟨hk, hm, h⟩ := h
    cases ea : a with
    | prim k n v =>
      subst ea
      cases b <;> simp only [kind, reduceCtorEq, Kind.prim.injEq] at hk <;>
        simp only [body, List.nil_append, null] at h hm <;>
        exact ⟨by simp only [Ty.shown, hk, mark_inj hm], h⟩
    | intervalYearToMonth n v =>
      subst ea
      cases b with
      | prim k' n' v' =>
        simp only [kind, Kind.prim.injEq] at hk
        subst hk
        simp only [body, List.nil_append, null] at h hm
        exact ⟨by simp only [Ty.shown, mark_inj hm], h⟩
      | intervalYearToMonth n' v' =>
        simp only [body, List.nil_append, null] at h hm
        exact ⟨by simp only [Ty.shown, mark_inj hm], h⟩
      | _ => simp only [kind, reduceCtorEq] at hk
    | fixed k n v l =>
      subst ea
      cases b <;> simp only [kind, reduceCtorEq, Kind.fixed.injEq] at hk
      simp only [body, List.cons_append, List.append_assoc, List.cons.injEq, true_and, null, List.nil_append] at h hm
      obtain ⟨h1, h2⟩ := int_span _ _ _ _ _ (.inr rfl) h
      exact ⟨by simp only [Ty.shown, hk, mark_inj hm, h1], h2⟩
    | prec k n v l =>
      subst ea
      cases b <;> simp only [kind, reduceCtorEq, Kind.prec.injEq] at hk
      simp only [body, List.cons_append, List.append_assoc, List.cons.injEq, true_and, null, List.nil_append] at h hm
      obtain ⟨h1, h2⟩ := int_span _ _ _ _ _ (.inr rfl) h
      exact ⟨by simp only [Ty.shown, hk, mark_inj hm, h1], h2⟩
    | intervalCompound k n v l =>
      subst ea
      cases b <;> simp only [kind, reduceCtorEq] at hk
      simp only [body, List.cons_append, List.append_assoc, List.cons.injEq, true_and, null, List.nil_append] at h hm
      obtain ⟨h1, h2⟩ := int_span _ _ _ _ _ (.inr rfl) h
      exact ⟨by simp only [Ty.shown, mark_inj hm, h1], h2⟩
    | decimal n v sc p =>
      subst ea
      cases b <;> simp only [kind, reduceCtorEq] at hk
      simp only [body, List.cons_append, List.append_assoc, List.cons.injEq, true_and, null, List.nil_append] at h hm
      obtain ⟨h1, h2⟩ := int_span _ _ _ _ _ (.inl rfl) h
      obtain ⟨h3, h4⟩ := int_span _ _ _ _ _ (.inr rfl) h2
      exact ⟨by simp only [Ty.shown, mark_inj hm, h1, h3], h4⟩
    | udt n v rf ps =>
      subst ea
      cases b <;> simp only [kind, reduceCtorEq] at hk
      simp only [body, List.nil_append] at h
      exact ⟨by simp only [Ty.shown], h⟩
    | enum => subst ea; exact ha.elim
    | list n v t =>
      subst ea
      cases b <;> simp only [kind, reduceCtorEq] at hk
      rename_i n' v' t'
      simp only [body, List.cons_append, List.append_assoc, List.cons.injEq, true_and, null, List.nil_append] at h hm
      simp only [Ty.NoEnums] at ha hb
      obtain ⟨h1, h2⟩ := decode t t' _ _ ha hb (delim_cons (.inr (.inr rfl))) (delim_cons (.inr (.inr rfl))) h
      simp only [List.cons.injEq, true_and] at h2
      exact ⟨by simp only [Ty.shown, mark_inj hm, h1], h2⟩
    | map n v k e =>
      subst ea
      cases b <;> simp only [kind, reduceCtorEq] at hk
      rename_i n' v' k' e'
      simp only [body, List.cons_append, List.append_assoc, List.cons.injEq, true_and, null, List.nil_append] at h hm
      simp only [Ty.NoEnums] at ha hb
      obtain ⟨h1, h2⟩ := decode k k' _ _ ha.1 hb.1 (delim_cons (.inl rfl)) (delim_cons (.inl rfl)) h
      simp only [List.cons.injEq, true_and] at h2
      obtain ⟨h3, h4⟩ := decode e e' _ _ ha.2 hb.2 (delim_cons (.inr (.inr rfl))) (delim_cons (.inr (.inr rfl))) h2
      simp only [List.cons.injEq, true_and] at h4
      exact ⟨by simp only [Ty.shown, mark_inj hm, h1, h3], h4⟩
    | struct n v ts =>
      subst ea
      cases b <;> simp only [kind, reduceCtorEq] at hk
      rename_i n' v' ts'
      simp only [body, List.cons_append, List.append_assoc, List.cons.injEq, true_and, null, List.nil_append] at h hm
      simp only [Ty.NoEnums] at ha hb
      obtain ⟨h1, h2⟩ := decodeList ts ts' '>' _ _ ha hb (.inr rfl) h
      exact ⟨by simp only [Ty.shown, mark_inj hm, h1], h2⟩
    | func n ps t =>
      subst ea
      cases b <;> simp only [kind, reduceCtorEq] at hk
      rename_i n' ps' t'
      simp only [body, List.cons_append, List.append_assoc, List.cons.injEq, true_and, null, List.nil_append] at h hm
      simp only [Ty.NoEnums] at ha hb
      obtain ⟨h1, h2⟩ := decodeList ps ps' ' ' _ _ ha.1 hb.1 (.inl rfl) h
      simp only [List.cons.injEq, true_and] at h2
      obtain ⟨h3, h4⟩ := decode t t' _ _ ha.2 hb.2 (delim_cons (.inr (.inr rfl))) (delim_cons (.inr (.inr rfl))) h2
      simp only [List.cons.injEq, true_and] at h4
      exact ⟨by simp only [Ty.shown, mark_inj hm, h1, h3], h4⟩
termination_by a => (sizeOf a, 0)
decreasing_by all_goals (try subst ea); simp_wf; omega
theorem decodeList : ∀ (ts us : List Ty) (e : Char) (r s : List Char), Ty.NoEnumsList ts → Ty.NoEnumsList us →
    (e = ' ' ∨ e = '>') → listChars ts ++ e :: r = listChars us ++ e :: s →
    Ty.shownList ts = Ty.shownList us ∧ r = s
  | [], [], e, r, s, _, _, _, h => by
      simp only [listChars_nil, List.nil_append, List.cons.injEq, true_and] at h
      exact ⟨rfl, h⟩
  | [], u :: us, e, r, s, _, hu, he, h => by
      rw [listChars_nil, listChars_cons, List.append_assoc, List.nil_append] at h
      exact (chars_ne u (noEnum_kind hu.1) _ e r (notName (by rcases he with x | x <;> subst x <;> simp)) h.symm).elim
  | t :: ts, [], e, r, s, ht, _, he, h => by
      rw [listChars_nil, listChars_cons, List.append_assoc, List.nil_append] at h
      exact (chars_ne t (noEnum_kind ht.1) _ e s (notName (by rcases he with x | x <;> subst x <;> simp)) h).elim
  | t :: ts, u :: us, e, r, s, ht, hu, he, h => by
      rw [listChars_cons, listChars_cons, List.append_assoc, List.append_assoc] at h
      have hd : ∀ (l : List Ty) (q : List Char), Delim (restChars l ++ e :: q) := by
        intro l q
        cases l with
        | nil => rw [restChars_nil]; exact delim_cons (.inr he)
        | cons x l => rw [restChars_cons]; exact delim_cons (.inl rfl)
      obtain ⟨h1, h2⟩ := decode t u _ _ ht.1 hu.1 (hd _ _) (hd _ _) h
      obtain ⟨h3, h4⟩ := decodeRest ts us e r s ht.2 hu.2 he h2
      exact ⟨by simp only [Ty.shownList, h1, h3], h4⟩
termination_by ts => (sizeOf ts, 0)
theorem decodeRest : ∀ (ts us : List Ty) (e : Char) (r s : List Char), Ty.NoEnumsList ts → Ty.NoEnumsList us →
    (e = ' ' ∨ e = '>') → restChars ts ++ e :: r = restChars us ++ e :: s →
    Ty.shownList ts = Ty.shownList us ∧ r = s
  | [], [], e, r, s, _, _, _, h => by
      simp only [restChars_nil, List.nil_append, List.cons.injEq, true_and] at h
      exact ⟨rfl, h⟩
  | [], u :: us, e, r, s, _, hu, he, h => by
      rw [restChars_nil, restChars_cons, List.nil_append] at h
      simp only [List.cons_append, List.cons.injEq] at h
      rcases he with x | x <;> rw [x] at h <;> exact absurd h.1 (by decide)
  | t :: ts, [], e, r, s, ht, _, he, h => by
      rw [restChars_nil, restChars_cons, List.nil_append] at h
      simp only [List.cons_append, List.cons.injEq] at h
      rcases he with x | x <;> rw [x] at h <;> exact absurd h.1 (by decide)
  | t :: ts, u :: us, e, r, s, ht, hu, he, h => by
      rw [restChars_cons, restChars_cons] at h
      simp only [List.cons_append, List.cons.injEq, true_and, List.append_assoc] at h
      have hd : ∀ (l : List Ty) (q : List Char), Delim (restChars l ++ e :: q) := by
        intro l q
        cases l with
        | nil => rw [restChars_nil]; exact delim_cons (.inr he)
        | cons x l => rw [restChars_cons]; exact delim_cons (.inl rfl)
      obtain ⟨h1, h2⟩ := decode t u _ _ ht.1 hu.1 (hd _ _) (hd _ _) h
      obtain ⟨h3, h4⟩ := decodeRest ts us e r s ht.2 hu.2 he h2
      exact ⟨by simp only [Ty.shownList, h1, h3], h4⟩
termination_by ts => (sizeOf ts, 0)
end

mutual
theorem pieces_shown : ∀ t : Ty, t.shown.pieces = t.pieces
  | .prim k n _ => by simp only [Ty.shown, Ty.pieces, strNullable]; split <;> rfl
  | .fixed k n _ l => by simp only [Ty.shown, Ty.pieces, strNullable]; split <;> rfl
  | .decimal n _ s p => by simp only [Ty.shown, Ty.pieces, strNullable]; split <;> rfl
  | .prec k n _ p => by simp only [Ty.shown, Ty.pieces, strNullable]; split <;> rfl
  | .intervalCompound _ n _ p => by simp only [Ty.shown, Ty.pieces, strNullable]; split <;> rfl
  | .intervalYearToMonth n _ => by simp only [Ty.shown, Ty.pieces, strNullable]; split <;> rfl
  | .enum _ _ _ name _ => by simp only [Ty.shown, Ty.pieces]
  | .struct n _ ts => by simp only [Ty.shown, Ty.pieces, strNullable, pieces_shownList ts]; split <;> rfl
  | .func n ps r => by simp only [Ty.shown, Ty.pieces, strNullable, pieces_shownList ps, pieces_shown r]; split <;> rfl
  | .list n _ t => by simp only [Ty.shown, Ty.pieces, strNullable, pieces_shown t]; split <;> rfl
  | .map n _ k v => by simp only [Ty.shown, Ty.pieces, strNullable, pieces_shown k, pieces_shown v]; split <;> rfl
  | .udt .. => by simp only [Ty.shown, Ty.pieces]
theorem pieces_shownList : ∀ ts : List Ty, Ty.piecesList (Ty.shownList ts) = Ty.piecesList ts
  | [] => rfl
  | t :: ts => by simp only [Ty.shownList, Ty.piecesList, pieces_shown t, pieces_shownRest ts]
theorem pieces_shownRest : ∀ ts : List Ty, Ty.piecesRest (Ty.shownList ts) = Ty.piecesRest ts
  | [] => rfl
  | t :: ts => by simp only [Ty.shownList, Ty.piecesRest, pieces_shown t, pieces_shownRest ts]
end

mutual
theorem told_shown : ∀ t : Ty, t.Told → t.shown = t ∧ t.NoEnums
  | .prim k n v, h => by rcases h with ⟨h | h, h'⟩ <;> subst h h' <;> exact ⟨rfl, trivial⟩
  | .fixed k n v l, h => by rcases h with ⟨h | h, h'⟩ <;> subst h h' <;> exact ⟨rfl, trivial⟩
  | .decimal n v s p, h => by rcases h with ⟨h | h, h'⟩ <;> subst h h' <;> exact ⟨rfl, trivial⟩
  | .prec k n v p, h => by rcases h with ⟨h | h, h'⟩ <;> subst h h' <;> exact ⟨rfl, trivial⟩
  | .intervalCompound _ n v p, h => by rcases h with ⟨h1, h | h, h'⟩ <;> subst h1 h h' <;> exact ⟨rfl, trivial⟩
  | .intervalYearToMonth .., h => h.elim
  | .enum .., h => h.elim
  | .struct n v ts, h => by
      simp only [Ty.Told] at h
      have := told_shownList ts h.2.2
      simp only [Ty.shown, Ty.NoEnums, this.1, this.2, and_true]
      rcases h with ⟨h | h, h', _⟩ <;> subst h h' <;> rfl
  | .func n ps r, h => by
      simp only [Ty.Told] at h
      have h1 := told_shownList ps h.2.1
      have h2 := told_shown r h.2.2
      simp only [Ty.shown, Ty.NoEnums, h1.1, h1.2, h2.1, h2.2, and_true]
      rcases h with ⟨h | h, _⟩ <;> subst h <;> rfl
  | .list n v t, h => by
      simp only [Ty.Told] at h
      have := told_shown t h.2.2
      simp only [Ty.shown, Ty.NoEnums, this.1, this.2, and_true]
      rcases h with ⟨h | h, h', _⟩ <;> subst h h' <;> rfl
  | .map n v k e, h => by
      simp only [Ty.Told] at h
      have h1 := told_shown k h.2.2.1
      have h2 := told_shown e h.2.2.2
      simp only [Ty.shown, Ty.NoEnums, h1.1, h1.2, h2.1, h2.2, and_true]
      rcases h with ⟨h | h, h', _⟩ <;> subst h h' <;> rfl
  | .udt .., h => h.elim
theorem told_shownList : ∀ ts : List Ty, Ty.ToldList ts → Ty.shownList ts = ts ∧ Ty.NoEnumsList ts
  | [], _ => ⟨rfl, trivial⟩
  | t :: ts, h => by
      have h1 := told_shown t h.1
      have h2 := told_shownList ts h.2
      exact ⟨by simp only [Ty.shownList, h1.1, h2.1], h1.2, h2.2⟩
end

end TyStr

end Verif
