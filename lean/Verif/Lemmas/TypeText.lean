import Verif.Model.TypeParser
import Verif.Model.TypeText
import Verif.Spec.TypeText
import Verif.Lemmas.LocalTypes
import Mathlib.Tactic.Tauto
/-!
# The text of a type expression as tokens
-/

namespace Verif

/-- the tokens of a text, whatever bound large enough is given to the lexer -/
def Lexes (cs : List Char) (ts : List GTok) : Prop := ∀ n, cs.length ≤ n → lexN n cs = ts

theorem Lexes.lexText {cs ts} (h : Lexes cs ts) : lexText cs = ts := h _ (Nat.le_refl _)

theorem lexes_nil : Lexes [] [] := by
  intro n _
  cases n <;> rfl

theorem lexes_tok {c rest t ts} (r) (h : nextTok c rest = (some t, r)) (hl : r.length ≤ rest.length)
    (hr : Lexes r ts) : Lexes (c :: rest) (t :: ts) := by
  intro n hn
  cases n with
  | zero => simp at hn
  | succ n =>
    simp only [lexN, h]
    rw [hr n (by simp at hn; omega)]

theorem lexes_skip {c rest ts} (h : nextTok c rest = (none, rest)) (hr : Lexes rest ts) :
    Lexes (c :: rest) ts := by
  intro n hn
  cases n with
  | zero => simp at hn
  | succ n =>
    simp only [lexN, h]
    rw [hr n (by simp at hn; omega)]

/-- the characters after which a word, a number or a sign ends -/
def Sep : List Char → Prop
  | [] => True
  | c :: _ => c ∈ [' ', ',', '<', '>', '?', '(', ')', '\n']

theorem nextTok_space (r) : nextTok ' ' r = (none, r) := by cases r <;> rfl
theorem nextTok_comma (r) : nextTok ',' r = (some (.sign ","), r) := by cases r <;> rfl
theorem nextTok_mark (r) : nextTok '?' r = (some (.sign "?"), r) := by cases r <;> rfl
theorem nextTok_open (r) : nextTok '(' r = (some (.sign "("), r) := by cases r <;> rfl
theorem nextTok_close (r) : nextTok ')' r = (some (.sign ")"), r) := by cases r <;> rfl
theorem nextTok_newline (r) : nextTok '\n' r = (some .newline, r) := by cases r <;> rfl

theorem nextTok_lt (c r) (h : c ≠ '=') : nextTok '<' (c :: r) = (some (.sign "<"), c :: r) := by
  simp [nextTok, isIdStart, isDigitChar, h]

theorem sep_not (p : Char → Bool) (hp : ∀ c ∈ [' ', ',', '<', '>', '?', '(', ')', '\n'], p c = false) :
    ∀ rest, Sep rest → rest.takeWhile p = [] ∧ rest.dropWhile p = rest
  | [], _ => ⟨rfl, rfl⟩
  | c :: r, h => by
    have := hp c h
    simp [this]

theorem nextTok_gt (r) (h : Sep r) : nextTok '>' r = (some (.sign ">"), r) := by
  cases r with
  | nil => rfl
  | cons c r =>
    have : c ≠ '=' := by rintro rfl; revert h; simp [Sep]
    simp [nextTok, isIdStart, isDigitChar, this]

theorem lexes_word (c cs rest ts) (hc : isIdStart c = true) (hcs : ∀ d ∈ cs, isIdChar d = true)
    (hs : Sep rest) (h : Lexes rest ts) : Lexes (c :: cs ++ rest) (wordTok (c :: cs) :: ts) := by
  obtain ⟨h1, h2⟩ := sep_not isIdChar (by decide) rest hs
  have e : nextTok c (cs ++ rest) = (some (wordTok (c :: cs)), rest) := by
    have ht : (cs ++ rest).takeWhile isIdChar = cs := by
      rw [List.takeWhile_append_of_pos hcs, h1, List.append_nil]
    have hd : (cs ++ rest).dropWhile isIdChar = rest := by
      rw [List.dropWhile_append_of_pos hcs, h2]
    unfold nextTok
    rw [if_pos hc]
    simp only [ht, hd]
    split
    · rename_i r _ _
      revert hs; simp [Sep]
    · rfl
  exact lexes_tok rest e (by simp) h

theorem lexes_skip1 {rest ts} (h : Lexes rest ts) : Lexes (' ' :: rest) ts := lexes_skip (nextTok_space _) h
theorem lexes_comma {rest ts} (h : Lexes rest ts) : Lexes (',' :: rest) (.sign "," :: ts) :=
  lexes_tok _ (nextTok_comma _) (Nat.le_refl _) h
theorem lexes_mark {rest ts} (h : Lexes rest ts) : Lexes ('?' :: rest) (.sign "?" :: ts) :=
  lexes_tok _ (nextTok_mark _) (Nat.le_refl _) h
theorem lexes_open {rest ts} (h : Lexes rest ts) : Lexes ('(' :: rest) (.sign "(" :: ts) :=
  lexes_tok _ (nextTok_open _) (Nat.le_refl _) h
theorem lexes_close {rest ts} (h : Lexes rest ts) : Lexes (')' :: rest) (.sign ")" :: ts) :=
  lexes_tok _ (nextTok_close _) (Nat.le_refl _) h
theorem lexes_newline {rest ts} (h : Lexes rest ts) : Lexes ('\n' :: rest) (.newline :: ts) :=
  lexes_tok _ (nextTok_newline _) (Nat.le_refl _) h
theorem lexes_gt {rest ts} (hs : Sep rest) (h : Lexes rest ts) : Lexes ('>' :: rest) (.sign ">" :: ts) :=
  lexes_tok _ (nextTok_gt _ hs) (Nat.le_refl _) h
theorem lexes_arrow {rest ts} (h : Lexes rest ts) : Lexes ('-' :: '>' :: rest) (.sign "->" :: ts) :=
  lexes_tok _ (by rfl) (by simp) h

/-- a text that does not start with `=` -/
def NotEq (cs : List Char) : Prop := cs.head? ≠ some '='

theorem lexes_lt {rest ts} (hs : NotEq rest) (h : Lexes rest ts) : Lexes ('<' :: rest) (.sign "<" :: ts) := by
  cases rest with
  | nil => exact lexes_tok [] rfl (Nat.le_refl _) h
  | cons c r => exact lexes_tok _ (nextTok_lt _ _ (fun e => hs (by simp [e]))) (Nat.le_refl _) h

theorem lexes_bang {rest ts} (hs : NotEq rest) (h : Lexes rest ts) : Lexes ('!' :: rest) (.sign "!" :: ts) := by
  cases rest with
  | nil => exact lexes_tok [] rfl (Nat.le_refl _) h
  | cons c r =>
    have : c ≠ '=' := fun e => hs (by simp [e])
    exact lexes_tok (c :: r) (by simp [nextTok, isIdStart, isDigitChar, this]) (Nat.le_refl _) h

theorem lexes_udt {rest ts} (h : Lexes rest ts) : Lexes ('u' :: '!' :: rest) (.key "u!" :: ts) :=
  lexes_tok _ (by rfl) (by simp) h

/-! ## Numbers -/

theorem isDigitChar_digit : ∀ m, m < 10 → isDigitChar (Nat.digitChar m) = true := by decide

theorem natText_head (n : Nat) : ∃ c cs, (natText n).map (fun b => Char.ofNat b.toNat) = c :: cs ∧
    isDigitChar c = true ∧ (c = '0' → cs = []) ∧ ∀ d ∈ cs, isDigitChar d = true := by
  induction n using natText.induct with
  | case1 n h =>
    unfold natText
    refine ⟨Nat.digitChar n, [], ?_, isDigitChar_digit n h, fun _ => rfl, by simp⟩
    simp only [h, if_true, List.map_cons, List.map_nil, digit_toNat n h]
    have : ∀ m, m < 10 → Char.ofNat (48 + m) = Nat.digitChar m := by decide
    rw [this n h]
  | case2 n h ih =>
    obtain ⟨c, cs, e, hc, h0, hcs⟩ := ih
    unfold natText
    have hd : n % 10 < 10 := Nat.mod_lt _ (by omega)
    refine ⟨c, cs ++ [Nat.digitChar (n % 10)], ?_, hc, fun hz => ?_, ?_⟩
    · simp only [h, if_false, List.map_append, e, List.map_cons, List.map_nil, digit_toNat _ hd, List.cons_append]
      have : ∀ m, m < 10 → Char.ofNat (48 + m) = Nat.digitChar m := by decide
      rw [this _ hd]
    · exfalso
      have hcs := h0 hz
      subst hz hcs
      have hp : 0 < n / 10 := by omega
      rw [natText_toDigits] at e
      by_cases hl : n / 10 < 10
      · rw [Nat.toDigits_of_lt_base hl] at e
        have : ∀ m, m < 10 → 0 < m → Nat.digitChar m ≠ '0' := by decide
        exact this _ hl hp (by simpa using e)
      · have : (Nat.toDigits 10 (n / 10)).length ≠ 1 := by
          rw [← natText_toDigits]
          rw [natText]
          simp only [hl, if_false, List.map_append, List.length_append, List.length_map]
          have : (natText (n / 10 / 10)) ≠ [] := by
            rw [natText]; split <;> simp
          have := List.length_pos_iff.2 this
          simp; omega
        rw [e] at this
        simp at this
    · intro d hd'
      rcases List.mem_append.1 hd' with h' | h'
      · exact hcs d h'
      · rw [List.mem_singleton.1 h']
        exact isDigitChar_digit _ hd

theorem isDigitChar_not_start (c) (h : isDigitChar c = true) : isIdStart c = false := by
  simp only [isDigitChar, Bool.and_eq_true, decide_eq_true_eq] at h
  obtain ⟨h1, h2⟩ := h
  have h1 : 48 ≤ c.toNat := h1
  have h2 : c.toNat ≤ 57 := h2
  simp only [isIdStart, Bool.or_eq_false_iff, Bool.and_eq_false_iff, decide_eq_false_iff_not]
  refine ⟨⟨⟨?_, ?_⟩, .inl fun h => ?_⟩, .inl fun h => ?_⟩
  · rintro rfl; simp at h1
  · rintro rfl; simp at h2
  · have h : 65 ≤ c.toNat := h
    omega
  · have h : 97 ≤ c.toNat := h
    omega

theorem lexes_nat (c cs rest ts) (hc : isDigitChar c = true) (h0 : c = '0' → cs = [])
    (hcs : ∀ d ∈ cs, isDigitChar d = true) (hs : Sep rest) (h : Lexes rest ts) :
    Lexes (c :: cs ++ rest) (.num (c :: cs) :: ts) := by
  obtain ⟨h1, h2⟩ := sep_not isDigitChar (by decide) rest hs
  have ht : (cs ++ rest).takeWhile isDigitChar = cs := by
    rw [List.takeWhile_append_of_pos hcs, h1, List.append_nil]
  have hd : (cs ++ rest).dropWhile isDigitChar = rest := by
    rw [List.dropWhile_append_of_pos hcs, h2]
  refine lexes_tok (rest := cs ++ rest) rest ?_ (by simp) h
  unfold nextTok
  rw [if_neg (by rw [isDigitChar_not_start c hc]; simp)]
  by_cases hz : c = '0'
  · rw [if_pos hz, h0 hz]; rfl
  · rw [if_neg hz, if_pos hc, ht, hd]

theorem lexes_neg (c cs rest ts) (hc : isDigitChar c = true) (h0 : c = '0' → cs = [])
    (hcs : ∀ d ∈ cs, isDigitChar d = true) (hs : Sep rest) (h : Lexes rest ts) :
    Lexes ('-' :: c :: cs ++ rest) (.num ('-' :: c :: cs) :: ts) := by
  obtain ⟨h1, h2⟩ := sep_not isDigitChar (by decide) rest hs
  have ht : (cs ++ rest).takeWhile isDigitChar = cs := by
    rw [List.takeWhile_append_of_pos hcs, h1, List.append_nil]
  have hd : (cs ++ rest).dropWhile isDigitChar = rest := by
    rw [List.dropWhile_append_of_pos hcs, h2]
  refine lexes_tok (rest := c :: (cs ++ rest)) rest ?_ (by simp; omega) h
  have hg : c ≠ '>' := by rintro rfl; revert hc; decide
  by_cases hz : c = '0'
  · subst hz
    rw [h0 rfl]; rfl
  · have e : nextTok '-' (c :: (cs ++ rest)) =
        if isDigitChar c then (some (.num ('-' :: c :: (cs ++ rest).takeWhile isDigitChar)),
          (cs ++ rest).dropWhile isDigitChar) else (some (.sign "-"), c :: (cs ++ rest)) := by
      simp [nextTok, isIdStart, hz, hg]
      intro h; exact absurd h (by decide)
    rw [e, if_pos hc, ht, hd]

theorem lexes_int (i : Int) (rest ts) (hs : Sep rest) (h : Lexes rest ts) :
    Lexes (intChars i ++ rest) (.num (intChars i) :: ts) := by
  unfold intChars intText
  split
  · obtain ⟨c, cs, e, hc, h0, hcs⟩ := natText_head i.natAbs
    simp only [List.map_cons, e]
    exact lexes_neg c cs rest ts hc h0 hcs hs h
  · obtain ⟨c, cs, e, hc, h0, hcs⟩ := natText_head i.natAbs
    simp only [e]
    exact lexes_nat c cs rest ts hc h0 hcs hs h

/-! ## Names -/

theorem isIdStart_iff (c : Char) : isIdStart c = true ↔ IsLetter c := by
  simp only [isIdStart, IsLetter, Bool.or_eq_true, Bool.and_eq_true, decide_eq_true_eq]
  tauto

theorem isDigitChar_iff (c : Char) : isDigitChar c = true ↔ IsDigit c := by
  simp only [isDigitChar, IsDigit, Bool.and_eq_true, decide_eq_true_eq]

theorem isIdChar_iff (c : Char) : isIdChar c = true ↔ IsLetter c ∨ IsDigit c := by
  simp only [isIdChar, Bool.or_eq_true, isIdStart_iff, isDigitChar_iff]

theorem keywords_reserved : ∀ x, x ∈ typeKeywords ↔ x ∈ reservedWords := by
  intro x
  constructor
  · revert x; decide
  · revert x; decide

theorem wordTok_name (s : String) (h : IsName s) : wordTok s.toList = .ident s.toList := by
  unfold wordTok
  simp only
  rw [if_neg (fun h' => h.free ((keywords_reserved _).1 h'))]
  split
  · rename_i d e
    rw [if_neg]
    intro hd
    exact h.notAny d ((isDigitChar_iff d).1 hd) e
  · rfl

theorem lexes_name (s : String) (hn : IsName s) (rest ts) (hs : Sep rest) (h : Lexes rest ts) :
    Lexes (s.toList ++ rest) (.ident s.toList :: ts) := by
  have := wordTok_name s hn
  obtain ⟨c, cs, e, hc, hcs⟩ := hn.first
  rw [e] at this ⊢
  rw [← this]
  exact lexes_word c cs rest ts ((isIdStart_iff c).2 hc) (fun d hd => (isIdChar_iff d).2 (hcs d hd)) hs h

theorem letter_ne_eq (c) (h : isIdStart c = true) : c ≠ '=' := by rintro rfl; revert h; decide

theorem digit_ne_eq (c) (h : isDigitChar c = true) : c ≠ '=' := by rintro rfl; revert h; decide

theorem notEq_name (s : String) (hn : IsName s) (rest) : NotEq (s.toList ++ rest) := by
  obtain ⟨c, cs, e, hc, hcs⟩ := hn.first
  rw [e]
  have := letter_ne_eq c ((isIdStart_iff c).2 hc)
  simp [NotEq, this]

theorem notEq_int (i : Int) (rest) : NotEq (intChars i ++ rest) := by
  unfold intChars intText
  split
  · simp [NotEq]
  · obtain ⟨c, cs, e, hc, h0, hcs⟩ := natText_head i.natAbs
    simp only [e]
    have := digit_ne_eq c hc
    simp [NotEq, this]

/-! ## Tokens -/

/-- the tokens of a nullability mark -/
def markToks (n : Nullability) : List GTok := if n = 1 then [.sign "?"] else []

/-- the tokens of an integer parameter -/
def IntParam.toks : IntParam → List GTok
  | .concrete v => [.num (intChars v.toInt)]
  | .var s => [.ident s.toList]

/-- the tokens of `any` types -/
def anyTok (s : String) : GTok := if s = "any" then .key "any" else .anyVar s.toList

mutual
/-- the tokens of the text of a type expression -/
def FTy.toks : FTy → List GTok
  | .prim k n _ => .key k.longName :: markToks n
  | .any n name => anyTok name :: markToks n
  | .enum .. => []
  | .single k n p => .key k.longName :: (markToks n ++ .sign "<" :: (p.toks ++ [.sign ">"]))
  | .decimal n p s =>
      .key "decimal" :: (markToks n ++ .sign "<" :: (p.toks ++ .sign "," :: (s.toks ++ [.sign ">"])))
  | .list n t => .key "list" :: (markToks n ++ .sign "<" :: (t.toks ++ [.sign ">"]))
  | .map n k v => .key "map" :: (markToks n ++ .sign "<" :: (k.toks ++ .sign "," :: (v.toks ++ [.sign ">"])))
  | .struct n ts => .key "struct" :: (markToks n ++ .sign "<" :: (FTy.toksList ts ++ [.sign ">"]))
  | .func n ps r =>
      .key "func" :: (markToks n ++ .sign "<" :: (FTy.toksList ps ++ .sign "->" :: (r.toks ++ [.sign ">"])))
  | .udt n _ name [] => .key "u!" :: .ident name.toList :: markToks n
  | .udt n _ name (p :: ps) =>
      .key "u!" :: .ident name.toList ::
        (markToks n ++ .sign "<" :: (p.toks ++ (FParam.toksRest ps ++ [.sign ">"])))
  | .derivation .. => []
/-- the tokens of the first type of a list and of the others -/
def FTy.toksList : List FTy → List GTok
  | [] => []
  | t :: ts => t.toks ++ FTy.toksRest ts
/-- the tokens of the further types of a list -/
def FTy.toksRest : List FTy → List GTok
  | [] => []
  | t :: ts => .sign "," :: (t.toks ++ FTy.toksRest ts)
/-- the tokens of a parameter -/
def FParam.toks : FParam → List GTok
  | .dataType t => t.toks
  | .integer i => [.num (intChars i.toInt)]
  | .string s => [.ident s.toList]
/-- the tokens of the further parameters -/
def FParam.toksRest : List FParam → List GTok
  | [] => []
  | p :: ps => .sign "," :: (p.toks ++ FParam.toksRest ps)
end

/-- the characters of pieces -/
def charsOf (ps : List String) : List Char := (joined ps).toList

theorem charsOf_nil : charsOf [] = [] := rfl

theorem charsOf_cons (a : String) (l : List String) : charsOf (a :: l) = a.toList ++ charsOf l := by
  simp [charsOf, joined_cons]

theorem charsOf_append (a b : List String) : charsOf (a ++ b) = charsOf a ++ charsOf b := by
  simp [charsOf, joined_append]

theorem sep_mark (n : Nullability) (rest) (h : Sep rest) : Sep ((strNullable n).toList ++ rest) := by
  unfold strNullable
  split
  · simp [Sep]
  · simpa using h

theorem lexes_markToks (n : Nullability) (rest ts) (h : Lexes rest ts) :
    Lexes ((strNullable n).toList ++ rest) (markToks n ++ ts) := by
  unfold strNullable markToks
  by_cases hn : n = 1
  · rw [if_pos hn, if_pos (show n = NullabilityNullable from hn)]
    exact lexes_mark h
  · rw [if_neg hn, if_neg (show ¬ n = NullabilityNullable from hn)]
    simpa using h

theorem lexes_key (s : String) (c cs) (e : s.toList = c :: cs) (hw : wordTok (c :: cs) = .key s)
    (hc : isIdStart c = true) (hcs : ∀ d ∈ cs, isIdChar d = true) (rest ts) (hs : Sep rest)
    (h : Lexes rest ts) : Lexes (s.toList ++ rest) (.key s :: ts) := by
  rw [e, ← hw]
  exact lexes_word c cs rest ts hc hcs hs h

theorem lexes_intParam (p : IntParam) (hp : IsIntParam p) (rest ts) (hs : Sep rest) (h : Lexes rest ts) :
    Lexes (p.str.toList ++ rest) (p.toks ++ ts) ∧ NotEq (p.str.toList ++ rest) := by
  cases p with
  | concrete v =>
    have e : (toString v.toInt).toList = intChars v.toInt := by
      rw [← intString_eq, intString]; simp
    simp only [IntParam.str, IntParam.toks, e]
    exact ⟨lexes_int _ _ _ hs h, notEq_int _ _⟩
  | var s => exact ⟨lexes_name s hp rest ts hs h, notEq_name s hp rest⟩

theorem sep_lt (r) : Sep ('<' :: r) := by simp [Sep]
theorem sep_gt (r) : Sep ('>' :: r) := by simp [Sep]
theorem sep_comma (r) : Sep (',' :: r) := by simp [Sep]
theorem sep_space (r) : Sep (' ' :: r) := by simp [Sep]
theorem sep_close (r) : Sep (')' :: r) := by simp [Sep]
theorem sep_newline (r) : Sep ('\n' :: r) := by simp [Sep]
theorem sep_open (r) : Sep ('(' :: r) := by simp [Sep]

/-- a keyword, its mark and the opening bracket -/
theorem lexes_head (s : String) (c cs) (e : s.toList = c :: cs) (hw : wordTok (c :: cs) = .key s)
    (hc : isIdStart c = true) (hcs : ∀ d ∈ cs, isIdChar d = true) (n : Nullability) (rest ts)
    (hne : NotEq rest) (h : Lexes rest ts) :
    Lexes (s.toList ++ ((strNullable n).toList ++ '<' :: rest)) (.key s :: (markToks n ++ .sign "<" :: ts)) :=
  lexes_key s c cs e hw hc hcs _ _ (sep_mark _ _ (sep_lt _)) (lexes_markToks n _ _ (lexes_lt hne h))

theorem prim_key (k : Prim) : ∃ c cs, k.longName.toList = c :: cs ∧ wordTok (c :: cs) = .key k.longName ∧
    isIdStart c = true ∧ ∀ d ∈ cs, isIdChar d = true := by
  cases k <;> exact ⟨_, _, rfl, by decide, by decide, by decide⟩

theorem single_key (k : Single) : ∃ c cs, k.longName.toList = c :: cs ∧ wordTok (c :: cs) = .key k.longName ∧
    isIdStart c = true ∧ ∀ d ∈ cs, isIdChar d = true := by
  rcases k with k | k <;> cases k <;> exact ⟨_, _, rfl, by decide, by decide, by decide⟩

theorem toLower_letter (c : Char) (h : isIdStart c.toLower = true ∧ c.toLower ≠ '_' ∧ c.toLower ≠ '$') :
    isIdStart c = true := by
  by_cases hc : c.val ≥ 'A'.val ∧ c.val ≤ 'Z'.val
  · have h1 : 'A' ≤ c := hc.1
    have h2 : c ≤ 'Z' := hc.2
    simp [isIdStart, h1, h2]
  · have : c.toLower = c := by
      unfold Char.toLower
      simp only [hc]
      simp
    rw [this] at h
    exact h.1

theorem toLower_digit (c d : Char) (h : c.toLower = d) (hd : isDigitChar d = true) : c = d := by
  by_cases hc : c.val ≥ 'A'.val ∧ c.val ≤ 'Z'.val
  · exfalso
    simp only [isDigitChar, Bool.and_eq_true, decide_eq_true_eq] at hd
    have h2 : d.toNat ≤ 57 := hd.2
    have h3 : 65 ≤ c.toNat := hc.1
    have h4 : c.toNat ≤ 90 := hc.2
    have : ∀ n, 65 ≤ n → n ≤ 90 → 57 < (Char.ofNat n).toLower.toNat := by decide
    have := this c.toNat h3 h4
    rw [Char.ofNat_toNat, h] at this
    omega
  · rw [← h]
    unfold Char.toLower
    simp only [hc]
    simp

theorem lexes_anyTok (s : String) (hs : IsAnyName s) (rest ts) (hr : Sep rest) (h : Lexes rest ts) :
    Lexes (s.toList ++ rest) (anyTok s :: ts) ∧ NotEq (s.toList ++ rest) := by
  rcases hs with rfl | ⟨d, hd, e⟩
  · exact ⟨lexes_key "any" 'a' ['n', 'y'] rfl (by decide) (by decide) (by decide) rest ts hr h, by simp [NotEq]⟩
  · have hne : s ≠ "any" := by
      rintro rfl
      have := congrArg List.length e
      simp at this
    have hd' := (isDigitChar_iff d).2 hd
    have hw : wordTok s.toList = .anyVar s.toList := by
      unfold wordTok
      simp only [e]
      rw [if_neg, if_pos hd']
      intro hin
      have : ∀ x ∈ typeKeywords, x.toList.take 3 ≠ ['a', 'n', 'y'] ∨ x.toList.length ≠ 4 := by decide
      have := this _ hin
      simp at this
    obtain ⟨a, b, c, x, el⟩ : ∃ a b c x, s.toList = [a, b, c, x] := by
      match hl : s.toList, e with
      | [a, b, c, x], _ => exact ⟨a, b, c, x, rfl⟩
      | [], e => simp at e
      | [_], e => simp at e
      | [_, _], e => simp at e
      | [_, _, _], e => simp at e
      | _ :: _ :: _ :: _ :: _ :: _, e => simp at e
    rw [el] at e
    simp only [List.map_cons, List.map_nil, List.cons.injEq, and_true] at e
    obtain ⟨ha, hb, hc, hx⟩ := e
    have ha' := toLower_letter a (by rw [ha]; decide)
    rw [anyTok, if_neg hne, ← hw, el]
    refine ⟨lexes_word a [b, c, x] rest ts ha' ?_ hr h, ?_⟩
    · intro y hy
      simp only [List.mem_cons, List.not_mem_nil, or_false] at hy
      rcases hy with rfl | rfl | rfl
      · simp [isIdChar, toLower_letter y (by rw [hb]; decide)]
      · simp [isIdChar, toLower_letter y (by rw [hc]; decide)]
      · rw [toLower_digit y d hx hd']; simp [isIdChar, hd']
    · simp [NotEq, letter_ne_eq a ha']

/-! ## The tokens of the text -/

mutual
theorem lexes_ty : ∀ (t : FTy), Readable t → ∀ rest ts, Sep rest → Lexes rest ts →
    Lexes (charsOf t.pieces ++ rest) (t.toks ++ ts) ∧ NotEq (charsOf t.pieces ++ rest)
  | .prim k n v, h, rest, ts, hs, hr => by
    obtain ⟨c, cs, e, hw, hc, hcs⟩ := prim_key k
    simp only [FTy.pieces, FTy.toks, charsOf_cons, charsOf_nil, List.append_nil, List.append_assoc, List.cons_append]
    refine ⟨lexes_key _ c cs e hw hc hcs _ _ (sep_mark _ _ hs) (lexes_markToks n _ _ hr), ?_⟩
    rw [e]
    simp [NotEq, letter_ne_eq c hc]
  | .any n s, h, rest, ts, hs, hr => by
    cases h with
    | any _ _ hn ha =>
      simp only [FTy.pieces, FTy.toks, charsOf_cons, charsOf_nil, List.append_nil, List.append_assoc, List.cons_append]
      exact lexes_anyTok s ha _ _ (sep_mark _ _ hs) (lexes_markToks n _ _ hr)
  | .enum .., h, _, _, _, _ => by cases h
  | .derivation .., h, _, _, _, _ => by cases h
  | .single k n p, h, rest, ts, hs, hr => by
    cases h with
    | single _ _ _ hn hp =>
      obtain ⟨c, cs, e, hw, hc, hcs⟩ := single_key k
      simp only [FTy.pieces, FTy.toks, charsOf_cons, charsOf_nil, List.append_nil, List.append_assoc, List.cons_append,
        List.nil_append]
      obtain ⟨h1, h2⟩ := lexes_intParam p hp (">".toList ++ rest) (.sign ">" :: ts) (sep_gt _) (lexes_gt hs hr)
      refine ⟨lexes_head _ c cs e hw hc hcs n _ _ h2 h1, ?_⟩
      rw [e]
      simp [NotEq, letter_ne_eq c hc]
  | .decimal n p s, h, rest, ts, hs, hr => by
    cases h with
    | decimal _ _ _ hn hp hq =>
      simp only [FTy.pieces, FTy.toks, charsOf_cons, charsOf_nil, List.append_nil, List.append_assoc, List.cons_append,
        List.nil_append]
      obtain ⟨h1, h2⟩ := lexes_intParam s hq (">".toList ++ rest) (.sign ">" :: ts) (sep_gt _) (lexes_gt hs hr)
      obtain ⟨h3, h4⟩ := lexes_intParam p hp _ _ (sep_comma _) (lexes_comma h1)
      exact ⟨lexes_head "decimal" _ _ rfl (by decide) (by decide) (by decide) n _ _ h4 h3, by simp [NotEq]⟩
  | .list n t, h, rest, ts, hs, hr => by
    cases h with
    | list _ _ hn ht =>
      simp only [FTy.pieces, FTy.toks, charsOf_cons, charsOf_append, charsOf_nil, List.append_nil, List.append_assoc,
        List.cons_append, List.nil_append]
      obtain ⟨h1, h2⟩ := lexes_ty t ht (">".toList ++ rest) (.sign ">" :: ts) (sep_gt _) (lexes_gt hs hr)
      exact ⟨lexes_head "list" _ _ rfl (by decide) (by decide) (by decide) n _ _ h2 h1, by simp [NotEq]⟩
  | .map n k v, h, rest, ts, hs, hr => by
    cases h with
    | map _ _ _ hn hk hv =>
      simp only [FTy.pieces, FTy.toks, charsOf_cons, charsOf_append, charsOf_nil, List.append_nil, List.append_assoc,
        List.cons_append, List.nil_append]
      obtain ⟨h1, h2⟩ := lexes_ty v hv (">".toList ++ rest) (.sign ">" :: ts) (sep_gt _) (lexes_gt hs hr)
      obtain ⟨h3, h4⟩ := lexes_ty k hk _ _ (sep_comma _) (lexes_comma (lexes_skip1 h1))
      exact ⟨lexes_head "map" _ _ rfl (by decide) (by decide) (by decide) n _ _ h4 h3, by simp [NotEq]⟩
  | .struct n us, h, rest, ts, hs, hr => by
    cases h with
    | struct _ t us hn ht hus =>
      simp only [FTy.pieces, FTy.toks, FTy.piecesList, FTy.toksList, charsOf_cons, charsOf_append, charsOf_nil,
        List.append_nil, List.append_assoc, List.cons_append, List.nil_append]
      obtain ⟨h1, h3⟩ := lexes_rest us hus (">".toList ++ rest) (.sign ">" :: ts) (sep_gt _) (lexes_gt hs hr)
      obtain ⟨h4, h5⟩ := lexes_ty t ht _ _ h3 h1
      exact ⟨lexes_head "struct" _ _ rfl (by decide) (by decide) (by decide) n _ _ h5 h4, by simp [NotEq]⟩
  | .func n ps r, h, rest, ts, hs, hr => by
    cases h with
    | func _ p _ hn hp hr' =>
      simp only [FTy.pieces, FTy.toks, FTy.piecesList, FTy.toksList, FTy.piecesRest, FTy.toksRest, charsOf_cons,
        charsOf_append, charsOf_nil, List.append_nil, List.append_assoc, List.cons_append, List.nil_append]
      obtain ⟨h1, h2⟩ := lexes_ty r hr' (">".toList ++ rest) (.sign ">" :: ts) (sep_gt _) (lexes_gt hs hr)
      obtain ⟨h3, h4⟩ := lexes_ty p hp _ _ (sep_space _) (lexes_skip1 (lexes_arrow (lexes_skip1 h1)))
      exact ⟨lexes_head "func" _ _ rfl (by decide) (by decide) (by decide) n _ _ h4 h3, by simp [NotEq]⟩
  | .udt n v s [], h, rest, ts, hs, hr => by
    cases h with
    | udt _ _ _ hn hu hps =>
      simp only [FTy.pieces, FTy.toks, charsOf_cons, charsOf_nil, List.append_nil, List.append_assoc, List.cons_append]
      exact ⟨lexes_udt (lexes_name s hu _ _ (sep_mark _ _ hs) (lexes_markToks n _ _ hr)), by simp [NotEq]⟩
  | .udt n v s (p :: ps), h, rest, ts, hs, hr => by
    cases h with
    | udt _ _ _ hn hu hps =>
      simp only [FTy.pieces, FTy.toks, charsOf_cons, charsOf_append, charsOf_nil, List.append_nil, List.append_assoc,
        List.cons_append, List.nil_append]
      obtain ⟨h1, h3⟩ := lexes_paramRest ps (fun q hq => hps q (List.mem_cons_of_mem _ hq))
        (">".toList ++ rest) (.sign ">" :: ts) (sep_gt _) (lexes_gt hs hr)
      obtain ⟨h4, h5⟩ := lexes_param p (hps p List.mem_cons_self) _ _ h3 h1
      exact ⟨lexes_udt (lexes_name s hu _ _ (sep_mark _ _ (sep_lt _)) (lexes_markToks n _ _ (lexes_lt h5 h4))),
        by simp [NotEq]⟩

theorem lexes_rest : ∀ (us : List FTy), (∀ u ∈ us, Readable u) → ∀ rest ts, Sep rest → Lexes rest ts →
    Lexes (charsOf (FTy.piecesRest us) ++ rest) (FTy.toksRest us ++ ts) ∧
      Sep (charsOf (FTy.piecesRest us) ++ rest)
  | [], _, rest, ts, hs, hr => by
    simp only [FTy.piecesRest, FTy.toksRest, charsOf_nil, List.nil_append]
    exact ⟨hr, hs⟩
  | u :: us, h, rest, ts, hs, hr => by
    obtain ⟨h1, h3⟩ := lexes_rest us (fun v hv => h v (List.mem_cons_of_mem _ hv)) rest ts hs hr
    obtain ⟨h4, h5⟩ := lexes_ty u (h u List.mem_cons_self) _ _ h3 h1
    simp only [FTy.piecesRest, FTy.toksRest, charsOf_cons, charsOf_append, charsOf_nil, List.append_nil,
      List.append_assoc, List.cons_append, List.nil_append]
    exact ⟨lexes_comma (lexes_skip1 h4), sep_comma _⟩

theorem lexes_param : ∀ (p : FParam), ReadableParam p → ∀ rest ts, Sep rest → Lexes rest ts →
    Lexes (charsOf p.pieces ++ rest) (p.toks ++ ts) ∧ NotEq (charsOf p.pieces ++ rest)
  | .dataType t, h, rest, ts, hs, hr => by
    cases h with
    | dataType _ ht =>
      simp only [FParam.pieces, FParam.toks]
      exact lexes_ty t ht rest ts hs hr
  | .integer i, h, rest, ts, hs, hr => by
    simp only [FParam.pieces, FParam.toks, charsOf_cons, charsOf_nil, List.append_nil, intString_toList]
    exact ⟨lexes_int _ _ _ hs hr, notEq_int _ _⟩
  | .string s, h, rest, ts, hs, hr => by
    cases h with
    | string _ hn =>
      simp only [FParam.pieces, FParam.toks, charsOf_cons, charsOf_nil, List.append_nil]
      exact ⟨lexes_name s hn _ _ hs hr, notEq_name s hn _⟩

theorem lexes_paramRest : ∀ (ps : List FParam), (∀ p ∈ ps, ReadableParam p) → ∀ rest ts, Sep rest →
    Lexes rest ts → Lexes (charsOf (FParam.piecesRest ps) ++ rest) (FParam.toksRest ps ++ ts) ∧
      Sep (charsOf (FParam.piecesRest ps) ++ rest)
  | [], _, rest, ts, hs, hr => by
    simp only [FParam.piecesRest, FParam.toksRest, charsOf_nil, List.nil_append]
    exact ⟨hr, hs⟩
  | u :: us, h, rest, ts, hs, hr => by
    obtain ⟨h1, h3⟩ := lexes_paramRest us (fun v hv => h v (List.mem_cons_of_mem _ hv)) rest ts hs hr
    obtain ⟨h4, h5⟩ := lexes_param u (h u List.mem_cons_self) _ _ h3 h1
    simp only [FParam.piecesRest, FParam.toksRest, charsOf_cons, charsOf_append, charsOf_nil, List.append_nil,
      List.append_assoc, List.cons_append, List.nil_append]
    exact ⟨lexes_comma (lexes_skip1 h4), sep_comma _⟩
end

end Verif
