import Verif.Lemmas.TypeText
/-!
# Lemmas about white space and comments in type expressions
-/

namespace Verif

/-- neither a letter nor a digit, and no sign together with the character before it -/
def IsFresh (x c : Char) : Prop :=
  isIdChar c = false ∧ (x.toLower = 'u' → c ≠ '!') ∧
    (x, c) ∉ [('-', '>'), (':', ':'), (':', '='), ('!', '='), ('>', '='), ('<', '='), ('/', '/'), ('/', '*'),
      ('\r', '\n')]

/-- no comment begins in the text -/
def Uncommented : List Char → Prop
  | '/' :: '/' :: _ => False
  | '/' :: '*' :: _ => False
  | _ :: cs => Uncommented cs
  | [] => True

theorem takeWhile_fresh (p : Char → Bool) (c : Char) (r : List Char) (h : p c = false) :
    ∀ xs, (xs ++ c :: r).takeWhile p = xs.takeWhile p
  | [] => by simp [List.takeWhile, h]
  | x :: xs => by
    simp only [List.cons_append, List.takeWhile_cons, takeWhile_fresh p c r h xs]

theorem dropWhile_fresh (p : Char → Bool) (c : Char) (r : List Char) (h : p c = false) :
    ∀ xs, (xs ++ c :: r).dropWhile p = xs.dropWhile p ++ c :: r
  | [] => by simp [List.dropWhile, h]
  | x :: xs => by
    simp only [List.cons_append, List.dropWhile_cons, dropWhile_fresh p c r h xs]
    split <;> rfl

theorem digit_id {c : Char} (h : isIdChar c = false) : isDigitChar c = false ∧ isIdStart c = false := by
  simp only [isIdChar, Bool.or_eq_false_iff] at h
  exact ⟨h.2, h.1⟩

/-- the part of `nextTok` for words -/
theorem nextTok_id {x : Char} (h : isIdStart x = true) (cs : List Char) :
    nextTok x cs = match (x :: cs.takeWhile isIdChar).map Char.toLower, cs.dropWhile isIdChar with
      | ['u'], '!' :: r => (some (.key "u!"), r)
      | _, _ => (some (wordTok (x :: cs.takeWhile isIdChar)), cs.dropWhile isIdChar) := by
  unfold nextTok
  rw [if_pos h]
  rfl

/-- the characters with which signs of two characters and comments begin -/
def isDouble (x : Char) : Bool := x ∈ ['-', ':', '!', '>', '<', '/', '\r', '\n']

/-- the part of `nextTok` for single signs -/
theorem nextTok_single {x : Char} (h1 : isIdStart x = false) (h2 : isDigitChar x = false) (h3 : isDouble x = false)
    (cs : List Char) :
    nextTok x cs = if x ∈ ['-', ':', '!', '>', '<', '/', '+', '*', '%', '=', '(', ')', '[', ']', ',', '?', '#', '.'] then
          (some (.sign (String.singleton x)), cs)
        else (none, cs) := by
  have h0 : x ≠ '0' := by rintro rfl; simp [isDigitChar] at h2
  unfold nextTok
  rw [if_neg (by simp [h1]), if_neg h0, if_neg (by simp [h2])]
  split <;> first | rfl | (simp [isDouble] at h3)

/-- a token before a fresh character is the same with and without what follows -/
theorem nextTok_append (c : Char) (r : List Char) (x : Char) (xs : List Char) (hid : isIdChar c = false)
    (hc : xs = [] → IsFresh x c) (hu : Uncommented (x :: xs)) :
    nextTok x (xs ++ c :: r) = ((nextTok x xs).1, (nextTok x xs).2 ++ c :: r) := by
  obtain ⟨hdig, _⟩ := digit_id hid
  by_cases h1 : isIdStart x = true
  · rw [nextTok_id h1, nextTok_id h1, takeWhile_fresh _ _ _ hid, dropWhile_fresh _ _ _ hid]
    have hbang : (x :: xs.takeWhile isIdChar).map Char.toLower = ['u'] → xs.dropWhile isIdChar = [] → c ≠ '!' := by
      intro e1 e2
      simp only [List.map_cons, List.cons.injEq, List.map_eq_nil_iff] at e1
      have : xs = [] := by rw [← List.takeWhile_append_dropWhile (p := isIdChar) (l := xs), e1.2, e2]; rfl
      exact (hc this).2.1 e1.1
    generalize (x :: xs.takeWhile isIdChar).map Char.toLower = w at hbang
    generalize xs.dropWhile isIdChar = d at hbang
    by_cases hw : w = ['u']
    · subst hw
      cases d with
      | nil =>
        simp only [List.nil_append]
        split
        · rename_i e
          simp only [List.cons.injEq] at e
          exact absurd e.1 (hbang rfl rfl)
        · rfl
      | cons d ds =>
        by_cases hd : d = '!'
        · subst hd; rfl
        · simp only [List.cons_append]
          split
          · rename_i e
            simp only [List.cons.injEq] at e
            exact absurd e.1 hd
          · split
            · rename_i e
              simp only [List.cons.injEq] at e
              exact absurd e.1 hd
            · rfl
    · split
      · exact absurd rfl hw
      · split
        · exact absurd rfl hw
        · rfl
  · by_cases h2 : isDigitChar x = true
    · by_cases h0 : x = '0'
      · subst h0
        simp only [nextTok, show isIdStart '0' = false from rfl, if_true]
        rfl
      · have h1' : isIdStart x = false := by simpa using h1
        simp only [nextTok, h1', h0, h2, if_true, if_false, Bool.false_eq_true, takeWhile_fresh _ _ _ hdig,
          dropWhile_fresh _ _ _ hdig]
    · simp only [Bool.not_eq_true] at h1 h2
      by_cases h3 : isDouble x = true
      · simp only [isDouble, List.mem_cons, List.not_mem_nil, or_false, decide_eq_true_eq] at h3
        rcases h3 with rfl | rfl | rfl | rfl | rfl | rfl | rfl | rfl
        · cases xs with
          | nil =>
            have g := (hc rfl).2.2
            have h0 : c ≠ '0' := by rintro rfl; simp [isDigitChar] at hdig
            simp at g
            simp [nextTok, isIdStart, g, h0, hdig, show isDigitChar '-' = false from rfl]
          | cons y ys =>
            by_cases e1 : y = '>'
            · subst e1; rfl
            · by_cases e2 : y = '0'
              · subst e2; rfl
              · cases e3 : isDigitChar y with
                | true =>
                  simp [nextTok, isIdStart, e1, e2, e3, show isDigitChar '-' = false from rfl,
                    takeWhile_fresh _ _ _ hdig, dropWhile_fresh _ _ _ hdig]
                | false => simp [nextTok, isIdStart, e1, e2, e3, show isDigitChar '-' = false from rfl]
        · cases xs with
          | nil => have g := (hc rfl).2.2; simp at g; simp [nextTok, isIdStart, isDigitChar, g]
          | cons y ys =>
            by_cases e1 : y = ':'
            · subst e1; rfl
            · by_cases e2 : y = '='
              · subst e2; rfl
              · simp [nextTok, isIdStart, isDigitChar, e1, e2]
        · cases xs with
          | nil => have g := (hc rfl).2.2; simp at g; simp [nextTok, isIdStart, isDigitChar, g]
          | cons y ys =>
            by_cases e1 : y = '='
            · subst e1; rfl
            · simp [nextTok, isIdStart, isDigitChar, e1]
        · cases xs with
          | nil => have g := (hc rfl).2.2; simp at g; simp [nextTok, isIdStart, isDigitChar, g]
          | cons y ys =>
            by_cases e1 : y = '='
            · subst e1; rfl
            · simp [nextTok, isIdStart, isDigitChar, e1]
        · cases xs with
          | nil => have g := (hc rfl).2.2; simp at g; simp [nextTok, isIdStart, isDigitChar, g]
          | cons y ys =>
            by_cases e1 : y = '='
            · subst e1; rfl
            · simp [nextTok, isIdStart, isDigitChar, e1]
        · cases xs with
          | nil => have g := (hc rfl).2.2; simp at g; simp [nextTok, isIdStart, isDigitChar, g]
          | cons y ys =>
            by_cases e1 : y = '/'
            · subst e1; simp [Uncommented] at hu
            · by_cases e2 : y = '*'
              · subst e2; simp [Uncommented] at hu
              · simp [nextTok, isIdStart, isDigitChar, e1, e2]
        · cases xs with
          | nil => have g := (hc rfl).2.2; simp at g; simp [nextTok, isIdStart, isDigitChar, g]
          | cons y ys =>
            by_cases e1 : y = '\n'
            · subst e1; rfl
            · simp [nextTok, isIdStart, isDigitChar, e1]
        · cases xs with
          | nil => rfl
          | cons y ys => rfl
      · simp only [Bool.not_eq_true] at h3
        rw [nextTok_single h1 h2 h3, nextTok_single h1 h2 h3]
        split <;> rfl

theorem nextTok_rest (x : Char) (xs : List Char) : (nextTok x xs).2.length ≤ xs.length := by
  have hd : ∀ (p : Char → Bool) (l : List Char), (l.dropWhile p).length ≤ l.length := fun p l =>
    (List.dropWhile_sublist p).length_le
  have hb : ∀ l r, blockComment l = some r → r.length ≤ l.length := by
    intro l r h
    unfold blockComment at h
    have h0 := hd (· = '*') l
    split at h
    · cases h
    · rename_i c q e
      rw [e] at h0
      split at h
      · cases h
      · split at h
        · rename_i r' _ e2
          cases h
          have h1 := hd (· = '*') q
          rw [e2] at h1
          simp at h0 h1
          omega
        · cases h
  by_cases h1 : isIdStart x = true
  · rw [nextTok_id h1]
    have h0 := hd isIdChar xs
    split
    · rename_i r _ e
      rw [e] at h0
      simp at h0 ⊢
      omega
    · exact h0
  · simp only [Bool.not_eq_true] at h1
    unfold nextTok
    rw [if_neg (by simp [h1])]
    split
    · exact Nat.le_refl _
    · split
      · exact hd _ _
      · split <;> try (simp; done)
        · split
          · have := hd isDigitChar
            simp only [List.length_cons]
            exact Nat.le_succ_of_le (this _)
          · simp
        · simp only [List.length_cons]
          exact Nat.le_succ_of_le (hd _ _)
        · rename_i r _ _ _
          split
          · rename_i r' e
            simp only [List.length_cons]
            exact Nat.le_succ_of_le (hb _ _ e)
          · simp
        · split <;> exact Nat.le_refl _

/-- enough fuel is enough -/
theorem lexes_lexText (cs : List Char) : Lexes cs (lexText cs) := by
  have key : ∀ n cs, cs.length ≤ n → ∀ m, cs.length ≤ m → lexN n cs = lexN m cs := by
    intro n
    induction n with
    | zero =>
      intro cs h m _
      have : cs = [] := List.length_eq_zero_iff.1 (Nat.le_zero.1 h)
      subst this
      cases m <;> rfl
    | succ n ih =>
      intro cs h m hm
      cases cs with
      | nil => cases m <;> rfl
      | cons c cs =>
        cases m with
        | zero => simp at hm
        | succ m =>
          have h1 := nextTok_rest c cs
          simp only [List.length_cons, Nat.add_le_add_iff_right] at h hm
          have h2 := ih (nextTok c cs).2 (Nat.le_trans h1 h) m (Nat.le_trans h1 hm)
          simp only [lexN]
          generalize nextTok c cs = q at h2
          obtain ⟨o, r⟩ := q
          cases o <;> simp only [h2]
  intro n hn
  exact key n cs hn _ (Nat.le_refl _)

theorem lexText_cons (c : Char) (cs : List Char) :
    lexText (c :: cs) = (nextTok c cs).1.toList ++ lexText (nextTok c cs).2 := by
  have h1 := nextTok_rest c cs
  have h2 := lexes_lexText (nextTok c cs).2 cs.length h1
  rw [lexText, List.length_cons, lexN]
  generalize nextTok c cs = q at h2
  obtain ⟨o, r⟩ := q
  cases o <;> simpa using h2

theorem uncommented_tail {c : Char} {cs : List Char} (h : Uncommented (c :: cs)) : Uncommented cs := by
  unfold Uncommented at h
  split at h
  · exact absurd h (by simp)
  · exact absurd h (by simp)
  · rename_i e; cases e; exact h
  · rename_i e; cases e

theorem uncommented_drop : ∀ (n : Nat) {cs : List Char}, Uncommented cs → Uncommented (cs.drop n)
  | 0, _, h => h
  | _ + 1, [], h => h
  | n + 1, _ :: _, h => uncommented_drop n (uncommented_tail h)

theorem nextTok_suffix (x : Char) (xs : List Char) : (nextTok x xs).2 <:+ xs := by
  have hb : ∀ l r, blockComment l = some r → r <:+ l := by
    intro l r h
    unfold blockComment at h
    have h0 := List.dropWhile_suffix (fun c : Char => decide (c = '*')) (l := l)
    split at h
    · cases h
    · rename_i c q e
      rw [e] at h0
      split at h
      · cases h
      · split at h
        · rename_i r' _ e2
          cases h
          have h1 := List.dropWhile_suffix (fun c : Char => decide (c = '*')) (l := q)
          rw [e2] at h1
          exact (List.suffix_cons _ _).trans (h1.trans ((List.suffix_cons _ _).trans h0))
        · cases h
  by_cases h1 : isIdStart x = true
  · rw [nextTok_id h1]
    have h0 := List.dropWhile_suffix isIdChar (l := xs)
    split
    · rename_i r _ e
      rw [e] at h0
      exact (List.suffix_cons _ _).trans h0
    · exact h0
  · simp only [Bool.not_eq_true] at h1
    unfold nextTok
    rw [if_neg (by simp [h1])]
    split
    · exact List.suffix_refl _
    · split
      · exact List.dropWhile_suffix _
      · split <;> try exact List.suffix_cons _ _
        · split
          · exact (List.dropWhile_suffix _).trans (List.suffix_cons _ _)
          · exact List.suffix_refl _
        · exact (List.dropWhile_suffix _).trans (List.suffix_cons _ _)
        · split
          · rename_i r' e
            exact (hb _ _ e).trans (List.suffix_cons _ _)
          · exact List.suffix_refl _
        · exact List.suffix_refl _
        · split <;> exact List.suffix_refl _

/-- a text is cut into tokens before a fresh character -/
theorem lexText_append (c : Char) (r : List Char) (hid : isIdChar c = false) :
    ∀ (n : Nat) (a : List Char), a.length ≤ n → Uncommented a → (∀ x, a.getLast? = some x → IsFresh x c) →
      lexText (a ++ c :: r) = lexText a ++ lexText (c :: r)
  | _, [], _, _, _ => rfl
  | 0, _ :: _, h, _, _ => by simp at h
  | n + 1, x :: xs, h, hu, hl => by
    have h1 := nextTok_append c r x xs hid (by rintro rfl; exact hl x rfl) hu
    rw [List.cons_append, lexText_cons, lexText_cons x xs, h1]
    obtain ⟨p, hp⟩ := nextTok_suffix x xs
    have hu' : Uncommented (nextTok x xs).2 := by
      have := uncommented_drop p.length (uncommented_tail hu)
      rw [← hp] at this
      simpa using this
    have hl' : ∀ y, (nextTok x xs).2.getLast? = some y → IsFresh y c := by
      intro y hy
      apply hl
      rw [← hp]
      rw [List.getLast?_cons, List.getLast?_append, hy]
      rfl
    rw [lexText_append c r hid n _ (by
      have := nextTok_rest x xs
      simp at h; omega) hu' hl', List.append_assoc]

end Verif
