import Verif.Lemmas.TypeText
/-!
# The reading of the tokens of a type expression
-/

namespace Verif

/-- tokens that start an expression and that nothing but an expression can follow on -/
def Dead : List GTok → Prop
  | .num _ :: _ => True
  | .ident _ :: _ => True
  | .sign "(" :: _ => True
  | .sign "!" :: _ => True
  | .key "if" :: _ => True
  | _ => False

/-- All readings before this one stop where nothing can go on. -/
def First (R : Readings α) (v : α) (k : List GTok) : Prop :=
  ∃ pre post, R = pre ++ (v, k) :: post ∧ ∀ x ∈ pre, Dead x.2

/-- a continuation that does not rescue such a reading -/
def KeepsDead (f : α × List GTok → Readings β) : Prop := ∀ v d, Dead d → ∀ x ∈ f (v, d), Dead x.2

theorem First.bind {R : Readings α} {v k} {f : α × List GTok → Readings β} {w l} (h : First R v k)
    (hf : KeepsDead f) (hg : First (f (v, k)) w l) : First (R.flatMap f) w l := by
  obtain ⟨pre, post, e, hp⟩ := h
  obtain ⟨pre', post', e', hp'⟩ := hg
  refine ⟨pre.flatMap f ++ pre', post' ++ post.flatMap f, ?_, ?_⟩
  · rw [e, List.flatMap_append, List.flatMap_cons, e']
    simp
  · intro x hx
    rcases List.mem_append.1 hx with h | h
    · obtain ⟨⟨y, d⟩, hy, hx⟩ := List.mem_flatMap.1 h
      exact hf y d (hp _ hy) x hx
    · exact hp' x h

theorem First.map {R : Readings α} {v k} (f : α → β) (h : First R v k) :
    First (R.map fun x => (f x.1, x.2)) (f v) k := by
  obtain ⟨pre, post, e, hp⟩ := h
  refine ⟨pre.map fun x => (f x.1, x.2), post.map fun x => (f x.1, x.2), by simp [e], ?_⟩
  intro x hx
  obtain ⟨y, hy, rfl⟩ := List.mem_map.1 hx
  exact hp y hy

theorem First.left {R S : Readings α} {v k} (h : First R v k) : First (R ++ S) v k := by
  obtain ⟨pre, post, e, hp⟩ := h
  exact ⟨pre, post ++ S, by simp [e], hp⟩

theorem First.right {R S : Readings α} {v k} (hR : ∀ x ∈ R, Dead x.2) (h : First S v k) :
    First (R ++ S) v k := by
  obtain ⟨pre, post, e, hp⟩ := h
  refine ⟨R ++ pre, post, by simp [e], ?_⟩
  intro x hx
  rcases List.mem_append.1 hx with h | h
  · exact hR x h
  · exact hp x h

theorem First.head (v : α) (k) (post : Readings α) : First ((v, k) :: post) v k :=
  ⟨[], post, rfl, by simp⟩

theorem First.find {R : Readings α} {v} (h : First R v []) :
    R.find? (fun r => r.2.isEmpty) = some (v, []) := by
  obtain ⟨pre, post, rfl, hp⟩ := h
  induction pre with
  | nil => rfl
  | cons x pre ih =>
    have hx := hp x List.mem_cons_self
    rw [List.cons_append, List.find?_cons_of_neg]
    · exact ih fun y hy => hp y (List.mem_cons_of_mem _ hy)
    · intro he
      rw [List.isEmpty_iff] at he
      rw [he] at hx
      exact hx

theorem Dead.cases {d : List GTok} (h : Dead d) : ∃ t r, d = t :: r ∧
    ((∃ s, t = .num s) ∨ (∃ s, t = .ident s) ∨ t = .sign "(" ∨ t = .sign "!" ∨ t = .key "if") := by
  unfold Dead at h
  split at h
  · exact ⟨_, _, rfl, .inl ⟨_, rfl⟩⟩
  · exact ⟨_, _, rfl, .inr (.inl ⟨_, rfl⟩)⟩
  · exact ⟨_, _, rfl, by simp⟩
  · exact ⟨_, _, rfl, by simp⟩
  · exact ⟨_, _, rfl, by simp⟩
  · exact h.elim

theorem Dead.eat {d : List GTok} (h : Dead d) (s : String) (h1 : s ≠ "(") (h2 : s ≠ "!") : eatSign s d = [] := by
  obtain ⟨t, r, rfl, hc⟩ := h.cases
  rcases hc with ⟨s, rfl⟩ | ⟨s, rfl⟩ | rfl | rfl | rfl <;> simp [eatSign, Ne.symm h1, Ne.symm h2]

theorem Dead.newlines1 {d : List GTok} (h : Dead d) : newlines1 d = [] := by
  obtain ⟨t, r, rfl, hc⟩ := h.cases
  rcases hc with ⟨s, rfl⟩ | ⟨s, rfl⟩ | rfl | rfl | rfl <;> rfl

theorem Dead.loop {d : List GTok} (h : Dead d) (E p n v) : exprLoop E p n v d = [(v, d)] := by
  obtain ⟨t, r, rfl, hc⟩ := h.cases
  cases n with
  | zero => rfl
  | succ n => rcases hc with ⟨s, rfl⟩ | ⟨s, rfl⟩ | rfl | rfl | rfl <;> simp [exprLoop, binaryOpOf]

theorem Dead.more {d : List GTok} (h : Dead d) (E n) : moreExprs E n d = [([], d)] := by
  cases n with
  | zero => rfl
  | succ n => simp [moreExprs, h.eat "," (by decide) (by decide)]

theorem eatSign_self (s : String) (r) : eatSign s (.sign s :: r) = [r] := by simp [eatSign]

/-! ## Where a reading ends -/

/-- tokens that start no expression -/
def NoStart : List GTok → Prop
  | [] => True
  | t :: _ => t ∈ [.sign ",", .sign ">", .sign ")", .sign "->", .sign ":", .newline, .key "then", .key "else"]

theorem NoStart.primary {k : List GTok} (h : NoStart k) (E n) : primaryExpr E n k = [] := by
  cases k with
  | nil => simp [primaryExpr, eatSign, assignmentLine, typeDef]
  | cons t r =>
    simp only [NoStart, List.mem_cons, List.not_mem_nil, or_false] at h
    rcases h with rfl | rfl | rfl | rfl | rfl | rfl | rfl | rfl <;>
      simp [primaryExpr, eatSign, assignmentLine, typeDef, primOfKey, parameterizedType, singleOfKey]

theorem NoStart.expr {k : List GTok} (h : NoStart k) (n p) : exprReadings n p k = [] := by
  cases n with
  | zero => rfl
  | succ n => simp [exprReadings, h.primary]

/-- tokens after which an expression of this precedence is complete -/
def LoopStop (p : Nat) : List GTok → Prop
  | [] => True
  | t :: r => (binaryOpOf t = none ∨ 4 < p ∨ (t = .sign ">" ∧ NoStart r)) ∧ (t ≠ .sign "?" ∨ 1 < p)

theorem LoopStop.loop {p k} (h : LoopStop p k) (m n v) : exprLoop (exprReadings m) p n v k = [(v, k)] := by
  cases n with
  | zero => rfl
  | succ n =>
    cases k with
    | nil => simp [exprLoop]
    | cons t r =>
      obtain ⟨h1, h2⟩ := h
      have e2 : ¬ (t = .sign "?" ∧ p ≤ 1) := by
        rintro ⟨h, hp⟩
        rcases h2 with h' | h'
        · exact h' h
        · omega
      simp only [exprLoop, if_neg e2]
      rcases h1 with h1 | h1 | ⟨rfl, h1⟩
      · simp [h1]
      · cases hb : binaryOpOf t with
        | none => rfl
        | some op => simp [Nat.not_le.2 h1]
      · simp [h1.expr, binaryOpOf]

theorem loop_keepsDead (E p n) : KeepsDead fun x : TVal × List GTok => exprLoop E p n x.1 x.2 := by
  intro v d hd x hx
  simp only [hd.loop] at hx
  rw [List.mem_singleton.1 hx]
  exact hd

/-- An expression is read when its first part is and the rest stops the loop. -/
theorem expr_first {n p ts v k} (h : First (primaryExpr (exprReadings n) n ts) v k) (hk : LoopStop p k) :
    First (exprReadings (n + 1) p ts) v k := by
  unfold exprReadings
  refine First.bind h (loop_keepsDead _ _ _) ?_
  simp only [hk.loop]
  exact First.head ..

/-! ## Types -/

theorem loopStop_gt {p r} (h : NoStart r) : LoopStop p (.sign ">" :: r) := ⟨.inr (.inr ⟨rfl, h⟩), by simp⟩
theorem loopStop_comma {p r} : LoopStop p (.sign "," :: r) := ⟨.inl rfl, by simp⟩
theorem loopStop_arrow {p r} : LoopStop p (.sign "->" :: r) := ⟨.inl rfl, by simp⟩

/-- what may come after a type in a text -/
def TypeStop (k : List GTok) : Prop := LoopStop 0 k ∧ NoStart k

theorem TypeStop.gt {k} (h : TypeStop k) : TypeStop (.sign ">" :: k) := ⟨loopStop_gt h.2, by simp [NoStart]⟩
theorem typeStop_comma {k} : TypeStop (.sign "," :: k) := ⟨loopStop_comma, by simp [NoStart]⟩
theorem typeStop_arrow {k} : TypeStop (.sign "->" :: k) := ⟨loopStop_arrow, by simp [NoStart]⟩
theorem typeStop_nil : TypeStop [] := ⟨trivial, trivial⟩

theorem markNullability_of {n : Nullability} (h : IsMarked n) : markNullability (decide (n = 1)) = n := by
  rcases h with rfl | rfl <;> rfl

theorem optMark_marked (n : Nullability) (k) (h : k.head? ≠ some (.sign "?")) :
    ∃ post, optMark (markToks n ++ k) = (decide (n = 1), k) :: post := by
  unfold markToks
  by_cases hn : n = 1
  · rw [if_pos hn]
    exact ⟨_, by simp [optMark, hn]; rfl⟩
  · rw [if_neg hn]
    refine ⟨[], ?_⟩
    simp only [List.nil_append, hn, decide_false]
    unfold optMark
    split
    · simp at h
    · rfl

theorem optMark_first (n : Nullability) (k) (h : k.head? ≠ some (.sign "?")) :
    First (optMark (markToks n ++ k)) (decide (n = 1)) k := by
  obtain ⟨post, e⟩ := optMark_marked n k h
  rw [e]
  exact First.head ..

theorem TypeStop.head {k} (h : TypeStop k) : k.head? ≠ some (.sign "?") := by
  cases k with
  | nil => simp
  | cons t r =>
    rcases h.1.2 with h' | h'
    · simpa using h'
    · omega

theorem optMark_keepsDead_sign {β} (s : String) (h1 : s ≠ "(") (h2 : s ≠ "!")
    (g : α → List GTok → Readings β) : KeepsDead fun x : α × List GTok => (eatSign s x.2).flatMap (g x.1) := by
  intro v d hd x hx
  simp [hd.eat s h1 h2] at hx

theorem keepsDead_eat (s : String) (h1 : s ≠ "(") (h2 : s ≠ "!") (g : α → List GTok → β × List GTok) :
    KeepsDead fun x : α × List GTok => (eatSign s x.2).map (g x.1) := by
  intro v d hd x hx
  simp [hd.eat s h1 h2] at hx

theorem numOf_int (i : Int) (h : IsInt64 i) : numOf (intChars i) = some i := by
  unfold numOf
  rw [intChars_bytes, atoi_intText i h]

theorem int32_isInt64 (v : Int32) : IsInt64 v.toInt := by
  have h1 := v.le_toInt
  have h2 := v.toInt_lt
  exact ⟨by omega, by omega⟩

theorem numericParameter_first (E) (p : IntParam) (k) :
    First (numericParameter E (p.toks ++ k)) (some p) k := by
  unfold numericParameter
  refine First.left ?_
  cases p with
  | concrete v =>
    simp only [IntParam.toks, List.cons_append, List.nil_append, numericLiteral, numOf_int _ (int32_isInt64 v)]
    rw [Int32.ofInt_toInt]
    exact First.head ..
  | var s =>
    simp only [IntParam.toks, List.cons_append, List.nil_append, String.ofList_toList]
    exact First.head ..

/-- the continuations that ask for a closing sign -/
macro "keeps_dead" : tactic =>
  `(tactic| (intro v d hd x hx
             simp [hd.eat ">" (by decide) (by decide), hd.eat "<" (by decide) (by decide),
               hd.eat "," (by decide) (by decide), hd.eat "->" (by decide) (by decide),
               hd.eat ")" (by decide) (by decide), hd.eat ":" (by decide) (by decide)] at hx))

/-- the tokens that types start with -/
def TypeHead : List GTok → Prop
  | .key s :: _ => s ≠ "if"
  | .anyVar _ :: _ => True
  | _ => False

theorem readable_head (t : FTy) (h : Readable t) (k) : TypeHead (t.toks ++ k) := by
  cases h with
  | prim k => cases k <;> simp [FTy.toks, TypeHead, Prim.longName]
  | any n s hn hs => simp only [FTy.toks, anyTok, List.cons_append]; split <;> simp [TypeHead]
  | single k => rcases k with k | k <;> cases k <;> simp [FTy.toks, TypeHead, Single.longName, Fixed.longName, Prec.longName]
  | udt n s ps => cases ps <;> simp [FTy.toks, TypeHead]
  | _ => simp [FTy.toks, TypeHead]

theorem TypeHead.primary {ts} (h : TypeHead ts) (E n) :
    ∃ post, primaryExpr E n ts = typeDef E n ts ++ post := by
  unfold TypeHead at h
  unfold primaryExpr
  split at h
  · simp only [eatSign, assignmentLine]
    simp only [List.append_assoc]
    exact ⟨_, by simp; rfl⟩
  · simp only [eatSign, assignmentLine]
    simp only [List.append_assoc]
    exact ⟨_, by simp; rfl⟩
  · exact h.elim

theorem expr_of_typeDef {n p ts v k} (hh : TypeHead ts) (h : First (typeDef (exprReadings n) n ts) v k)
    (hk : LoopStop p k) : First (exprReadings (n + 1) p ts) v k := by
  refine expr_first ?_ hk
  obtain ⟨post, e⟩ := hh.primary (exprReadings n) n
  rw [e]
  exact h.left

theorem typeDef_key (E n) (s : String) (ts) (h1 : s ≠ "any") (h2 : primOfKey s = none) :
    typeDef E n (.key s :: ts) = parameterizedType E n s ts := by
  unfold typeDef
  split
  · rename_i e; simp at e; exact absurd e.1 h1
  · rename_i e; simp at e
  · rename_i e; simp at e; obtain ⟨rfl, rfl⟩ := e; simp [h2]
  · rename_i e; exact absurd rfl (e s ts)

theorem head_lt (k) : (GTok.sign "<" :: k).head? ≠ some (.sign "?") := by simp

theorem param_decimal (E n ts) : parameterizedType E n "decimal" ts =
    (optMark ts).flatMap fun x => (eatSign "<" x.2).flatMap fun r =>
      (numericParameter E r).flatMap fun p => (eatSign "," p.2).flatMap fun r =>
      (numericParameter E r).flatMap fun s => (eatSign ">" s.2).map fun r => (decimalType x.1 p.1 s.1, r) := by
  rfl

theorem param_struct (E n ts) : parameterizedType E n "struct" ts =
    (optMark ts).flatMap fun x => (eatSign "<" x.2).flatMap fun r =>
      (someExprs E n r).flatMap fun v => (eatSign ">" v.2).map fun r => (structType x.1 v.1, r) := by
  rfl

theorem param_list (E n ts) : parameterizedType E n "list" ts =
    (optMark ts).flatMap fun x => (eatSign "<" x.2).flatMap fun r =>
      (E 0 r).flatMap fun v => (eatSign ">" v.2).map fun r => (listType x.1 v.1, r) := by
  rfl

theorem param_map (E n ts) : parameterizedType E n "map" ts =
    (optMark ts).flatMap fun x => (eatSign "<" x.2).flatMap fun r =>
      (E 0 r).flatMap fun k => (eatSign "," k.2).flatMap fun r =>
      (E 0 r).flatMap fun v => (eatSign ">" v.2).map fun r => (mapType x.1 k.1 v.1, r) := by
  rfl

theorem param_func (E n ts) : parameterizedType E n "func" ts =
    (optMark ts).flatMap fun x => (eatSign "<" x.2).flatMap fun r =>
      (funcParams E n r).flatMap fun ps => (eatSign "->" ps.2).flatMap fun r =>
      (E 0 r).flatMap fun v => (eatSign ">" v.2).map fun r => (funcType x.1 ps.1 v.1, r) := by
  rfl

theorem param_udt (E n s ts) : parameterizedType E n "u!" (.ident s :: ts) =
    (optMark ts).flatMap fun x =>
      ((eatSign "<" x.2).flatMap fun r => (someExprs E n r).flatMap fun vs =>
        (eatSign ">" vs.2).map fun r => (userDefined x.1 s vs.1, r)) ++ [(userDefined x.1 s [], x.2)] := by
  rfl

/-- a mark and an opening bracket -/
theorem mark_lt {β} (n : Nullability) (k) (g : Bool × List GTok → List GTok → Readings β) {v l}
    (h : First (g (decide (n = 1), .sign "<" :: k) k) v l) :
    First ((optMark (markToks n ++ .sign "<" :: k)).flatMap fun x => (eatSign "<" x.2).flatMap (g x)) v l := by
  refine First.bind (optMark_first n _ (head_lt k)) (by keeps_dead) ?_
  simpa [eatSign] using h

theorem rest_typeStop : ∀ (us : List FTy) (k), TypeStop k → TypeStop (FTy.toksRest us ++ k)
  | [], k, h => by simpa [FTy.toksRest] using h
  | _ :: _, _, _ => by simp only [FTy.toksRest, List.cons_append]; exact typeStop_comma

theorem paramRest_typeStop : ∀ (us : List FParam) (k), TypeStop k → TypeStop (FParam.toksRest us ++ k)
  | [], k, h => by simpa [FParam.toksRest] using h
  | _ :: _, _, _ => by simp only [FParam.toksRest, List.cons_append]; exact typeStop_comma

theorem allOf_types : ∀ us : List FTy, allOf TVal.asType (us.map .type) = some us
  | [] => rfl
  | u :: us => by simp [allOf, TVal.asType, allOf_types us]

mutual
theorem typeDef_ty : ∀ (t : FTy), Readable t → ∀ k n, TypeStop k → t.toks.length ≤ n →
    First (typeDef (exprReadings n) n (t.toks ++ k)) (.type t) k
  | .prim p m v, h, k, n, hk, hn => by
    cases h with
    | prim _ _ hm =>
      have e : typeDef (exprReadings n) n (.key p.longName :: (markToks m ++ k)) =
          (optMark (markToks m ++ k)).map fun (q, r) => (.type (.prim p (markNullability q) 0), r) := by
        cases p <;> simp [typeDef, Prim.longName, primOfKey]
      simp only [FTy.toks, List.cons_append, e]
      have := (optMark_first m k hk.head).map fun q => TVal.type (.prim p (markNullability q) 0)
      rw [markNullability_of hm] at this
      exact this
  | .any m s, h, k, n, hk, hn => by
    cases h with
    | any _ _ hm hs =>
      have e : typeDef (exprReadings n) n (anyTok s :: (markToks m ++ k)) =
          (optMark (markToks m ++ k)).map fun (q, r) => (.type (.any (markNullability q) s), r) := by
        unfold anyTok
        by_cases h : s = "any"
        · rw [if_pos h, h]; rfl
        · rw [if_neg h]; simp [typeDef]
      simp only [FTy.toks, List.cons_append, e]
      have := (optMark_first m k hk.head).map fun q => TVal.type (.any (markNullability q) s)
      rw [markNullability_of hm] at this
      exact this
  | .enum .., h, _, _, _, _ => by cases h
  | .derivation .., h, _, _, _, _ => by cases h
  | .single s m p, h, k, n, hk, hn => by
    cases h with
    | single _ _ _ hm hp =>
      have e : ∀ ts, typeDef (exprReadings n) n (.key s.longName :: ts) =
          (optMark ts).flatMap fun x => (eatSign "<" x.2).flatMap fun r =>
          (numericParameter (exprReadings n) r).flatMap fun p =>
          (eatSign ">" p.2).map fun r => (singleType s x.1 p.1, r) := by
        intro ts
        rcases s with s | s <;> cases s <;>
          simp [typeDef, Single.longName, Fixed.longName, Prec.longName, primOfKey, parameterizedType, singleOfKey]
      simp only [FTy.toks, List.cons_append, List.append_assoc, List.nil_append]
      rw [e]
      refine mark_lt m _ _ ?_
      refine First.bind (numericParameter_first _ p _) (by keeps_dead) ?_
      simp only [eatSign_self, List.map_cons, List.map_nil, singleType, markNullability_of hm]
      exact First.head ..
  | .decimal m p s, h, k, n, hk, hn => by
    cases h with
    | decimal _ _ _ hm hp hs =>
      simp only [FTy.toks, List.cons_append, List.append_assoc, List.nil_append]
      rw [typeDef_key _ _ _ _ (by decide) (by decide), param_decimal]
      refine mark_lt m _ _ ?_
      refine First.bind (numericParameter_first _ p _) (by keeps_dead) ?_
      simp only [eatSign_self, List.flatMap_cons, List.flatMap_nil, List.append_nil]
      refine First.bind (numericParameter_first _ s _) (by keeps_dead) ?_
      simp only [eatSign_self, List.map_cons, List.map_nil, decimalType, markNullability_of hm]
      exact First.head ..
  | .list m t, h, k, n, hk, hn => by
    cases h with
    | list _ _ hm ht =>
      simp only [FTy.toks, List.cons_append, List.append_assoc, List.nil_append]
      simp only [FTy.toks, List.length_cons, List.length_append, List.length_nil] at hn
      rw [typeDef_key _ _ _ _ (by decide) (by decide), param_list]
      refine mark_lt m _ _ ?_
      obtain ⟨n, rfl⟩ : ∃ n', n = n' + 1 := ⟨n - 1, by omega⟩
      refine First.bind (expr_of_typeDef (readable_head t ht _)
        (typeDef_ty t ht _ n hk.gt (by omega)) hk.gt.1) (by keeps_dead) ?_
      simp only [eatSign_self, List.map_cons, List.map_nil, listType, TVal.asType, markNullability_of hm]
      exact First.head ..
  | .map m a b, h, k, n, hk, hn => by
    cases h with
    | map _ _ _ hm ha hb =>
      simp only [FTy.toks, List.cons_append, List.append_assoc, List.nil_append]
      simp only [FTy.toks, List.length_cons, List.length_append, List.length_nil] at hn
      rw [typeDef_key _ _ _ _ (by decide) (by decide), param_map]
      refine mark_lt m _ _ ?_
      obtain ⟨n, rfl⟩ : ∃ n', n = n' + 1 := ⟨n - 1, by omega⟩
      refine First.bind (expr_of_typeDef (readable_head a ha _)
        (typeDef_ty a ha _ n typeStop_comma (by omega)) loopStop_comma) (by keeps_dead) ?_
      simp only [eatSign_self, List.flatMap_cons, List.flatMap_nil, List.append_nil]
      refine First.bind (expr_of_typeDef (readable_head b hb _)
        (typeDef_ty b hb _ n hk.gt (by omega)) hk.gt.1) (by keeps_dead) ?_
      simp only [eatSign_self, List.map_cons, List.map_nil, mapType, TVal.asType, markNullability_of hm]
      exact First.head ..
  | .struct m us, h, k, n, hk, hn => by
    cases h with
    | struct _ t us hm ht hus =>
      simp only [FTy.toks, FTy.toksList, List.cons_append, List.append_assoc, List.nil_append]
      simp only [FTy.toks, FTy.toksList, List.length_cons, List.length_append, List.length_nil] at hn
      rw [typeDef_key _ _ _ _ (by decide) (by decide), param_struct]
      refine mark_lt m _ _ ?_
      obtain ⟨n, rfl⟩ : ∃ n', n = n' + 1 := ⟨n - 1, by omega⟩
      have hstop := rest_typeStop us (.sign ">" :: k) hk.gt
      refine First.bind (v := .type t :: us.map .type) (k := .sign ">" :: k) ?_ (by keeps_dead) ?_
      · unfold someExprs
        refine First.bind (expr_of_typeDef (readable_head t ht _)
          (typeDef_ty t ht _ n hstop (by omega)) hstop.1) ?_ ?_
        · intro v d hd x hx
          simp only [hd.more, List.map_cons, List.map_nil, List.mem_singleton] at hx
          rw [hx]; exact hd
        · exact (more_ty us hus (.sign ">" :: k) n (n + 1) hk.gt (by omega) (by omega)
            (by simp [eatSign])).map fun vs => .type t :: vs
      · have : allOf TVal.asType (.type t :: us.map .type) = some (t :: us) := by
          simp [allOf, TVal.asType, allOf_types]
        simp only [eatSign_self, List.map_cons, List.map_nil, structType, this, markNullability_of hm]
        exact First.head ..
  | .func m ps r, h, k, n, hk, hn => by
    cases h with
    | func _ p _ hm hp hr =>
      simp only [FTy.toks, FTy.toksList, FTy.toksRest, List.cons_append, List.append_assoc, List.nil_append]
      simp only [FTy.toks, FTy.toksList, FTy.toksRest, List.length_cons, List.length_append, List.length_nil] at hn
      rw [typeDef_key _ _ _ _ (by decide) (by decide), param_func]
      refine mark_lt m _ _ ?_
      obtain ⟨n, rfl⟩ : ∃ n', n = n' + 1 := ⟨n - 1, by omega⟩
      refine First.bind (v := .single (.type p)) (k := .sign "->" :: (r.toks ++ .sign ">" :: k)) ?_ (by keeps_dead) ?_
      · unfold funcParams
        exact ((expr_of_typeDef (readable_head p hp _)
          (typeDef_ty p hp _ n typeStop_arrow (by omega)) loopStop_arrow).map PFunc.single).left
      · simp only [eatSign_self, List.flatMap_cons, List.flatMap_nil, List.append_nil]
        refine First.bind (expr_of_typeDef (readable_head r hr _)
          (typeDef_ty r hr _ n hk.gt (by omega)) hk.gt.1) (by keeps_dead) ?_
        simp only [eatSign_self, List.map_cons, List.map_nil, funcType, PFunc.types, TVal.asType,
          markNullability_of hm]
        exact First.head ..
  | .udt m v s [], h, k, n, hk, hn => by
    cases h with
    | udt _ _ _ hm hs hps =>
      simp only [FTy.toks, List.cons_append]
      rw [typeDef_key _ _ _ _ (by decide) (by decide), param_udt]
      refine First.bind (optMark_first m k hk.head) ?_ ?_
      · intro v d hd x hx
        simp only [hd.eat "<" (by decide) (by decide), List.flatMap_nil, List.nil_append, List.mem_singleton] at hx
        rw [hx]; exact hd
      · have : eatSign "<" k = [] := by
          cases k with
          | nil => rfl
          | cons t r =>
            have := hk.2
            simp only [NoStart, List.mem_cons, List.not_mem_nil, or_false] at this
            rcases this with rfl | rfl | rfl | rfl | rfl | rfl | rfl | rfl <;> simp [eatSign]
        simp only [this, List.flatMap_nil, List.nil_append, userDefined, allOf, markNullability_of hm,
          String.ofList_toList]
        exact First.head ..
  | .udt m v s (p :: ps), h, k, n, hk, hn => by
    cases h with
    | udt _ _ _ hm hs hps =>
      simp only [FTy.toks, List.cons_append, List.append_assoc, List.nil_append]
      simp only [FTy.toks, List.length_cons, List.length_append, List.length_nil] at hn
      rw [typeDef_key _ _ _ _ (by decide) (by decide), param_udt]
      have hstop := paramRest_typeStop ps (.sign ">" :: k) hk.gt
      have hps' := fun q hq => hps q (List.mem_cons_of_mem p hq)
      obtain ⟨n, rfl⟩ : ∃ n', n = n' + 1 := ⟨n - 1, by omega⟩
      obtain ⟨w, hw, hw'⟩ := expr_param p (hps p List.mem_cons_self)
        (FParam.toksRest ps ++ .sign ">" :: k) n hstop (by omega)
      obtain ⟨ws, hws, hws'⟩ := more_param ps hps' (.sign ">" :: k) n (n + 1) hk.gt (by omega) (by omega)
        (by simp [eatSign])
      refine First.bind (optMark_first m _ (head_lt _)) ?_ ?_
      · intro v d hd x hx
        simp only [hd.eat "<" (by decide) (by decide), List.flatMap_nil, List.nil_append, List.mem_singleton] at hx
        rw [hx]; exact hd
      · simp only [eatSign_self, List.flatMap_cons, List.flatMap_nil, List.append_nil]
        refine First.left ?_
        refine First.bind (v := w :: ws) (k := .sign ">" :: k) ?_ (by keeps_dead) ?_
        · unfold someExprs
          refine First.bind hw ?_ ?_
          · intro v d hd x hx
            simp only [hd.more, List.map_cons, List.map_nil, List.mem_singleton] at hx
            rw [hx]; exact hd
          · exact hws.map fun vs => w :: vs
        · simp only [eatSign_self, List.map_cons, List.map_nil, userDefined, allOf, hw', hws', markNullability_of hm,
            String.ofList_toList]
          exact First.head ..

theorem more_ty : ∀ (us : List FTy), (∀ u ∈ us, Readable u) → ∀ k n m, TypeStop k →
    (FTy.toksRest us).length ≤ n + 1 → (FTy.toksRest us).length ≤ m → eatSign "," k = [] →
    First (moreExprs (exprReadings (n + 1)) m (FTy.toksRest us ++ k)) (us.map TVal.type) k
  | [], _, k, n, m, hk, _, _, hc => by
    simp only [FTy.toksRest, List.nil_append, List.map_nil]
    cases m with
    | zero => exact First.head ..
    | succ m =>
      simp only [moreExprs, hc, List.flatMap_nil, List.nil_append]
      exact First.head ..
  | u :: us, h, k, n, m, hk, hn, hm, hc => by
    simp only [FTy.toksRest, List.length_cons, List.length_append] at hn hm
    obtain ⟨m, rfl⟩ : ∃ m', m = m' + 1 := ⟨m - 1, by omega⟩
    have hus := fun v hv => h v (List.mem_cons_of_mem u hv)
    have hstop := rest_typeStop us k hk
    simp only [FTy.toksRest, List.cons_append, List.append_assoc, moreExprs, eatSign_self, List.flatMap_cons,
      List.flatMap_nil, List.append_nil, List.map_cons]
    refine First.left (First.bind (expr_of_typeDef (readable_head u (h u List.mem_cons_self) _)
      (typeDef_ty u (h u List.mem_cons_self) _ n hstop (by omega)) hstop.1) ?_ ?_)
    · intro v d hd x hx
      simp only [hd.more, List.map_cons, List.map_nil, List.mem_singleton] at hx
      rw [hx]; exact hd
    · exact (more_ty us hus k n m hk (by omega) (by omega) hc).map fun vs => .type u :: vs

theorem expr_param : ∀ (p : FParam), ReadableParam p → ∀ k n, TypeStop k → p.toks.length ≤ n →
    ∃ w, First (exprReadings (n + 1) 0 (p.toks ++ k)) w k ∧ udtParam w = some p
  | .dataType t, h, k, n, hk, hn => by
    cases h with
    | dataType _ ht =>
      simp only [FParam.toks] at hn ⊢
      exact ⟨.type t, expr_of_typeDef (readable_head t ht _) (typeDef_ty t ht k n hk hn) hk.1, rfl⟩
  | .integer i, h, k, n, hk, hn => by
    refine ⟨.num (Int64.ofInt i.toInt), expr_first ?_ hk.1, ?_⟩
    · simp only [FParam.toks, List.cons_append, List.nil_append, primaryExpr, eatSign, assignmentLine, typeDef,
        literalNumber, numOf_int _ (int32_isInt64 i)]
      simp
      exact First.head ..
    · simp only [udtParam]
      congr 2
      apply Int32.toInt_inj.1
      have h1 := i.le_toInt
      have h2 := i.toInt_lt
      rw [Int64.toInt_toInt32, Int64.toInt_ofInt_of_le (by omega) (by omega)]
      exact Int32.toInt_bmod i
  | .string s, h, k, n, hk, hn => by
    refine ⟨.name s, expr_first ?_ hk.1, rfl⟩
    have he : eatSign "=" k = [] ∧ eatSign "(" k = [] := by
      cases k with
      | nil => exact ⟨rfl, rfl⟩
      | cons t r =>
        have := hk.2
        simp only [NoStart, List.mem_cons, List.not_mem_nil, or_false] at this
        rcases this with rfl | rfl | rfl | rfl | rfl | rfl | rfl | rfl <;> simp [eatSign]
    have := (optMark_first 2 k hk.head).map fun _ => TVal.name s
    simp only [markToks] at this
    have e1 : assignmentLine (exprReadings n) (.ident s.toList :: k) = [] := by simp [assignmentLine, he.1]
    have e2 : typeDef (exprReadings n) n (.ident s.toList :: k) = [] := by simp [typeDef]
    have e3 : eatSign "(" (.ident s.toList :: k) = [] := by simp [eatSign]
    simp only [FParam.toks, List.cons_append, List.nil_append, primaryExpr, e1, e2, e3, he.2,
      List.flatMap_nil, List.append_nil, String.ofList_toList]
    simpa using this

theorem more_param : ∀ (ps : List FParam), (∀ p ∈ ps, ReadableParam p) → ∀ k n m, TypeStop k →
    (FParam.toksRest ps).length ≤ n + 1 → (FParam.toksRest ps).length ≤ m → eatSign "," k = [] →
    ∃ ws, First (moreExprs (exprReadings (n + 1)) m (FParam.toksRest ps ++ k)) ws k ∧
      allOf udtParam ws = some ps
  | [], _, k, n, m, hk, _, _, hc => by
    refine ⟨[], ?_, rfl⟩
    simp only [FParam.toksRest, List.nil_append]
    cases m with
    | zero => exact First.head ..
    | succ m =>
      simp only [moreExprs, hc, List.flatMap_nil, List.nil_append]
      exact First.head ..
  | p :: ps, h, k, n, m, hk, hn, hm, hc => by
    simp only [FParam.toksRest, List.length_cons, List.length_append] at hn hm
    obtain ⟨m, rfl⟩ : ∃ m', m = m' + 1 := ⟨m - 1, by omega⟩
    have hps := fun v hv => h v (List.mem_cons_of_mem p hv)
    have hstop := paramRest_typeStop ps k hk
    obtain ⟨w, hw, hw'⟩ := expr_param p (h p List.mem_cons_self) (FParam.toksRest ps ++ k) n hstop (by omega)
    obtain ⟨ws, hws, hws'⟩ := more_param ps hps k n m hk (by omega) (by omega) hc
    refine ⟨w :: ws, ?_, by simp [allOf, hw', hws']⟩
    simp only [FParam.toksRest, List.cons_append, List.append_assoc, moreExprs, eatSign_self, List.flatMap_cons,
      List.flatMap_nil, List.append_nil]
    refine First.left (First.bind hw ?_ ?_)
    · intro v d hd x hx
      simp only [hd.more, List.map_cons, List.map_nil, List.mem_singleton] at hx
      rw [hx]; exact hd
    · exact hws.map fun vs => w :: vs
end

end Verif
