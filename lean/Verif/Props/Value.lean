import Verif.Lemmas.Value
import Verif.Props.Switch
import Verif.Model.Lambda
/-!
# Property C120: what `GetType` says about the values of an expression
-/

namespace Verif

/-- The property in full: every value an expression can have belongs to the type the expression
states. False: see the negations below. -/
def C120_statement : Prop :=
  ∀ (w : World) (s : Shape) (e : Expr) (v : Val) (t : Ty), w.Fits s → e.Checked s →
    e.Yields w v → e.getType = .ok t → v.InType t

/-- C120, missing: the expressions that are not `Careful`. Every value an expression can have
belongs to the type it states; in particular it has one. -/
theorem C120_values_partial (w : World) (s : Shape) (e : Expr) (v : Val) (hw : w.Fits s)
    (h : e.Checked s) (hc : e.Careful s) (hv : e.Yields w v) :
    ∃ t, e.getType = .ok t ∧ v.InType t :=
  yields_inType w s hw e h hc v hv

/-- In particular null never comes out of an expression whose stated type is not nullable. -/
theorem C120_required (w : World) (s : Shape) (e : Expr) (t : Ty) (hw : w.Fits s)
    (h : e.Checked s) (hc : e.Careful s) (ht : e.getType = .ok t) (hn : ¬ t.IsNullable) :
    ¬ e.Yields w .null := by
  intro hv
  obtain ⟨t', ht', hin⟩ := yields_inType w s hw e h hc _ hv
  rw [ht] at ht'
  injection ht' with ht'
  subst ht'
  exact ne_null_of_inType hin hn rfl

/-! ## The constructors -/

/-- `NewIfThen` of parts that are in order is in order. -/
theorem C120_newIfThen (s : Shape) (first : EPair) (els e : Expr) (elsifs : List EPair)
    (hr : ∀ p ∈ first :: elsifs, p.result.Checked s ∧ p.result.Careful s)
    (he : els.Checked s ∧ els.Careful s) (hp : ∀ t, els.getType = .ok t → t.PlanType)
    (h : newIfThen first els elsifs = .ok e) : e.Checked s ∧ e.Careful s := by
  obtain ⟨t0, ht0⟩ := checked_type s els he.1
  obtain ⟨rfl, t, ht, hall⟩ := (C54_newIfThen first els elsifs (fun _ => ⟨t0, ht0, hp t0 ht0⟩)
    (fun p hp' _ => checked_type s _ (hr p hp').1)).2.2 e h
  simp only [Expr.getType] at ht
  simp only [Expr.Checked, Expr.Careful, checkedResults_iff, carefulResults_iff]
  refine ⟨⟨he.1, fun p hp' => (hr p hp').1, t, ht, ?_⟩, he.2, fun p hp' => (hr p hp').2⟩
  intro a b hm
  exact hall _ hm

/-- So is `NewSwitch`, unless results of type interval_day are involved (C19). -/
theorem C120_newSwitch (s : Shape) (m els e : Expr) (cases : List ECase)
    (hc : ∀ c ∈ cases, c.result.Checked s ∧ c.result.Careful s)
    (he : els.isNil = true ∨ (els.Checked s ∧ els.Careful s))
    (hm : ∀ u, m.getType = .ok u → u.PlanType)
    (ht : ∀ c ∈ cases, ∀ u, c.result.getType = .ok u → u.PlanType ∧ ¬ u.IsIntervalDay)
    (hel : ∀ u, els.getType = .ok u → u.PlanType ∧ ¬ u.IsIntervalDay)
    (h : newSwitch m els cases = .ok e) : e.Checked s ∧ e.Careful s := by
  obtain ⟨⟨hne, -, k, hk, hek⟩, rfl⟩ := (newSwitch_iff m els e cases
    ⟨hm, fun c hc' u hu => (ht c hc' u hu).1, fun u hu => (hel u hu).1⟩).1 h
  have h1 : els.touch NullabilityUnspecified = els := by
    rcases hek with hn | ⟨u, hu, -⟩
    · rw [expr_isNil_iff] at hn; subst hn; rfl
    · exact expr_touch_eq _ _ _ hu (hel u hu).2
  have h2 : ∀ c ∈ cases, c.touched.result = c.result := by
    intro c hc'
    obtain ⟨u, hu, -⟩ := hk c hc'
    exact expr_touch_eq _ _ _ hu (ht c hc' u hu).2
  simp only [Expr.Checked, Expr.Careful, checkedCases_iff, carefulCases_iff, h1]
  have h3 : ∀ (P : Expr → Prop), (∀ c ∈ cases, P c.result) →
      ∀ c ∈ cases.map ECase.touched, P c.result := by
    intro P hP c hc'
    obtain ⟨d, hd, rfl⟩ := List.mem_map.1 hc'
    rw [h2 d hd]
    exact hP d hd
  refine ⟨⟨by simpa using hne, h3 _ fun c hc' => (hc c hc').1, he.imp_right And.left, k,
    h3 (fun x => ∃ u, x.getType = .ok u ∧ u.SameKind k) hk, hek⟩, h3 _ fun c hc' => (hc c hc').2, ?_⟩
  rcases he with hn | he
  · rw [expr_isNil_iff] at hn; subst hn; simp [Expr.Careful]
  · exact he.2

/-- `NewFieldRef` into a row records the type at the end of the path, so the reference is checked;
it is careful when the field has no nullable struct, list or map around it or is nullable itself. -/
theorem C120_newFieldRef (s : Shape) (ts : List Ty) (p : Seg) (e : Expr) (hk : p.KeysTyped)
    (hn : p ≠ .nil) (hs : s.row = .struct NullabilityRequired 0 ts)
    (h : newFieldRef .rootReference (.seg p) (some ts) = .ok e) :
    e.Checked s ∧ ∃ t, e.getType = .ok t ∧
      (e.Careful s ↔ t.IsNullable ∨ FirmWalk p.steps s.row t) := by
  simp only [newFieldRef] at h
  obtain ⟨t, ht, h⟩ := Res.bind_eq_ok.1 h
  injection h with h
  subst h
  have hwalk := ((C14_getType p _ hn hk).1 t).1 ht
  refine ⟨?_, t, rfl, ?_⟩
  · simp only [Expr.Checked, ERoot.Checked, ERoot.HasType, true_and]
    exact ⟨p, _, t, rfl, rfl, rfl, by rw [hs]; exact hwalk⟩
  · simp only [Expr.Careful, ERoot.Careful, true_and, ERoot.HasType]
    constructor
    · rintro (⟨t', h1, h2⟩ | ⟨p', T, t', h1, rfl, h3⟩)
      · injection h1 with h1; subst h1; exact .inl h2
      · injection h1 with h1
        subst h1
        have : t' = t := firm_unique h3 (by rw [hs]; exact hwalk)
        subst this
        exact .inr h3
    · rintro (h1 | h1)
      · exact .inl ⟨t, rfl, h1⟩
      · exact .inr ⟨p, _, t, rfl, rfl, h1⟩

/-- A reference to a column is always in order. -/
theorem C120_column (s : Shape) (ts : List Ty) (i : Int32) (e : Expr)
    (hs : s.row = .struct NullabilityRequired 0 ts)
    (h : newFieldRef .rootReference (.seg (.structField i .nil)) (some ts) = .ok e) :
    e.Checked s ∧ e.Careful s := by
  obtain ⟨h1, t, ht, h2⟩ := C120_newFieldRef s ts (.structField i .nil) e trivial
    (by intro h; cases h) hs h
  refine ⟨h1, h2.2 (.inr ?_)⟩
  simp only [newFieldRef] at h
  obtain ⟨t', ht', h⟩ := Res.bind_eq_ok.1 h
  injection h with h
  subst h
  simp only [Expr.getType, Res.ok.injEq] at ht
  subst ht
  have hwalk := ((C14_getType (.structField i .nil) _ (by intro h; cases h) trivial).1 t').1 ht'
  rw [hs]
  simp only [Seg.steps] at hwalk ⊢
  cases hwalk with
  | step _ _ _ u _ g1 g2 =>
    cases g2
    exact .step _ _ _ _ _ (by simp [Ty.IsNullable, Ty.nullability, NullabilityRequired,
      NullabilityNullable]) g1 (.done _)

/-! ## Where the stated type is wrong -/

/-- a world without columns and with empty tables -/
def exWorld : World where
  row := .struct []
  outer := fun _ => .struct []
  lam := fun _ => .struct []
  rows := fun _ => []
  holds := fun _ _ _ => True
  code := fun _ => 0

/-- its types -/
def exShape : Shape where
  row := .struct NullabilityRequired 0 []
  outer := fun _ => .struct NullabilityRequired 0 []
  lam := fun _ => .struct NullabilityRequired 0 []

theorem exWorld_fits : exWorld.Fits exShape where
  row := by simp [exWorld, exShape, Val.InType, Val.InTypes]
  outer := by simp [exWorld, exShape, Val.InType, Val.InTypes]
  lam := by simp [exWorld, exShape, Val.InType, Val.InTypes]
  rows := by simp [exWorld]

/-- a parameter of type i32 -/
def exI32 (n : Nullability) : Expr := .dynParam (.prim .i32 n 0) 0

/-- A comparison with a list of options comes out null whenever the value compared is null and there
is an option, but the stated type is always the required boolean. -/
theorem C120_or_null (w : World) (e : Expr) (os : List Expr) (xs : List Val)
    (he : e.Yields w .null) (ho : Expr.YieldsList w os xs) (hne : xs ≠ []) :
    (Expr.singularOr e os).Yields w .null ∧
      (Expr.singularOr e os).getType = .ok (.prim .boolean NullabilityRequired 0) := by
  refine ⟨?_, rfl⟩
  simp only [Expr.Yields]
  refine ⟨.null, xs, he, ho, .inr (.inr ⟨?_, ?_, rfl⟩)⟩
  · rintro ⟨b, hb, h1, h2⟩
    simp at h2
  · intro hall
    obtain ⟨y, ys, rfl⟩ : ∃ y ys, xs = y :: ys := by
      cases xs with
      | nil => exact absurd rfl hne
      | cons y ys => exact ⟨y, ys, rfl⟩
    rcases hall [y] (by simp) with h | ⟨i, a, b, ha, hb, h1, h2, h3⟩
    · simp at h
    · cases i with
      | zero => simp at ha; exact h1 ha.symm
      | succ i => simp at ha

/-- An or-list whose value can be null. -/
theorem C120_negation_or : ¬ C120_statement := by
  intro h
  have hy := (C120_or_null exWorld (exI32 NullabilityNullable)
    [.lit (.prim (.int32 7) (.prim .i32 NullabilityRequired 0))]
    [.simple (.prim .i32 NullabilityRequired 0) 0]
    (by simp [exI32, Expr.Yields, Val.InType, Ty.IsNullable, Ty.nullability])
    (by simp [Expr.YieldsList, Expr.Yields, Lit.denote, Ty.withNullability, exWorld]) (by simp)).1
  have := h exWorld exShape _ _ _ exWorld_fits (by
    simp [Expr.Checked, exI32, Expr.CheckedList, Lit.Coherent, Ty.Leaf]) hy rfl
  simp [Val.InType, Ty.IsNullable, Ty.nullability, NullabilityRequired, NullabilityNullable] at this

/-- A cast of a nullable value to a required type. -/
theorem C120_negation_cast : ¬ C120_statement := by
  intro h
  have := h exWorld exShape (.cast (.prim .i64 NullabilityRequired 0) (exI32 NullabilityNullable) 2)
    .null _ exWorld_fits (by simp [Expr.Checked, exI32]) (by
      simp [Expr.Yields, exI32, Val.InType, Ty.IsNullable, Ty.nullability]) rfl
  simp [Val.InType, Ty.IsNullable, Ty.nullability, NullabilityRequired, NullabilityNullable] at this

/-- A cast of a required value that answers null on failure. -/
theorem C120_negation_return_null : ¬ C120_statement := by
  intro h
  have := h exWorld exShape (.cast (.prim .i64 NullabilityRequired 0) (exI32 NullabilityRequired) 1)
    .null _ exWorld_fits (by simp [Expr.Checked, exI32]) (by
      simp only [Expr.Yields, exI32]
      exact ⟨.simple (.prim .i32 NullabilityRequired 0) 0,
        by simp [Val.InType, Ty.Leaf, Ty.SameKind, Ty.Same], .inr ⟨by simp, .inr (by simp)⟩⟩) rfl
  simp [Val.InType, Ty.IsNullable, Ty.nullability, NullabilityRequired, NullabilityNullable] at this

/-- A scalar subquery with a required column, over a relation without rows. -/
theorem C120_negation_subquery : ¬ C120_statement := by
  intro h
  have := h exWorld exShape (.scalarSubquery ⟨0, [.prim .i64 NullabilityRequired 0]⟩)
    .null _ exWorld_fits (by simp [Expr.Checked]) (by simp [Expr.Yields, exWorld]) rfl
  simp [Val.InType, Ty.IsNullable, Ty.nullability, NullabilityRequired, NullabilityNullable] at this

/-- A list with a nullable element after a required one. -/
theorem C120_negation_list : ¬ C120_statement := by
  intro h
  have := h exWorld exShape
    (.listE false 0 [exI32 NullabilityRequired, exI32 NullabilityNullable])
    (.list [.simple (.prim .i32 NullabilityRequired 0) 0, .null]) _ exWorld_fits
    (by simp [Expr.Checked, Expr.CheckedList, exI32]) (by
      simp [Expr.Yields, Expr.YieldsList, exI32, Val.InType, Ty.Leaf, Ty.SameKind, Ty.Same,
        Ty.IsNullable, Ty.nullability]) rfl
  simp [Val.InType, Val.AllIn, Ty.IsNullable, Ty.nullability, NullabilityRequired,
    NullabilityNullable] at this

/-- a row whose only column, a nullable struct, is null -/
def exNullRow : World := { exWorld with row := .struct [.null] }

/-- its type: the struct has a required field -/
def exNullShape : Shape :=
  { exShape with
    row := .struct NullabilityRequired 0
      [.struct NullabilityNullable 0 [.prim .i32 NullabilityRequired 0]] }

/-- A required field of a nullable struct. -/
theorem C120_negation_path : ¬ C120_statement := by
  intro h
  have := h exNullRow exNullShape
    (.fieldRef .rootReference (.seg (.structField 0 (.structField 0 .nil)))
      (some (.prim .i32 NullabilityRequired 0)))
    .null _ ⟨by simp [exNullRow, exNullShape, Val.InType, Val.InTypes, Ty.IsNullable,
        Ty.nullability], exWorld_fits.outer, exWorld_fits.lam, exWorld_fits.rows⟩
    (by
      simp only [Expr.Checked, ERoot.Checked, ERoot.HasType, true_and]
      exact ⟨_, _, _, rfl, rfl, rfl, .step _ _ _ _ _ (.field 0 _ _ _ _ _ rfl rfl)
        (.step _ _ _ _ _ (.field 0 _ _ _ _ _ rfl rfl) (.done _))⟩)
    (by
      simp only [Expr.Yields, ERoot.Yields]
      exact ⟨_, rfl, .field 0 0 _ .null _ _ rfl rfl (.null _ _)⟩) rfl
  simp [Val.InType, Ty.IsNullable, Ty.nullability, NullabilityRequired, NullabilityNullable] at this

/-- tables with one nullable column have a row with null -/
def exNullTable : World :=
  { exWorld with
    rows := fun r =>
      match r.types with
      | [t] => if t.nullability = NullabilityNullable then [[.null]] else []
      | _ => [] }

theorem exNullTable_fits : exNullTable.Fits exShape := by
  refine ⟨exWorld_fits.row, exWorld_fits.outer, exWorld_fits.lam, ?_⟩
  rintro ⟨a, ts⟩ vs hvs
  rcases ts with _ | ⟨t, _ | ⟨t', ts⟩⟩
  · simp [exNullTable] at hvs
  · simp only [exNullTable] at hvs
    split at hvs
    · rename_i ht
      simp only [List.mem_singleton] at hvs
      subst hvs
      simpa [Val.InTypes, Val.InType, Ty.IsNullable] using ht
    · simp at hvs
  · simp [exNullTable] at hvs

/-- A required value looked up in a nullable column that contains null. -/
theorem C120_negation_in : ¬ C120_statement := by
  intro h
  have := h exNullTable exShape
    (.inPredicate [exI32 NullabilityRequired] ⟨0, [.prim .i32 NullabilityNullable 0]⟩)
    .null _ exNullTable_fits (by simp [Expr.Checked, Expr.CheckedList, exI32])
    (by
      simp only [Expr.Yields]
      refine ⟨[.simple (.prim .i32 NullabilityRequired 0) 0], by
        simp [Expr.YieldsList, Expr.Yields, exI32, Val.InType, Ty.Leaf, Ty.SameKind, Ty.Same], ?_⟩
      have : exNullTable.rows ⟨0, [.prim .i32 NullabilityNullable 0]⟩ = [[.null]] := by
        simp [exNullTable, Ty.nullability]
      rw [this]
      refine .inr (.inr ⟨by simp [RowEq], ?_, rfl⟩)
      intro hall
      rcases hall [.null] (by simp) with h | ⟨i, a, b, ha, hb, h1, h2, h3⟩
      · simp at h
      · cases i with
        | zero => simp at hb; exact h2 hb.symm
        | succ i => simp at hb) rfl
  simp [Val.InType, Ty.IsNullable, Ty.nullability, NullabilityRequired, NullabilityNullable] at this

/-- A required value compared with all of a nullable column that contains null. -/
theorem C120_negation_comparison : ¬ C120_statement := by
  intro h
  have := h exNullTable exShape
    (.setComparison 2 1 (exI32 NullabilityRequired) (some ⟨0, [.prim .i32 NullabilityNullable 0]⟩))
    .null _ exNullTable_fits (by simp [Expr.Checked, exI32])
    (by
      simp only [Expr.Yields]
      refine ⟨.simple (.prim .i32 NullabilityRequired 0) 0, [.null], by
        simp [Expr.Yields, exI32, Val.InType, Ty.Leaf, Ty.SameKind, Ty.Same], by
        simp [exNullTable, Ty.nullability], .inr ⟨rfl, .inr (.inr ⟨?_, ?_, rfl⟩)⟩⟩
      · rintro ⟨b, hb, h1, h2, -⟩
        simp at hb
        exact h2 hb
      · intro hall
        exact (hall .null (by simp)).2.1 rfl) rfl
  simp [Val.InType, Ty.IsNullable, Ty.nullability, NullabilityRequired, NullabilityNullable] at this

/-! ## A case -/

/-- an if over an or-list on a column, with a cast that may answer null and, as default, a switch
without default -/
def exTyped : Expr :=
  .ifThen [.mk (.singularOr (.fieldRef .rootReference (.seg (.structField 0 .nil))
        (some (.prim .i32 NullabilityRequired 0)))
      [.lit (.prim (.int32 7) (.prim .i32 NullabilityRequired 0))])
    (.cast (.prim .i64 NullabilityNullable 0)
      (.fieldRef .rootReference (.seg (.structField 1 .nil))
        (some (.prim .i32 NullabilityNullable 0))) 1)]
  (.switch (exI32 NullabilityRequired)
    [.mk (.prim (.int32 7) (.prim .i32 NullabilityRequired 0))
      (.lit (.prim (.int64 1) (.prim .i64 NullabilityRequired 0)))] .nil)

def exTwoColumns : Shape :=
  { exShape with
    row := .struct NullabilityRequired 0
      [.prim .i32 NullabilityRequired 0, .prim .i32 NullabilityNullable 0] }

/-- It meets the hypotheses of `C120_values_partial`, in a world with the row (5, null). -/
example : exTyped.Checked exTwoColumns ∧ exTyped.Careful exTwoColumns ∧
    ({ exWorld with row := .struct [.simple (.prim .i32 NullabilityRequired 0) 5, .null] } :
      World).Fits exTwoColumns ∧
    exTyped.getType = .ok (.prim .i64 NullabilityNullable 0) := by
  refine ⟨?_, ?_, ⟨?_, exWorld_fits.outer, exWorld_fits.lam, exWorld_fits.rows⟩, ?_⟩
  · simp only [exTyped, Expr.Checked, EPair.CheckedResults, ECase.CheckedResults, ERoot.Checked,
      ERoot.HasType, Lit.Coherent, Ty.Leaf, true_and, and_true]
    refine ⟨⟨by simp, .inl rfl, .prim .i64 0 0, by
      simp [ECase.result, Expr.getType, Lit.getType, Ty.SameKind, Ty.withNullability, Ty.Same,
        NullabilityUnspecified], .inl rfl⟩,
      ⟨_, _, _, rfl, rfl, rfl, .step _ _ _ _ _ (.field 1 _ _ _ _ _ rfl rfl) (.done _)⟩,
      .prim .i64 NullabilityNullable 0, rfl, ?_⟩
    intro a b hab
    simp only [List.mem_singleton, EPair.mk.injEq] at hab
    obtain ⟨-, rfl⟩ := hab
    exact ⟨_, rfl, rfl⟩
  · simp [exTyped, Expr.Careful, EPair.CarefulResults, ECase.CarefulResults, Ty.IsNullable,
      Ty.nullability]
  · simp [exTwoColumns, Val.InType, Val.InTypes, Ty.IsNullable, Ty.nullability, Ty.Leaf, Ty.SameKind,
      Ty.Same]
  · rfl

/-- `NewIfThen` makes it of its parts, and `NewFieldRef` makes the references in it. -/
example : (match exTyped with
      | .ifThen (p :: ps) els => newIfThen p els ps
      | _ => .err) = .ok exTyped ∧
    newFieldRef .rootReference (.seg (.structField 1 .nil))
      (some [.prim .i32 NullabilityRequired 0, .prim .i32 NullabilityNullable 0]) =
        .ok (.fieldRef .rootReference (.seg (.structField 1 .nil))
          (some (.prim .i32 NullabilityNullable 0))) ∧
    newSwitch (exI32 NullabilityRequired)
      .nil [.mk (.prim (.int32 7) (.prim .i32 NullabilityRequired 0))
        (.lit (.prim (.int64 1) (.prim .i64 NullabilityRequired 0)))] =
      .ok (.switch (exI32 NullabilityRequired)
        [.mk (.prim (.int32 7) (.prim .i32 NullabilityRequired 0))
          (.lit (.prim (.int64 1) (.prim .i64 NullabilityRequired 0)))] .nil) := by
  refine ⟨?_, rfl, ?_⟩
  · simp [exTyped, newIfThen, checkElsifs, Expr.isNil, Expr.getType, ECase.branchType, Lit.getType,
      Ty.nullability, Ty.withNullability, Ty.equals, NullabilityRequired, NullabilityNullable]
  · simp [newSwitch, checkCases, exI32, Expr.isNil, Expr.getType, Lit.getType, Ty.withNullability,
      Ty.equals, Expr.touch, Lit.touch, Ty.touch]

/-- Literals with a null in a list of nullable elements, and the value they have. -/
example :
    let l : Lit := .list [.null (.prim .i8 NullabilityNullable 0),
      .prim (.int8 3) (.prim .i8 NullabilityNullable 0)]
      (.list NullabilityRequired 0 (.prim .i8 NullabilityNullable 0))
    l.Coherent ∧ Lit.denote (fun _ => 3) l = some (.list [.null, .simple (.prim .i8 2 0) 3]) := by
  refine ⟨?_, rfl⟩
  simp only [Lit.Coherent, Lit.CoherentList, Ty.Leaf, Ty.IsNullable, Ty.nullability, true_and]
  refine ⟨_, _, _, rfl, ?_⟩
  intro x hx
  simp only [List.mem_cons, List.not_mem_nil, or_false] at hx
  rcases hx with rfl | rfl <;> exact ⟨_, rfl, rfl⟩

end Verif
