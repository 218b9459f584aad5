/-!
# Outcomes of Go functions

Not a model of a particular file: the vocabulary used by all model files.
A Go call either returns a value (`ok`), returns a non-nil `error` (`err`; the text of the
error is not modelled) or panics (`panic`: explicit `panic(..)`, nil dereference, index out of
range, failed type assertion).
-/

namespace Verif

/-- Outcome of a Go call that may return an error or panic. -/
inductive Res (α : Type u) where
  | ok (a : α)
  | err
  | panic
  deriving DecidableEq, Repr

namespace Res

/-- Sequencing: the first error or panic is the outcome (Go's `if err != nil { return err }`). -/
def bind (x : Res α) (f : α → Res β) : Res β :=
  match x with
  | ok a => f a
  | err => err
  | panic => panic

instance : Monad Res where
  pure := ok
  bind := bind

@[simp] theorem ok_bind (a : α) (f : α → Res β) : (Res.ok a >>= f) = f a := rfl
@[simp] theorem err_bind (f : α → Res β) : ((Res.err : Res α) >>= f) = Res.err := rfl
@[simp] theorem panic_bind (f : α → Res β) : ((Res.panic : Res α) >>= f) = Res.panic := rfl
@[simp] theorem pure_eq (a : α) : (pure a : Res α) = Res.ok a := rfl

theorem bind_eq_ok {x : Res α} {f : α → Res β} {b : β} :
    (x >>= f) = Res.ok b ↔ ∃ a, x = Res.ok a ∧ f a = Res.ok b := by
  cases x <;> simp

theorem bind_ne_panic {x : Res α} {f : α → Res β}
    (hx : x ≠ Res.panic) (hf : ∀ a, x = Res.ok a → f a ≠ Res.panic) :
    (x >>= f) ≠ Res.panic := by
  cases x with
  | ok a => simpa using hf a rfl
  | err => simp
  | panic => exact absurd rfl hx

/-- Did the call return normally? -/
def isOk : Res α → Bool
  | ok _ => true
  | _ => false

@[simp] theorem isOk_ok (a : α) : (Res.ok a).isOk = true := rfl
@[simp] theorem isOk_err : (Res.err : Res α).isOk = false := rfl
@[simp] theorem isOk_panic : (Res.panic : Res α).isOk = false := rfl

/-- Run a fallible call on each element in order, stopping at the first failure
(Go's `for i, x := range xs { ys[i], err = f(x); if err != nil {return} }`). -/
def mapL (f : α → Res β) : List α → Res (List β)
  | [] => ok []
  | x :: xs => f x >>= fun y => mapL f xs >>= fun ys => ok (y :: ys)

@[simp] theorem mapL_nil (f : α → Res β) : mapL f [] = ok [] := rfl
@[simp] theorem mapL_cons (f : α → Res β) (x : α) (xs : List α) :
    mapL f (x :: xs) = (f x >>= fun y => mapL f xs >>= fun ys => ok (y :: ys)) := rfl

/-- A Go slice index expression `xs[i]` with a signed index: panics when out of range. -/
def index (xs : List α) (i : Int) : Res α :=
  if 0 ≤ i then
    match xs[i.toNat]? with
    | some x => ok x
    | none => panic
  else panic

theorem index_nat (xs : List α) (i : Nat) (h : i < xs.length) :
    index xs (i : Int) = ok xs[i] := by
  simp [index, h]

theorem index_oob (xs : List α) (i : Int) (h : i < 0 ∨ (xs.length : Int) ≤ i) :
    index xs i = panic := by
  unfold index
  split
  · have : xs.length ≤ i.toNat := by omega
    simp [this]
  · rfl

theorem index_eq_ok {xs : List α} {i : Int} {x : α} :
    index xs i = ok x ↔ 0 ≤ i ∧ xs[i.toNat]? = some x := by
  unfold index
  by_cases h : 0 ≤ i
  · simp only [h, if_true, true_and]
    cases h2 : xs[i.toNat]? <;> simp
  · simp [h]

end Res
end Verif
