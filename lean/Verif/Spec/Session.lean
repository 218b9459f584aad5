import Verif.Spec.PlanBuild
import Verif.Spec.ExprBuild
import Verif.Model.Extended
/-!
# Vocabulary for a session with a plan builder
-/

namespace Verif

mutual
/-- What is put into the builders can be written. -/
def XExp.Writable (reg : Reg) : XExp → Prop
  | .nil => True
  | .wrap e _ => e.Writable reg
  | .cast ty _ input => ty.Writable ∧ XExp.Writable reg input
  | .dynParam ty _ => ∀ t, ty = some t → t.Writable
  | .scalarFn _ _ args => XArg.WritableList reg args
  | .windowFn _ _ _ args sorts parts =>
      XArg.WritableList reg args ∧ ESort.WritableList reg sorts ∧ XExp.WritableList reg parts
  | .ref root ref => ERoot.Writable reg root ∧ ∀ s, ref = .seg s → s.KeysWritable
  | .lambdaParam _ child _ => child.KeysWritable
  | .lambda params body =>
      (∀ p, params = some p → ∀ t, some t ∈ p.types → t.Writable) ∧ XExp.Writable reg body
/-- ... in arguments -/
def XArg.WritableList (reg : Reg) : List XArg → Prop
  | [] => True
  | .enum _ :: as => XArg.WritableList reg as
  | .expr b :: as => XExp.Writable reg b ∧ XArg.WritableList reg as
/-- ... in partitions -/
def XExp.WritableList (reg : Reg) : List XExp → Prop
  | [] => True
  | b :: bs => XExp.Writable reg b ∧ XExp.WritableList reg bs
end

/-- What was made so far with a plan builder and the expression builders it gave out: the extension set they
share; expressions and measures, each with the types of the columns it was made for. -/
structure SessionState where
  set : ExtSet
  exprs : List (Option (List Ty) × Expr)
  measures : List (Option (List Ty) × Measure)

/-- The states that are reached from a new plan builder over the collection `c`, in any order of:
taking an expression that can be carried (a literal, a reference); building one; building a measure, with a
filter made before or none; asking for the reference of a function or of a user-defined type of a loaded
extension. Everything put into the builders can be carried (with `rest` for subqueries and masks), and the types
the functions return can. -/
inductive Session (rest : RelReg) (c : Collection) : SessionState → Prop
  | start : Session rest c ⟨.new, [], []⟩
  | given (m : SessionState) (schema : Option (List Ty)) (e : Expr) (hm : Session rest c m)
      (he : e.Carried (rest.ofSet c m.set).toReg schema) :
      Session rest c { m with exprs := (schema, e) :: m.exprs }
  | expr (m : SessionState) (schema : Option (List Ty)) (b : XExp) (e : Expr) (s' : ExtSet)
      (hm : Session rest c m) (h : XExp.build c schema b [] m.set = .ok (e, s')) (hp : b.Proper)
      (hs : b.Sendable (rest.ofSet c m.set).toReg schema) (hw : b.Writable (rest.ofSet c m.set).toReg)
      (ht : b.CallTypes Ty.Carried e) :
      Session rest c { m with set := s', exprs := (schema, e) :: m.exprs }
  | measure (m : SessionState) (schema : Option (List Ty)) (b : XAgg) (f : AggFn) (s' : ExtSet) (filter : Expr)
      (hm : Session rest c m) (h : b.build c schema m.set = .ok (f, s')) (hp : XArg.ProperList b.args)
      (hs : XArg.SendableList (rest.ofSet c m.set).toReg schema b.args)
      (hw : XArg.WritableList (rest.ofSet c m.set).toReg b.args)
      (hsorts : ∀ e k, ESort.mk e k ∈ b.sorts → (schema, e) ∈ m.exprs ∧ k ≠ .nil)
      (ht : XArg.CallTypes Ty.Carried b.args f.args) (hout : f.a.outputType.Carried)
      (hf : filter = .nil ∨ (schema, filter) ∈ m.exprs) :
      Session rest c { m with set := s', measures := (schema, newMeasure (some f) filter) :: m.measures }
  | funcRef (m : SessionState) (urn key : String) (a : UInt32) (s' : ExtSet) (hm : Session rest c m)
      (hu : c.urnLoaded urn = true) (h : getFunctionRef m.set urn key = .ok (a, s')) :
      Session rest c { m with set := s' }
  | typeRef (m : SessionState) (urn name : String) (ps : List TParam) (t : Ty) (s' : ExtSet)
      (hm : Session rest c m) (hu : c.urnLoaded urn = true) (h : userDefinedType m.set urn name ps = .ok (t, s')) :
      Session rest c { m with set := s' }

/-- The relations made with the plan builder from the expressions and measures of the session, for the columns
they were made for. (Building relations leaves the extension set alone, so it does not matter when in the session
it is done.) -/
abbrev SessionState.Builds (m : SessionState) (rest : RelReg) : Rel → Prop :=
  BuiltFrom (fun base e => (base, e) ∈ m.exprs) (fun base x => (base, x) ∈ m.measures) fun d => d.Sendable rest

end Verif
