/-!
# Go maps and `sort.Slice`

Not a model of a particular file: the vocabulary used by the models of `extensions` and `functions`.
-/

namespace Verif

/-- A Go map: entries without repeated keys. The order of the entries carries no meaning; code that
ranges over a map is given the order as an argument, any permutation of the entries. -/
structure GoMap (K V : Type) where
  entries : List (K × V)
  nodup : (entries.map Prod.fst).Nodup

namespace GoMap
variable {K V : Type} [DecidableEq K]

/-- `make(map[K]V)` -/
def empty : GoMap K V := ⟨[], by simp⟩

/-- `m[k]` with the comma-ok form -/
def get (m : GoMap K V) (k : K) : Option V := (m.entries.find? (fun p => p.1 = k)).map Prod.snd

/-- `len(m)` -/
def len (m : GoMap K V) : Nat := m.entries.length

/-- `delete(m, k)` -/
def del (m : GoMap K V) (k : K) : GoMap K V :=
  ⟨m.entries.filter (fun p => p.1 ≠ k), (List.filter_sublist.map _).nodup m.nodup⟩

/-- `m[k] = v` -/
def set (m : GoMap K V) (k : K) (v : V) : GoMap K V :=
  ⟨(m.del k).entries ++ [(k, v)], by
    rw [List.map_append, List.nodup_append]
    refine ⟨(m.del k).nodup, by simp, ?_⟩
    intro a ha b hb
    simp only [del, List.mem_map, List.mem_filter, decide_eq_true_eq] at ha
    simp only [List.map_cons, List.map_nil, List.mem_singleton] at hb
    obtain ⟨p, hp, rfl⟩ := ha
    subst hb
    exact hp.2⟩

end GoMap

/-- exchange of two elements of a slice -/
def swapAt {α : Type} (l : List α) (a b : Nat) : List α :=
  match l[a]?, l[b]? with
  | some x, some y => (l.set a y).set b x
  | _, _ => l

end Verif
