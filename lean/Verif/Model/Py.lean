/-
Python-level conventions used by the whole model: exceptions as values, insertion ordered dicts.
-/
namespace Skill

/-- The Python exceptions the modelled code can raise (only the kind is kept, not the message). (for the exceptions of the functions in skillmodels/*.py) -/
inductive PyErr
  | keyError | valueError | assertionError | indexError | attributeError | typeError | syntaxError
  | unboundLocalError | zeroDivisionError
  deriving DecidableEq, Repr

/-- A Python computation that returns a value or raises. (for the functions in skillmodels/*.py) -/
abbrev Py (β : Type _) := Except PyErr β

instance {β : Type _} [DecidableEq β] : DecidableEq (Py β) := fun a b =>
  match a, b with
  | .ok x, .ok y => if h : x = y then isTrue (by rw [h]) else isFalse (by intro h'; cases h'; exact h rfl)
  | .error x, .error y =>
    if h : x = y then isTrue (by rw [h]) else isFalse (by intro h'; cases h'; exact h rfl)
  | .ok _, .error _ => isFalse (by intro h; cases h)
  | .error _, .ok _ => isFalse (by intro h; cases h)

/-- A Python `dict` with string keys: key/value pairs in insertion order. A real dict has distinct
keys; theorems state that as a hypothesis (`(Dict.keys d).Nodup`) where they need it. (for the dictionaries in skillmodels/*.py) -/
abbrev Dict (β : Type _) := List (String × β)

/-- `list(d)`: the keys in insertion order. (for process_model.py:84-110) -/
def Dict.keys {β} (d : Dict β) : List String := d.map Prod.fst

/-- `d.get(k)`. (for process_model.py:113-165) -/
def Dict.get? {β} (d : Dict β) (k : String) : Option β := (d.find? (fun kv => kv.1 == k)).map Prod.snd

/-- `d[k]`, raising `KeyError`. (for subscripts such as parse_params.py:205) -/
def Dict.getItem {β} (d : Dict β) (k : String) : Py β :=
  match Dict.get? d k with
  | some v => .ok v
  | none => .error .keyError

/-- List indexing `xs[i]` with a non-negative index, raising `IndexError`. (for subscripts such as constraints.py:111) -/
def pyIndex {β} (xs : List β) (i : Nat) : Py β :=
  match xs[i]? with
  | some v => .ok v
  | none => .error .indexError

end Skill
