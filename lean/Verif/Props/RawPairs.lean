import Verif.Props.RawModel
/- C131: the anchoring section as a list of pairs. -/
namespace Skill

/-- The entry of a dictionary that a pair stands for, if its key is a string, a number, a boolean or None. -/
def Spec.entryOf (e : PyVal × PyVal) : Option (Atom × PyVal) :=
  match e.1 with
  | .atom a => some (a, e.2)
  | _ => none

theorem pairs_list {es : List (PyVal × PyVal)} (hk : ∀ e ∈ es, (∃ a, e.1 = .atom a) ∨ ∃ xs, e.1 = .tuple xs) :
    (PyVal.list (es.map (fun e => .tuple [e.1, e.2]))).pairs = .ok (es.filterMap Spec.entryOf).reverse := by
  have h : ∀ es : List (PyVal × PyVal), (∀ e ∈ es, (∃ a, e.1 = .atom a) ∨ ∃ xs, e.1 = .tuple xs) →
      (es.map (fun e => PyVal.tuple [e.1, e.2])).mapM (fun x => do
        let entries ← x.toList
        match entries with
        | [.atom a, y] => pure [(a, y)]
        | [.tuple _, _] => pure []
        | [.other _, _] => pure []
        | [_, _] => .error .typeError
        | _ => (.error .valueError : Py (List (Atom × PyVal)))) = .ok (es.map (fun e => (Spec.entryOf e).toList)) := by
    intro es hk
    induction es with
    | nil => rfl
    | cons e es ih =>
      rw [List.map_cons, List.mapM_cons, ih (fun e' h => hk e' (List.mem_cons_of_mem _ h))]
      obtain ⟨k, v⟩ := e
      rcases hk _ List.mem_cons_self with ⟨a, h⟩ | ⟨xs, h⟩
      · dsimp only at h
        subst h
        rfl
      · dsimp only at h
        subst h
        rfl
  have hf : (es.map (fun e => (Spec.entryOf e).toList)).flatten = es.filterMap Spec.entryOf := by
    clear hk h
    induction es with
    | nil => rfl
    | cons e es ih =>
      rw [List.map_cons, List.flatten_cons, ih, List.filterMap_cons]
      cases Spec.entryOf e <;> rfl
  have h2 := congrArg (fun r : Py (List (List (Atom × PyVal))) => (Except.bind r (fun pairs => Except.ok pairs.flatten.reverse) : Py (List (Atom × PyVal)))) (h es hk)
  refine Eq.trans (show _ = _ from ?_) (h2.trans ?_)
  · rfl
  · show (Except.ok _ : Py _) = _
    rw [hf]

/-- **C131**: the anchoring section may also be a list of pairs of keys and values. It has the same effect as the dictionary; if a key occurs more than once, the last pair counts, and pairs whose keys are tuples do not matter. -/
theorem C131_anchoring_pairs {m m' : PyVal} {es : List (PyVal × PyVal)} (hk : ∀ e ∈ es, (∃ a, e.1 = .atom a) ∨ ∃ xs, e.1 = .tuple xs)
    (h : Spec.Has m "anchoring" (.list (es.map (fun e => .tuple [e.1, e.2])))) (h' : Spec.Has m' "anchoring" (.dict (es.filterMap Spec.entryOf).reverse)) : rawAnchoring m = rawAnchoring m' := by
  obtain ⟨ms, rfl⟩ := has_isPyDict h
  obtain ⟨ms', rfl⟩ := has_isPyDict h'
  rw [has_dict] at h h'
  unfold rawAnchoring
  dsimp only
  rw [h, h']
  dsimp only
  rw [pairs_list hk]
  rfl

namespace Ex

/-- Two pairs with the same key, and one whose key is a tuple. -/
theorem C131_pairs_example : rawAnchoring (.dict [(.str "anchoring", .list [.tuple [.atom (.str "free_constant"), .atom (.bool false)], .tuple [.tuple [], .atom (.int 1)], .tuple [.atom (.str "free_constant"), .atom (.bool true)]])]) =
    .ok { outcomes := .dict [], freeControls := .atom (.bool false), freeConstant := .atom (.bool true), freeLoadings := .atom (.bool false) } := rfl

end Ex
end Skill
