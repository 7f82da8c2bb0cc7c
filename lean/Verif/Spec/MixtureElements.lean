import Verif.Spec.LabelModel
/- Models that differ only in the number of mixture elements (C136). -/
namespace Skill.Spec

/-- The same model with another number of mixture elements. -/
def withMixtures (m : ModelDict ℝ) (k : Nat) : ModelDict ℝ := { m with estimationOptions := m.estimationOptions.map (fun o => { o with nMixtures := some k }) }

/-- `val` are the parameters of a model with `k` mixture elements, `val'` those of the same model with `k'` mixture elements. Each element `e'` of the latter is a copy of an element `merge e'` of the former: the initial states
and covariances are the same. The weights of the copies add up to the weight of the original. All other parameters are the same. -/
structure Copies (m : ModelDict ℝ) (k k' : Nat) (merge : Nat → Nat) (val val' : Loc → ℝ) : Prop where
  inRange : ∀ e' < k', merge e' < k
  states : ∀ e' < k', ∀ f, IsLatent m f → val' ⟨.initialStates, 0, mixtureName e', f⟩ = val ⟨.initialStates, 0, mixtureName (merge e'), f⟩
  cholcovs : ∀ e' < k', ∀ f g, IsLatent m f → IsLatent m g → val' ⟨.initialCholcovs, 0, mixtureName e', f ++ "-" ++ g⟩ = val ⟨.initialCholcovs, 0, mixtureName (merge e'), f ++ "-" ++ g⟩
  weights : ∀ e < k, val ⟨.mixtureWeights, 0, mixtureName e, "-"⟩ = ∑ e' ∈ Finset.range k' with merge e' = e, val' ⟨.mixtureWeights, 0, mixtureName e', "-"⟩
  positive : ∀ e < k, 0 < val ⟨.mixtureWeights, 0, mixtureName e, "-"⟩
  positive' : ∀ e' < k', 0 < val' ⟨.mixtureWeights, 0, mixtureName e', "-"⟩
  total : ∑ e ∈ Finset.range k, val ⟨.mixtureWeights, 0, mixtureName e, "-"⟩ = 1
  others : ∀ l : Loc, l.cat ≠ .initialStates → l.cat ≠ .initialCholcovs → l.cat ≠ .mixtureWeights → val' l = val l

end Skill.Spec
