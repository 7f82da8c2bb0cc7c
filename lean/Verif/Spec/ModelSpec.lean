import Verif.Model.ModelDict
/-
Independent specification vocabulary for model dictionaries. Nothing here uses the model of the
code (process_model etc.), only the user's dictionary.
-/
namespace Skill.Spec
variable {α : Type}

/-- The user lists variable `v` as a measurement of latent factor `f` in period `t`. -/
def Measures (m : ModelDict α) (t : Nat) (v f : String) : Prop :=
  ∃ spec, (f, spec) ∈ m.factors ∧ ∃ ms, spec.measurements[t]? = some ms ∧ v ∈ ms

/-- The user's anchoring section says that `f` is anchored in `outcome`. -/
def AnchoredIn (m : ModelDict α) (f outcome : String) : Prop :=
  ∃ a, m.anchoring = some a ∧ ∃ os, a.outcomes = some os ∧ (f, outcome) ∈ os

/-- `v` is the name "outcome_factor" of the anchoring equation of `f`. -/
def Anchors (m : ModelDict α) (v f : String) : Prop :=
  ∃ outcome, AnchoredIn m f outcome ∧ v = outcome ++ "_" ++ f

/-- The number of periods is the greatest number of measurement lists of a factor. -/
def IsNPeriods (m : ModelDict α) (n : Nat) : Prop :=
  (∃ f spec, (f, spec) ∈ m.factors ∧ spec.measurements.length = n)
  ∧ ∀ f spec, (f, spec) ∈ m.factors → spec.measurements.length ≤ n

/-- `t` is a period of the model. -/
def IsPeriod (m : ModelDict α) (t : Nat) : Prop := ∃ n, IsNPeriods m n ∧ t < n

/-- `f` is a latent factor. -/
def IsLatent (m : ModelDict α) (f : String) : Prop := ∃ spec, (f, spec) ∈ m.factors

/-- A Kalman update is needed for variable `v` in period `t`. -/
def IsUpdate (m : ModelDict α) (t : Nat) (v : String) : Prop :=
  (∃ f, Measures m t v f) ∨ (IsPeriod m t ∧ ∃ f, Anchors m v f)

/-- Keys of Python dicts are distinct. Every real Python model dictionary satisfies this. -/
structure DictKeys (m : ModelDict α) : Prop where
  factors : (m.factors.map Prod.fst).Nodup
  outcomes : ∀ a os, m.anchoring = some a → a.outcomes = some os → (os.map Prod.fst).Nodup

end Skill.Spec
