import Verif.Spec.Consistent
import Verif.Model.ParamsIndex
/-
Which parameters a model has, stated from the user's dictionary only.
-/
namespace Skill.Spec
variable {α : Type}

/-- Latent and observed factors, in this order. -/
def allFactors (m : ModelDict α) : List String := m.factors.map Prod.fst ++ m.observedFactors.getD []

/-- Number of mixture elements (default 1). -/
def HasNMixtures (m : ModelDict α) (k : Nat) : Prop :=
  ∃ o, m.estimationOptions = some o ∧ (o.nMixtures = some k ∨ (o.nMixtures = none ∧ k = 1))

/-- `a` comes before `b` in `l` (as positions). -/
def Before (l : List String) (a b : String) : Prop := ∃ i j : Nat, i < j ∧ l[i]? = some a ∧ l[j]? = some b

/-- `name` is a parameter of a transition function with the given specification when `fs` are all
factors; see docs of transition_functions.py. -/
def HasTransitionParam (fs : List String) (spec : TransSpec) (name : String) : Prop :=
  match spec with
  | .named fn =>
    (fn = "linear" ∧ (name ∈ fs ∨ name = "constant")) ∨
    ((fn = "translog" ∨ fn = "robust_translog") ∧ (name ∈ fs ∨ (∃ a ∈ fs, name = a ++ " ** 2") ∨
      (∃ a b, Before fs a b ∧ name = a ++ " * " ++ b) ∨ name = "constant")) ∨
    (fn = "log_ces" ∧ (name ∈ fs ∨ name = "phi")) ∨
    (fn = "linear_and_squares" ∧ (name ∈ fs ∨ (∃ a ∈ fs, name = a ++ " ** 2") ∨ name = "constant")) ∨
    (fn = "log_ces_general" ∧ (name ∈ fs ∨ (∃ a ∈ fs, name = "sigma_" ++ a) ∨ name = "tfp"))
  | .custom _ params => ∃ ps, params = some ps ∧ name ∈ ps

/-- The parameters of a model. -/
inductive IsParam (m : ModelDict α) : Loc → Prop
  | control {t v c} : IsUpdate m t v → (c = "constant" ∨ c ∈ m.controls.getD []) →
      IsParam m ⟨.controls, t, v, c⟩
  | loading {t v f} : IsLatent m f → (Measures m t v f ∨ (IsPeriod m t ∧ Anchors m v f)) →
      IsParam m ⟨.loadings, t, v, f⟩
  | measSd {t v} : IsUpdate m t v → IsParam m ⟨.measSds, t, v, "-"⟩
  | shockSd {t f} : IsPeriod m (t + 1) → IsLatent m f → IsParam m ⟨.shockSds, t, f, "-"⟩
  | initialState {n k f} : HasNMixtures m n → k < n → IsLatent m f →
      IsParam m ⟨.initialStates, 0, "mixture_" ++ toString k, f⟩
  | mixtureWeight {n k} : HasNMixtures m n → k < n →
      IsParam m ⟨.mixtureWeights, 0, "mixture_" ++ toString k, "-"⟩
  | cholcov {n k i j : Nat} {f g : String} : HasNMixtures m n → k < n → j ≤ i →
      (m.factors.map Prod.fst)[i]? = some f → (m.factors.map Prod.fst)[j]? = some g →
      IsParam m ⟨.initialCholcovs, 0, "mixture_" ++ toString k, f ++ "-" ++ g⟩
  | transition {t f spec name} : IsPeriod m (t + 1) → (f, spec) ∈ m.factors →
      HasTransitionParam (allFactors m) spec.transition name →
      IsParam m ⟨.transition, t, f, name⟩

/-- Hypotheses on names under which labels can be told apart. -/
structure GoodNames (m : ModelDict α) : Prop where
  keys : DictKeys m
  /-- factor names are distinct -/
  distinct : (allFactors m).Nodup
  /-- control names are distinct and "constant" is not used -/
  controls : ("constant" :: m.controls.getD []).Nodup
  /-- no hyphen and no space in factor names -/
  chars : ∀ f ∈ allFactors m, '-' ∉ f.toList ∧ ' ' ∉ f.toList
  /-- factor names are not names of other transition parameters -/
  reserved : ∀ f ∈ allFactors m, f ≠ "constant" ∧ f ≠ "phi" ∧ f ≠ "tfp" ∧
    ∀ g ∈ allFactors m, f ≠ "sigma_" ++ g
  /-- registered parameters of custom transition functions are distinct -/
  registered : ∀ f spec fn ps, (f, spec) ∈ m.factors → spec.transition = .custom fn (some ps) → ps.Nodup

/-- Anchoring section that does not mix up names: only latent factors are anchored, the names of
anchoring variables are no measurements and differ across factors. -/
structure CleanAnchoring (m : ModelDict α) : Prop where
  latent : ∀ f o, AnchoredIn m f o → IsLatent m f
  notMeasured : ∀ v f t g, Anchors m v f → ¬ Measures m t v g
  distinct : ∀ v f g, Anchors m v f → Anchors m v g → f = g

/-- The anchored factors are listed in the same order as the factors. -/
def SameOrder (m : ModelDict α) : Prop :=
  ∀ a os, m.anchoring = some a → a.outcomes = some os →
    os.map Prod.fst = (m.factors.map Prod.fst).filter (fun f => decide (f ∈ os.map Prod.fst))

end Skill.Spec
