import Verif.Model.Pipeline
import Verif.Spec.Params
/- The same model, dataset and transition functions with other names of factors, measurements, controls and outcomes. -/
namespace Skill.Spec
variable {α V : Type}

/-- A dictionary with other keys. -/
def renameKeys {β : Type} (ρ : Equiv.Perm String) (d : Dict β) : Dict β := d.map (fun kv => (ρ kv.1, kv.2))

/-- The section of a factor with other names of the measurements. -/
def renameFactor (ρ : Equiv.Perm String) (spec : FactorSpec α) : FactorSpec α where
  measurements := spec.measurements.map (fun ms => ms.map ρ)
  transition := spec.transition
  normalizations := spec.normalizations.map (fun ns => { loadings := ns.loadings.map (fun ls => ls.map (renameKeys ρ)), intercepts := ns.intercepts.map (fun ls => ls.map (renameKeys ρ)) })

/-- The model with other names of factors, measurements, controls and anchoring outcomes. -/
def renameModel (ρ : Equiv.Perm String) (m : ModelDict α) : ModelDict α where
  factors := m.factors.map (fun fs => (ρ fs.1, renameFactor ρ fs.2))
  observedFactors := m.observedFactors.map (fun fs => fs.map ρ)
  controls := m.controls.map (fun cs => cs.map ρ)
  stagemap := m.stagemap
  anchoring := m.anchoring.map (fun a => { a with outcomes := a.outcomes.map (fun os => os.map (fun fo => (ρ fo.1, ρ fo.2))) })
  estimationOptions := m.estimationOptions

/-- The dataset with other names of the columns. -/
def renameData (ρ : Equiv.Perm String) (df : LongData V) : LongData V where
  columns := df.columns.map ρ
  idLevel := df.idLevel
  periodLevel := df.periodLevel
  rows := df.rows.map (fun r => { r with cell := fun c => r.cell (ρ.symm c) })

/-- The same functions with other names of the arguments that are factors. -/
def renameCustom (ρ : Equiv.Perm String) (custom : String → CustomFn) (f : String) : CustomFn :=
  ((custom (ρ.symm f)).1.map ρ, fun values states params => (custom (ρ.symm f)).2 (renameKeys ρ.symm values) states params)

/-- The name "constant" is kept; the variable "outcome_factor" of an anchoring equation gets its name from the new names of outcome and factor. -/
structure KeepsReserved (ρ : Equiv.Perm String) (m : ModelDict α) : Prop where
  constant : ρ "constant" = "constant"
  anchors : ∀ f o, AnchoredIn m f o → ρ (o ++ "_" ++ f) = ρ o ++ "_" ++ ρ f

/-- The new name of a parameter of a transition function; `fs` are all factors. Registered parameters of custom functions keep their names. -/
def RenamedParam (ρ : Equiv.Perm String) (fs : List String) (spec : TransSpec) (name name' : String) : Prop :=
  match spec with
  | .custom _ _ => name' = name
  | .named _ => ((name = "constant" ∨ name = "phi" ∨ name = "tfp") ∧ name' = name) ∨ (name ∈ fs ∧ name' = ρ name) ∨ (∃ f ∈ fs, name = f ++ " ** 2" ∧ name' = ρ f ++ " ** 2") ∨
      (∃ f ∈ fs, ∃ g ∈ fs, name = f ++ " * " ++ g ∧ name' = ρ f ++ " * " ++ ρ g) ∨ (∃ f ∈ fs, name = "sigma_" ++ f ∧ name' = "sigma_" ++ ρ f)

/-- The new label of a parameter: category and period are the same. -/
inductive RenamedLabel (ρ : Equiv.Perm String) (m : ModelDict α) : Loc → Loc → Prop
  | control (t : Nat) (v c : String) : RenamedLabel ρ m ⟨.controls, t, v, c⟩ ⟨.controls, t, ρ v, ρ c⟩
  | loading (t : Nat) (v f : String) : RenamedLabel ρ m ⟨.loadings, t, v, f⟩ ⟨.loadings, t, ρ v, ρ f⟩
  | measSd (t : Nat) (v : String) : RenamedLabel ρ m ⟨.measSds, t, v, "-"⟩ ⟨.measSds, t, ρ v, "-"⟩
  | shockSd (t : Nat) (f : String) : RenamedLabel ρ m ⟨.shockSds, t, f, "-"⟩ ⟨.shockSds, t, ρ f, "-"⟩
  | initialState (k : Nat) (f : String) : RenamedLabel ρ m ⟨.initialStates, 0, "mixture_" ++ toString k, f⟩ ⟨.initialStates, 0, "mixture_" ++ toString k, ρ f⟩
  | mixtureWeight (k : Nat) : RenamedLabel ρ m ⟨.mixtureWeights, 0, "mixture_" ++ toString k, "-"⟩ ⟨.mixtureWeights, 0, "mixture_" ++ toString k, "-"⟩
  | cholcov (k : Nat) (f g : String) : IsLatent m f → IsLatent m g →
      RenamedLabel ρ m ⟨.initialCholcovs, 0, "mixture_" ++ toString k, f ++ "-" ++ g⟩ ⟨.initialCholcovs, 0, "mixture_" ++ toString k, ρ f ++ "-" ++ ρ g⟩
  | transition (t : Nat) (f : String) (spec : FactorSpec α) (name name' : String) : (f, spec) ∈ m.factors → RenamedParam ρ (allFactors m) spec.transition name name' →
      RenamedLabel ρ m ⟨.transition, t, f, name⟩ ⟨.transition, t, ρ f, name'⟩

end Skill.Spec
