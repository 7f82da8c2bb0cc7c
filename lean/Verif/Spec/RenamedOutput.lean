import Verif.Spec.Renaming
import Verif.Model.SimulateDataset
/- The output of get_filtered_states, debug_loglike and simulate_dataset with other names of factors, measurements and columns. -/
namespace Skill.Spec

/-- A DataFrame of states with other names of the columns. -/
def renameStates (ρ : Equiv.Perm String) (df : StatesFrame ℝ) : StatesFrame ℝ where
  columns := df.columns.map ρ
  rows := df.rows.map (fun r => (r.1, fun c => r.2 (ρ.symm c)))

/-- States and ranges of the states with other names of the factors. -/
def renameRanges (ρ : Equiv.Perm String) (s : StatesAndRanges) : StatesAndRanges where
  states := renameStates ρ s.states
  stateRanges := renameKeys ρ s.stateRanges

/-- The output of get_filtered_states with other names. -/
def renameFiltered (ρ : Equiv.Perm String) (x : FilteredStates) : FilteredStates where
  anchored := renameRanges ρ x.anchored
  unanchored := renameRanges ρ x.unanchored

/-- The output of debug_loglike with other names. -/
def renameDebug (ρ : Equiv.Perm String) (d : DebugData) : DebugData where
  value := d.value
  contributions := d.contributions
  postUpdateStates := d.postUpdateStates.map (fun r => { r with measurement := ρ r.measurement })
  filteredStates := renameStates ρ d.filteredStates
  stateRanges := renameKeys ρ d.stateRanges
  residuals := d.residuals.map (fun r => { r with measurement := ρ r.measurement })
  residualSds := d.residualSds.map (fun r => { r with measurement := ρ r.measurement })
  allContributions := d.allContributions.map (fun r => { r with measurement := ρ r.measurement })

/-- A policy with the other name of its factor. -/
def renamePolicy (ρ : Equiv.Perm String) (p : Policy) : Policy := { p with factor := ρ p.factor }

/-- The output of simulate_dataset with other names. -/
def renameSimulated (ρ : Equiv.Perm String) (x : SimulatedDataset) : SimulatedDataset where
  unanchored := renameRanges ρ x.unanchored
  anchored := renameRanges ρ x.anchored
  measurements := { columns := x.measurements.columns.map ρ, rows := x.measurements.rows.map (fun r => { r with cell := fun c => r.cell (ρ.symm c) }) }

/-- All names of the model can be told apart and used, before and after renaming; the columns "id" and "period" keep their names. -/
structure RenamingOk (ρ : Equiv.Perm String) (m : ModelDict ℝ) : Prop where
  reserved : KeepsReserved ρ m
  id : ρ "id" = "id"
  period : ρ "period" = "period"
  names : GoodNames m
  names' : GoodNames (renameModel ρ m)
  query : ∀ f, IsLatent m f → querySafe f
  query' : ∀ f, IsLatent m f → querySafe (ρ f)

end Skill.Spec
