import Verif.Spec.ModelSpec
/-
What a consistent model specification is (independent of check_model.py).
-/
namespace Skill.Spec
variable {α : Type}

/-- A stagemap for `n` periods: one stage per transition, stages are numbered 0, 1, …, S-1 without
gaps, and from one transition to the next the stage stays or increases by one. -/
structure ValidStagemap (sm : List Int) (n : Nat) : Prop where
  length : sm.length + 1 = n
  stages : ∃ S : Nat, ∀ s : Int, s ∈ sm ↔ 0 ≤ s ∧ s < S
  steps : ∀ i a b, sm[i]? = some a → sm[i + 1]? = some b → b = a ∨ b = a + 1

/-- The normalization lists (loadings or intercepts) the user gave for a factor. -/
def LoadingNorm (spec : FactorSpec α) (t : Nat) (v : String) (x : α) : Prop :=
  ∃ ns ls d, spec.normalizations = some ns ∧ ns.loadings = some ls ∧ ls[t]? = some d ∧ (v, x) ∈ d

def InterceptNorm (spec : FactorSpec α) (t : Nat) (v : String) (x : α) : Prop :=
  ∃ ns ls d, spec.normalizations = some ns ∧ ns.intercepts = some ls ∧ ls[t]? = some d ∧ (v, x) ∈ d

/-- A consistent specification. -/
structure Consistent [Zero α] (m : ModelDict α) : Prop where
  /-- there is at least one period and a given stagemap is valid -/
  periods : ∀ n, IsNPeriods m n → 1 ≤ n
  stagemap : ∀ n sm, IsNPeriods m n → m.stagemap = some sm → ValidStagemap sm n
  /-- only measurements of the same factor and period are normalized -/
  loadings : ∀ f spec t v x, (f, spec) ∈ m.factors → LoadingNorm spec t v x →
    x ≠ 0 ∧ ∃ ms, spec.measurements[t]? = some ms ∧ v ∈ ms
  intercepts : ∀ f spec t v x, (f, spec) ∈ m.factors → InterceptNorm spec t v x →
    ∃ ms, spec.measurements[t]? = some ms ∧ v ∈ ms

/-- Transition functions that exist: the documented built-ins or registered custom functions. -/
def ValidTransition : TransSpec → Prop
  | .named s => s ∈ ["linear", "translog", "log_ces", "constant", "robust_translog",
                     "linear_and_squares", "log_ces_general"]
  | .custom fname params => fname.isSome ∧ params.isSome

/-- No list of normalizations is longer than the number of periods. -/
def NormListsFit (m : ModelDict α) : Prop :=
  ∀ f spec ns n, (f, spec) ∈ m.factors → spec.normalizations = some ns → IsNPeriods m n →
    (∀ ls, ns.loadings = some ls → ls.length ≤ n) ∧ (∀ ls, ns.intercepts = some ls → ls.length ≤ n)

/-- No list of normalizations is longer than the measurement list of its factor. -/
def NormListsWithinMeasurements (m : ModelDict α) : Prop :=
  ∀ f spec ns, (f, spec) ∈ m.factors → spec.normalizations = some ns →
    (∀ ls, ns.loadings = some ls → ls.length ≤ spec.measurements.length) ∧
    (∀ ls, ns.intercepts = some ls → ls.length ≤ spec.measurements.length)

end Skill.Spec
