import Verif.Spec.Params
import Verif.Model.Constraints
/-
How estimagic reads constraints, and which restrictions a model implies.
-/
namespace Skill.Spec
variable {α : Type}

/-- `params.loc[sel]` for a params DataFrame with the given index: the selected rows. -/
def selected (index : List Loc) : LocSel → List Loc
  | .category c => index.filter (fun l => decide (l.cat = c))
  | .catPeriod c p => index.filter (fun l => decide (l.cat = c ∧ l.period = p))
  | .one l => index.filter (fun k => decide (k = l))
  | .many ls => ls.flatMap (fun l => index.filter (fun k => decide (k = l)))

/-- A constraint list fixes the parameter `l` to the value `x`. -/
def FixedTo (index : List Loc) (cs : List (Nat × Constr α)) (l : Loc) (x : α) : Prop :=
  (∃ id sel, (id, .fixed sel (.scalar x)) ∈ cs ∧ l ∈ selected index sel) ∨
  (∃ id ls xs, (id, .fixed (.many ls) (.vec xs)) ∈ cs ∧ ∃ i : Nat, ls[i]? = some l ∧ xs[i]? = some x)

/-- The selectors used by a constraint. -/
def selectors : Constr α → List LocSel
  | .fixed s _ => [s]
  | .probability s => [s]
  | .increasing s => [s]
  | .pairwiseEquality ss => ss

/-- A selector is good if it selects something, and every explicit label selects exactly one row. -/
def SelOk (index : List Loc) : LocSel → Prop
  | .one l => index.count l = 1
  | .many ls => ls ≠ [] ∧ ∀ l ∈ ls, index.count l = 1
  | s => selected index s ≠ []

/-- The name of the transition function of a specification. -/
def TransitionName : TransSpec → String → Prop
  | .named s, n => n = s
  | .custom fn _, n => fn = some n

/-- The user (or the default) puts the transition after period `p` into stage `s`. -/
def StageOf (m : ModelDict α) (p : Nat) (s : Int) : Prop :=
  (∃ sm, m.stagemap = some sm ∧ sm[p]? = some s) ∨
  (m.stagemap = none ∧ IsPeriod m (p + 1) ∧ s = (p : Int))

/-- The anchoring flags of the user (default False). -/
def AnchorFlag (m : ModelDict α) (flag : AnchoringSpec → Option Bool) : Prop :=
  ∃ a, m.anchoring = some a ∧ flag a = some true

/-- All fixes a model implies. -/
inductive ShouldFix [Zero α] [One α] (m : ModelDict α) : Loc → α → Prop
  /-- a normalized loading -/
  | loading {f spec t v x} : (f, spec) ∈ m.factors → LoadingNorm spec t v x →
      ShouldFix m ⟨.loadings, t, v, f⟩ x
  /-- a normalized intercept -/
  | intercept {f spec t v x} : (f, spec) ∈ m.factors → InterceptNorm spec t v x →
      ShouldFix m ⟨.controls, t, v, "constant"⟩ x
  /-- a single mixture weight is one -/
  | weight : HasNMixtures m 1 → ShouldFix m ⟨.mixtureWeights, 0, "mixture_0", "-"⟩ 1
  /-- constant factors have no shocks -/
  | shock {f spec t} : (f, spec) ∈ m.factors → TransitionName spec.transition "constant" →
      IsPeriod m (t + 1) → ShouldFix m ⟨.shockSds, t, f, "-"⟩ 0
  /-- intercepts of anchoring equations unless free_constant -/
  | anchorConstant {f v t} : ¬ AnchorFlag m AnchoringSpec.freeConstant → Anchors m v f → IsPeriod m t →
      ShouldFix m ⟨.controls, t, v, "constant"⟩ 0
  /-- coefficients of controls in anchoring equations unless free_controls -/
  | anchorControl {f v t c} : ¬ AnchorFlag m AnchoringSpec.freeControls → Anchors m v f → IsPeriod m t →
      c ∈ m.controls.getD [] → c ≠ "constant" → ShouldFix m ⟨.controls, t, v, c⟩ 0
  /-- loadings of anchoring equations unless free_loadings -/
  | anchorLoading {f v t} : ¬ AnchorFlag m AnchoringSpec.freeLoadings → Anchors m v f → IsLatent m f →
      IsPeriod m t → ShouldFix m ⟨.loadings, t, v, f⟩ 1

end Skill.Spec
