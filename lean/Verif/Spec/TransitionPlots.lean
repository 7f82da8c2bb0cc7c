import Verif.Model.TransitionPlots
import Verif.Spec.LabelModel
import Mathlib.Order.Bounds.Basic
/- What plots of transition equations should show. -/
namespace Skill.Spec
variable {α τ : Type}

/-! ### the grid of plots -/

/-- The names of columns or rows: as given, or the names that occur in the keys of the plots, ordered by their first occurrence. -/
def OrderIs (order : OrderArg) (occurring names : List String) : Prop :=
  (order = .none → (∀ s, s ∈ names ↔ s ∈ occurring) ∧ names.Pairwise (fun a b => occurring.idxOf a < occurring.idxOf b)) ∧
  (∀ s, order = .name s → names = [s]) ∧ (∀ xs, order = .names xs → names = xs)

/-- The displayed name of a factor. -/
def displayName (mapper : Option (Dict String)) (f : String) : String := (mapper.bind (fun d => Dict.get? d f)).getD f

/-- The grid has exactly one cell for each row and column. -/
def IsGrid (cells : List (PlotCell τ)) (nRows nCols : Nat) : Prop :=
  (cells.map (fun c => (c.row, c.col))).Nodup ∧ ∀ r c, (∃ cell ∈ cells, cell.row = r ∧ cell.col = c) ↔ r < nRows ∧ c < nCols

/-! ### curves -/

/-- The q-quantile of a list of numbers, with linear interpolation: position q (n - 1) in the sorted list. -/
def QuantileIs (xs : List ℝ) (q z : ℝ) : Prop :=
  ∃ sorted : List ℝ, sorted.Perm xs ∧ sorted.Pairwise (· ≤ ·) ∧ ∃ (i : ℕ) (w a : ℝ), 0 ≤ w ∧ w < 1 ∧ q * ((xs.length : ℝ) - 1) = i + w ∧ sorted[i]? = some a ∧
    ((w = 0 ∧ z = a) ∨ ∃ b, sorted[i + 1]? = some b ∧ z = (1 - w) * a + w * b)

/-- `xs` are evenly spaced numbers that begin with `a` and end with `b`. -/
def EvenlySpaced (xs : List ℝ) (a b : ℝ) : Prop :=
  (∀ x, xs[0]? = some x → x = a) ∧ (∀ x, 2 ≤ xs.length → xs.getLast? = some x → x = b) ∧ ∃ d, ∀ (i : ℕ) (x y : ℝ), xs[i]? = some x → xs[i + 1]? = some y → y - x = d

/-- The factor `f` has the value `v` for the individual and period of a row of states: latent factors are in the states; observed factors are in the data (C26: they are deleted if measurements are observed
although a control variable is missing). -/
def FactorValue (m : ModelDict α) (data : Option (LongData ℝ)) (ids pers : List Int) (r : StateRow) (f : String) (v : Option ℝ) : Prop :=
  (IsLatent m f ∧ v = r.values f) ∨
  (f ∈ m.observedFactors.getD [] ∧ ∃ df row a, data = some df ∧ RowOf df ids pers r.id r.period row ∧ ValueIs m row f a ∧ Kept m row r.period a v)

/-- `vals` are the values of factor `f` in period `t`, without missing values. -/
def ValuesInPeriod (m : ModelDict α) (data : Option (LongData ℝ)) (ids pers : List Int) (states : List StateRow) (t : Nat) (f : String) (vals : List ℝ) : Prop :=
  ∃ cells, List.Forall₂ (fun r v => FactorValue m data ids pers r f v) (states.filter (fun r => decide (r.period = t))) cells ∧ vals = cells.reduceOption

/-- The limits of the axis of factor `f`: as given by the user, otherwise the smallest and the largest value in the period. -/
def LimitsAre (m : ModelDict α) (data : Option (LongData ℝ)) (ids pers : List Int) (states : List StateRow) (t : Nat) (stateRanges : Option (Dict (List (Nat × ℝ × ℝ)))) (f : String) (lo hi : ℝ) : Prop :=
  (∀ ranges, stateRanges = some ranges → ∃ table, Dict.get? ranges f = some table ∧ table.lookup t = some (lo, hi)) ∧
  (stateRanges = none → ∃ vals, ValuesInPeriod m data ids pers states t f vals ∧ IsLeast {x | x ∈ vals} lo ∧ IsGreatest {x | x ∈ vals} hi)

/-- The point (x, y) is on the graph of the transition equation of `output` in period `t` as function of `input`, where the other factors have the values `others`. `fn` is the transition function of the factor. -/
def OnCurve (m : ModelDict α) (val : Loc → ℝ) (t : Nat) (input output : String) (fn : TransFn) (others : String → ℝ) (p : ℝ × ℝ) : Prop :=
  p.2 = nextValue (allFactors m) (fun f => if f = input then p.1 else others f) (fun name => val ⟨.transition, t, output, name⟩) output fn

/-- The quantiles that the user asks for. -/
def AsksFor (arg : QuantileArg) (qs : List ℝ) : Prop := (∃ q, arg = .number q ∧ qs = [q]) ∨ arg = .numbers qs

/-- The data belong to the states: `ids` and `pers` are the individuals and periods of the data, and states have the number of the individual as id. -/
structure StatesOfData (data : Option (LongData ℝ)) (ids pers : List Int) (states : List StateRow) : Prop where
  index : ∀ df, data = some df → IndexOk df ∧ NoUnusedPeriods df ∧ IdsOf df ids ∧ PeriodsOf df pers
  ids : ∀ r ∈ states, r.id < ids.length

end Skill.Spec
