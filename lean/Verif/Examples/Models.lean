import Verif.Model.ProcessModel
/-
Concrete model dictionaries used to show that hypotheses of theorems can be met.
-/
namespace Skill.Ex

/-- A small variant of tests/model2.yaml: two latent factors with different transition functions,
one constant factor without measurements in later periods, one observed factor, a control,
anchoring of fac1, normalizations and two stages. -/
def model2 : ModelDict Rat where
  factors := [
    ("fac1", { measurements := [["y1", "y2"], ["y1", "y2"], ["y1"], ["y1", "y2"]]
               transition := .named "log_ces"
               normalizations := some { loadings := some [[("y1", 1)], [("y1", 1)], [("y1", 1)], [("y1", 1)]] } }),
    ("fac2", { measurements := [["y4", "y5"], ["y4"], ["y4", "y2"], ["y4"]]
               transition := .named "translog"
               normalizations := some { loadings := some [[("y4", 2)], [("y4", 1)], [], [("y4", 1)]]
                                        intercepts := some [[("y4", 0)]] } }),
    ("fac3", { measurements := [["y7", "y8"]], transition := .named "constant" })]
  observedFactors := some ["inc"]
  controls := some ["x1"]
  stagemap := some [0, 0, 1]
  anchoring := some { outcomes := some [("fac1", "Q1")], freeControls := some true
                      freeConstant := some true, freeLoadings := some true }
  estimationOptions := some { nMixtures := some 2 }

end Skill.Ex
