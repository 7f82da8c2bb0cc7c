import Verif.Props.ConstraintsExamples
import Verif.Lemmas.ParamsBlocks
namespace Skill
open Spec
variable {α : Type} [OfScientific α] [Neg α] [Zero α] [One α] [OfNat α 2] [DecidableEq α]

/-- **C63.** The selections of a pairwise equality constraint line up: they have the same length and
at each position the same factor and parameter name, so parameters are only set equal to the
parameters of the same name of the same factor in another period. -/
theorem C63_blocks_line_up {m : ModelDict α} {pm : Processed α} (h : processModel m = .ok pm)
    (hk : DictKeys m) : ∃ cs : List (Nat × Constr α), pm.constraints = .ok cs ∧
      ∀ id ss, (id, Constr.pairwiseEquality ss) ∈ cs → ∀ s ∈ ss, ∀ s' ∈ ss,
        (selected pm.paramsIndex s).map (fun l => (l.cat, l.name1, l.name2)) =
        (selected pm.paramsIndex s').map (fun l => (l.cat, l.name1, l.name2)) := by
  obtain ⟨cs, hc, hm⟩ := mem_constraints_pairwise h hk
  refine ⟨cs, hc, ?_⟩
  intro id ss hid
  have hper := (labels_of_ok h).2.2.2.1
  have hlt : ∀ (p : Nat) (s : Int), pm.labels.stagemap[p]? = some s → p < pm.dimensions.nPeriods - 1 := by
    intro p s hp
    rw [stagemap_iff h] at hp
    rcases hp with ⟨sm, hsm, hp⟩ | ⟨_, hp, _⟩
    · have hcon := (checkModel_ok_iff (isNPeriods_of_ok h)).mp (processModel_ok_iff.mp h).2.1
      have := (hcon.stagemap _ _ (isNPeriods_of_ok h) hsm).length
      have := (List.getElem?_eq_some_iff.mp hp).1
      omega
    · rw [isPeriod_iff h] at hp; omega
  have key : ∀ c, c = Cat.transition ∨ c = Cat.shockSds → ∀ p q : Nat, p < pm.dimensions.nPeriods - 1 →
      q < pm.dimensions.nPeriods - 1 →
      (selected pm.paramsIndex (.catPeriod c p)).map (fun l => (l.cat, l.name1, l.name2)) =
      (selected pm.paramsIndex (.catPeriod c q)).map (fun l => (l.cat, l.name1, l.name2)) := by
    intro c hcat p q hp hq
    simp only [selected, Processed.paramsIndex, filter_cat_period]
    rcases hcat with rfl | rfl
    · rw [transition_period hper, transition_period hper, if_pos hp, if_pos hq]
      simp [List.map_flatMap, Function.comp_def]
    · rw [shockSds_period hper, shockSds_period hper, if_pos hp, if_pos hq]
      simp [Function.comp_def]
  obtain ⟨s, _, _, e | e⟩ := mem_stageConstraints.mp ((hm ss).mp ⟨id, hid⟩) <;>
  · cases e
    intro s1 h1 s2 h2
    simp only [List.mem_map (f := fun p => LocSel.catPeriod _ p)] at h1 h2
    obtain ⟨p, hp, rfl⟩ := h1
    obtain ⟨q, hq, rfl⟩ := h2
    exact key _ (by simp) p q (hlt p s (mem_stagePeriods.mp hp)) (hlt q s (mem_stagePeriods.mp hq))

/-- Non-vacuous: in the example the transition parameters of two periods are equated, and there are
20 of them in each period. -/
example : ((processModel Ex.model2).map (fun pm => (selected pm.paramsIndex (.catPeriod .transition 1)).length)) =
    .ok 20 := by decide +kernel
end Skill
