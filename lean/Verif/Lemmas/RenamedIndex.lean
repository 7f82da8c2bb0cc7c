import Verif.Lemmas.RenamedModel
/- The parameter index of a model with other names. -/
namespace Skill
open Spec
variable {α β γ δ : Type}

theorem forall₂_flatMap_same {R : β → γ → Prop} {f : δ → List β} {g : δ → List γ} (xs : List δ) (h : ∀ x ∈ xs, List.Forall₂ R (f x) (g x)) : List.Forall₂ R (xs.flatMap f) (xs.flatMap g) := by
  induction xs with
  | nil => exact .nil
  | cons x xs ih =>
    rw [List.flatMap_cons, List.flatMap_cons]
    exact List.rel_append (h x (by simp)) (ih fun y hy => h y (by simp [hy]))

theorem forall₂_maps {R : β → γ → Prop} {f : δ → β} {g : δ → γ} (xs : List δ) (h : ∀ x ∈ xs, R (f x) (g x)) : List.Forall₂ R (xs.map f) (xs.map g) := by
  induction xs with
  | nil => exact .nil
  | cons x xs ih => exact .cons (h x (by simp)) (ih fun y hy => h y (by simp [hy]))

section
variable {ρ : Equiv.Perm String}

theorem combinations_rename (xs : List String) : combinations2 (xs.map ρ) = (combinations2 xs).map (fun ab => (ρ ab.1, ρ ab.2)) := by
  induction xs with
  | nil => rfl
  | cons x xs ih => simp [combinations2, ih, Function.comp_def]

theorem mem_combinations {xs : List String} {ab : String × String} (h : ab ∈ combinations2 xs) : ab.1 ∈ xs ∧ ab.2 ∈ xs := by
  induction xs with
  | nil => simp [combinations2] at h
  | cons x xs ih =>
    simp only [combinations2, List.mem_append, List.mem_map] at h
    rcases h with ⟨y, hy, rfl⟩ | h
    · exact ⟨by simp, by simp [hy]⟩
    · exact ⟨by simp [(ih h).1], by simp [(ih h).2]⟩

theorem paramNames_rename {spec : TransSpec} {fs : List String} {r r' : List String × String} (h : transitionNamesOf fs spec = .ok r) (h' : transitionNamesOf (fs.map ρ) spec = .ok r') :
    List.Forall₂ (RenamedParam ρ fs spec) r.1 r'.1 := by
  unfold transitionNamesOf at h h'
  split at h
  · next s =>
    simp only at h'
    cases hb : builtinParamNames s with
    | none => rw [hb] at h; cases h
    | some names =>
      rw [hb] at h h'
      cases h
      cases h'
      show List.Forall₂ _ (names fs) (names (fs.map ρ))
      have hfac : List.Forall₂ (RenamedParam ρ fs (.named s)) fs (fs.map ρ) := by
        have := forall₂_maps (R := RenamedParam ρ fs (.named s)) (f := fun x => x) (g := ρ) fs (fun x hx => Or.inr (Or.inl ⟨hx, rfl⟩))
        simpa using this
      have hsq : List.Forall₂ (RenamedParam ρ fs (.named s)) (fs.map (fun f => f ++ " ** 2")) ((fs.map ρ).map (fun f => f ++ " ** 2")) := by
        rw [List.map_map]
        exact forall₂_maps fs (fun x hx => Or.inr (Or.inr (Or.inl ⟨x, hx, rfl, rfl⟩)))
      have hsig : List.Forall₂ (RenamedParam ρ fs (.named s)) (fs.map (fun f => "sigma_" ++ f)) ((fs.map ρ).map (fun f => "sigma_" ++ f)) := by
        rw [List.map_map]
        exact forall₂_maps fs (fun x hx => Or.inr (Or.inr (Or.inr (Or.inr ⟨x, hx, rfl, rfl⟩))))
      have hprod : List.Forall₂ (RenamedParam ρ fs (.named s)) ((combinations2 fs).map (fun ab => ab.1 ++ " * " ++ ab.2)) ((combinations2 (fs.map ρ)).map (fun ab => ab.1 ++ " * " ++ ab.2)) := by
        rw [combinations_rename, List.map_map]
        exact forall₂_maps _ (fun x hx => Or.inr (Or.inr (Or.inr (Or.inl ⟨x.1, (mem_combinations hx).1, x.2, (mem_combinations hx).2, rfl, rfl⟩))))
      have hone : ∀ x, (x = "constant" ∨ x = "phi" ∨ x = "tfp") → List.Forall₂ (RenamedParam ρ fs (.named s)) [x] [x] := fun x hx => .cons (Or.inl ⟨hx, rfl⟩) .nil
      unfold builtinParamNames at hb
      split_ifs at hb <;> obtain rfl := Option.some.inj hb
      · exact List.rel_append hfac (hone _ (by simp))
      · exact List.rel_append (List.rel_append (List.rel_append hfac hsq) hprod) (hone _ (by simp))
      · exact List.rel_append hfac (hone _ (by simp))
      · exact .nil
      · exact List.rel_append (List.rel_append (List.rel_append hfac hsq) hprod) (hone _ (by simp))
      · exact List.rel_append (List.rel_append hfac hsq) (hone _ (by simp))
      · exact List.rel_append (List.rel_append hfac hsig) (hone _ (by simp))
  · cases h
  · cases h
  · cases h
    cases h'
    show List.Forall₂ _ _ _
    refine List.forall₂_same.mpr fun x _ => rfl

variable [OfScientific α] [Neg α] [Zero α] [One α] [OfNat α 2] [DecidableEq α]

theorem index_labels {m : ModelDict α} (hρ : KeepsReserved ρ m) {pm pm' : Processed α} (h : processModel m = .ok pm) (h' : processModel (renameModel ρ m) = .ok pm') :
    List.Forall₂ (RenamedLabel ρ m) pm.paramsIndex pm'.paramsIndex := by
  have hr := processed_rename hρ h h'
  have hlat : pm.labels.latentFactors = m.factors.map Prod.fst := (labels_of_ok h).1
  have hall : pm.labels.allFactors = allFactors m := (labels_of_ok h).2.2.2.2.1
  unfold Processed.paramsIndex getParamsIndex
  rw [hr.dimensions, hr.updateInfo, hr.labels.controls, hr.labels.latentFactors, hr.labels.periods]
  have hp : ∀ r : URow, (renameRow ρ r).period = r.period := fun _ => rfl
  have hv : ∀ r : URow, (renameRow ρ r).var = ρ r.var := fun _ => rfl
  have ht : ∀ r : URow, (renameRow ρ r).trueCols = r.trueCols.map ρ := fun _ => rfl
  refine List.rel_append (List.rel_append (List.rel_append (List.rel_append (List.rel_append (List.rel_append (List.rel_append ?_ ?_) ?_) ?_) ?_) ?_) ?_) ?_
  · unfold controlParamsIndexTuples
    rw [List.flatMap_map]
    refine forall₂_flatMap_same _ fun r _ => ?_
    rw [List.map_map]
    exact forall₂_maps _ fun c _ => .control _ _ _
  · unfold loadingsIndexTuples
    rw [List.flatMap_map]
    refine forall₂_flatMap_same _ fun r _ => ?_
    rw [List.filter_map, List.map_map]
    simp only [Function.comp_def, ht, mem_map_perm]
    exact forall₂_maps _ fun f _ => .loading _ _ _
  · unfold measSdsIndexTuples
    rw [List.map_map]
    exact forall₂_maps _ fun r _ => .measSd _ _
  · unfold shockSdsIndexTuples
    refine forall₂_flatMap_same _ fun t _ => ?_
    rw [List.map_map]
    exact forall₂_maps _ fun f _ => .shockSd _ _
  · unfold initialMeanIndexTuples
    refine forall₂_flatMap_same _ fun k _ => ?_
    rw [List.map_map]
    exact forall₂_maps _ fun f _ => .initialState _ _
  · unfold mixtureWeightsIndexTuples
    exact forall₂_maps _ fun k _ => .mixtureWeight _
  · unfold initialCholcovsIndexTuples
    refine forall₂_flatMap_same _ fun k _ => ?_
    rw [List.zipIdx_map, List.flatMap_map]
    refine forall₂_flatMap_same _ fun fi hfi => ?_
    dsimp only [Prod.map]
    rw [List.filter_map, List.map_map]
    refine forall₂_maps _ fun gj hgj => ?_
    have hl : ∀ x : String × ℕ, x ∈ pm.labels.latentFactors.zipIdx → IsLatent m x.1 := by
      intro x hx
      have := (List.mem_zipIdx' hx).2
      have hm : x.1 ∈ m.factors.map Prod.fst := by rw [← hlat, this]; exact List.getElem_mem _
      obtain ⟨fs, h1, h2⟩ := List.mem_map.mp hm
      exact ⟨fs.2, h2 ▸ h1⟩
    exact .cholcov k fi.1 gj.1 (hl fi hfi) (hl gj (List.mem_filter.mp hgj).1)
  · obtain ⟨_, _, h3, _⟩ := processModel_ok_iff.mp h
    obtain ⟨_, _, h3', _⟩ := processModel_ok_iff.mp h'
    obtain ⟨_, _, hn, _⟩ := getTransitionInfo_spec h3
    obtain ⟨_, _, hn', _⟩ := getTransitionInfo_spec h3'
    have hfac : (renameModel ρ m).factors = m.factors.map (fun fs => (ρ fs.1, renameFactor ρ fs.2)) := rfl
    rw [hfac, List.forall₂_map_left_iff, hr.dimensions, (labels_rename hρ.constant m pm.dimensions).allFactors] at hn'
    have hall' : (getLabels m pm.dimensions).allFactors = allFactors m := rfl
    rw [hall'] at hn hn'
    unfold transitionIndexTuples
    have aux : ∀ (fs : Dict (FactorSpec α)) (xs ys : Dict (List String)), (∀ x ∈ fs, x ∈ m.factors) →
        List.Forall₂ (fun (fs : String × FactorSpec α) (pn : String × List String) => pn.1 = fs.1 ∧ ∃ fn, transitionNamesOf (allFactors m) fs.2.transition = .ok (pn.2, fn)) fs xs →
        List.Forall₂ (fun (fs : String × FactorSpec α) (pn : String × List String) => pn.1 = ρ fs.1 ∧ ∃ fn, transitionNamesOf ((allFactors m).map ρ) fs.2.transition = .ok (pn.2, fn)) fs ys →
        List.Forall₂ (RenamedLabel ρ m) (xs.flatMap (fun (factor, names) => pm.labels.periods.dropLast.flatMap (fun p => names.map (fun n => ⟨.transition, p, factor, n⟩))))
          (ys.flatMap (fun (factor, names) => pm.labels.periods.dropLast.flatMap (fun p => names.map (fun n => ⟨.transition, p, factor, n⟩)))) := by
      intro fs xs ys hsub hx hy
      induction hx generalizing ys with
      | nil => cases hy; exact .nil
      | @cons fspec pn _ _ hxy _ ih =>
        cases hy with
        | @cons _ pn' _ _ hxy' hrest =>
          rw [List.flatMap_cons, List.flatMap_cons]
          refine List.rel_append ?_ (ih _ (fun x hx => hsub x (by simp [hx])) hrest)
          obtain ⟨e1, fn, e2⟩ := hxy
          obtain ⟨e1', fn', e2'⟩ := hxy'
          refine forall₂_flatMap_same _ fun t _ => ?_
          have hpar := paramNames_rename e2 e2'
          dsimp only at hpar ⊢
          rw [List.forall₂_map_left_iff, List.forall₂_map_right_iff]
          refine hpar.imp fun a b hab => ?_
          rw [e1, e1']
          exact .transition t fspec.1 fspec.2 a b (hsub _ (by simp)) hab
    exact aux _ _ _ (fun _ h => h) hn hn'

end
end Skill
