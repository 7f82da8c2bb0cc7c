import Verif.Lemmas.ParamsIndex
/-
The blocks of the parameter index.
-/
namespace Skill
open Spec
variable {α : Type}

/-- The rows of one category, in order. -/
def block (l : Labels) (d : Dimensions) (t : TransInfo) (u : List URow) : Cat → List Loc
  | .controls => controlParamsIndexTuples l.controls u
  | .loadings => loadingsIndexTuples l.latentFactors u
  | .measSds => measSdsIndexTuples u
  | .shockSds => shockSdsIndexTuples l.periods l.latentFactors
  | .initialStates => initialMeanIndexTuples d.nMixtures l.latentFactors
  | .mixtureWeights => mixtureWeightsIndexTuples d.nMixtures
  | .initialCholcovs => initialCholcovsIndexTuples d.nMixtures l.latentFactors
  | .transition => transitionIndexTuples t.paramNames l.periods

theorem block_cat {l : Labels} {d : Dimensions} {t : TransInfo} {u : List URow} {c : Cat} {x : Loc}
    (h : x ∈ block l d t u c) : x.cat = c := by
  cases c <;>
  simp only [block, controlParamsIndexTuples, loadingsIndexTuples, measSdsIndexTuples, shockSdsIndexTuples,
    initialMeanIndexTuples, mixtureWeightsIndexTuples, initialCholcovsIndexTuples, transitionIndexTuples,
    List.mem_flatMap, List.mem_map] at h
  · obtain ⟨_, _, _, _, rfl⟩ := h; rfl
  · obtain ⟨_, _, _, _, rfl⟩ := h; rfl
  · obtain ⟨_, _, rfl⟩ := h; rfl
  · obtain ⟨_, _, _, _, rfl⟩ := h; rfl
  · obtain ⟨_, _, _, _, rfl⟩ := h; rfl
  · obtain ⟨_, _, rfl⟩ := h; rfl
  · obtain ⟨_, _, _, _, _, _, rfl⟩ := h; rfl
  · obtain ⟨_, _, _, _, _, _, rfl⟩ := h; rfl

theorem getParamsIndex_eq (l : Labels) (d : Dimensions) (t : TransInfo) (u : List URow) :
    getParamsIndex u l d t = block l d t u .controls ++ block l d t u .loadings ++ block l d t u .measSds
      ++ block l d t u .shockSds ++ block l d t u .initialStates ++ block l d t u .mixtureWeights
      ++ block l d t u .initialCholcovs ++ block l d t u .transition := rfl

theorem filter_block (l : Labels) (d : Dimensions) (t : TransInfo) (u : List URow) (c c' : Cat) :
    (block l d t u c').filter (fun x => decide (x.cat = c)) = if c' = c then block l d t u c else [] := by
  split
  · next h => subst h; rw [List.filter_eq_self]; intro x hx; simpa using block_cat hx
  · next h =>
    rw [List.filter_eq_nil_iff]
    intro x hx
    rw [block_cat hx]; simpa using h

/-- Filtering the index by category gives the block of the category. -/
theorem filter_cat (l : Labels) (d : Dimensions) (t : TransInfo) (u : List URow) (c : Cat) :
    (getParamsIndex u l d t).filter (fun x => decide (x.cat = c)) = block l d t u c := by
  rw [getParamsIndex_eq]
  simp only [List.filter_append, filter_block]
  cases c <;> simp

theorem range_flatMap_filter {β : Type _} (n : Nat) (f : Nat → List β) (g : β → Nat) (h : ∀ q, ∀ x ∈ f q, g x = q)
    (p : Nat) :
    ((List.range n).flatMap f).filter (fun x => decide (g x = p)) = if p < n then f p else [] := by
  induction n with
  | zero => simp
  | succ n ih =>
    rw [List.range_succ, List.flatMap_append, List.filter_append, ih]
    simp only [List.flatMap_cons, List.flatMap_nil, List.append_nil]
    by_cases hp : p = n
    · subst hp
      have : (f p).filter (fun x => decide (g x = p)) = f p := by
        rw [List.filter_eq_self]; intro x hx; simpa using h p x hx
      rw [this]; simp
    · have : (f n).filter (fun x => decide (g x = p)) = [] := by
        rw [List.filter_eq_nil_iff]; intro x hx; rw [h n x hx]; simpa using fun e => hp e.symm
      rw [this, List.append_nil]
      have : p < n + 1 ↔ p < n := by omega
      simp only [this]

theorem filter_cat_period (l : Labels) (d : Dimensions) (t : TransInfo) (u : List URow) (c : Cat) (p : Nat) :
    (getParamsIndex u l d t).filter (fun x => decide (x.cat = c ∧ x.period = p)) =
      (block l d t u c).filter (fun x => decide (x.period = p)) := by
  rw [← filter_cat, List.filter_filter]
  congr 1; funext x; simp [and_comm]

theorem shockSds_period {l : Labels} {d : Dimensions} {t : TransInfo} {u : List URow} {n : Nat}
    (hn : l.periods = List.range n) (p : Nat) :
    (block l d t u .shockSds).filter (fun x => decide (x.period = p)) =
      if p < n - 1 then l.latentFactors.map (fun f => ⟨.shockSds, p, f, "-"⟩) else [] := by
  simp only [block, shockSdsIndexTuples, hn, range_dropLast]
  exact range_flatMap_filter _ _ Loc.period (by intro q x hx; simp only [List.mem_map] at hx; obtain ⟨_, _, rfl⟩ := hx; rfl) p

theorem transition_period {l : Labels} {d : Dimensions} {t : TransInfo} {u : List URow} {n : Nat}
    (hn : l.periods = List.range n) (p : Nat) :
    (block l d t u .transition).filter (fun x => decide (x.period = p)) =
      if p < n - 1 then t.paramNames.flatMap (fun fn => fn.2.map (fun nm => ⟨.transition, p, fn.1, nm⟩)) else [] := by
  simp only [block, transitionIndexTuples, hn, range_dropLast, List.filter_flatMap]
  have : ∀ (fn : String × List String), ((List.range (n - 1)).flatMap (fun q => fn.2.map (fun nm => (⟨.transition, q, fn.1, nm⟩ : Loc)))).filter
      (fun x => decide (x.period = p)) = if p < n - 1 then fn.2.map (fun nm => ⟨.transition, p, fn.1, nm⟩) else [] := by
    intro fn
    exact range_flatMap_filter _ _ Loc.period (by intro q x hx; simp only [List.mem_map] at hx; obtain ⟨_, _, rfl⟩ := hx; rfl) p
  split
  · next hp => congr 1; funext fn; simpa [hp, List.filter_flatMap] using this fn
  · next hp =>
    rw [List.flatMap_eq_nil_iff]
    intro fn _
    simpa [hp, List.filter_flatMap] using this fn

end Skill
