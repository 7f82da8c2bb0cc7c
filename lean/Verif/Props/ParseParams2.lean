import Mathlib.Algebra.Order.Star.Real
import Verif.Props.ParseParams
/-
C08 and C64: counterexamples; C09: parameter vector; C10: initial covariances; examples for C07.
-/
namespace Skill
open Spec
variable {β : Type}

/-! ### examples and counterexamples -/

/-- The example satisfies the hypotheses of C64, hence also those of C07. -/
theorem Ex.model2_clean : CleanAnchoring Ex.model2 where
  latent := by
    rintro f o ⟨a, ha, os, hos, hm⟩
    cases ha; cases hos
    simp only [List.mem_cons, Prod.mk.injEq, List.not_mem_nil, or_false] at hm
    rw [hm.1]
    exact ⟨_, List.mem_cons_self⟩
  notMeasured := by
    rintro v f t g ⟨o, ⟨a, ha, os, hos, hm⟩, rfl⟩ ⟨spec, hmem, ms, h1, h2⟩
    cases ha; cases hos
    simp only [List.mem_cons, Prod.mk.injEq, List.not_mem_nil, or_false] at hm
    obtain ⟨rfl, rfl⟩ := hm
    simp only [Ex.model2, List.mem_cons, Prod.mk.injEq, List.not_mem_nil, or_false] at hmem
    have : ∀ dd ∈ spec.measurements, "Q1" ++ "_" ++ "fac1" ∉ dd := by
      rcases hmem with ⟨rfl, rfl⟩ | ⟨rfl, rfl⟩ | ⟨rfl, rfl⟩ <;> decide
    exact this ms (List.mem_of_getElem? h1) h2
  distinct := by
    rintro v f g ⟨o, ⟨a, ha, os, hos, hm⟩, rfl⟩ ⟨o', ⟨a', ha', os', hos', hm'⟩, _⟩
    cases ha; cases hos; cases ha'; cases hos'
    simp only [List.mem_cons, Prod.mk.injEq, List.not_mem_nil, or_false] at hm hm'
    rw [hm.1, hm'.1]

theorem Ex.model2_sameOrder : SameOrder Ex.model2 := by
  intro a os ha hos
  cases ha; cases hos
  decide

theorem Ex.model2_nMixtures : ¬ HasNMixtures Ex.model2 0 := by
  rintro ⟨o, ho, h | h⟩
  · cases ho; cases h
  · cases ho; cases h.1

/-- Parsing of the example succeeds for every vector of the right length. -/
example : ∃ pm, processModel Ex.model2 = .ok pm ∧ ∀ params : List Rat, params.length = pm.paramsIndex.length →
    ∃ p, pm.parse id params 5 = .ok p := by
  obtain ⟨pm, h⟩ := Ex.model2_ok
  refine ⟨pm, h, fun params hl => C64_parse_succeeds_partial h goodNames_model2 Ex.model2_clean ?_
    ⟨4, Ex.model2_isNPeriods, by omega⟩ Ex.model2_nMixtures id 5 params hl⟩
  rintro f ⟨spec, hs⟩
  simp only [Ex.model2, List.mem_cons, Prod.mk.injEq, List.not_mem_nil, or_false] at hs
  rcases hs with ⟨rfl, _⟩ | ⟨rfl, _⟩ | ⟨rfl, _⟩ <;> decide +kernel

/-- A model with one period. -/
def Ex.onePeriod : ModelDict Rat where
  factors := [("a", { measurements := [["y", "z"]], transition := .named "linear" })]
  estimationOptions := some {}

/-- C64, negative part: an accepted model that cannot be parsed, whatever the parameters are. -/
theorem C64_one_period : ∃ pm, processModel Ex.onePeriod = .ok pm ∧
    ∀ (params : List Rat) nObs p, pm.parse id params nObs ≠ .ok p := by
  obtain ⟨pm, h⟩ : ∃ pm, processModel Ex.onePeriod = .ok pm := ok_of_toBool (by decide +kernel)
  refine ⟨pm, h, fun params nObs p hp => ?_⟩
  have h1 := (parse_needs h hp).2
  have h2 : (processModel Ex.onePeriod).map (fun p => p.dimensions.nPeriods) = .ok 1 := by decide +kernel
  rw [h] at h2
  have h3 : pm.dimensions.nPeriods = 1 := Except.ok.inj h2
  omega

/-- C64 needs names of latent factors that can be quoted in a query: with a factor whose name has a line break or exactly one single quote (and no backslash or backtick), no parameter vector can be parsed. -/
theorem C64_names {α : Type} [OfScientific α] [Neg α] [Zero α] [One α] [OfNat α 2] [DecidableEq α] [Zero β] [One β] {m : ModelDict α} {pm : Processed α} (h : processModel m = .ok pm) {f : String} (hf : IsLatent m f)
    (hc : (∃ c ∈ f.toList, c ∈ ['\n', '\r', '\x0b', '\x0c', '\x1c', '\x1d', '\x1e', '\u0085', '\u2028', '\u2029']) ∨ f.toList.count '\'' = 1 ∧ '\\' ∉ f.toList ∧ '`' ∉ f.toList)
    (log : β → β) (params : List β) (nObs : ℕ) (p : Parsed β) : pm.parse log params nObs ≠ .ok p := by
  intro hp
  obtain ⟨info, hinfo, _⟩ := parse_ok_iff.mp hp
  have hq : querySafe f = false := by
    unfold querySafe
    rw [List.all_eq_false]
    rcases hc with ⟨c, hc, hl⟩ | ⟨hc, _⟩
    · refine ⟨c, hc, ?_⟩
      have : c ∈ lineBreaks := by
        unfold lineBreaks
        simp only [List.mem_cons, List.not_mem_nil, or_false] at hl ⊢
        tauto
      simp [this]
    · exact ⟨'\'', List.count_pos_iff.mp (by omega), by simp⟩
  unfold createParsingInfo at hinfo
  simp only [py_bind_ok] at hinfo
  obtain ⟨tr, htr, _⟩ := hinfo
  obtain ⟨spec, hmem⟩ := hf
  obtain ⟨y, _, hy⟩ := forall₂_mem ((mapM_ok_iff _ _ _).mp htr) (show f ∈ pm.labels.latentFactors by rw [(labels_of_ok h).1]; exact List.mem_map.mpr ⟨_, hmem, rfl⟩)
  unfold selectTransition at hy
  rw [hq] at hy
  cases hy

/-- Two accepted models with such names. -/
def Ex.named (f : String) : ModelDict Rat where
  factors := [(f, { measurements := [["y"], ["y"]], transition := .named "linear" })]
  estimationOptions := some {}

theorem Ex.C64_names_example : (∃ pm, processModel (Ex.named "mother's skills") = .ok pm) ∧ ("mother's skills").toList.count '\'' = 1 ∧ (∃ pm, processModel (Ex.named "skills\nof the mother") = .ok pm) ∧ '\n' ∈ ("skills\nof the mother").toList :=
  ⟨ok_of_toBool (by decide +kernel), by decide +kernel, ok_of_toBool (by decide +kernel), by decide +kernel⟩

/-- Three anchored factors, two of which have the same name "a_b_c" of the variable of their anchoring equation: the outcome "a_b" for the factor "c" and the outcome "a" for the factor "b_c". -/
def Ex.clash : ModelDict Rat where
  factors := [
    ("c", { measurements := [["y1"], ["y1"]], transition := .named "linear" }),
    ("b_c", { measurements := [["y2"], ["y2"]], transition := .named "linear" }),
    ("d", { measurements := [["y3"], ["y3"]], transition := .named "linear" })]
  anchoring := some { outcomes := some [("c", "a_b"), ("b_c", "a"), ("d", "e")], freeLoadings := some true, freeConstant := some true }
  estimationOptions := some {}

/-- C08, negative part: if two anchoring equations have the same variable, the model is accepted, but params cannot be parsed: there are two anchoring equations for three anchored factors. -/
theorem C08_name_clash : ∃ pm, processModel Ex.clash = .ok pm ∧ AnchoredIn Ex.clash "c" "a_b" ∧ AnchoredIn Ex.clash "b_c" "a" ∧ pm.parse id (pm.paramsIndex.map (fun _ => (1 : Rat))) 1 = .error .valueError := by
  obtain ⟨pm, h⟩ : ∃ pm, processModel Ex.clash = .ok pm := ok_of_toBool (by decide +kernel)
  refine ⟨pm, h, ⟨_, rfl, _, rfl, by simp⟩, ⟨_, rfl, _, rfl, by simp⟩, ?_⟩
  have hp : ((processModel Ex.clash).bind (fun pm => (pm.parse id (pm.paramsIndex.map (fun _ => (1 : Rat))) 1).map (fun _ => ()))) = .error .valueError := by decide +kernel
  rw [h] at hp
  replace hp : (pm.parse id (pm.paramsIndex.map (fun _ => (1 : Rat))) 1).map (fun _ => ()) = .error .valueError := hp
  cases hpp : pm.parse id (pm.paramsIndex.map (fun _ => (1 : Rat))) 1 with
  | error e => rw [hpp] at hp; exact congrArg _ (Except.error.inj hp)
  | ok p => rw [hpp] at hp; cases hp

/-- Two anchored factors that are listed in another order in the anchoring section. -/
def Ex.swapped : ModelDict Rat where
  factors := [
    ("a", { measurements := [["y1"], ["y1"]], transition := .named "linear" }),
    ("b", { measurements := [["y2"], ["y2"]], transition := .named "linear" })]
  anchoring := some { outcomes := some [("b", "Qb"), ("a", "Qa")], freeLoadings := some true, freeConstant := some true }
  estimationOptions := some {}

/-- Parameter values of `Ex.swapped`: loading 2 on Qa, 3 on Qb, intercepts 4 and 5. -/
def Ex.swappedVal (l : Loc) : Int :=
  if l.cat = .loadings ∧ l.name1 = "Qa_a" then 2
  else if l.cat = .loadings ∧ l.name1 = "Qb_b" then 3
  else if l.cat = .controls ∧ l.name1 = "Qa_a" then 4
  else if l.cat = .controls ∧ l.name1 = "Qb_b" then 5 else 1

/-- C08, negative part: factor a gets the scaling factor and the constant of factor b. -/
theorem C08_swapped_factors : ∃ pm p, processModel Ex.swapped = .ok pm ∧
    pm.parse id (pm.paramsIndex.map Ex.swappedVal) 1 = .ok p ∧
    (allFactors Ex.swapped)[0]? = some "a" ∧ AnchoredIn Ex.swapped "a" "Qa" ∧
    Ex.swappedVal ⟨.loadings, 0, "Qa_a", "a"⟩ = 2 ∧ at2 p.scalingFactors 0 0 = some 3 ∧
    Ex.swappedVal ⟨.controls, 0, "Qa_a", "constant"⟩ = 4 ∧ at2 p.anchoringConstants 0 0 = some 5 := by
  obtain ⟨pm, h⟩ : ∃ pm, processModel Ex.swapped = .ok pm := ok_of_toBool (by decide +kernel)
  have hp : ((processModel Ex.swapped).bind (fun pm => (pm.parse id (pm.paramsIndex.map Ex.swappedVal) 1).map (fun p =>
      (at2 p.scalingFactors 0 0, at2 p.anchoringConstants 0 0)))) = .ok (some 3, some 5) := by decide +kernel
  rw [h] at hp
  simp only [Except.bind] at hp
  cases hpp : pm.parse id (pm.paramsIndex.map Ex.swappedVal) 1 with
  | error e => rw [hpp] at hp; cases hp
  | ok p =>
    rw [hpp] at hp
    have hp := Except.ok.inj hp
    refine ⟨pm, p, h, hpp, rfl, ⟨_, rfl, _, rfl, by decide⟩, by decide +kernel, (Prod.mk.inj hp).1, by decide +kernel, (Prod.mk.inj hp).2⟩

/-! ### C09 -/

theorem lookup_of_mem {γ κ : Type _} [BEq κ] [LawfulBEq κ] {xs : List (κ × γ)} (hn : (xs.map Prod.fst).Nodup) {k : κ} {v : γ}
    (h : (k, v) ∈ xs) : xs.lookup k = some v := by
  induction xs with
  | nil => cases h
  | cons a xs ih =>
    obtain ⟨k', v'⟩ := a
    simp only [List.map_cons, List.nodup_cons] at hn
    rw [List.lookup_cons]
    by_cases hk : k = k'
    · have hb : (k == k') = true := by simp [hk]
      simp only [hb]
      rcases List.mem_cons.mp h with e | e
      · cases e; rfl
      · exact absurd (List.mem_map.mpr ⟨_, e, hk⟩) hn.1
    · have hb : (k == k') = false := by simpa using hk
      simp only [hb]
      rcases List.mem_cons.mp h with e | e
      · cases e; exact absurd rfl hk
      · exact ih hn.2 e

/-- **C09.** Let `params` be a params DataFrame with unique labels. If its labels are those of the
template then the parameter vector has for each label of the template the value of the row with
this label; otherwise there is a ValueError. In particular the order of the rows is irrelevant. -/
theorem C09_row_order_irrelevant {params : List (Loc × β)} {target : List Loc}
    (hn : (params.map Prod.fst).Nodup) :
    ((∀ l, l ∈ params.map Prod.fst ↔ l ∈ target) →
      ∃ vec, getJnpParamsVec params target = .ok vec ∧ vec.length = target.length ∧
        ∀ (i : Nat) l x, target[i]? = some l → (l, x) ∈ params → vec[i]? = some x) ∧
    ((∃ l, ¬ (l ∈ params.map Prod.fst ↔ l ∈ target)) → getJnpParamsVec params target = .error .valueError) ∧
    (∀ params', params.Perm params' → getJnpParamsVec params' target = getJnpParamsVec params target) := by
  have hcond : ∀ ps : List (Loc × β), ((ps.map Prod.fst).all (fun l => target.contains l) && target.all (fun l => (ps.map Prod.fst).contains l)) = true ↔
      ∀ l, l ∈ ps.map Prod.fst ↔ l ∈ target := by
    intro ps
    simp only [Bool.and_eq_true, List.all_eq_true, List.contains_iff_mem]
    constructor
    · rintro ⟨h1, h2⟩ l; exact ⟨h1 l, h2 l⟩
    · intro h; exact ⟨fun l => (h l).mp, fun l => (h l).mpr⟩
  have key : ∀ ps : List (Loc × β), (ps.map Prod.fst).Nodup → (∀ l, l ∈ ps.map Prod.fst ↔ l ∈ target) →
      getJnpParamsVec ps target = target.mapM (fun l =>
        match ps.lookup l with
        | some x => .ok x
        | none => .error .valueError) := by
    intro ps hn h
    unfold getJnpParamsVec
    dsimp only
    rw [if_neg (not_not.mpr ((hcond ps).mpr h))]
    split
    · next e =>
      symm
      rw [mapM_ok_iff, ← e, List.forall₂_map_left_iff, List.forall₂_map_right_iff, List.forall₂_same]
      rintro ⟨l, x⟩ hx
      rw [lookup_of_mem hn hx]
    · rfl
  refine ⟨?_, ?_, ?_⟩
  · intro h
    have h1 : ∀ l ∈ target, ∃ x, (l, x) ∈ params := by
      intro l hl
      obtain ⟨⟨l', x⟩, hx, rfl⟩ := List.mem_map.mp ((h l).mpr hl)
      exact ⟨x, hx⟩
    have h2 : ∃ vec : List β, List.Forall₂ (fun l x => (l, x) ∈ params) target vec := by
      clear key hcond h
      induction target with
      | nil => exact ⟨[], .nil⟩
      | cons l ls ih =>
        obtain ⟨x, hx⟩ := h1 l (by simp)
        obtain ⟨v, hv⟩ := ih (fun l' hl' => h1 l' (by simp [hl']))
        exact ⟨x :: v, .cons hx hv⟩
    obtain ⟨vec, hvec⟩ := h2
    refine ⟨vec, ?_, hvec.length_eq.symm, ?_⟩
    · rw [key params hn h, mapM_ok_iff]
      refine hvec.imp ?_
      intro l x hx
      rw [lookup_of_mem hn hx]
    · intro i l x hl hx
      obtain ⟨y, hy, hm⟩ := forall₂_getElem? hvec hl
      have e1 := lookup_of_mem hn hx
      rw [lookup_of_mem hn hm] at e1
      rw [hy, e1]
  · rintro ⟨l, hl⟩
    unfold getJnpParamsVec
    dsimp only
    rw [if_pos]
    rw [hcond]
    exact fun h => hl (h l)
  · intro ps hperm
    have hmemf : ∀ l, l ∈ ps.map Prod.fst ↔ l ∈ params.map Prod.fst := fun l => (hperm.map Prod.fst).mem_iff.symm
    have hnp : (ps.map Prod.fst).Nodup := ((hperm.map Prod.fst).nodup_iff).mp hn
    by_cases h : ∀ l, l ∈ params.map Prod.fst ↔ l ∈ target
    · rw [key params hn h, key ps hnp (fun l => (hmemf l).trans (h l))]
      congr 1
      funext l
      have : ps.lookup l = params.lookup l := by
        by_cases hl : l ∈ params.map Prod.fst
        · obtain ⟨⟨l', x⟩, hx, rfl⟩ := List.mem_map.mp hl
          rw [lookup_of_mem hn hx, lookup_of_mem hnp (hperm.mem_iff.mp hx)]
        · rw [List.lookup_eq_none_iff.mpr, List.lookup_eq_none_iff.mpr]
          · intro p hp; simp only [ne_eq, bne_iff_ne]; rintro rfl; exact hl (List.mem_map.mpr ⟨p, hp, rfl⟩)
          · intro p hp; simp only [ne_eq, bne_iff_ne]; rintro rfl
            exact hl ((hmemf _).mp (List.mem_map.mpr ⟨p, hp, rfl⟩))
      rw [this]
    · have h' : ¬ ∀ l, l ∈ ps.map Prod.fst ↔ l ∈ target := fun h2 => h (fun l => (hmemf l).symm.trans (h2 l))
      unfold getJnpParamsVec
      dsimp only
      rw [if_pos (by rw [hcond]; exact h'), if_pos (by rw [hcond]; exact h)]

/-- Non-vacuous: reversing the rows of the params of the example gives the same vector. -/
example : (processModel Ex.model2).map (fun pm => decide
    (getJnpParamsVec ((pm.paramsIndex.zip (List.range pm.paramsIndex.length)).reverse) pm.paramsIndex =
      .ok (List.range pm.paramsIndex.length))) = .ok true := by decide +kernel

/-! ### C10 -/

/-- The n × n matrix stored in a nested list. -/
def toMatrix (n : Nat) (a : List (List ℝ)) : Matrix (Fin n) (Fin n) ℝ :=
  Matrix.of (fun i j => (a.getD i []).getD j 0)

/-- **C10.** The parsed Cholesky factors of every individual and mixture element are upper
triangular with the parameters labelled f-f on the diagonal; the initial covariance matrix
(upper_chol.T @ upper_chol) is symmetric and positive semi-definite, and positive definite if none
of the diagonal parameters is zero. -/
theorem C10_initial_covariances {α : Type} [OfScientific α] [Neg α] [Zero α] [One α] [OfNat α 2] [DecidableEq α]
    {m : ModelDict α} {pm : Processed α} (h : processModel m = .ok pm)
    (hg : GoodNames m) {log : ℝ → ℝ} {nObs : Nat} {p : Parsed ℝ} {params : List ℝ} {val : Loc → ℝ}
    (hv : params = pm.paramsIndex.map val) (hp : pm.parse log params nObs = .ok p)
    (i e : Nat) (chols : List (List (List ℝ))) (chol : List (List ℝ)) (hi : p.upperChols[i]? = some chols)
    (he : chols[e]? = some chol) :
    let U := toMatrix m.factors.length chol
    (∀ a b, b < a → U a b = 0) ∧
    (∀ (a : Fin m.factors.length) f, (m.factors.map Prod.fst)[(a : Nat)]? = some f →
      U a a = val ⟨.initialCholcovs, 0, "mixture_" ++ toString e, f ++ "-" ++ f⟩) ∧
    (U.transpose * U).IsSymm ∧ (U.transpose * U).PosSemidef ∧
    ((∀ f, IsLatent m f → val ⟨.initialCholcovs, 0, "mixture_" ++ toString e, f ++ "-" ++ f⟩ ≠ 0) →
      (U.transpose * U).PosDef) := by
  obtain ⟨_, hch, _⟩ := C07_parsed_values h hg hv hp
  rw [hch, List.getElem?_replicate] at hi
  split at hi
  · cases hi
    rw [List.getElem?_map] at he
    rcases Nat.lt_or_ge e pm.dimensions.nMixtures with hlt | hge
    · rw [List.getElem?_range hlt] at he
      simp only [Option.map_some, Option.some.injEq] at he
      intro U
      have hU : ∀ a b : Fin m.factors.length, U a b = if (a : Nat) ≤ b then val ⟨.initialCholcovs, 0, "mixture_" ++ toString e,
          (m.factors.map Prod.fst).getD b "" ++ "-" ++ (m.factors.map Prod.fst).getD a ""⟩ else 0 := by
        intro a b
        show (chol.getD a []).getD b 0 = _
        rw [← he]
        have ha := a.2
        have hb := b.2
        simp only [List.getD_eq_getElem?_getD, List.getElem?_map, List.getElem?_range ha, Option.map_some, Option.getD_some,
          List.getElem?_range hb]
      have hdiag : ∀ (a : Fin m.factors.length) f, (m.factors.map Prod.fst)[(a : Nat)]? = some f →
          U a a = val ⟨.initialCholcovs, 0, "mixture_" ++ toString e, f ++ "-" ++ f⟩ := by
        intro a f hf
        rw [hU a a, if_pos (le_refl _), List.getD_eq_getElem?_getD, hf]
        rfl
      have htri : ∀ a b, b < a → U a b = 0 := by
        intro a b hab
        rw [hU a b, if_neg (by simpa using hab)]
      refine ⟨htri, hdiag, ?_, ?_, ?_⟩
      · unfold Matrix.IsSymm
        rw [Matrix.transpose_mul, Matrix.transpose_transpose]
      · have := Matrix.posSemidef_conjTranspose_mul_self U
        rwa [Matrix.conjTranspose_eq_transpose_of_trivial] at this
      · intro hne
        have hdet : U.det ≠ 0 := by
          have ht : U.BlockTriangular id := fun a b hab => htri a b hab
          rw [Matrix.det_of_isUpperTriangular ht, Finset.prod_ne_zero_iff]
          intro a _
          have hlt' : (a : Nat) < (m.factors.map Prod.fst).length := by simp
          rw [hdiag a _ (List.getElem?_eq_getElem hlt')]
          apply hne
          obtain ⟨⟨f, spec⟩, hm, hf⟩ := List.mem_map.mp (List.getElem_mem hlt')
          rw [← hf]
          exact ⟨spec, hm⟩
        have hu : IsUnit U := (Matrix.isUnit_iff_isUnit_det U).mpr (isUnit_iff_ne_zero.mpr hdet)
        have := Matrix.PosDef.conjTranspose_mul_self U (Matrix.mulVec_injective_of_isUnit hu)
        rwa [Matrix.conjTranspose_eq_transpose_of_trivial] at this
    · rw [List.getElem?_eq_none (by simpa using hge)] at he; cases he
  · cases hi

end Skill
