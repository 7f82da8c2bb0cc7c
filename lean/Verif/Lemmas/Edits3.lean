import Verif.Lemmas.Edits2
import Verif.Props.Pipeline2
import Verif.Spec.LabelModel
/-
The shape of the output of the likelihood function, and updates without gaps.
-/
namespace Skill
open Matrix Spec

/-- The output of the likelihood function: one row of contributions for each update and one column for each individual; the clipped contributions add up to the contributions of the individuals. -/
theorem loglike_shape {qr : QR} {m : ModelDict ℝ} {pm : Processed ℝ} (hpm : processModel m = .ok pm) (hg : GoodNames m) (hc : CleanAnchoring m) (ho : SameOrder m) (hclash : NoNameClash m) (hper : IsPeriod m 1)
    {custom : String → CustomFn} {nan : ℝ} {val : Loc → ℝ} {df : LongData ℝ} {ids pers : List Int} {inputs : MaximizationInputs} {params : List (Loc × ℝ)} {out : LoglikeOutput}
    (hi : IndexOk df) (hu : NoUnusedPeriods df) (hids : IdsOf df ids) (hpers : PeriodsOf df pers) (hn : (params.map Prod.fst).Nodup) (hval : ∀ l x, (l, x) ∈ params → x = val l) (hin : getMaximizationInputs m df = .ok inputs)
    (hout : inputs.loglike qr custom nan m params = .ok out) :
    out.allContributions.length = pm.updateInfo.length ∧ (∀ row ∈ out.allContributions, row.length = ids.length) ∧ out.contributions.length = ids.length ∧
      ∀ o, m.estimationOptions = some o → ∀ i < ids.length, out.contributions.getD i 0 = (out.allContributions.map (fun row => clippedContribution o (row.getD i 0))).sum := by
  have hObs := length_of_controls hpm hper hclash hg hi hu hids hpers hin
  obtain ⟨pm', nT', con, obs, data, r, hpm', hT', hdata, hcon, hobs, hmeas, hr, hpost⟩ := evaluate_explicit hg hc ho hin hn hval hout hObs
  obtain rfl := Except.ok.inj (hpm.symm.trans hpm')
  obtain rfl := Except.ok.inj hpost
  obtain ⟨h1, h2, _⟩ := logLikelihood_ok hr
  unfold LoglikeResult.output
  dsimp only
  refine ⟨?_, ?_, by simp, ?_⟩
  · rw [List.length_map, h2, h1, List.length_map, outs_length, loopArgs_length _ _ (by simp), List.length_map]
  · intro row hrow
    obtain ⟨x, _, rfl⟩ := List.mem_map.mp hrow
    simp
  · intro o hopt i hi
    obtain ⟨_, _, h3⟩ := C40_value_is_sum hr
    rw [List.getD_eq_getElem?_getD, List.getElem?_eq_getElem (by simpa using hi), Option.getD_some, List.getElem_ofFn, h3, List.map_map]
    congr 1
    refine List.map_congr_left (fun row _ => ?_)
    simp only [Function.comp_apply]
    rw [softClipping_user hpm hopt, List.getD_eq_getElem?_getD, List.getElem?_eq_getElem (by simpa using hi), Option.getD_some, List.getElem_ofFn]

/-- A sorted list whose elements hit all numbers up to their greatest one does not have gaps. -/
theorem gapless_of_sorted {A : Type} {per : A → ℕ} {p : ℕ} {as : List A} (hs : as.Pairwise (fun a b => per a ≤ per b)) (hge : ∀ a ∈ as, p ≤ per a) (hall : ∀ a ∈ as, ∀ t, p < t → t < per a → ∃ b ∈ as, per b = t) :
    Gapless per p as := by
  induction as generalizing p with
  | nil => trivial
  | cons a as ih =>
    rw [List.pairwise_cons] at hs
    refine ⟨?_, ih hs.2 hs.1 (fun b hb t h1 h2 => ?_)⟩
    · have h1 := hge a List.mem_cons_self
      by_contra hne
      obtain ⟨b, hb, hbt⟩ := hall a List.mem_cons_self (p + 1) (by omega) (by omega)
      rcases List.mem_cons.mp hb with rfl | hb
      · omega
      · have := hs.1 b hb
        omega
    · have h3 := hge a List.mem_cons_self
      obtain ⟨b', hb', rfl⟩ := hall b (List.mem_cons_of_mem _ hb) t (by omega) h2
      rcases List.mem_cons.mp hb' with rfl | hb'
      · omega
      · exact ⟨b', hb', rfl⟩

/-- If the likelihood is computed for a model in which all periods have updates, then there are no gaps between the updates. -/
theorem gapless_updates {m : ModelDict ℝ} {pm : Processed ℝ} (hpm : processModel m = .ok pm) (hall : ∀ t, IsPeriod m t → ∃ v, IsUpdate m t v) : Gapless URow.period 0 pm.updateInfo := by
  obtain ⟨_, h2, h3, _⟩ := C01_update_info_exact hpm
  refine gapless_of_sorted h3 (fun _ _ => Nat.zero_le _) (fun r hr t _ ht => ?_)
  have hrp := isUpdate_period ((h2 r.period r.var).mp ⟨r, hr, rfl, rfl⟩)
  obtain ⟨v, hv⟩ := hall t ((isPeriod_iff hpm t).mpr (lt_trans ht ((isPeriod_iff hpm _).mp hrp)))
  obtain ⟨r', hr', h4, _⟩ := (h2 t v).mpr hv
  exact ⟨r', hr', h4⟩

/-- In a sorted list the elements below a bound come first. -/
theorem filter_sorted_prefix {A : Type} {per : A → ℕ} {as : List A} (hs : as.Pairwise (fun a b => per a ≤ per b)) (n : ℕ) : ∃ bs, as = as.filter (fun a => decide (per a < n)) ++ bs := by
  induction as with
  | nil => exact ⟨[], rfl⟩
  | cons a as ih =>
    rw [List.pairwise_cons] at hs
    by_cases ha : per a < n
    · obtain ⟨bs, hb⟩ := ih hs.2
      refine ⟨bs, ?_⟩
      rw [List.filter_cons_of_pos (by simpa using ha), List.cons_append, ← hb]
    · refine ⟨a :: as, ?_⟩
      rw [List.filter_eq_nil_iff.mpr, List.nil_append]
      intro b hb
      rcases List.mem_cons.mp hb with rfl | hb
      · simpa using ha
      · have := hs.1 b hb
        simp only [decide_eq_true_eq]
        omega

/-- Two tables with rows of the same length are the same if their columns are. -/
theorem table_ext {xs ys : List (List ℝ)} {k : ℕ} (hx : ∀ row ∈ xs, row.length = k) (hy : ∀ row ∈ ys, row.length = k) (hl : xs.length = ys.length)
    (h : ∀ i < k, xs.map (fun row => row.getD i 0) = ys.map (fun row => row.getD i 0)) : xs = ys := by
  refine List.ext_getElem hl (fun j h1 h2 => ?_)
  have e1 := hx _ (List.getElem_mem h1)
  have e2 := hy _ (List.getElem_mem h2)
  refine List.ext_getElem (by rw [e1, e2]) (fun i h3 h4 => ?_)
  have := congrArg (fun l => l[j]?) (h i (by omega))
  simp only [List.getElem?_map, List.getElem?_eq_getElem h1, List.getElem?_eq_getElem h2, Option.map_some, Option.some.injEq] at this
  rwa [List.getD_eq_getElem?_getD, List.getD_eq_getElem?_getD, List.getElem?_eq_getElem h3, List.getElem?_eq_getElem h4] at this

/-- A column of a table. -/
theorem entry2_column {xs : List (List ℝ)} {k i : ℕ} (hx : ∀ row ∈ xs, row.length = k) (hi : i < k) (j : ℕ) : entry2 xs j i = (xs.map (fun row => row.getD i 0))[j]? := by
  unfold entry2
  rw [List.getElem?_map]
  cases hj : xs[j]? with
  | none => rfl
  | some row =>
    have := hx row (List.mem_of_getElem? hj)
    rw [Option.bind_some, Option.map_some, List.getD_eq_getElem?_getD, List.getElem?_eq_getElem (by omega), Option.getD_some]

end Skill
