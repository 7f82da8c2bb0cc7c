import Verif.Props.Restrictions
import Verif.Props.Edits3
import Verif.Props.OwnData
import Verif.Props.MixtureElements

/-! C137: more general models never fit worse. -/

namespace Skill
open Spec

variable {m m' : ModelDict ℝ}

theorem factor_unique (hk : DictKeys m) {f : String} {spec spec' : FactorSpec ℝ} (h : (f, spec) ∈ m.factors) (h' : (f, spec') ∈ m.factors) : spec = spec' := by
  have := List.inj_on_of_nodup_map hk.factors h h' rfl
  exact (Prod.mk.inj this).2

theorem exists_paramsWith {pm : Processed ℝ} (hpm : processModel m = .ok pm) (hg : GoodNames m) (val : Loc → ℝ) : ∃ params, ParamsWith m params val := by
  have hfst : (pm.paramsIndex.map (fun l => (l, val l))).map Prod.fst = pm.paramsIndex := by rw [List.map_map]; exact List.map_id _
  refine ⟨pm.paramsIndex.map (fun l => (l, val l)), by rw [hfst]; exact C06_index_unique_partial hpm hg, fun l => by rw [hfst, mem_paramsIndex_iff hpm], fun l x h => ?_⟩
  obtain ⟨l', _, h⟩ := List.mem_map.mp h
  rw [Prod.mk.injEq] at h
  rw [← h.1, ← h.2]

theorem loglikeValue_ok {df : LongData ℝ} {inputs : MaximizationInputs} (hin : getMaximizationInputs m df = .ok inputs) {qr : QR} {custom : String → CustomFn} {nan : ℝ} {params : List (Loc × ℝ)} {x : ℝ} :
    loglikeValue qr custom nan m df params = .ok x ↔ ∃ out, inputs.loglike qr custom nan m params = .ok out ∧ x = out.value := by
  unfold loglikeValue
  rw [hin]
  show (inputs.loglike qr custom nan m params >>= fun out => pure out.value) = .ok x ↔ _
  rw [py_bind_ok]
  exact ⟨fun ⟨out, h1, h2⟩ => ⟨out, h1, (py_pure_ok.mp h2).symm⟩, fun ⟨out, h1, h2⟩ => ⟨out, h1, py_pure_ok.mpr h2.symm⟩⟩

/-- The argument for nested models: if `val''` is feasible and has the likelihood `x'`, the maximum is not lower. -/
theorem maximum_of_same {pm : Processed ℝ} (hpm : processModel m = .ok pm) (hg : GoodNames m) {f : List (Loc × ℝ) → Py ℝ} {Θ : Set (Loc → ℝ)} {val val'' : Loc → ℝ} (hmax : Maximizes f m Θ val)
    {params : List (Loc × ℝ)} (hp : ParamsWith m params val) {x x' : ℝ} (hx : f params = .ok x) (hfeas : val'' ∈ Θ) (hsame : ∀ params'' x'', ParamsWith m params'' val'' → f params'' = .ok x'' → x'' = x') : x' ≤ x := by
  obtain ⟨params'', hp''⟩ := exists_paramsWith hpm hg val''
  obtain ⟨x'', hx''⟩ := hmax.evaluates val'' hfeas params'' hp''
  rw [← hsame params'' x'' hp'' hx'']
  exact hmax.highest params x hp hx val'' hfeas params'' x'' hp'' hx''

/-- Equal contributions have equal sums. -/
theorem value_of_contributions (hg : GoodNames m) (hclash : NoNameClash m) (he : EditOf m m') {df : LongData ℝ} (hi : IndexOk df) (hu : NoUnusedPeriods df) {ids pers : List Int} (hids : IdsOf df ids) (hpers : PeriodsOf df pers)
    {inputs inputs' : MaximizationInputs} (hin : getMaximizationInputs m df = .ok inputs) (hin' : getMaximizationInputs m' df = .ok inputs') {qr : QR} {custom : String → CustomFn} {nan : ℝ} {params params' : List (Loc × ℝ)}
    {out out' : LoglikeOutput} (h : inputs.loglike qr custom nan m params = .ok out) (h' : inputs'.loglike qr custom nan m' params' = .ok out') (hsame : ∀ i < ids.length, out'.contributions[i]? = out.contributions[i]?) :
    out'.value = out.value := by
  obtain ⟨l1, s1⟩ := loglike_sum hg.keys hclash hi hu hids hpers hin h
  obtain ⟨l2, s2⟩ := loglike_sum (he.goodNames hg).keys (he.noNameClash hclash) hi hu hids hpers hin' h'
  rw [s1, s2]
  congr 1
  apply List.ext_getElem?
  intro i
  by_cases hil : i < ids.length
  · exact hsame i hil
  · rw [List.getElem?_eq_none (by omega), List.getElem?_eq_none (by omega)]

/-! ### Translog instead of linear functions -/

open Classical in
/-- The parameters of the translog model: those of the linear model, and zero for squares and interactions. -/
noncomputable def withoutHigherOrder (m : ModelDict ℝ) (val : Loc → ℝ) : Loc → ℝ := fun l =>
  if l.cat = .transition ∧ (∃ spec, (l.name1, spec) ∈ m.factors ∧ spec.transition = .named "translog") ∧ ¬HasTransitionParam (allFactors m) (.named "linear") l.name2 then 0 else val l

theorem withoutHigherOrder_other {val : Loc → ℝ} {l : Loc} (h : l.cat ≠ .transition) : withoutHigherOrder m val l = val l := if_neg (fun h' => h h'.1)

theorem admissible_translog (hg : GoodNames m) {val : Loc → ℝ} (hv : Admissible (switchTranslogToLinear m) val) : Admissible m (withoutHigherOrder m val) := by
  have he : EditOf m (switchTranslogToLinear m) := edit_switch "translog" "linear" m
  have hmem : ∀ {f spec}, (f, spec) ∈ m.factors → (f, { spec with transition := if spec.transition = .named "translog" then .named "linear" else spec.transition }) ∈ (switchTranslogToLinear m).factors :=
    fun {f spec} h => mem_switchTransition.mpr ⟨spec, h, rfl⟩
  have hN : ∀ n, IsNPeriods (switchTranslogToLinear m) n ↔ IsNPeriods m n := fun n => isNPeriods_congr (m := m) (m' := switchTranslogToLinear m) (by
    show (m.factors.map _).map _ = _
    rw [List.map_map]
    rfl)
  have hper : ∀ t, IsPeriod m t ↔ IsPeriod (switchTranslogToLinear m) t := fun t => by
    unfold IsPeriod
    simp only [hN]
  have hmeas : ∀ t v f, Measures m t v f → Measures (switchTranslogToLinear m) t v f := by
    rintro t v f ⟨spec, h1, h2⟩
    exact ⟨_, hmem h1, h2⟩
  have hupd : ∀ t v, IsUpdate m t v → IsUpdate (switchTranslogToLinear m) t v := by
    rintro t v (⟨f, h⟩ | h)
    · exact Or.inl ⟨f, hmeas t v f h⟩
    · exact Or.inr (by
        obtain ⟨h1, h2⟩ := h
        exact ⟨(hper t).mp h1, h2⟩)
  have hlat := fun f => (he.isLatent f).mpr
  have hst : ∀ p s, StageOf m p s → StageOf (switchTranslogToLinear m) p s := by
    rintro p s (h | ⟨h1, h2, h3⟩)
    · exact Or.inl h
    · exact Or.inr ⟨h1, (hper _).mp h2, h3⟩
  refine ⟨?_, ?_, ?_, ?_, ?_, ?_, ?_, ?_, ?_⟩
  · intro l x hl
    have hl' : ShouldFix (switchTranslogToLinear m) l x := by
      cases hl with
      | loading h1 h2 => exact .loading (hmem h1) h2
      | intercept h1 h2 => exact .intercept (hmem h1) h2
      | weight h1 => exact .weight h1
      | @shock f spec t h1 h2 h3 =>
        refine .shock (hmem h1) ?_ ((hper _).mp h3)
        dsimp only
        rw [if_neg]
        · exact h2
        · intro h
          rw [h] at h2
          exact absurd (show "constant" = "translog" from h2) (by decide)
      | anchorConstant h1 h2 h3 => exact .anchorConstant h1 h2 ((hper _).mp h3)
      | anchorControl h1 h2 h3 h4 h5 => exact .anchorControl h1 h2 ((hper _).mp h3) h4 h5
      | anchorLoading h1 h2 h3 h4 => exact .anchorLoading h1 h2 (hlat _ h3) ((hper _).mp h4)
    rw [withoutHigherOrder_other (by cases hl <;> simp)]
    exact hv.fixes l x hl'
  · intro k hk
    obtain ⟨h1, h2⟩ := hv.weights k hk
    exact ⟨fun e he => by rw [withoutHigherOrder_other (by simp)]; exact h1 e he, by rw [← h2]; exact Finset.sum_congr rfl (fun e _ => withoutHigherOrder_other (by simp))⟩
  · intro p q s hp hq f spec name hf hn
    unfold withoutHigherOrder
    dsimp only
    split
    · rfl
    · rename_i h
      refine hv.stages p q s (hst p s hp) (hst q s hq) f _ name (hmem hf) ?_
      rw [he.allFactors_eq]
      by_cases htr : spec.transition = .named "translog"
      · dsimp only
        rw [if_pos htr]
        by_contra hlin
        exact h ⟨rfl, ⟨spec, hf, htr⟩, hlin⟩
      · dsimp only
        rw [if_neg htr]
        exact hn
  · intro p q s hp hq f hf
    rw [withoutHigherOrder_other (by simp), withoutHigherOrder_other (by simp)]
    exact hv.stageShocks p q s (hst p s hp) (hst q s hq) f (hlat f hf)
  · intro k f hk hf e e' h1 h2
    rw [withoutHigherOrder_other (by simp), withoutHigherOrder_other (by simp)]
    exact hv.order k f hk (by rw [he.factors]; exact hf) e e' h1 h2
  · intro t f spec ht hf hc
    have hf' := hmem hf
    have hno : spec.transition ≠ .named "translog" := by rw [hc]; simp
    have hcond : ∀ g, withoutHigherOrder m val ⟨.transition, t, f, g⟩ = val ⟨.transition, t, f, g⟩ := fun g => if_neg (by
      rintro ⟨_, ⟨spec', h1, h2⟩, _⟩
      have := factor_unique hg.keys hf h1
      rw [this] at hno
      exact hno h2)
    obtain ⟨h1, h2⟩ := hv.shares t f _ ((hper _).mp ht) hf' (by dsimp only; rw [if_neg hno]; exact hc)
    rw [he.allFactors_eq] at h1 h2
    simp only [hcond]
    exact ⟨h1, h2⟩
  · intro d t v hd hu
    rw [withoutHigherOrder_other (by simp)]
    exact hv.measSds d t v hd (hupd t v hu)
  · intro d t f hd ht hf
    rw [withoutHigherOrder_other (by simp)]
    exact hv.shockSds d t f hd ((hper _).mp ht) (hlat f hf)
  · intro d k e f hd hk hek hf
    rw [withoutHigherOrder_other (by simp)]
    exact hv.diagonal d k e f hd hk hek (hlat f hf)

theorem estimable_linear (he : Estimable m) : Estimable (switchTranslogToLinear m) := by
  have h : EditOf m (switchTranslogToLinear m) := edit_switch "translog" "linear" m
  refine ⟨h.goodNames he.names, fun v f hv => (h.isLatent f).mpr (he.anchored v f ((h.anchors v f).mp hv)), he.mixtures, ?_, ?_⟩
  · intro f spec fn ps hs ht
    obtain ⟨spec', h1, h2⟩ := h.registered f spec (some fn) ps hs ht
    exact he.custom f spec' fn ps h1 h2
  · rcases he.transition with ⟨f, spec, name, h1, h2⟩ | h1
    · left
      by_cases htr : spec.transition = .named "translog"
      · exact ⟨f, _, "constant", mem_switchTransition.mpr ⟨spec, h1, rfl⟩, by dsimp only; rw [if_pos htr]; exact Or.inl ⟨rfl, Or.inr rfl⟩⟩
      · exact ⟨f, _, name, mem_switchTransition.mpr ⟨spec, h1, rfl⟩, by dsimp only; rw [if_neg htr, h.allFactors_eq]; exact h2⟩
    · right
      intro p q s hp hq
      have hst : ∀ p s, StageOf (switchTranslogToLinear m) p s → StageOf m p s := by
        rintro p s (h | ⟨h1, h2, h3⟩)
        · exact Or.inl h
        · exact Or.inr ⟨h1, (smaller_switchTranslogToLinear m).periods _ h2, h3⟩
      exact h1 p q s (hst p s hp) (hst q s hq)

/-- **C137, transition functions.** A model with translog functions is at least as general as the same model with linear functions (switch_translog_to_linear): for all feasible parameters of the linear model there are feasible parameters of the
translog model with the same likelihood. -/
theorem C137_translog (he : Estimable m) (hc : CleanAnchoring m) (ho : SameOrder m) (hclash : NoNameClash m) (hper : IsPeriod m 1) {df : LongData ℝ} (hi : IndexOk df) (hu : NoUnusedPeriods df) {ids pers : List Int}
    (hids : IdsOf df ids) (hpers : PeriodsOf df pers) {inputs inputs' : MaximizationInputs} (hin : getMaximizationInputs m df = .ok inputs) (hin' : getMaximizationInputs (switchTranslogToLinear m) df = .ok inputs')
    (B : Loc → ℝ) {val' : Loc → ℝ} (hval' : val' ∈ Feasible inputs' B) :
    ∃ val ∈ Feasible inputs B, ∀ (qr : QR) (custom : String → CustomFn) (nan : ℝ) params params' x x', ParamsWith m params val → ParamsWith (switchTranslogToLinear m) params' val' →
      loglikeValue qr custom nan m df params = .ok x → loglikeValue qr custom nan (switchTranslogToLinear m) df params' = .ok x' → x = x' := by
  obtain ⟨pm, _, _, _, hpm, _⟩ := getMaximizationInputs_ok.mp hin
  have hE : EditOf m (switchTranslogToLinear m) := edit_switch "translog" "linear" m
  rw [C120_feasible (estimable_linear he) hin'] at hval'
  have hfeas : withoutHigherOrder m val' ∈ Feasible inputs B := by
    rw [C120_feasible he hin]
    refine ⟨admissible_translog he.names hval'.1, fun l => ?_⟩
    unfold withoutHigherOrder
    split
    · rw [abs_zero]
      exact (abs_nonneg _).trans (hval'.2 l)
    · exact hval'.2 l
  refine ⟨_, hfeas, fun qr custom nan params'' params' x'' x' hp'' hp' hx'' hx' => ?_⟩
  obtain ⟨out, h, rfl⟩ := (loglikeValue_ok hin).mp hx''
  obtain ⟨out', h', rfl⟩ := (loglikeValue_ok hin').mp hx'
  refine (value_of_contributions he.names hclash hE hi hu hids hpers hin hin' h h' (fun i hil => ?_)).symm
  refine (C118_translog_to_linear he.names hc ho hclash hper hi hu hids hpers hin hin' hp''.nodup hp''.values hp'.nodup (fun l x hlx => ?_) ?_ h h' i hil).2
  · have hl := (hp'.labels l).mp (List.mem_map_of_mem hlx)
    rw [hp'.values l x hlx]
    refine (if_neg ?_).symm
    rintro ⟨h1, ⟨spec, h2, h3⟩, h4⟩
    cases hl with
    | @transition t f spec' name ht hf hn =>
      obtain ⟨s, hs, rfl⟩ := mem_switchTransition.mp hf
      have := factor_unique he.names.keys hs h2
      rw [this] at hn
      dsimp only at hn
      rw [if_pos h3, hE.allFactors_eq] at hn
      exact h4 hn
    | _ => cases h1
  · intro f spec hf ht t _ name _ hn
    exact if_pos ⟨rfl, ⟨spec, hf, ht⟩, hn⟩

/-- **C137, transition functions.** The maximum of the likelihood of the translog model is at least the likelihood at all feasible parameters of the linear model. -/
theorem C137_translog_maximum (he : Estimable m) (hc : CleanAnchoring m) (ho : SameOrder m) (hclash : NoNameClash m) (hper : IsPeriod m 1) {df : LongData ℝ} (hi : IndexOk df) (hu : NoUnusedPeriods df) {ids pers : List Int}
    (hids : IdsOf df ids) (hpers : PeriodsOf df pers) {inputs inputs' : MaximizationInputs} (hin : getMaximizationInputs m df = .ok inputs) (hin' : getMaximizationInputs (switchTranslogToLinear m) df = .ok inputs')
    (B : Loc → ℝ) (qr : QR) (custom : String → CustomFn) (nan : ℝ) {val val' : Loc → ℝ} (hmax : Maximizes (loglikeValue qr custom nan m df) m (Feasible inputs B) val) (hval' : val' ∈ Feasible inputs' B)
    {params params' : List (Loc × ℝ)} (hp : ParamsWith m params val) (hp' : ParamsWith (switchTranslogToLinear m) params' val') {x x' : ℝ} (hx : loglikeValue qr custom nan m df params = .ok x)
    (hx' : loglikeValue qr custom nan (switchTranslogToLinear m) df params' = .ok x') : x' ≤ x := by
  obtain ⟨val'', hfeas, hsame⟩ := C137_translog he hc ho hclash hper hi hu hids hpers hin hin' B hval'
  obtain ⟨pm, _, _, _, hpm, _⟩ := getMaximizationInputs_ok.mp hin
  exact maximum_of_same hpm he.names hmax hp hx hfeas (fun params'' x'' h1 h2 => hsame qr custom nan params'' params' x'' x' h1 hp' h2 hx')

/-! ### More controls -/

/-- The parameters of the model with more controls: those of the smaller model, and zero for the additional controls. -/
noncomputable def withoutControls (cs : List String) (val : Loc → ℝ) : Loc → ℝ := fun l => if l.cat = .controls ∧ l.name2 ∈ cs then 0 else val l

theorem withoutControls_other {cs : List String} {val : Loc → ℝ} {l : Loc} (h : l.cat ≠ .controls) : withoutControls cs val l = val l := if_neg (fun h' => h h'.1)

theorem admissible_controls {cs : List String} (hcs : "constant" ∉ cs) (hm' : removeControls cs m = .ok m') {val : Loc → ℝ} (hv : Admissible m' val) : Admissible m (withoutControls cs val) := by
  obtain ⟨c, hc, rfl⟩ := removeControls_ok hm'
  refine ⟨?_, ?_, ?_, ?_, ?_, ?_, ?_, ?_, ?_⟩
  · intro l x hl
    cases hl with
    | loading h1 h2 => rw [withoutControls_other (by simp)]; exact hv.fixes _ _ (.loading h1 h2)
    | intercept h1 h2 =>
      unfold withoutControls
      rw [if_neg (fun h => hcs h.2)]
      exact hv.fixes _ _ (.intercept h1 h2)
    | weight h1 => rw [withoutControls_other (by simp)]; exact hv.fixes _ _ (.weight h1)
    | shock h1 h2 h3 => rw [withoutControls_other (by simp)]; exact hv.fixes _ _ (.shock h1 h2 h3)
    | anchorConstant h1 h2 h3 =>
      unfold withoutControls
      rw [if_neg (fun h => hcs h.2)]
      exact hv.fixes _ _ (.anchorConstant h1 h2 h3)
    | @anchorControl f v t c' h1 h2 h3 h4 h5 =>
      unfold withoutControls
      dsimp only
      split
      · rfl
      · rename_i h
        refine hv.fixes _ _ (.anchorControl h1 h2 h3 ?_ h5)
        show c' ∈ (if removeFromList c cs = [] then none else some (removeFromList c cs)).getD []
        rw [controls_getD_reduced, mem_removeFromList]
        rw [hc] at h4
        exact ⟨h4, fun h' => h ⟨rfl, h'⟩⟩
    | anchorLoading h1 h2 h3 h4 => rw [withoutControls_other (by simp)]; exact hv.fixes _ _ (.anchorLoading h1 h2 h3 h4)
  · intro k hk
    obtain ⟨h1, h2⟩ := hv.weights k hk
    exact ⟨fun e he => by rw [withoutControls_other (by simp)]; exact h1 e he, by rw [← h2]; exact Finset.sum_congr rfl (fun e _ => withoutControls_other (by simp))⟩
  · intro p q s hp hq f spec name hf hn
    rw [withoutControls_other (by simp), withoutControls_other (by simp)]
    exact hv.stages p q s hp hq f spec name hf hn
  · intro p q s hp hq f hf
    rw [withoutControls_other (by simp), withoutControls_other (by simp)]
    exact hv.stageShocks p q s hp hq f hf
  · intro k f hk hf e e' h1 h2
    rw [withoutControls_other (by simp), withoutControls_other (by simp)]
    exact hv.order k f hk hf e e' h1 h2
  · intro t f spec ht hf hc'
    have hcond : ∀ g, withoutControls cs val ⟨.transition, t, f, g⟩ = val ⟨.transition, t, f, g⟩ := fun g => withoutControls_other (by simp)
    simp only [hcond]
    exact hv.shares t f spec ht hf hc'
  · intro d t v hd hu
    rw [withoutControls_other (by simp)]
    exact hv.measSds d t v hd hu
  · intro d t f hd ht hf
    rw [withoutControls_other (by simp)]
    exact hv.shockSds d t f hd ht hf
  · intro d k e f hd hk hek hf
    rw [withoutControls_other (by simp)]
    exact hv.diagonal d k e f hd hk hek hf

theorem estimable_controls (he : Estimable m) {cs : List String} (hm' : removeControls cs m = .ok m') : Estimable m' := by
  have h := edit_removeControls hm'
  have hn := h.goodNames he.names
  obtain ⟨c, hc, rfl⟩ := removeControls_ok hm'
  exact ⟨hn, he.anchored, he.mixtures, he.custom, he.transition⟩

/-- **C137, controls.** A model with more controls is at least as general as the same model with fewer controls (remove_controls), if the additional controls are not missing: for all feasible parameters of the smaller model there are feasible
parameters of the larger model with the same likelihood. -/
theorem C137_controls (he : Estimable m) (hc : CleanAnchoring m) (ho : SameOrder m) (hclash : NoNameClash m) (hper : IsPeriod m 1) {cs : List String} (hcs : "constant" ∉ cs) (hm' : removeControls cs m = .ok m') {df : LongData ℝ}
    (hi : IndexOk df) (hu : NoUnusedPeriods df) {ids pers : List Int} (hids : IdsOf df ids) (hpers : PeriodsOf df pers)
    (hcomplete : ∀ i < ids.length, ∀ t, IsPeriod m t → ∀ c ∈ cs, c ∈ m.controls.getD [] → ¬HasValue m df ids pers i t c none) {inputs inputs' : MaximizationInputs} (hin : getMaximizationInputs m df = .ok inputs)
    (hin' : getMaximizationInputs m' df = .ok inputs') (B : Loc → ℝ) {val' : Loc → ℝ} (hval' : val' ∈ Feasible inputs' B) :
    ∃ val ∈ Feasible inputs B, ∀ (qr : QR) (custom : String → CustomFn) (nan : ℝ) params params' x x', ParamsWith m params val → ParamsWith m' params' val' →
      loglikeValue qr custom nan m df params = .ok x → loglikeValue qr custom nan m' df params' = .ok x' → x = x' := by
  obtain ⟨pm, _, _, _, hpm, _⟩ := getMaximizationInputs_ok.mp hin
  have hE := edit_removeControls hm'
  rw [C120_feasible (estimable_controls he hm') hin'] at hval'
  have hfeas : withoutControls cs val' ∈ Feasible inputs B := by
    rw [C120_feasible he hin]
    refine ⟨admissible_controls hcs hm' hval'.1, fun l => ?_⟩
    unfold withoutControls
    split
    · rw [abs_zero]
      exact (abs_nonneg _).trans (hval'.2 l)
    · exact hval'.2 l
  refine ⟨_, hfeas, fun qr custom nan params'' params' x'' x' hp'' hp' hx'' hx' => ?_⟩
  obtain ⟨out, h, rfl⟩ := (loglikeValue_ok hin).mp hx''
  obtain ⟨out', h', rfl⟩ := (loglikeValue_ok hin').mp hx'
  refine (value_of_contributions he.names hclash hE hi hu hids hpers hin hin' h h' (fun i hil => ?_)).symm
  refine (C117_fewer_controls he.names hc ho hclash hper hm' hi hu hids hpers hin hin' hp''.nodup hp''.values hp'.nodup (fun l x hlx => ?_) ?_ h h' hil (hcomplete i hil)).2
  · have hl := (hp'.labels l).mp (List.mem_map_of_mem hlx)
    rw [hp'.values l x hlx]
    refine (if_neg ?_).symm
    rintro ⟨h1, h2⟩
    cases hl with
    | @control t v c h3 h4 =>
      rcases h4 with rfl | h4
      · exact hcs h2
      · obtain ⟨c0, hc0, rfl⟩ := removeControls_ok hm'
        have h4 : c ∈ (if removeFromList c0 cs = [] then none else some (removeFromList c0 cs)).getD [] := h4
        rw [controls_getD_reduced, mem_removeFromList] at h4
        exact h4.2 h2
    | _ => cases h1
  · intro t v _ c hc
    exact if_pos ⟨rfl, hc⟩

/-- **C137, controls.** The maximum of the likelihood of the model with more controls is at least the likelihood at all feasible parameters of the model with fewer controls. -/
theorem C137_controls_maximum (he : Estimable m) (hc : CleanAnchoring m) (ho : SameOrder m) (hclash : NoNameClash m) (hper : IsPeriod m 1) {cs : List String} (hcs : "constant" ∉ cs) (hm' : removeControls cs m = .ok m') {df : LongData ℝ}
    (hi : IndexOk df) (hu : NoUnusedPeriods df) {ids pers : List Int} (hids : IdsOf df ids) (hpers : PeriodsOf df pers)
    (hcomplete : ∀ i < ids.length, ∀ t, IsPeriod m t → ∀ c ∈ cs, c ∈ m.controls.getD [] → ¬HasValue m df ids pers i t c none) {inputs inputs' : MaximizationInputs} (hin : getMaximizationInputs m df = .ok inputs)
    (hin' : getMaximizationInputs m' df = .ok inputs') (B : Loc → ℝ) (qr : QR) (custom : String → CustomFn) (nan : ℝ) {val val' : Loc → ℝ} (hmax : Maximizes (loglikeValue qr custom nan m df) m (Feasible inputs B) val)
    (hval' : val' ∈ Feasible inputs' B) {params params' : List (Loc × ℝ)} (hp : ParamsWith m params val) (hp' : ParamsWith m' params' val') {x x' : ℝ} (hx : loglikeValue qr custom nan m df params = .ok x)
    (hx' : loglikeValue qr custom nan m' df params' = .ok x') : x' ≤ x := by
  obtain ⟨val'', hfeas, hsame⟩ := C137_controls he hc ho hclash hper hcs hm' hi hu hids hpers hcomplete hin hin' B hval'
  obtain ⟨pm, _, _, _, hpm, _⟩ := getMaximizationInputs_ok.mp hin
  exact maximum_of_same hpm he.names hmax hp hx hfeas (fun params'' x'' h1 h2 => hsame qr custom nan params'' params' x'' x' h1 hp' h2 hx')

/-! ### More mixture elements -/

section Elements
variable {k k' : ℕ}

open Classical in
/-- The parameters of a model with `k'` mixture elements: the last of the `k` elements is replaced by copies of it that have the same weights. -/
noncomputable def withCopies (k k' : ℕ) (val : Loc → ℝ) : Loc → ℝ := fun l =>
  if (l.cat = .initialStates ∨ l.cat = .initialCholcovs) ∧ ∃ e, k ≤ e ∧ l.name1 = Spec.mixtureName e then val { l with name1 := Spec.mixtureName (k - 1) }
  else if l.cat = .mixtureWeights ∧ ∃ e, k - 1 ≤ e ∧ l.name1 = Spec.mixtureName e then val { l with name1 := Spec.mixtureName (k - 1) } / (k' - (k - 1) : ℕ)
  else val l

theorem withCopies_other {val : Loc → ℝ} {l : Loc} (h1 : l.cat ≠ .initialStates) (h2 : l.cat ≠ .initialCholcovs) (h3 : l.cat ≠ .mixtureWeights) : withCopies k k' val l = val l := by
  unfold withCopies
  rw [if_neg (by rintro ⟨h | h, _⟩ <;> contradiction), if_neg (fun h => h3 h.1)]

theorem specName_inj {a b : ℕ} (h : Spec.mixtureName a = Spec.mixtureName b) : a = b := mixtureName_inj h

theorem withCopies_element (hk : 1 ≤ k) {val : Loc → ℝ} {c : Cat} (hc : c = .initialStates ∨ c = .initialCholcovs) (e : ℕ) (x : String) :
    withCopies k k' val ⟨c, 0, Spec.mixtureName e, x⟩ = val ⟨c, 0, Spec.mixtureName (min e (k - 1)), x⟩ := by
  unfold withCopies
  by_cases h : k ≤ e
  · rw [if_pos ⟨hc, e, h, rfl⟩, Nat.min_eq_right (by omega)]
  · rw [if_neg, if_neg, Nat.min_eq_left (by omega)]
    · rintro ⟨rfl, _⟩
      rcases hc with hc | hc <;> cases hc
    · rintro ⟨_, e', h1, h2⟩
      exact h (specName_inj h2 ▸ h1)

theorem withCopies_weight {val : Loc → ℝ} (e : ℕ) :
    withCopies k k' val ⟨.mixtureWeights, 0, Spec.mixtureName e, "-"⟩ = if k - 1 ≤ e then val ⟨.mixtureWeights, 0, Spec.mixtureName (k - 1), "-"⟩ / (k' - (k - 1) : ℕ) else val ⟨.mixtureWeights, 0, Spec.mixtureName e, "-"⟩ := by
  unfold withCopies
  rw [if_neg (by rintro ⟨h | h, _⟩ <;> cases h)]
  by_cases h : k - 1 ≤ e
  · rw [if_pos ⟨rfl, e, h, rfl⟩, if_pos h]
  · rw [if_neg, if_neg h]
    rintro ⟨_, e', h1, h2⟩
    exact h (specName_inj h2 ▸ h1)

theorem withCopies_copies (hk : 1 ≤ k) (hkk : k ≤ k') {val : Loc → ℝ} (hpos : ∀ e < k, 0 < val ⟨.mixtureWeights, 0, Spec.mixtureName e, "-"⟩) (htot : ∑ e ∈ Finset.range k, val ⟨.mixtureWeights, 0, Spec.mixtureName e, "-"⟩ = 1) :
    Copies m k k' (fun e => min e (k - 1)) val (withCopies k k' val) where
  inRange := fun e' _ => by omega
  states := fun e' _ f _ => withCopies_element hk (Or.inl rfl) e' f
  cholcovs := fun e' _ f g _ _ => withCopies_element hk (Or.inr rfl) e' _
  weights := by
    intro e he
    by_cases hlast : e = k - 1
    · subst hlast
      have hf : (Finset.range k').filter (fun e' => min e' (k - 1) = k - 1) = Finset.Ico (k - 1) k' := by
        ext e'
        rw [Finset.mem_filter, Finset.mem_range, Finset.mem_Ico]
        omega
      rw [hf, Finset.sum_congr rfl (fun e' he' => by rw [withCopies_weight, if_pos (Finset.mem_Ico.mp he').1]), Finset.sum_const, Nat.card_Ico, nsmul_eq_mul]
      have : ((k' - (k - 1) : ℕ) : ℝ) ≠ 0 := by
        rw [Nat.cast_ne_zero]
        omega
      field_simp
    · have hf : (Finset.range k').filter (fun e' => min e' (k - 1) = e) = {e} := by
        ext e'
        rw [Finset.mem_filter, Finset.mem_range, Finset.mem_singleton]
        omega
      rw [hf, Finset.sum_singleton, withCopies_weight, if_neg (by omega)]
  positive := hpos
  positive' := by
    intro e' he'
    rw [withCopies_weight]
    split
    · exact div_pos (hpos _ (by omega)) (by rw [Nat.cast_pos]; omega)
    · exact hpos _ (by omega)
  total := htot
  others := fun l h1 h2 h3 => withCopies_other h1 h2 h3

theorem withMixtures_mixtures (hk : HasNMixtures m k) {j : ℕ} (h : HasNMixtures (withMixtures m k') j) : j = k' := by
  obtain ⟨o, ho, _⟩ := hk
  obtain ⟨o', ho', h⟩ := h
  have ho' : m.estimationOptions.map (fun o => { o with nMixtures := some k' }) = some o' := ho'
  rw [ho] at ho'
  obtain rfl := Option.some.inj ho'
  rcases h with h | ⟨h, _⟩
  · exact (Option.some.inj h).symm
  · cases h

theorem withMixtures_bounds (hk : HasNMixtures m k) {d : ℝ} (h : BoundsDistance (withMixtures m k') d) : BoundsDistance m d := by
  obtain ⟨o, ho, _⟩ := hk
  obtain ⟨o', ho', h⟩ := h
  have ho' : m.estimationOptions.map (fun o => { o with nMixtures := some k' }) = some o' := ho'
  rw [ho] at ho'
  obtain rfl := Option.some.inj ho'
  exact ⟨o, ho, h⟩

theorem admissible_elements (hk : 1 ≤ k) (hkk : k ≤ k') (hmix : HasNMixtures m k) {val : Loc → ℝ} (hv : Admissible m val) (hpos : ∀ e < k, 0 < val ⟨.mixtureWeights, 0, Spec.mixtureName e, "-"⟩) :
    Admissible (withMixtures m k') (withCopies k k' val) := by
  have hcopy : Copies m k k' _ val (withCopies k k' val) := withCopies_copies hk hkk hpos (hv.weights k hmix).2
  have htot : ∑ e ∈ Finset.range k', withCopies k k' val ⟨.mixtureWeights, 0, Spec.mixtureName e, "-"⟩ = 1 := by
    rw [← hcopy.total, Finset.sum_congr (s₁ := Finset.range k) rfl (fun e he => hcopy.weights e (Finset.mem_range.mp he))]
    exact (Finset.sum_fiberwise_of_maps_to (fun e he => Finset.mem_range.mpr (hcopy.inRange e (Finset.mem_range.mp he))) _).symm
  refine ⟨?_, ?_, ?_, ?_, ?_, ?_, ?_, ?_, ?_⟩
  · intro l x hl
    cases hl with
    | loading h1 h2 => rw [withCopies_other (by simp) (by simp) (by simp)]; exact hv.fixes _ _ (.loading h1 h2)
    | intercept h1 h2 => rw [withCopies_other (by simp) (by simp) (by simp)]; exact hv.fixes _ _ (.intercept h1 h2)
    | weight h1 =>
      obtain rfl := withMixtures_mixtures hmix h1
      rw [Finset.sum_range_one] at htot
      exact htot
    | shock h1 h2 h3 => rw [withCopies_other (by simp) (by simp) (by simp)]; exact hv.fixes _ _ (.shock h1 h2 h3)
    | anchorConstant h1 h2 h3 => rw [withCopies_other (by simp) (by simp) (by simp)]; exact hv.fixes _ _ (.anchorConstant h1 h2 h3)
    | anchorControl h1 h2 h3 h4 h5 => rw [withCopies_other (by simp) (by simp) (by simp)]; exact hv.fixes _ _ (.anchorControl h1 h2 h3 h4 h5)
    | anchorLoading h1 h2 h3 h4 => rw [withCopies_other (by simp) (by simp) (by simp)]; exact hv.fixes _ _ (.anchorLoading h1 h2 h3 h4)
  · intro j hj
    obtain rfl := withMixtures_mixtures hmix hj
    exact ⟨fun e he => (hcopy.positive' e he).le, htot⟩
  · intro p q s hp hq f spec name hf hn
    rw [withCopies_other (by simp) (by simp) (by simp), withCopies_other (by simp) (by simp) (by simp)]
    exact hv.stages p q s hp hq f spec name hf hn
  · intro p q s hp hq f hf
    rw [withCopies_other (by simp) (by simp) (by simp), withCopies_other (by simp) (by simp) (by simp)]
    exact hv.stageShocks p q s hp hq f hf
  · intro j f hj hf e e' h1 h2
    have := hv.order k f hmix hf (min e (k - 1)) (min e' (k - 1)) (by omega) (by omega)
    exact (withCopies_element hk (Or.inl rfl) e f).le.trans (this.trans (withCopies_element hk (Or.inl rfl) e' f).ge)
  · intro t f spec ht hf hc'
    have hcond : ∀ g, withCopies k k' val ⟨.transition, t, f, g⟩ = val ⟨.transition, t, f, g⟩ := fun g => withCopies_other (by simp) (by simp) (by simp)
    simp only [hcond]
    exact hv.shares t f spec ht hf hc'
  · intro d t v hd hu
    rw [withCopies_other (by simp) (by simp) (by simp)]
    exact hv.measSds d t v (withMixtures_bounds hmix hd) hu
  · intro d t f hd ht hf
    rw [withCopies_other (by simp) (by simp) (by simp)]
    exact hv.shockSds d t f (withMixtures_bounds hmix hd) ht hf
  · intro d j e f hd hj hej hf
    exact (hv.diagonal d k (min e (k - 1)) f (withMixtures_bounds hmix hd) hmix (by omega) hf).trans (withCopies_element hk (Or.inr rfl) e _).ge

theorem estimable_elements (he : Estimable m) (hmix : HasNMixtures m k) (hk : 1 ≤ k') : Estimable (withMixtures m k') :=
  ⟨withMixtures_names he.names k', he.anchored, fun j hj => by rw [withMixtures_mixtures hmix hj]; exact hk, he.custom, he.transition⟩

/-- **C137, mixture elements.** A model with more mixture elements is at least as general as the same model with fewer elements: for all feasible parameters of the model with fewer elements for which all weights are positive there are feasible
parameters of the model with more elements with the same likelihood. The numbers `B` of the user that the absolute values may not exceed have to be the same for all elements. -/
theorem C137_elements (he : Estimable m) (hc : CleanAnchoring m) (ho : SameOrder m) (hmix : HasNMixtures m k) (hkk : k ≤ k') {df : LongData ℝ} {inputs inputs' : MaximizationInputs} (hin : getMaximizationInputs m df = .ok inputs)
    (hin' : getMaximizationInputs (withMixtures m k') df = .ok inputs') {B : Loc → ℝ} (hB : ∀ (l : Loc) (n : String), l.cat = .initialStates ∨ l.cat = .initialCholcovs ∨ l.cat = .mixtureWeights → B { l with name1 := n } = B l)
    {val : Loc → ℝ} (hval : val ∈ Feasible inputs B) (hpos : ∀ e < k, 0 < val ⟨.mixtureWeights, 0, Spec.mixtureName e, "-"⟩) :
    ∃ val' ∈ Feasible inputs' B, ∀ (qr : QR) (custom : String → CustomFn) (nan : ℝ) params params' x x', ParamsWith m params val → ParamsWith (withMixtures m k') params' val' →
      loglikeValue qr custom nan m df params = .ok x → loglikeValue qr custom nan (withMixtures m k') df params' = .ok x' → x' = x := by
  have hk := he.mixtures k hmix
  obtain ⟨pm', _, _, _, hpm', _⟩ := getMaximizationInputs_ok.mp hin'
  rw [C120_feasible he hin] at hval
  have hfeas : withCopies k k' val ∈ Feasible inputs' B := by
    rw [C120_feasible (estimable_elements he hmix (hk.trans hkk)) hin']
    refine ⟨admissible_elements hk hkk hmix hval.1 hpos, fun l => ?_⟩
    unfold withCopies
    split
    · rename_i h
      rw [← hB l (Spec.mixtureName (k - 1)) (by tauto)]
      exact hval.2 _
    · split
      · rename_i h
        rw [← hB l (Spec.mixtureName (k - 1)) (by tauto), abs_div, Nat.abs_cast]
        refine (div_le_self (abs_nonneg _) ?_).trans (hval.2 _)
        rw [Nat.one_le_cast]
        omega
      · exact hval.2 l
  refine ⟨_, hfeas, fun qr custom nan params params' x x' hp hp' hx hx' => ?_⟩
  obtain ⟨out, h, rfl⟩ := (loglikeValue_ok hin).mp hx
  obtain ⟨out', h', rfl⟩ := (loglikeValue_ok hin').mp hx'
  exact (C136_same_likelihood he.names hc ho hmix (withCopies_copies hk hkk hpos (hval.1.weights k hmix).2) hin hin' hp.nodup hp.values hp'.nodup hp'.values h h').1

/-- **C137, mixture elements.** The maximum of the likelihood of the model with more elements is at least the likelihood at all feasible parameters of the model with fewer elements for which all weights are positive. -/
theorem C137_elements_maximum (he : Estimable m) (hc : CleanAnchoring m) (ho : SameOrder m) (hmix : HasNMixtures m k) (hkk : k ≤ k') {df : LongData ℝ} {inputs inputs' : MaximizationInputs} (hin : getMaximizationInputs m df = .ok inputs)
    (hin' : getMaximizationInputs (withMixtures m k') df = .ok inputs') {B : Loc → ℝ} (hB : ∀ (l : Loc) (n : String), l.cat = .initialStates ∨ l.cat = .initialCholcovs ∨ l.cat = .mixtureWeights → B { l with name1 := n } = B l)
    {val : Loc → ℝ} (hval : val ∈ Feasible inputs B) (hpos : ∀ e < k, 0 < val ⟨.mixtureWeights, 0, Spec.mixtureName e, "-"⟩)
    (qr : QR) (custom : String → CustomFn) (nan : ℝ) {val' : Loc → ℝ} (hmax : Maximizes (loglikeValue qr custom nan (withMixtures m k') df) (withMixtures m k') (Feasible inputs' B) val') {params params' : List (Loc × ℝ)}
    (hp : ParamsWith m params val) (hp' : ParamsWith (withMixtures m k') params' val') {x x' : ℝ} (hx : loglikeValue qr custom nan m df params = .ok x)
    (hx' : loglikeValue qr custom nan (withMixtures m k') df params' = .ok x') : x ≤ x' := by
  obtain ⟨val'', hfeas, hsame⟩ := C137_elements he hc ho hmix hkk hin hin' hB hval hpos
  obtain ⟨pm, _, _, _, hpm, _⟩ := getMaximizationInputs_ok.mp hin'
  exact maximum_of_same hpm (withMixtures_names he.names k') hmax hp' hx' hfeas (fun params'' x'' h1 h2 => hsame qr custom nan params params'' x x'' hp h1 hx h2)

end Elements

end Skill
