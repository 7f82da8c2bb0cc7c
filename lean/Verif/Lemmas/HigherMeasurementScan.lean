import Verif.Lemmas.HigherMeasurement
import Verif.Props.Pipeline
/- The outputs of the filter for two individuals of which one has a higher measurement. -/
namespace Skill
open Matrix Spec

/-- Two runs of the filter for individuals with the same data up to update `k`, except for update `k0`. -/
theorem outs_higher {nMix n nT nObserved nC nObs nObs' : ℕ} {θ : Type} [NeZero nMix] {qr : QR} (hqr : ValidQR qr) {fixed : ScanFixed 1 nT n nObserved nC θ} {con : Fin (nT + 2) → Fin 1 → Fin nC → ℝ}
    {obs : Fin (nT + 2) → Fin 1 → Fin nObserved → ℝ} {rows : List (UpdateParams n nC)} {data : List (Fin nObs → Option ℝ)} {data' : List (Fin nObs' → Option ℝ)} (hl : data.length = rows.length) (hl' : data'.length = rows.length)
    {i : Fin nObs} {i' : Fin nObs'} (hrange : ∀ r ∈ rows, r.period < nT + 2) {k0 k : ℕ} (hle : k0 ≤ k) (hk : k < rows.length)
    (hcon : ∀ (j : ℕ) (r : UpdateParams n nC), j ≤ k → rows[j]? = some r → ∀ (h : r.period < nT + 2), fixed.controls ⟨r.period, h⟩ = con ⟨r.period, h⟩ ∧ fixed.observed ⟨r.period, h⟩ = obs ⟨r.period, h⟩)
    (hdata : ∀ j ≤ k, j ≠ k0 → ∀ y y', data[j]? = some y → data'[j]? = some y' → y i = y' i')
    (hhigher : ∀ y y', data[k0]? = some y → data'[k0]? = some y' → (y i = none ∧ y' i' = none) ∨ ∃ z z', y i = some z ∧ y' i' = some z' ∧ z ≤ z')
    {f : Fin n} (hf : ∀ r, rows[k0]? = some r → (∀ g, g ≠ f → r.loadings g = 0) ∧ 0 ≤ r.loadings f)
    (hrows : ∀ (j : ℕ) (r : UpdateParams n nC), k0 ≤ j → j ≤ k → rows[j]? = some r → r.isMeasurement = true ∧ r.sd ≠ 0 ∧ (j < k → ∀ q, rows[j + 1]? = some q → q.period = r.period)) (c : Carry 1 nMix n) :
    ∃ o o', (outs qr fixed c ((loopArgs (nT + 1) rows data).map (LoopArgs.select (fun _ : Fin 1 => i))))[k]? = some o ∧
      (outs qr { fixed with controls := con, observed := obs } c ((loopArgs (nT + 1) rows data').map (LoopArgs.select (fun _ : Fin 1 => i'))))[k]? = some o' ∧ o.average f ≤ o'.average f := by
  have hget : ∀ j (hj : j < rows.length), ((loopArgs (nT + 1) rows data).map (LoopArgs.select (fun _ : Fin 1 => i)))[j]? = some { period := periodIndex (nT + 1) rows[j].period, loadings := rows[j].loadings, controlParams := rows[j].controlParams, measSd := rows[j].sd, measurements := fun _ => (data[j]'(by omega)) i, isMeasurement := rows[j].isMeasurement, isPredict := decide ((rows[j + 1]?).map (fun r => r.period) = some (rows[j].period + 1)) } := by
    intro j hj
    rw [List.getElem?_map, loopArgs_get _ (List.getElem?_eq_getElem hj) (List.getElem?_eq_getElem (by omega)), Option.map_some]
    rfl
  have hget' : ∀ j (hj : j < rows.length), ((loopArgs (nT + 1) rows data').map (LoopArgs.select (fun _ : Fin 1 => i')))[j]? = some { period := periodIndex (nT + 1) rows[j].period, loadings := rows[j].loadings, controlParams := rows[j].controlParams, measSd := rows[j].sd, measurements := fun _ => (data'[j]'(by omega)) i', isMeasurement := rows[j].isMeasurement, isPredict := decide ((rows[j + 1]?).map (fun r => r.period) = some (rows[j].period + 1)) } := by
    intro j hj
    rw [List.getElem?_map, loopArgs_get _ (List.getElem?_eq_getElem hj) (List.getElem?_eq_getElem (by omega)), Option.map_some]
    rfl
  have hlen : ((loopArgs (nT + 1) rows data).map (LoopArgs.select (fun _ : Fin 1 => i))).length = rows.length := by rw [List.length_map, loopArgs_length _ _ hl]
  set as := (loopArgs (nT + 1) rows data).map (LoopArgs.select (fun _ : Fin 1 => i)) with has
  set as' := (loopArgs (nT + 1) rows data').map (LoopArgs.select (fun _ : Fin 1 => i')) with has'
  have hk0 : k0 < rows.length := by omega
  have hfix : ∀ j < k + 1, ∀ a, as[j]? = some a → fixed.controls (jaxIndex (nT + 1) a.period) = con (jaxIndex (nT + 1) a.period) ∧ fixed.observed (jaxIndex (nT + 1) a.period) = obs (jaxIndex (nT + 1) a.period) := by
    intro j hj a ha
    rw [hget j (by omega)] at ha
    obtain rfl := Option.some.inj ha
    dsimp only
    rw [jaxIndex_period (hrange _ (List.getElem_mem (by omega)))]
    exact hcon j _ (by omega) (List.getElem?_eq_getElem (by omega)) _
  have hsame : ∀ j < k + 1, j ≠ k0 → as[j]? = as'[j]? := by
    intro j hj hne
    rw [hget j (by omega), hget' j (by omega)]
    rw [hdata j (by omega) hne _ _ (List.getElem?_eq_getElem (by omega)) (List.getElem?_eq_getElem (by omega))]
  have h0 := hget k0 hk0
  have h0' := hget' k0 hk0
  rcases hhigher _ _ (List.getElem?_eq_getElem (by omega : k0 < data.length)) (List.getElem?_eq_getElem (by omega : k0 < data'.length)) with ⟨e1, e2⟩ | ⟨z, z', e1, e2, hz⟩
  · have hall : ∀ j < k + 1, as[j]? = as'[j]? := by
      intro j hj
      by_cases hne : j = k0
      · subst hne
        rw [h0, h0', e1, e2]
      · exact hsame j hj hne
    have key := outs_upTo qr (con := con) (obs := obs) (k + 1) hall hfix c k (by omega)
    have hko : k < (outs qr fixed c as).length := by rw [outs_length, hlen]; exact hk
    exact ⟨(outs qr fixed c as)[k], (outs qr fixed c as)[k], List.getElem?_eq_getElem hko, by rw [← key, List.getElem?_eq_getElem hko], le_rfl⟩
  · rw [e1] at h0
    rw [e2] at h0'
    obtain ⟨f1, f2⟩ := hf _ (List.getElem?_eq_getElem hk0)
    obtain ⟨o, o', q1, q2, q3⟩ := outs_monotone hqr { fixed with controls := con, observed := obs } c h0 f1 f2 hle (by rw [hlen]; exact hk) (fun j hj hj0 b hb => by
      rw [hget j (by omega)] at hb
      obtain rfl := Option.some.inj hb
      obtain ⟨r1, r2, r3⟩ := hrows j _ hj0 hj (List.getElem?_eq_getElem (by omega))
      refine ⟨r1, r2, fun hlt => ?_⟩
      have hj1 : rows[j + 1]? = some rows[j + 1] := List.getElem?_eq_getElem (by omega)
      have := r3 hlt _ hj1
      dsimp only
      rw [hj1, Option.map_some, this]
      exact decide_eq_false (fun e => by have := Option.some.inj e; omega)) hz
    refine ⟨o, o', ?_, ?_, q3⟩
    · rw [← q1]
      refine outs_upTo qr (con := con) (obs := obs) (k + 1) ?_ hfix c k (by omega)
      intro j hj
      rw [List.getElem?_set]
      split_ifs with hne hlt
      · subst hne; exact h0
      · rw [hlen] at hlt; omega
      · rfl
    · rw [← q2]
      refine outs_upTo (fixed := { fixed with controls := con, observed := obs }) qr (con := con) (obs := obs) (k + 1) ?_ (fun _ _ _ _ => ⟨rfl, rfl⟩) c k (by omega)
      intro j hj
      rw [List.getElem?_set]
      split_ifs with hne hlt
      · subst hne; exact h0'
      · rw [hlen] at hlt; omega
      · exact (hsame j hj (Ne.symm hne)).symm

end Skill
