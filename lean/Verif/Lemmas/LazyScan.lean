import Verif.Lemmas.Scan
import Verif.Model.Simulate
/-
The loop of the filter in another form: the predict step takes place just before the first update of the next period. In this form it is easy to see what happens if updates are left out.
-/
namespace Skill
open Matrix Spec

section abstract
variable {A B C O : Type}

/-- A loop over updates `a` with period `per a` that applies `pred p` before an update of period p + 1 that follows one of period p. -/
def lazyRun (per : A → ℕ) (pred : ℕ → C → C) (upd : A → C → C × O) : ℕ → C → List A → List O
  | _, _, [] => []
  | p, c, a :: as =>
    let c' := if per a = p + 1 then pred p c else c
    (upd a c').2 :: lazyRun per pred upd (per a) (upd a c').1 as

variable {per : A → ℕ} {pred : ℕ → C → C} {upd : A → C → C × O}

theorem lazyRun_cons (p : ℕ) (c : C) (a : A) (as : List A) : lazyRun per pred upd p c (a :: as) =
    (upd a (if per a = p + 1 then pred p c else c)).2 :: lazyRun per pred upd (per a) (upd a (if per a = p + 1 then pred p c else c)).1 as := rfl

theorem lazyRun_length (p : ℕ) (c : C) (as : List A) : (lazyRun per pred upd p c as).length = as.length := by
  induction as generalizing p c with
  | nil => rfl
  | cons a as ih => simp [lazyRun, ih]

theorem lazyRun_append (p : ℕ) (c : C) (as bs : List A) : ∃ rest, lazyRun per pred upd p c (as ++ bs) = lazyRun per pred upd p c as ++ rest := by
  induction as generalizing p c with
  | nil => exact ⟨_, rfl⟩
  | cons a as ih =>
    obtain ⟨rest, hr⟩ := ih (per a) (upd a (if per a = p + 1 then pred p c else c)).1
    exact ⟨rest, by rw [List.cons_append, lazyRun_cons, lazyRun_cons, hr]; rfl⟩

theorem lazyRun_congr {per' : B → ℕ} {pred' : ℕ → C → C} {upd' : B → C → C × O} {N : ℕ} (hpred : ∀ p c, p + 1 < N → pred p c = pred' p c) {as : List A} {bs : List B}
    (h : List.Forall₂ (fun a b => per a = per' b ∧ per a < N ∧ ∀ c, upd a c = upd' b c) as bs) (p : ℕ) (c : C) : lazyRun per pred upd p c as = lazyRun per' pred' upd' p c bs := by
  induction h generalizing p c with
  | nil => rfl
  | @cons a b as bs hab _ ih =>
    obtain ⟨h1, h2, h3⟩ := hab
    unfold lazyRun
    have hc : (if per a = p + 1 then pred p c else c) = if per' b = p + 1 then pred' p c else c := by
      rw [← h1]
      split_ifs with h
      · exact hpred p c (by omega)
      · rfl
    rw [← hc]
    dsimp only
    rw [← h3, ← h1, ih]

/-- Consecutive updates are in the same period or in consecutive periods. -/
def Gapless (per : A → ℕ) : ℕ → List A → Prop
  | _, [] => True
  | p, a :: as => (per a = p ∨ per a = p + 1) ∧ Gapless per (per a) as

theorem gapless_ge {p : ℕ} {as : List A} (h : Gapless per p as) : ∀ a ∈ as, p ≤ per a := by
  induction as generalizing p with
  | nil => intro a ha; cases ha
  | cons b as ih =>
    intro a ha
    have hb : p ≤ per b := by rcases h.1 with h | h <;> omega
    rcases List.mem_cons.mp ha with rfl | ha
    · exact hb
    · exact hb.trans (ih h.2 a ha)

/-- The outputs for the updates that are kept. -/
def keptOuts (keep : A → Bool) : List A → List O → List O
  | a :: as, o :: os => if keep a then o :: keptOuts keep as os else keptOuts keep as os
  | _, _ => []

theorem keptOuts_none {keep : A → Bool} {as : List A} (h : as.filter keep = []) (os : List O) : keptOuts keep as os = [] := by
  induction as generalizing os with
  | nil => rfl
  | cons a as ih =>
    cases os with
    | nil => rfl
    | cons o os =>
      have ha : keep a = false := by
        cases hk : keep a with
        | false => rfl
        | true => rw [List.filter_cons_of_pos hk] at h; cases h
      rw [List.filter_cons_of_neg (by rw [ha]; simp)] at h
      rw [keptOuts, ha]
      exact ih h os

/-- Updates that do not change anything can be left out, as long as each period keeps an update. -/
theorem lazyRun_filter {keep : A → Bool} {as : List A} (hskip : ∀ a ∈ as, keep a = false → ∀ c, (upd a c).1 = c) {p p' : ℕ} {c c' : C} (hg : Gapless per p as) (hg' : Gapless per p' (as.filter keep))
    (hs : (p = p' ∧ c = c') ∨ (p = p' + 1 ∧ c = pred p' c')) : keptOuts keep as (lazyRun per pred upd p c as) = lazyRun per pred upd p' c' (as.filter keep) := by
  induction as generalizing p p' c c' with
  | nil => rfl
  | cons a as ih =>
    have ih := fun {p p' c c'} => ih (fun b hb => hskip b (List.mem_cons_of_mem _ hb)) (p := p) (p' := p') (c := c) (c' := c')
    obtain ⟨ha, hg⟩ := hg
    rw [lazyRun_cons, keptOuts]
    cases hk : keep a with
    | true =>
      rw [List.filter_cons_of_pos hk] at hg' ⊢
      obtain ⟨ha', hg'⟩ := hg'
      have hc : (if per a = p + 1 then pred p c else c) = if per a = p' + 1 then pred p' c' else c' := by
        rcases hs with ⟨rfl, rfl⟩ | ⟨rfl, rfl⟩
        · rfl
        · rw [if_neg (by omega), if_pos (by omega)]
      rw [if_pos rfl, ih hg hg' (Or.inl ⟨rfl, rfl⟩), hc, lazyRun_cons]
    | false =>
      rw [List.filter_cons_of_neg (by rw [hk]; simp)] at hg' ⊢
      rw [if_neg (by simp), hskip a List.mem_cons_self hk]
      rcases hs with ⟨rfl, rfl⟩ | ⟨rfl, rfl⟩
      · rcases ha with ha | ha
        · rw [if_neg (by omega)]
          exact ih hg hg' (Or.inl ⟨ha, rfl⟩)
        · rw [if_pos ha]
          exact ih hg hg' (Or.inr ⟨ha, rfl⟩)
      · rcases ha with ha | ha
        · rw [if_neg (by omega)]
          exact ih hg hg' (Or.inr ⟨ha, rfl⟩)
        · have hnil : as.filter keep = [] := by
            rcases hf : as.filter keep with _ | ⟨b, bs⟩
            · rfl
            · rw [hf] at hg'
              have hb := gapless_ge hg b (List.mem_of_mem_filter (hf ▸ List.mem_cons_self : b ∈ as.filter keep))
              rcases hg'.1 with h | h <;> omega
          rw [keptOuts_none hnil, hnil]
          rfl

theorem keptOuts_get {keep : A → Bool} {as : List A} {os : List O} {k : ℕ} {a : A} {o : O} (ha : as[k]? = some a) (ho : os[k]? = some o) (hk : keep a = true) :
    (as.filter keep)[((as.take k).filter keep).length]? = some a ∧ (keptOuts keep as os)[((as.take k).filter keep).length]? = some o := by
  induction as generalizing os k with
  | nil => cases ha
  | cons b as ih =>
    cases os with
    | nil => cases ho
    | cons x os =>
      cases k with
      | zero =>
        cases ha
        cases ho
        rw [keptOuts, if_pos hk, List.filter_cons_of_pos hk]
        exact ⟨rfl, rfl⟩
      | succ k =>
        rw [List.getElem?_cons_succ] at ha ho
        obtain ⟨h1, h2⟩ := ih ha ho
        rw [keptOuts, List.take_succ_cons]
        cases hb : keep b with
        | true =>
          rw [List.filter_cons_of_pos hb, List.filter_cons_of_pos hb, if_pos rfl, List.length_cons, List.getElem?_cons_succ, List.getElem?_cons_succ]
          exact ⟨h1, h2⟩
        | false =>
          rw [List.filter_cons_of_neg (by rw [hb]; simp), List.filter_cons_of_neg (by rw [hb]; simp), if_neg (by simp)]
          exact ⟨h1, h2⟩

end abstract

section filter
variable {nObs nMix n nT nObserved nC : ℕ} {θ : Type}

/-- The index of a period. -/
def periodIndex (L p : ℕ) : Int := if p = L then -1 else (p : Int)

/-- The argument of one step. -/
def argOf (L : ℕ) (r : UpdateParams n nC) (d : Fin nObs → Option ℝ) (flag : Bool) : LoopArgs nObs n nC :=
  { period := periodIndex L r.period, loadings := r.loadings, controlParams := r.controlParams, measSd := r.sd, measurements := d, isMeasurement := r.isMeasurement, isPredict := flag }

theorem loopArgs_nil (L : ℕ) (data : List (Fin nObs → Option ℝ)) : loopArgs L ([] : List (UpdateParams n nC)) data = [] := rfl

theorem loopArgs_one (L : ℕ) (r : UpdateParams n nC) (d : Fin nObs → Option ℝ) : loopArgs L [r] [d] = [argOf L r d false] := rfl

theorem loopArgs_cons (L : ℕ) (r q : UpdateParams n nC) (rows : List (UpdateParams n nC)) (d : Fin nObs → Option ℝ) (data : List (Fin nObs → Option ℝ)) :
    loopArgs L (r :: q :: rows) (d :: data) = argOf L r d (decide ((r.period : Int) - q.period = -1)) :: loopArgs L (q :: rows) data := rfl

/-- The update of one step: the new state and the output. -/
noncomputable def updOf (qr : QR) (fixed : ScanFixed nObs nT n nObserved nC θ) (L : ℕ) (a : UpdateParams n nC × (Fin nObs → Option ℝ)) (c : Carry nObs nMix n) : Carry nObs nMix n × StepOut nObs nMix n :=
  ((scanUpdate qr fixed c (argOf L a.1 a.2 false)).1, stepOut qr fixed c (argOf L a.1 a.2 false))

theorem outs_lazy (qr : QR) (fixed : ScanFixed nObs nT n nObserved nC θ) (L : ℕ) (c : Carry nObs nMix n) (p : ℕ) (as : List (UpdateParams n nC × (Fin nObs → Option ℝ)))
    (hp : ∀ a ∈ as.head?, a.1.period ≠ p + 1) :
    outs qr fixed c (loopArgs L (as.map Prod.fst) (as.map Prod.snd)) = lazyRun (fun a => a.1.period) (fun p c => predictCarry qr fixed c (periodIndex L p)) (updOf qr fixed L) p c as := by
  induction as generalizing c p with
  | nil => rfl
  | cons a as ih =>
    have ha : a.1.period ≠ p + 1 := hp a rfl
    unfold lazyRun
    dsimp only
    rw [if_neg ha]
    cases as with
    | nil => rfl
    | cons b as =>
      rw [List.map_cons, List.map_cons, List.map_cons, List.map_cons, loopArgs_cons]
      unfold outs
      congr 1
      have hstep : step qr fixed c (argOf L a.1 a.2 (decide ((a.1.period : Int) - b.1.period = -1))) =
          if b.1.period = a.1.period + 1 then predictCarry qr fixed (scanUpdate qr fixed c (argOf L a.1 a.2 false)).1 (periodIndex L a.1.period) else (scanUpdate qr fixed c (argOf L a.1 a.2 false)).1 := by
        by_cases hb : b.1.period = a.1.period + 1
        · rw [if_pos hb, show decide ((a.1.period : Int) - b.1.period = -1) = true by rw [decide_eq_true_eq]; omega]
          rfl
        · rw [if_neg hb, show decide ((a.1.period : Int) - b.1.period = -1) = false by rw [decide_eq_false_iff_not]; omega]
          rfl
      rw [hstep]
      have h1 := ih (if b.1.period = a.1.period + 1 then predictCarry qr fixed (scanUpdate qr fixed c (argOf L a.1 a.2 false)).1 (periodIndex L a.1.period) else (scanUpdate qr fixed c (argOf L a.1 a.2 false)).1) b.1.period
        (fun x hx => by cases hx; omega)
      rw [List.map_cons, List.map_cons] at h1
      rw [h1]
      unfold lazyRun
      dsimp only
      rw [if_neg (by omega : ¬b.1.period = b.1.period + 1)]
      rfl

end filter

end Skill
