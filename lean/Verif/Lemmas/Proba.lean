import Mathlib.Tactic.FieldSimp
import Mathlib.Tactic.Linarith
import Mathlib.Tactic.Positivity
import Mathlib.Tactic.Ring
import Mathlib.Algebra.Order.Field.Rat
import Verif.Proba
import Verif.Lemmas.Cover
/-
Calibration: which attributes are set, and that nothing else changes.
-/
namespace Witt
open Spec

/-- Calibration of a count pair with its smoothed rates. -/
def calibOf (alpha : Rat) (n p : Nat) : Calib :=
  { ns := some ((n : Int), (p : Int)),
    freqs := some (rateOrZero n ((n : Int) + p), rateOrZero p ((n : Int) + p)),
    smoothed := some (((n : Rat) + alpha) / ((n : Rat) + p + alpha * 2),
      ((p : Rat) + alpha) / ((n : Rat) + p + alpha * 2)) }

theorem calibrate_ok {alpha : Rat} (ha : 0 < alpha) (n p : Nat) (old : Calib) :
    calibrate alpha ((n : Int), (p : Int)) old = (calibOf alpha n p, none) := by
  unfold calibrate smoothedRates
  have : ¬ ((((n : Int) + (p : Int) : Int) : Rat) + alpha * 2 = 0) := by push_cast; positivity
  simp only [this, if_false]
  unfold calibOf
  push_cast
  rfl

theorem recalRule_conds (df : Frame) (cf : Feat) (pc : Val) (alpha : Rat) (r : Rule) :
    (recalRule df cf pc alpha r).1.conds = r.conds := by
  unfold recalRule
  split <;> rfl

theorem recalRules_conds (df : Frame) (cf : Feat) (pc : Val) (alpha : Rat) : ∀ rs : List Rule,
    (recalRules df cf pc alpha rs).1.map Rule.conds = rs.map Rule.conds
  | [] => rfl
  | r :: rs => by
    have ih := recalRules_conds df cf pc alpha rs
    have hr := recalRule_conds df cf pc alpha r
    unfold recalRules
    rcases h : recalRule df cf pc alpha r with ⟨r', o⟩
    rw [h] at hr
    cases o with
    | none => simp only [List.map_cons]; rw [ih]; simp only at hr; rw [hr]
    | some e => simp only [List.map_cons]; simp only at hr; rw [hr]

theorem recalibrate_conds (rs : Ruleset) (df : Frame) (cf : Feat) (pc : Val) (alpha : Rat) :
    (recalibrate rs df cf pc alpha).1.rules.map Rule.conds = rs.rules.map Rule.conds := by
  have h := recalRules_conds df cf pc alpha rs.rules
  unfold recalibrate
  split
  · rfl
  · rcases hr : recalRules df cf pc alpha rs.rules with ⟨rules, o⟩
    rw [hr] at h
    cases o with
    | some e => exact h
    | none =>
      simp only
      split <;> exact h

/-- Numbers of positive and of negative rows among those meeting the conditions. -/
def posIn (df : Frame) (cf : Feat) (pc : Val) (met : Row → Bool) : Nat :=
  ((df.rows.filter met).filter (fun r => (r.cell cf).pyEq pc)).length
def negIn (df : Frame) (cf : Feat) (pc : Val) (met : Row → Bool) : Nat :=
  ((df.rows.filter met).filter (fun r => !(r.cell cf).pyEq pc)).length

theorem filter_split_length {α : Type} (p : α → Bool) (l : List α) :
    (l.filter p).length + (l.filter (fun x => !p x)).length = l.length := by
  induction l with
  | nil => rfl
  | cons a l ih => simp only [List.filter_cons]; cases p a <;> simp <;> omega

theorem posIn_add_negIn (df : Frame) (cf : Feat) (pc : Val) (met : Row → Bool) :
    posIn df cf pc met + negIn df cf pc met = (df.rows.filter met).length :=
  filter_split_length _ _

/-- A rule with the attributes calibration gives it. -/
def recalOf (df : Frame) (cf : Feat) (pc : Val) (alpha : Rat) (r : Rule) : Rule :=
  { conds := r.conds,
    cal := calibOf alpha (negIn df cf pc (condsMet r.conds)) (posIn df cf pc (condsMet r.conds)) }

theorem recalRule_ok {df : Frame} {cf : Feat} {pc : Val} {alpha : Rat} (ha : 0 < alpha)
    (hcf : cf ∈ df.cols) {r : Rule} (hr : ∀ c ∈ r.conds, c.feature ∈ df.cols) :
    recalRule df cf pc alpha r =
      (recalOf df cf pc alpha r, none) := by
  unfold recalRule Rule.covers
  rw [condsCover_ok hr]
  simp only [ok_bind, numPos, Frame.keep, hcf, if_true, pure_eq_ok, posRows]
  have hsum := posIn_add_negIn df cf pc (condsMet r.conds)
  have e1 : ((df.rows.filter (condsMet r.conds)).length : Int) -
      (((df.rows.filter (condsMet r.conds)).filter (fun r => (r.cell cf).pyEq pc)).length : Int) =
      (negIn df cf pc (condsMet r.conds) : Int) := by
    rw [← hsum]; unfold posIn; push_cast; omega
  rw [e1]
  have := calibrate_ok ha (negIn df cf pc (condsMet r.conds)) (posIn df cf pc (condsMet r.conds)) r.cal
  unfold posIn at this
  rw [this]
  rfl

theorem recalRules_ok {df : Frame} {cf : Feat} {pc : Val} {alpha : Rat} (ha : 0 < alpha)
    (hcf : cf ∈ df.cols) : ∀ {rs : List Rule}, HasFeatures df rs →
    recalRules df cf pc alpha rs =
      (rs.map (recalOf df cf pc alpha), none)
  | [], _ => rfl
  | r :: rs, h => by
    unfold recalRules
    rw [recalRule_ok ha hcf (h r List.mem_cons_self)]
    simp only
    rw [recalRules_ok ha hcf (fun r' hr' => h r' (List.mem_cons_of_mem _ hr'))]
    rfl

theorem mem_selectedAux : ∀ (l seen : List Feat) f, f ∈ selectedAux seen l ↔ f ∈ l ∧ f ∉ seen
  | [], seen, f => by simp [selectedAux]
  | a :: l, seen, f => by
    unfold selectedAux
    split
    · rename_i h
      rw [mem_selectedAux l seen f]
      simp only [List.contains_iff_mem] at h
      constructor
      · rintro ⟨h1, h2⟩; exact ⟨List.mem_cons_of_mem _ h1, h2⟩
      · rintro ⟨h1, h2⟩
        rcases List.mem_cons.mp h1 with rfl | h1
        · exact absurd h h2
        · exact ⟨h1, h2⟩
    · rename_i h
      simp only [List.contains_iff_mem] at h
      rw [List.mem_cons, mem_selectedAux l (a :: seen) f]
      simp only [List.mem_cons, not_or]
      constructor
      · rintro (rfl | ⟨h1, h2, h3⟩)
        · exact ⟨Or.inl rfl, h⟩
        · exact ⟨Or.inr h1, h3⟩
      · rintro ⟨h1 | h1, h2⟩
        · exact Or.inl h1
        · by_cases hfa : f = a
          · exact Or.inl hfa
          · exact Or.inr ⟨h1, hfa, h2⟩

theorem mem_selectedFeatures {rs : Ruleset} {f : Feat} :
    f ∈ rs.selectedFeatures ↔ ∃ r ∈ rs.rules, ∃ c ∈ r.conds, c.feature = f := by
  unfold Ruleset.selectedFeatures
  rw [mem_selectedAux]
  simp

theorem features_ok_iff {rs : Ruleset} {df : Frame} :
    rs.selectedFeatures.any (fun f => !df.cols.contains f) = false ↔ HasFeatures df rs.rules := by
  rw [List.any_eq_false]
  simp only [Bool.not_eq_true', Bool.not_eq_false, List.contains_iff_mem]
  constructor
  · intro h r hr c hc
    exact by simpa using h _ (mem_selectedFeatures.mpr ⟨r, hr, c, hc, rfl⟩)
  · intro h f hf
    obtain ⟨r, hr, c, hc, rfl⟩ := mem_selectedFeatures.mp hf
    simpa using h r hr c hc

/-- Rows whose label is not the label of a covered row. -/
def rowUncovered (rs : List Rule) (df : Frame) (row : Row) : Bool :=
  !df.rows.any (fun row' => row'.label == row.label && rulesMet rs row')

theorem rulesMet_conds {a b : List Rule} (h : a.map Rule.conds = b.map Rule.conds) (row : Row) :
    rulesMet a row = rulesMet b row := by
  rw [Bool.eq_iff_iff, rulesMet_iff, rulesMet_iff]
  unfold FiresAny Fires
  have : ∀ cs, cs ∈ a.map Rule.conds ↔ cs ∈ b.map Rule.conds := fun cs => by rw [h]
  simp only [List.mem_map] at this
  constructor
  · rintro ⟨r, hr, hf⟩
    obtain ⟨s, hs, he⟩ := (this r.conds).mp ⟨r, hr, rfl⟩
    exact ⟨s, hs, by rw [he]; exact hf⟩
  · rintro ⟨r, hr, hf⟩
    obtain ⟨s, hs, he⟩ := (this r.conds).mpr ⟨r, hr, rfl⟩
    exact ⟨s, hs, by rw [he]; exact hf⟩

theorem hasFeatures_conds {df : Frame} {a b : List Rule} (h : a.map Rule.conds = b.map Rule.conds)
    (hf : HasFeatures df b) : HasFeatures df a := by
  intro r hr c hc
  have : r.conds ∈ a.map Rule.conds := List.mem_map.mpr ⟨r, hr, rfl⟩
  rw [h] at this
  obtain ⟨s, hs, he⟩ := List.mem_map.mp this
  exact hf s hs c (by rw [he]; exact hc)

/-- Calibration in closed form: when it succeeds (all features present, `alpha > 0`). -/
theorem recalibrate_ok {rs : Ruleset} {df : Frame} {cf : Feat} {pc : Val} {alpha : Rat} (ha : 0 < alpha)
    (hcf : cf ∈ df.cols) (hf : HasFeatures df rs.rules) :
    recalibrate rs df cf pc alpha =
      ({ rs with
          rules := rs.rules.map (recalOf df cf pc alpha),
          uncov := calibOf alpha (negIn df cf pc (rowUncovered rs.rules df))
            (posIn df cf pc (rowUncovered rs.rules df)) }, none) := by
  have hs := features_ok_iff.mpr hf
  unfold recalibrate
  simp only [hs, Bool.false_eq_true, if_false]
  rw [recalRules_ok ha hcf hf]
  simp only
  let rules' : List Rule := rs.rules.map (recalOf df cf pc alpha)
  have hc : rules'.map Rule.conds = rs.rules.map Rule.conds := by
    simp [rules', Function.comp_def, recalOf]
  obtain ⟨d, hd, hcols, hrows⟩ := Ruleset.covers_ok (rs := { rs with rules := rules' }) (df := df)
    (Or.inr (hasFeatures_conds hc hf))
  have hd' : Ruleset.covers { rules := rules', uncov := rs.uncov, possible := rs.possible } df = .ok d := hd
  simp only [rules'] at hd'
  simp only [hd', ok_bind, Frame.dropLabels, numNeg, Frame.keep, hcf, if_true, pure_eq_ok, negRows]
  have hun : ∀ row, (!d.index.contains row.label) = rowUncovered rs.rules df row := by
    intro row
    unfold rowUncovered
    congr 1
    rw [Bool.eq_iff_iff]
    simp only [Frame.index, List.contains_iff_mem, List.mem_map, List.any_eq_true, Bool.and_eq_true, beq_iff_eq]
    constructor
    · rintro ⟨x, hx, he⟩
      obtain ⟨h1, h2⟩ := (hrows x).mp hx
      exact ⟨x, h1, he, by rw [← rulesMet_conds hc]; exact h2⟩
    · rintro ⟨x, hx, he, hm⟩
      exact ⟨x, (hrows x).mpr ⟨hx, by rw [rulesMet_conds hc]; exact hm⟩, he⟩
  have hfil : (df.rows.filter fun r => !d.index.contains r.label) = df.rows.filter (rowUncovered rs.rules df) :=
    List.filter_congr (fun x _ => hun x)
  rw [hfil]
  have hsum := posIn_add_negIn df cf pc (rowUncovered rs.rules df)
  have e1 : ((df.rows.filter (rowUncovered rs.rules df)).length : Int) -
      (((df.rows.filter (rowUncovered rs.rules df)).filter (fun r => !(r.cell cf).pyEq pc)).length : Int) =
      (posIn df cf pc (rowUncovered rs.rules df) : Int) := by
    rw [← hsum]; unfold negIn; push_cast; omega
  rw [e1]
  have := calibrate_ok ha (negIn df cf pc (rowUncovered rs.rules df))
    (posIn df cf pc (rowUncovered rs.rules df)) rs.uncov
  unfold negIn at this
  rw [this]
  rfl

theorem recalibrate_missing {rs : Ruleset} {df : Frame} {cf : Feat} {pc : Val} {alpha : Rat}
    (hf : ¬ HasFeatures df rs.rules) : recalibrate rs df cf pc alpha = (rs, some .indexError) := by
  have : rs.selectedFeatures.any (fun f => !df.cols.contains f) = true := by
    rw [← Bool.not_eq_false, features_ok_iff]; exact hf
  unfold recalibrate
  rw [if_pos this]

theorem rowUncovered_unique {df : Frame} (hu : df.UniqueIndex) {rs : List Rule} {row : Row}
    (hrow : row ∈ df.rows) : rowUncovered rs df row = !rulesMet rs row := by
  unfold rowUncovered
  congr 1
  rw [Bool.eq_iff_iff]
  simp only [List.any_eq_true, Bool.and_eq_true, beq_iff_eq]
  constructor
  · rintro ⟨x, hx, he, hm⟩
    rw [← row_eq_of_label hu hx hrow he]; exact hm
  · intro h; exact ⟨row, hrow, rfl, h⟩

/-- A pair of strictly positive rates adding up to one. -/
def IsDist (p : Rat × Rat) : Prop := 0 < p.1 ∧ p.1 < 1 ∧ 0 < p.2 ∧ p.2 < 1 ∧ p.1 + p.2 = 1

theorem calibOf_dist {alpha : Rat} (ha : 0 < alpha) (n p : Nat) :
    ∃ s, (calibOf alpha n p).smoothed = some s ∧ IsDist s := by
  refine ⟨_, rfl, ?_⟩
  have hn : (0 : Rat) ≤ n := by positivity
  have hpp : (0 : Rat) ≤ p := by positivity
  have hd : (0 : Rat) < (n : Rat) + p + alpha * 2 := by positivity
  have h1 : (0 : Rat) < ((n : Rat) + alpha) / ((n : Rat) + p + alpha * 2) := by positivity
  have h2 : (0 : Rat) < ((p : Rat) + alpha) / ((n : Rat) + p + alpha * 2) := by positivity
  have h3 : ((n : Rat) + alpha) / ((n : Rat) + p + alpha * 2) + ((p : Rat) + alpha) / ((n : Rat) + p + alpha * 2) = 1 := by
    rw [← add_div, div_eq_one_iff_eq (ne_of_gt hd)]; ring
  exact ⟨h1, by linarith, h2, by linarith, h3⟩

/-- The weighted average of distributions is their mean. -/
theorem weightedAvg_dist {ps : List (Rat × Rat)} (hne : ps ≠ []) (h : ∀ p ∈ ps, IsDist p) :
    weightedAvg ps = ((ps.map Prod.fst).sum / ps.length, (ps.map Prod.snd).sum / ps.length) ∧
    IsDist (weightedAvg ps) := by
  have hsum : ∀ l : List (Rat × Rat), (∀ p ∈ l, IsDist p) → 0 ≤ (l.map Prod.fst).sum ∧ 0 ≤ (l.map Prod.snd).sum ∧
      (l.map Prod.fst).sum + (l.map Prod.snd).sum = l.length := by
    intro l
    induction l with
    | nil => intro _; simp
    | cons a l ih =>
      intro hl
      obtain ⟨i1, i2, i3⟩ := ih (fun p hp => hl p (List.mem_cons_of_mem _ hp))
      obtain ⟨a1, a2, a3, a4, a5⟩ := hl a List.mem_cons_self
      simp only [List.map_cons, List.sum_cons, List.length_cons]
      push_cast
      exact ⟨by linarith, by linarith, by linarith⟩
  obtain ⟨a, l, rfl⟩ := List.exists_cons_of_ne_nil hne
  obtain ⟨s1, s2, s3⟩ := hsum (a :: l) h
  obtain ⟨t1, t2, t3⟩ := hsum l (fun p hp => h p (List.mem_cons_of_mem _ hp))
  obtain ⟨a1, a2, a3, a4, a5⟩ := h a List.mem_cons_self
  have hlen : (0 : Rat) < ((a :: l).length : Rat) := by simp only [List.length_cons]; positivity
  have hx : (0 : Rat) < ((a :: l).map Prod.fst).sum := by
    simp only [List.map_cons, List.sum_cons]; linarith
  have hy : (0 : Rat) < ((a :: l).map Prod.snd).sum := by
    simp only [List.map_cons, List.sum_cons]; linarith
  have heq : weightedAvg (a :: l) = (((a :: l).map Prod.fst).sum / ((a :: l).length : Rat),
      ((a :: l).map Prod.snd).sum / ((a :: l).length : Rat)) := by
    unfold weightedAvg
    simp only
    rw [s3]
    simp only [ne_of_gt hlen, if_false]
  refine ⟨heq, ?_⟩
  rw [heq]
  refine ⟨by positivity, ?_, by positivity, ?_, ?_⟩
  · simp only; rw [div_lt_one hlen]; linarith
  · simp only; rw [div_lt_one hlen]; linarith
  · simp only; rw [← add_div, s3, div_self (ne_of_gt hlen)]

end Witt
