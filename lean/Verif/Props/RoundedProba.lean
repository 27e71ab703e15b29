import Verif.ProbaRounded
import Verif.Props.Rounding
import Verif.Props.ProbaApi
/-
C96: probabilities computed in floating point.
-/
namespace Witt
open Spec

namespace Spec
/-- `x` and `y` agree up to `d` roundings: either is at least `(1 - u)^d` times the other. -/
def Close (u : ℝ) (d : Nat) (x y : ℝ) : Prop := y * (1 - u) ^ d ≤ x ∧ x * (1 - u) ^ d ≤ y
/-- `q` is the distribution `p` up to relative errors of at most `e`: two positive numbers that nearly add up to one. -/
def NearDist (e : ℝ) (q p : Rat × Rat) : Prop :=
  Distribution p ∧ 0 < q.1 ∧ 0 < q.2 ∧ |(q.1 : ℝ) - p.1| ≤ e * p.1 ∧ |(q.2 : ℝ) - p.2| ≤ e * p.2 ∧ |(q.1 : ℝ) + q.2 - 1| ≤ e
end Spec

namespace Rounding
variable (r : Rounding)

theorem v_pos : 0 < 1 - r.u := by linarith [r.u_le]
theorem v_le : 1 - r.u ≤ 1 := by linarith [r.u_pos]
theorem vpow_pos (d : Nat) : 0 < (1 - r.u) ^ d := pow_pos r.v_pos d
theorem vpow_le (d : Nat) : (1 - r.u) ^ d ≤ 1 := pow_le_one₀ r.v_pos.le r.v_le
variable {r}

theorem close_refl {x : ℝ} (h : 0 ≤ x) (d : Nat) : Close r.u d x x :=
  ⟨mul_le_of_le_one_right h (r.vpow_le d), mul_le_of_le_one_right h (r.vpow_le d)⟩

theorem close_symm {d : Nat} {x y : ℝ} (h : Close r.u d x y) : Close r.u d y x := ⟨h.2, h.1⟩

theorem close_trans {d e : Nat} {x y z : ℝ} (h1 : Close r.u d x y) (h2 : Close r.u e y z) : Close r.u (d + e) x z := by
  have p1 := r.vpow_pos d
  have p2 := r.vpow_pos e
  constructor
  · calc z * (1 - r.u) ^ (d + e) = z * (1 - r.u) ^ e * (1 - r.u) ^ d := by rw [pow_add]; ring
      _ ≤ y * (1 - r.u) ^ d := mul_le_mul_of_nonneg_right h2.1 p1.le
      _ ≤ x := h1.1
  · calc x * (1 - r.u) ^ (d + e) = x * (1 - r.u) ^ d * (1 - r.u) ^ e := by rw [pow_add]; ring
      _ ≤ y * (1 - r.u) ^ e := mul_le_mul_of_nonneg_right h1.2 p2.le
      _ ≤ z := h2.2

theorem close_le {d e : Nat} (hde : d ≤ e) {x y : ℝ} (_hx : 0 ≤ x) (hy : 0 ≤ y) (h : Close r.u d x y) : Close r.u e x y := by
  obtain ⟨k, rfl⟩ := Nat.exists_eq_add_of_le hde
  exact close_trans h (close_refl hy k)

theorem close_add {d : Nat} {x y x' y' : ℝ} (h : Close r.u d x y) (h' : Close r.u d x' y') : Close r.u d (x + x') (y + y') := by
  constructor
  · rw [add_mul]; exact add_le_add h.1 h'.1
  · rw [add_mul]; exact add_le_add h.2 h'.2

theorem close_div {d e : Nat} {x y a b : ℝ} (hx : 0 ≤ x) (hy : 0 ≤ y) (ha : 0 < a) (hb : 0 < b) (h : Close r.u d x y) (h' : Close r.u e a b) :
    Close r.u (d + e) (x / a) (y / b) := by
  have p1 := r.vpow_pos d
  have p2 := r.vpow_pos e
  constructor
  · rw [pow_add, div_mul_eq_mul_div, div_le_div_iff₀ hb ha]
    calc y * ((1 - r.u) ^ d * (1 - r.u) ^ e) * a = (y * (1 - r.u) ^ d) * (a * (1 - r.u) ^ e) := by ring
      _ ≤ x * b := mul_le_mul h.1 h'.2 (mul_nonneg ha.le p2.le) hx
  · rw [pow_add, div_mul_eq_mul_div, div_le_div_iff₀ ha hb]
    calc x * ((1 - r.u) ^ d * (1 - r.u) ^ e) * b = (x * (1 - r.u) ^ d) * (b * (1 - r.u) ^ e) := by ring
      _ ≤ y * a := mul_le_mul h.2 h'.1 (mul_nonneg hb.le p2.le) hy

theorem close_fl {x : ℝ} (h : r.least ≤ x) : Close r.u 1 (r.fl x) x := by
  have hx : 0 < x := lt_of_lt_of_le r.least_pos h
  have h1 := r.le_fl h
  have h2 := r.fl_le h
  rw [Close, pow_one]
  refine ⟨by linarith, ?_⟩
  calc (r.fl x : ℝ) * (1 - r.u) ≤ ((1 + r.u) * x) * (1 - r.u) := mul_le_mul_of_nonneg_right h2 r.v_pos.le
    _ = x - r.u ^ 2 * x := by ring
    _ ≤ x := by have : 0 ≤ r.u ^ 2 * x := by positivity
                linarith

/-- Rounded and exact sums. -/
theorem sumsTo_close {l : List Rat} {s : Rat} (h : r.SumsTo l s) {L : ℝ} (hL : r.least ≤ L) : l ≠ [] → (∀ x ∈ l, L ≤ (x : ℝ)) →
    L ≤ s ∧ Close r.u (l.length - 1) s (l.sum : Rat) := by
  have hL0 : 0 < L := lt_of_lt_of_le r.least_pos hL
  induction h with
  | none => intro h; exact absurd rfl h
  | one x =>
    intro _ hx
    have := hx x (by simp)
    refine ⟨this, ?_⟩
    simp only [List.sum_cons, List.sum_nil, add_zero]
    exact close_refl (by linarith) _
  | @add a b x y ha hb _ _ iha ihb =>
    intro _ hx
    obtain ⟨l1, c1⟩ := iha ha (fun z hz => hx z (by simp [hz]))
    obtain ⟨l2, c2⟩ := ihb hb (fun z hz => hx z (by simp [hz]))
    have hle : r.least ≤ (x : ℝ) + y := by linarith
    have hf := r.le_fl hle
    refine ⟨?_, ?_⟩
    · have : (1 - r.u) * ((x : ℝ) + y) ≥ 3 / 4 * (2 * L) := by
        have : (3 / 4 : ℝ) ≤ 1 - r.u := by linarith [r.u_le]
        exact mul_le_mul this (by linarith) (by linarith) r.v_pos.le
      linarith
    · have n1 : a.length ≠ 0 := by simpa using ha
      have n2 : b.length ≠ 0 := by simpa using hb
      have s1 : 0 ≤ ((a.sum : Rat) : ℝ) := by
        have : 0 ≤ (x : ℝ) * (1 - r.u) ^ (a.length - 1) := mul_nonneg (by linarith) (r.vpow_pos _).le
        linarith [c1.2]
      have s2 : 0 ≤ ((b.sum : Rat) : ℝ) := by
        have : 0 ≤ (y : ℝ) * (1 - r.u) ^ (b.length - 1) := mul_nonneg (by linarith) (r.vpow_pos _).le
        linarith [c2.2]
      have k1 : Close r.u (a.length + b.length - 2) x (a.sum : Rat) := close_le (by omega) (by linarith) s1 c1
      have k2 : Close r.u (a.length + b.length - 2) y (b.sum : Rat) := close_le (by omega) (by linarith) s2 c2
      have := close_trans (close_fl hle) (close_add k1 k2)
      rw [List.sum_append, List.length_append, Rat.cast_add]
      rwa [show 1 + (a.length + b.length - 2) = a.length + b.length - 1 by omega] at this
  | @reorder a b x hp _ ih =>
    intro hne hx
    have := ih (fun e => hne (by rw [e] at hp; exact hp.eq_nil)) (fun z hz => hx z (hp.mem_iff.mpr hz))
    rw [hp.length_eq, hp.sum_eq]
    exact this

/-- Sums of close numbers. -/
theorem close_sum {d : Nat} : ∀ {l : List (Rat × Rat)}, (∀ p ∈ l, Close r.u d p.1 p.2) →
    Close r.u d ((l.map Prod.fst).sum : Rat) ((l.map Prod.snd).sum : Rat)
  | [], _ => by simp [Close]
  | p :: l, h => by
    have := close_add (h p (by simp)) (close_sum (l := l) (fun q hq => h q (by simp [hq])))
    simp only [List.map_cons, List.sum_cons]
    rw [Rat.cast_add, Rat.cast_add]
    exact this

/-- `(1 - u)^d` is not less than `1 - d u`. -/
theorem vpow_ge (d : Nat) : 1 - d * r.u ≤ (1 - r.u) ^ d := by
  have := one_add_mul_le_pow (a := -r.u) (by linarith [r.u_le]) d
  have e : (1 + -r.u) = 1 - r.u := by ring
  rw [e] at this
  linarith

/-- In absolute terms. -/
theorem close_abs {d : Nat} {x y : ℝ} (hx : 0 ≤ x) (hy : 0 ≤ y) (hd : d * r.u ≤ 1 / 2) (h : Close r.u d x y) :
    |x - y| ≤ 2 * d * r.u * y := by
  have hv := r.vpow_ge d
  have h1 : y * (1 - d * r.u) ≤ x := le_trans (mul_le_mul_of_nonneg_left hv hy) h.1
  have h2 : x * (1 - d * r.u) ≤ y := le_trans (mul_le_mul_of_nonneg_left hv hx) h.2
  have hdu : 0 ≤ d * r.u := mul_nonneg (Nat.cast_nonneg _) r.u_pos.le
  have h3 : x ≤ 2 * y := by
    have : x * (1 / 2) ≤ x * (1 - d * r.u) := mul_le_mul_of_nonneg_left (by linarith) hx
    linarith
  have h4 : d * r.u * x ≤ d * r.u * (2 * y) := mul_le_mul_of_nonneg_left h3 hdu
  have h5 : 0 ≤ d * r.u * y := mul_nonneg hdu hy
  rw [abs_le]
  constructor <;> nlinarith
end Rounding

/-! ### calibration with another arithmetic -/

/-- A calibration with its rates computed again, from its counts, with the arithmetic `A`. -/
def Calib.rerated (A : ProbaArith) (alpha : Rat) (c : Calib) : Calib :=
  match c.ns with
  | none => c
  | some ns => { ns := some ns, freqs := some (A.rate ns.1 (ns.1 + ns.2), A.rate ns.2 (ns.1 + ns.2)), smoothed := (A.rates alpha ns).toOption }
def Rule.rerated (A : ProbaArith) (alpha : Rat) (r : Rule) : Rule := { r with cal := r.cal.rerated A alpha }
def Ruleset.rerated (A : ProbaArith) (alpha : Rat) (rs : Ruleset) : Ruleset :=
  { rs with rules := rs.rules.map (Rule.rerated A alpha), uncov := rs.uncov.rerated A alpha }
def Fitted.rerated (A : ProbaArith) (alpha : Rat) (m : Fitted) : Fitted := { m with ruleset := m.ruleset.rerated A alpha }

/-- The arithmetic computes rates for up to `M` examples. -/
def ProbaArith.Rates (A : ProbaArith) (alpha : Rat) (M : Nat) : Prop := ∀ n p : Nat, n + p ≤ M → ∃ s, A.rates alpha ((n : Int), (p : Int)) = .ok s

theorem calibrateWith_ok {A : ProbaArith} {alpha : Rat} {M : Nat} (hA : A.Rates alpha M) {n p : Nat} (hn : n + p ≤ M) (old : Calib) :
    calibrateWith A alpha ((n : Int), (p : Int)) old = ((calibOf alpha n p).rerated A alpha, none) := by
  obtain ⟨s, hs⟩ := hA n p hn
  unfold calibrateWith Calib.rerated calibOf
  simp only [hs]
  rfl

theorem posIn_le {df : Frame} {cf : Feat} {pc : Val} {met : Row → Bool} : negIn df cf pc met + posIn df cf pc met ≤ df.rows.length := by
  rw [add_comm, posIn_add_negIn]; exact List.length_filter_le _ _

theorem recalRuleWith_ok {A : ProbaArith} {df : Frame} {cf : Feat} {pc : Val} {alpha : Rat} (hA : A.Rates alpha df.rows.length)
    (hcf : cf ∈ df.cols) {r : Rule} (hr : ∀ c ∈ r.conds, c.feature ∈ df.cols) :
    recalRuleWith A df cf pc alpha r = ((recalOf df cf pc alpha r).rerated A alpha, none) := by
  unfold recalRuleWith Rule.covers
  rw [condsCover_ok hr]
  simp only [ok_bind, numPos, Frame.keep, hcf, if_true, pure_eq_ok, posRows]
  have hsum := posIn_add_negIn df cf pc (condsMet r.conds)
  have e1 : ((df.rows.filter (condsMet r.conds)).length : Int) -
      (((df.rows.filter (condsMet r.conds)).filter (fun r => (r.cell cf).pyEq pc)).length : Int) =
      (negIn df cf pc (condsMet r.conds) : Int) := by
    rw [← hsum]; unfold posIn; push_cast; omega
  rw [e1]
  have := calibrateWith_ok hA (posIn_le (df := df) (cf := cf) (pc := pc) (met := condsMet r.conds)) r.cal
  unfold posIn at this
  rw [this]
  rfl

theorem recalRulesWith_ok {A : ProbaArith} {df : Frame} {cf : Feat} {pc : Val} {alpha : Rat} (hA : A.Rates alpha df.rows.length)
    (hcf : cf ∈ df.cols) : ∀ {rs : List Rule}, HasFeatures df rs →
    recalRulesWith A df cf pc alpha rs = ((rs.map (recalOf df cf pc alpha)).map (Rule.rerated A alpha), none)
  | [], _ => rfl
  | r :: rs, h => by
    unfold recalRulesWith
    rw [recalRuleWith_ok hA hcf (h r List.mem_cons_self)]
    simp only
    rw [recalRulesWith_ok hA hcf (fun r' hr' => h r' (List.mem_cons_of_mem _ hr'))]
    rfl

/-- Calibration with another arithmetic counts the same. -/
theorem recalibrateWith_eq {A : ProbaArith} {rs : Ruleset} {df : Frame} {cf : Feat} {pc : Val} {alpha : Rat} (ha : 0 < alpha)
    (hA : A.Rates alpha df.rows.length) (hcf : cf ∈ df.cols) (hf : HasFeatures df rs.rules) :
    recalibrateWith A rs df cf pc alpha = ((recalibrate rs df cf pc alpha).1.rerated A alpha, none) := by
  rw [recalibrate_ok ha hcf hf]
  have hs := features_ok_iff.mpr hf
  unfold recalibrateWith
  simp only [hs, Bool.false_eq_true, if_false]
  rw [recalRulesWith_ok hA hcf hf]
  simp only
  let rules' : List Rule := (rs.rules.map (recalOf df cf pc alpha)).map (Rule.rerated A alpha)
  have hc : rules'.map Rule.conds = rs.rules.map Rule.conds := by
    simp [rules', Function.comp_def, recalOf, Rule.rerated]
  obtain ⟨d, hd, hcols, hrows⟩ := Ruleset.covers_ok (rs := { rs with rules := rules' }) (df := df)
    (Or.inr (hasFeatures_conds hc hf))
  have hd' : Ruleset.covers { rules := rules', uncov := rs.uncov, possible := rs.possible } df = .ok d := hd
  simp only [rules'] at hd'
  simp only [hd', ok_bind, Frame.dropLabels, numNeg, Frame.keep, hcf, if_true, pure_eq_ok, negRows]
  have hun : ∀ row, (!d.index.contains row.label) = rowUncovered rs.rules df row := by
    intro row
    unfold rowUncovered
    congr 1
    rw [Bool.eq_iff_iff]
    simp only [Frame.index, List.contains_iff_mem, List.mem_map, List.any_eq_true, Bool.and_eq_true, beq_iff_eq]
    constructor
    · rintro ⟨x, hx, he⟩
      obtain ⟨h1, h2⟩ := (hrows x).mp hx
      exact ⟨x, h1, he, by rw [← rulesMet_conds hc]; exact h2⟩
    · rintro ⟨x, hx, he, hm⟩
      exact ⟨x, (hrows x).mpr ⟨hx, by rw [rulesMet_conds hc]; exact hm⟩, he⟩
  have hfil : (df.rows.filter fun r => !d.index.contains r.label) = df.rows.filter (rowUncovered rs.rules df) :=
    List.filter_congr (fun x _ => hun x)
  rw [hfil]
  have hsum := posIn_add_negIn df cf pc (rowUncovered rs.rules df)
  have e1 : ((df.rows.filter (rowUncovered rs.rules df)).length : Int) -
      (((df.rows.filter (rowUncovered rs.rules df)).filter (fun r => !(r.cell cf).pyEq pc)).length : Int) =
      (posIn df cf pc (rowUncovered rs.rules df) : Int) := by
    rw [← hsum]; unfold negIn; push_cast; omega
  rw [e1]
  have := calibrateWith_ok hA (posIn_le (df := df) (cf := cf) (pc := pc) (met := rowUncovered rs.rules df)) rs.uncov
  unfold negIn at this
  rw [this]
  rfl

theorem recalibrateWith_missing {A : ProbaArith} {rs : Ruleset} {df : Frame} {cf : Feat} {pc : Val} {alpha : Rat}
    (hf : ¬ HasFeatures df rs.rules) : recalibrateWith A rs df cf pc alpha = (rs, some .indexError) := by
  have : rs.selectedFeatures.any (fun f => !df.cols.contains f) = true := by
    rw [← Bool.not_eq_false, features_ok_iff]; exact hf
  unfold recalibrateWith
  rw [if_pos this]

/-- As a step of `fit`. -/
theorem recalibrateWith_raise {A : ProbaArith} {rs : Ruleset} {df : Frame} {cf : Feat} {pc : Val} {alpha : Rat} (ha : 0 < alpha)
    (hA : A.Rates alpha df.rows.length) (hcf : cf ∈ df.cols) :
    (match recalibrateWith A rs df cf pc alpha with | (rs, e) => raiseIf rs e) =
      (match recalibrate rs df cf pc alpha with | (rs, e) => raiseIf rs e).map (Ruleset.rerated A alpha) := by
  by_cases hf : HasFeatures df rs.rules
  · rw [recalibrateWith_eq ha hA hcf hf, recalibrate_ok ha hcf hf]; rfl
  · rw [recalibrateWith_missing hf, recalibrate_missing hf]; rfl

theorem removeDups_rerated (A : ProbaArith) (alpha : Rat) (l : List Rule) :
    removeDups Rule.sameKey (l.map (Rule.rerated A alpha)) = (removeDups Rule.sameKey l).map (Rule.rerated A alpha) :=
  (removeDupsAux_map (Rule.rerated A alpha) Rule.sameKey Rule.sameKey (fun _ _ => rfl) l []).symm

theorem trimRules_rerated (A : ProbaArith) (alpha : Rat) (m : Option Int) (l : List Rule) :
    trimRules (fun r : Rule => r.conds.length) m (l.map (Rule.rerated A alpha)) =
      (trimRules (fun r : Rule => r.conds.length) m l).map (Rule.rerated A alpha) := by
  cases m with
  | none => rfl
  | some m =>
    simp only [trimRules]
    rw [trimAux_map (Rule.rerated A alpha) (fun r : Rule => r.conds.length) (fun r : Rule => r.conds.length) (fun _ => rfl), List.length_map]

/-- `Method.train` with the arithmetic `A` in its calibration. -/
def Method.trainWith [Arith] (A : ProbaArith) (a : Method) (fuel : Nat) (R : PyRandom) (hp : Hyper) (old : Option (List Cond)) (init : List (List Cond))
    (df : Frame) (cf : Feat) (pc : Val) (g : R.G) : Except PyErr (Fitted × R.G) :=
  match a with
  | .irep => irepFitWith A fuel R hp init df cf pc g
  | .ripper => ripperFitWith A fuel R hp init df cf pc g
  | .irepPlain S => irepFitPlainWith A fuel R S hp old init df cf pc g
  | .ripperPlain S => ripperFitPlainWith A fuel R S hp old init df cf pc g

/-- Training with another arithmetic in the calibration learns the same rules. -/
theorem Method.trainWith_eq [Arith] {A : ProbaArith} {a : Method} {fuel : Nat} {R : PyRandom} {hp : Hyper} (ha : 0 < hp.alpha)
    {old : Option (List Cond)} {init : List (List Cond)} {df : Frame} (hA : A.Rates hp.alpha df.rows.length) {cf : Feat} {pc : Val} {g : R.G} :
    a.trainWith A fuel R hp old init df cf pc g =
      (a.train fuel R hp old init df cf pc g).map (fun mg => (mg.1.rerated A hp.alpha, mg.2)) := by
  cases a with
  | irep =>
    simp only [trainWith, train, irepFitWith, irepFit]
    split
    · rfl
    · split
      · rfl
      · rename_i hcf
        rw [not_not] at hcf
        cases CatNap.build df cf with
        | error e => rfl
        | ok cn =>
          simp only [ok_bind]
          cases irepGrowCn fuel R cn hp init (labelSet (posRows df cf pc).index) (labelSet (negRows df cf pc).index) g with
          | error e => rfl
          | ok st =>
            simp only [ok_bind, recalibrateWith_raise ha hA hcf]
            generalize recalibrate _ df cf pc hp.alpha = q
            obtain ⟨rs, e⟩ := q
            cases e with
            | some e => rfl
            | none =>
              simp only [raiseIf, Except.map, ok_bind, Ruleset.trimConds, Ruleset.rerated, removeDups_rerated, trimRules_rerated]
              rfl
  | ripper =>
    simp only [trainWith, train, ripperFitWith, ripperFit]
    split
    · rfl
    · split
      · rfl
      · rename_i hcf
        rw [not_not] at hcf
        cases CatNap.build df cf with
        | error e => rfl
        | ok cn =>
          simp only [ok_bind]
          cases ripperStages fuel R cn hp init (labelSet (posRows df cf pc).index) (labelSet (negRows df cf pc).index) g with
          | error e => rfl
          | ok st =>
            simp only [ok_bind, recalibrateWith_raise ha hA hcf]
            generalize recalibrate _ df cf pc hp.alpha = q
            obtain ⟨rs, e⟩ := q
            cases e <;> rfl
  | irepPlain S =>
    simp only [trainWith, train, irepFitPlainWith, irepFitPlain]
    split
    · rfl
    · split
      · rfl
      · rename_i hcf
        rw [not_not] at hcf
        generalize updatedConds S old (posExamples df cf pc) (negExamples df cf pc) = cands
        cases irepGrow fuel R cands hp init (posExamples df cf pc) (negExamples df cf pc) g with
        | error e => rfl
        | ok st =>
          simp only [ok_bind, recalibrateWith_raise ha hA hcf]
          generalize recalibrate _ df cf pc hp.alpha = q
          obtain ⟨rs, e⟩ := q
          cases e with
          | some e => rfl
          | none =>
            simp only [raiseIf, Except.map, ok_bind, Ruleset.trimConds, Ruleset.rerated, removeDups_rerated, trimRules_rerated]
            rfl
  | ripperPlain S =>
    simp only [trainWith, train, ripperFitPlainWith, ripperFitPlain]
    split
    · rfl
    · split
      · rfl
      · rename_i hcf
        rw [not_not] at hcf
        cases ripperStagesDf fuel R S hp old init (posExamples df cf pc) (negExamples df cf pc) g with
        | error e => rfl
        | ok st =>
          simp only [ok_bind, recalibrateWith_raise ha hA hcf]
          generalize recalibrate _ df cf pc hp.alpha = q
          obtain ⟨rs, e⟩ := q
          cases e <;> rfl

/-! ### rounded rates and averages -/

/-- The attributes calibration with `alpha` sets for at most `M` examples. -/
def Calib.Counted (alpha : Rat) (M : Nat) (c : Calib) : Prop := ∃ n p : Nat, c = calibOf alpha n p ∧ n + p ≤ M

theorem recalibrate_counted {rs rs' : Ruleset} {df : Frame} {cf : Feat} {pc : Val} {alpha : Rat} (ha : 0 < alpha) (hcf : cf ∈ df.cols)
    (h : recalibrate rs df cf pc alpha = (rs', none)) :
    (∀ r ∈ rs'.rules, r.cal.Counted alpha df.rows.length) ∧ rs'.uncov.Counted alpha df.rows.length := by
  have hfc := hasFeatures_of_recal h
  rw [recalibrate_ok ha hcf hfc] at h
  simp only [Prod.mk.injEq, and_true] at h
  subst h
  refine ⟨fun r hr => ?_, _, _, rfl, posIn_le⟩
  obtain ⟨r0, _, rfl⟩ := List.mem_map.mp hr
  exact ⟨_, _, rfl, posIn_le⟩

theorem Method.train_counted [Arith] {a : Method} {fuel : Nat} {R : PyRandom} {hp : Hyper} (ha : 0 < hp.alpha) {old : Option (List Cond)}
    {init : List (List Cond)} {df : Frame} {cf : Feat} (hcf : cf ∈ df.cols) {pc : Val} {g g' : R.G} {m : Fitted}
    (h : a.train fuel R hp old init df cf pc g = .ok (m, g')) :
    (∀ r ∈ m.ruleset.rules, r.cal.Counted hp.alpha df.rows.length) ∧ m.ruleset.uncov.Counted hp.alpha df.rows.length := by
  cases a with
  | irep =>
    obtain ⟨_, cn, st, _, _, _, _, _, ⟨rs1, hrec, hsub, hunc⟩, _⟩ := irepFit_ok h
    obtain ⟨h1, h2⟩ := recalibrate_counted ha hcf hrec
    exact ⟨fun r hr => h1 r (hsub r hr), by rw [hunc]; exact h2⟩
  | ripper =>
    obtain ⟨_, cn, rules, _, _, _, _, _, rs0, _, hrec⟩ := ripperFit_ok h
    exact recalibrate_counted ha hcf hrec
  | irepPlain S =>
    obtain ⟨_, _, st, _, _, _, _, ⟨rs1, hrec, hsub, hunc⟩, _⟩ := irepFitPlain_ok h
    obtain ⟨h1, h2⟩ := recalibrate_counted ha hcf hrec
    exact ⟨fun r hr => h1 r (hsub r hr), by rw [hunc]; exact h2⟩
  | ripperPlain S =>
    obtain ⟨_, _, rules, _, _, _, _, rs0, _, hrec⟩ := ripperFitPlain_ok h
    exact recalibrate_counted ha hcf hrec

namespace Rounding
variable {r : Rounding}

/-- A smoothing constant, together with the number of examples, that keeps all rates normal numbers. -/
def Moderate (r : Rounding) (alpha : Rat) : Prop := 0 < alpha ∧ 8 * r.least * (r.N + 1 + 2 * alpha) ≤ (alpha : ℝ)

theorem Moderate.pos {alpha : Rat} (h : r.Moderate alpha) : (0 : ℝ) < alpha := by exact_mod_cast h.1

theorem Moderate.least {alpha : Rat} (h : r.Moderate alpha) : 8 * r.least ≤ (alpha : ℝ) := by
  have h1 := h.pos
  have h2 := h.2
  have h3 : (0 : ℝ) ≤ r.N := Nat.cast_nonneg _
  have h4 : 8 * r.least * 1 ≤ 8 * r.least * (r.N + 1 + 2 * alpha) :=
    mul_le_mul_of_nonneg_left (by linarith) (by linarith [r.least_pos])
  linarith

/-- One rounded rate: `k` of `t` examples. -/
theorem rate_close {alpha : Rat} (h : r.Moderate alpha) {k t : Nat} (ht : t ≤ r.N) (hk : k ≤ t) :
    let denom := r.fl (r.fl ((t : Int) : ℝ) + r.fl (alpha * (2 : ℝ)))
    denom ≠ 0 ∧ 8 * r.least ≤ (((k : Rat) + alpha) / ((t : Rat) + 2 * alpha) : Rat) ∧
    2 * r.least ≤ (r.fl (r.fl (r.fl ((k : Int) : ℝ) + alpha) / denom) : ℝ) ∧
    Close r.u 4 (r.fl (r.fl (r.fl ((k : Int) : ℝ) + alpha) / denom)) ((((k : Rat) + alpha) / ((t : Rat) + 2 * alpha) : Rat)) := by
  intro denom
  have ha := h.pos
  have hl := h.least
  have lp := r.least_pos
  have hk0 : (0 : ℝ) ≤ k := Nat.cast_nonneg _
  have ht0 : (0 : ℝ) ≤ t := Nat.cast_nonneg _
  have htN : (t : ℝ) ≤ r.N := by exact_mod_cast ht
  have fk : r.fl ((k : Int) : ℝ) = k := by rw [Int.cast_natCast]; exact r.int k (by omega)
  have ft : r.fl ((t : Int) : ℝ) = t := by rw [Int.cast_natCast]; exact r.int t ht
  -- the numerator
  have n1 : Close r.u 1 (r.fl (r.fl ((k : Int) : ℝ) + alpha)) ((k : ℝ) + alpha) := by
    rw [fk]
    push_cast
    exact close_fl (by linarith)
  -- the denominator
  have d1 : Close r.u 1 (r.fl (alpha * (2 : ℝ))) (alpha * (2 : ℝ)) := close_fl (by linarith)
  have d1' : (3 / 4 : ℝ) * (alpha * 2) ≤ r.fl (alpha * (2 : ℝ)) := by
    have := d1.1
    rw [pow_one] at this
    have h2 : (alpha : ℝ) * 2 * (3 / 4) ≤ alpha * 2 * (1 - r.u) := mul_le_mul_of_nonneg_left (by linarith [r.u_le]) (by linarith)
    linarith
  have d2 : Close r.u 1 ((t : ℝ) + r.fl (alpha * (2 : ℝ))) ((t : ℝ) + alpha * 2) := close_add (close_refl ht0 1) d1
  have d3 : Close r.u 2 denom ((t : ℝ) + alpha * 2) := by
    refine close_trans (d := 1) (e := 1) ?_ d2
    show Close r.u 1 (r.fl (r.fl ((t : Int) : ℝ) + r.fl (alpha * (2 : ℝ)))) _
    rw [ft, Rat.cast_natCast]
    exact close_fl (by linarith)
  have v2 := r.vpow_pos 2
  have dpos : (0 : ℝ) < denom := by
    have := d3.1
    have h2 : 0 < ((t : ℝ) + alpha * 2) * (1 - r.u) ^ 2 := mul_pos (by linarith) v2
    linarith
  have npos : (0 : ℝ) < r.fl (r.fl ((k : Int) : ℝ) + alpha) := by
    have := n1.1
    have h2 : 0 < ((k : ℝ) + alpha) * (1 - r.u) ^ 1 := mul_pos (by linarith) (r.vpow_pos 1)
    linarith
  -- the quotient
  have q1 := close_div (r := r) npos.le (by linarith) dpos (by linarith : (0 : ℝ) < (t : ℝ) + alpha * 2) n1 d3
  have e8 : 8 * r.least ≤ ((k : ℝ) + alpha) / ((t : ℝ) + alpha * 2) := by
    rw [le_div_iff₀ (by linarith)]
    have h2 : 8 * r.least * ((t : ℝ) + alpha * 2) ≤ 8 * r.least * (r.N + 1 + 2 * alpha) :=
      mul_le_mul_of_nonneg_left (by linarith) (by linarith)
    linarith [h.2]
  have v : (3 / 4 : ℝ) ≤ 1 - r.u := by linarith [r.u_le]
  have v3 : (3 / 4 : ℝ) ^ 3 ≤ (1 - r.u) ^ 3 := pow_le_pow_left₀ (by norm_num) v 3
  have v4 : (3 / 4 : ℝ) ^ 4 ≤ (1 - r.u) ^ 4 := pow_le_pow_left₀ (by norm_num) v 4
  have g1 : r.least ≤ (r.fl (r.fl ((k : Int) : ℝ) + alpha) : ℝ) / denom := by
    refine le_trans ?_ q1.1
    calc r.least ≤ 8 * r.least * (3 / 4) ^ 3 := by norm_num; linarith
      _ ≤ ((k : ℝ) + alpha) / ((t : ℝ) + alpha * 2) * (1 - r.u) ^ 3 := mul_le_mul e8 v3 (by norm_num) (by linarith)
  have q2 := close_trans (close_fl g1) q1
  have ex : ((((k : Rat) + alpha) / ((t : Rat) + 2 * alpha) : Rat) : ℝ) = ((k : ℝ) + alpha) / ((t : ℝ) + alpha * 2) := by
    push_cast
    rw [mul_comm (2 : ℝ)]
  rw [ex]
  refine ⟨fun e => ?_, e8, le_trans ?_ q2.1, q2⟩
  · rw [e] at dpos; simp at dpos
  · calc 2 * r.least ≤ 8 * r.least * (3 / 4) ^ 4 := by norm_num; linarith
      _ ≤ ((k : ℝ) + alpha) / ((t : ℝ) + alpha * 2) * (1 - r.u) ^ 4 := mul_le_mul e8 v4 (by norm_num) (by linarith)

/-- What is known of a stored pair of rates `s`, exactly `p`. -/
structure Good (r : Rounding) (s p : Rat × Rat) : Prop where
  dist : Distribution p
  l1 : 8 * r.least ≤ p.1
  l2 : 8 * r.least ≤ p.2
  s1 : 2 * r.least ≤ s.1
  s2 : 2 * r.least ≤ s.2
  c1 : Close r.u 4 s.1 p.1
  c2 : Close r.u 4 s.2 p.2

theorem rates_good (total column : r.Adder) {alpha : Rat} (h : r.Moderate alpha) {n p : Nat} (hN : n + p ≤ r.N) :
    ∃ s, (r.probas total column).rates alpha ((n : Int), (p : Int)) = .ok s ∧ r.Good s (smooth alpha n p) := by
  obtain ⟨d1, l1, s1, c1⟩ := rate_close h (k := n) hN (by omega)
  obtain ⟨_, l2, s2, c2⟩ := rate_close h (k := p) hN (by omega)
  have hd : ((n : Int) + (p : Int)) = ((n + p : Nat) : Int) := by push_cast; rfl
  refine ⟨(_, _), ?_, smooth_dist h.1 n p, ?_, ?_, s1, s2, ?_, ?_⟩
  · simp only [Rounding.probas, hd]
    rw [if_neg d1]
  all_goals
    simp only [smooth]
    push_cast at l1 l2 c1 c2 ⊢
    assumption

theorem flatten_sum : ∀ l : List (Rat × Rat), (l.flatMap (fun p => [p.1, p.2])).sum = (l.map Prod.fst).sum + (l.map Prod.snd).sum
  | [] => by simp
  | p :: l => by
    have := flatten_sum l
    simp only [List.flatMap_cons, List.sum_append, List.map_cons, List.sum_cons, List.sum_nil, this]
    ring

theorem flatten_length : ∀ l : List (Rat × Rat), (l.flatMap (fun p => [p.1, p.2])).length = 2 * l.length
  | [] => rfl
  | p :: l => by
    have := flatten_length l
    simp only [List.flatMap_cons, List.length_append, List.length_cons, List.length_nil, this]
    omega

theorem sum_ge {L : ℝ} : ∀ {l : List Rat}, (∀ x ∈ l, L ≤ (x : ℝ)) → l.length * L ≤ ((l.sum : Rat) : ℝ)
  | [], _ => by simp
  | a :: l, h => by
    have := sum_ge (L := L) (l := l) (fun x hx => h x (by simp [hx]))
    have := h a (by simp)
    rw [List.sum_cons, Rat.cast_add, List.length_cons, Nat.cast_succ]
    linarith

theorem dist_sum : ∀ {l : List (Rat × Rat)}, (∀ p ∈ l, Distribution p) → (l.map Prod.fst).sum + (l.map Prod.snd).sum = l.length
  | [], _ => by simp
  | p :: l, h => by
    have h1 := dist_sum (l := l) (fun q hq => h q (by simp [hq]))
    have h2 := (h p (by simp)).2.2.2.2
    simp only [List.map_cons, List.sum_cons, List.length_cons]
    push_cast
    linarith

/-- Rounded and exact averages. -/
theorem average_close (total column : r.Adder) {l : List ((Rat × Rat) × (Rat × Rat))} (hne : l ≠ []) (h : ∀ x ∈ l, r.Good x.1 x.2)
    (hd : (3 * l.length + 7 : Nat) * r.u ≤ 1 / 2) :
    Distribution (weightedAvg (l.map Prod.snd)) ∧
    Close r.u (3 * l.length + 7) ((r.probas total column).average (l.map Prod.fst)).1 (weightedAvg (l.map Prod.snd)).1 ∧
    Close r.u (3 * l.length + 7) ((r.probas total column).average (l.map Prod.fst)).2 (weightedAvg (l.map Prod.snd)).2 := by
  have lp := r.least_pos
  have hm : 1 ≤ l.length := by
    rcases l with _ | ⟨a, l⟩
    · exact absurd rfl hne
    · simp
  have hm' : (1 : ℝ) ≤ l.length := by exact_mod_cast hm
  obtain ⟨S, hS⟩ : ∃ S, S = l.map Prod.fst := ⟨_, rfl⟩
  obtain ⟨E, hE⟩ : ∃ E, E = l.map Prod.snd := ⟨_, rfl⟩
  have lS : S.length = l.length := by rw [hS, List.length_map]
  have lE : E.length = l.length := by rw [hE, List.length_map]
  have hdist : ∀ p ∈ E, Distribution p := by
    intro p hp
    rw [hE] at hp
    obtain ⟨x, hx, rfl⟩ := List.mem_map.mp hp
    exact (h x hx).dist
  have hEne : E ≠ [] := by rw [← List.length_pos_iff]; omega
  have hw := weightedAvg_dist hEne hdist
  have hES := dist_sum hdist
  rw [← hS, ← hE]
  refine ⟨hw.2, ?_⟩
  -- the columns
  have col : ∀ f : Rat × Rat → Rat, (∀ x ∈ l, 8 * r.least ≤ f x.2 ∧ 2 * r.least ≤ f x.1 ∧ Close r.u 4 (f x.1) (f x.2)) →
      2 * r.least ≤ (column.sum (S.map f) : ℝ) ∧ l.length * (8 * r.least) ≤ ((E.map f).sum : Rat) ∧
      Close r.u (l.length + 3) (column.sum (S.map f)) ((E.map f).sum : Rat) := by
    intro f hf
    have hSf : S.map f ≠ [] := by rw [← List.length_pos_iff, List.length_map]; omega
    obtain ⟨a1, a2⟩ := sumsTo_close (column.sums (S.map f)) (L := 2 * r.least) (by linarith) hSf (by
      intro x hx
      obtain ⟨s, hs, rfl⟩ := List.mem_map.mp hx
      rw [hS] at hs
      obtain ⟨y, hy, rfl⟩ := List.mem_map.mp hs
      exact (hf y hy).2.1)
    have a3 : Close r.u 4 ((S.map f).sum : Rat) ((E.map f).sum : Rat) := by
      have := close_sum (r := r) (d := 4) (l := l.map (fun x => (f x.1, f x.2))) (by
        intro p hp
        obtain ⟨x, hx, rfl⟩ := List.mem_map.mp hp
        exact (hf x hx).2.2)
      rw [hS, hE]
      simpa only [List.map_map, Function.comp_def] using this
    refine ⟨a1, ?_, ?_⟩
    · have := sum_ge (L := 8 * r.least) (l := E.map f) (by
        intro x hx
        obtain ⟨s, hs, rfl⟩ := List.mem_map.mp hx
        rw [hE] at hs
        obtain ⟨y, hy, rfl⟩ := List.mem_map.mp hs
        exact (hf y hy).1)
      rwa [List.length_map, lE] at this
    · have := close_trans a2 a3
      rw [List.length_map, lS] at this
      rwa [show l.length - 1 + 4 = l.length + 3 by omega] at this
  obtain ⟨a1, a2, a3⟩ := col Prod.fst (fun x hx => ⟨(h x hx).l1, (h x hx).s1, (h x hx).c1⟩)
  obtain ⟨b1, b2, b3⟩ := col Prod.snd (fun x hx => ⟨(h x hx).l2, (h x hx).s2, (h x hx).c2⟩)
  -- the total
  obtain ⟨F, hF⟩ : ∃ F, F = S.flatMap (fun p => [p.1, p.2]) := ⟨_, rfl⟩
  have lF : F.length = 2 * l.length := by rw [hF, flatten_length, lS]
  have hFne : F ≠ [] := by rw [← List.length_pos_iff]; omega
  obtain ⟨t1, t2⟩ := sumsTo_close (total.sums F) (L := 2 * r.least) (by linarith) hFne (by
    intro x hx
    rw [hF] at hx
    obtain ⟨s, hs, hx⟩ := List.mem_flatMap.mp hx
    rw [hS] at hs
    obtain ⟨y, hy, rfl⟩ := List.mem_map.mp hs
    simp only [List.mem_cons, List.not_mem_nil, or_false] at hx
    rcases hx with rfl | rfl
    · exact (h y hy).s1
    · exact (h y hy).s2)
  have t3 : Close r.u 4 (F.sum : Rat) (((E.map Prod.fst).sum + (E.map Prod.snd).sum : Rat)) := by
    have h1 := close_sum (r := r) (d := 4) (l := l.map (fun x => (x.1.1, x.2.1))) (by
      intro p hp
      obtain ⟨x, hx, rfl⟩ := List.mem_map.mp hp
      exact (h x hx).c1)
    have h2 := close_sum (r := r) (d := 4) (l := l.map (fun x => (x.1.2, x.2.2))) (by
      intro p hp
      obtain ⟨x, hx, rfl⟩ := List.mem_map.mp hp
      exact (h x hx).c2)
    have h3 := close_add h1 h2
    rw [hF, flatten_sum, hS, hE]
    rw [Rat.cast_add, Rat.cast_add]
    simpa only [List.map_map, Function.comp_def] using h3
  have t4 := close_trans t2 t3
  rw [lF, show 2 * l.length - 1 + 4 = 2 * l.length + 3 by omega] at t4
  rw [hES, lE] at t4
  have tpos : (0 : ℝ) < total.sum F := by linarith
  have hmc : (((l.length : Nat) : Rat) : ℝ) = (l.length : ℝ) := by push_cast; rfl
  rw [hmc] at t4
  -- the quotients
  have quot : ∀ x y : Rat, 2 * r.least ≤ (x : ℝ) → l.length * (8 * r.least) ≤ (y : ℝ) → Close r.u (l.length + 3) x y →
      Close r.u (3 * l.length + 7) (r.fl ((x : ℝ) / total.sum F)) (y / l.length : ℝ) := by
    intro x y hx hy hc
    have hy0 : (0 : ℝ) < y := lt_of_lt_of_le (by positivity) hy
    have q := close_div (r := r) (by linarith) hy0.le tpos (by linarith : (0 : ℝ) < l.length) hc t4
    have e8 : 8 * r.least ≤ (y : ℝ) / l.length := by
      rw [le_div_iff₀ (by linarith)]; linarith
    have hv := r.vpow_ge (l.length + 3 + (2 * l.length + 3))
    have hv2 : (1 / 2 : ℝ) ≤ (1 - r.u) ^ (l.length + 3 + (2 * l.length + 3)) := by
      refine le_trans ?_ hv
      push_cast at hd ⊢
      have := r.u_pos
      nlinarith
    have g : r.least ≤ (x : ℝ) / total.sum F := by
      refine le_trans ?_ q.1
      calc r.least ≤ 8 * r.least * (1 / 2) := by linarith
        _ ≤ _ := mul_le_mul e8 hv2 (by norm_num) (by linarith)
    have := close_trans (close_fl g) q
    rwa [show 1 + (l.length + 3 + (2 * l.length + 3)) = 3 * l.length + 7 by omega] at this
  have ht0 : total.sum F ≠ 0 := by
    intro e; rw [e] at tpos; simp at tpos
  have hav : (r.probas total column).average S = (r.fl ((column.sum (S.map Prod.fst) : ℝ) / total.sum F), r.fl ((column.sum (S.map Prod.snd) : ℝ) / total.sum F)) := by
    simp only [Rounding.probas, ← hF]
    rw [if_neg ht0]
  rw [hav, hw.1]
  refine ⟨?_, ?_⟩
  · have := quot _ _ a1 a2 a3
    simp only
    rw [Rat.cast_div, lE, hmc]
    exact this
  · have := quot _ _ b1 b2 b3
    simp only
    rw [Rat.cast_div, lE, hmc]
    exact this

end Rounding

theorem nearDist_of {r : Rounding} {d : Nat} (hd : d * r.u ≤ 1 / 2) {q p : Rat × Rat} (hp : Distribution p) (h1 : Close r.u d q.1 p.1)
    (h2 : Close r.u d q.2 p.2) : NearDist (2 * d * r.u) q p := by
  have p1 : (0 : ℝ) < p.1 := by exact_mod_cast hp.1
  have p2 : (0 : ℝ) < p.2 := by exact_mod_cast hp.2.2.1
  have ps : (p.1 : ℝ) + p.2 = 1 := by exact_mod_cast hp.2.2.2.2
  have v := r.vpow_pos d
  have q1 : (0 : ℝ) < q.1 := lt_of_lt_of_le (mul_pos p1 v) h1.1
  have q2 : (0 : ℝ) < q.2 := lt_of_lt_of_le (mul_pos p2 v) h2.1
  have a1 := Rounding.close_abs q1.le p1.le hd h1
  have a2 := Rounding.close_abs q2.le p2.le hd h2
  refine ⟨hp, by exact_mod_cast q1, by exact_mod_cast q2, a1, a2, ?_⟩
  calc |(q.1 : ℝ) + q.2 - 1| = |((q.1 : ℝ) - p.1) + (q.2 - p.2)| := by rw [← ps]; congr 1; ring
    _ ≤ |(q.1 : ℝ) - p.1| + |(q.2 : ℝ) - p.2| := abs_add_le _ _
    _ ≤ 2 * d * r.u * p.1 + 2 * d * r.u * p.2 := add_le_add a1 a2
    _ = 2 * d * r.u := by rw [← mul_add, ps, mul_one]

theorem nearDist_le {e e' : ℝ} (he : e ≤ e') {q p : Rat × Rat} (h : NearDist e q p) : NearDist e' q p := by
  obtain ⟨hp, h1, h2, h3, h4, h5⟩ := h
  have p1 : (0 : ℝ) < p.1 := by exact_mod_cast hp.1
  have p2 : (0 : ℝ) < p.2 := by exact_mod_cast hp.2.2.1
  exact ⟨hp, h1, h2, h3.trans (mul_le_mul_of_nonneg_right he p1.le), h4.trans (mul_le_mul_of_nonneg_right he p2.le), h5.trans he⟩

theorem sum_ge_rat {L : Rat} : ∀ {l : List Rat}, (∀ x ∈ l, L ≤ x) → l.length * L ≤ l.sum
  | [], _ => by simp
  | a :: l, h => by
    have := sum_ge_rat (L := L) (l := l) (fun x hx => h x (by simp [hx]))
    have := h a (by simp)
    rw [List.sum_cons, List.length_cons, Nat.cast_succ]
    linarith

/-- The average of distributions is not less than the least of them. -/
theorem weightedAvg_low {L : Rat} {l : List (Rat × Rat)} (hne : l ≠ []) (hd : ∀ p ∈ l, Distribution p) (h : ∀ p ∈ l, L ≤ p.1 ∧ L ≤ p.2) :
    L ≤ (weightedAvg l).1 ∧ L ≤ (weightedAvg l).2 := by
  rw [(weightedAvg_dist hne hd).1]
  have hl : (0 : Rat) < l.length := by exact_mod_cast List.length_pos_iff.mpr hne
  have h1 := sum_ge_rat (L := L) (l := l.map Prod.fst) (by
    intro x hx
    obtain ⟨p, hp, rfl⟩ := List.mem_map.mp hx
    exact (h p hp).1)
  have h2 := sum_ge_rat (L := L) (l := l.map Prod.snd) (by
    intro x hx
    obtain ⟨p, hp, rfl⟩ := List.mem_map.mp hx
    exact (h p hp).2)
  rw [List.length_map] at h1 h2
  constructor
  · rw [le_div_iff₀ hl]; linarith
  · rw [le_div_iff₀ hl]; linarith

theorem smooth_low {alpha : Rat} (ha : 0 < alpha) {n p M : Nat} (h : n + p ≤ M) :
    alpha / (M + 2 * alpha) ≤ (smooth alpha n p).1 ∧ alpha / (M + 2 * alpha) ≤ (smooth alpha n p).2 := by
  have hM : (n : Rat) + p ≤ M := by exact_mod_cast h
  have hn : (0 : Rat) ≤ n := Nat.cast_nonneg _
  have hp : (0 : Rat) ≤ p := Nat.cast_nonneg _
  simp only [smooth]
  constructor <;>
  · refine div_le_div₀ ?_ ?_ ?_ ?_ <;> linarith

theorem Calib.Counted.good {r : Rounding} (total column : r.Adder) {alpha : Rat} (ha : r.Moderate alpha) {M : Nat} (hM : M ≤ r.N) {c : Calib}
    (h : c.Counted alpha M) : ∃ s p, c.smoothed = some p ∧ (c.rerated (r.probas total column) alpha).smoothed = some s ∧ r.Good s p ∧
      alpha / (M + 2 * alpha) ≤ p.1 ∧ alpha / (M + 2 * alpha) ≤ p.2 := by
  obtain ⟨n, p, rfl, hn⟩ := h
  obtain ⟨s, hs, hg⟩ := Rounding.rates_good total column ha (n := n) (p := p) (by omega)
  refine ⟨s, _, calibOf_smooth alpha n p, ?_, hg, smooth_low ha.1 hn⟩
  simp only [Calib.rerated, calibOf, hs]
  rfl

theorem rerated_conds (A : ProbaArith) (alpha : Rat) (rs : Ruleset) : (rs.rerated A alpha).rules.map Rule.conds = rs.rules.map Rule.conds := by
  simp [Ruleset.rerated, Function.comp_def, Rule.rerated]

/-- The answers of a ruleset whose rates were computed with rounding. -/
theorem predictProbaWith_near {r : Rounding} (total column : r.Adder) {alpha : Rat} (ha : r.Moderate alpha) {M : Nat} (hM : M ≤ r.N) {rs : Ruleset}
    (hk : (3 * rs.rules.length + 10 : Nat) * r.u ≤ 1 / 2) (hr : ∀ x ∈ rs.rules, x.cal.Counted alpha M) (hun : rs.uncov.Counted alpha M)
    {df : Frame} (hu : df.UniqueIndex) (hf : HasFeatures df rs.rules) :
    ∃ ps qs, rs.predictProba df = .ok ps ∧ (rs.rerated (r.probas total column) alpha).predictProbaWith (r.probas total column) df = .ok qs ∧
      List.Forall₂ (NearDist (2 * (3 * rs.rules.length + 10 : Nat) * r.u)) qs ps ∧
      ∀ p ∈ ps, alpha / (M + 2 * alpha) ≤ p.1 ∧ alpha / (M + 2 * alpha) ≤ p.2 := by
  obtain ⟨A, hA⟩ : ∃ A, A = r.probas total column := ⟨_, rfl⟩
  obtain ⟨us, up, u1, u2, u3, u4⟩ := hun.good total column ha hM
  let P : Rule → Rat × Rat := fun x => x.cal.smoothed.getD (0, 0)
  let Q : Rule → Rat × Rat := fun x => (x.cal.rerated A alpha).smoothed.getD (0, 0)
  have hPQ : ∀ x ∈ rs.rules, x.cal.smoothed = some (P x) ∧ (x.rerated A alpha).cal.smoothed = some (Q x) ∧ r.Good (Q x) (P x) ∧
      alpha / (M + 2 * alpha) ≤ (P x).1 ∧ alpha / (M + 2 * alpha) ≤ (P x).2 := by
    intro x hx
    obtain ⟨s, p, h1, h2, h3, h4⟩ := (hr x hx).good total column ha hM
    rw [← hA] at h2
    have eP : P x = p := by simp [P, h1]
    have eQ : Q x = s := by simp [Q, h2]
    exact ⟨by rw [eP]; exact h1, by rw [eQ]; exact h2, by rw [eP, eQ]; exact h3, by rw [eP]; exact h4⟩
  let fires : Row → List Rule := fun row => rs.rules.filter (fun x => condsMet x.conds row)
  have hf' : HasFeatures df (rs.rerated A alpha).rules := hasFeatures_conds (rerated_conds A alpha rs) hf
  have hmet : rulesMet (rs.rerated A alpha).rules = rulesMet rs.rules := funext (rulesMet_conds (rerated_conds A alpha rs))
  have hfil : ∀ row, (rs.rerated A alpha).rules.filter (fun x => condsMet x.conds row) = (fires row).map (Rule.rerated A alpha) := by
    intro row
    simp only [Ruleset.rerated, List.filter_map, fires]
    rfl
  let p : Row → Rat × Rat := fun row => if rulesMet rs.rules row then weightedAvg ((fires row).map P) else weightedAvg [up]
  let q : Row → Rat × Rat := fun row => if rulesMet rs.rules row then A.average ((fires row).map Q) else A.average [us]
  have e1 : rs.predictProba df = .ok (df.rows.map p) := by
    unfold Ruleset.predictProba Ruleset.predictProbaReasons
    rw [u1]
    simp only [attr, ok_bind, Ruleset.predictReasons_unique hu hf, List.zip_map', List.mapM_map]
    rw [mapM_ok (g := p)]
    · rfl
    intro row _
    simp only [p, Function.comp_apply]
    cases hm : rulesMet rs.rules row
    · rfl
    · simp only [Bool.not_true, Bool.false_eq_true, if_false, if_true]
      rw [mapM_ok (g := P)]
      · rfl
      · intro x hx
        rw [(hPQ x (List.mem_of_mem_filter hx)).1]
  have e2 : (rs.rerated A alpha).predictProbaWith A df = .ok (df.rows.map q) := by
    unfold Ruleset.predictProbaWith
    rw [show (rs.rerated A alpha).uncov.smoothed = some us by rw [hA]; exact u2]
    simp only [attr, ok_bind, Ruleset.predictReasons_unique hu hf', hmet, hfil, List.zip_map', List.mapM_map]
    rw [mapM_ok (g := q)]
    intro row _
    simp only [q, Function.comp_apply]
    cases hm : rulesMet rs.rules row
    · rfl
    · simp only [Bool.not_true, Bool.false_eq_true, if_false, if_true]
      rw [List.mapM_map, mapM_ok (g := Q)]
      · rfl
      · intro x hx
        simp only [Function.comp_apply]
        rw [(hPQ x (List.mem_of_mem_filter hx)).2.1]
  rw [← hA]
  have hne : ∀ row, rulesMet rs.rules row = true → fires row ≠ [] := by
    intro row hm hnil
    obtain ⟨x, h1, h2⟩ := List.any_eq_true.mp hm
    rw [List.filter_eq_nil_iff] at hnil
    exact hnil x h1 h2
  refine ⟨_, _, e1, e2, ?_, ?_⟩
  rotate_left
  · intro y hy
    obtain ⟨row, _, rfl⟩ := List.mem_map.mp hy
    simp only [p]
    split
    · rename_i hm
      refine weightedAvg_low (by simpa using hne row hm) ?_ ?_ <;> intro z hz <;> obtain ⟨x, hx, rfl⟩ := List.mem_map.mp hz
      · exact (hPQ x (List.mem_of_mem_filter hx)).2.2.1.dist
      · exact (hPQ x (List.mem_of_mem_filter hx)).2.2.2
    · exact weightedAvg_low (by simp) (by simpa using u3.dist) (by simpa using u4)
  rw [List.forall₂_map_left_iff, List.forall₂_map_right_iff, List.forall₂_same]
  intro row _
  have near : ∀ l : List ((Rat × Rat) × (Rat × Rat)), l ≠ [] → (∀ x ∈ l, r.Good x.1 x.2) → l.length ≤ rs.rules.length + 1 →
      NearDist (2 * (3 * rs.rules.length + 10 : Nat) * r.u) (A.average (l.map Prod.fst)) (weightedAvg (l.map Prod.snd)) := by
    intro l hne hg hlen
    have hle : ((3 * l.length + 7 : Nat) : ℝ) ≤ (3 * rs.rules.length + 10 : Nat) := by
      exact_mod_cast (by omega : 3 * l.length + 7 ≤ 3 * rs.rules.length + 10)
    have hle2 := mul_le_mul_of_nonneg_right hle r.u_pos.le
    obtain ⟨h1, h2, h3⟩ := Rounding.average_close total column hne hg (by linarith)
    rw [hA]
    exact nearDist_le (by linarith) (nearDist_of (by linarith) h1 h2 h3)
  simp only [p, q]
  split
  · rename_i hm
    have := near ((fires row).map (fun x => (Q x, P x))) (by simpa using hne row hm) (by
      intro y hy
      obtain ⟨x, hx, rfl⟩ := List.mem_map.mp hy
      exact (hPQ x (List.mem_of_mem_filter hx)).2.2.1) (by
      rw [List.length_map]
      exact Nat.le_succ_of_le (List.length_filter_le _ _))
    simpa only [List.map_map, Function.comp_def] using this
  · exact near [(us, up)] (by simp) (by simpa using u3) (by simp)

/-- If the error is less than the least rate, probabilities are less than one. -/
theorem nearDist_lt_one {alpha : Rat} (ha : 0 < alpha) {M : Nat} {e : ℝ} (he : (M + 2 * alpha) * e ≤ (alpha : ℝ)) {ps qs : List (Rat × Rat)}
    (h : List.Forall₂ (NearDist e) qs ps) (hl : ∀ p ∈ ps, alpha / (M + 2 * alpha) ≤ p.1 ∧ alpha / (M + 2 * alpha) ≤ p.2) :
    ∀ q ∈ qs, q.1 < 1 ∧ q.2 < 1 := by
  intro q hq
  obtain ⟨i, hi, rfl⟩ := List.mem_iff_getElem.mp hq
  have hi2 : i < ps.length := by rw [← h.length_eq]; exact hi
  have hn := h.get hi hi2
  simp only [List.get_eq_getElem] at hn
  have hlow := hl _ (List.getElem_mem hi2)
  obtain ⟨p, hp⟩ : ∃ p, p = ps[i] := ⟨_, rfl⟩
  rw [← hp] at hn hlow
  obtain ⟨hd, _, _, h1, h2, h3⟩ := hn
  have p1 : (0 : ℝ) < p.1 := by exact_mod_cast hd.1
  have p2 : (0 : ℝ) < p.2 := by exact_mod_cast hd.2.2.1
  have hs : (p.1 : ℝ) + p.2 = 1 := by exact_mod_cast hd.2.2.2.2
  have ha' : (0 : ℝ) < alpha := by exact_mod_cast ha
  have hpos : (0 : ℝ) < M + 2 * alpha := by positivity
  have hle : e ≤ alpha / (M + 2 * alpha) := by rw [le_div_iff₀ hpos]; linarith
  have l1 : (alpha : ℝ) / (M + 2 * alpha) ≤ p.1 := by exact_mod_cast hlow.1
  have l2 : (alpha : ℝ) / (M + 2 * alpha) ≤ p.2 := by exact_mod_cast hlow.2
  have b1 := (abs_le.mp h1).2
  have b2 := (abs_le.mp h2).2
  have he0 : 0 ≤ e := le_trans (abs_nonneg _) h3
  have c1 : e * p.1 < p.2 := by
    rcases eq_or_lt_of_le he0 with h0 | h0
    · rw [← h0]; linarith
    · have : e * p.1 < e * 1 := mul_lt_mul_of_pos_left (by linarith) h0
      linarith
  have c2 : e * p.2 < p.1 := by
    rcases eq_or_lt_of_le he0 with h0 | h0
    · rw [← h0]; linarith
    · have : e * p.2 < e * 1 := mul_lt_mul_of_pos_left (by linarith) h0
      linarith
  constructor
  · have : (qs[i].1 : ℝ) < 1 := by linarith
    exact_mod_cast this
  · have : (qs[i].2 : ℝ) < 1 := by linarith
    exact_mod_cast this

theorem Rounding.probas_rates {r : Rounding} (total column : r.Adder) {alpha : Rat} (ha : r.Moderate alpha) {M : Nat} (hM : M ≤ r.N) :
    (r.probas total column).Rates alpha M := by
  intro n p h
  obtain ⟨s, hs, _⟩ := Rounding.rates_good total column ha (n := n) (p := p) (by omega)
  exact ⟨s, hs⟩

/-! ### the claims -/

/-- C96, `recalibrate_proba`. In floating point (any rounding, numpy adding up in any order) calibration succeeds on the same data as with
exact arithmetic and counts the same; and whatever `predict_proba` answers afterwards with exact arithmetic, it answers in floating
point up to a relative error of `2 (3 k + 10) u` for `k` rules: two positive numbers per row that nearly add up to one. -/
theorem C96_recalibrated (r : Rounding) (total column : r.Adder) (rs : Ruleset) (cal : Frame) (hN : cal.rows.length ≤ r.N) (cf : Feat) (pc : Val)
    (alpha : Rat) (ha : r.Moderate alpha) (hcf : cf ∈ cal.cols) (hfc : HasFeatures cal rs.rules)
    (hk : (3 * rs.rules.length + 10 : Nat) * r.u ≤ 1 / 2) :
    ∃ exact rounded, recalibrate rs cal cf pc alpha = (exact, none) ∧
      recalibrateWith (r.probas total column) rs cal cf pc alpha = (rounded, none) ∧
      rounded.rules.map Rule.conds = rs.rules.map Rule.conds ∧
      rounded.rules.map (fun x => x.cal.ns) = exact.rules.map (fun x => x.cal.ns) ∧ rounded.uncov.ns = exact.uncov.ns ∧
      ∀ df : Frame, df.UniqueIndex → HasFeatures df rs.rules →
      ∃ ps qs, exact.predictProba df = .ok ps ∧ rounded.predictProbaWith (r.probas total column) df = .ok qs ∧
        List.Forall₂ (NearDist (2 * (3 * rs.rules.length + 10 : Nat) * r.u)) qs ps ∧
        ((cal.rows.length + 2 * alpha) * (2 * (3 * rs.rules.length + 10 : Nat) * r.u) ≤ (alpha : ℝ) → ∀ q ∈ qs, q.1 < 1 ∧ q.2 < 1) := by
  have hrec := recalibrate_ok (pc := pc) ha.1 hcf hfc
  obtain ⟨ex, hex⟩ : ∃ ex, (recalibrate rs cal cf pc alpha).1 = ex := ⟨_, rfl⟩
  have hrec' : recalibrate rs cal cf pc alpha = (ex, none) := by
    rw [← hex, hrec]
  have hw := recalibrateWith_eq (rs := rs) (pc := pc) ha.1 (Rounding.probas_rates total column ha hN) hcf hfc
  rw [hex] at hw
  obtain ⟨c1, c2⟩ := recalibrate_counted ha.1 hcf hrec'
  have hc := recalibrate_conds rs cal cf pc alpha
  rw [hex] at hc
  have hns : ∀ c : Calib, (c.rerated (r.probas total column) alpha).ns = c.ns := by
    intro c
    unfold Calib.rerated
    split <;> simp_all
  have hl : ex.rules.length = rs.rules.length := by simpa using congrArg List.length hc
  refine ⟨ex, _, hrec', hw, (rerated_conds _ _ _).trans hc, ?_, hns _, fun df hu hf => ?_⟩
  · simp only [Ruleset.rerated, List.map_map, Function.comp_def, Rule.rerated, hns]
  · have := predictProbaWith_near total column ha hN (rs := ex) (by rw [hl]; exact hk) c1 c2 hu (hasFeatures_conds hc hf)
    rw [hl] at this
    obtain ⟨ps, qs, h1, h2, h3, h4⟩ := this
    exact ⟨ps, qs, h1, h2, h3, fun hs q hq => nearDist_lt_one ha.1 hs h3 h4 q hq⟩

/-- Where the class has a column, if training succeeds. -/
theorem Method.train_class [Arith] {a : Method} {fuel : Nat} {R : PyRandom} {hp : Hyper} {old : Option (List Cond)}
    {init : List (List Cond)} {df : Frame} {cf : Feat} {pc : Val} {g g' : R.G} {m : Fitted}
    (h : a.train fuel R hp old init df cf pc g = .ok (m, g')) : cf ∈ df.cols := by
  by_contra hn
  cases a <;> simp only [Method.train, irepFit, ripperFit, irepFitPlain, ripperFitPlain] at h <;> split at h <;> simp at h

/-- C96, `fit`. Training, by any method and whatever the arithmetic of rule learning, with the probabilities computed in floating point
raises what training with exact probabilities raises; otherwise it learns the same rules and leaves the generator in the same
state, and its probabilities on any data are those of the exact model up to a relative error of `2 (3 k + 10) u` for `k` rules. -/
theorem C96_fitted [Arith] (r : Rounding) (total column : r.Adder) (a : Method) (fuel : Nat) (R : PyRandom) (hp : Hyper) (ha : r.Moderate hp.alpha)
    (old : Option (List Cond)) (init : List (List Cond)) (tr : Frame) (hN : tr.rows.length ≤ r.N) (cf : Feat) (pc : Val) (g : R.G) :
    (∀ e, a.train fuel R hp old init tr cf pc g = .error e → a.trainWith (r.probas total column) fuel R hp old init tr cf pc g = .error e) ∧
    ∀ m g', a.train fuel R hp old init tr cf pc g = .ok (m, g') →
    ∃ m', a.trainWith (r.probas total column) fuel R hp old init tr cf pc g = .ok (m', g') ∧ m'.selected = m.selected ∧
      m'.ruleset.rules.map Rule.conds = m.ruleset.rules.map Rule.conds ∧
      ((3 * m.ruleset.rules.length + 10 : Nat) * r.u ≤ 1 / 2 → ∀ df : Frame, df.UniqueIndex → HasFeatures df m.ruleset.rules →
        ∃ ps qs, m.ruleset.predictProba df = .ok ps ∧ m'.ruleset.predictProbaWith (r.probas total column) df = .ok qs ∧
          List.Forall₂ (NearDist (2 * (3 * m.ruleset.rules.length + 10 : Nat) * r.u)) qs ps ∧
          ((tr.rows.length + 2 * hp.alpha) * (2 * (3 * m.ruleset.rules.length + 10 : Nat) * r.u) ≤ (hp.alpha : ℝ) →
            ∀ q ∈ qs, q.1 < 1 ∧ q.2 < 1)) := by
  have hw := Method.trainWith_eq (a := a) (fuel := fuel) (R := R) (old := old) (init := init) (cf := cf) (pc := pc) (g := g) ha.1
    (Rounding.probas_rates total column ha hN)
  rw [hw]
  refine ⟨fun e he => by rw [he]; rfl, fun m g' hm => ⟨m.rerated (r.probas total column) hp.alpha, by rw [hm]; rfl, rfl,
    rerated_conds _ _ _, fun hk df hu hf => ?_⟩⟩
  obtain ⟨c1, c2⟩ := Method.train_counted ha.1 (Method.train_class hm) hm
  obtain ⟨ps, qs, h1, h2, h3, h4⟩ := predictProbaWith_near total column ha hN hk c1 c2 hu hf
  exact ⟨ps, qs, h1, h2, h3, fun hs q hq => nearDist_lt_one ha.1 hs h3 h4 q hq⟩

/-- C96, the definitions: with exact arithmetic, the code of this file is that of Verif/Proba.lean and Verif/Rules.lean. -/
theorem C96_exact [Arith] : (∀ rs df cf pc alpha, recalibrateWith .exact rs df cf pc alpha = recalibrate rs df cf pc alpha) ∧
    (∀ rs df, Ruleset.predictProbaWith .exact rs df = Ruleset.predictProba rs df) ∧
    ∀ (a : Method) fuel R hp old init df cf pc g, a.trainWith .exact fuel R hp old init df cf pc g = a.train fuel R hp old init df cf pc g := by
  have h1 : ∀ df cf pc alpha r, recalRuleWith .exact df cf pc alpha r = recalRule df cf pc alpha r := fun _ _ _ _ _ => rfl
  have h2 : ∀ df cf pc alpha rs, recalRulesWith .exact df cf pc alpha rs = recalRules df cf pc alpha rs := by
    intro df cf pc alpha rs
    induction rs with
    | nil => rfl
    | cons r rs ih => simp only [recalRulesWith, recalRules, h1, ih]; rfl
  have h3 : ∀ rs df cf pc alpha, recalibrateWith .exact rs df cf pc alpha = recalibrate rs df cf pc alpha := by
    intro rs df cf pc alpha
    simp only [recalibrateWith, recalibrate, h2]
    rfl
  refine ⟨h3, ?_, ?_⟩
  · intro rs df
    unfold Ruleset.predictProbaWith Ruleset.predictProba Ruleset.predictProbaReasons
    cases attr rs.uncov.smoothed with
    | error e => rfl
    | ok u =>
      simp only [ok_bind]
      cases rs.predictReasons df with
      | error e => rfl
      | ok q =>
        simp only [ok_bind, ProbaArith.exact]
        generalize List.mapM (m := Except PyErr) _ _ = o
        cases o <;> rfl
  · intro a fuel R hp old init df cf pc g
    cases a <;> simp only [Method.trainWith, Method.train, irepFitWith, irepFit, ripperFitWith, ripperFit, irepFitPlainWith, irepFitPlain,
      ripperFitPlainWith, ripperFitPlain, h3]

/-! ### an instance -/

/-- Adding up from left to right. -/
def Rounding.leftSum (r : Rounding) : List Rat → Rat
  | [] => 0
  | x :: xs => xs.foldl (fun s y => r.fl (s + y)) x

theorem Rounding.leftSum_sums (r : Rounding) (l : List Rat) : r.SumsTo l (r.leftSum l) := by
  have key : ∀ (xs a : List Rat) (s : Rat), a ≠ [] → r.SumsTo a s → r.SumsTo (a ++ xs) (xs.foldl (fun s y => r.fl (s + y)) s) := by
    intro xs
    induction xs with
    | nil => intro a s _ h; simpa using h
    | cons x xs ih =>
      intro a s ha h
      have := ih (a ++ [x]) (r.fl (s + x)) (by simp) (.add ha (by simp) h (.one x))
      simpa using this
  cases l with
  | nil => exact .none
  | cons x xs => exact key xs [x] x (by simp) (.one x)

/-- Sequential addition. -/
def Rounding.leftAdder (r : Rounding) : r.Adder := ⟨r.leftSum, r.leftSum_sums⟩

theorem doubles_moderate : Demo.doubles.Moderate 1 := by
  refine ⟨by norm_num, ?_⟩
  show 8 * (2⁻¹ : ℝ) ^ 1022 * (((2 ^ 53 : Nat) : ℝ) + 1 + 2 * ((1 : Rat) : ℝ)) ≤ ((1 : Rat) : ℝ)
  have : (2⁻¹ : ℝ) ^ 1022 ≤ 2⁻¹ ^ 60 := pow_le_pow_of_le_one (by norm_num) (by norm_num) (by norm_num)
  generalize (2⁻¹ : ℝ) ^ 1022 = t at *
  norm_num at *
  linarith

/-- The model of C38's example, calibrated and queried in doubles: the three answers have relative errors of at most `2^-48`. -/
example : ∃ rounded qs, recalibrateWith (Demo.doubles.probas Demo.doubles.leftAdder Demo.doubles.leftAdder) Demo.rs Demo.cal Demo.fc Demo.vp 1 = (rounded, none) ∧
    rounded.predictProbaWith (Demo.doubles.probas Demo.doubles.leftAdder Demo.doubles.leftAdder) Demo.df = .ok qs ∧
    List.Forall₂ (NearDist (2⁻¹ ^ 48)) qs [(9 / 20, 11 / 20), (1 / 2, 1 / 2), (2 / 3, 1 / 3)] ∧ ∀ q ∈ qs, q.1 < 1 ∧ q.2 < 1 := by
  have hu : Demo.doubles.u = 2⁻¹ ^ 53 := rfl
  have hl : Demo.rs.rules.length = 2 := rfl
  have hc : Demo.cal.rows.length = 4 := rfl
  obtain ⟨ex, ro, h1, h2, _, _, _, h3⟩ := C96_recalibrated Demo.doubles Demo.doubles.leftAdder Demo.doubles.leftAdder Demo.rs Demo.cal
    (by rw [hc]; show 4 ≤ 2 ^ 53; norm_num) Demo.fc Demo.vp 1 doubles_moderate (by decide +kernel)
    (by unfold HasFeatures; decide +kernel) (by rw [hl, hu]; norm_num)
  obtain ⟨ps, qs, h4, h5, h6, h7⟩ := h3 Demo.df (by unfold Frame.UniqueIndex; decide +kernel) (by unfold HasFeatures; decide +kernel)
  have hps : ps = [(9 / 20, 11 / 20), (1 / 2, 1 / 2), (2 / 3, 1 / 3)] := by
    have : (recalibrate Demo.rs Demo.cal Demo.fc Demo.vp 1).1.predictProba Demo.df = .ok [(9 / 20, 11 / 20), (1 / 2, 1 / 2), (2 / 3, 1 / 3)] := by decide +kernel
    rw [h1] at this
    rw [h4] at this
    exact Except.ok.inj this
  subst hps
  rw [hl, hu] at h6 h7
  rw [hc] at h7
  refine ⟨ro, qs, h2, h5, ?_, h7 (by norm_num)⟩
  have e : (2 * ((3 * 2 + 10 : Nat) : ℝ) * 2⁻¹ ^ 53) = 2⁻¹ ^ 48 := by norm_num
  rwa [e] at h6

/-- A fit in doubles: every answer on the training data is within `2^-48` of the exact one. -/
example : ∃ m' g' qs, Method.irep.trainWith (Demo.doubles.probas Demo.doubles.leftAdder Demo.doubles.leftAdder) 9 Demo.R0 { pruneSize := none } none []
      Demo.cal Demo.fc Demo.vp () = .ok (m', g') ∧
    m'.ruleset.predictProbaWith (Demo.doubles.probas Demo.doubles.leftAdder Demo.doubles.leftAdder) Demo.cal = .ok qs ∧ qs.length = 4 ∧
    ∀ q ∈ qs, 0 < q.1 ∧ q.1 < 1 ∧ |(q.1 : ℝ) + q.2 - 1| ≤ 2⁻¹ ^ 48 := by
  have hu : Demo.doubles.u = 2⁻¹ ^ 53 := rfl
  have hc : Demo.cal.rows.length = 4 := rfl
  have key := (C96_fitted Demo.doubles Demo.doubles.leftAdder Demo.doubles.leftAdder Method.irep 9 Demo.R0 { pruneSize := none } doubles_moderate none []
    Demo.cal (by rw [hc]; show 4 ≤ 2 ^ 53; norm_num) Demo.fc Demo.vp ()).2
  rcases hf : Method.irep.train 9 Demo.R0 { pruneSize := none } none [] Demo.cal Demo.fc Demo.vp () with e | ⟨m, g'⟩
  · have : (Method.irep.train 9 Demo.R0 { pruneSize := none } none [] Demo.cal Demo.fc Demo.vp ()).toBool = true := by decide +kernel
    rw [hf] at this
    simp [Except.toBool] at this
  · have h1 : ((Method.irep.train 9 Demo.R0 { pruneSize := none } none [] Demo.cal Demo.fc Demo.vp ()).map (fun mg => mg.1.ruleset.rules.length)).toOption = some 2 := by
      decide +kernel
    rw [hf] at h1
    have h1 : m.ruleset.rules.length = 2 := Option.some.inj h1
    have h2 : ((Method.irep.train 9 Demo.R0 { pruneSize := none } none [] Demo.cal Demo.fc Demo.vp ()).map
        (fun mg => mg.1.ruleset.rules.all (fun r => r.conds.all (fun c => Demo.cal.cols.contains c.feature)))).toOption = some true := by
      decide +kernel
    rw [hf] at h2
    have h2 : m.ruleset.rules.all (fun r => r.conds.all (fun c => Demo.cal.cols.contains c.feature)) = true := Option.some.inj h2
    obtain ⟨m', k1, _, _, k2⟩ := key m g' hf
    rw [h1, hu, hc] at k2
    obtain ⟨ps, qs, e1, e2, e3, e4⟩ := k2 (by norm_num) Demo.cal (by unfold Frame.UniqueIndex; decide +kernel) (by
      intro r hr c hc
      have := List.all_eq_true.mp (List.all_eq_true.mp h2 r hr) c hc
      simpa using this)
    have hlen : ps.length = 4 := by
      have h3 : ((Method.irep.train 9 Demo.R0 { pruneSize := none } none [] Demo.cal Demo.fc Demo.vp ()).bind
        (fun mg => (mg.1.ruleset.predictProba Demo.cal).map List.length)).toOption = some 4 := by decide +kernel
      rw [hf] at h3
      simp only [Except.bind, e1, Except.map, Except.toOption] at h3
      exact Option.some.inj h3
    refine ⟨m', g', qs, k1, e2, by rw [e3.length_eq, hlen], fun q hq => ?_⟩
    obtain ⟨i, hi, rfl⟩ := List.mem_iff_getElem.mp hq
    have hn := e3.get hi (by rw [← e3.length_eq]; exact hi)
    simp only [List.get_eq_getElem] at hn
    obtain ⟨_, q1, _, _, _, q3⟩ := hn
    exact ⟨q1, (e4 (by norm_num) _ hq).1, q3.trans (by norm_num)⟩

end Witt
