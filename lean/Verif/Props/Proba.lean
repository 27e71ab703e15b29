import Verif.Lemmas.Fit
import Verif.Lemmas.RipperFit
import Verif.Props.Ripper
/-
Properties of probability estimates: C38, C39, C40, C41 (ruleset level).
-/
namespace Witt
open Spec

namespace Spec
open Classical in
/-- How many rows of the labelled frame satisfy `P` and are negative (positive). -/
noncomputable def nNegWhere (df : Frame) (cf : Feat) (pc : Val) (P : Row → Prop) : Nat :=
  df.rows.countP (fun row => decide (P row ∧ ¬ Positive cf pc row))
open Classical in
noncomputable def nPosWhere (df : Frame) (cf : Feat) (pc : Val) (P : Row → Prop) : Nat :=
  df.rows.countP (fun row => decide (P row ∧ Positive cf pc row))

/-- Additively smoothed class frequencies (negative, positive) of `n` negative and `p` positive examples. -/
def smooth (alpha : Rat) (n p : Nat) : Rat × Rat :=
  (((n : Rat) + alpha) / ((n : Rat) + p + 2 * alpha), ((p : Rat) + alpha) / ((n : Rat) + p + 2 * alpha))

/-- The smoothed class frequencies among the rows of a labelled frame that satisfy `P`. -/
noncomputable def smoothedWhere (df : Frame) (cf : Feat) (pc : Val) (alpha : Rat) (P : Row → Prop) : Rat × Rat :=
  smooth alpha (nNegWhere df cf pc P) (nPosWhere df cf pc P)

/-- The componentwise mean of a list of pairs. -/
def mean (ps : List (Rat × Rat)) : Rat × Rat :=
  ((ps.map Prod.fst).sum / ps.length, (ps.map Prod.snd).sum / ps.length)

/-- Two strictly positive probabilities that add up to one. -/
def Distribution (p : Rat × Rat) : Prop := 0 < p.1 ∧ p.1 < 1 ∧ 0 < p.2 ∧ p.2 < 1 ∧ p.1 + p.2 = 1

open Classical in
/-- `predict_proba` answers `probas` on `df`: one distribution per row; the pair `unc` on the rows no rule
fires on; on every other row the mean of the frequencies `freq` of exactly the rules that fire on it. -/
def ProbaAnswer (rules : List Rule) (df : Frame) (unc : Rat × Rat) (freq : Rule → Rat × Rat)
    (probas : List (Rat × Rat)) : Prop :=
  probas.length = df.rows.length ∧
  ∀ (i : Nat) (h : i < df.rows.length), ∃ p, probas[i]? = some p ∧ Distribution p ∧
    (¬ FiresAny df.rows[i] rules → p = unc) ∧
    (FiresAny df.rows[i] rules →
      p = mean ((rules.filter (fun r => decide (Fires df.rows[i] r))).map freq))
end Spec

theorem posIn_eq {df : Frame} {cf : Feat} {pc : Val} {met : Row → Bool} {P : Row → Prop}
    (h : ∀ row ∈ df.rows, met row = true ↔ P row) : posIn df cf pc met = nPosWhere df cf pc P := by
  unfold posIn nPosWhere
  rw [List.filter_filter, ← List.countP_eq_length_filter]
  apply List.countP_congr
  intro row hrow
  simp only [Bool.and_eq_true, decide_eq_true_eq, Val.pyEq_iff, h row hrow]
  unfold Positive
  tauto

theorem negIn_eq {df : Frame} {cf : Feat} {pc : Val} {met : Row → Bool} {P : Row → Prop}
    (h : ∀ row ∈ df.rows, met row = true ↔ P row) : negIn df cf pc met = nNegWhere df cf pc P := by
  unfold negIn nNegWhere
  rw [List.filter_filter, ← List.countP_eq_length_filter]
  apply List.countP_congr
  intro row hrow
  have : (!(row.cell cf).pyEq pc) = true ↔ ¬ Positive cf pc row := by
    unfold Positive; rw [← Val.pyEq_iff]; simp
  simp only [Bool.and_eq_true, decide_eq_true_eq, this, h row hrow]
  tauto

theorem calibOf_smooth (alpha : Rat) (n p : Nat) : (calibOf alpha n p).smoothed = some (smooth alpha n p) := by
  unfold calibOf smooth; rw [mul_comm alpha 2]

theorem smooth_dist {alpha : Rat} (ha : 0 < alpha) (n p : Nat) : Distribution (smooth alpha n p) := by
  obtain ⟨s, h1, h2⟩ := calibOf_dist ha n p
  rw [calibOf_smooth] at h1
  injection h1 with h1
  rw [h1]; exact h2

/-- `predict_proba` of a ruleset all of whose rules carry distributions. -/
theorem predictProba_answer {rs : Ruleset} {df : Frame} (hu : df.UniqueIndex) (hf : HasFeatures df rs.rules)
    {unc : Rat × Rat} (hunc : rs.uncov.smoothed = some unc) (hd : Distribution unc) {freq : Rule → Rat × Rat}
    (hr : ∀ r ∈ rs.rules, r.cal.smoothed = some (freq r)) (hrd : ∀ r ∈ rs.rules, Distribution (freq r)) :
    ∃ probas, rs.predictProba df = .ok probas ∧ ProbaAnswer rs.rules df unc freq probas := by
  classical
  have hw : weightedAvg [unc] = unc := by
    obtain ⟨_, _, _, _, h5⟩ := hd
    simp [weightedAvg, h5]
  let ans : Row → Rat × Rat := fun row =>
    if rulesMet rs.rules row then mean ((rs.rules.filter (fun r => condsMet r.conds row)).map freq) else unc
  have hmean : ∀ row, rulesMet rs.rules row = true →
      weightedAvg ((rs.rules.filter (fun r => condsMet r.conds row)).map freq) =
        mean ((rs.rules.filter (fun r => condsMet r.conds row)).map freq) ∧
      Distribution (mean ((rs.rules.filter (fun r => condsMet r.conds row)).map freq)) := by
    intro row hrow
    have hne : ((rs.rules.filter (fun r => condsMet r.conds row)).map freq) ≠ [] := by
      obtain ⟨r, h1, h2⟩ := List.any_eq_true.mp hrow
      intro hnil
      rw [List.map_eq_nil_iff, List.filter_eq_nil_iff] at hnil
      exact hnil r h1 h2
    have := weightedAvg_dist hne (by
      intro p hp
      obtain ⟨r, h1, rfl⟩ := List.mem_map.mp hp
      exact hrd r (List.mem_of_mem_filter h1))
    rw [← show weightedAvg ((rs.rules.filter (fun r => condsMet r.conds row)).map freq) = mean _ from this.1]
    exact ⟨rfl, this.2⟩
  refine ⟨df.rows.map ans, ?_, by simp, ?_⟩
  · unfold Ruleset.predictProba Ruleset.predictProbaReasons
    rw [hunc]
    simp only [attr, ok_bind, Ruleset.predictReasons_unique hu hf, hw, List.zip_map', List.mapM_map]
    rw [mapM_ok (g := ans)]
    · rfl
    intro row _
    simp only [ans, Function.comp_apply]
    cases hm : rulesMet rs.rules row
    · rfl
    · simp only [Bool.not_true, Bool.false_eq_true, if_false, if_true]
      rw [mapM_ok (g := freq)]
      · simp only [ok_bind, pure_eq_ok, (hmean row hm).1]
      · intro r hr'
        rw [hr r (List.mem_of_mem_filter hr')]
  · intro i h
    refine ⟨ans df.rows[i], by simp [h], ?_, ?_, ?_⟩
    · simp only [ans]
      split
      · rename_i hm; exact (hmean _ hm).2
      · exact hd
    · intro hn
      have : rulesMet rs.rules df.rows[i] = false := by
        rw [← Bool.not_eq_true, rulesMet_iff]; exact hn
      simp only [ans, this, Bool.false_eq_true, if_false]
    · intro hy
      rw [← rulesMet_iff] at hy
      simp only [ans, hy, if_true]
      congr 2
      apply List.filter_congr
      intro r _
      rw [Bool.eq_iff_iff, decide_eq_true_eq]
      exact condsMet_iff

/-- C38, recalibration. After `recalibrate_proba` on any labelled data that has the tested columns (with
`alpha > 0`), `predict_proba` succeeds on every frame with distinct labels that has the tested columns, and
its rows are distributions: on rows predicted positive, the mean over exactly the covering rules of the
smoothed class frequencies of the calibration rows each of them covers; on all rows predicted negative, the
smoothed frequencies of the calibration rows no rule covers. -/
theorem C38_recalibrated_probabilities (rs : Ruleset) (cal : Frame) (cf : Feat) (pc : Val) (alpha : Rat)
    (ha : 0 < alpha) (hcal : cal.UniqueIndex) (hcf : cf ∈ cal.cols) (hfc : HasFeatures cal rs.rules) (ms : Option Int)
    (require : Bool) :
    ∃ rs', recalibrateProba rs cal cf pc ms require alpha = (rs', none) ∧
      rs'.rules.map Rule.conds = rs.rules.map Rule.conds ∧
      ∀ df : Frame, df.UniqueIndex → HasFeatures df rs.rules →
      ∃ probas, rs'.predictProba df = .ok probas ∧
        ProbaAnswer rs'.rules df
          (smoothedWhere cal cf pc alpha (fun row => ¬ FiresAny row rs.rules))
          (fun r => smoothedWhere cal cf pc alpha (fun row => Fires row r)) probas := by
  have hc : (rs.rules.map (recalOf cal cf pc alpha)).map Rule.conds = rs.rules.map Rule.conds := by
    simp [Function.comp_def, recalOf]
  refine ⟨_, recalibrate_ok ha hcf hfc, hc, ?_⟩
  intro df hu hf
  refine predictProba_answer hu (hasFeatures_conds hc hf) ?_ (smooth_dist ha _ _) ?_ ?_
  · rw [calibOf_smooth]
    have hun : ∀ row ∈ cal.rows, rowUncovered rs.rules cal row = true ↔ ¬ FiresAny row rs.rules := by
      intro row hrow
      rw [rowUncovered_unique hcal hrow, ← rulesMet_iff]; simp
    rw [negIn_eq hun, posIn_eq hun]
  · intro r hr
    obtain ⟨r0, _, rfl⟩ := List.mem_map.mp hr
    simp only [recalOf, calibOf_smooth]
    unfold smoothedWhere
    have hm : ∀ row ∈ cal.rows, condsMet r0.conds row = true ↔ Fires row (recalOf cal cf pc alpha r0) :=
      fun row _ => condsMet_iff
    rw [negIn_eq hm, posIn_eq hm]
    rfl
  · intro r _
    exact smooth_dist ha _ _

theorem irepFit_class [Arith] {fuel : Nat} {R : PyRandom} {hp : Hyper} {init : List (List Cond)} {df : Frame}
    {cf : Feat} {pc : Val} {g g' : R.G} {m : Fitted} (h : irepFit fuel R hp init df cf pc g = .ok (m, g')) :
    cf ∈ df.cols := by
  unfold irepFit at h
  by_contra hn
  split at h
  · simp at h
  · simp at h

theorem ripperFit_class [Arith] {fuel : Nat} {R : PyRandom} {hp : Hyper} {init : List (List Cond)} {df : Frame}
    {cf : Feat} {pc : Val} {g g' : R.G} {m : Fitted} (h : ripperFit fuel R hp init df cf pc g = .ok (m, g')) :
    cf ∈ df.cols := by
  unfold ripperFit at h
  by_contra hn
  split at h
  · simp at h
  · simp at h

/-- The frequencies calibration attaches to a rule, in specification terms. -/
theorem recalOf_smoothed (df : Frame) (cf : Feat) (pc : Val) (alpha : Rat) (r : Rule) :
    (recalOf df cf pc alpha r).cal.smoothed =
      some (smoothedWhere df cf pc alpha (fun row => Fires row (recalOf df cf pc alpha r))) := by
  have hm : ∀ row ∈ df.rows, condsMet r.conds row = true ↔ Fires row (recalOf df cf pc alpha r) :=
    fun row _ => condsMet_iff
  simp only [recalOf, calibOf_smooth]
  rw [negIn_eq hm, posIn_eq hm]
  rfl

/-- Rows that no grown rule covers are the rows that no final rule fires on, if `max_total_conds` removes nothing and conditions that
print alike are alike. -/
theorem uncovered_final {tr : Frame} {all : List (List Cond)} {rules : List Rule} {D : Cond → Prop} {hp : Hyper}
    (hm : rules.map Rule.conds = finish hp.lim.maxTotalConds all) (hu : tr.UniqueIndex) (hl : hp.lim.maxTotalConds = none)
    (htext : PrintsApart D) (hcond : ∀ r ∈ all, ∀ c ∈ r, D c) :
    ∀ row ∈ tr.rows, rowUncovered (all.map (fun c => ({ conds := c } : Rule))) tr row = true ↔ ¬ FiresAny row rules := by
  have hsubl : ∀ r ∈ rules, r.conds ∈ all := by
    intro r hr
    have : r.conds ∈ rules.map Rule.conds := List.mem_map.mpr ⟨r, hr, rfl⟩
    rw [hm] at this
    exact (finish_sublist _ _).subset this
  intro row hrow
  rw [rowUncovered_unique hu hrow, Bool.not_eq_true', ← Bool.not_eq_true, rulesMet_iff, not_iff_not]
  constructor
  · rintro ⟨r0, hr0, hf⟩
    obtain ⟨r, hr, rfl⟩ := List.mem_map.mp hr0
    have hrep := removeDups_rep (same := condsSameKey) all hr
    have hfin : rules.map Rule.conds = removeDups condsSameKey all := by
      rw [hm]; unfold finish; rw [hl]; rfl
    rw [← hfin] at hrep
    rcases hrep with h | ⟨t, ht, hkey⟩
    · obtain ⟨q, hq, he⟩ := List.mem_map.mp h
      exact ⟨q, hq, by unfold Fires; rw [he]; exact hf⟩
    · obtain ⟨q, hq, rfl⟩ := List.mem_map.mp ht
      refine ⟨q, hq, ?_⟩
      intro c hc
      have hperm := condsSameKey_iff.mp hkey
      have : c.text ∈ condTexts r := hperm.mem_iff.mp (List.mem_map.mpr ⟨c, hc, rfl⟩)
      obtain ⟨d, hd, hde⟩ := List.mem_map.mp this
      exact (htext d c (hcond r hr d hd) (hcond _ (hsubl q hq) c hc) hde row).mp (hf d hd)
  · rintro ⟨r, hr, hf⟩
    exact ⟨{ conds := r.conds }, List.mem_map.mpr ⟨_, hsubl r hr, rfl⟩, hf⟩

/-- What IREP's calibration stores: the smoothed frequencies of every rule, some pair for uncovered rows, and which
one if nothing is trimmed and nothing prints like something else. -/
theorem irepFit_probas [Arith] [Arith.Lawful] {R : PyRandom} {hp : Hyper} (ha : 0 < hp.alpha) {init : List (List Cond)} {tr : Frame} {cf : Feat} {pc : Val}
    {fuel : Nat} {g g' : R.G} {m : Fitted} (h : irepFit fuel R hp init tr cf pc g = .ok (m, g')) :
    (∀ r ∈ m.ruleset.rules, r.cal.smoothed = some (smoothedWhere tr cf pc hp.alpha (fun row => Fires row r))) ∧
    ∃ unc, m.ruleset.uncov.smoothed = some unc ∧ Distribution unc ∧
      (tr.UniqueIndex → hp.lim.maxTotalConds = none →
        PrintsApart (fun c => (TrainCond tr cf c ∧ SeenCond tr cf c) ∨ ∃ r ∈ init, c ∈ r) →
        unc = smoothedWhere tr cf pc hp.alpha (fun row => ¬ FiresAny row m.ruleset.rules)) := by
  have hcf := irepFit_class h
  obtain ⟨_, cn, st, hb, hg, hm, _, _, ⟨rs1, hrec, hsub, hunc⟩, _⟩ := irepFit_ok h
  have hfeat : HasFeatures tr (st.rules.map (fun c => ({ conds := c } : Rule))) := by
    by_contra hn
    rw [recalibrate_missing (rs := { rules := st.rules.map (fun c => ({ conds := c } : Rule)), possible := some cn.conds }) hn] at hrec
    simp at hrec
  rw [recalibrate_ok ha hcf hfeat] at hrec
  simp only [Prod.mk.injEq, and_true] at hrec
  subst hrec
  refine ⟨fun r hr => ?_, smooth hp.alpha (negIn tr cf pc (rowUncovered (st.rules.map (fun c => ({ conds := c } : Rule))) tr))
    (posIn tr cf pc (rowUncovered (st.rules.map (fun c => ({ conds := c } : Rule))) tr)), by rw [hunc, calibOf_smooth],
    smooth_dist ha _ _, ?_⟩
  · obtain ⟨r0, _, rfl⟩ := List.mem_map.mp (hsub r hr)
    exact recalOf_smoothed tr cf pc hp.alpha r0
  · intro hu hl htext
    obtain ⟨s, hs, h1, _⟩ := irepGrowCn_reach hg
    have hw := CatNap.build_WF hb
    have hcond : ∀ r ∈ st.rules, ∀ c ∈ r, (TrainCond tr cf c ∧ SeenCond tr cf c) ∨ ∃ r ∈ init, c ∈ r := by
      intro r hr c hc
      rw [h1] at hr
      rcases hs.rule r hr with h | ⟨s1, s2, _, ha⟩
      · exact Or.inr ⟨r, h, hc⟩
      · exact Or.inl ⟨trainCond_of_mem hb (ha.conds hw c hc), ha.seen hb c hc⟩
    rw [negIn_eq (uncovered_final hm hu hl htext hcond), posIn_eq (uncovered_final hm hu hl htext hcond)]
    rfl

/-- C38, IREP. Every row `predict_proba` of a fitted model returns is a distribution: the same pair on all
rows predicted negative, and on the others the mean of the smoothed class frequencies (in the training
data) of exactly the covering rules. When no `max_total_conds` is set and conditions that print alike mean
the same, the pair for negative predictions is that of the training rows the model predicts negative. -/
theorem C38_irep_probabilities [Arith] [Arith.Lawful] (R : PyRandom) (hp : Hyper) (ha : 0 < hp.alpha)
    (init : List (List Cond)) (tr : Frame) (cf : Feat) (pc : Val) (fuel : Nat) (g g' : R.G)
    (m : Fitted) (h : irepFit fuel R hp init tr cf pc g = .ok (m, g')) :
    ∃ unc, (∀ df : Frame, df.UniqueIndex → HasFeatures df m.ruleset.rules →
      ∃ probas, m.ruleset.predictProba df = .ok probas ∧
        ProbaAnswer m.ruleset.rules df unc
          (fun r => smoothedWhere tr cf pc hp.alpha (fun row => Fires row r)) probas) ∧
      (tr.UniqueIndex → hp.lim.maxTotalConds = none →
        PrintsApart (fun c => (TrainCond tr cf c ∧ SeenCond tr cf c) ∨ ∃ r ∈ init, c ∈ r) →
        unc = smoothedWhere tr cf pc hp.alpha (fun row => ¬ FiresAny row m.ruleset.rules)) := by
  obtain ⟨h1, unc, h2, h3, h4⟩ := irepFit_probas ha h
  exact ⟨unc, fun df hu hf => predictProba_answer hu hf h2 h3 h1 (fun r _ => smooth_dist ha _ _), h4⟩

/-- C38, RIPPER. The same, and the pair for negative predictions always is that of the training rows the
model predicts negative. -/
theorem C38_ripper_probabilities [Arith] (R : PyRandom) (hp : Hyper) (ha : 0 < hp.alpha)
    (init : List (List Cond)) (tr : Frame) (hut : tr.UniqueIndex) (cf : Feat) (pc : Val) (fuel : Nat) (g g' : R.G)
    (m : Fitted) (h : ripperFit fuel R hp init tr cf pc g = .ok (m, g')) (df : Frame) (hu : df.UniqueIndex)
    (hf : HasFeatures df m.ruleset.rules) :
    ∃ probas, m.ruleset.predictProba df = .ok probas ∧
      ProbaAnswer m.ruleset.rules df
        (smoothedWhere tr cf pc hp.alpha (fun row => ¬ FiresAny row m.ruleset.rules))
        (fun r => smoothedWhere tr cf pc hp.alpha (fun row => Fires row r)) probas := by
  have hcf := ripperFit_class h
  obtain ⟨_, cn, rules, _, _, _, _, _, rs0, _, hrec⟩ := ripperFit_ok h
  have hfeat : HasFeatures tr rs0.rules := by
    by_contra hn
    rw [recalibrate_missing hn] at hrec
    simp at hrec
  have hc := recalibrate_conds rs0 tr cf pc hp.alpha
  rw [hrec] at hc
  simp only at hc
  obtain ⟨rs', h1, h2, h3⟩ := C38_recalibrated_probabilities rs0 tr cf pc hp.alpha ha hut hcf hfeat none false
  unfold recalibrateProba at h1
  simp only [hrec, Prod.mk.injEq, and_true] at h1
  subst h1
  obtain ⟨probas, h4, h5⟩ := h3 df hu (hasFeatures_conds hc.symm hf)
  have : (fun row => ¬ FiresAny row rs0.rules) = (fun row => ¬ FiresAny row m.ruleset.rules) := by
    funext row
    rw [← rulesMet_iff, ← rulesMet_iff, rulesMet_conds hc]
  rw [this] at h5
  exact ⟨probas, h4, h5⟩

/-! Calibration data for the examples: positives `a=x`. -/
namespace Demo
/-- Four labelled rows. -/
def cal : Frame := Frame.ofTable [fa, fb, fc]
  [(0, [vx, vx, vp]), (1, [vx, vy, vp]), (2, [vx, vx, vn]), (3, [vy, vy, vn])]
end Demo

example : Demo.cal.UniqueIndex ∧ HasFeatures Demo.cal Demo.rs.rules ∧ HasFeatures Demo.df Demo.rs.rules ∧
    (recalibrateProba Demo.rs Demo.cal Demo.fc Demo.vp none false 1).2 = none ∧
    (recalibrateProba Demo.rs Demo.cal Demo.fc Demo.vp none false 1).1.predictProba Demo.df =
      .ok [(9 / 20, 11 / 20), (1 / 2, 1 / 2), (2 / 3, 1 / 3)] := by
  refine ⟨by unfold Frame.UniqueIndex; decide +kernel, ?_, ?_, by decide +kernel, by decide +kernel⟩
  · unfold HasFeatures; decide +kernel
  · unfold HasFeatures; decide +kernel

/-- C38 is false for repeated labels: a row predicted positive gets the pair (0, 0), which is no
distribution. -/
theorem C38_refuted_duplicate_labels :
    ∃ (rs : Ruleset) (df : Frame), HasFeatures df rs.rules ∧
      (recalibrateProba rs Demo.cal Demo.fc Demo.vp none false 1).2 = none ∧
      rs.predict df = .ok [true, true] ∧
      (recalibrateProba rs Demo.cal Demo.fc Demo.vp none false 1).1.predictProba df = .ok [(0, 0), (0, 0)] := by
  refine ⟨{ rules := [Demo.rb] }, Demo.dup, by unfold HasFeatures; decide +kernel, by decide +kernel,
    by decide +kernel, by decide +kernel⟩

/-- C38, IREP with `max_total_conds`: calibration happens before the rules are trimmed, so the pair given
to rows predicted negative is not that of the training rows the final model predicts negative: here the
final model (trimmed to one of two rules) leaves 1 positive and 1 negative row uncovered, but answers
(2/3, 1/3) for uncovered rows. -/
theorem C38_irep_refuted_trimmed :
    let tr := Frame.ofTable [Demo.fa, Demo.fc]
      [(0, [Demo.vx, Demo.vp]), (1, [.str p!"z", Demo.vp]), (2, [Demo.vy, Demo.vn])]
    (irepFit 9 Demo.R0 { pruneSize := none, lim := { maxTotalConds := some 1 } }
        [[⟨Demo.fa, .str p!"z"⟩], [⟨Demo.fa, Demo.vx⟩]] tr Demo.fc Demo.vp ()).map
      (fun m => (m.1.ruleset.rules.map Rule.conds, m.1.ruleset.predict tr, m.1.ruleset.predictProba tr)) =
      .ok ([[⟨Demo.fa, .str p!"z"⟩]], .ok [false, true, false],
        .ok [(2 / 3, 1 / 3), (1 / 3, 2 / 3), (2 / 3, 1 / 3)]) := by
  decide +kernel

/-- Predictions depend only on the conditions of the rules. -/
theorem predict_conds {rs rs' : Ruleset} (hc : rs'.rules.map Rule.conds = rs.rules.map Rule.conds) (df : Frame) :
    rs'.predict df = rs.predict df := by
  have hnil : (∃ r ∈ rs'.rules, r.conds = []) ↔ (∃ r ∈ rs.rules, r.conds = []) := by
    have : ∀ cs, cs ∈ rs'.rules.map Rule.conds ↔ cs ∈ rs.rules.map Rule.conds := fun cs => by rw [hc]
    simpa only [List.mem_map] using this []
  have hfe : HasFeatures df rs'.rules ↔ HasFeatures df rs.rules :=
    ⟨hasFeatures_conds hc.symm, hasFeatures_conds hc⟩
  by_cases h : (∃ r ∈ rs.rules, r.conds = []) ∨ HasFeatures df rs.rules
  · rw [Ruleset.predict_ok h, Ruleset.predict_ok (by rw [hnil, hfe]; exact h)]
    simp only [rulesMet_conds hc]
  · rw [Ruleset.predict_err h, Ruleset.predict_err (by rw [hnil, hfe]; exact h)]

/-- C39. `recalibrate_proba` changes no prediction and no rule, whether it succeeds or raises, on any data,
with any `alpha`, `min_samples` and `require_min_samples`. -/
theorem C39_predictions_unchanged (rs : Ruleset) (cal df : Frame) (cf : Feat) (pc : Val) (alpha : Rat)
    (ms : Option Int) (require : Bool) :
    (recalibrateProba rs cal cf pc ms require alpha).1.rules.map Rule.conds = rs.rules.map Rule.conds ∧
    (recalibrateProba rs cal cf pc ms require alpha).1.predict df = rs.predict df :=
  have hc : (recalibrateProba rs cal cf pc ms require alpha).1.rules.map Rule.conds = rs.rules.map Rule.conds :=
    recalibrate_conds rs cal cf pc alpha
  ⟨hc, predict_conds hc df⟩

theorem calibrate_ns (alpha : Rat) (ns : Int × Int) (old : Calib) : (calibrate alpha ns old).1.ns = some ns ∧
    (calibrate alpha ns old).1.freqs =
      some (rateOrZero ns.1 (ns.1 + ns.2), rateOrZero ns.2 (ns.1 + ns.2)) := by
  unfold calibrate
  simp only
  split <;> exact ⟨rfl, rfl⟩

/-- What calibration without an exception stores in every rule, whatever `alpha`. -/
theorem recalRules_counts {df : Frame} {cf : Feat} {pc : Val} {alpha : Rat} (hcf : cf ∈ df.cols) :
    ∀ {rs : List Rule}, HasFeatures df rs → (recalRules df cf pc alpha rs).2 = none →
    ∀ r ∈ (recalRules df cf pc alpha rs).1,
      r.cal.ns = some ((negIn df cf pc (condsMet r.conds) : Int), (posIn df cf pc (condsMet r.conds) : Int)) ∧
      r.cal.freqs = some
        (rateOrZero (negIn df cf pc (condsMet r.conds))
          ((negIn df cf pc (condsMet r.conds) : Int) + (posIn df cf pc (condsMet r.conds) : Int)),
         rateOrZero (posIn df cf pc (condsMet r.conds))
          ((negIn df cf pc (condsMet r.conds) : Int) + (posIn df cf pc (condsMet r.conds) : Int)))
  | [], _, _ => by simp [recalRules]
  | r :: rs, hf, h => by
    have hr := hf r List.mem_cons_self
    have key : ((recalRule df cf pc alpha r).1.cal.ns = some ((negIn df cf pc (condsMet r.conds) : Int), (posIn df cf pc (condsMet r.conds) : Int)) ∧
      (recalRule df cf pc alpha r).1.cal.freqs = some
        (rateOrZero (negIn df cf pc (condsMet r.conds))
          ((negIn df cf pc (condsMet r.conds) : Int) + (posIn df cf pc (condsMet r.conds) : Int)),
         rateOrZero (posIn df cf pc (condsMet r.conds))
          ((negIn df cf pc (condsMet r.conds) : Int) + (posIn df cf pc (condsMet r.conds) : Int)))) ∧
        (recalRule df cf pc alpha r).1.conds = r.conds := by
      refine ⟨?_, recalRule_conds df cf pc alpha r⟩
      unfold recalRule Rule.covers
      rw [condsCover_ok hr]
      simp only [ok_bind, numPos, Frame.keep, hcf, if_true, pure_eq_ok, posRows]
      have hsum := posIn_add_negIn df cf pc (condsMet r.conds)
      have e1 : ((df.rows.filter (condsMet r.conds)).length : Int) -
          (((df.rows.filter (condsMet r.conds)).filter (fun r => (r.cell cf).pyEq pc)).length : Int) =
          (negIn df cf pc (condsMet r.conds) : Int) := by
        rw [← hsum]; unfold posIn; push_cast; omega
      rw [e1]
      exact calibrate_ns alpha _ r.cal
    unfold recalRules at h ⊢
    rcases h1 : recalRule df cf pc alpha r with ⟨r', o⟩
    rw [h1] at h key
    cases o with
    | some e => simp at h
    | none =>
      simp only at h key ⊢
      intro s hs
      rcases List.mem_cons.mp hs with rfl | hs
      · rw [key.2]; exact key.1
      · exact recalRules_counts hcf (fun r' hr' => hf r' (List.mem_cons_of_mem _ hr')) h s hs

namespace Spec
/-- The proportions of `n` and `p` in their sum (zeros if there is nothing to count). -/
def proportions (n p : Nat) : Rat × Rat :=
  if n + p = 0 then (0, 0) else ((n : Rat) / ((n : Rat) + p), (p : Rat) / ((n : Rat) + p))
end Spec

theorem rates_eq (n p : Nat) :
    (rateOrZero (n : Int) ((n : Int) + (p : Int)), rateOrZero (p : Int) ((n : Int) + (p : Int))) = proportions n p := by
  unfold rateOrZero proportions
  by_cases h : n + p = 0
  · have : (n : Int) + (p : Int) = 0 := by omega
    simp [h, this]
  · have : ¬ (n : Int) + (p : Int) = 0 := by omega
    simp only [h, this, if_false]
    push_cast
    rfl

open Classical in
/-- C39, counts. Whenever `recalibrate_proba` succeeds, the class counts of every rule are the numbers of
negative and positive calibration rows it covers (so they sum to the number of rows it covers), and the
uncovered counts are those of the rows predicted negative; the stored frequencies are their proportions. -/
theorem C39_counts_add_up (rs rs' : Ruleset) (cal : Frame) (hu : cal.UniqueIndex) (cf : Feat) (pc : Val)
    (alpha : Rat) (ms : Option Int) (require : Bool) (hcf : cf ∈ cal.cols)
    (h : recalibrateProba rs cal cf pc ms require alpha = (rs', none)) :
    (∀ r ∈ rs'.rules, ∃ n p : Nat, r.cal.ns = some ((n : Int), (p : Int)) ∧
      r.cal.freqs = some (proportions n p) ∧
      n = nNegWhere cal cf pc (fun row => Fires row r) ∧ p = nPosWhere cal cf pc (fun row => Fires row r) ∧
      n + p = cal.rows.countP (fun row => decide (Fires row r))) ∧
    (∃ n p : Nat, rs'.uncov.ns = some ((n : Int), (p : Int)) ∧
      rs'.uncov.freqs = some (proportions n p) ∧
      n = nNegWhere cal cf pc (fun row => ¬ FiresAny row rs.rules) ∧
      p = nPosWhere cal cf pc (fun row => ¬ FiresAny row rs.rules) ∧
      ∃ ps, rs.predict cal = .ok ps ∧ n + p = ps.countP (fun b => !b)) := by
  unfold recalibrateProba at h
  simp only at h
  have hfeat : HasFeatures cal rs.rules := by
    by_contra hn
    rw [recalibrate_missing hn] at h
    simp at h
  have hs := features_ok_iff.mpr hfeat
  unfold recalibrate at h
  simp only [hs, Bool.false_eq_true, if_false] at h
  have hcnt := recalRules_counts (df := cal) (cf := cf) (pc := pc) (alpha := alpha) hcf hfeat
  have hcond := recalRules_conds cal cf pc alpha rs.rules
  rcases hr : recalRules cal cf pc alpha rs.rules with ⟨rules, o⟩
  rw [hr] at h hcnt hcond
  cases o with
  | some e => simp at h
  | none =>
    simp only at h hcnt hcond
    obtain ⟨d, hd, hcols, hrows⟩ := Ruleset.covers_ok (rs := { rs with rules := rules }) (df := cal)
      (Or.inr (hasFeatures_conds hcond hfeat))
    have hd' : Ruleset.covers { rules := rules, uncov := rs.uncov, possible := rs.possible } cal = .ok d := hd
    simp only [hd', ok_bind, Frame.dropLabels, numNeg, Frame.keep, hcf, if_true, pure_eq_ok, negRows] at h
    have hun : ∀ row, (!d.index.contains row.label) = rowUncovered rs.rules cal row := by
      intro row
      unfold rowUncovered
      congr 1
      rw [Bool.eq_iff_iff]
      simp only [Frame.index, List.contains_iff_mem, List.mem_map, List.any_eq_true, Bool.and_eq_true, beq_iff_eq]
      constructor
      · rintro ⟨x, hx, he⟩
        obtain ⟨h1, h2⟩ := (hrows x).mp hx
        exact ⟨x, h1, he, by rw [← rulesMet_conds hcond]; exact h2⟩
      · rintro ⟨x, hx, he, hm⟩
        exact ⟨x, (hrows x).mpr ⟨hx, by rw [rulesMet_conds hcond]; exact hm⟩, he⟩
    have hfil : (cal.rows.filter fun r => !d.index.contains r.label) = cal.rows.filter (rowUncovered rs.rules cal) :=
      List.filter_congr (fun x _ => hun x)
    rw [hfil] at h
    have hsum := posIn_add_negIn cal cf pc (rowUncovered rs.rules cal)
    have e1 : ((cal.rows.filter (rowUncovered rs.rules cal)).length : Int) -
        (((cal.rows.filter (rowUncovered rs.rules cal)).filter (fun r => !(r.cell cf).pyEq pc)).length : Int) =
        (posIn cal cf pc (rowUncovered rs.rules cal) : Int) := by
      rw [← hsum]; unfold negIn; push_cast; omega
    rw [e1] at h
    have hcal := calibrate_ns alpha ((negIn cal cf pc (rowUncovered rs.rules cal) : Int),
      (posIn cal cf pc (rowUncovered rs.rules cal) : Int)) rs.uncov
    have hrs : rs'.rules = rules ∧ rs'.uncov = (calibrate alpha ((negIn cal cf pc (rowUncovered rs.rules cal) : Int),
      (posIn cal cf pc (rowUncovered rs.rules cal) : Int)) rs.uncov).1 := by
      rw [← (Prod.mk.inj h).1]; exact ⟨rfl, rfl⟩
    constructor
    · intro r hr
      rw [hrs.1] at hr
      obtain ⟨k1, k2⟩ := hcnt trivial r hr
      have hm : ∀ row ∈ cal.rows, condsMet r.conds row = true ↔ Fires row r := fun row _ => condsMet_iff
      refine ⟨_, _, k1, by rw [k2, rates_eq], negIn_eq hm, posIn_eq hm, ?_⟩
      rw [add_comm, posIn_add_negIn, ← List.countP_eq_length_filter]
      apply List.countP_congr
      intro row hrow
      rw [decide_eq_true_eq]
      exact hm row hrow
    · have hun : ∀ row ∈ cal.rows, rowUncovered rs.rules cal row = true ↔ ¬ FiresAny row rs.rules := by
        intro row hrow
        rw [rowUncovered_unique hu hrow, ← rulesMet_iff]; simp
      refine ⟨_, _, by rw [hrs.2]; exact hcal.1, by rw [hrs.2, hcal.2, rates_eq], negIn_eq hun, posIn_eq hun, _,
        Ruleset.predict_unique hu (Or.inr hfeat), ?_⟩
      rw [add_comm, posIn_add_negIn, ← List.countP_eq_length_filter, List.countP_map]
      apply List.countP_congr
      intro row hrow
      rw [rowUncovered_unique hu hrow]
      rfl

example : (recalibrateProba Demo.rs Demo.cal Demo.fc Demo.vp none false 1).1.rules.map (·.cal.ns) =
    [some (1, 2), some (1, 1)] ∧
    (recalibrateProba Demo.rs Demo.cal Demo.fc Demo.vp none false 1).1.uncov.ns = some (1, 0) := by
  decide +kernel

/-- C39, `alpha = 0`. When a rule covers no calibration row, recalibration stops with ZeroDivisionError:
the rules before it have been recalibrated, those after it and the uncovered pair have not. -/
theorem C39_refuted_alpha_zero :
    let rs : Ruleset := { rules := [Demo.rx, { conds := [⟨Demo.fa, .str p!"z"⟩] }, Demo.rb] }
    (recalibrateProba rs Demo.cal Demo.fc Demo.vp none false 0).2 = some .zeroDivision ∧
    (recalibrateProba rs Demo.cal Demo.fc Demo.vp none false 0).1.rules.map (·.cal.smoothed) =
      [some (1 / 3, 2 / 3), none, none] ∧
    (recalibrateProba rs Demo.cal Demo.fc Demo.vp none false 0).1.uncov.smoothed = none := by
  decide +kernel

/-- C40 is false: with `require_min_samples=True` and `min_samples=20`, calibrating on a single row (each rule
has fewer than 20 samples) nevertheless replaces the probabilities: the second calibration changes the
answer of the first. -/
theorem C40_refuted_min_samples_ignored :
    ∃ (rs : Ruleset) (cal df : Frame),
      rs.predictProba df = .ok [(9 / 20, 11 / 20), (1 / 2, 1 / 2), (2 / 3, 1 / 3)] ∧
      cal.rows.length < 20 ∧
      (recalibrateProba rs cal Demo.fc Demo.vp (some 20) true 1).2 = none ∧
      (recalibrateProba rs cal Demo.fc Demo.vp (some 20) true 1).1.predictProba df =
        .ok [(1 / 3, 2 / 3), (1 / 3, 2 / 3), (1 / 2, 1 / 2)] := by
  refine ⟨(recalibrateProba Demo.rs Demo.cal Demo.fc Demo.vp none false 1).1,
    { Demo.cal with rows := Demo.cal.rows.take 1 }, Demo.df, by decide +kernel, by decide +kernel, by decide +kernel, by decide +kernel⟩

/-- C40. In fact `min_samples` and `require_min_samples` never influence anything. -/
theorem C40_parameters_ignored (rs : Ruleset) (cal : Frame) (cf : Feat) (pc : Val) (alpha : Rat)
    (ms ms' : Option Int) (require require' : Bool) :
    recalibrateProba rs cal cf pc ms require alpha = recalibrateProba rs cal cf pc ms' require' alpha := rfl

end Witt
