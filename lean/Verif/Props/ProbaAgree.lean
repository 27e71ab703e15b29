import Verif.Props.ProbaApi
import Verif.Props.FitTrain
import Verif.Props.RoundedProba
/-
C100: when `predict` is the more probable class of `predict_proba`.
-/
namespace Witt
open Spec

namespace Spec
/-- `predict` (`ps`) says True exactly on the rows to which `predict_proba` (`qs`) gives the positive class more than 1/2. -/
def SidesAgree (ps : List Bool) (qs : List (Rat × Rat)) : Prop :=
  ps.length = qs.length ∧ ∀ (i : Nat) p q, ps[i]? = some p → qs[i]? = some q → (p = true ↔ 1 / 2 < q.2)
/-- Among the raw labelled rows that satisfy `P`, the positive ones are more. -/
def MostlyPositive (data : TFrame) (cf : Feat) (pc : Val) (P : Row → Prop) : Prop :=
  nNegWhere data.toFrame cf pc P < nPosWhere data.toFrame cf pc P
end Spec

/-- The larger smoothed frequency is the larger count. -/
theorem smooth_side {alpha : Rat} (ha : 0 < alpha) (n p : Nat) : 1 / 2 < (smooth alpha n p).2 ↔ n < p := by
  unfold smooth
  have hn : (0 : Rat) ≤ n := by exact_mod_cast n.zero_le
  have hp : (0 : Rat) ≤ p := by exact_mod_cast p.zero_le
  have hd : (0 : Rat) < (n : Rat) + p + 2 * alpha := by linarith
  simp only
  rw [lt_div_iff₀ hd]
  constructor
  · intro h
    have : (n : Rat) < p := by linarith
    exact_mod_cast this
  · intro h
    have : (n : Rat) < p := by exact_mod_cast h
    linarith

theorem sum_gt_half {l : List Rat} (hne : l ≠ []) (h : ∀ x ∈ l, 1 / 2 < x) : (l.length : Rat) / 2 < l.sum := by
  induction l with
  | nil => exact absurd rfl hne
  | cons x l ih =>
    have hx := h x (by simp)
    rw [List.length_cons, List.sum_cons]
    push_cast
    by_cases hl : l = []
    · subst hl; simp; linarith
    · have := ih hl (fun y hy => h y (by simp [hy]))
      linarith

theorem sum_le_half {l : List Rat} (h : ∀ x ∈ l, x ≤ 1 / 2) : l.sum ≤ (l.length : Rat) / 2 := by
  induction l with
  | nil => simp
  | cons x l ih =>
    have hx := h x (by simp)
    have := ih (fun y hy => h y (by simp [hy]))
    rw [List.length_cons, List.sum_cons]
    push_cast
    linarith

theorem mean_gt_half {l : List (Rat × Rat)} (hne : l ≠ []) (h : ∀ x ∈ l, 1 / 2 < x.2) : 1 / 2 < (mean l).2 := by
  unfold mean
  have hl : (0 : Rat) < l.length := by exact_mod_cast List.length_pos_iff.mpr hne
  have := sum_gt_half (l := l.map Prod.snd) (by simpa using hne) (by
    intro x hx; obtain ⟨y, hy, rfl⟩ := List.mem_map.mp hx; exact h y hy)
  rw [List.length_map] at this
  simp only
  rw [lt_div_iff₀ hl]
  linarith

theorem mean_le_half {l : List (Rat × Rat)} (hne : l ≠ []) (h : ∀ x ∈ l, x.2 ≤ 1 / 2) : (mean l).2 ≤ 1 / 2 := by
  unfold mean
  have hl : (0 : Rat) < l.length := by exact_mod_cast List.length_pos_iff.mpr hne
  have := sum_le_half (l := l.map Prod.snd) (by
    intro x hx; obtain ⟨y, hy, rfl⟩ := List.mem_map.mp hx; exact h y hy)
  rw [List.length_map] at this
  simp only
  rw [div_le_iff₀ hl]
  linarith

/-- The three cases of an answer, by sides. -/
theorem rawAnswer_sides {F : PyFloat} {b b0 : Binner} {X df0 : TFrame} {cf : Feat} {pc : Val} {alpha : Rat} (ha : 0 < alpha)
    {rules : List Rule} {unc : Rat × Rat} {qs : List (Rat × Rat)}
    (h : RawProbaAnswer F b X rules unc (rawFreq F b0 df0 cf pc alpha) qs) (i : Nat) (hi : i < X.rows.length) :
    ∃ q, qs[i]? = some q ∧
      (RawFiresAny F b X X.rows[i] rules →
        (∀ r ∈ rules, RawFires F b X X.rows[i] r → MostlyPositive df0 cf pc (RawFires F b0 df0 · r)) → 1 / 2 < q.2) ∧
      (RawFiresAny F b X X.rows[i] rules →
        (∀ r ∈ rules, RawFires F b X X.rows[i] r → ¬ MostlyPositive df0 cf pc (RawFires F b0 df0 · r)) → q.2 ≤ 1 / 2) ∧
      (¬ RawFiresAny F b X X.rows[i] rules → q = unc) := by
  classical
  obtain ⟨q, hq, _, hno, hyes⟩ := h.2 i hi
  refine ⟨q, hq, fun hf hall => ?_, fun hf hall => ?_, hno⟩
  all_goals
    rw [hyes hf]
    have hne : ((rules.filter (fun r => decide (RawFires F b X X.rows[i] r))).map (rawFreq F b0 df0 cf pc alpha)) ≠ [] := by
      obtain ⟨r, hr, h1⟩ := hf
      intro hnil
      rw [List.map_eq_nil_iff, List.filter_eq_nil_iff] at hnil
      exact hnil r hr (by simpa using h1)
  · refine mean_gt_half hne (fun x hx => ?_)
    obtain ⟨r, hr, rfl⟩ := List.mem_map.mp hx
    obtain ⟨hr, h1⟩ := List.mem_filter.mp hr
    exact (smooth_side ha _ _).mpr (hall r hr (by simpa using h1))
  · refine mean_le_half hne (fun x hx => ?_)
    obtain ⟨r, hr, rfl⟩ := List.mem_map.mp hx
    obtain ⟨hr, h1⟩ := List.mem_filter.mp hr
    exact not_lt.mp (fun hn => hall r hr (by simpa using h1) ((smooth_side ha _ _).mp hn))

/-- C100, row by row, for every training method. On raw data with distinct row labels, a row that some rule fires on gets more than
1/2 for the positive class if each rule firing on it fired on more positive than negative training rows, and at most 1/2 if none did
(so if a single rule fires on it, its side is that rule's side). `alpha > 0` does not matter. -/
theorem C100_side_of_the_rules [Arith] [Arith.Lawful] (a : Method) (R : PyRandom) (F : PyFloat) (hF : F.Lawful) (P : PandasCut)
    (hP : P.Lawful F) (d : FitData) (hd : (d.names.getD d.X.cols).Nodup) (init : ModelArg) (c c' : Clf) (ha : 0 < c.hyper.alpha)
    (h : FittedBy a R F P d init c c') (df0 : TFrame) (hdf0 : toTraining d.X d.y (classFeatName d.classFeat d.y) d.names = .ok df0)
    (rs : Ruleset) (hrs : c'.ruleset = some rs) (b : Binner) (hb : c'.binner = some b) (pc : Val) (hpc : c'.posClass = some pc)
    (X : TFrame) (hX : X.UniqueIndex) (qs : List (Rat × Rat)) (hq : returned (Clf.predictProba F X none c') = .ok qs) :
    qs.length = X.rows.length ∧ ∀ (i : Nat) (hi : i < X.rows.length), RawFiresAny F b X X.rows[i] rs.rules → ∃ q, qs[i]? = some q ∧
      ((∀ r ∈ rs.rules, RawFires F b X X.rows[i] r →
        MostlyPositive df0 (classFeatName d.classFeat d.y) pc (RawFires F b df0 · r)) → 1 / 2 < q.2) ∧
      ((∀ r ∈ rs.rules, RawFires F b X X.rows[i] r →
        ¬ MostlyPositive df0 (classFeatName d.classFeat d.y) pc (RawFires F b df0 · r)) → q.2 ≤ 1 / 2) := by
  obtain ⟨rs1, b1, df1, pc1, unc, h1, h2, h3, h4, h5, _⟩ := C38_fit_probabilities a R F hF P hP d hd init c c' ha h
  rw [hrs] at h1; cases h1
  rw [hb] at h2; cases h2
  rw [hpc] at h3; cases h3
  rw [hdf0] at h4; cases h4
  have hans := h5 X hX qs hq
  refine ⟨hans.1, fun i hi hf => ?_⟩
  obtain ⟨q, e1, e2, e3, _⟩ := rawAnswer_sides ha hans i hi
  exact ⟨q, e1, e2 hf, e3 hf⟩

theorem sidesAgree_of {F : PyFloat} {b b0 : Binner} {X df0 : TFrame} {cf : Feat} {pc : Val} {alpha : Rat} (ha : 0 < alpha)
    {rules : List Rule} {unc : Rat × Rat} {qs : List (Rat × Rat)}
    (h : RawProbaAnswer F b X rules unc (rawFreq F b0 df0 cf pc alpha) qs) (hunc : unc = rawRest F b0 df0 cf pc alpha rules)
    (hrules : ∀ r ∈ rules, MostlyPositive df0 cf pc (RawFires F b0 df0 · r))
    (hrest : ¬ MostlyPositive df0 cf pc (fun row => ¬ RawFiresAny F b0 df0 row rules))
    {ps : List Bool} (hlen : ps.length = X.rows.length)
    (hps : ∀ (i : Nat) (hi : i < X.rows.length), ps[i]? = some true ↔ RawFiresAny F b X X.rows[i] rules) : SidesAgree ps qs := by
  refine ⟨hlen.trans h.1.symm, fun i p q hp hq => ?_⟩
  have hi : i < X.rows.length := by
    rw [← hlen]; exact (List.getElem?_eq_some_iff.mp hp).1
  obtain ⟨q', e1, e2, _, e4⟩ := rawAnswer_sides ha h i hi
  rw [hq] at e1; cases e1
  have hpi := hps i hi
  rw [hp, Option.some.injEq] at hpi
  rw [hpi]
  constructor
  · intro hf
    exact e2 hf (fun r hr _ => hrules r hr)
  · intro hh
    by_contra hn
    rw [e4 hn, hunc] at hh
    exact hrest ((smooth_side ha _ _).mp hh)

/-- C100, criterion. If every fitted rule fires on more positive than negative training rows, and of the training rows no rule fires on
no more are positive than negative, then on all raw data with distinct row labels on which both answer, `predict` says True exactly
where `predict_proba` gives the positive class more than 1/2. For RIPPER on distinct row labels; for IREP also without
`max_total_conds` and initial model and with nothing in the data printing like something else. -/
theorem C100_criterion [Arith] [Arith.Lawful] (a : Method) (R : PyRandom) (F : PyFloat) (hF : F.Lawful) (P : PandasCut)
    (hP : P.Lawful F) (d : FitData) (hd : (d.names.getD d.X.cols).Nodup) (init : ModelArg) (c c' : Clf) (ha : 0 < c.hyper.alpha)
    (h : FittedBy a R F P d init c c') (df0 : TFrame) (hdf0 : toTraining d.X d.y (classFeatName d.classFeat d.y) d.names = .ok df0)
    (hu0 : df0.UniqueIndex)
    (hmethod : (∃ S, a = .ripper ∨ a = .ripperPlain S) ∨ ((a = .irep ∨ ∃ S : SetOps, S.Lawful ∧ a = .irepPlain S) ∧ c.hyper.lim.maxTotalConds = none ∧ init = .nothing ∧
      ReadsApart df0.toFrame (classFeatName d.classFeat d.y)))
    (rs : Ruleset) (hrs : c'.ruleset = some rs) (b : Binner) (hb : c'.binner = some b) (pc : Val) (hpc : c'.posClass = some pc)
    (hrules : ∀ r ∈ rs.rules, MostlyPositive df0 (classFeatName d.classFeat d.y) pc (RawFires F b df0 · r))
    (hrest : ¬ MostlyPositive df0 (classFeatName d.classFeat d.y) pc (fun row => ¬ RawFiresAny F b df0 row rs.rules))
    (X : TFrame) (hX : X.UniqueIndex) (ps : List Bool) (hp : Clf.predict F X none c' = .ok ps c') (qs : List (Rat × Rat))
    (hq : returned (Clf.predictProba F X none c') = .ok qs) : SidesAgree ps qs := by
  obtain ⟨rs1, b1, df1, pc1, unc, h1, h2, h3, h4, h5, h6, h7⟩ := C38_fit_probabilities a R F hF P hP d hd init c c' ha h
  rw [hrs] at h1; cases h1
  rw [hb] at h2; cases h2
  rw [hpc] at h3; cases h3
  rw [hdf0] at h4; cases h4
  obtain ⟨rs2, b2, e1, e2, e3, e4⟩ := C64_conditions_on_raw_data a R F hF P hP d hd init c c' h X hX ps hp
  rw [hrs] at e1; cases e1
  rw [hb] at e2; cases e2
  refine sidesAgree_of ha (h5 X hX qs hq) ?_ hrules hrest e3 e4
  rcases hmethod with hm | ⟨hm1, hm2, hm3, hm4⟩
  · exact h6 hm hu0
  · exact h7 hm1 hu0 hm2 hm3 hm4

theorem rawFiresAny_conds {F : PyFloat} {b : Binner} {X : TFrame} {row : Row} {rules rules' : List Rule}
    (h : rules.map Rule.conds = rules'.map Rule.conds) : RawFiresAny F b X row rules ↔ RawFiresAny F b X row rules' := by
  have key : ∀ l : List Rule, RawFiresAny F b X row l ↔ ∃ r ∈ l.map Rule.conds, ∀ cond ∈ r, RawMeets F b X row cond := by
    intro l
    unfold RawFiresAny RawFires
    constructor
    · rintro ⟨r, hr, h⟩; exact ⟨r.conds, List.mem_map.mpr ⟨r, hr, rfl⟩, h⟩
    · rintro ⟨_, hr, h⟩
      obtain ⟨r, hr', rfl⟩ := List.mem_map.mp hr
      exact ⟨r, hr', h⟩
  rw [key, key, h]

/-- C100, criterion after `recalibrate_proba`: the same on the calibration data, for every training method and initial model, at any
point of the object's life. -/
theorem C100_criterion_recalibrated [Arith] (a : Method) (R : PyRandom) (F : PyFloat) (hF : F.Lawful) (P : PandasCut)
    (hP : P.Lawful F) (d : FitData) (hd : (d.names.getD d.X.cols).Nodup) (init : ModelArg) (c0 c1 c c' : Clf) (ha : 0 < c0.hyper.alpha)
    (h : FittedBy a R F P d init c0 c1) (hused : Used F c1 c) (X : TFrame) (y : Option YArg) (names : Option (List Feat))
    (ms : Option Int) (req disc : Bool) (hrec : Clf.recalibrate F X y names ms req disc c = .ok () c')
    (df0 : TFrame) (hdf0 : toTraining X y (classFeatName d.classFeat d.y) names = .ok df0) (hu0 : df0.UniqueIndex)
    (rs : Ruleset) (hrs : c'.ruleset = some rs) (b : Binner) (hb : c1.binner = some b) (pc : Val) (hpc : c1.posClass = some pc)
    (hrules : ∀ r ∈ rs.rules,
      MostlyPositive df0 (classFeatName d.classFeat d.y) pc (RawFires F (if disc then b else {}) df0 · r))
    (hrest : ¬ MostlyPositive df0 (classFeatName d.classFeat d.y) pc
      (fun row => ¬ RawFiresAny F (if disc then b else {}) df0 row rs.rules))
    (X' : TFrame) (hX' : X'.UniqueIndex) (ps : List Bool) (hp : returned (Clf.predict F X' none c') = .ok ps) (qs : List (Rat × Rat))
    (hq : returned (Clf.predictProba F X' none c') = .ok qs) : SidesAgree ps qs := by
  obtain ⟨rs1, b1, df1, pc1, unc, h1, h2, h3, h4, h5, h6⟩ :=
    C38_recalibrate_probabilities a R F hF P hP d hd init c0 c1 c c' ha h hused X y names ms req disc hrec
  rw [hrs] at h1; cases h1
  rw [hb] at h2; cases h2
  rw [hpc] at h3; cases h3
  rw [hdf0] at h4; cases h4
  have hused' : Used F c1 c' := by
    have := Used.recalibrate (F := F) X y names ms req disc c hused
    rw [hrec] at this; exact this
  obtain ⟨e1, e2⟩ := C39_history_keeps_predictions a R F hF P hP d hd init c0 c1 c' h hused' X' none
  rw [hp] at e1
  obtain ⟨rs0, b0, sel, _, hr0, _⟩ := FittedBy.ready hF hP hd h
  have hp1 : Clf.predict F X' none c1 = .ok ps c1 := by
    rw [predict_eq_query] at e1 ⊢
    rw [query_ready hr0] at e1 ⊢
    rw [returned_outcome] at e1
    rw [← e1]; rfl
  obtain ⟨rs2, b2, f1, f2, f3, f4⟩ := C64_conditions_on_raw_data a R F hF P hP d hd init c0 c1 h X' hX' ps hp1
  rw [hb] at f2; cases f2
  rw [hrs, f1] at e2
  simp only [Option.map_some, Option.some.injEq] at e2
  refine sidesAgree_of ha (h5 X' hX' qs hq) (h6 hu0) hrules hrest f3 (fun i hi => ?_)
  rw [f4 i hi]
  exact (rawFiresAny_conds e2).symm

theorem nNegWhere_zero {df : Frame} {cf : Feat} {pc : Val} {P : Row → Prop} (h : ∀ row ∈ df.rows, P row → Positive cf pc row) :
    nNegWhere df cf pc P = 0 := by
  unfold nNegWhere
  rw [List.countP_eq_zero]
  intro row hrow
  simp only [decide_eq_true_eq, not_and, not_not]
  exact h row hrow

theorem nPosWhere_zero {df : Frame} {cf : Feat} {pc : Val} {P : Row → Prop} (h : ∀ row ∈ df.rows, P row → ¬ Positive cf pc row) :
    nPosWhere df cf pc P = 0 := by
  unfold nPosWhere
  rw [List.countP_eq_zero]
  intro row hrow
  simp only [decide_eq_true_eq, not_and]
  exact h row hrow

theorem nPosWhere_pos {df : Frame} {cf : Feat} {pc : Val} {P : Row → Prop} (h : ∃ row ∈ df.rows, P row ∧ Positive cf pc row) :
    0 < nPosWhere df cf pc P := by
  unfold nPosWhere
  rw [List.countP_pos_iff]
  obtain ⟨row, h1, h2⟩ := h
  exact ⟨row, h1, by simpa using h2⟩

/-- Every rule IREP learns (with or without pruning) fires on a positive training row. -/
theorem irep_rule_hits [Arith] [Arith.Lawful] {R : PyRandom} (hR : R.Lawful) {hp : Hyper} {df : Frame} {cf : Feat} {pc : Val}
    (hu : df.UniqueIndex) {fuel : Nat} {g g' : R.G} {m : Fitted} (h : irepFit fuel R hp [] df cf pc g = .ok (m, g')) :
    ∀ r ∈ m.ruleset.rules, ∃ row ∈ df.rows, Fires row r ∧ Positive cf pc row := by
  obtain ⟨_, cn, st, hb, hg, hmm, _⟩ := irepFit_ok h
  obtain ⟨s, hs, h1, _⟩ := irepGrowCn_reach hg
  intro r hr
  have hmem : r.conds ∈ m.ruleset.rules.map Rule.conds := List.mem_map.mpr ⟨r, hr, rfl⟩
  rw [hmm] at hmem
  have hmem := (finish_sublist _ _).subset hmem
  rw [h1] at hmem
  have hw := CatNap.build_WF hb
  rcases hs.rule _ hmem with h | ⟨s1, s2, h2, h3⟩
  · cases h
  · have hsub : ∀ l ∈ s1.pos, ∃ row ∈ df.rows, row.label = l ∧ Positive cf pc row := fun l hl => mem_posLabels.mp (h2.pos_sub l hl)
    obtain ⟨l, hl, hh⟩ := h3.covers hR hw (fun l hl => by
      obtain ⟨row, hrow, rfl, _⟩ := hsub l hl
      rw [CatNap.mem_all hb]
      exact List.mem_map.mpr ⟨row, hrow, rfl⟩)
    have hov : OverCols df cf r.conds := fun c hc => overCols_conds hb (h3.conds hw c hc)
    obtain ⟨row, hrow, hlab, hf⟩ := (CatNap.hit_iff hb hu hov).mp hh
    obtain ⟨row', hrow', hlab', hpos⟩ := hsub l hl
    rw [← row_eq_of_label hu hrow hrow' (hlab.trans hlab'.symm)] at hpos
    exact ⟨row, hrow, hf, hpos⟩

/-- `C27_irep_covers_positives_data` in terms of rules that fire. -/
theorem irep_fires_positives [Arith] [Arith.Lawful] {R : PyRandom} {hp : Hyper} (hprune : hp.irepPrune = 0)
    (hl : hp.lim.maxRules = none ∧ hp.lim.maxTotalConds = none ∧ hp.lim.minRulesetSamples = none)
    {df : Frame} {cf : Feat} {pc : Val} (hu : df.UniqueIndex) (hr : ReadsApart df cf)
    {fuel : Nat} {g g' : R.G} {m : Fitted} (h : irepFit fuel R hp [] df cf pc g = .ok (m, g')) :
    ∀ row ∈ df.rows, Positive cf pc row → FiresAny row m.ruleset.rules := by
  obtain ⟨p, hpr, hcov⟩ := C27_irep_covers_positives_data R hp hprune hl df cf pc hu hr fuel g g' m h
  have hfeat : HasFeatures (df.dropCol cf) m.ruleset.rules := by
    intro r hr' cond hc'
    rcases C29_irep_no_leakage R hp _ _ _ _ fuel g g' m h r hr' with h | h
    · simp at h
    · exact Frame.mem_dropCol.mpr ⟨(h cond hc').1.1, (h cond hc').1.2.1⟩
  have hpu := Ruleset.predict_unique (df := df.dropCol cf) (rs := m.ruleset) hu (Or.inr hfeat)
  rw [hpr] at hpu
  injection hpu with hpu
  have hpu : df.rows.map p = df.rows.map (rulesMet m.ruleset.rules) := hpu
  rw [List.map_inj_left] at hpu
  intro row hrow hp
  rw [← rulesMet_iff, ← hpu row hrow]
  exact hcov row hrow hp

/-- C100, the case where it always holds. `IREP(prune_size=None)` (or 0) without limits and initial model, fitted on valid data with
distinct row labels in which nothing prints like something else: if no positive row has a missing value or looks, after
discretisation, like a negative one, then on all raw data with distinct row labels on which both answer, whatever `alpha > 0`,
`predict` says True exactly where `predict_proba` gives the positive class more than 1/2. -/
theorem C100_irep_on_consistent_data [Arith] [Arith.Lawful] (R : PyRandom) (hR : R.Lawful) (F : PyFloat) (hF : F.Lawful) (P : PandasCut)
    (hP : P.Lawful F) (d : FitData) (hd : (d.names.getD d.X.cols).Nodup) (c c' : Clf) (ha : 0 < c.hyper.alpha)
    (h : FittedBy .irep R F P d .nothing c c')
    (df0 : TFrame) (hdf0 : toTraining d.X d.y (classFeatName d.classFeat d.y) d.names = .ok df0) (hu : df0.UniqueIndex)
    (hr : ReadsApart df0.toFrame (classFeatName d.classFeat d.y)) (pc : Val) (hpc : c'.posClass = some pc)
    (b : Binner) (hb : c'.binner = some b)
    (hm : ∀ row ∈ df0.rows, Positive (classFeatName d.classFeat d.y) pc row →
      RawComplete F b df0 (classFeatName d.classFeat d.y) row)
    (hc : ∀ row ∈ df0.rows, ∀ row' ∈ df0.rows, Positive (classFeatName d.classFeat d.y) pc row →
      RawAlike F b df0 (classFeatName d.classFeat d.y) row row' → Positive (classFeatName d.classFeat d.y) pc row')
    (hprune : c.hyper.irepPrune = 0) (hl : c.hyper.lim = {}) (hs : Arith.SharpUpTo df0.rows.length)
    (X : TFrame) (hX : X.UniqueIndex) (ps : List Bool) (hp : Clf.predict F X none c' = .ok ps c') (qs : List (Rat × Rat))
    (hq : returned (Clf.predictProba F X none c') = .ok qs) : SidesAgree ps qs := by
  have hby := h
  obtain ⟨fuel, g, g', h⟩ := h
  obtain ⟨df1, df, pc1, b1, start, m, G, K, ht, _, hst, htrain, rfl, hdf, hn, hcf, hGcf, hmeets, hshape⟩ := Method.fit_frames hF hP hd h
  rw [hdf0] at ht; injection ht with ht; subst ht
  obtain rfl : pc = pc1 := by injection hpc with hpc; exact hpc.symm
  have hb' : b1 = b := by simpa [Clf.fitted] using hb
  subst hb'
  cases hst
  refine C100_criterion .irep R F hF P hP d hd .nothing c _ ha hby df0 hdf0 hu (Or.inr ⟨Or.inl rfl, by rw [hl], rfl, hr⟩) m.ruleset rfl b1 rfl
    pc rfl ?_ ?_ X hX ps hp qs hq
  all_goals
    generalize classFeatName d.classFeat d.y = cf at *
    have hpos : ∀ row : Row, Positive cf pc { row with cell := fun f => G f (row.cell f) } ↔ Positive cf pc row := by
      intro row; unfold Positive; simp only [hGcf]
    have hu' : df.UniqueIndex := by
      subst hdf
      unfold Frame.UniqueIndex at *
      simpa [TFrame.mapAll, Frame.index, Function.comp_def] using hu
    have hra : ReadsApart df.toFrame cf := by rw [hdf]; exact mapAll_readsApart hr hshape
    have hmiss : ∀ row ∈ df.rows, Positive cf pc row → NoMissing df.toFrame cf row := by
      intro row hrow hp f hf hne hnan
      rw [hdf] at hrow hf
      obtain ⟨row0, hrow0, rfl⟩ := List.mem_map.mp hrow
      obtain ⟨v, hv'⟩ := hm row0 hrow0 ((hpos row0).mp hp) f hf hne
      have := (hmeets ⟨f, v⟩ row0 hf).mpr hv'
      simp only at this hnan
      rw [hnan] at this
      rcases this with ⟨s, h, _⟩ | ⟨q, t, u, h, _⟩ <;> cases h
    have hcons : Consistent df.toFrame cf pc := by
      intro x hx y hy hp hal
      rw [hdf] at hx hy
      obtain ⟨x0, hx0, rfl⟩ := List.mem_map.mp hx
      obtain ⟨y0, hy0, rfl⟩ := List.mem_map.mp hy
      refine (hpos y0).mpr (hc x0 hx0 y0 hy0 ((hpos x0).mp hp) ?_)
      intro cond hcol hne
      rw [← hmeets cond x0 hcol, ← hmeets cond y0 hcol]
      have hs := hal cond.feature (by rw [hdf]; exact hcol) hne
      exact ⟨fun h => same_trans' (same_symm' hs) h, fun h => same_trans' hs h⟩
    have hfeat := (Method.train_probas (a := .irep) (df := df.toFrame) ha (by rw [hdf]; exact hcf) htrain).1
    have hfires : ∀ r ∈ m.ruleset.rules, ∀ row, Fires { row with cell := fun f => G f (row.cell f) } r ↔ RawFires F b1 df0 row r := by
      intro r hr row
      rw [hdf] at hfeat
      exact ⟨fun h cond hcond => (hmeets cond row (hfeat r hr cond hcond)).mp (h cond hcond),
        fun h cond hcond => (hmeets cond row (hfeat r hr cond hcond)).mpr (h cond hcond)⟩
    have hmem : ∀ row0 ∈ df0.rows, ({ row0 with cell := fun f => G f (row0.cell f) } : Row) ∈ df.rows := by
      intro row0 h0; rw [hdf]; exact List.mem_map.mpr ⟨row0, h0, rfl⟩
    have hno := C69_irep_no_false_positives R hR c.hyper hprune (by rw [hl]; exact ⟨rfl, rfl⟩) df.toFrame cf pc hu'
      (by rw [hdf]; show Arith.SharpUpTo (List.map _ df0.rows).length; rw [List.length_map]; exact hs)
      hmiss hcons fuel g g' m htrain
  · intro r hrm
    unfold MostlyPositive
    rw [nNegWhere_zero]
    · refine nPosWhere_pos ?_
      obtain ⟨row, hrow, hf, hp⟩ := irep_rule_hits hR hu' htrain r hrm
      rw [hdf] at hrow
      obtain ⟨row0, hrow0, rfl⟩ := List.mem_map.mp hrow
      exact ⟨row0, hrow0, (hfires r hrm row0).mp hf, (hpos row0).mp hp⟩
    · intro row0 h0 hf
      exact (hpos row0).mp (hno _ (hmem row0 h0) ⟨r, hrm, (hfires r hrm row0).mpr hf⟩)
  · unfold MostlyPositive
    rw [nPosWhere_zero]
    · omega
    · intro row0 h0 hf hp
      exact hf (by
        obtain ⟨r, hrm, h1⟩ := irep_fires_positives hprune (by rw [hl]; exact ⟨rfl, rfl, rfl⟩) hu' hra htrain _ (hmem row0 h0) ((hpos row0).mpr hp)
        exact ⟨r, hrm, (hfires r hrm row0).mp h1⟩)
namespace Demo
/-- One positive row and three negative ones, all different. -/
def lone : Frame := Frame.ofTable [fa, fb, fc] [(0, [vx, vy, vn]), (1, [vy, vy, vn]), (2, [vx, vx, vp]), (3, [vy, vx, vn])]
/-- Three positive and five negative rows; no positive row looks like a negative one. -/
def mostlyNo : Frame := Frame.ofTable [fa, fb, fc] [(0, [vy, vy, vn]), (1, [vy, vy, vn]), (2, [vx, vy, vp]), (3, [vy, vy, vn]),
  (4, [vx, vx, vn]), (5, [vy, vx, vp]), (6, [vy, vx, vp]), (7, [vx, vx, vn])]
/-- One positive row that looks like three negative ones. -/
def blurred : Frame := Frame.ofTable [fa, fc] [(0, [vx, vn]), (1, [vx, vn]), (2, [vx, vp]), (3, [vx, vn])]
end Demo

/-- The hypotheses of `C100_irep_on_consistent_data` hold of exclusive or (see the example of C69), on which both answer, and agree. -/
example : 0 < Demo.newIrep.hyper.alpha ∧ ∃ c', FittedBy .irep Demo.R0 Demo.F Demo.P Demo.xorData .nothing Demo.newIrep c' ∧
    returned (Clf.predict Demo.F Demo.xorX none c') = .ok [true, true, false, false] ∧
    returned (Clf.predictProba Demo.F Demo.xorX none c') = .ok [(1 / 3, 2 / 3), (1 / 3, 2 / 3), (3 / 4, 1 / 4), (3 / 4, 1 / 4)] ∧
    SidesAgree [true, true, false, false] [(1 / 3, 2 / 3), (1 / 3, 2 / 3), (3 / 4, 1 / 4), (3 / 4, 1 / 4)] := by
  obtain ⟨g', c', h⟩ := C35_irep_fit_on_valid_data Demo.R0 Demo.R0_lawful Demo.F Demo.F_lawful Demo.P Demo.P_lawful Demo.xorData
    Demo.xor_valid .nothing { rules := [] } rfl (by rintro f ⟨r, hr, _⟩; simp at hr) Demo.newIrep
    (Or.inl (by decide +kernel)) (by decide +kernel) 5 (by decide +kernel) ()
  have hc' : c' = after (Clf.irepFit 5 Demo.R0 Demo.F Demo.P Demo.xorData .nothing () Demo.newIrep) := by rw [h]; rfl
  refine ⟨by decide +kernel, c', ⟨5, (), g', h⟩, by rw [hc']; decide +kernel, by rw [hc']; decide +kernel, rfl, ?_⟩
  intro i p q hp hq
  match i with
  | 0 | 1 | 2 | 3 => cases hp; cases hq; decide +kernel
  | i + 4 => cases hp

/-- C100 without a hypothesis on the data is false even without pruning: where a positive row looks like three negative ones, the rule
that covers it covers them all, and `predict` says True on rows with probability 1/3. -/
theorem C100_refuted_inconsistent_data :
    Demo.blurred.UniqueIndex ∧
    (irepFit 9 Demo.R0 { pruneSize := none } [] Demo.blurred Demo.fc Demo.vp ()).map
      (fun m => (m.1.ruleset.rules.map Rule.conds, m.1.ruleset.predict Demo.blurred, m.1.ruleset.predictProba Demo.blurred)) =
      .ok ([[]], .ok [true, true, true, true], .ok [(2 / 3, 1 / 3), (2 / 3, 1 / 3), (2 / 3, 1 / 3), (2 / 3, 1 / 3)]) := by
  refine ⟨by unfold Frame.UniqueIndex; decide +kernel, by decide +kernel⟩

/-- C100 is false with the default settings, on consistent data. IREP: a rule pruned to nothing accepts everything, with probability
1/3. RIPPER: the rows predicted True have probability 2/5, less than the 3/7 of the rows predicted False. -/
theorem C100_refuted_defaults :
    Demo.lone.UniqueIndex ∧ Consistent Demo.lone Demo.fc Demo.vp ∧ Demo.mostlyNo.UniqueIndex ∧ Consistent Demo.mostlyNo Demo.fc Demo.vp ∧
    (irepFit 9 Demo.R0 {} [] Demo.lone Demo.fc Demo.vp ()).map
      (fun m => (m.1.ruleset.rules.map Rule.conds, m.1.ruleset.predict Demo.lone, m.1.ruleset.predictProba Demo.lone)) =
      .ok ([[]], .ok [true, true, true, true], .ok [(2 / 3, 1 / 3), (2 / 3, 1 / 3), (2 / 3, 1 / 3), (2 / 3, 1 / 3)]) ∧
    (ripperFit 30 Demo.R0 {} [] Demo.mostlyNo Demo.fc Demo.vp ()).map
      (fun m => (m.1.ruleset.rules.map Rule.conds, m.1.ruleset.predict Demo.mostlyNo, m.1.ruleset.predictProba Demo.mostlyNo)) =
      .ok ([[⟨Demo.fa, Demo.vx⟩]], .ok [false, false, true, false, true, false, false, true],
        .ok [(4 / 7, 3 / 7), (4 / 7, 3 / 7), (3 / 5, 2 / 5), (4 / 7, 3 / 7), (3 / 5, 2 / 5), (4 / 7, 3 / 7), (4 / 7, 3 / 7), (3 / 5, 2 / 5)]) := by
  refine ⟨by unfold Frame.UniqueIndex; decide +kernel, by decide +kernel, by unfold Frame.UniqueIndex; decide +kernel, by decide +kernel,
    by decide +kernel, by decide +kernel⟩
end Witt
