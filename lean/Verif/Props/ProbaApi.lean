import Verif.Props.Inputs
import Verif.Props.PlainApi
/-
C38 and C39 for the API: predict_proba of a fitted and of a recalibrated classifier, in terms of raw data.
-/
namespace Witt
open Spec

namespace Spec
/-- All conditions of the rule hold of the raw row (a condition on a binned column: the number lies in its range). -/
def RawFires (F : PyFloat) (b : Binner) (X : TFrame) (row : Row) (r : Rule) : Prop := ∀ cond ∈ r.conds, RawMeets F b X row cond
/-- Some rule does. -/
def RawFiresAny (F : PyFloat) (b : Binner) (X : TFrame) (row : Row) (rules : List Rule) : Prop := ∃ r ∈ rules, RawFires F b X row r
open Classical in
/-- `probas` are the answers for the raw data `X`: one distribution per row; the pair `unc` on the rows no rule fires on; on every
other row the mean of the frequencies `freq` of exactly the rules that fire on it. -/
def RawProbaAnswer (F : PyFloat) (b : Binner) (X : TFrame) (rules : List Rule) (unc : Rat × Rat) (freq : Rule → Rat × Rat)
    (probas : List (Rat × Rat)) : Prop :=
  probas.length = X.rows.length ∧
  ∀ (i : Nat) (h : i < X.rows.length), ∃ p, probas[i]? = some p ∧ Distribution p ∧
    (¬ RawFiresAny F b X X.rows[i] rules → p = unc) ∧
    (RawFiresAny F b X X.rows[i] rules →
      p = mean ((rules.filter (fun r => decide (RawFires F b X X.rows[i] r))).map freq))
/-- The smoothed class frequencies of the raw labelled rows the rule fires on. -/
noncomputable def rawFreq (F : PyFloat) (b : Binner) (X : TFrame) (cf : Feat) (pc : Val) (alpha : Rat) (r : Rule) : Rat × Rat :=
  smoothedWhere X.toFrame cf pc alpha (fun row => RawFires F b X row r)
/-- The smoothed class frequencies of the raw labelled rows no rule fires on. -/
noncomputable def rawRest (F : PyFloat) (b : Binner) (X : TFrame) (cf : Feat) (pc : Val) (alpha : Rat) (rules : List Rule) : Rat × Rat :=
  smoothedWhere X.toFrame cf pc alpha (fun row => ¬ RawFiresAny F b X row rules)
end Spec

theorem hasFeatures_of_recal {rs rs' : Ruleset} {df : Frame} {cf : Feat} {pc : Val} {alpha : Rat}
    (h : recalibrate rs df cf pc alpha = (rs', none)) : HasFeatures df rs.rules := by
  by_contra hn
  rw [recalibrate_missing hn] at h
  simp at h

/-- What a calibration that succeeds leaves in the ruleset. -/
theorem recalibrate_probas {rs rs' : Ruleset} {df : Frame} {cf : Feat} {pc : Val} {alpha : Rat} (ha : 0 < alpha) (hcf : cf ∈ df.cols)
    (h : recalibrate rs df cf pc alpha = (rs', none)) :
    (∀ r ∈ rs'.rules, r.cal.smoothed = some (smoothedWhere df cf pc alpha (fun row => Fires row r))) ∧
    ∃ unc, rs'.uncov.smoothed = some unc ∧ Distribution unc ∧
      (df.UniqueIndex → unc = smoothedWhere df cf pc alpha (fun row => ¬ FiresAny row rs'.rules)) := by
  have hfc := hasFeatures_of_recal h
  rw [recalibrate_ok ha hcf hfc] at h
  simp only [Prod.mk.injEq, and_true] at h
  subst h
  refine ⟨fun r hr => ?_, _, calibOf_smooth .., smooth_dist ha _ _, fun hu => ?_⟩
  · obtain ⟨r0, _, rfl⟩ := List.mem_map.mp hr
    exact recalOf_smoothed df cf pc alpha r0
  · have hun : ∀ row ∈ df.rows, rowUncovered rs.rules df row = true ↔ ¬ FiresAny row (rs.rules.map (recalOf df cf pc alpha)) := by
      intro row hrow
      have hc : (rs.rules.map (recalOf df cf pc alpha)).map Rule.conds = rs.rules.map Rule.conds := by
        simp [Function.comp_def, recalOf]
      rw [rowUncovered_unique hu hrow, ← rulesMet_iff, rulesMet_conds hc]
      simp
    rw [negIn_eq hun, posIn_eq hun]
    rfl

/-- What training with any method leaves in the ruleset. -/
theorem Method.train_probas [Arith] [Arith.Lawful] {a : Method} {fuel : Nat} {R : PyRandom} {hp : Hyper} (ha : 0 < hp.alpha) {old : Option (List Cond)}
    {init : List (List Cond)} {df : Frame} {cf : Feat} (hcf : cf ∈ df.cols) {pc : Val} {g g' : R.G} {m : Fitted}
    (h : a.train fuel R hp old init df cf pc g = .ok (m, g')) : HasFeatures df m.ruleset.rules ∧
    (∀ r ∈ m.ruleset.rules, r.cal.smoothed = some (smoothedWhere df cf pc hp.alpha (fun row => Fires row r))) ∧
    ∃ unc, m.ruleset.uncov.smoothed = some unc ∧ Distribution unc ∧
      ((∃ S, a = .ripper ∨ a = .ripperPlain S) → df.UniqueIndex →
        unc = smoothedWhere df cf pc hp.alpha (fun row => ¬ FiresAny row m.ruleset.rules)) ∧
      ((a = .irep ∨ ∃ S : SetOps, S.Lawful ∧ a = .irepPlain S) → df.UniqueIndex → hp.lim.maxTotalConds = none →
        PrintsApart (fun c => (TrainCond df cf c ∧ SeenCond df cf c) ∨ (∃ r ∈ init, c ∈ r) ∨ (a.sets ≠ none ∧ c ∈ old.getD [])) →
        unc = smoothedWhere df cf pc hp.alpha (fun row => ¬ FiresAny row m.ruleset.rules)) := by
  cases a with
  | irep =>
    obtain ⟨h1, unc, h2, h3, h4⟩ := irepFit_probas ha h
    refine ⟨?_, h1, unc, h2, h3, ?_, fun _ hu hl ht => h4 hu hl fun c1 c2 k1 k2 => ht c1 c2 (k1.imp_right Or.inl) (k2.imp_right Or.inl)⟩
    · obtain ⟨_, cn, st, _, _, _, _, _, ⟨rs1, hrec, hsub, _⟩, _⟩ := irepFit_ok h
      have hf := hasFeatures_of_recal hrec
      have hc := recalibrate_conds { rules := st.rules.map (fun c => ({ conds := c } : Rule)), possible := some cn.conds } df cf pc hp.alpha
      rw [hrec] at hc
      exact fun r hr => hasFeatures_conds hc hf r (hsub r hr)
    · rintro ⟨S, h | h⟩ <;> cases h
  | ripper =>
    obtain ⟨_, cn, rules, _, _, _, _, _, rs0, _, hrec⟩ := ripperFit_ok h
    obtain ⟨h1, unc, h2, h3, h4⟩ := recalibrate_probas ha hcf hrec
    have hc := recalibrate_conds rs0 df cf pc hp.alpha
    rw [hrec] at hc
    exact ⟨hasFeatures_conds hc (hasFeatures_of_recal hrec), h1, unc, h2, h3, fun _ => h4, (by rintro (h | ⟨S, _, h⟩) <;> cases h)⟩
  | irepPlain S =>
    obtain ⟨_, _, st, hg, hm, _, _, ⟨rs1, hrec, hsub, hunc⟩, _⟩ := irepFitPlain_ok h
    obtain ⟨h1, unc, h2, h3, h4⟩ := recalibrate_probas ha hcf hrec
    have hc := recalibrate_conds { rules := st.rules.map (fun c => ({ conds := c } : Rule)), possible := some (updatedConds S old (posExamples df cf pc) (negExamples df cf pc)) } df cf pc hp.alpha
    rw [hrec] at hc
    refine ⟨fun r hr => hasFeatures_conds hc (hasFeatures_of_recal hrec) r (hsub r hr), fun r hr => h1 r (hsub r hr), unc,
      by rw [hunc]; exact h2, h3, (by rintro ⟨S, h | h⟩ <;> cases h), ?_⟩
    rintro (h | ⟨S', hS, h⟩) hu hl htext
    · cases h
    cases h
    have hcond : ∀ r ∈ st.rules, ∀ c ∈ r, (TrainCond df cf c ∧ SeenCond df cf c) ∨ (∃ r ∈ init, c ∈ r) ∨
        ((Method.irepPlain S).sets ≠ none ∧ c ∈ old.getD []) := by
      intro r hr c hcr
      obtain ⟨s, hs, e1, _⟩ := irepGrow_reach hg
      rw [e1] at hr
      rcases hs.rule r hr with hi | ⟨s1, s2, _, had⟩
      · exact Or.inr (Or.inl ⟨r, hi, hcr⟩)
      · obtain ⟨a, b, r', k1, k2⟩ := had.grown
        have hcl := shared_closed (df := df) (cf := cf) (pc := pc) (S := S) (old := old)
          (pos := posExamples df cf pc) (neg := negExamples df cf pc) (Q := fun c => c ∈ old.getD [] ∨ SharedCond df cf pc c) hS
          (fun c h => Or.inr h) (fun c h _ => Or.inl h) (fun _ h => h) (fun _ h => h) rfl
        rcases hcl.pre _ _ (hcl.grow hcl.nil k1) k2 c hcr with h | ⟨h, ⟨row, h5, _, h6⟩, _⟩
        · exact Or.inr (Or.inr ⟨by simp [Method.sets], h⟩)
        · exact Or.inl ⟨h, h.1, h.2.1, row, h5, h6⟩
    have hun := uncovered_final hm hu hl htext hcond
    have key : ∀ row ∈ df.rows, ¬ FiresAny row rs1.rules ↔ ¬ FiresAny row m.ruleset.rules := by
      intro row hrow
      rw [← hun row hrow, rowUncovered_unique hu hrow, Bool.not_eq_true', ← Bool.not_eq_true, rulesMet_iff, not_iff_not,
        ← rulesMet_iff, ← rulesMet_iff, rulesMet_conds hc]
    rw [h4 hu]
    unfold smoothedWhere nNegWhere nPosWhere
    congr 1 <;>
    · apply List.countP_congr
      intro row hrow
      simp only [decide_eq_true_eq, key row hrow]
  | ripperPlain S =>
    obtain ⟨_, _, rules, _, _, _, _, rs0, _, hrec⟩ := ripperFitPlain_ok h
    obtain ⟨h1, unc, h2, h3, h4⟩ := recalibrate_probas ha hcf hrec
    have hc := recalibrate_conds rs0 df cf pc hp.alpha
    rw [hrec] at hc
    exact ⟨hasFeatures_conds hc (hasFeatures_of_recal hrec), h1, unc, h2, h3, fun _ => h4, (by rintro (h | ⟨S, _, h⟩) <;> cases h)⟩

/-- Counting in the discretised frame is counting in the raw one. -/
theorem smoothedWhere_mapAll {X : TFrame} {G : Feat → Val → Val} {K : Feat → Kind} {cf : Feat} {pc : Val} {alpha : Rat}
    (hG : ∀ v, G cf v = v) {P Q : Row → Prop}
    (h : ∀ row, P { row with cell := fun f => G f (row.cell f) } ↔ Q row) :
    smoothedWhere (X.mapAll G K).toFrame cf pc alpha P = smoothedWhere X.toFrame cf pc alpha Q := by
  have this : ∀ row : Row, Positive cf pc { row with cell := fun f => G f (row.cell f) } ↔ Positive cf pc row := by
    intro row
    simp [Positive, hG]
  unfold smoothedWhere nNegWhere nPosWhere
  simp only [TFrame.mapAll, List.countP_map]
  congr 1 <;>
  · apply List.countP_congr
    intro row _
    simp only [Function.comp_def, decide_eq_true_eq, h, this]

/-- Answers for the discretised data are answers for the raw data. -/
theorem rawProbaAnswer_of {F : PyFloat} {b : Binner} {X X0 : TFrame} {G : Feat → Val → Val} {K : Feat → Kind} {rules : List Rule}
    (hrows : X0.rows = X.rows)
    (hm : ∀ r ∈ rules, ∀ row, Fires { row with cell := fun f => G f (row.cell f) } r ↔ RawFires F b X row r)
    {unc : Rat × Rat} {freq : Rule → Rat × Rat} {probas : List (Rat × Rat)}
    (h : ProbaAnswer rules (X0.mapAll G K).toFrame unc freq probas) : RawProbaAnswer F b X rules unc freq probas := by
  obtain ⟨h1, h2⟩ := h
  have hlen : (X0.mapAll G K).rows.length = X.rows.length := by simp [TFrame.mapAll, hrows]
  refine ⟨h1.trans hlen, fun i hi => ?_⟩
  obtain ⟨p, hp, hd, hno, hyes⟩ := h2 i (by rw [hlen]; exact hi)
  have he : (X0.mapAll G K).rows[i]'(by rw [hlen]; exact hi) = { X.rows[i] with cell := fun f => G f (X.rows[i].cell f) } := by
    simp [TFrame.mapAll, hrows]
  simp only [he] at hno hyes
  have hany : FiresAny { X.rows[i] with cell := fun f => G f (X.rows[i].cell f) } rules ↔ RawFiresAny F b X X.rows[i] rules := by
    unfold FiresAny RawFiresAny
    exact ⟨fun ⟨r, hr, h⟩ => ⟨r, hr, (hm r hr _).mp h⟩, fun ⟨r, hr, h⟩ => ⟨r, hr, (hm r hr _).mpr h⟩⟩
  refine ⟨p, hp, hd, fun h => hno (fun h' => h (hany.mp h')), fun h => ?_⟩
  rw [hyes (hany.mpr h)]
  congr 2
  apply List.filter_congr
  intro r hr
  simp only [decide_eq_decide]
  exact hm r hr _

/-- predict_proba of an object with the given rules, on raw data. -/
theorem raw_proba {F : PyFloat} (hF : F.Lawful) {P : PandasCut} (hP : P.Lawful F) {c : Clf} {rs : Ruleset} {cf : Feat} {b : Binner}
    {sel : List Feat} (hr : Ready c rs cf b sel) (hus : Usable F b) (hsel : ∀ f, Tested rs f → f ∈ sel) {n : Option Nat} {df0 : TFrame}
    {ignore : List Feat} (hc : df0.cols.Nodup) (hb : b = Binner.fit F P n df0 ignore) {unc : Rat × Rat} {freq : Rule → Rat × Rat}
    (hunc : rs.uncov.smoothed = some unc) (hd : Distribution unc)
    (hfr : ∀ r ∈ rs.rules, r.cal.smoothed = some (freq r)) (hfd : ∀ r ∈ rs.rules, Distribution (freq r))
    {X : TFrame} (hu : X.UniqueIndex) {qs : List (Rat × Rat)} (hq : returned (Clf.predictProba F X none c) = .ok qs) :
    RawProbaAnswer F b X rs.rules unc freq qs := by
  rw [Clf.predictProba, probaQuery_ready hr] at hq
  obtain ⟨X', hX', hq⟩ := bind_ok_iff.mp hq
  have hX : X.rows ≠ [] := by
    intro he
    unfold preprocessPrediction at hX'
    rw [if_pos he] at hX'
    cases hX'
  have hs : ∀ f ∈ sel, f ∈ X.cols ∧ f ≠ cf := by
    by_contra hn
    have hn : ∃ f ∈ sel, ¬ (f ∈ X.cols ∧ f ≠ cf) := by
      push Not at hn
      obtain ⟨f, hf, hn⟩ := hn
      exact ⟨f, hf, fun h => h.2 (hn h.1)⟩
    rw [preprocessPrediction_missing hX hn] at hX'
    cases hX'
  rw [preprocessPrediction_none hX hs] at hX'
  subst hb
  obtain ⟨G, K, rfl, hm, _⟩ := applyBins_meets hF hP hc hX'
  have hfeat : HasFeatures ((X.dropCol cf).mapAll G K).toFrame rs.rules := by
    rw [tested_iff]
    exact fun f hf => dropCol_cols.mpr (hs f (hsel f hf))
  have hidx : ((X.dropCol cf).mapAll G K).index = X.index := by
    simp [TFrame.mapAll, TFrame.dropCol, Frame.dropCol, Frame.index]
  obtain ⟨probas, h1, h2⟩ := predictProba_answer (rs := rs) (df := ((X.dropCol cf).mapAll G K).toFrame)
    (by unfold Frame.UniqueIndex; rw [hidx]; exact hu) hfeat hunc hd hfr hfd
  rw [h1] at hq
  cases hq
  refine rawProbaAnswer_of (X0 := X.dropCol cf) (K := K) (b := Binner.fit F P n df0 ignore) rfl (fun r hr row => ?_) h2
  have hcol : ∀ cond ∈ r.conds, cond.feature ∈ (X.dropCol cf).cols := fun cond hcond =>
    dropCol_cols.mpr (hs _ (hsel _ ⟨r, hr, cond, hcond, rfl⟩))
  have : ∀ cond ∈ r.conds, (Meets { row with cell := fun f => G f (row.cell f) } cond ↔
      RawMeets F (Binner.fit F P n df0 ignore) X row cond) := by
    intro cond hcond
    have := hm cond row (hcol cond hcond)
    exact this
  exact ⟨fun h cond hcond => (this cond hcond).mp (h cond hcond), fun h cond hcond => (this cond hcond).mpr (h cond hcond)⟩

/-- C38 for the API, after `fit`. With `alpha > 0`, whenever `predict_proba` of a fitted classifier answers on raw data with distinct
row labels, its rows are distributions: where no rule fires all get the same pair, elsewhere the mean over exactly the firing rules
of the smoothed class frequencies of the raw training rows each of them fires on. The pair for rows without a firing rule is that of
the training rows without one: for RIPPER on distinct row labels, for IREP if also `max_total_conds` is not set, no initial model is
given and nothing in the data prints like something else. -/
theorem C38_fit_probabilities [Arith] [Arith.Lawful] (a : Method) (R : PyRandom) (F : PyFloat) (hF : F.Lawful) (P : PandasCut) (hP : P.Lawful F)
    (d : FitData) (hd : (d.names.getD d.X.cols).Nodup) (init : ModelArg) (c c' : Clf) (ha : 0 < c.hyper.alpha)
    (h : FittedBy a R F P d init c c') :
    ∃ rs b df0 pc unc, c'.ruleset = some rs ∧ c'.binner = some b ∧ c'.posClass = some pc ∧
      toTraining d.X d.y (classFeatName d.classFeat d.y) d.names = .ok df0 ∧
      (∀ X : TFrame, X.UniqueIndex → ∀ qs, returned (Clf.predictProba F X none c') = .ok qs →
        RawProbaAnswer F b X rs.rules unc (rawFreq F b df0 (classFeatName d.classFeat d.y) pc c.hyper.alpha) qs) ∧
      ((∃ S, a = .ripper ∨ a = .ripperPlain S) → df0.UniqueIndex →
        unc = rawRest F b df0 (classFeatName d.classFeat d.y) pc c.hyper.alpha rs.rules) ∧
      ((a = .irep ∨ ∃ S : SetOps, S.Lawful ∧ a = .irepPlain S) → df0.UniqueIndex → c.hyper.lim.maxTotalConds = none → init = .nothing →
        ReadsApart df0.toFrame (classFeatName d.classFeat d.y) →
        unc = rawRest F b df0 (classFeatName d.classFeat d.y) pc c.hyper.alpha rs.rules) := by
  obtain ⟨fuel, g, g', h⟩ := h
  obtain ⟨df0, df, pc, b, start, m, G, K, ht, _, hst, htrain, hc', hdf, hn, hcf, hGcf, hm, hshape⟩ := Method.fit_frames hF hP hd h
  obtain ⟨rs, b', sel, df0', h1, h2, h3, _, h5, h6⟩ := FittedBy.ready hF hP hd ⟨fuel, g, g', h⟩
  subst hc'
  cases h1.rules
  cases h1.bins
  subst hdf
  obtain ⟨hfeat, hfr, unc, hunc, hdist, hrip, hirep⟩ := Method.train_probas (df := (df0.mapAll G K).toFrame) ha hcf htrain
  have hfires : ∀ r ∈ m.ruleset.rules, ∀ row, Fires { row with cell := fun f => G f (row.cell f) } r ↔ RawFires F b df0 row r := by
    intro r hr row
    exact ⟨fun h cond hcond => (hm cond row (hfeat r hr cond hcond)).mp (h cond hcond),
      fun h cond hcond => (hm cond row (hfeat r hr cond hcond)).mpr (h cond hcond)⟩
  have hany : ∀ row, ¬ FiresAny { row with cell := fun f => G f (row.cell f) } m.ruleset.rules ↔
      ¬ RawFiresAny F b df0 row m.ruleset.rules := by
    intro row
    rw [not_iff_not]
    exact ⟨fun ⟨r, hr, h⟩ => ⟨r, hr, (hfires r hr _).mp h⟩, fun ⟨r, hr, h⟩ => ⟨r, hr, (hfires r hr _).mpr h⟩⟩
  have hrest := smoothedWhere_mapAll (X := df0) (K := K) (pc := pc) (alpha := c.hyper.alpha) hGcf
    (P := fun row => ¬ FiresAny row m.ruleset.rules) (Q := fun row => ¬ RawFiresAny F b df0 row m.ruleset.rules) hany
  have huniq : df0.UniqueIndex → (df0.mapAll G K).UniqueIndex := by
    intro hu
    unfold Frame.UniqueIndex at *
    simpa [TFrame.mapAll, Frame.index, Function.comp_def] using hu
  refine ⟨m.ruleset, b, df0, pc, unc, rfl, rfl, rfl, ht, fun X hu qs hq => ?_, fun hs hu => ?_, fun hs hu hl hi hr => ?_⟩
  · refine raw_proba hF hP h1 h2 h3 h5 h6 hunc hdist (fun r hr => ?_) (fun r _ => smooth_dist ha _ _) hu hq
    rw [hfr r hr]
    exact congrArg some (smoothedWhere_mapAll hGcf (hfires r hr))
  · rw [hrip hs (huniq hu), hrest]; rfl
  · subst hi
    cases hst
    rw [hirep hs (huniq hu) hl ?_, hrest]; rfl
    intro c1 c2 h1 h2
    exact (mapAll_readsApart (K := K) hr hshape).printsApart c1 c2 (by simpa using h1) (by simpa using h2)

namespace Spec
/-- What `recalibrate_proba` objects to, on an object with the rules `rs`, class column `cf` and bins `b` (none: `discretize=False`),
and the exception. -/
inductive CalComplaint (rs : Ruleset) (cf : Feat) (b : Option Binner) (d : FitData) : PyErr → Prop
  | illFormed (e : PyErr) (h : Complaint { d with classFeat := some cf } e) : CalComplaint rs cf b d e
  | badText (bb : Binner) (hb : b = some bb) (df0 : TFrame) (h : ∀ e, ¬ Complaint { d with classFeat := some cf } e)
      (ht : toTraining d.X d.y cf d.names = .ok df0) (hbad : BadText bb df0) : CalComplaint rs cf b d .valueError
  | missing (df0 : TFrame) (h : ∀ e, ¬ Complaint { d with classFeat := some cf } e)
      (ht : toTraining d.X d.y cf d.names = .ok df0) (hok : ∀ bb, b = some bb → ¬ BadText bb df0) (f : Feat)
      (hf : Tested rs f) (hm : f ∉ df0.cols) : CalComplaint rs cf b d .indexError
end Spec

theorem Clf.recalibrate_ready {c : Clf} {rs : Ruleset} {cf : Feat} {b : Binner} {sel : List Feat} (hr : Ready c rs cf b sel) {pc : Val}
    (hpc : c.posClass = some pc) (F : PyFloat) (X : TFrame) (y : Option YArg) (names : Option (List Feat)) (ms : Option Int)
    (req disc : Bool) :
    Clf.recalibrate F X y names ms req disc c =
      match preprocessRecalibrate F X y cf (if disc then some b else none) names with
      | .error e => .error e c
      | .ok df => match recalibrateProba rs df.toFrame cf pc ms req c.hyper.alpha with
        | (rs', none) => .ok () { c with ruleset := some rs' }
        | (rs', some e) => .error e { c with ruleset := some rs' } := by
  unfold Clf.recalibrate
  rw [bind_ok (a := cf) (c' := c) (by rw [self_run]; simp [hr.classFeat, attr]),
    bind_ok (a := pc) (c' := c) (by rw [self_run]; simp [hpc, attr]),
    bind_ok (a := if disc then some b else none) (c' := c) (by
      cases disc with
      | false => rfl
      | true =>
        simp only [if_true]
        rw [bind_ok (a := b) (c' := c) (by rw [self_run]; simp [hr.bins, attr])]; rfl), bind_pureCode]
  cases preprocessRecalibrate F X y cf (if disc then some b else none) names with
  | error e => rfl
  | ok df =>
    simp only
    rw [bind_ok (a := rs) (c' := c) (by rw [self_run]; simp [hr.rules, attr]), bind_ok (get_run c)]
    rcases h : recalibrateProba rs df.toFrame cf pc ms req c.hyper.alpha with ⟨rs', _ | e⟩
    · exact modify_run _ _
    · simp only
      rw [bind_ok (modify_run _ _)]; rfl

namespace Spec
/-- The object after any history of queries and recalibrations, answered or raising. -/
inductive Used (F : PyFloat) (c0 : Clf) : Clf → Prop
  | start : Used F c0 c0
  | query (q : Call) (c : Clf) (h : Used F c0 c) : Used F c0 (after (q.run F c))
  | recalibrate (X : TFrame) (y : Option YArg) (names : Option (List Feat)) (ms : Option Int) (req disc : Bool) (c : Clf)
      (h : Used F c0 c) : Used F c0 (after (Clf.recalibrate F X y names ms req disc c))
end Spec

/-- All that such a history can change. -/
theorem Spec.Used.keeps {F : PyFloat} {c0 c : Clf} (h : Used F c0 c) {rs0 : Ruleset} {cf : Feat} {b : Binner} {sel : List Feat}
    (hr : Ready c0 rs0 cf b sel) :
    ∃ rs, Ready c rs cf b sel ∧ c.posClass = c0.posClass ∧ c.hyper = c0.hyper ∧ rs.rules.map Rule.conds = rs0.rules.map Rule.conds := by
  induction h with
  | start => exact ⟨rs0, hr, rfl, rfl, rfl⟩
  | query q c _ ih =>
    obtain ⟨rs, h1, h2, h3, h4⟩ := ih
    have hf := (call_facts F q c).effect
    have hb : (after (q.run F c)).binner = c.binner := by
      rcases hf.bins with h | ⟨h, _⟩
      · exact h
      · rw [h1.bins] at h; cases h
    have hrest := hf.rest
    rw [hb] at hrest
    generalize after (q.run F c) = c1 at *
    obtain ⟨k, hk⟩ : ∃ k, k = c1.classes := ⟨_, rfl⟩
    rw [← hk] at hrest
    rw [hrest]
    exact ⟨rs, ⟨h1.rules, h1.classFeat, h1.posClass, h1.bins, h1.selected, h1.trainFeats⟩, h2, h3, h4⟩
  | recalibrate X y names ms req disc c _ ih =>
    obtain ⟨rs, h1, h2, h3, h4⟩ := ih
    obtain ⟨pc, hpc⟩ := h1.posClass
    rw [Clf.recalibrate_ready h1 hpc]
    cases preprocessRecalibrate F X y cf (if disc then some b else none) names with
    | error e => exact ⟨rs, h1, h2, h3, h4⟩
    | ok df =>
      have hc : (recalibrateProba rs df.toFrame cf pc ms req c.hyper.alpha).1.rules.map Rule.conds = rs.rules.map Rule.conds :=
        recalibrate_conds rs df.toFrame cf pc c.hyper.alpha
      rcases h : recalibrateProba rs df.toFrame cf pc ms req c.hyper.alpha with ⟨rs', _ | e⟩ <;>
      · rw [h] at hc
        simp only [h]
        exact ⟨rs', ⟨rfl, h1.classFeat, h1.posClass, h1.bins, h1.selected, h1.trainFeats⟩, h2, h3, hc.trans h4⟩

/-- C39 for the API. After any history of queries and recalibrations, on any data, answered or raising, a fitted classifier
has the same rules and predicts the same, on any data: `predict` answers or raises as right after `fit`. -/
theorem C39_history_keeps_predictions [Arith] (a : Method) (R : PyRandom) (F : PyFloat) (hF : F.Lawful) (P : PandasCut) (hP : P.Lawful F)
    (d : FitData) (hd : (d.names.getD d.X.cols).Nodup) (init : ModelArg) (c0 c1 c : Clf) (h : FittedBy a R F P d init c0 c1)
    (hu : Used F c1 c) (X : TFrame) (names : Option (List Feat)) :
    returned (Clf.predict F X names c) = returned (Clf.predict F X names c1) ∧
    c.ruleset.map (fun rs => rs.rules.map Rule.conds) = c1.ruleset.map (fun rs => rs.rules.map Rule.conds) := by
  obtain ⟨rs1, b, sel, df0, h1, _⟩ := FittedBy.ready hF hP hd h
  obtain ⟨rs, h2, _, _, h4⟩ := hu.keeps h1
  refine ⟨?_, by rw [h1.rules, h2.rules]; simp [h4]⟩
  rw [predict_eq_query, query_ready h2, query_ready h1, returned_outcome, returned_outcome]
  congr 1
  funext df
  exact predict_conds h4 df.toFrame

theorem cal_preprocess {F : PyFloat} {X : TFrame} {y : Option YArg} {cf : Feat} {b : Option Binner} {names : Option (List Feat)}
    {df : TFrame} (h : preprocessRecalibrate F X y cf b names = .ok df) :
    (∀ e, ¬ Complaint { X := X, y := y, classFeat := some cf, names := names } e) ∧
    ∃ df0, toTraining X y cf names = .ok df0 ∧ (match b with | none => .ok df0 | some b => applyBins F b df0) = Except.ok df := by
  unfold preprocessRecalibrate at h
  obtain ⟨u, h1, h⟩ := bind_ok_iff.mp h
  obtain ⟨df0, h2, h⟩ := bind_ok_iff.mp h
  refine ⟨fun e he => ?_, df0, h2, ?_⟩
  · rcases complaint_labelled he with h' | ⟨_, h'⟩
    · have h'' : checkInput X y (some cf) names = .error e := h'
      rw [h1] at h''; cases h''
    · have h'' : toTraining X y cf names = .error e := h' cf
      rw [h2] at h''; cases h''
  · cases b with
    | none => exact h
    | some b => exact h

theorem cal_class {X : TFrame} {y : Option YArg} {cf : Feat} {names : Option (List Feat)} {df0 : TFrame}
    (hno : ∀ e, ¬ Complaint { X := X, y := y, classFeat := some cf, names := names } e)
    (ht : toTraining X y cf names = .ok df0) : cf ∈ df0.cols := by
  obtain ⟨⟨_, hl, _⟩, _, _⟩ := located_of_noComplaint hno
  rw [(toTraining_ok ht).2.1]
  rcases hl with h | ⟨cf', h, hm⟩
  · exact Or.inr ⟨rfl, h⟩
  · cases h; exact Or.inl hm

theorem rawMeets_noBins {F : PyFloat} {X : TFrame} {row : Row} {cond : Cond} : RawMeets F {} X row cond ↔ Meets row cond := by
  unfold RawMeets
  constructor
  · rintro (⟨labels, h, _⟩ | ⟨_, h⟩)
    · simp at h
    · exact h
  · exact fun h => Or.inr ⟨Or.inl (by simp), h⟩

/-- The calibration data, raw and discretised. -/
theorem cal_frames {F : PyFloat} (hF : F.Lawful) {P : PandasCut} (hP : P.Lawful F) {n : Option Nat} {dft : TFrame} {cf : Feat}
    (hc : dft.cols.Nodup) {b : Binner} (hb : b = Binner.fit F P n dft [cf]) {df0 df : TFrame} {disc : Bool}
    (hcf : cf ∈ df0.cols)
    (h : (match (if disc then some b else none) with | none => .ok df0 | some b => applyBins F b df0) = Except.ok df) :
    ∃ G K, df = df0.mapAll G K ∧ (∀ v, G cf v = v) ∧
      ∀ (cond : Cond) (row : Row), cond.feature ∈ df0.cols →
        (Same (G cond.feature (row.cell cond.feature)) cond.val ↔ RawMeets F (if disc then b else {}) df0 row cond) := by
  cases disc with
  | false =>
    simp only [Bool.false_eq_true, if_false, Except.ok.injEq] at h ⊢
    subst h
    exact ⟨fun _ v => v, df0.kind, by simp [TFrame.mapAll], fun _ => rfl, fun cond row _ => rawMeets_noBins.symm⟩
  | true =>
    simp only [if_true] at h ⊢
    subst hb
    obtain ⟨G, K, h1, h2, h3⟩ := applyBins_meets hF hP hc h
    exact ⟨G, K, h1, (h3 cf hcf).1 (Or.inl (fit_bins_ignore (by simp))), h2⟩

/-- C38 for the API, after `recalibrate_proba`. At any point of the life of a fitted classifier with `alpha > 0`, a successful
recalibration makes `predict_proba` answer, on raw data with distinct row labels, distributions: where no rule fires one and the same
pair (on calibration data with distinct row labels: the smoothed class frequencies of the calibration rows where no rule fires),
elsewhere the mean over exactly the firing rules of the smoothed frequencies of the calibration rows each fires on. With
`discretize=True` a condition on a binned column counts the calibration rows whose number lies in its range; with
`discretize=False` those whose value equals its label. -/
theorem C38_recalibrate_probabilities [Arith] (a : Method) (R : PyRandom) (F : PyFloat) (hF : F.Lawful) (P : PandasCut) (hP : P.Lawful F)
    (d : FitData) (hd : (d.names.getD d.X.cols).Nodup) (init : ModelArg) (c0 c1 c c' : Clf) (ha : 0 < c0.hyper.alpha)
    (h : FittedBy a R F P d init c0 c1) (hused : Used F c1 c) (X : TFrame) (y : Option YArg) (names : Option (List Feat))
    (ms : Option Int) (req disc : Bool) (hrec : Clf.recalibrate F X y names ms req disc c = .ok () c') :
    ∃ rs b df0 pc unc, c'.ruleset = some rs ∧ c1.binner = some b ∧ c1.posClass = some pc ∧
      toTraining X y (classFeatName d.classFeat d.y) names = .ok df0 ∧
      (∀ X' : TFrame, X'.UniqueIndex → ∀ qs, returned (Clf.predictProba F X' none c') = .ok qs →
        RawProbaAnswer F b X' rs.rules unc
          (rawFreq F (if disc then b else {}) df0 (classFeatName d.classFeat d.y) pc c0.hyper.alpha) qs) ∧
      (df0.UniqueIndex →
        unc = rawRest F (if disc then b else {}) df0 (classFeatName d.classFeat d.y) pc c0.hyper.alpha rs.rules) := by
  obtain ⟨rs1, b, sel, dft, h1, h2, h3, _, h5, h6⟩ := FittedBy.ready hF hP hd h
  have hhyper : c1.hyper = c0.hyper := by
    obtain ⟨fuel, g, g', h⟩ := h
    obtain ⟨_, _, _, _, _, _, _, _, _, rfl⟩ := Method.fit_ok h
    rfl
  obtain ⟨rs, k1, k2, k3, k4⟩ := hused.keeps h1
  obtain ⟨pc, hpc⟩ := k1.posClass
  have hused' : Used F c1 c' := by
    have := Used.recalibrate X y names ms req disc c hused
    rwa [hrec] at this
  obtain ⟨rs', r1, r2, r3, r4⟩ := hused'.keeps h1
  rw [Clf.recalibrate_ready k1 hpc] at hrec
  cases hpre : preprocessRecalibrate F X y (classFeatName d.classFeat d.y) (if disc then some b else none) names with
  | error e => rw [hpre] at hrec; cases hrec
  | ok df =>
  rw [hpre] at hrec
  obtain ⟨hno, df0, ht, hbin⟩ := cal_preprocess hpre
  have hcf : classFeatName d.classFeat d.y ∈ df0.cols := cal_class hno ht
  obtain ⟨G, K, rfl, hGcf, hm⟩ := cal_frames hF hP h5 h6 hcf hbin
  simp only at hrec
  rcases hp : recalibrateProba rs (df0.mapAll G K).toFrame (classFeatName d.classFeat d.y) pc ms req c.hyper.alpha with ⟨rs2, _ | e⟩
  swap
  · rw [hp] at hrec; cases hrec
  rw [hp] at hrec
  cases hrec
  cases r1.rules
  have hp' : recalibrate rs (df0.mapAll G K).toFrame (classFeatName d.classFeat d.y) pc c.hyper.alpha = (rs', none) := hp
  have hc := recalibrate_conds rs (df0.mapAll G K).toFrame (classFeatName d.classFeat d.y) pc c.hyper.alpha
  rw [hp'] at hc
  have hfeat : HasFeatures (df0.mapAll G K).toFrame rs'.rules := hasFeatures_conds hc (hasFeatures_of_recal hp')
  obtain ⟨hfr, unc, hunc, hdist, hrest⟩ := recalibrate_probas (df := (df0.mapAll G K).toFrame) (by rw [k3, hhyper]; exact ha) hcf hp'
  rw [k3, hhyper] at hfr hrest
  have hfires : ∀ r ∈ rs'.rules, ∀ row, Fires { row with cell := fun f => G f (row.cell f) } r ↔
      RawFires F (if disc then b else {}) df0 row r := by
    intro r hr row
    exact ⟨fun h cond hcond => (hm cond row (hfeat r hr cond hcond)).mp (h cond hcond),
      fun h cond hcond => (hm cond row (hfeat r hr cond hcond)).mpr (h cond hcond)⟩
  have hany : ∀ row, ¬ FiresAny { row with cell := fun f => G f (row.cell f) } rs'.rules ↔
      ¬ RawFiresAny F (if disc then b else {}) df0 row rs'.rules := by
    intro row
    rw [not_iff_not]
    exact ⟨fun ⟨r, hr, h⟩ => ⟨r, hr, (hfires r hr _).mp h⟩, fun ⟨r, hr, h⟩ => ⟨r, hr, (hfires r hr _).mpr h⟩⟩
  have htested : ∀ f, Tested rs' f → f ∈ sel := by
    intro f hf
    apply h3
    obtain ⟨r, hr, cond, hcond, rfl⟩ := hf
    have : r.conds ∈ rs1.rules.map Rule.conds := by
      rw [← r4]; exact List.mem_map.mpr ⟨r, hr, rfl⟩
    obtain ⟨r', hr', he⟩ := List.mem_map.mp this
    exact ⟨r', hr', cond, by rw [he]; exact hcond, rfl⟩
  refine ⟨rs', b, df0, pc, unc, rfl, h1.bins, by rw [← k2]; exact hpc, ht, fun X' hu qs hq => ?_, fun hu => ?_⟩
  · refine raw_proba hF hP r1 h2 htested h5 h6 hunc hdist (fun r hr => ?_) (fun r _ => smooth_dist ha _ _) hu hq
    rw [hfr r hr]
    exact congrArg some (smoothedWhere_mapAll hGcf (hfires r hr))
  · rw [hrest (by
      unfold Frame.UniqueIndex at *
      simpa [TFrame.mapAll, Frame.index, Function.comp_def] using hu)]
    exact smoothedWhere_mapAll (X := df0) (K := K) hGcf
      (P := fun row => ¬ FiresAny row rs'.rules) (Q := fun row => ¬ RawFiresAny F (if disc then b else {}) df0 row rs'.rules) hany

/-- C76, recalibration, exactly: at any point of the life of a fitted classifier with `alpha > 0`, `recalibrate_proba` raises in
exactly the cases of the table, with the exception named there, and then leaves the object as it was. -/
theorem C76_recalibrate_raises_iff [Arith] (a : Method) (R : PyRandom) (F : PyFloat) (hF : F.Lawful) (P : PandasCut) (hP : P.Lawful F)
    (d : FitData) (hd : (d.names.getD d.X.cols).Nodup) (init : ModelArg) (c0 c1 c : Clf) (ha : 0 < c0.hyper.alpha)
    (h : FittedBy a R F P d init c0 c1) (hused : Used F c1 c) (X : TFrame) (y : Option YArg) (names : Option (List Feat))
    (ms : Option Int) (req disc : Bool) :
    ∃ rs b, c.ruleset = some rs ∧ c1.binner = some b ∧
      (∀ e, returned (Clf.recalibrate F X y names ms req disc c) = .error e ↔
        CalComplaint rs (classFeatName d.classFeat d.y) (if disc then some b else none) { X := X, y := y, names := names } e) ∧
      ((∃ e, returned (Clf.recalibrate F X y names ms req disc c) = .error e) →
        after (Clf.recalibrate F X y names ms req disc c) = c) := by
  obtain ⟨rs1, b, sel, dft, h1, h2, h3, _, h5, h6⟩ := FittedBy.ready hF hP hd h
  have hhyper : c1.hyper = c0.hyper := by
    obtain ⟨fuel, g, g', h⟩ := h
    obtain ⟨_, _, _, _, _, _, _, _, _, rfl⟩ := Method.fit_ok h
    rfl
  obtain ⟨rs, k1, k2, k3, k4⟩ := hused.keeps h1
  obtain ⟨pc, hpc⟩ := k1.posClass
  have hal : 0 < c.hyper.alpha := by rw [k3, hhyper]; exact ha
  refine ⟨rs, b, k1.rules, h1.bins, ?_⟩
  rw [Clf.recalibrate_ready k1 hpc]
  generalize classFeatName d.classFeat d.y = cf at *
  by_cases hno : ∀ e, ¬ Complaint { X := X, y := y, classFeat := some cf, names := names } e
  swap
  · have hno' := hno
    push Not at hno'
    obtain ⟨e0, he0⟩ := hno'
    have hpre : preprocessRecalibrate F X y cf (if disc then some b else none) names = .error e0 := by
      unfold preprocessRecalibrate
      rcases complaint_labelled he0 with h | ⟨h, h'⟩
      · have h1 : checkInput X y (some cf) names = .error e0 := h
        rw [h1]; rfl
      · have h1 : checkInput X y (some cf) names = .ok () := h
        have h2 : toTraining X y cf names = .error e0 := h' cf
        rw [h1, ok_bind, h2]; rfl
    rw [hpre]
    refine ⟨fun e => ⟨fun h => ?_, fun h => ?_⟩, fun _ => rfl⟩
    · cases h; exact .illFormed e0 he0
    · cases h with
      | illFormed _ he =>
        rcases complaint_labelled he with h | ⟨h, h'⟩ <;> rcases complaint_labelled he0 with k | ⟨k, k'⟩
        · rw [h] at k; cases k; rfl
        · rw [h] at k; cases k
        · rw [h] at k; cases k
        · have h1 := h' cf
          have k1 := k' cf
          rw [h1] at k1; cases k1; rfl
      | badText _ _ _ hh _ _ => exact absurd hh hno
      | missing _ hh _ _ _ _ _ => exact absurd hh hno
  · obtain ⟨hl, hn, _⟩ := located_of_noComplaint hno
    have hck : checkInput X y (some cf) names = .ok () := checkInput_located.mpr hl
    obtain ⟨df0, ht⟩ : ∃ df0, toTraining X y cf names = .ok df0 := by
      obtain ⟨_, _, df0, h⟩ := located_of_noComplaint hno
      exact ⟨df0, h⟩
    have hcf := cal_class hno ht
    by_cases hbad : ∃ bb, (if disc then some b else none) = some bb ∧ BadText bb df0
    · obtain ⟨bb, hbb, hbad⟩ := hbad
      have hpre : preprocessRecalibrate F X y cf (if disc then some b else none) names = .error .valueError := by
        unfold preprocessRecalibrate
        rw [hck, ok_bind, ht, ok_bind, hbb]
        exact applyBins_bad hbad
      rw [hpre]
      refine ⟨fun e => ⟨fun h => ?_, fun h => ?_⟩, fun _ => rfl⟩
      · cases h; exact .badText bb hbb df0 hno ht hbad
      · cases h with
        | illFormed _ he => exact absurd he (hno e)
        | badText => rfl
        | missing df1 _ ht1 hok _ _ _ =>
          have ht1 : toTraining X y cf names = .ok df1 := ht1
          rw [ht] at ht1; cases ht1
          exact absurd hbad (hok bb hbb)
    · have hbad' : ∀ bb, (if disc then some b else none) = some bb → ¬ BadText bb df0 := fun bb h1 h2 => hbad ⟨bb, h1, h2⟩
      obtain ⟨df, hdf, hcols⟩ : ∃ df, preprocessRecalibrate F X y cf (if disc then some b else none) names = .ok df ∧
          df.cols = df0.cols := by
        unfold preprocessRecalibrate
        rw [hck, ok_bind, ht, ok_bind]
        cases disc with
        | false => exact ⟨df0, rfl, rfl⟩
        | true =>
          obtain ⟨X', hX'⟩ := applyBins_total h2 (hbad' b rfl)
          refine ⟨X', hX', ?_⟩
          subst h6
          obtain ⟨G, K, rfl, _⟩ := applyBins_meets hF hP h5 hX'
          rfl
      rw [hdf]
      simp only
      by_cases hf : HasFeatures df.toFrame rs.rules
      · have hok := recalibrate_ok (pc := pc) hal (show cf ∈ df.toFrame.cols by rw [hcols]; exact hcf) hf
        have hok' : recalibrateProba rs df.toFrame cf pc ms req c.hyper.alpha = (_, none) := hok
        rw [hok']
        refine ⟨fun e => ⟨fun h => (by cases h), fun h => ?_⟩, fun ⟨e, h⟩ => (by cases h)⟩
        exfalso
        cases h with
        | illFormed _ he => exact hno _ he
        | badText bb hbb df1 _ ht1 hb1 =>
          have ht1 : toTraining X y cf names = .ok df1 := ht1
          rw [ht] at ht1; cases ht1
          exact hbad' bb hbb hb1
        | missing df1 _ ht1 _ f hte hmi =>
          have ht1 : toTraining X y cf names = .ok df1 := ht1
          rw [ht] at ht1; cases ht1
          have := (tested_iff.mp hf) f hte
          rw [hcols] at this
          exact hmi this
      · have hmis : recalibrateProba rs df.toFrame cf pc ms req c.hyper.alpha = (rs, some .indexError) := recalibrate_missing hf
        rw [hmis]
        refine ⟨fun e => ⟨fun h => ?_, fun h => ?_⟩, fun _ => ?_⟩
        · cases h
          rw [tested_iff] at hf
          push Not at hf
          obtain ⟨f, hf1, hf2⟩ := hf
          rw [hcols] at hf2
          exact .missing df0 hno ht hbad' f hf1 hf2
        · cases h with
          | illFormed _ he => exact absurd he (hno e)
          | badText bb hbb df1 _ ht1 hb1 =>
            have ht1 : toTraining X y cf names = .ok df1 := ht1
            rw [ht] at ht1; cases ht1
            exact absurd hb1 (hbad' bb hbb)
          | missing => rfl
        · show ({ c with ruleset := some rs } : Clf) = c
          rw [← k1.rules]

/-- C40, through the API: whatever the classifier, the data and the other arguments, a call of `recalibrate_proba` returns or
raises the same and leaves the same classifier for all values of `min_samples` and `require_min_samples`. -/
theorem C40_api_parameters_ignored (F : PyFloat) (X : TFrame) (y : Option YArg) (names : Option (List Feat)) (discretize : Bool)
    (ms ms' : Option Int) (require require' : Bool) (c : Clf) :
    Clf.recalibrate F X y names ms require discretize c = Clf.recalibrate F X y names ms' require' discretize c := rfl

/-! ### concrete cases -/

/-- The hypotheses hold of a concrete fitted classifier. -/
example : (∃ c1, FittedBy .irep Demo.R0 Demo.F Demo.P Demo.mixedData .nothing Demo.newIrep c1) ∧ 0 < Demo.newIrep.hyper.alpha ∧
    (Demo.mixedData.names.getD Demo.mixedData.X.cols).Nodup ∧ Demo.mixed.UniqueIndex :=
  ⟨Demo.mixed_fit_irep, by decide +kernel, by decide +kernel, by unfold Frame.UniqueIndex; decide +kernel⟩

/-- Its probabilities after the fit, after a recalibration on other labels, and after one without discretisation, in which
no calibration row meets the rule `n=<9.0 ^ a=x`. -/
example : let c := after (Method.irep.fit 7 Demo.R0 Demo.F Demo.P Demo.mixedData .nothing () Demo.newIrep)
    let y : YArg := .list [Demo.vp, Demo.vn, Demo.vn, Demo.vn, Demo.vn, Demo.vn]
    let probas (c : Clf) := returned (Clf.predictProba Demo.F Demo.mixed none c)
    probas c = .ok [(1 / 4, 3 / 4), (1 / 4, 3 / 4), (5 / 6, 1 / 6), (5 / 6, 1 / 6), (5 / 6, 1 / 6), (5 / 6, 1 / 6)] ∧
    probas (after (Clf.recalibrate Demo.F Demo.mixed (some y) none none false true c)) =
      .ok [(1 / 2, 1 / 2), (1 / 2, 1 / 2), (5 / 6, 1 / 6), (5 / 6, 1 / 6), (5 / 6, 1 / 6), (5 / 6, 1 / 6)] ∧
    probas (after (Clf.recalibrate Demo.F Demo.mixed (some y) none none false false c)) =
      .ok [(1 / 2, 1 / 2), (1 / 2, 1 / 2), (3 / 4, 1 / 4), (3 / 4, 1 / 4), (3 / 4, 1 / 4), (3 / 4, 1 / 4)] := by
  decide +kernel

end Witt
