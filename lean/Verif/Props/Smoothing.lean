import Verif.Props.RoundedProba
import Verif.Props.ProbaApi
import Verif.Props.Limits
import Verif.Props.Columns
/-
C108: what the hyperparameters `alpha` and `n_discretize_bins` influence.
-/
namespace Witt
open Spec

namespace Spec
/-- Calibration numbers with the smoothed frequencies of their counts computed with `alpha`; counts and frequencies are kept. -/
def resmoothCal (alpha : Rat) (c : Calib) : Calib :=
  { c with smoothed := c.ns.map fun np => (((np.1 : Rat) + alpha) / (np.1 + np.2 + 2 * alpha), ((np.2 : Rat) + alpha) / (np.1 + np.2 + 2 * alpha)) }
def resmoothRule (alpha : Rat) (r : Rule) : Rule := { r with cal := resmoothCal alpha r.cal }
/-- The same rules with the same counts, smoothed with `alpha`. -/
def resmooth (alpha : Rat) (rs : Ruleset) : Ruleset :=
  { rs with rules := rs.rules.map (resmoothRule alpha), uncov := resmoothCal alpha rs.uncov }
/-- The same classifier with another `alpha`, in its parameters and in the calibration of its rules. -/
def _root_.Witt.Clf.withAlpha (alpha : Rat) (c : Clf) : Clf :=
  { c with hyper := { c.hyper with alpha := alpha }, ruleset := c.ruleset.map (resmooth alpha) }
end Spec

theorem resmooth_calibOf (alpha beta : Rat) (n p : Nat) : resmoothCal beta (calibOf alpha n p) = calibOf beta n p := by
  unfold resmoothCal calibOf
  simp only [Option.map_some, Int.cast_natCast, mul_comm (2 : Rat)]

theorem recalibrate_alpha {rs : Ruleset} {df : Frame} {cf : Feat} {pc : Val} {alpha beta : Rat} (ha : 0 < alpha) (hb : 0 < beta)
    (hcf : cf ∈ df.cols) (hf : HasFeatures df rs.rules) :
    recalibrate rs df cf pc beta = (resmooth beta (recalibrate rs df cf pc alpha).1, none) := by
  rw [recalibrate_ok ha hcf hf, recalibrate_ok hb hcf hf]
  unfold resmooth
  simp only [List.map_map, resmooth_calibOf, Prod.mk.injEq, and_true, Ruleset.mk.injEq]
  refine List.map_congr_left fun r _ => ?_
  simp only [Function.comp_def, recalOf, resmoothRule, resmooth_calibOf]

theorem recalibrate_alpha_raise {rs : Ruleset} {df : Frame} {cf : Feat} {pc : Val} {alpha beta : Rat} (ha : 0 < alpha) (hb : 0 < beta)
    (hcf : cf ∈ df.cols) :
    (match recalibrate rs df cf pc beta with | (rs, e) => raiseIf rs e) =
      (match recalibrate rs df cf pc alpha with | (rs, e) => raiseIf rs e).map (resmooth beta) := by
  by_cases hf : HasFeatures df rs.rules
  · rw [recalibrate_alpha ha hb hcf hf, recalibrate_ok ha hcf hf]; rfl
  · rw [recalibrate_missing hf, recalibrate_missing hf]; rfl

theorem removeDups_resmooth (beta : Rat) (l : List Rule) :
    removeDups Rule.sameKey (l.map (resmoothRule beta)) =
      (removeDups Rule.sameKey l).map (resmoothRule beta) :=
  (removeDupsAux_map (resmoothRule beta) Rule.sameKey Rule.sameKey (fun _ _ => rfl) l []).symm

theorem trimRules_resmooth (beta : Rat) (m : Option Int) (l : List Rule) :
    trimRules (fun r : Rule => r.conds.length) m (l.map (resmoothRule beta)) =
      (trimRules (fun r : Rule => r.conds.length) m l).map (resmoothRule beta) := by
  cases m with
  | none => rfl
  | some m =>
    simp only [trimRules]
    rw [trimAux_map (resmoothRule beta) (fun r : Rule => r.conds.length)
      (fun r : Rule => r.conds.length) (fun _ => rfl), List.length_map]

section
variable [Arith]

theorem irepGrowCn_alpha (fuel : Nat) (R : PyRandom) (cn : CatNap) (hp : Hyper) (beta : Rat) (init : List (List Cond)) (pos neg : List Label) (g : R.G) :
    irepGrowCn fuel R cn { hp with alpha := beta } init pos neg g = irepGrowCn fuel R cn hp init pos neg g := rfl

theorem irepGrow_alpha (fuel : Nat) (R : PyRandom) (cands : List Cond) (hp : Hyper) (beta : Rat) (init : List (List Cond)) (pos neg : Frame) (g : R.G) :
    irepGrow fuel R cands { hp with alpha := beta } init pos neg g = irepGrow fuel R cands hp init pos neg g := rfl

theorem optimizeLoop_alpha (fuel : Nat) (R : PyRandom) (cn : CatNap) (hp : Hyper) (beta : Rat) (ps : Rat) (rs : Option Int) (original : List (List Cond)) (odl : Rat)
    (allPos allNeg : List Label) : ∀ (rest : List (List Cond)) (i : Nat) (new : List (List Cond)) (pos neg : List Label) (g : R.G),
    optimizeLoop fuel R cn { hp with alpha := beta } ps rs original odl allPos allNeg i rest new pos neg g =
      optimizeLoop fuel R cn hp ps rs original odl allPos allNeg i rest new pos neg g := by
  intro rest
  induction rest with
  | nil => intros; rfl
  | cons r rest ih =>
    intro i new pos neg g
    unfold optimizeLoop
    simp only [ih]
    rfl

theorem optimizeLoopDf_alpha (fuel : Nat) (R : PyRandom) (cands : List Cond) (hp : Hyper) (beta : Rat) (ps : Rat) (rs : Option Int) (original : List (List Cond)) (odl : Rat)
    (allPos allNeg : Frame) : ∀ (rest : List (List Cond)) (i : Nat) (new : List (List Cond)) (pos neg : Frame) (g : R.G),
    optimizeLoopDf fuel R cands { hp with alpha := beta } ps rs original odl allPos allNeg i rest new pos neg g =
      optimizeLoopDf fuel R cands hp ps rs original odl allPos allNeg i rest new pos neg g := by
  intro rest
  induction rest with
  | nil => intros; rfl
  | cons r rest ih =>
    intro i new pos neg g
    unfold optimizeLoopDf
    simp only [ih]
    rfl

theorem stage2_alpha (fuel : Nat) (R : PyRandom) (cn : CatNap) (hp : Hyper) (beta : Rat) (pos neg : List Label) : ∀ (n : Nat) (rules : List (List Cond)) (g : R.G),
    stage2 fuel R cn { hp with alpha := beta } pos neg n rules g = stage2 fuel R cn hp pos neg n rules g := by
  intro n
  induction n with
  | zero => intros; rfl
  | succ n ih =>
    intro rules g
    unfold stage2 optimizeCn
    simp only [ih, optimizeLoop_alpha]

theorem stage2Df_alpha (fuel : Nat) (R : PyRandom) (cands : List Cond) (hp : Hyper) (beta : Rat) (pos neg : Frame) : ∀ (n : Nat) (rules : List (List Cond)) (g : R.G),
    stage2Df fuel R cands { hp with alpha := beta } pos neg n rules g = stage2Df fuel R cands hp pos neg n rules g := by
  intro n
  induction n with
  | zero => intros; rfl
  | succ n ih =>
    intro rules g
    unfold stage2Df optimizeDf
    simp only [ih, optimizeLoopDf_alpha]

theorem ripperStages_alpha (fuel : Nat) (R : PyRandom) (cn : CatNap) (hp : Hyper) (beta : Rat) (init : List (List Cond)) (pos neg : List Label) (g : R.G) :
    ripperStages fuel R cn { hp with alpha := beta } init pos neg g = ripperStages fuel R cn hp init pos neg g := by
  unfold ripperStages
  simp only [stage2_alpha]
  rfl

theorem ripperStagesDf_alpha (fuel : Nat) (R : PyRandom) (S : SetOps) (hp : Hyper) (beta : Rat) (old : Option (List Cond)) (init : List (List Cond)) (pos neg : Frame) (g : R.G) :
    ripperStagesDf fuel R S { hp with alpha := beta } old init pos neg g = ripperStagesDf fuel R S hp old init pos neg g := by
  unfold ripperStagesDf
  simp only [stage2Df_alpha]
  rfl

/-- C108. `alpha` influences nothing but the smoothed frequencies: training with another positive `alpha` (all else equal, by any
of the four methods) raises the same exception, or leaves the same rules with the same counts, the same features and the same state of
the generator; its smoothed frequencies are those of the same counts. -/
theorem C108_alpha_train (a : Method) (fuel : Nat) (R : PyRandom) (hp : Hyper) (ha : 0 < hp.alpha) (beta : Rat) (hb : 0 < beta)
    (old : Option (List Cond)) (init : List (List Cond)) (df : Frame) (cf : Feat) (pc : Val) (g : R.G) :
    a.train fuel R { hp with alpha := beta } old init df cf pc g =
      (a.train fuel R hp old init df cf pc g).map (fun mg => ({ mg.1 with ruleset := resmooth beta mg.1.ruleset }, mg.2)) := by
  cases a with
  | irep =>
    simp only [Method.train, irepFit]
    split
    · rfl
    · split
      · rfl
      · rename_i hcf
        rw [not_not] at hcf
        cases CatNap.build df cf with
        | error e => rfl
        | ok cn =>
          simp only [ok_bind, irepGrowCn_alpha]
          cases irepGrowCn fuel R cn hp init (labelSet (posRows df cf pc).index) (labelSet (negRows df cf pc).index) g with
          | error e => rfl
          | ok st =>
            simp only [ok_bind, recalibrate_alpha_raise ha hb hcf]
            generalize recalibrate _ df cf pc hp.alpha = q
            obtain ⟨rs, e⟩ := q
            cases e with
            | some e => rfl
            | none =>
              simp only [raiseIf, Except.map, ok_bind, Ruleset.trimConds, resmooth, removeDups_resmooth, trimRules_resmooth]
              rfl
  | ripper =>
    simp only [Method.train, ripperFit]
    split
    · rfl
    · split
      · rfl
      · rename_i hcf
        rw [not_not] at hcf
        cases CatNap.build df cf with
        | error e => rfl
        | ok cn =>
          simp only [ok_bind, ripperStages_alpha]
          cases ripperStages fuel R cn hp init (labelSet (posRows df cf pc).index) (labelSet (negRows df cf pc).index) g with
          | error e => rfl
          | ok st =>
            simp only [ok_bind, recalibrate_alpha_raise ha hb hcf]
            generalize recalibrate _ df cf pc hp.alpha = q
            obtain ⟨rs, e⟩ := q
            cases e <;> rfl
  | irepPlain S =>
    simp only [Method.train, irepFitPlain]
    split
    · rfl
    · split
      · rfl
      · rename_i hcf
        rw [not_not] at hcf
        generalize updatedConds S old (posExamples df cf pc) (negExamples df cf pc) = cands
        simp only [irepGrow_alpha]
        cases irepGrow fuel R cands hp init (posExamples df cf pc) (negExamples df cf pc) g with
        | error e => rfl
        | ok st =>
          simp only [ok_bind, recalibrate_alpha_raise ha hb hcf]
          generalize recalibrate _ df cf pc hp.alpha = q
          obtain ⟨rs, e⟩ := q
          cases e with
          | some e => rfl
          | none =>
            simp only [raiseIf, Except.map, ok_bind, Ruleset.trimConds, resmooth, removeDups_resmooth, trimRules_resmooth]
            rfl
  | ripperPlain S =>
    simp only [Method.train, ripperFitPlain]
    split
    · rfl
    · split
      · rfl
      · rename_i hcf
        rw [not_not] at hcf
        simp only [ripperStagesDf_alpha]
        cases ripperStagesDf fuel R S hp old init (posExamples df cf pc) (negExamples df cf pc) g with
        | error e => rfl
        | ok st =>
          simp only [ok_bind, recalibrate_alpha_raise ha hb hcf]
          generalize recalibrate _ df cf pc hp.alpha = q
          obtain ⟨rs, e⟩ := q
          cases e <;> rfl
end

/-- C108 for the API: `fit` with another positive `alpha` raises the same exception, or leaves the same object but for the parameter
and the smoothed frequencies, which are those of the same counts. -/
theorem C108_alpha_fit [Arith] (a : Method) (fuel : Nat) (R : PyRandom) (F : PyFloat) (P : PandasCut) (d : FitData) (init : ModelArg) (g : R.G)
    (c : Clf) (ha : 0 < c.hyper.alpha) (beta : Rat) (hb : 0 < beta) :
    completed (a.fit fuel R F P d init g (c.withAlpha beta)) =
      (completed (a.fit fuel R F P d init g c)).map (fun p => (p.1, p.2.withAlpha beta)) := by
  rw [Method.fit_completed, Method.fit_completed]
  cases a.early init with
  | error e => rfl
  | ok _ =>
  simp only [ok_bind]
  have hn : (c.withAlpha beta).nBins = c.nBins := rfl
  have hh : (c.withAlpha beta).hyper = { c.hyper with alpha := beta } := rfl
  rw [hn, hh]
  cases preprocessTraining F P c.nBins d with
  | error e => rfl
  | ok q =>
  simp only [ok_bind]
  cases init.toRuleset with
  | error e => rfl
  | ok start =>
  simp only [ok_bind, C108_alpha_train a fuel R c.hyper ha beta hb]
  cases a.train fuel R c.hyper start.possible (start.rules.map Rule.conds) q.1.toFrame q.2.1 q.2.2.1 g with
  | error e => rfl
  | ok mg => rfl

theorem getConds_resmooth (beta : Rat) (rs : Ruleset) : (resmooth beta rs).getConds = rs.getConds := by
  have : ∀ (l : List Rule) (seen : List Cond), getCondsAux seen (l.map (resmoothRule beta)) = getCondsAux seen l := by
    intro l
    induction l with
    | nil => intro seen; rfl
    | cons r l ih => intro seen; simp only [List.map_cons, getCondsAux, ih, resmoothRule]
  exact this rs.rules []

theorem resmooth_conds (beta : Rat) (rs : Ruleset) : (resmooth beta rs).rules.map Rule.conds = rs.rules.map Rule.conds := by
  simp only [resmooth, List.map_map, Function.comp_def, resmoothRule]

/-- C108, predictions: whatever the object (fitted, given by init_ruleset or neither), `alpha` changes no answer of `predict` and
no exception of it. -/
theorem C108_alpha_predict (F : PyFloat) (X : TFrame) (names : Option (List Feat)) (c : Clf) (beta : Rat) :
    returned (Clf.predict F X names (c.withAlpha beta)) = returned (Clf.predict F X names c) := by
  rw [predict_eq_query]
  cases hr : c.ruleset with
  | none => rw [query_unfit hr, query_unfit (c := c.withAlpha beta) (by simp [Clf.withAlpha, hr])]; rfl
  | some rs =>
  have hr' : (c.withAlpha beta).ruleset = some (resmooth beta rs) := by simp [Clf.withAlpha, hr]
  have hans : ∀ c : Clf, c.ruleset = some rs → answer F (fun rs df => rs.predict df) X names (c.withAlpha beta) =
      answer F (fun rs df => rs.predict df) X names c := by
    intro c h
    unfold answer
    have : (c.withAlpha beta).ruleset = some (resmooth beta rs) := by simp [Clf.withAlpha, h]
    simp only [this, h, attr, ok_bind, predict_conds (resmooth_conds beta rs)]
    rfl
  have hret : ∀ (o : Except PyErr (List Bool)) (c c' : Clf), returned (outcome o c) = returned (outcome o c') := by
    intro o _ _; cases o <;> rfl
  cases hb : c.binner with
  | some b =>
    rw [query_some hr hb, query_some hr' (b := b) hb, hans c hr]
    exact hret _ _ _
  | none =>
    rw [query_none hr hb, query_none hr' hb]
    have : constructFromRuleset F (resmooth beta rs) = constructFromRuleset F rs := by
      unfold constructFromRuleset; rw [getConds_resmooth]
    rw [this]
    cases constructFromRuleset F rs with
    | error e => rfl
    | ok u =>
      have h2 := hans c.withEmptyBinner hr
      have h3 : (c.withAlpha beta).withEmptyBinner = c.withEmptyBinner.withAlpha beta := rfl
      dsimp only
      rw [h3, h2]
      exact hret _ _ _

theorem cal_cols {F : PyFloat} {X : TFrame} {y : Option YArg} {cf : Feat} {b : Option Binner} {names : Option (List Feat)}
    {df : TFrame} (h : preprocessRecalibrate F X y cf b names = .ok df) : cf ∈ df.cols := by
  obtain ⟨hno, df0, ht, hb⟩ := cal_preprocess h
  have hcf := cal_class hno ht
  cases b with
  | none => cases hb; exact hcf
  | some b =>
    simp only [applyBins] at hb
    split at hb
    · cases hb; exact hcf
    · unfold Binner.transform at hb
      obtain ⟨done, _, hb⟩ := bind_ok_iff.mp hb
      rw [(transformLoop_shape hb).1]; exact hcf

theorem hasFeatures_resmooth {beta : Rat} {rs : Ruleset} {df : Frame} : HasFeatures df (resmooth beta rs).rules ↔ HasFeatures df rs.rules :=
  ⟨hasFeatures_conds (resmooth_conds beta rs).symm, hasFeatures_conds (resmooth_conds beta rs)⟩

/-- C108, recalibration: `recalibrate_proba` on an object with another positive `alpha` (and its rules smoothed with any
`alpha`) raises the same exception, or leaves the same object but for the smoothed frequencies, which are those of the same counts. -/
theorem C108_alpha_recalibrate (F : PyFloat) (X : TFrame) (y : Option YArg) (names : Option (List Feat)) (ms : Option Int)
    (req disc : Bool) {c : Clf} {rs : Ruleset} {cf : Feat} {b : Binner} {sel : List Feat} (hr : Ready c rs cf b sel)
    (ha : 0 < c.hyper.alpha) (beta : Rat) (hb : 0 < beta) :
    completed (Clf.recalibrate F X y names ms req disc (c.withAlpha beta)) =
      (completed (Clf.recalibrate F X y names ms req disc c)).map (fun p => (p.1, p.2.withAlpha beta)) := by
  have hr' : Ready (c.withAlpha beta) (resmooth beta rs) cf b sel :=
    ⟨by simp [Clf.withAlpha, hr.rules], hr.classFeat, hr.posClass, hr.bins, hr.selected, hr.trainFeats⟩
  obtain ⟨pc, hpc⟩ := hr.posClass
  rw [Clf.recalibrate_ready hr hpc, Clf.recalibrate_ready hr' (pc := pc) hpc]
  cases hpre : preprocessRecalibrate F X y cf (if disc then some b else none) names with
  | error e => rfl
  | ok df =>
  have hcf : cf ∈ df.toFrame.cols := cal_cols hpre
  simp only [recalibrateProba]
  have hh : (c.withAlpha beta).hyper.alpha = beta := rfl
  rw [hh]
  by_cases hf : HasFeatures df.toFrame rs.rules
  · rw [recalibrate_ok ha hcf hf, recalibrate_ok hb hcf (hasFeatures_resmooth.mpr hf)]
    simp only [completed, Except.map, Clf.withAlpha, Option.map_some, resmooth, List.map_map, resmooth_calibOf]
    have e : (recalOf df.toFrame cf pc beta ∘ resmoothRule beta) = (resmoothRule beta ∘ recalOf df.toFrame cf pc c.hyper.alpha) := by
      funext r
      simp only [Function.comp_def, recalOf, resmoothRule, resmooth_calibOf]
    have e' : rowUncovered (rs.rules.map (resmoothRule beta)) df.toFrame = rowUncovered rs.rules df.toFrame := by
      funext row
      simp only [rowUncovered, rulesMet_conds (a := rs.rules.map (resmoothRule beta)) (b := rs.rules) (resmooth_conds beta rs)]
    rw [e, e']
  · rw [recalibrate_missing hf, recalibrate_missing (fun h => hf (hasFeatures_resmooth.mp h))]
    rfl

/-- The larger `alpha`, the closer to 1/2 are the smoothed frequencies of given counts (and on the same side of it). -/
theorem C108_alpha_towards_half (n p : Nat) {alpha beta : Rat} (ha : 0 < alpha) (hab : alpha ≤ beta) :
    ((smooth alpha n p).2 ≤ 1 / 2 → (smooth alpha n p).2 ≤ (smooth beta n p).2 ∧ (smooth beta n p).2 ≤ 1 / 2) ∧
    (1 / 2 ≤ (smooth alpha n p).2 → 1 / 2 ≤ (smooth beta n p).2 ∧ (smooth beta n p).2 ≤ (smooth alpha n p).2) := by
  have hn : (0 : Rat) ≤ n := Nat.cast_nonneg n
  have hp : (0 : Rat) ≤ p := Nat.cast_nonneg p
  have h1 : (0 : Rat) < n + p + 2 * alpha := by linarith
  have h2 : (0 : Rat) < n + p + 2 * beta := by linarith
  simp only [smooth]
  refine ⟨fun h => ?_, fun h => ?_⟩
  · rw [div_le_div_iff₀ h1 (by norm_num)] at h
    have hpn : (p : Rat) ≤ n := by linarith
    have := mul_nonneg (sub_nonneg.mpr hab) (sub_nonneg.mpr hpn)
    constructor
    · rw [div_le_div_iff₀ h1 h2]; linarith
    · rw [div_le_div_iff₀ h2 (by norm_num)]; linarith
  · rw [div_le_div_iff₀ (by norm_num) h1] at h
    have hpn : (n : Rat) ≤ p := by linarith
    have := mul_nonneg (sub_nonneg.mpr hab) (sub_nonneg.mpr hpn)
    constructor
    · rw [div_le_div_iff₀ (by norm_num) h2]; linarith
    · rw [div_le_div_iff₀ h2 h1]; linarith

/-- C108, `n_discretize_bins`: when no column of the training data has, under either number, more different numbers than bins
(the class column aside), `fit` raises the same exception with both, or leaves the same object but for the parameter. -/
theorem C108_bins_idle [Arith] (a : Method) (fuel : Nat) (R : PyRandom) (F : PyFloat) (P : PandasCut) (d : FitData) (init : ModelArg) (g : R.G)
    (c : Clf) (n : Option Nat)
    (h : ∀ df0, toTraining d.X d.y (classFeatName d.classFeat d.y) d.names = .ok df0 → ∀ f,
      ¬ Continuous c.nBins df0 (classFeatName d.classFeat d.y) f ∧ ¬ Continuous n df0 (classFeatName d.classFeat d.y) f) :
    completed (a.fit fuel R F P d init g { c with nBins := n }) =
      (completed (a.fit fuel R F P d init g c)).map (fun p => (p.1, { p.2 with nBins := n })) := by
  have hfit : ∀ (df0 : TFrame) (m : Option Nat), (∀ f, ¬ Continuous m df0 (classFeatName d.classFeat d.y) f) →
      Binner.fit F P m df0 [classFeatName d.classFeat d.y] = { bins := [], thresholds := some [] } := by
    intro df0 m hm
    have : continuousFeats m df0 [classFeatName d.classFeat d.y] = [] :=
      List.eq_nil_iff_forall_not_mem.mpr fun f hf => hm f ((continuousFeats_iff m df0 _ f).mp hf)
    unfold Binner.fit
    rw [this]; rfl
  have hpre : preprocessTraining F P n d = preprocessTraining F P c.nBins d := by
    unfold preprocessTraining
    refine bind_congr fun _ => ?_
    dsimp only
    cases hT : toTraining d.X d.y (classFeatName d.classFeat d.y) d.names with
    | error e => rfl
    | ok df0 =>
      simp only [ok_bind, Binner.fitTransform, hfit df0 n (fun f => (h df0 hT f).2), hfit df0 c.nBins (fun f => (h df0 hT f).1)]
  rw [Method.fit_completed, Method.fit_completed]
  cases a.early init with
  | error e => rfl
  | ok _ =>
  simp only [ok_bind]
  rw [hpre]
  cases preprocessTraining F P c.nBins d with
  | error e => rfl
  | ok q =>
  simp only [ok_bind]
  cases init.toRuleset with
  | error e => rfl
  | ok start =>
  simp only [ok_bind]
  cases a.train fuel R c.hyper start.possible (start.rules.map Rule.conds) q.1.toFrame q.2.1 q.2.2.1 g with
  | error e => rfl
  | ok mg => rfl

/-! ### examples -/

namespace Demo
/-- The smoothed positive frequencies of the rules and of the rest, after a call. -/
def smoothings {α : Type} (r : EStateM.Result PyErr Clf α) : List Rat :=
  (after r).ruleset.toList.flatMap fun rs =>
    (rs.rules.flatMap fun r => (r.cal.smoothed.map Prod.snd).toList) ++ (rs.uncov.smoothed.map Prod.snd).toList
end Demo

/-- IREP with `alpha=1` and with `alpha=5` learns one rule that fires on two positive rows; smoothed 3/4 and 7/12. -/
example : 0 < Demo.newIrep.hyper.alpha ∧
    Demo.smoothings (Method.irep.fit 7 Demo.R0 Demo.F Demo.P Demo.mixedData .nothing () Demo.newIrep) =
      [3 / 4, 1 / 6] ∧
    Demo.smoothings (Method.irep.fit 7 Demo.R0 Demo.F Demo.P Demo.mixedData .nothing () (Demo.newIrep.withAlpha 5)) =
      [7 / 12, 5 / 14] := by
  refine ⟨?_, ?_, ?_⟩ <;> decide +kernel

/-- Recalibration of such an object on other labels succeeds. -/
example :
    let y : YArg := .list [Demo.vp, Demo.vn, Demo.vn, Demo.vn, Demo.vn, Demo.vn]
    let c := after (Method.irep.fit 7 Demo.R0 Demo.F Demo.P Demo.mixedData .nothing () Demo.newIrep)
    (∃ rs cf b sel, Ready c rs cf b sel) ∧ 0 < c.hyper.alpha ∧
    Demo.smoothings (Clf.recalibrate Demo.F Demo.mixed (some y) none none false true c) =
      [1 / 2, 1 / 6] ∧
    Demo.smoothings (Clf.recalibrate Demo.F Demo.mixed (some y) none none false true (c.withAlpha 5)) =
      [1 / 2, 5 / 14] := by
  refine ⟨?_, ?_, ?_, ?_⟩
  · exact ⟨(after (Method.irep.fit 7 Demo.R0 Demo.F Demo.P Demo.mixedData .nothing () Demo.newIrep)).ruleset.getD { rules := [] },
      (after (Method.irep.fit 7 Demo.R0 Demo.F Demo.P Demo.mixedData .nothing () Demo.newIrep)).classFeat.getD Demo.fa,
      (after (Method.irep.fit 7 Demo.R0 Demo.F Demo.P Demo.mixedData .nothing () Demo.newIrep)).binner.getD {},
      (after (Method.irep.fit 7 Demo.R0 Demo.F Demo.P Demo.mixedData .nothing () Demo.newIrep)).selected.getD [],
      by decide +kernel, by decide +kernel, ⟨Demo.vp, by decide +kernel⟩, by decide +kernel, by decide +kernel,
      ⟨[Demo.fa, Demo.fn], by decide +kernel⟩⟩
  all_goals decide +kernel

/-- Of the six numbers of `mixed`, six bins or no discretisation make none continuous (three bins do). -/
example : (∀ df0, toTraining Demo.mixedData.X Demo.mixedData.y (classFeatName Demo.mixedData.classFeat Demo.mixedData.y)
      Demo.mixedData.names = .ok df0 → ∀ f,
      ¬ Continuous (some 6) df0 (classFeatName Demo.mixedData.classFeat Demo.mixedData.y) f ∧
      ¬ Continuous none df0 (classFeatName Demo.mixedData.classFeat Demo.mixedData.y) f) ∧
    Demo.smoothings (Method.irep.fit 7 Demo.R0 Demo.F Demo.P Demo.mixedData .nothing () { Demo.newIrep with nBins := some 6 }) =
      [2 / 3, 2 / 3, 1 / 6] := by
  refine ⟨fun df0 h f => ?_, by decide +kernel⟩
  have key : (toTraining Demo.mixedData.X Demo.mixedData.y (classFeatName Demo.mixedData.classFeat Demo.mixedData.y)
      Demo.mixedData.names).toOption.map (fun df0 => decide
        (continuousFeats (some 6) df0 [classFeatName Demo.mixedData.classFeat Demo.mixedData.y] = [])) = some true := by
    decide +kernel
  rw [h] at key
  have key : continuousFeats (some 6) df0 [classFeatName Demo.mixedData.classFeat Demo.mixedData.y] = [] := by
    simpa [Except.toOption] using key
  refine ⟨fun hc => ?_, fun hc => ?_⟩
  · have := (continuousFeats_iff _ _ _ _).mpr hc
    rw [key] at this; cases this
  · obtain ⟨k, hk, _⟩ := hc; cases hk

end Witt
