import Verif.Props.FitApi
import Verif.Props.PlainApi
/-
C94: `fit` starts afresh. What a completed fit depends on, of the object and of the initial model.
-/
namespace Witt
open Spec

/-- C94. What `fit` returns or raises, and everything on the object after a completed fit, depends on the object's
hyperparameters only: nothing an earlier fit, `init_ruleset`, edit, recalibration or query has left on it matters. -/
theorem C94_fit_starts_afresh [Arith] (a : Method) (fuel : Nat) (R : PyRandom) (F : PyFloat) (P : PandasCut) (d : FitData)
    (init : ModelArg) (g : R.G) (c c' : Clf) (hh : c'.hyper = c.hyper) (hn : c'.nBins = c.nBins) :
    completed (a.fit fuel R F P d init g c') = completed (a.fit fuel R F P d init g c) := by
  rw [Method.fit_completed, Method.fit_completed, hh, hn]
  unfold Clf.fitted
  rw [hh, hn]

/-- C94. Fitting twice is fitting once: after any completed first fit (by any of the four ways of training, on any data), the second one
does what it would have done on a new object with the same hyperparameters. -/
theorem C94_refit [Arith] (a a' : Method) (fuel fuel' : Nat) (R R' : PyRandom) (F : PyFloat) (P : PandasCut) (d d' : FitData)
    (init init' : ModelArg) (g : R.G) (g1 g1' : R'.G) (c c' : Clf)
    (first : a'.fit fuel' R' F P d' init' g1 c = .ok g1' c') :
    completed (a.fit fuel R F P d init g c') =
      completed (a.fit fuel R F P d init g { hyper := c.hyper, nBins := c.nBins }) := by
  obtain ⟨df, cf, pc, b, start, m, _, _, _, rfl⟩ := Method.fit_ok first
  exact C94_fit_starts_afresh a fuel R F P d init g _ _ rfl rfl

/-- C94. Of the initial model only its conditions count (and, without the index, the possible conditions of its ruleset): whether it is a ruleset, a text
or a classifier, and how its rules are calibrated, makes no difference. -/
theorem C94_initial_model [Arith] (a : Method) (fuel : Nat) (R : PyRandom) (F : PyFloat) (P : PandasCut) (d : FitData)
    (init init' : ModelArg) (rs rs' : Ruleset) (h : init.toRuleset = .ok rs) (h' : init'.toRuleset = .ok rs')
    (hc : rs'.rules.map Rule.conds = rs.rules.map Rule.conds)
    (hp : a = .irep ∨ a = .ripper ∨ rs'.possible = rs.possible) (g : R.G) (c : Clf) :
    completed (a.fit fuel R F P d init' g c) = completed (a.fit fuel R F P d init g c) := by
  obtain ⟨e, he⟩ := Method.early_of (a := a) h
  obtain ⟨e', he'⟩ := Method.early_of (a := a) h'
  rw [Method.fit_completed, Method.fit_completed, he, he', h, h']
  simp only [ok_bind, hc]
  rcases hp with rfl | rfl | hp
  · rfl
  · rfl
  · rw [hp]

/-- An object fitted on other data before, by another algorithm, ends up as a new one does. -/
example : ∃ c', FittedBy .irep Demo.R0 Demo.F Demo.P Demo.mixedData .nothing Demo.newIrep c' ∧ c'.ruleset ≠ none ∧
    ∀ g, completed (Method.irep.fit 7 Demo.R0 Demo.F Demo.P Demo.mixedData .nothing g c') =
      completed (Method.irep.fit 7 Demo.R0 Demo.F Demo.P Demo.mixedData .nothing g { hyper := { pruneSize := none }, nBins := some 3 }) := by
  obtain ⟨c', fuel, g, g', h⟩ := Demo.mixed_fit_irep
  refine ⟨c', ⟨fuel, g, g', h⟩, ?_, fun g1 => C94_refit .irep .irep 7 fuel _ _ _ _ _ _ _ _ g1 g g' Demo.newIrep c' h⟩
  obtain ⟨df, cf, pc, b, start, m, _, _, _, rfl⟩ := Method.fit_ok h
  simp [Clf.fitted]

/-- Initial models that differ in their form: a text and the rules it denotes. -/
example : ∃ rs, (ModelArg.text p!"[[a=x]]").toRuleset = .ok rs ∧ (ModelArg.ruleset rs).toRuleset = .ok rs ∧
    rs.rules.map Rule.conds = [[⟨Demo.fa, Demo.vx⟩]] := by
  have : ((ModelArg.text p!"[[a=x]]").toRuleset).toOption.map (fun rs => rs.rules.map Rule.conds) = some [[⟨Demo.fa, Demo.vx⟩]] := by
    decide +kernel
  cases h : (ModelArg.text p!"[[a=x]]").toRuleset with
  | error e => rw [h] at this; cases this
  | ok rs =>
    rw [h] at this
    have hr : rs.rules.map Rule.conds = [[⟨Demo.fa, Demo.vx⟩]] := by simpa [Except.toOption] using this
    refine ⟨rs, rfl, ?_, hr⟩
    show (if rs.rules = [] then Except.ok { rules := [] } else Except.ok rs) = _
    rw [if_neg]
    intro h0
    rw [h0] at hr
    cases hr

end Witt
