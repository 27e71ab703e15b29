import Verif.Props.Rounding
import Verif.Props.PlainApi
import Verif.Props.FitTrain
/-
C81, continued: `fit` computed with rounded numbers.
-/
namespace Witt
open Spec

/-- C81, IREP. With rounded numbers, `fit` on valid data raises nothing, if `prune_size` is None, 0, or from `2u` (for doubles
2^-52) to 1, and `alpha` is positive; the features of the initial model (if any) must be among the columns. -/
theorem C81_irep_fit_on_valid_data (r : Rounding) (R : PyRandom) (hR : R.Lawful) (F : PyFloat) (hF : F.Lawful) (P : PandasCut)
    (hP : P.Lawful F) (d : FitData) (hv : ValidInput d) (init : ModelArg) (start : Ruleset) (hinit : init.toRuleset = .ok start)
    (hfeat : ∀ f, Tested start f → f ∈ d.names.getD d.X.cols) (c : Clf)
    (hps : c.hyper.pruneSize = none ∨ c.hyper.pruneSize = some 0 ∨ ∃ ps, c.hyper.pruneSize = some ps ∧ 2 * r.u ≤ ps ∧ ps ≤ 1)
    (ha : 0 < c.hyper.alpha) (fuel : Nat) (hfuel : d.X.rows.length < fuel) (g : R.G) :
    ∃ g' c', @Clf.irepFit (Arith.rounded r) fuel R F P d init g c = .ok g' c' := by
  let _ : Arith := Arith.rounded r
  let _ : Arith.Lawful := C81_rounded_lawful r
  refine C35_irep_fit_on_valid_data R hR F hF P hP d hv init start hinit hfeat c ?_ ha fuel hfuel g
  unfold Hyper.irepPrune
  rcases hps with h | h | ⟨ps, h, h0, h1⟩
  · exact Or.inl (by rw [h]; rfl)
  · exact Or.inl (by rw [h]; rfl)
  · rw [h]
    exact Or.inr (C81_prune_sizes r ps h0 h1)

/-- C81, RIPPER. With rounded numbers, `fit` on valid data with distinct row labels and without an initial model raises nothing,
if `prune_size` is from `2u` to 1 and `alpha > 0`. -/
theorem C81_ripper_fit_on_valid_data (r : Rounding) (R : PyRandom) (hR : R.Lawful) (F : PyFloat) (hF : F.Lawful) (P : PandasCut)
    (hP : P.Lawful F) (d : FitData) (hv : ValidInput d) (hu : (rowLabels d).Nodup) (c : Clf) (ps : Rat)
    (hps : c.hyper.pruneSize = some ps) (h0 : 2 * r.u ≤ ps) (h1 : ps ≤ 1) (ha : 0 < c.hyper.alpha) (fuel : Nat)
    (hfuel : d.X.rows.length < fuel) (g : R.G) :
    ∃ g' c', @Clf.ripperFit (Arith.rounded r) fuel R F P d .nothing g c = .ok g' c' := by
  let _ : Arith := Arith.rounded r
  let _ : Arith.Lawful := C81_rounded_lawful r
  exact C35_ripper_fit_on_valid_data R hR F hF P hP d hv hu c ps hps (C81_prune_sizes r ps h0 h1) ha fuel hfuel g

/-- The hypotheses are met by doubles. -/
example : ValidInput Demo.mixedData ∧ (rowLabels Demo.mixedData).Nodup ∧ (∃ ps : Rat, Demo.newRipper.hyper.pruneSize = some ps ∧
    2 * Demo.doubles.u ≤ ps ∧ ps ≤ 1) ∧ 0 < Demo.newRipper.hyper.alpha := by
  refine ⟨Demo.mixed_valid, by decide +kernel, ⟨1 / 3, rfl, ?_, by norm_num⟩, by decide +kernel⟩
  show (2 : ℝ) * 2⁻¹ ^ 53 ≤ ((1 / 3 : Rat) : ℝ)
  push_cast
  norm_num

/-- C81. C69 for doubles: with the precision of doubles, and a logarithm that errs by at most one unit in the last place,
`IREP(prune_size=None)` without limits and initial model, fitted on valid data of up to eight million rows with distinct row
labels, in which nothing prints like something else, reproduces the labels it was trained on, if no positive row has a missing
value or looks, after discretisation, like a negative one. -/
theorem C81_irep_fit_reproduces_training_data (r : Rounding) (hu53 : r.u ≤ 2⁻¹ ^ 53) (hw : r.w ≤ 2⁻¹ ^ 52)
    (hleast : r.least ≤ 2⁻¹ ^ 1022) (hN : 2 ^ 53 ≤ r.N) (R : PyRandom) (hR : R.Lawful) (F : PyFloat) (hF : F.Lawful) (P : PandasCut)
    (hP : P.Lawful F) (d : FitData) (hv : ValidInput d) (hn : d.names = none) (hd : d.X.cols.Nodup) (hu : (rowLabels d).Nodup)
    (hX : d.X.UniqueIndex) (hsize : d.X.rows.length ≤ 8000000) (c c' : Clf)
    (h : @FittedBy (Arith.rounded r) .irep R F P d .nothing c c')
    (df0 : TFrame) (hdf0 : toTraining d.X d.y (classFeatName d.classFeat d.y) d.names = .ok df0)
    (hr : ReadsApart df0.toFrame (classFeatName d.classFeat d.y)) (pc : Val) (hpc : c'.posClass = some pc)
    (b : Binner) (hb : c'.binner = some b)
    (hm : ∀ row ∈ df0.rows, Positive (classFeatName d.classFeat d.y) pc row →
      RawComplete F b df0 (classFeatName d.classFeat d.y) row)
    (hc : ∀ row ∈ df0.rows, ∀ row' ∈ df0.rows, Positive (classFeatName d.classFeat d.y) pc row →
      RawAlike F b df0 (classFeatName d.classFeat d.y) row row' → Positive (classFeatName d.classFeat d.y) pc row')
    (hprune : c.hyper.irepPrune = 0) (hl : c.hyper.lim = {}) :
    ∃ ps, Clf.predict F d.X none c' = .ok ps c' ∧ ps.length = d.X.rows.length ∧
      ∀ i, i < d.X.rows.length → (ps[i]? = some true ↔ ∃ v, trueLabel d i = some v ∧ Same v pc) := by
  let _ : Arith := Arith.rounded r
  let _ : Arith.Lawful := C81_rounded_lawful r
  exact C69_irep_fit_reproduces_training_data R hR F hF P hP d hv hn hd hu hX c c' h df0 hdf0 hr pc hpc b hb hm hc hprune hl
    (C81_doubles_sharp r hu53 hw hleast hN _ hsize)

/-- The precision asked for is that of `Demo.doubles`. -/
example : Demo.doubles.u ≤ 2⁻¹ ^ 53 ∧ Demo.doubles.w ≤ 2⁻¹ ^ 52 ∧ Demo.doubles.least ≤ 2⁻¹ ^ 1022 ∧ 2 ^ 53 ≤ Demo.doubles.N :=
  ⟨le_refl _, pow_le_pow_of_le_one (by norm_num) (by norm_num) (by norm_num), le_refl _, le_refl _⟩

/-- C81, a `prune_size` so small that `1 - prune_size` rounds to 1. Then nothing is left to prune on: IREP raises
ZeroDivisionError, or returns no rules but those of the initial model. -/
theorem C81_prune_size_rounded_away [Arith] [Arith.Lawful] (R : PyRandom) (hR : R.Lawful) (hp : Hyper) (ps : Rat)
    (hps : hp.pruneSize = some ps) (h0 : ps ≠ 0) (hc : Arith.complement ps = 1) (init : List (List Cond)) (df : Frame) (cf : Feat)
    (pc : Val) (fuel : Nat) (g g' : R.G) (m : Fitted) (h : irepFit fuel R hp init df cf pc g = .ok (m, g')) :
    ∀ r ∈ m.ruleset.rules, r.conds ∈ init := by
  obtain ⟨_, cn, st, hb, hg, hrules, _⟩ := irepFit_ok h
  obtain ⟨s, hreach, he, _⟩ := irepGrowCn_reach hg
  have hip : hp.irepPrune = ps := by unfold Hyper.irepPrune; rw [hps]; rfl
  have hs : s.rules = init := by
    induction hreach with
    | start => rfl
    | @add st1 st2 rule hr ha ih =>
      exfalso
      obtain ⟨a, b, c, d, g1, grown, h1, h2, _, h3⟩ := ha.how
      rw [hip, hc] at h1 h2
      have e1 := (randomSplit_one hR st1.g st1.pos hp.randomState).2
      rw [h1] at e1
      have e2 := (randomSplit_one hR g1 st1.neg hp.randomState).2
      rw [h2] at e2
      simp only at e1 e2
      subst e1 e2
      rw [hip] at h3
      rcases h3 with ⟨h3, _⟩ | ⟨_, _, _, q, hq, _⟩
      · exact h0 h3
      · have hnil : cn.ruleCovers rule (some []) = [] := by
          rw [CatNap.ruleCovers_some]
          rfl
        simp [rulePrecisionCn, hnil] at hq
  intro r hr
  have h1 : r.conds ∈ m.ruleset.rules.map Rule.conds := List.mem_map_of_mem hr
  rw [hrules] at h1
  have := (finish_sublist _ _).subset h1
  rwa [he, hs] at this

/-- For doubles that is the case of `prune_size=1e-17`. -/
theorem doubles_complement : @Arith.complement (Arith.rounded Demo.doubles) (1 / 10 ^ 17) = 1 := by
  show Demo.fl53 (1 - ((1 / 10 ^ 17 : Rat) : ℝ)) = 1
  have hx : (1 : ℝ) - ((1 / 10 ^ 17 : Rat) : ℝ) = 1 - 1 / 10 ^ 17 := by push_cast; rfl
  rw [hx]
  have hpos : (0 : ℝ) < 1 - 1 / 10 ^ 17 := by norm_num
  have hlog : Int.log 2 ((1 : ℝ) - 1 / 10 ^ 17) = -1 := by
    have h1 : Int.log 2 ((1 : ℝ) - 1 / 10 ^ 17) < 0 := by
      rw [← Int.lt_zpow_iff_log_lt (by norm_num) hpos]
      norm_num
    have h2 : -1 ≤ Int.log 2 ((1 : ℝ) - 1 / 10 ^ 17) := by
      rw [← Int.zpow_le_iff_le_log (by norm_num) hpos]
      norm_num
    omega
  unfold Demo.fl53 Demo.near53
  rw [if_pos hpos, hlog]
  have hr : round (((1 : ℝ) - 1 / 10 ^ 17) * 2 ^ (52 - (-1) : Int)) = 2 ^ 53 := by
    rw [round_eq, Int.floor_eq_iff]
    constructor <;> norm_num
  rw [hr]
  norm_num

/-- C81. So with doubles, `0 < prune_size <= 1` is not enough for IREP: with `prune_size=1e-17` it learns nothing, whatever the
data, if it does not raise. -/
theorem C81_refuted_tiny_prune_size (R : PyRandom) (hR : R.Lawful) (hp : Hyper) (hps : hp.pruneSize = some (1 / 10 ^ 17))
    (df : Frame) (cf : Feat) (pc : Val) (fuel : Nat) (g g' : R.G) (m : Fitted)
    (h : @irepFit (Arith.rounded Demo.doubles) fuel R hp [] df cf pc g = .ok (m, g')) : m.ruleset.rules = [] := by
  let _ : Arith := Arith.rounded Demo.doubles
  let _ : Arith.Lawful := C81_rounded_lawful Demo.doubles
  have := C81_prune_size_rounded_away R hR hp _ hps (by norm_num) doubles_complement [] df cf pc fuel g g' m h
  apply List.eq_nil_iff_forall_not_mem.mpr
  intro r hr
  exact absurd (this r hr) (List.not_mem_nil)

namespace Demo
/-- Arithmetic that rounds nothing but `1 - prune_size`, to 1. -/
@[instance_reducible] def coarse : Arith := { Arith.exact with complement := fun _ => 1 }
theorem coarse_lawful : @Arith.Lawful coarse :=
  @Arith.Lawful.mk coarse exact_lawful.gain_pos exact_lawful.gain_loses exact_lawful.gain_same exact_lawful.quot_zero
    exact_lawful.quot_nonneg exact_lawful.quot_half exact_lawful.within_zero rfl
    (fun _ _ _ => ⟨show (0 : Rat) ≤ 1 by norm_num, show (1 : Rat) ≤ 1 by norm_num⟩)
    exact_lawful.cut_range exact_lawful.cut_one
end Demo

/-- The exception does occur. -/
example : (@irepFit Demo.coarse 19 Demo.R0 { pruneSize := some (1 / 10 ^ 17) } [] Demo.conj Demo.fc Demo.vp ()).map
    (fun m => m.1.ruleset.rules.map Rule.conds) = .error .zeroDivision := by
  decide +kernel

end Witt
