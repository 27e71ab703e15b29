import Mathlib.Analysis.SpecialFunctions.Log.Base
import Mathlib.Analysis.SpecialFunctions.Pow.Real
import Verif.Lemmas.Grow
/-
C59: FOIL information gain, and the bridge from the code's logarithms to the model's exact rationals.
-/
namespace Witt
open Spec

/-- The gain as the code writes it (base_functions.py 435-438), over the real numbers. -/
noncomputable def Spec.gainReal (p0 n0 p1 n1 : Nat) : ℝ :=
  (p1 : ℝ) * (Real.logb 2 (((p1 : ℝ) + 1) / (p1 + n1 + 1)) - Real.logb 2 (((p0 : ℝ) + 1) / (p0 + n0 + 1)))

/-- Bridge: the model's rational is `2` to the gain. -/
theorem C59_bridge_gain (p0 n0 p1 n1 : Nat) :
    ((gainExp p0 n0 p1 n1 : Rat) : ℝ) = (2 : ℝ) ^ gainReal p0 n0 p1 n1 := by
  have ha : (0 : ℝ) < ((p1 : ℝ) + 1) / (p1 + n1 + 1) := by positivity
  have hb : (0 : ℝ) < ((p0 : ℝ) + 1) / (p0 + n0 + 1) := by positivity
  unfold gainReal gainExp
  rw [← Real.logb_div ha.ne' hb.ne', mul_comm, Real.rpow_mul (by norm_num),
    Real.rpow_logb (by norm_num) (by norm_num) (by positivity), Real.rpow_natCast]
  push_cast
  rfl

/-- Bridge: comparing two gains is comparing their model values; in particular `gain > 0` is
`gainExp > 1`, and every gain exceeds `-inf`, represented by `0`. -/
theorem C59_bridge_compare (a b c d e f g h : Nat) :
    (gainReal a b c d < gainReal e f g h ↔ gainExp a b c d < gainExp e f g h) ∧
    (0 < gainReal a b c d ↔ 1 < gainExp a b c d) ∧ 0 < gainExp a b c d := by
  refine ⟨?_, ?_, gainExp_pos _ _ _ _⟩
  · rw [← Real.rpow_lt_rpow_left_iff (x := 2) (by norm_num), ← C59_bridge_gain, ← C59_bridge_gain]
    exact Rat.cast_lt
  · rw [← Real.rpow_lt_rpow_left_iff (x := 2) (by norm_num), ← C59_bridge_gain, Real.rpow_zero]
    exact_mod_cast Iff.rfl

/-- C59. The gain is positive exactly when the refinement keeps a positive and strictly increases the
smoothed precision `(p+1)/(p+n+1)`. -/
theorem C59_gain_positive_iff (p0 n0 p1 n1 : Nat) :
    0 < gainReal p0 n0 p1 n1 ↔
      1 ≤ p1 ∧ ((p0 : Rat) + 1) / (p0 + n0 + 1) < ((p1 : Rat) + 1) / (p1 + n1 + 1) := by
  rw [(C59_bridge_compare p0 n0 p1 n1 0 0 0 0).2.1, one_lt_gainExp_iff]
  rfl

/-- C59. A refinement covers no more than before; if its gain is positive it covers strictly fewer
negatives. -/
theorem C59_positive_gain_loses_negative (p0 n0 p1 n1 : Nat) (hp : p1 ≤ p0)
    (h : 0 < gainReal p0 n0 p1 n1) : 1 ≤ p1 ∧ n1 < n0 :=
  gain_loses_negative hp ((C59_bridge_compare p0 n0 p1 n1 0 0 0 0).2.1.mp h)

/-- C59. A step that changes nothing (such as a condition already in the rule) has gain 0. -/
theorem C59_no_change_no_gain (p n : Nat) : gainReal p n p n = 0 := by
  unfold gainReal; simp

example : 0 < gainReal 3 2 2 0 := by
  rw [C59_gain_positive_iff]; norm_num
example : ¬ 0 < gainReal 3 2 3 2 := by
  rw [C59_gain_positive_iff]; norm_num

end Witt
