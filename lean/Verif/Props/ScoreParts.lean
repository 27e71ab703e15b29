import Verif.Props.Batches
import Verif.Props.ScoreApi
import Verif.Props.Scores
/-
C110: the scores of a test set and of its parts.
-/
namespace Witt
open Spec

theorem confusion_append {as1 ps1 : List Bool} (h : as1.length = ps1.length) (as2 ps2 : List Bool) :
    tp (as1 ++ as2) (ps1 ++ ps2) = tp as1 ps1 + tp as2 ps2 ∧ fp (as1 ++ as2) (ps1 ++ ps2) = fp as1 ps1 + fp as2 ps2 ∧
    fn (as1 ++ as2) (ps1 ++ ps2) = fn as1 ps1 + fn as2 ps2 ∧ tn (as1 ++ as2) (ps1 ++ ps2) = tn as1 ps1 + tn as2 ps2 := by
  simp only [tp, fp, fn, tn, List.zip_append h, List.countP_append, and_self]

namespace Spec
/-- The score `o` of a whole, given those of its two parts (`none` where the score is undefined): between them; if only one of them is
defined, that one; undefined if both are. -/
def Amid : Option Rat → Option Rat → Option Rat → Prop
  | some v, some a, some b => min a b ≤ v ∧ v ≤ max a b
  | some v, some a, none => v = a
  | some v, none, some b => v = b
  | none, none, none => True
  | _, _, _ => False
end Spec

/-- A quotient of sums lies between the quotients. -/
theorem mediant {a b c d : Rat} (hb : 0 < b) (hd : 0 < d) :
    min (a / b) (c / d) ≤ (a + c) / (b + d) ∧ (a + c) / (b + d) ≤ max (a / b) (c / d) := by
  have hbd : 0 < b + d := by linarith
  have e1 : a / b * b = a := by field_simp
  have e2 : c / d * d = c := by field_simp
  constructor
  · rw [le_div_iff₀ hbd]
    have h1 := mul_le_mul_of_nonneg_right (min_le_left (a / b) (c / d)) hb.le
    have h2 := mul_le_mul_of_nonneg_right (min_le_right (a / b) (c / d)) hd.le
    linarith
  · rw [div_le_iff₀ hbd]
    have h1 := mul_le_mul_of_nonneg_right (le_max_left (a / b) (c / d)) hb.le
    have h2 := mul_le_mul_of_nonneg_right (le_max_right (a / b) (c / d)) hd.le
    linarith

/-- A ratio of two counts, undefined for a total of none. -/
theorem amid_ratio (a b c d : Nat) (ha : a ≤ b) (hc : c ≤ d) :
    Amid (if b + d = 0 then none else some (((a + c : Nat) : Rat) / ((b + d : Nat) : Rat)))
      (if b = 0 then none else some ((a : Rat) / (b : Rat))) (if d = 0 then none else some ((c : Rat) / (d : Rat))) := by
  by_cases hb : b = 0
  · have ha0 : a = 0 := by omega
    subst hb; subst ha0
    by_cases hd : d = 0
    · subst hd; simp [Amid]
    · simp [hd, Amid]
  · by_cases hd : d = 0
    · have hc0 : c = 0 := by omega
      subst hd; subst hc0
      simp [hb, Amid]
    · have hbd : ¬ b + d = 0 := by omega
      rw [if_neg hb, if_neg hd, if_neg hbd]
      have hb' : (0 : Rat) < b := by exact_mod_cast Nat.pos_of_ne_zero hb
      have hd' : (0 : Rat) < d := by exact_mod_cast Nat.pos_of_ne_zero hd
      simp only [Amid]
      push_cast
      exact mediant hb' hd'

/-- C110 for lists of labels and predictions: the accuracy of a whole is the mean of those of its parts, weighted by their sizes. -/
theorem C110_accuracy (as1 as2 ps1 ps2 : List Bool) (h1 : as1.length = ps1.length) (h2 : as2.length = ps2.length) (n1 : as1 ≠ []) (n2 : as2 ≠ []) :
    ∃ v1 v2, scoreAccuracy as1 ps1 = .ok (some v1) ∧ scoreAccuracy as2 ps2 = .ok (some v2) ∧
      scoreAccuracy (as1 ++ as2) (ps1 ++ ps2) =
        .ok (some ((v1 * as1.length + v2 * as2.length) / ((as1.length : Rat) + as2.length))) := by
  obtain ⟨_, e1, _⟩ := (C42_scores as1 ps1).2 h1
  obtain ⟨_, e2, _⟩ := (C42_scores as2 ps2).2 h2
  obtain ⟨_, e3, _⟩ := (C42_scores (as1 ++ as2) (ps1 ++ ps2)).2 (by simp only [List.length_append]; omega)
  obtain ⟨c1, c2, c3, c4⟩ := confusion_append h1 as2 ps2
  have k1 : 0 < as1.length := List.length_pos_iff.mpr n1
  have k2 : 0 < as2.length := List.length_pos_iff.mpr n2
  rw [if_neg (by omega)] at e1 e2
  rw [if_neg (by rw [List.length_append]; omega)] at e3
  refine ⟨_, _, e1, e2, ?_⟩
  rw [e3, c1, c4, List.length_append]
  have q1 : (as1.length : Rat) ≠ 0 := by exact_mod_cast k1.ne'
  have q2 : (as2.length : Rat) ≠ 0 := by exact_mod_cast k2.ne'
  rw [div_mul_cancel₀ _ q1, div_mul_cancel₀ _ q2]
  push_cast
  congr 3
  ring

/-- C110: precision and recall of a whole lie between those of its parts. -/
theorem C110_precision_recall (as1 as2 ps1 ps2 : List Bool) (h1 : as1.length = ps1.length) (h2 : as2.length = ps2.length) :
    (∃ o o1 o2, scorePrecision as1 ps1 = .ok o1 ∧ scorePrecision as2 ps2 = .ok o2 ∧
      scorePrecision (as1 ++ as2) (ps1 ++ ps2) = .ok o ∧ Amid o o1 o2) ∧
    (∃ o o1 o2, scoreRecall as1 ps1 = .ok o1 ∧ scoreRecall as2 ps2 = .ok o2 ∧
      scoreRecall (as1 ++ as2) (ps1 ++ ps2) = .ok o ∧ Amid o o1 o2) := by
  obtain ⟨_, _, p1, r1, _⟩ := (C42_scores as1 ps1).2 h1
  obtain ⟨_, _, p2, r2, _⟩ := (C42_scores as2 ps2).2 h2
  obtain ⟨_, _, p3, r3, _⟩ := (C42_scores (as1 ++ as2) (ps1 ++ ps2)).2 (by simp only [List.length_append]; omega)
  obtain ⟨c1, c2, c3, c4⟩ := confusion_append h1 as2 ps2
  refine ⟨⟨_, _, _, p1, p2, p3, ?_⟩, ⟨_, _, _, r1, r2, r3, ?_⟩⟩
  · have := amid_ratio (tp as1 ps1) (tp as1 ps1 + fp as1 ps1) (tp as2 ps2) (tp as2 ps2 + fp as2 ps2) (by omega) (by omega)
    rw [c1, c2]
    rwa [show tp as1 ps1 + fp as1 ps1 + (tp as2 ps2 + fp as2 ps2) = tp as1 ps1 + tp as2 ps2 + (fp as1 ps1 + fp as2 ps2) by omega] at this
  · have := amid_ratio (tp as1 ps1) (tp as1 ps1 + fn as1 ps1) (tp as2 ps2) (tp as2 ps2 + fn as2 ps2) (by omega) (by omega)
    rw [c1, c3]
    rwa [show tp as1 ps1 + fn as1 ps1 + (tp as2 ps2 + fn as2 ps2) = tp as1 ps1 + tp as2 ps2 + (fn as1 ps1 + fn as2 ps2) by omega] at this

/-- C110: F1 of a whole lies between that of its parts if both have one. If one part has none (no true positive in it), the F1 of the
whole is at most that of the other part. -/
theorem C110_f1 (as1 as2 ps1 ps2 : List Bool) (h1 : as1.length = ps1.length) (h2 : as2.length = ps2.length) :
    ∃ o o1 o2, scoreF1 as1 ps1 = .ok o1 ∧ scoreF1 as2 ps2 = .ok o2 ∧ scoreF1 (as1 ++ as2) (ps1 ++ ps2) = .ok o ∧
      (∀ a b, o1 = some a → o2 = some b → Amid o (some a) (some b)) ∧
      (∀ a, (o1 = some a ∧ o2 = none) ∨ (o1 = none ∧ o2 = some a) → ∃ v, o = some v ∧ v ≤ a) ∧
      (o1 = none → o2 = none → o = none) := by
  obtain ⟨_, _, _, _, f1⟩ := (C42_scores as1 ps1).2 h1
  obtain ⟨_, _, _, _, f2⟩ := (C42_scores as2 ps2).2 h2
  obtain ⟨_, _, _, _, f3⟩ := (C42_scores (as1 ++ as2) (ps1 ++ ps2)).2 (by simp only [List.length_append]; omega)
  obtain ⟨c1, c2, c3, c4⟩ := confusion_append h1 as2 ps2
  refine ⟨_, _, _, f1, f2, f3, ?_⟩
  rw [c1, c2, c3]
  generalize tp as1 ps1 = t1
  generalize tp as2 ps2 = t2
  generalize fp as1 ps1 = x1
  generalize fp as2 ps2 = x2
  generalize fn as1 ps1 = y1
  generalize fn as2 ps2 = y2
  have le : ∀ t t' d d' : Nat, t' = 0 → t ≠ 0 → 2 * t ≤ d →
      (2 * ((t + t' : Nat) : Rat)) / ((d + d' : Nat) : Rat) ≤ (2 * (t : Rat)) / (d : Rat) := by
    intro t t' d d' h0 ht hd
    subst h0
    have hd0 : (0 : Rat) < d := by exact_mod_cast (show 0 < d by omega)
    have hdd : (0 : Rat) ≤ d' := Nat.cast_nonneg _
    have ht0 : (0 : Rat) ≤ t := Nat.cast_nonneg _
    push_cast
    rw [add_zero]
    exact div_le_div_of_nonneg_left (by linarith) hd0 (by linarith)
  refine ⟨fun a b ha hb => ?_, fun a hab => ?_, fun ha hb => ?_⟩
  · split at ha
    · cases ha
    · rename_i k1
      split at hb
      · cases hb
      · rename_i k2
        rw [if_neg (by omega)]
        injection ha with ha
        injection hb with hb
        subst ha; subst hb
        have := mediant (a := 2 * (t1 : Rat)) (c := 2 * (t2 : Rat)) (b := ((2 * t1 + x1 + y1 : Nat) : Rat)) (d := ((2 * t2 + x2 + y2 : Nat) : Rat))
          (by exact_mod_cast (show 0 < 2 * t1 + x1 + y1 by omega)) (by exact_mod_cast (show 0 < 2 * t2 + x2 + y2 by omega))
        simp only [Amid]
        have e : 2 * (t1 : Rat) + 2 * (t2 : Rat) = 2 * ((t1 + t2 : Nat) : Rat) := by push_cast; ring
        have e' : ((2 * t1 + x1 + y1 : Nat) : Rat) + ((2 * t2 + x2 + y2 : Nat) : Rat) =
            ((2 * (t1 + t2) + (x1 + x2) + (y1 + y2) : Nat) : Rat) := by push_cast; ring
        rw [e, e'] at this
        exact this
  · rcases hab with ⟨ha, hb⟩ | ⟨hb, ha⟩
    · split at ha
      · cases ha
      · rename_i k1
        split at hb
        · rename_i k2
          rw [if_neg (by omega)]
          injection ha with ha
          subst ha
          refine ⟨_, rfl, ?_⟩
          have := le t1 t2 (2 * t1 + x1 + y1) (2 * t2 + x2 + y2) k2 k1 (by omega)
          rwa [show 2 * t1 + x1 + y1 + (2 * t2 + x2 + y2) = 2 * (t1 + t2) + (x1 + x2) + (y1 + y2) by omega] at this
        · cases hb
    · split at ha
      · cases ha
      · rename_i k1
        split at hb
        · rename_i k2
          rw [if_neg (by omega)]
          injection ha with ha
          subst ha
          refine ⟨_, rfl, ?_⟩
          have := le t2 t1 (2 * t2 + x2 + y2) (2 * t1 + x1 + y1) k2 k1 (by omega)
          rwa [show 2 * t2 + x2 + y2 + (2 * t1 + x1 + y1) = 2 * (t1 + t2) + (x1 + x2) + (y1 + y2) by omega, Nat.add_comm t2 t1] at this
        · cases hb
  · split at ha
    · split at hb
      · rw [if_pos (by omega)]
      · cases hb
    · cases ha

/-! ### score -/

/-- `score` of given predictions. -/
theorem score_given {α : Type} {F : PyFloat} {X : TFrame} {y : List Val} {fn : List Bool → List Bool → Except PyErr α} {c : Clf} {pc : Val}
    (hpc : c.posClass = some pc) {ps : List Bool} (hp : returned (Clf.predict F X none c) = .ok ps) :
    returned (Clf.score F X y fn c) = fn (y.map (fun v => v.pyEq pc)) ps := by
  obtain ⟨as, h1, h2, h3⟩ := (C68_score_is_of_predict F X y fn c pc hpc).2.1 ps hp
  rw [h1]
  congr 1
  refine List.ext_getElem? fun i => ?_
  rw [List.getElem?_map]
  cases hy : y[i]? with
  | none =>
    rw [List.getElem?_eq_none_iff] at hy
    rw [Option.map_none, List.getElem?_eq_none_iff]
    omega
  | some v =>
    obtain ⟨b, hb, hiff⟩ := h3 i v hy
    rw [hb]
    simp only [Option.map_some, Option.some.injEq]
    rw [Bool.eq_iff_iff, hiff, Val.pyEq_iff]

/-- C110 for classifiers: on test data of two parts with distinct row labels, with as many class labels as rows, `predict` answers
both parts if it answers the whole, and whatever is scored, the labels and predictions scored for the whole are those scored for the
one part followed by those scored for the other. -/
theorem C110_score_parts {α : Type} (F : PyFloat) (c : Clf) (pc : Val) (hpc : c.posClass = some pc) (X : TFrame) (hu : X.UniqueIndex)
    (r1 r2 : List Row) (n1 : r1 ≠ []) (n2 : r2 ≠ []) (hX : X.rows = r1 ++ r2) (y1 y2 : List Val) (h1 : y1.length = r1.length)
    (h2 : y2.length = r2.length) (ps : List Bool) (hp : returned (Clf.predict F X none c) = .ok ps)
    (fn : List Bool → List Bool → Except PyErr α) :
    ∃ as1 ps1 as2 ps2 : List Bool, as1.length = r1.length ∧ ps1.length = r1.length ∧ as2.length = r2.length ∧ ps2.length = r2.length ∧
      returned (Clf.predict F (X.only r1) none c) = .ok ps1 ∧ returned (Clf.predict F (X.only r2) none c) = .ok ps2 ∧
      returned (Clf.score F (X.only r1) y1 fn c) = fn as1 ps1 ∧ returned (Clf.score F (X.only r2) y2 fn c) = fn as2 ps2 ∧
      returned (Clf.score F X (y1 ++ y2) fn c) = fn (as1 ++ as2) (ps1 ++ ps2) := by
  have hrow := C102_predict F none c
  have hX0 : X.rows ≠ [] := by rw [hX]; simp [n1]
  have key : ∀ r : List Row, r ≠ [] → r.Sublist X.rows → ∀ xs,
      List.Forall₂ (fun row x => returned (Clf.predict F (X.only [row]) none c) = .ok [x]) r xs ↔
        returned (Clf.predict F (X.only r) none c) = .ok xs := by
    intro r hr hs xs
    exact (hrow (X.only r) hr ((hs.map Row.label).nodup hu) xs).symm
  have hall := (hrow X hX0 hu ps).mp hp
  rw [hX] at hall
  obtain ⟨ps1, ps2, f1, f2, hps⟩ := (forall₂_split r1 r2 ps).mp hall
  have g1 := (key r1 n1 (by rw [hX]; exact List.sublist_append_left _ _) ps1).mp f1
  have g2 := (key r2 n2 (by rw [hX]; exact List.sublist_append_right _ _) ps2).mp f2
  refine ⟨y1.map (fun v => v.pyEq pc), ps1, y2.map (fun v => v.pyEq pc), ps2, by simpa using h1, f1.length_eq.symm, by simpa using h2,
    f2.length_eq.symm, g1, g2, score_given hpc g1, score_given hpc g2, ?_⟩
  rw [score_given hpc hp, List.map_append, hps]

/-- C110, the default score: the accuracy on the whole is the mean of the accuracies on the parts, weighted by their sizes. -/
theorem C110_score_accuracy (F : PyFloat) (c : Clf) (pc : Val) (hpc : c.posClass = some pc) (X : TFrame) (hu : X.UniqueIndex)
    (r1 r2 : List Row) (n1 : r1 ≠ []) (n2 : r2 ≠ []) (hX : X.rows = r1 ++ r2) (y1 y2 : List Val) (h1 : y1.length = r1.length)
    (h2 : y2.length = r2.length) (ps : List Bool) (hp : returned (Clf.predict F X none c) = .ok ps) :
    ∃ v1 v2, returned (Clf.score F (X.only r1) y1 scoreAccuracy c) = .ok (some v1) ∧
      returned (Clf.score F (X.only r2) y2 scoreAccuracy c) = .ok (some v2) ∧
      returned (Clf.score F X (y1 ++ y2) scoreAccuracy c) =
        .ok (some ((v1 * r1.length + v2 * r2.length) / ((r1.length : Rat) + r2.length))) := by
  obtain ⟨as1, ps1, as2, ps2, l1, l2, l3, l4, _, _, s1, s2, s3⟩ :=
    C110_score_parts F c pc hpc X hu r1 r2 n1 n2 hX y1 y2 h1 h2 ps hp scoreAccuracy
  have m1 : as1 ≠ [] := List.length_pos_iff.mp (by have := List.length_pos_iff.mpr n1; omega)
  have m2 : as2 ≠ [] := List.length_pos_iff.mp (by have := List.length_pos_iff.mpr n2; omega)
  obtain ⟨v1, v2, e1, e2, e3⟩ := C110_accuracy as1 as2 ps1 ps2 (by omega) (by omega) m1 m2
  rw [l1, l3] at e3
  exact ⟨v1, v2, s1.trans e1, s2.trans e2, s3.trans e3⟩

/-- C110 for `score` with precision or recall: the score on the whole lies between those on the parts. -/
theorem C110_score_precision_recall (F : PyFloat) (c : Clf) (pc : Val) (hpc : c.posClass = some pc) (X : TFrame) (hu : X.UniqueIndex)
    (r1 r2 : List Row) (n1 : r1 ≠ []) (n2 : r2 ≠ []) (hX : X.rows = r1 ++ r2) (y1 y2 : List Val) (h1 : y1.length = r1.length)
    (h2 : y2.length = r2.length) (ps : List Bool) (hp : returned (Clf.predict F X none c) = .ok ps)
    (fn : List Bool → List Bool → Except PyErr (Option Rat)) (hfn : fn = scorePrecision ∨ fn = scoreRecall) :
    ∃ o o1 o2, returned (Clf.score F (X.only r1) y1 fn c) = .ok o1 ∧ returned (Clf.score F (X.only r2) y2 fn c) = .ok o2 ∧
      returned (Clf.score F X (y1 ++ y2) fn c) = .ok o ∧ Amid o o1 o2 := by
  obtain ⟨as1, ps1, as2, ps2, l1, l2, l3, l4, _, _, s1, s2, s3⟩ :=
    C110_score_parts F c pc hpc X hu r1 r2 n1 n2 hX y1 y2 h1 h2 ps hp fn
  obtain ⟨⟨o, o1, o2, e1, e2, e3, e4⟩, ⟨q, q1, q2, d1, d2, d3, d4⟩⟩ := C110_precision_recall as1 as2 ps1 ps2 (by omega) (by omega)
  rcases hfn with rfl | rfl
  · exact ⟨o, o1, o2, s1.trans e1, s2.trans e2, s3.trans e3, e4⟩
  · exact ⟨q, q1, q2, s1.trans d1, s2.trans d2, s3.trans d3, d4⟩

/-- A part without a true positive has no F1, but pulls down the F1 of the whole all the same: F1 is not between the F1s of the parts
that have one. -/
theorem C110_refuted_f1 : scoreF1 [true] [true] = .ok (some 1) ∧ scoreF1 [true, false] [false, true] = .ok none ∧
    scoreF1 [true, true, false] [true, false, true] = .ok (some (1 / 2)) := by
  refine ⟨?_, ?_, ?_⟩ <;> decide +kernel

/-- The hypotheses of C110 are met: three rows, in parts of two and one, with accuracies 1/2, 1 and 2/3. -/
example : Demo.clf.posClass.isSome = true ∧ Demo.tdf.UniqueIndex ∧ Demo.tdf.rows = Demo.tdf.rows.take 2 ++ Demo.tdf.rows.drop 2 ∧
    Demo.tdf.rows.take 2 ≠ [] ∧ Demo.tdf.rows.drop 2 ≠ [] ∧
    returned (Clf.predict Demo.F Demo.tdf none Demo.clf) = .ok [true, true, false] ∧
    (Demo.clf.posClass.map fun pc => [
      (returned (Clf.score Demo.F (Demo.tdf.only (Demo.tdf.rows.take 2)) [pc, .nan] scoreAccuracy Demo.clf)).toOption,
      (returned (Clf.score Demo.F (Demo.tdf.only (Demo.tdf.rows.drop 2)) [.nan] scoreAccuracy Demo.clf)).toOption,
      (returned (Clf.score Demo.F Demo.tdf [pc, .nan, .nan] scoreAccuracy Demo.clf)).toOption]) =
      some [some (some (1 / 2)), some (some 1), some (some (2 / 3))] := by
  refine ⟨by decide +kernel, by unfold Frame.UniqueIndex; decide +kernel, (List.take_append_drop 2 _).symm, ?_, ?_, ?_, ?_⟩
  · intro h; have := congrArg List.length h; revert this; decide +kernel
  · intro h; have := congrArg List.length h; revert this; decide +kernel
  · decide +kernel
  · decide +kernel

end Witt
