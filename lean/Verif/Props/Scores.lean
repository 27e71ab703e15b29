import Mathlib.Tactic.FieldSimp
import Mathlib.Tactic.Ring
import Mathlib.Tactic.Linarith
import Mathlib.Tactic.Positivity
import Mathlib.Data.Nat.Choose.Basic
import Mathlib.Data.Nat.Choose.Cast
import Verif.Lemmas.Cover
import Verif.Scores
/-
Properties of scores and arithmetic helpers: C42, C43, C44.
-/
namespace Witt

namespace Spec

/-- Confusion matrix of two Boolean lists (actual, predicted), position by position. -/
def tp (as ps : List Bool) : Nat := (as.zip ps).countP (fun x => x.1 && x.2)
def fp (as ps : List Bool) : Nat := (as.zip ps).countP (fun x => !x.1 && x.2)
def fn (as ps : List Bool) : Nat := (as.zip ps).countP (fun x => x.1 && !x.2)
def tn (as ps : List Bool) : Nat := (as.zip ps).countP (fun x => !x.1 && !x.2)

end Spec
open Spec

theorem confusion_counts : ∀ (as ps : List Bool), as.length = ps.length →
    countTrue ps = tp as ps + fp as ps ∧ countTrue as = tp as ps + fn as ps ∧
    as.length = tp as ps + fp as ps + fn as ps + tn as ps ∧
    countTrue ((ps.zip as).map (fun pa => pa.1 && pa.2)) = tp as ps ∧
    ((ps.zip as).filter (fun pa => pa.1 == pa.2)).length = tp as ps + tn as ps
  | [], [], _ => by decide
  | [], _ :: _, h => by simp at h
  | _ :: _, [], h => by simp at h
  | a :: as, p :: ps, h => by
    have ih := confusion_counts as ps (by simpa using h)
    simp only [tp, fp, fn, tn, countTrue] at *
    obtain ⟨h1, h2, h3, h4, h5⟩ := ih
    cases a <;> cases p <;>
      (simp only [List.zip_cons_cons, List.countP_cons, List.map_cons, List.filter_cons, List.length_cons,
        id] at *
       simp [-List.countP_map]
       omega)

/-- C42. On lists of equal length the four scores are the textbook functions of the confusion matrix
(whose entries add up to the number of examples), undefined exactly when the denominator is zero
(F1: when there is no true positive), and between 0 and 1; on lists of different length all four raise
ValueError. -/
theorem C42_scores (as ps : List Bool) :
    (as.length ≠ ps.length →
      scoreAccuracy as ps = .error .valueError ∧ scorePrecision as ps = .error .valueError ∧
      scoreRecall as ps = .error .valueError ∧ scoreF1 as ps = .error .valueError) ∧
    (as.length = ps.length →
      tp as ps + fp as ps + fn as ps + tn as ps = as.length ∧
      scoreAccuracy as ps = .ok (if as.length = 0 then none
        else some (((tp as ps + tn as ps : Nat) : Rat) / as.length)) ∧
      scorePrecision as ps = .ok (if tp as ps + fp as ps = 0 then none
        else some ((tp as ps : Rat) / (tp as ps + fp as ps : Nat))) ∧
      scoreRecall as ps = .ok (if tp as ps + fn as ps = 0 then none
        else some ((tp as ps : Rat) / (tp as ps + fn as ps : Nat))) ∧
      scoreF1 as ps = .ok (if tp as ps = 0 then none
        else some ((2 * tp as ps : Rat) / (2 * tp as ps + fp as ps + fn as ps : Nat)))) := by
  constructor
  · intro h
    simp [scoreAccuracy, scorePrecision, scoreRecall, scoreF1, h]
  · intro h
    obtain ⟨h1, h2, h3, h4, h5⟩ := confusion_counts as ps h
    have hn : ¬ (as.length ≠ ps.length) := by simp [h]
    have hP : scorePrecision as ps = .ok (if tp as ps + fp as ps = 0 then none
        else some ((tp as ps : Rat) / (tp as ps + fp as ps : Nat))) := by
      simp only [scorePrecision, hn, if_false, h1, h4]; split <;> rfl
    have hR : scoreRecall as ps = .ok (if tp as ps + fn as ps = 0 then none
        else some ((tp as ps : Rat) / (tp as ps + fn as ps : Nat))) := by
      simp only [scoreRecall, hn, if_false, h2, h4]; split <;> rfl
    refine ⟨h3.symm, ?_, hP, hR, ?_⟩
    · simp only [scoreAccuracy, hn, if_false, h5]; split <;> rfl
    · simp only [scoreF1, hn, if_false, hP, hR, ok_bind, pure_eq_ok]
      by_cases h0 : tp as ps = 0
      · simp only [h0, if_true, Nat.zero_add, Nat.cast_zero, zero_div]
        by_cases hf : fp as ps = 0 <;> by_cases hg : fn as ps = 0 <;> simp [hf, hg, f1]
      · have e1 : ¬ (tp as ps + fp as ps = 0) := by omega
        have e2 : ¬ (tp as ps + fn as ps = 0) := by omega
        simp only [h0, e1, e2, if_false, f1]
        have a0 : (0 : Rat) < tp as ps := by exact_mod_cast Nat.pos_of_ne_zero h0
        have a1 : (0 : Rat) ≤ fp as ps := by positivity
        have a2 : (0 : Rat) ≤ fn as ps := by positivity
        have b1 : (0 : Rat) < ((tp as ps + fp as ps : Nat) : Rat) := by push_cast; linarith
        have b2 : (0 : Rat) < ((tp as ps + fn as ps : Nat) : Rat) := by push_cast; linarith
        have e3 : ¬ ((tp as ps : Rat) / (tp as ps + fp as ps : Nat)
            + (tp as ps : Rat) / (tp as ps + fn as ps : Nat) = 0) := by
          have := div_pos a0 b1
          have := div_pos a0 b2
          linarith
        simp only [e3, if_false]
        congr 2
        push_cast at *
        have c3 : (2 * (tp as ps : Rat) + fp as ps + fn as ps) ≠ 0 := by
          have : (0 : Rat) < 2 * (tp as ps : Rat) + fp as ps + fn as ps := by linarith
          exact this.ne'
        have c1 : (tp as ps : Rat) + fp as ps ≠ 0 := b1.ne'
        have c2 : (tp as ps : Rat) + fn as ps ≠ 0 := b2.ne'
        have c4 : (tp as ps : Rat) / (tp as ps + fp as ps) + tp as ps / (tp as ps + fn as ps)
            = tp as ps * (2 * tp as ps + fp as ps + fn as ps)
              / ((tp as ps + fp as ps) * (tp as ps + fn as ps)) := by
          field_simp; ring
        rw [c4]
        field_simp

/-- C42, range: whenever a score is defined it lies in [0, 1]. -/
theorem C42_scores_in_unit_interval (as ps : List Bool) (v : Rat)
    (h : scoreAccuracy as ps = .ok (some v) ∨ scorePrecision as ps = .ok (some v) ∨
      scoreRecall as ps = .ok (some v) ∨ scoreF1 as ps = .ok (some v)) : 0 ≤ v ∧ v ≤ 1 := by
  by_cases hl : as.length = ps.length
  · obtain ⟨e0, e1, e2, e3, e4⟩ := (C42_scores as ps).2 hl
    have key : ∀ (a b : Nat), a ≤ b → ¬ b = 0 → 0 ≤ (a : Rat) / (b : Nat) ∧ (a : Rat) / (b : Nat) ≤ 1 := by
      intro a b hab hb
      have : (0 : Rat) < b := by exact_mod_cast Nat.pos_of_ne_zero hb
      refine ⟨by positivity, (div_le_one this).2 (by exact_mod_cast hab)⟩
    rcases h with h | h | h | h
    · rw [e1] at h
      split at h
      · cases h
      · rename_i h0; cases h; exact key _ _ (by omega) h0
    · rw [e2] at h
      split at h
      · cases h
      · rename_i h0; cases h; exact key _ _ (by omega) h0
    · rw [e3] at h
      split at h
      · cases h
      · rename_i h0; cases h; exact key _ _ (by omega) h0
    · rw [e4] at h
      split at h
      · cases h
      · rename_i h0; cases h
        have := key (2 * tp as ps) (2 * tp as ps + fp as ps + fn as ps) (by omega) (by omega)
        push_cast at *; exact this
  · obtain ⟨e1, e2, e3, e4⟩ := (C42_scores as ps).1 hl
    rw [e1, e2, e3, e4] at h; simp at h

example : scoreF1 [true, true, false, false] [true, false, true, false] = .ok (some (1 / 2)) ∧
    scoreAccuracy [true, true, false, false] [true, false, false, false] = .ok (some (3 / 4)) ∧
    scorePrecision [true] [false] = .ok none ∧ scoreRecall [false] [true] = .ok none := by
  decide +kernel

/-! ### nCr -/

theorem pyProduct_foldl (l : List Int) (a : Int) : l.foldl (· * ·) a = a * l.prod := by
  induction l generalizing a with
  | nil => simp
  | cons x l ih => simp [ih, mul_assoc]

theorem pyProduct_eq (l : List Int) : pyProduct l = l.prod := by
  simp [pyProduct, pyProduct_foldl]

theorem prod_desc (n r : Nat) :
    ((List.range r).map (fun (i : Nat) => (n : Int) - (i : Int))).prod = (n.descFactorial r : Int) := by
  induction r with
  | zero => simp
  | succ r ih =>
    rw [List.range_succ, List.map_append, List.prod_append, ih, Nat.descFactorial_succ]
    by_cases h : r ≤ n
    · simp [Nat.cast_sub h, mul_comm]
    · have h0 : n.descFactorial r = 0 := Nat.descFactorial_eq_zero_iff_lt.2 (by omega)
      simp [h0]

theorem prod_fact (r : Nat) :
    ((List.range r).map (fun (i : Nat) => (i : Int) + 1)).prod = (r.factorial : Int) := by
  induction r with
  | zero => simp
  | succ r ih =>
    rw [List.range_succ, List.map_append, List.prod_append, ih, Nat.factorial_succ]
    simp; ring

/-- C43. `nCr` is the binomial coefficient on naturals (0 when r > n), and 1 for r ≤ 0 whatever n. -/
theorem C43_nCr (n r : Nat) : nCr n r = (n.choose r : Int) := by
  unfold nCr
  rw [pyProduct_eq, pyProduct_eq, Int.toNat_natCast, prod_desc, prod_fact, Int.fdiv_eq_ediv_of_nonneg _ (by positivity),
    Nat.choose_eq_descFactorial_div_factorial]
  push_cast; rfl

/-- C43. Choosing none (or a negative number) of the candidates counts as one way. -/
theorem C43_nCr_nonpos (n r : Int) (h : r ≤ 0) : nCr n r = 1 := by
  unfold nCr
  have : r.toNat = 0 := by omega
  simp [this, pyProduct]

example : nCr 5 2 = 10 ∧ nCr 2 3 = 0 := by decide +kernel

/-! ### argmin -/

theorem argminAux_spec {α : Type} [LinearOrder α] (full : List α) :
    ∀ (rest pre : List α) (b : α) (bi : Nat), full = pre ++ rest → pre[bi]? = some b →
      (∀ j x, pre[j]? = some x → b ≤ x ∧ (j < bi → b < x)) →
      ∃ m, argminAux (fun a b => decide (a < b)) (b, bi) pre.length rest = m ∧
        ∃ v, full[m]? = some v ∧ ∀ j x, full[j]? = some x → v ≤ x ∧ (j < m → v < x)
  | [], pre, b, bi, hf, hb, hmin => by
    simp only [List.append_nil] at hf
    exact ⟨bi, rfl, b, by rw [hf]; exact hb, by rw [hf]; exact hmin⟩
  | v :: rest, pre, b, bi, hf, hb, hmin => by
    have hlen : (pre ++ [v]).length = pre.length + 1 := by simp
    have hbi : bi < pre.length := by
      rcases Nat.lt_or_ge bi pre.length with h | h
      · exact h
      · rw [List.getElem?_eq_none h] at hb; cases hb
    have step : ∀ (b' : α) (bi' : Nat), (pre ++ [v])[bi']? = some b' →
        (∀ j x, (pre ++ [v])[j]? = some x → b' ≤ x ∧ (j < bi' → b' < x)) →
        ∃ m, argminAux (fun a b => decide (a < b)) (b', bi') (pre.length + 1) rest = m ∧
        ∃ v, full[m]? = some v ∧ ∀ j x, full[j]? = some x → v ≤ x ∧ (j < m → v < x) := by
      intro b' bi' h1 h2
      have := argminAux_spec full rest (pre ++ [v]) b' bi' (by simp [hf]) h1 h2
      rwa [hlen] at this
    have hget : ∀ j x, (pre ++ [v])[j]? = some x → pre[j]? = some x ∨ (j = pre.length ∧ x = v) := by
      intro j x h
      rcases Nat.lt_trichotomy j pre.length with h' | h' | h'
      · rw [List.getElem?_append_left h'] at h; exact .inl h
      · subst h'; simp at h; exact .inr ⟨rfl, h.symm⟩
      · rw [List.getElem?_eq_none (by simp; omega)] at h; cases h
    simp only [argminAux]
    by_cases hv : v < b
    · simp only [hv, decide_true, if_true]
      apply step v pre.length (by simp)
      intro j x h
      rcases hget j x h with h | ⟨rfl, rfl⟩
      · have := (hmin j x h).1
        exact ⟨(lt_of_lt_of_le hv this).le, fun _ => lt_of_lt_of_le hv this⟩
      · exact ⟨le_refl _, fun h => absurd h (Nat.lt_irrefl _)⟩
    · simp only [hv, decide_false, Bool.false_eq_true, if_false]
      apply step b bi (by rw [List.getElem?_append_left hbi]; exact hb)
      intro j x h
      rcases hget j x h with h | ⟨rfl, rfl⟩
      · exact hmin j x h
      · exact ⟨le_of_not_gt hv, fun h => absurd h (by omega)⟩

/-- C44. On every non-empty list, `argmin` returns the first index holding a minimal value; on the empty
list it raises IndexError. -/
theorem C44_argmin {α : Type} [LinearOrder α] (l : List α) :
    (l = [] → argmin (fun a b => decide (a < b)) l = .error .indexError) ∧
    (l ≠ [] → ∃ m v, argmin (fun a b => decide (a < b)) l = .ok m ∧ l[m]? = some v ∧
      (∀ x ∈ l, v ≤ x) ∧ ∀ j x, j < m → l[j]? = some x → v < x) := by
  constructor
  · rintro rfl; rfl
  · intro h
    cases l with
    | nil => exact absurd rfl h
    | cons a l =>
      obtain ⟨m, hm, v, hv, hmin⟩ := argminAux_spec (a :: l) l [a] a 0 rfl rfl (by
        intro j x h
        cases j with
        | zero => simp at h; subst h; exact ⟨le_refl _, fun h => absurd h (Nat.lt_irrefl _)⟩
        | succ j => simp at h)
      refine ⟨m, v, ?_, hv, ?_, fun j x hj hx => (hmin j x hx).2 hj⟩
      · simp only [argmin, argminAux, lt_self_iff_false, decide_false, Bool.false_eq_true, if_false]
        simpa using hm
      · intro x hx
        obtain ⟨j, hj⟩ := List.getElem?_of_mem hx
        exact (hmin j x hj).1

example : argmin (fun a b => decide (a < b)) [(3 : Int), 1, 2, 1] = .ok 1 := by decide +kernel

end Witt
