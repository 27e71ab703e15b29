import Mathlib.Analysis.SpecialFunctions.Log.Base
import Mathlib.Analysis.SpecialFunctions.Pow.Real
import Verif.Lemmas.RipperFit
import Verif.Props.Irep
import Verif.Props.Index
/-
Description length in bits, over the real numbers, and the bridge from the model's exact rationals
`2^(2*bits)` to it.
-/
namespace Witt
open Spec

namespace Spec

/-- Bits of a rule with `len` conditions among `n` possible ones, as ripper.py 1248-1262 writes it. -/
noncomputable def ruleBits (n len : Nat) : ℝ :=
  let k : ℝ := max (len : ℝ) 1
  let pr := k / n
  let S := k * Real.logb 2 (1 / pr) + (n - k) * Real.logb 2 (1 / (1 - pr))
  max (0.5 * (Real.logb 2 k + S)) 1

/-- Bits of all rules of a ruleset. -/
noncomputable def theoryBits (n : Nat) (rules : List (List Cond)) : ℝ :=
  (rules.map (fun r => ruleBits n r.length)).sum

open Classical in
/-- How many of the listed examples some rule covers. -/
noncomputable def nCoveredAny (df : Frame) (rules : List (List Cond)) (ls : List Label) : Nat :=
  ls.countP (fun l => decide (∃ r ∈ rules, Covered df r l))

/-- Bits to name the exceptions: the `fp` covered negatives among all covered examples and the `fn`
uncovered positives among all uncovered ones (ripper.py 1309-1332). -/
noncomputable def exceptionBits (df : Frame) (rules : List (List Cond)) (pos neg : List Label) : ℝ :=
  let fp := nCoveredAny df rules neg
  let tp := nCoveredAny df rules pos
  Real.logb 2 ((tp + fp).choose fp) +
    Real.logb 2 ((pos.length + neg.length - (tp + fp)).choose (pos.length - tp))

/-- Description length of a ruleset and its exceptions on the examples, with `n` possible conditions. -/
noncomputable def totalBits (df : Frame) (n : Nat) (rules : List (List Cond)) (pos neg : List Label) : ℝ :=
  theoryBits n rules + exceptionBits df rules pos neg

end Spec

/-- `x` stands for `b` bits. -/
def Spec.StandsFor (x : Rat) (b : ℝ) : Prop := (x : ℝ) = (2 : ℝ) ^ (2 * b)

theorem Spec.StandsFor.le_iff {x y : Rat} {a b : ℝ} (hx : StandsFor x a) (hy : StandsFor y b) : x ≤ y ↔ a ≤ b := by
  unfold StandsFor at hx hy
  rw [← Rat.cast_le (K := ℝ), hx, hy, Real.rpow_le_rpow_left_iff (by norm_num)]
  constructor <;> intro h <;> linarith

theorem Spec.StandsFor.lt_iff {x y : Rat} {a b : ℝ} (hx : StandsFor x a) (hy : StandsFor y b) : x < y ↔ a < b := by
  rw [← not_le, hy.le_iff hx, not_le]

theorem Spec.StandsFor.mul {x y : Rat} {a b : ℝ} (hx : StandsFor x a) (hy : StandsFor y b) :
    StandsFor (x * y) (a + b) := by
  unfold StandsFor at *
  push_cast
  rw [hx, hy, ← Real.rpow_add (by norm_num)]
  ring_nf

theorem Spec.StandsFor.div {x y : Rat} {a b : ℝ} (hx : StandsFor x a) (hy : StandsFor y b) :
    StandsFor (x / y) (a - b) := by
  unfold StandsFor at *
  push_cast
  rw [hx, hy, ← Real.rpow_sub (by norm_num)]
  ring_nf

theorem Spec.StandsFor.one : StandsFor 1 0 := by unfold StandsFor; simp

theorem Spec.StandsFor.unique {x : Rat} {a b : ℝ} (ha : StandsFor x a) (hb : StandsFor x b) : a = b :=
  le_antisymm ((ha.le_iff hb).mp le_rfl) ((hb.le_iff ha).mp le_rfl)

theorem Spec.StandsFor.max {x y : Rat} {a b : ℝ} (hx : StandsFor x a) (hy : StandsFor y b) :
    StandsFor (max x y) (max a b) := by
  rcases le_total x y with h | h
  · rw [max_eq_right h, max_eq_right ((hx.le_iff hy).mp h)]; exact hy
  · rw [max_eq_left h, max_eq_left ((hy.le_iff hx).mp h)]; exact hx

/-- Bridge: the model's number for a rule stands for the bits of the rule; it exists exactly when the rule
has fewer conditions than there are possible ones. -/
theorem ruleTheory_bits {n len : Nat} {t : Rat} (h : ruleTheory n len = .ok t) : StandsFor t (ruleBits n len) := by
  unfold ruleTheory at h
  simp only at h
  split at h
  · cases h
  rename_i hn
  split at h
  · cases h
  rename_i hk
  split at h
  · cases h
  rename_i hlt
  injection h with h
  subst h
  unfold ruleBits
  have hcast : max (len : ℝ) 1 = ((max len 1 : Nat) : ℝ) := by push_cast; rfl
  simp only [hcast]
  have hk1 : 1 ≤ max len 1 := le_max_right _ _
  generalize max len 1 = k at *
  have hkn : k < n := by omega
  have hk0 : (0 : ℝ) < k := by exact_mod_cast hk1
  have hn0 : (0 : ℝ) < n := by exact_mod_cast (by omega : 0 < n)
  have hd : (0 : ℝ) < (n : ℝ) - k := by
    have : (k : ℝ) < n := by exact_mod_cast hkn
    linarith
  refine StandsFor.max ?_ ?_
  · unfold StandsFor
    have e1 : (1 : ℝ) / (k / n) = n / k := by field_simp
    have e2 : (1 : ℝ) / (1 - k / n) = n / (n - k) := by
      rw [one_sub_div hn0.ne', one_div_div]
    rw [e1, e2]
    have h2 : (2 : ℝ) * (0.5 * (Real.logb 2 k + ((k : ℝ) * Real.logb 2 (n / k) + (n - k) * Real.logb 2 (n / (n - k))))) =
        Real.logb 2 k + (Real.logb 2 (n / k) * k + Real.logb 2 (n / (n - k)) * ((n - k : Nat) : ℝ)) := by
      rw [Nat.cast_sub hkn.le]; ring
    rw [h2, Real.rpow_add (by norm_num), Real.rpow_add (by norm_num), Real.rpow_mul (by norm_num),
      Real.rpow_mul (by norm_num), Real.rpow_logb (by norm_num) (by norm_num) hk0,
      Real.rpow_logb (by norm_num) (by norm_num) (by positivity),
      Real.rpow_logb (by norm_num) (by norm_num) (by positivity), Real.rpow_natCast, Real.rpow_natCast]
    push_cast
    ring
  · unfold StandsFor; norm_num

theorem theorySum_bits {n : Nat} : ∀ {rules : List (List Cond)} {t u : Rat} {b : ℝ}, StandsFor t b →
    theorySum n t rules = .ok u → StandsFor u (b + theoryBits n rules)
  | [], t, u, b, ht, h => by
    simp only [theorySum, Except.ok.injEq] at h; subst h
    simpa [theoryBits] using ht
  | r :: rs, t, u, b, ht, h => by
    rw [theorySum] at h
    obtain ⟨x, hx, h⟩ := bind_ok_iff.mp h
    have := theorySum_bits (ht.mul (ruleTheory_bits hx)) h
    simpa [theoryBits, add_assoc] using this

theorem rsTheory_bits {n : Nat} {rules : List (List Cond)} {t : Rat} (h : rsTheory n rules = .ok t) :
    StandsFor t (theoryBits n rules) := by
  simpa using theorySum_bits StandsFor.one h

theorem log2Exp_bits {c : Nat} {v : Rat} (h : log2Exp (c : Int) = .ok v) : StandsFor v (Real.logb 2 c) := by
  unfold log2Exp at h
  split at h
  · cases h
  rename_i hc
  injection h with h
  subst h
  have h0 : (0 : ℝ) < c := by exact_mod_cast (by omega : 0 < c)
  unfold StandsFor
  rw [mul_comm, Real.rpow_mul (by norm_num), Real.rpow_logb (by norm_num) (by norm_num) h0]
  have e : Arith.log2 (c : Int) = (c : Rat) ^ 2 := rfl
  rw [e]
  push_cast
  rw [← Real.rpow_natCast]; norm_num

section
variable {df : Frame} {cf : Feat} {cn : CatNap}

/-- The labels the index reports as covered are as many as the rows the rules cover. -/
theorem rulesetCovers_count (hb : CatNap.build df cf = .ok cn) (hu : df.UniqueIndex) {rules : List (List Cond)}
    (hr : ∀ r ∈ rules, OverCols df cf r) {s : List Label} (hs : ∀ l ∈ s, l ∈ df.index) (hne : [] ∉ rules ∨ s ≠ []) :
    (cn.rulesetCovers rules (some s)).length = nCoveredAny df rules s := by
  unfold nCoveredAny
  rw [List.countP_eq_length_filter]
  by_cases hun : rules.any List.isEmpty = true
  · have hmem : [] ∈ rules := by
      obtain ⟨r, h1, h2⟩ := List.any_eq_true.mp hun
      rw [List.isEmpty_iff] at h2; exact h2 ▸ h1
    have hs0 : s ≠ [] := by
      rcases hne with h | h
      · exact absurd hmem h
      · exact h
    rw [CatNap.rulesetCovers_univ hun, if_neg hs0, List.filter_eq_self.mpr]
    intro l hl
    simp only [decide_eq_true_eq]
    obtain ⟨row, hrow, he⟩ := List.mem_map.mp (hs l hl)
    exact ⟨[], hmem, row, hrow, he, by intro c hc; simp at hc⟩
  · rw [Bool.not_eq_true] at hun
    rw [CatNap.rulesetCovers_nonuniv hun]
    congr 1
    apply List.filter_congr
    intro l _
    rw [Bool.eq_iff_iff]
    simp only [CatNap.hitAny, List.any_eq_true, decide_eq_true_eq]
    constructor
    · rintro ⟨r, h1, h2⟩
      exact ⟨r, h1, (CatNap.hit_iff hb hu (hr r h1)).mp h2⟩
    · rintro ⟨r, h1, h2⟩
      exact ⟨r, h1, (CatNap.hit_iff hb hu (hr r h1)).mpr h2⟩

/-- The premises under which the description length of a ruleset on a set of examples means what it should:
the rules test columns of the data, the examples are training rows, and no rule is empty unless both kinds
of examples are present (see C18). -/
structure Spec.Sensible (df : Frame) (cf : Feat) (rules : List (List Cond)) (pos neg : List Label) : Prop where
  over : ∀ r ∈ rules, OverCols df cf r
  pos_mem : ∀ l ∈ pos, l ∈ df.index
  neg_mem : ∀ l ∈ neg, l ∈ df.index
  nonempty : [] ∉ rules ∨ (pos ≠ [] ∧ neg ≠ [])

theorem exceptionsCn_bits (hb : CatNap.build df cf = .ok cn) (hu : df.UniqueIndex) {rules : List (List Cond)}
    {pos neg : List Label} (h : Sensible df cf rules pos neg) {v : Rat}
    (hv : exceptionsCn cn rules pos neg = .ok v) : StandsFor v (exceptionBits df rules pos neg) := by
  have hp := rulesetCovers_count hb hu h.over h.pos_mem (h.nonempty.imp id (·.1))
  have hn := rulesetCovers_count hb hu h.over h.neg_mem (h.nonempty.imp id (·.2))
  unfold exceptionsCn at hv
  simp only [hp, hn] at hv
  unfold exceptionBits
  simp only
  have h1 : nCoveredAny df rules pos ≤ pos.length := List.countP_le_length
  have h2 : nCoveredAny df rules neg ≤ neg.length := List.countP_le_length
  generalize nCoveredAny df rules pos = tp at *
  generalize nCoveredAny df rules neg = fp at *
  obtain ⟨x, hx, hv⟩ := bind_ok_iff.mp hv
  obtain ⟨y, hy, hv⟩ := bind_ok_iff.mp hv
  simp only [pure_eq_ok, Except.ok.injEq] at hv
  subst hv
  have e1 : (tp : Int) + fp = ((tp + fp : Nat) : Int) := by push_cast; rfl
  have e2 : (pos.length : Int) + neg.length - ((tp : Int) + fp) = ((pos.length + neg.length - (tp + fp) : Nat) : Int) := by
    rw [Nat.cast_sub (by omega)]; push_cast; rfl
  have e3 : (pos.length : Int) - tp = ((pos.length - tp : Nat) : Int) := by rw [Nat.cast_sub h1]
  rw [e1, C43_nCr] at hx
  rw [e2, e3, C43_nCr] at hy
  exact (log2Exp_bits hx).mul (log2Exp_bits hy)

/-- Bridge: the model's number for a ruleset and its exceptions stands for the description length. -/
theorem totalBitsCn_bits (hb : CatNap.build df cf = .ok cn) (hu : df.UniqueIndex) {rules : List (List Cond)}
    {pos neg : List Label} (h : Sensible df cf rules pos neg) {v : Rat}
    (hv : totalBitsCn cn rules pos neg = .ok v) : StandsFor v (totalBits df cn.conds.length rules pos neg) := by
  unfold totalBitsCn at hv
  obtain ⟨x, hx, hv⟩ := bind_ok_iff.mp hv
  obtain ⟨y, hy, hv⟩ := bind_ok_iff.mp hv
  simp only [pure_eq_ok, Except.ok.injEq] at hv
  subst hv
  exact (rsTheory_bits hx).mul (exceptionsCn_bits hb hu h hy)

end

/-- Bridge: the stopping test of the growing phase is `dl_diff <= dl_allowance`. -/
theorem withinAllowance_bits {ratio a : Rat} {d : ℝ} (h : StandsFor ratio d) :
    withinAllowance ratio a = true ↔ d ≤ (a : ℝ) := by
  have hden : (0 : ℝ) < a.den := by exact_mod_cast a.den_pos
  have ha : (a : ℝ) = a.num / a.den := by
    rw [Rat.cast_def]
  have hpow : ((ratio ^ a.den : Rat) : ℝ) = (2 : ℝ) ^ (2 * d * a.den) := by
    push_cast
    rw [h, ← Real.rpow_natCast, ← Real.rpow_mul (by norm_num)]
  have key : d ≤ (a : ℝ) ↔ 2 * d * a.den ≤ 2 * (a.num : ℝ) := by
    rw [ha, le_div_iff₀ hden]
    constructor <;> intro h <;> linarith
  rw [key]
  unfold withinAllowance
  split
  · rename_i h0
    rw [decide_eq_true_eq, ← Rat.cast_le (K := ℝ), hpow]
    have : (((4 : Rat) ^ a.num.toNat : Rat) : ℝ) = (2 : ℝ) ^ (2 * (a.num : ℝ)) := by
      push_cast
      rw [show (4 : ℝ) = 2 ^ (2 : ℝ) by norm_num, ← Real.rpow_natCast, ← Real.rpow_mul (by norm_num)]
      congr 2
      have : ((a.num.toNat : Int) : ℝ) = (a.num : ℝ) := by rw [Int.toNat_of_nonneg h0]
      exact_mod_cast this
    rw [this, Real.rpow_le_rpow_left_iff (by norm_num)]
  · rename_i h0
    rw [decide_eq_true_eq, ← Rat.cast_le (K := ℝ)]
    push_cast at hpow ⊢
    rw [hpow]
    have : ((4 : ℝ) ^ (-a.num).toNat) = (2 : ℝ) ^ (2 * (-(a.num : ℝ))) := by
      rw [show (4 : ℝ) = 2 ^ (2 : ℝ) by norm_num, ← Real.rpow_natCast, ← Real.rpow_mul (by norm_num)]
      congr 2
      have : (((-a.num).toNat : Int) : ℝ) = (-(a.num : ℝ)) := by
        rw [Int.toNat_of_nonneg (by omega)]; push_cast; rfl
      exact_mod_cast this
    rw [this, ← Real.rpow_add (by norm_num), ← Real.rpow_zero (2 : ℝ), Real.rpow_le_rpow_left_iff (by norm_num)]
    constructor <;> intro h <;> linarith

end Witt
