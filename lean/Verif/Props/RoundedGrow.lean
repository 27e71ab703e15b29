import Verif.Lemmas.RoundedBits
import Verif.Props.Gain
import Verif.Props.Plain
/-
C105: growing and pruning rules with rounded numbers.
-/
namespace Witt
open Spec

namespace Spec
/-- The gain of adding the condition `c` to the rule `r`, where a rule `s` covers `p s` positive and `n s` negative examples. -/
noncomputable def gainOf (p n : List Cond → Nat) (r : List Cond) (c : Cond) : ℝ := gainReal (p r) (n r) (p (r ++ [c])) (n (r ++ [c]))

/-- The rule is as long as `max_rule_conds` allows, or covers fewer examples than `min_rule_samples`. -/
def GrowthLimit (lim : Limits) (p n : List Cond → Nat) (r : List Cond) : Prop :=
  (∃ k, lim.maxRuleConds = some k ∧ k ≤ (r.length : Int)) ∨ (∃ k, lim.minRuleSamples = some k ∧ ((n r + p r : Nat) : Int) < k)

/-- A rule grown greedily from `init`: while it covers negatives and no limit is reached, a candidate of positive gain is added, and no candidate has a gain that
is larger by more than `slack`. -/
inductive Greedy (lim : Limits) (p n : List Cond → Nat) (cands : List Cond) (slack : ℝ) (init : List Cond) : List Cond → Prop
  | start : Greedy lim p n cands slack init init
  | add {r : List Cond} {c : Cond} (h : Greedy lim p n cands slack init r) (neg : 0 < n r) (go : ¬ GrowthLimit lim p n r)
      (mem : c ∈ cands) (pos : 0 < gainOf p n r c) (best : ∀ d ∈ cands, gainOf p n r d ≤ gainOf p n r c + slack) :
      Greedy lim p n cands slack init (r ++ [c])

/-- The result of growing: a greedily grown rule that covers no negatives or that no candidate improves; or one at which a limit is
reached, without its last condition if `min_rule_samples` is set. -/
def GrownGreedily (lim : Limits) (p n : List Cond → Nat) (cands : List Cond) (slack : ℝ) (init r : List Cond) : Prop :=
  ∃ r0, Greedy lim p n cands slack init r0 ∧
    ((r = r0 ∧ (n r0 = 0 ∨ ∀ c ∈ cands, gainOf p n r0 c ≤ 0)) ∨
     (0 < n r0 ∧ GrowthLimit lim p n r0 ∧ r = if lim.minRuleSamples.isSome then r0.dropLast else r0))

/-- How far a computed gain may be from the true one, for at most `m` examples. -/
noncomputable def gainError (r : Rounding) (m : Nat) : ℝ := 21 * opError r * (m * (1 + Real.logb 2 (m + 1)))
end Spec

/-- The arithmetic tells positive gains from others on at most `m` examples, and orders gains rightly if they differ by more than
`slack`. -/
def Arith.GainsUpTo [Arith] (m : Nat) (slack : ℝ) : Prop :=
  ∀ p0 n0 p1 n1, p0 + n0 ≤ m → p1 ≤ p0 → n1 ≤ n0 → (1 < Arith.gain p0 n0 p1 n1 ↔ 0 < gainReal p0 n0 p1 n1) ∧
    ∀ p2 n2, p2 ≤ p0 → n2 ≤ n0 → Arith.gain p0 n0 p1 n1 ≤ Arith.gain p0 n0 p2 n2 →
      gainReal p0 n0 p1 n1 ≤ gainReal p0 n0 p2 n2 + slack

theorem image_le_iff {x y : Rat} : Rounding.image x ≤ Rounding.image y ↔ x ≤ y := by
  rw [← not_lt, ← not_lt, image_lt_iff]

/-- The computed logarithm of a rounded ratio. -/
theorem ratioLog_err {r : Rounding} {p n m : Nat} (hm : m < r.N) (h : p + n ≤ m) :
    |(r.lg (r.fl (((p : ℝ) + 1) / (p + n + 1))) : ℝ) - Real.logb 2 (((p : ℝ) + 1) / (p + n + 1))| ≤
      3 * opError r * (1 + Real.logb 2 (m + 1)) ∧
    Real.logb 2 (((p : ℝ) + 1) / (p + n + 1)) ≤ 0 ∧ -Real.logb 2 (m + 1) ≤ Real.logb 2 (((p : ℝ) + 1) / (p + n + 1)) := by
  have hl := r.ratio_large (lt_of_le_of_lt h hm)
  obtain ⟨a, ha⟩ : ∃ a : ℝ, a = ((p : ℝ) + 1) / (p + n + 1) := ⟨_, rfl⟩
  have hp : (0 : ℝ) ≤ p := by positivity
  have hn : (0 : ℝ) ≤ n := by positivity
  have hpm : (p : ℝ) + n ≤ m := by exact_mod_cast h
  have hM : (0 : ℝ) < (m : ℝ) + 1 := by positivity
  have ha0 : 0 < a := by rw [ha]; positivity
  have ha1 : a ≤ 1 := by rw [ha, div_le_one (by positivity)]; linarith
  have haM : 1 / ((m : ℝ) + 1) ≤ a := by
    rw [ha]
    exact div_le_div₀ (by linarith) (by linarith) (by positivity) (by linarith)
  rw [← ha] at hl ⊢
  have l1 : Real.logb 2 a ≤ 0 := Real.logb_nonpos (by norm_num) ha0.le ha1
  have l2 : -Real.logb 2 (m + 1) ≤ Real.logb 2 a := by
    have := Real.logb_le_logb_of_le (b := 2) (by norm_num) (by positivity) haM
    rwa [one_div, Real.logb_inv] at this
  refine ⟨?_, l1, l2⟩
  have hne := r.near a (by rw [abs_of_pos ha0]; exact hl)
  rw [abs_of_pos ha0] at hne
  obtain ⟨hx, hlog⟩ := logb_err ha0 hne (by linarith [r.u_le])
  have hg := r.lg_near (r.fl a) (r.fl_pos hl)
  have hu := r.u_pos; have hw := r.w_nonneg; have hle := r.least_pos; have hu4 := r.u_le
  obtain ⟨L, hL⟩ : ∃ L : ℝ, L = Real.logb 2 (m + 1) := ⟨_, rfl⟩
  rw [← hL] at l2 ⊢
  have hA : |Real.logb 2 (r.fl a : ℝ)| ≤ 1 + L := by
    rw [abs_le] at hlog ⊢
    constructor <;> linarith [hlog.1, hlog.2]
  have hL0 : 0 ≤ L := by linarith
  have t1 : r.w * |Real.logb 2 (r.fl a : ℝ)| ≤ r.w * (1 + L) := mul_le_mul_of_nonneg_left hA hw
  have t2 : 0 ≤ r.u * L := by positivity
  have t3 : 0 ≤ r.w * L := by positivity
  have t4 : 0 ≤ r.least * L := by positivity
  unfold opError
  rw [abs_le] at hg hlog ⊢
  constructor <;> linarith [hg.1, hg.2, hlog.1, hlog.2]

/-- C105. A gain computed with rounded numbers is within `gainError` of the true one. -/
theorem C105_gain_error (r : Rounding) (m : Nat) (hm : m < r.N) (he : 6 * opError r ≤ 1) (p0 n0 p1 n1 : Nat) (h0 : p0 + n0 ≤ m)
    (h1 : p1 + n1 ≤ m) : |(r.gain p0 n0 p1 n1 : ℝ) - gainReal p0 n0 p1 n1| ≤ gainError r m := by
  have e0 := opError_pos r
  obtain ⟨ea, a1, a2⟩ := ratioLog_err hm h1
  obtain ⟨eb, b1, b2⟩ := ratioLog_err hm h0
  unfold Rounding.gain gainReal gainError
  obtain ⟨L, hL⟩ : ∃ L : ℝ, L = Real.logb 2 (m + 1) := ⟨_, rfl⟩
  rw [← hL] at ea a2 eb b2 ⊢
  have hL0 : 0 ≤ L := by linarith
  generalize (r.lg (r.fl (((p1 : ℝ) + 1) / (p1 + n1 + 1))) : ℝ) = x at *
  generalize (r.lg (r.fl (((p0 : ℝ) + 1) / (p0 + n0 + 1))) : ℝ) = y at *
  generalize Real.logb 2 (((p1 : ℝ) + 1) / (p1 + n1 + 1)) = a at *
  generalize Real.logb 2 (((p0 : ℝ) + 1) / (p0 + n0 + 1)) = b at *
  have hint : r.fl (p1 : ℝ) = p1 := r.int p1 (by omega)
  rw [hint]
  have f1 := fun (h : |x - y| ≤ 2 * (1 + L)) => fl_err r h (by linarith)
  have f2 := fun (h : |((p1 : Rat) : ℝ) * (r.fl (x - y) : ℝ)| ≤ 3 * (m * (1 + L))) (h' : 1 ≤ 3 * (m * (1 + L))) => fl_err r h h'
  rcases Nat.eq_zero_or_pos p1 with rfl | hp
  · simp only [Nat.cast_zero, Rat.cast_zero, zero_mul, r.fl_zero, sub_zero, abs_zero]
    have : (0 : ℝ) ≤ m := by positivity
    positivity
  have hp1 : (1 : ℝ) ≤ p1 := by exact_mod_cast hp
  have hpm : (p1 : ℝ) ≤ m := by exact_mod_cast (by omega : p1 ≤ m)
  push_cast at f2 ⊢
  generalize (r.fl (x - y) : ℝ) = z at *
  generalize (r.fl ((p1 : ℝ) * z) : ℝ) = v at *
  generalize opError r = e at *
  generalize (p1 : ℝ) = P at *
  generalize (m : ℝ) = M at *
  have eL : 6 * (e * (1 + L)) ≤ 1 + L := by
    have := mul_le_mul_of_nonneg_right he (by linarith : 0 ≤ 1 + L)
    linarith
  have d1 : |x - y - (a - b)| ≤ 6 * (e * (1 + L)) := by
    rw [abs_le] at ea eb ⊢
    constructor <;> linarith [ea.1, ea.2, eb.1, eb.2]
  have d2 : |x - y| ≤ 2 * (1 + L) := by
    rw [abs_le] at d1 ⊢
    constructor <;> linarith [d1.1, d1.2]
  have d3 := f1 d2
  have d4 : |z - (a - b)| ≤ 12 * (e * (1 + L)) := by
    rw [abs_le] at d1 d3 ⊢
    constructor <;> linarith [d1.1, d1.2, d3.1, d3.2]
  have d5 : |P * z - P * (a - b)| ≤ 12 * (e * (M * (1 + L))) := by
    rw [← mul_sub, abs_mul, abs_of_nonneg (by linarith : 0 ≤ P)]
    calc P * |z - (a - b)| ≤ M * (12 * (e * (1 + L))) :=
          mul_le_mul hpm d4 (abs_nonneg _) (by linarith)
      _ = _ := by ring
  have eML : 6 * (e * (M * (1 + L))) ≤ M * (1 + L) := by
    have := mul_le_mul_of_nonneg_left eL (by linarith : 0 ≤ M)
    linarith
  have dab : |P * (a - b)| ≤ M * (1 + L) := by
    rw [abs_mul, abs_of_nonneg (by linarith : 0 ≤ P)]
    refine mul_le_mul hpm ?_ (abs_nonneg _) (by linarith)
    rw [abs_le]
    constructor <;> linarith
  have hML : 1 ≤ M * (1 + L) := one_le_mul_of_one_le_of_one_le (by linarith) (by linarith)
  have d6 : |P * z| ≤ 3 * (M * (1 + L)) := by
    rw [abs_le] at d5 dab ⊢
    constructor <;> linarith [d5.1, d5.2, dab.1, dab.2]
  have d7 := f2 d6 (by linarith)
  rw [abs_le] at d5 d7 ⊢
  constructor <;> linarith [d5.1, d5.2, d7.1, d7.2]

/-- A positive computed gain is a positive gain. -/
theorem gain_sound {r : Rounding} {p0 n0 p1 n1 : Nat} (h1 : p1 + n1 < r.N) (h : 0 < r.gain p0 n0 p1 n1) :
    0 < gainReal p0 n0 p1 n1 := by
  unfold Rounding.gain at h
  rw [C59_gain_positive_iff]
  have hp : 1 ≤ p1 := by
    by_contra hc
    obtain rfl : p1 = 0 := by omega
    have : r.fl ((0 : Nat) : ℝ) = 0 := by simpa using r.fl_zero
    rw [this, Rat.cast_zero, zero_mul, r.fl_zero] at h
    exact lt_irrefl _ h
  refine ⟨hp, ?_⟩
  by_contra hc
  have hc := not_lt.mp hc
  have hc' : (((p1 : ℝ) + 1) / (p1 + n1 + 1)) ≤ (((p0 : ℝ) + 1) / (p0 + n0 + 1)) := by
    have : (((((p1 : Rat) + 1) / (p1 + n1 + 1)) : Rat) : ℝ) ≤ ((((p0 : Rat) + 1) / (p0 + n0 + 1) : Rat) : ℝ) := by exact_mod_cast hc
    push_cast at this
    exact this
  have hfl := r.mono _ _ hc'
  have hlg := r.lg_mono _ _ (r.fl_pos (r.ratio_large h1)) hfl
  have hd : r.fl ((r.lg (r.fl (((p1 : ℝ) + 1) / (p1 + n1 + 1))) : ℝ) - r.lg (r.fl (((p0 : ℝ) + 1) / (p0 + n0 + 1)))) ≤ 0 := by
    apply r.fl_nonpos
    have : (r.lg (r.fl (((p1 : ℝ) + 1) / (p1 + n1 + 1))) : ℝ) ≤ r.lg (r.fl (((p0 : ℝ) + 1) / (p0 + n0 + 1))) := by exact_mod_cast hlg
    linarith
  have : r.fl ((r.fl (p1 : ℝ) : ℝ) * (r.fl ((r.lg (r.fl (((p1 : ℝ) + 1) / (p1 + n1 + 1))) : ℝ) - r.lg (r.fl (((p0 : ℝ) + 1) / (p0 + n0 + 1)))) : ℝ)) ≤ 0 := by
    apply r.fl_nonpos
    refine mul_nonpos_of_nonneg_of_nonpos ?_ (by exact_mod_cast hd)
    have := r.fl_nonneg (x := (p1 : ℝ)) (by positivity)
    exact_mod_cast this
  linarith

/-- C105. Without rounding, gains are exact on any number of examples. -/
theorem C105_exact_gains (m : Nat) : @Arith.GainsUpTo Arith.exact m 0 := by
  intro p0 n0 p1 n1 _ _ _
  refine ⟨(C59_bridge_compare p0 n0 p1 n1 0 0 0 0).2.1.symm, fun p2 n2 _ _ h => ?_⟩
  rw [add_zero, ← not_lt, (C59_bridge_compare p0 n0 p2 n2 p0 n0 p1 n1).1]
  exact not_lt.mpr h

/-- C105. Computed with rounded numbers, on data small enough for their precision (as in `C81_rounded_sharp`), a gain is positive exactly
if the true one is, and of two gains the larger one is taken, unless the true ones differ by at most twice `gainError`. -/
theorem C105_rounded_gains (r : Rounding) (m : Nat) (hm : m < r.N) (he : 6 * opError r ≤ 1)
    (hs : 2 * r.u + 2 * r.w * (1 + Real.logb 2 (m + 1)) + 2 * r.least ≤ 1 / ((m : ℝ) + 1) ^ 2) :
    @Arith.GainsUpTo (Arith.rounded r) m (2 * gainError r m) := by
  intro p0 n0 p1 n1 h0 hp hn
  have a0 : p0 + n0 < r.N := by omega
  have a1 : p1 + n1 < r.N := by omega
  have eg : ∀ p2 n2, p2 ≤ p0 → n2 ≤ n0 → @Arith.gain (Arith.rounded r) p0 n0 p2 n2 = Rounding.image (r.gain p0 n0 p2 n2) :=
    fun p2 n2 h2 h3 => if_pos ⟨a0, by omega⟩
  refine ⟨⟨fun h => ?_, fun h => ?_⟩, fun p2 n2 hp2 hn2 h => ?_⟩
  · rw [eg p1 n1 hp hn, ← image_zero, image_lt_iff] at h
    exact gain_sound a1 h
  · obtain ⟨h1, h2⟩ := (C59_gain_positive_iff _ _ _ _).mp h
    exact C81_rounded_sharp r m hm hs p0 n0 p1 n1 h0 hp hn h1 (smoothedPrecision_lt_iff.mp h2)
  · rw [eg p1 n1 hp hn, eg p2 n2 hp2 hn2, image_le_iff] at h
    have e1 := C105_gain_error r m hm he p0 n0 p1 n1 h0 (by omega)
    have e2 := C105_gain_error r m hm he p0 n0 p2 n2 h0 (by omega)
    have h' : (r.gain p0 n0 p1 n1 : ℝ) ≤ r.gain p0 n0 p2 n2 := by exact_mod_cast h
    rw [abs_le] at e1 e2
    linarith [e1.1, e2.2]

/-- C105. With doubles, and a logarithm that errs by at most one unit in the last place, gains are computed well enough on up to eight
million examples: their signs are right, and gains that differ by more than 0.00001 are compared rightly. -/
theorem C105_doubles_gains (r : Rounding) (hu : r.u ≤ 2⁻¹ ^ 53) (hw : r.w ≤ 2⁻¹ ^ 52) (hl : r.least ≤ 2⁻¹ ^ 1022)
    (hN : 2 ^ 53 ≤ r.N) (m : Nat) (hm : m ≤ 8000000) : @Arith.GainsUpTo (Arith.rounded r) m (1 / 100000) := by
  have h1 : ((m : ℝ) + 1) ≤ 2 ^ 23 := by
    have : m + 1 ≤ 2 ^ 23 := by omega
    exact_mod_cast this
  have h0 : (0 : ℝ) < (m : ℝ) + 1 := by positivity
  have h2 : Real.logb 2 ((m : ℝ) + 1) ≤ 23 := by
    have : Real.logb 2 ((m : ℝ) + 1) ≤ Real.logb 2 (2 ^ 23) := Real.logb_le_logb_of_le (by norm_num) h0 h1
    rwa [← Real.rpow_natCast, Real.logb_rpow (by norm_num) (by norm_num)] at this
  have hlog0 : 0 ≤ Real.logb 2 ((m : ℝ) + 1) := Real.logb_nonneg (by norm_num) (by
    have : (0 : ℝ) ≤ m := by positivity
    linarith)
  have h4 : (2⁻¹ : ℝ) ^ 1022 ≤ 2⁻¹ ^ 60 := pow_le_pow_of_le_one (by norm_num) (by norm_num) (by norm_num)
  have h7 : r.least ≤ 2⁻¹ ^ 60 := le_trans hl h4
  have ho : opError r ≤ 2⁻¹ ^ 51 := by
    unfold opError
    have : (2⁻¹ : ℝ) ^ 53 + 2⁻¹ ^ 52 + 2⁻¹ ^ 60 ≤ 2⁻¹ ^ 51 := by norm_num
    linarith
  have he : 6 * opError r ≤ 1 := by
    have : (6 : ℝ) * 2⁻¹ ^ 51 ≤ 1 := by norm_num
    linarith
  have hs : 2 * r.u + 2 * r.w * (1 + Real.logb 2 (m + 1)) + 2 * r.least ≤ 1 / ((m : ℝ) + 1) ^ 2 := by
    have h3 : (2⁻¹ : ℝ) ^ 46 ≤ 1 / ((m : ℝ) + 1) ^ 2 := by
      rw [le_div_iff₀ (by positivity)]
      calc (2⁻¹ : ℝ) ^ 46 * ((m : ℝ) + 1) ^ 2 ≤ 2⁻¹ ^ 46 * (2 ^ 23) ^ 2 := by gcongr
        _ ≤ 1 := by norm_num
    have h5 : 2 * r.w * (1 + Real.logb 2 ((m : ℝ) + 1)) ≤ 2 * 2⁻¹ ^ 52 * 24 :=
      mul_le_mul (by linarith) (by linarith) (by linarith) (by norm_num)
    have h6 : 2 * (2⁻¹ : ℝ) ^ 53 + 2 * 2⁻¹ ^ 52 * 24 + 2 * 2⁻¹ ^ 60 ≤ 2⁻¹ ^ 46 := by norm_num
    linarith
  have hE : 2 * gainError r m ≤ 1 / 100000 := by
    unfold gainError
    have a1 : (m : ℝ) * (1 + Real.logb 2 (m + 1)) ≤ 8000000 * 24 :=
      mul_le_mul (by exact_mod_cast hm) (by linarith) (by linarith) (by norm_num)
    have a2 : opError r * ((m : ℝ) * (1 + Real.logb 2 (m + 1))) ≤ 2⁻¹ ^ 51 * (8000000 * 24) :=
      mul_le_mul ho a1 (mul_nonneg (by positivity) (by linarith)) (by norm_num)
    have a3 : (2 : ℝ) * 21 * (2⁻¹ ^ 51 * (8000000 * 24)) ≤ 1 / 100000 := by norm_num
    linarith
  intro p0 n0 p1 n1 b0 bp bn
  obtain ⟨g1, g2⟩ := C105_rounded_gains r m (lt_of_lt_of_le (by omega) hN) he hs p0 n0 p1 n1 b0 bp bn
  exact ⟨g1, fun p2 n2 hp2 hn2 h => (g2 p2 n2 hp2 hn2 h).trans (by linarith)⟩

/-! ### growing a rule -/

theorem limitReached_iff {lim : Limits} {p n : List Cond → Nat} {r : List Cond} :
    userHalt lim r (n r) (p r) = true ↔ GrowthLimit lim p n r := by
  unfold userHalt GrowthLimit atLeast below
  rw [Bool.or_eq_true]
  refine or_congr ?_ ?_
  · cases lim.maxRuleConds <;> simp
  · cases lim.minRuleSamples <;> simp

theorem haltRule_eq (lim : Limits) (r : List Cond) : haltRule lim r = if lim.minRuleSamples.isSome then r.dropLast else r := by
  unfold haltRule
  cases lim.minRuleSamples with
  | none => rfl
  | some k =>
    cases r with
    | nil => rfl
    | cons a l => rfl

/-- C105. Every rule grown with the index is grown greedily, up to the slack in the comparison of gains: with exact arithmetic (slack 0)
or with rounded numbers. `p` and `n` count the given positive and negative examples that satisfy a rule. -/
theorem C105_growth [Arith] (m : Nat) (slack : ℝ) (ha : Arith.GainsUpTo m slack) (df : Frame) (cf : Feat) (cn : CatNap)
    (hb : CatNap.build df cf = .ok cn) (hu : df.UniqueIndex) (lim : Limits) (pos neg : List Label) (hm : pos.length + neg.length ≤ m)
    (init : List Cond) (hi : OverCols df cf init) (fuel : Nat) (r : List Cond) (h : growRuleCn fuel cn lim pos neg init = .ok r) :
    GrownGreedily lim (fun s => nCovered df s pos) (fun s => nCovered df s neg) cn.conds slack init r := by
  have hw := CatNap.build_WF hb
  have over : ∀ {s : List Cond}, OverCols df cf s → ∀ d ∈ cn.conds, OverCols df cf (s ++ [d]) := by
    intro s hs d hd x hx
    rcases List.mem_append.mp hx with hx | hx
    · exact hs x hx
    · rw [List.mem_singleton.mp hx]; exact overCols_conds hb hd
  have cnt : ∀ {s : List Cond}, OverCols df cf s → ∀ ls : List Label, (cn.ruleCovers s (some ls)).length = nCovered df s ls :=
    fun hs ls => (nCovered_eq hb hu hs ls).symm
  have hle : ∀ (s : List Cond) (ls : List Label), (cn.ruleCovers s (some ls)).length ≤ ls.length := fun s ls => by
    rw [CatNap.ruleCovers_some]; exact List.length_filter_le _ _
  have sg : ∀ {s : List Cond}, OverCols df cf s → ∀ d ∈ cn.conds, ∀ d' ∈ cn.conds,
      (1 < stepGain cn pos neg s d ↔ 0 < gainOf (fun s => nCovered df s pos) (fun s => nCovered df s neg) s d) ∧
      (stepGain cn pos neg s d ≤ stepGain cn pos neg s d' → gainOf (fun s => nCovered df s pos) (fun s => nCovered df s neg) s d ≤
        gainOf (fun s => nCovered df s pos) (fun s => nCovered df s neg) s d' + slack) := by
    intro s hs d hd d' hd'
    have hp0 := hle s pos
    have hn0 := hle s neg
    have h1 := ha _ _ _ _ (by omega : (cn.ruleCovers s (some pos)).length + (cn.ruleCovers s (some neg)).length ≤ m)
      (ruleCovers_snoc_le hw s d pos) (ruleCovers_snoc_le hw s d neg)
    have h2 := h1.2 _ _ (ruleCovers_snoc_le hw s d' pos) (ruleCovers_snoc_le hw s d' neg)
    have h1 := h1.1
    unfold stepGain gainOf
    rw [cnt hs, cnt hs, cnt (over hs d hd), cnt (over hs d hd)] at h1 h2 ⊢
    rw [cnt (over hs d' hd'), cnt (over hs d' hd')] at h2 ⊢
    exact ⟨h1, h2⟩
  refine (pyWhile_inv (I := fun s => OverCols df cf s ∧ Greedy lim (fun s => nCovered df s pos) (fun s => nCovered df s neg) cn.conds slack init s)
    (Q := GrownGreedily lim (fun s => nCovered df s pos) (fun s => nCovered df s neg) cn.conds slack init) ?_ ?_ fuel init r ⟨hi, .start⟩ h)
  · rintro s s' ⟨hs, hg⟩ hstep
    rcases growStepCn_cases hstep with ⟨_, h⟩ | ⟨_, _, h⟩ | ⟨h0, hl, ⟨_, h⟩ | ⟨r', hbest, h⟩⟩
    · cases h
    · cases h
    · cases h
    · injection h with h; subst h
      obtain ⟨pre, c, post, hc, rfl, h1, h2, h3⟩ := bestSucc_some hw hbest
      have hmem : c ∈ cn.conds := by rw [hc]; simp
      rw [cnt hs] at h0
      rw [cnt hs, cnt hs] at hl
      have go : ¬ GrowthLimit lim (fun s => nCovered df s pos) (fun s => nCovered df s neg) s := by
        rw [← limitReached_iff]
        exact fun h => by rw [hl] at h; cases h
      refine ⟨over hs c hmem, .add hg (Nat.pos_of_ne_zero h0) go hmem ((sg hs c hmem c hmem).1.mp h1) fun d hd => ?_⟩
      refine (sg hs d hd c hmem).2 ?_
      rw [hc] at hd
      rcases List.mem_append.mp hd with hd | hd
      · exact (h2 d hd).le
      · rcases List.mem_cons.mp hd with rfl | hd
        · exact le_rfl
        · exact h3 d hd
  · rintro s a ⟨hs, hg⟩ hstep
    rcases growStepCn_cases hstep with ⟨h0, h⟩ | ⟨h0, hl, h⟩ | ⟨h0, hl, ⟨hnone, h⟩ | ⟨r', hbest, h⟩⟩
    · injection h with h; subst h
      rw [cnt hs] at h0
      exact ⟨_, hg, Or.inl ⟨rfl, Or.inl h0⟩⟩
    · injection h with h; subst h
      rw [cnt hs, cnt hs] at hl
      rw [cnt hs] at h0
      exact ⟨_, hg, Or.inr ⟨Nat.pos_of_ne_zero h0, limitReached_iff.mp hl, haltRule_eq lim s⟩⟩
    · injection h with h; subst h
      refine ⟨_, hg, Or.inl ⟨rfl, Or.inr fun c hc => ?_⟩⟩
      exact not_lt.mp fun hp => absurd ((sg hs c hc c hc).1.mpr hp) (not_lt.mpr (bestSucc_none hw hnone c hc))
    · cases h

/-- C105 with `cn_optimize=False`: the same of rules grown over frames; `p` and `n` count the rows that satisfy a rule. -/
theorem C105_plain_growth [Arith] (m : Nat) (slack : ℝ) (hs0 : 0 ≤ slack) (ha : Arith.GainsUpTo m slack) (cands : List Cond) (lim : Limits) (pos neg : Frame)
    (hm : pos.rows.length + neg.rows.length ≤ m) (init : List Cond) (fuel : Nat) (r : List Cond)
    (h : growRule fuel cands lim pos neg init = .ok r) :
    GrownGreedily lim (fun s => (pos.rows.filter (fun row => decide (FiresC row s))).length)
      (fun s => (neg.rows.filter (fun row => decide (FiresC row s))).length) cands slack init r := by
  have cnt : ∀ (s : List Cond) (d : Frame), (d.rows.filter (fun row => decide (FiresC row s))).length = rowHits s d := by
    intro s d
    unfold rowHits
    congr 1
    refine List.filter_congr fun row _ => ?_
    rw [Bool.eq_iff_iff, decide_eq_true_eq, condsMet_iff]
  simp only [cnt]
  have hle : ∀ (s : List Cond) (d : Frame), rowHits s d ≤ d.rows.length := fun s d => List.length_filter_le _ _
  have same : ∀ (s : List Cond) (d : Cond), condIn d s = true → ∀ f : Frame, rowHits (s ++ [d]) f = rowHits s f := by
    intro s d hd f
    unfold rowHits
    congr 1
    refine List.filter_congr fun row _ => ?_
    rw [condsMet_append]
    cases hs : condsMet s row with
    | false => rfl
    | true =>
      obtain ⟨e, he, heq⟩ := List.any_eq_true.mp hd
      have h1 : Meets row e := condsMet_iff.mp hs e he
      have h2 : Meets row d := by
        rw [← Cond.met_iff, ← Cond.met_congr heq, Cond.met_iff]
        exact h1
      have : condsMet [d] row = true := condsMet_iff.mpr fun x hx => by rw [List.mem_singleton.mp hx]; exact h2
      rw [this]; rfl
  have sg : ∀ (s : List Cond) (d d' : Cond),
      (1 < Arith.gain (rowHits s pos) (rowHits s neg) (rowHits (s ++ [d]) pos) (rowHits (s ++ [d]) neg) ↔
        0 < gainOf (fun s => rowHits s pos) (fun s => rowHits s neg) s d) ∧
      (Arith.gain (rowHits s pos) (rowHits s neg) (rowHits (s ++ [d]) pos) (rowHits (s ++ [d]) neg) ≤
          Arith.gain (rowHits s pos) (rowHits s neg) (rowHits (s ++ [d']) pos) (rowHits (s ++ [d']) neg) →
        gainOf (fun s => rowHits s pos) (fun s => rowHits s neg) s d ≤
          gainOf (fun s => rowHits s pos) (fun s => rowHits s neg) s d' + slack) := by
    intro s d d'
    have hp0 := hle s pos
    have hn0 := hle s neg
    have h1 := ha _ _ _ _ (by omega : rowHits s pos + rowHits s neg ≤ m) (rowHits_snoc_le s d pos) (rowHits_snoc_le s d neg)
    exact ⟨h1.1, h1.2 _ _ (rowHits_snoc_le s d' pos) (rowHits_snoc_le s d' neg)⟩
  have zero : ∀ (s : List Cond) (d : Cond), condIn d s = true → gainOf (fun s => rowHits s pos) (fun s => rowHits s neg) s d = 0 := by
    intro s d hd
    unfold gainOf
    dsimp only
    rw [same s d hd, same s d hd]
    exact C59_no_change_no_gain _ _
  have best : ∀ {s : List Cond} {o : Option (List Cond)}, bestSuccessor s cands pos neg = .ok o →
      (o = none ∧ ∀ d ∈ cands, gainOf (fun s => rowHits s pos) (fun s => rowHits s neg) s d ≤ 0) ∨
      ∃ c ∈ cands, o = some (s ++ [c]) ∧ 0 < gainOf (fun s => rowHits s pos) (fun s => rowHits s neg) s c ∧
        ∀ d ∈ cands, gainOf (fun s => rowHits s pos) (fun s => rowHits s neg) s d ≤
          gainOf (fun s => rowHits s pos) (fun s => rowHits s neg) s c + slack := by
    intro s o ho
    unfold bestSuccessor at ho
    obtain ⟨out, hb, ho⟩ := bind_ok_iff.mp ho
    simp only [pure_eq_ok, Except.ok.injEq] at ho
    obtain ⟨h1, h2, h3, h4⟩ := bestLoopM_spec _ _ _ hb
    have h4 : ∀ d ∈ cands, condIn d s = false →
        Arith.gain (rowHits s pos) (rowHits s neg) (rowHits (s ++ [d]) pos) (rowHits (s ++ [d]) neg) ≤ out.2 := by
      intro d hd hi
      obtain ⟨v, hv, hle⟩ := h4 (s ++ [d]) (List.mem_map.mpr ⟨d, List.mem_filter.mpr ⟨hd, by rw [hi]; rfl⟩, rfl⟩)
      rw [← (gainDf_ok hv).1]
      exact hle
    rcases h1 with h1 | ⟨t, ht, hv, h1⟩
    · left
      rw [h1] at ho h4
      refine ⟨ho.symm, fun d hd => ?_⟩
      cases hi : condIn d s with
      | true => exact (zero s d hi).le
      | false => exact not_lt.mp fun hp => absurd ((sg s d d).1.mpr hp) (not_lt.mpr (h4 d hd hi))
    · right
      obtain ⟨c, hc, rfl⟩ := List.mem_map.mp ht
      have hcm := (List.mem_filter.mp hc).1
      have hgt : (1 : Rat) < out.2 := h3 (by intro he; rw [he] at h1; cases h1)
      have hval := (gainDf_ok hv).1
      rw [hval] at hgt h4
      have hpos := (sg s c c).1.mp hgt
      refine ⟨c, hcm, by rw [← ho, h1], hpos, fun d hd => ?_⟩
      cases hi : condIn d s with
      | true => rw [zero s d hi]; linarith
      | false => exact (sg s d c).2 (h4 d hd hi)
  refine (pyWhile_inv (I := fun s => Greedy lim (fun s => rowHits s pos) (fun s => rowHits s neg) cands slack init s)
    (Q := GrownGreedily lim (fun s => rowHits s pos) (fun s => rowHits s neg) cands slack init) ?_ ?_ fuel init r .start h)
  · intro s s' hg hstep
    rcases (growStep_cases hstep).2 with ⟨_, h⟩ | ⟨_, _, h⟩ | ⟨h0, hl, ⟨_, h⟩ | ⟨r', hbest, h⟩⟩
    · cases h
    · cases h
    · cases h
    · injection h with h; subst h
      rcases best hbest with ⟨h, _⟩ | ⟨c, hc, h1, h2, h3⟩
      · cases h
      · injection h1 with h1; subst h1
        have go : ¬ GrowthLimit lim (fun s => rowHits s pos) (fun s => rowHits s neg) s := by
          rw [← limitReached_iff]
          have e : userHalt lim s (rowHits s neg) (rowHits s pos) =
              userHalt lim s (rowHits s neg) (if lim.minRuleSamples.isSome = true then rowHits s pos else 0) := by
            unfold userHalt below
            cases lim.minRuleSamples <;> rfl
          exact fun h => by rw [e, hl] at h; cases h
        exact .add hg (Nat.pos_of_ne_zero h0) go hc h2 h3
  · intro s a hg hstep
    rcases (growStep_cases hstep).2 with ⟨h0, h⟩ | ⟨h0, hl, h⟩ | ⟨h0, hl, ⟨hnone, h⟩ | ⟨r', hbest, h⟩⟩
    · injection h with h; subst h
      exact ⟨_, hg, Or.inl ⟨rfl, Or.inl h0⟩⟩
    · injection h with h; subst h
      refine ⟨_, hg, Or.inr ⟨Nat.pos_of_ne_zero h0, limitReached_iff.mp ?_, haltRule_eq lim s⟩⟩
      unfold userHalt below at hl ⊢
      cases hms : lim.minRuleSamples with
      | none => rw [hms] at hl; exact hl
      | some k => rw [hms] at hl; exact hl
    · injection h with h; subst h
      rcases best hnone with ⟨_, h⟩ | ⟨c, _, h, _⟩
      · exact ⟨_, hg, Or.inl ⟨rfl, Or.inr h⟩⟩
      · cases h
    · cases h

/-! ### pruning a rule -/

/-- Quotients from -1 to 1 of integers up to `m` are compared rightly, with each other, with 0 and with 1/2. -/
structure Arith.QuotsUpTo [Arith] (m : Nat) : Prop where
  order : ∀ a b c d : Int, 0 < b → b ≤ m → 0 < d → d ≤ m → |a| ≤ b → |c| ≤ d →
    (Arith.quot a b ≤ Arith.quot c d ↔ (a : Rat) / b ≤ (c : Rat) / d)
  sign : ∀ a b : Int, 0 < b → b ≤ m → |a| ≤ b → (0 ≤ Arith.quot a b ↔ 0 ≤ (a : Rat) / b)
  zero : ∀ a b : Int, 0 < b → b ≤ m → |a| ≤ b → (Arith.quot a b = 0 ↔ (a : Rat) / b = 0)
  half : ∀ a b : Int, 0 < b → b ≤ m → |a| ≤ b → (Arith.quot a b < 1 / 2 ↔ (a : Rat) / b < 1 / 2)

theorem quot_err {r : Rounding} {a b : Int} (hb : 0 < b) (hN : b ≤ r.N) (ha : |a| ≤ b) :
    |(r.fl ((a : ℝ) / b) : ℝ) - (a : ℝ) / b| ≤ r.u := by
  have hb' : (0 : ℝ) < b := by exact_mod_cast hb
  have hu := r.u_pos
  rcases eq_or_ne a 0 with rfl | h0
  · simp [r.fl_zero, hu.le]
  · have h1 : (1 : ℝ) ≤ |(a : ℝ)| := by exact_mod_cast Int.one_le_abs h0
    have h2 : |(a : ℝ)| ≤ b := by exact_mod_cast ha
    have h3 : (b : ℝ) ≤ r.N := by exact_mod_cast hN
    have e : |(a : ℝ) / b| = |(a : ℝ)| / b := by rw [abs_div, abs_of_pos hb']
    have h4 : r.least ≤ |(a : ℝ) / b| := by
      rw [e, le_div_iff₀ hb']
      have h5 := r.least_le
      have h6 : r.least * b ≤ r.least * r.N := mul_le_mul_of_nonneg_left h3 r.least_pos.le
      have h7 : 0 ≤ r.least * b := mul_nonneg r.least_pos.le hb'.le
      linarith
    refine (r.near _ h4).trans ?_
    rw [e]
    have : |(a : ℝ)| / b ≤ 1 := (div_le_one hb').mpr h2
    exact (mul_le_mul_of_nonneg_left this hu.le).trans (by linarith)

/-- C105. Rounded quotients are compared rightly for integers up to `m`, if `2 u m²` is less than 1 and one half is represented
exactly. -/
theorem C105_rounded_quotients (r : Rounding) (m : Nat) (hm : m ≤ r.N) (hu : 2 * r.u * (m : ℝ) ^ 2 < 1) (hh : r.fl (1 / 2) = 1 / 2) :
    @Arith.QuotsUpTo (Arith.rounded r) m := by
  have eq : ∀ a b : Int, b ≤ m → @Arith.quot (Arith.rounded r) a b = r.fl ((a : ℝ) / b) := by
    intro a b hb
    show (if b ≤ r.N then r.fl (a / b) else (a : Rat) / b) = _
    rw [if_pos (by have : (m : Int) ≤ r.N := by exact_mod_cast hm
                   omega)]
  have cast : ∀ a b c d : Int, ((a : Rat) / b ≤ (c : Rat) / d ↔ (a : ℝ) / b ≤ (c : ℝ) / d) := by
    intro a b c d
    rw [← Rat.cast_le (K := ℝ)]
    push_cast
    rfl
  have order : ∀ a b c d : Int, 0 < b → b ≤ m → 0 < d → d ≤ m → |a| ≤ b → |c| ≤ d →
      (@Arith.quot (Arith.rounded r) a b ≤ @Arith.quot (Arith.rounded r) c d ↔ (a : Rat) / b ≤ (c : Rat) / d) := by
    intro a b c d hb hbm hd hdm ha hc
    rw [eq a b hbm, eq c d hdm, cast]
    refine ⟨fun h => ?_, fun h => r.mono _ _ h⟩
    by_contra hlt
    have hlt := not_le.mp hlt
    have hmN : (m : Int) ≤ r.N := by exact_mod_cast hm
    have e1 := quot_err (r := r) hb (by omega) ha
    have e2 := quot_err (r := r) hd (by omega) hc
    have hb' : (0 : ℝ) < b := by exact_mod_cast hb
    have hd' : (0 : ℝ) < d := by exact_mod_cast hd
    have hbm' : (b : ℝ) ≤ m := by exact_mod_cast hbm
    have hdm' : (d : ℝ) ≤ m := by exact_mod_cast hdm
    have hgap : 1 ≤ ((a : ℝ) / b - (c : ℝ) / d) * (m : ℝ) ^ 2 := by
      have h1 : (1 : ℝ) ≤ a * d - c * b := by
        rw [div_lt_div_iff₀ hd' hb'] at hlt
        have : c * b + 1 ≤ a * d := by
          have : c * b < a * d := by exact_mod_cast hlt
          omega
        have : ((c * b + 1 : Int) : ℝ) ≤ ((a * d : Int) : ℝ) := by exact_mod_cast this
        push_cast at this
        linarith
      have h2 : (a : ℝ) / b - (c : ℝ) / d = (a * d - c * b) / (b * d) := by
        field_simp
      rw [h2, div_mul_eq_mul_div, le_div_iff₀ (mul_pos hb' hd'), one_mul]
      have h3 : (b : ℝ) * d ≤ (m : ℝ) ^ 2 := by
        rw [sq]; exact mul_le_mul hbm' hdm' hd'.le (by linarith)
      have h4 : (m : ℝ) ^ 2 ≤ (a * d - c * b) * (m : ℝ) ^ 2 := le_mul_of_one_le_left (by positivity) h1
      linarith
    have h' : (r.fl ((a : ℝ) / b) : ℝ) ≤ r.fl ((c : ℝ) / d) := by exact_mod_cast h
    have hle : (a : ℝ) / b - (c : ℝ) / d ≤ 2 * r.u := by
      rw [abs_le] at e1 e2
      linarith [e1.1, e2.2]
    have := mul_le_mul_of_nonneg_right hle (by positivity : (0 : ℝ) ≤ (m : ℝ) ^ 2)
    linarith
  have zero : ∀ m' : Nat, 0 < m' → @Arith.quot (Arith.rounded r) 0 1 = 0 := by
    intro _ _
    exact (C81_rounded_lawful r).quot_zero 1 (by norm_num)
  refine @Arith.QuotsUpTo.mk (Arith.rounded r) m order ?_ ?_ ?_
  · intro a b hb hbm ha
    have h1 : (1 : Int) ≤ m := by omega
    have := order 0 1 a b (by norm_num) h1 hb hbm (by simp) ha
    rw [(C81_rounded_lawful r).quot_zero 1 (by norm_num)] at this
    rw [this]
    simp
  · intro a b hb hbm ha
    have h1 : (1 : Int) ≤ m := by omega
    have t1 := order 0 1 a b (by norm_num) h1 hb hbm (by simp) ha
    have t2 := order a b 0 1 hb hbm (by norm_num) h1 ha (by simp)
    rw [(C81_rounded_lawful r).quot_zero 1 (by norm_num)] at t1 t2
    simp only [Int.cast_zero, zero_div] at t1 t2
    rw [le_antisymm_iff, le_antisymm_iff, t1, t2]
  · intro a b hb hbm ha
    rw [eq a b hbm, ← not_le, ← not_le, not_iff_not]
    have hb' : (0 : Rat) < b := by exact_mod_cast hb
    constructor
    · intro h
      rw [← eq a b hbm] at h
      have := (C81_rounded_lawful r).quot_half a b hb h
      rw [div_le_div_iff₀ (by norm_num) hb']
      have : (b : Rat) ≤ ((2 * a : Int) : Rat) := by exact_mod_cast this
      push_cast at this
      linarith
    · intro h
      rw [← hh]
      apply r.mono
      have : ((1 / 2 : Rat) : ℝ) ≤ (((a : Rat) / b : Rat) : ℝ) := by exact_mod_cast h
      push_cast at this
      exact this


/-- C105. Without rounding all quotients are compared rightly. -/
theorem C105_exact_quotients (m : Nat) : @Arith.QuotsUpTo Arith.exact m :=
  @Arith.QuotsUpTo.mk Arith.exact m (fun _ _ _ _ _ _ _ _ _ _ => Iff.rfl) (fun _ _ _ _ _ => Iff.rfl) (fun _ _ _ _ _ => Iff.rfl)
    (fun _ _ _ _ _ => Iff.rfl)

/-- C105. With the precision of IEEE doubles, quotients of integers up to 60 000 000 are compared rightly. -/
theorem C105_doubles_quotients (r : Rounding) (hu : r.u = 2⁻¹ ^ 53) (hN : 60000000 ≤ r.N) (hh : r.fl (1 / 2) = 1 / 2) :
    @Arith.QuotsUpTo (Arith.rounded r) 60000000 :=
  C105_rounded_quotients r 60000000 hN (by rw [hu]; norm_num) hh

/-- A computed quotient and its exact value. -/
def QuotPair [Arith] (m : Nat) (v w : Rat) : Prop :=
  (v = 0 ∧ w = 0) ∨ ∃ a b : Int, 0 < b ∧ b ≤ m ∧ |a| ≤ b ∧ v = Arith.quot a b ∧ w = (a : Rat) / b

theorem QuotPair.le_iff [Arith] {m : Nat} (ha : Arith.QuotsUpTo m) {v w v' w' : Rat} (h : QuotPair m v w) (h' : QuotPair m v' w') :
    v ≤ v' ↔ w ≤ w' := by
  have zero : ∀ b : Int, 0 < b → b ≤ m → Arith.quot 0 1 = 0 := fun b h0 h1 =>
    (ha.zero 0 1 (by norm_num) (by omega) (by simp)).mpr (by simp)
  rcases h with ⟨rfl, rfl⟩ | ⟨a, b, hb, hbm, hab, rfl, rfl⟩ <;> rcases h' with ⟨rfl, rfl⟩ | ⟨c, d, hd, hdm, hcd, rfl, rfl⟩
  · exact Iff.rfl
  · exact ha.sign c d hd hdm hcd
  · have := ha.order a b 0 1 hb hbm (by norm_num) (by omega) hab (by simp)
    rw [zero b hb hbm] at this
    simpa using this
  · exact ha.order a b c d hb hbm hd hdm hab hcd

theorem pruneLoop_pair [Arith] {m : Nat} (ha : Arith.QuotsUpTo m) {f f' : List Cond → Except PyErr (Option Rat)} {rule : List Cond}
    (hf : ∀ s, (∃ e, f s = .error e ∧ f' s = .error e) ∨ (f s = .ok none ∧ f' s = .ok none) ∨
      ∃ v w, QuotPair m v w ∧ f s = .ok (some v) ∧ f' s = .ok (some w)) :
    ∀ (n : Nat) (b b' : List Cond × Rat), b.1 = b'.1 → QuotPair m b.2 b'.2 → pruneLoop f rule n b = pruneLoop f' rule n b'
  | 0, b, b', h, _ => by simp only [pruneLoop, h]
  | n + 1, b, b', h, hq => by
    simp only [pruneLoop]
    rcases hf (rule.take (n + 1)) with ⟨e, h1, h2⟩ | ⟨h1, h2⟩ | ⟨v, w, hvw, h1, h2⟩
    · rw [h1, h2]; rfl
    · rw [h1, h2]; rfl
    · rw [h1, h2]
      show pruneLoop f rule n _ = pruneLoop f' rule n _
      have := hq.le_iff ha hvw
      by_cases hl : b.2 ≤ v
      · rw [if_pos hl, if_pos (this.mp hl)]
        exact pruneLoop_pair ha hf n _ _ rfl hvw
      · rw [if_neg hl, if_neg (fun h => hl (this.mpr h))]
        exact pruneLoop_pair ha hf n _ _ h hq

theorem pruneLoopRs_pair [Arith] {m : Nat} (ha : Arith.QuotsUpTo m) {f f' : List Cond → Except PyErr (Option Rat)} {rule : List Cond}
    (hf : ∀ s, (∃ e, f s = .error e ∧ f' s = .error e) ∨ (f s = .ok none ∧ f' s = .ok none) ∨
      ∃ v w, QuotPair m v w ∧ f s = .ok (some v) ∧ f' s = .ok (some w)) :
    ∀ (n : Nat) (b b' : Option (List Cond) × Rat), b.1 = b'.1 → QuotPair m b.2 b'.2 → pruneLoopRs f rule n b = pruneLoopRs f' rule n b'
  | 0, b, b', h, _ => by simp only [pruneLoopRs, h]
  | n + 1, b, b', h, hq => by
    simp only [pruneLoopRs]
    rcases hf (rule.take (n + 1)) with ⟨e, h1, h2⟩ | ⟨h1, h2⟩ | ⟨v, w, hvw, h1, h2⟩
    · rw [h1, h2]; rfl
    · rw [h1, h2]; rfl
    · rw [h1, h2]
      show pruneLoopRs f rule n _ = pruneLoopRs f' rule n _
      have := hq.le_iff ha hvw
      by_cases hl : b.2 ≤ v
      · rw [if_pos hl, if_pos (this.mp hl)]
        exact pruneLoopRs_pair ha hf n _ _ rfl hvw
      · rw [if_neg hl, if_neg (fun h => hl (this.mpr h))]
        exact pruneLoopRs_pair ha hf n _ _ h hq

/-- C105. IREP prunes a rule (`cn_optimize=True`) as if it computed without rounding. -/
theorem C105_irep_pruning [Arith] (m : Nat) (ha : Arith.QuotsUpTo m) (cn : CatNap) (pos neg : List Label)
    (hm : pos.length + neg.length ≤ m) (rule : List Cond) :
    pruneRule (irepMetricCn cn pos neg) rule = pruneRule (@irepMetricCn Arith.exact cn pos neg) rule := by
  unfold pruneRule
  split
  · rfl
  · refine pruneLoop_pair ha (fun s => ?_) _ _ _ rfl (Or.inl ⟨rfl, rfl⟩)
    have h1 := ruleCovers_length_le (cn := cn) (r := s) (s := pos)
    have h2 := ruleCovers_length_le (cn := cn) (r := s) (s := neg)
    unfold irepMetricCn
    dsimp only
    by_cases h0 : pos.length + neg.length = 0
    · exact Or.inl ⟨_, if_pos h0, if_pos h0⟩
    · refine Or.inr (Or.inr ⟨_, _, Or.inr ⟨_, _, ?_, ?_, ?_, rfl, rfl⟩, if_neg h0, if_neg h0⟩)
      · omega
      · omega
      · rw [abs_le]; omega

/-- C105. RIPPER prunes a grown rule as if it computed without rounding. -/
theorem C105_ripper_pruning [Arith] (m : Nat) (ha : Arith.QuotsUpTo m) (cn : CatNap) (pos neg : List Label)
    (hm : pos.length + neg.length < m) (rule : List Cond) :
    pruneRule (ripperGrowMetricCn cn pos neg) rule = pruneRule (@ripperGrowMetricCn Arith.exact cn pos neg) rule := by
  unfold pruneRule
  split
  · rfl
  · refine pruneLoop_pair ha (fun s => ?_) _ _ _ rfl (Or.inl ⟨rfl, rfl⟩)
    have h1 := ruleCovers_length_le (cn := cn) (r := s) (s := pos)
    have h2 := ruleCovers_length_le (cn := cn) (r := s) (s := neg)
    refine Or.inr (Or.inr ⟨_, _, Or.inr ⟨_, _, ?_, ?_, ?_, rfl, rfl⟩, rfl, rfl⟩)
    · omega
    · omega
    · rw [abs_le]; omega

/-- C105. RIPPER prunes replacements and revisions as if it computed without rounding. -/
theorem C105_optimisation_pruning [Arith] (m : Nat) (ha : Arith.QuotsUpTo m) (cn : CatNap) (pos neg : List Label)
    (hm : pos.length + neg.length ≤ m) (rule : List Cond) (rules : List (List Cond)) (i : Nat) :
    pruneRuleOn (ripperOptMetricCn cn pos neg) rule rules i = pruneRuleOn (@ripperOptMetricCn Arith.exact cn pos neg) rule rules i := by
  unfold pruneRuleOn
  split
  · rfl
  · split
    · rfl
    · split
      · rfl
      · refine pruneLoopRs_pair ha (fun s => ?_) _ _ _ rfl (Or.inl ⟨rfl, rfl⟩)
        have h1 := ruleCovers_length_le (cn := cn) (r := s) (s := pos)
        have h2 := ruleCovers_length_le (cn := cn) (r := s) (s := neg)
        unfold ripperOptMetricCn
        dsimp only
        by_cases h0 : pos.length + neg.length = 0
        · exact Or.inr (Or.inl ⟨if_pos h0, if_pos h0⟩)
        · refine Or.inr (Or.inr ⟨_, _, Or.inr ⟨_, _, ?_, ?_, ?_, rfl, rfl⟩, if_neg h0, if_neg h0⟩)
          · omega
          · omega
          · rw [abs_le]; omega

end Witt
