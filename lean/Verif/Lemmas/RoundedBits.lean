import Mathlib.Analysis.SpecialFunctions.Log.Base
import Mathlib.Analysis.Complex.ExponentialBounds
import Verif.Props.Rounding
import Verif.Props.Bits
/-
How far description lengths computed with rounded numbers are from the true ones.
-/
namespace Witt
open Spec

/-- The error of one operation: of the rounding, of the logarithm, and of numbers too small to be represented. -/
def Spec.opError (r : Rounding) : ℝ := r.u + r.w + r.least

/-- The numbers are precise enough for `m` rules and `n` possible conditions: `math.log2` of an int errs by at most `w`
relatively, `n` is small enough for exact arithmetic on numbers of conditions, and the error of one operation is at most a
thousandth of `1/(m+1)`. -/
structure Spec.FineFor (r : Rounding) (m n : Nat) : Prop where
  log_int : ∀ k : Nat, 0 < k → |(r.lgInt k : ℝ) - Real.logb 2 k| ≤ r.w * Real.logb 2 k
  conds : 2 * n ≤ r.N
  small : 1000 * opError r * (m + 1) ≤ 1

section
variable {r : Rounding}

theorem opError_pos (r : Rounding) : 0 < opError r := by
  have := r.u_pos; have := r.w_nonneg; have := r.least_pos
  unfold opError; linarith

theorem fl_err (r : Rounding) {x B : ℝ} (hx : |x| ≤ B) (hB : 1 ≤ B) : |(r.fl x : ℝ) - x| ≤ 3 * opError r * B := by
  have hu := r.u_pos; have hw := r.w_nonneg; have hl := r.least_pos; have hu4 := r.u_le
  have he := opError_pos r
  have eB : opError r ≤ opError r * B := le_mul_of_one_le_right he.le hB
  rcases le_or_gt r.least |x| with h | h
  · refine (r.near x h).trans ?_
    have h1 : r.u * |x| ≤ opError r * B := mul_le_mul (by unfold opError; linarith) hx (abs_nonneg _) he.le
    have h2 : 0 ≤ opError r * B := by positivity
    linarith
  · obtain ⟨h1, h2⟩ := abs_lt.mp h
    have a1 : (r.fl x : ℝ) ≤ (1 + r.u) * r.least := by
      have := r.mono x r.least h2.le
      have c : (r.fl x : ℝ) ≤ r.fl r.least := by exact_mod_cast this
      exact c.trans (r.fl_le le_rfl)
    have a2 : -((1 + r.u) * r.least) ≤ (r.fl x : ℝ) := by
      have := r.mono (-r.least) x h1.le
      have c : (r.fl (-r.least) : ℝ) ≤ r.fl x := by exact_mod_cast this
      have n := r.near (-r.least) (by rw [abs_neg]; exact le_abs_self _)
      rw [abs_neg, abs_of_pos hl] at n
      obtain ⟨n1, n2⟩ := abs_le.mp n
      linarith
    have h3 : r.u * r.least ≤ 1 / 4 * r.least := mul_le_mul_of_nonneg_right hu4 hl.le
    have h4 : r.least ≤ opError r := by unfold opError; linarith
    rw [abs_le]
    constructor <;> linarith

theorem log_two_large : (2 : ℝ) / 3 ≤ Real.log 2 := by
  have := Real.log_two_gt_d9; norm_num at this ⊢; linarith

/-- A relative error of the argument is an absolute error of the logarithm. -/
theorem logb_err {x y δ : ℝ} (hy : 0 < y) (h : |x - y| ≤ δ * y) (hδ : δ ≤ 1 / 2) :
    0 < x ∧ |Real.logb 2 x - Real.logb 2 y| ≤ 3 * δ := by
  obtain ⟨h1, h2⟩ := abs_le.mp h
  have hdy : δ * y ≤ 1 / 2 * y := mul_le_mul_of_nonneg_right hδ hy.le
  have hx : 0 < x := by linarith
  have hδ0 : 0 ≤ δ := by
    by_contra hc
    have := mul_neg_of_neg_of_pos (not_le.mp hc) hy
    linarith [abs_nonneg (x - y)]
  refine ⟨hx, ?_⟩
  have hl := log_two_large
  have hl0 : 0 < Real.log 2 := by linarith
  have e : Real.logb 2 x - Real.logb 2 y = Real.log (x / y) / Real.log 2 := by
    rw [Real.log_div hx.ne' hy.ne', Real.logb, Real.logb]; ring
  have up : Real.log (x / y) ≤ 2 * δ := by
    have := Real.log_le_sub_one_of_pos (div_pos hx hy)
    have h3 : x / y ≤ 1 + δ := by rw [div_le_iff₀ hy]; linarith
    linarith
  have lo : -(2 * δ) ≤ Real.log (x / y) := by
    have := Real.log_le_sub_one_of_pos (div_pos hy hx)
    have h3 : y / x ≤ 1 + 2 * δ := by
      rw [div_le_iff₀ hx]
      have h4 : (1 - δ) * y ≤ x := by linarith
      have h5 : (1 + 2 * δ) * ((1 - δ) * y) ≤ (1 + 2 * δ) * x := mul_le_mul_of_nonneg_left h4 (by linarith)
      have h6 : 0 ≤ δ * (1 - 2 * δ) * y := by
        refine mul_nonneg (mul_nonneg hδ0 (by linarith)) hy.le
      linarith
    have e2 : Real.log (y / x) = - Real.log (x / y) := by rw [← Real.log_inv, inv_div]
    rw [e2] at this
    linarith
  have hk : 2 * δ ≤ 3 * δ * Real.log 2 := by
    have := mul_le_mul_of_nonneg_left hl (by linarith : 0 ≤ 3 * δ)
    linarith
  rw [e, abs_le, le_div_iff₀ hl0, div_le_iff₀ hl0]
  constructor <;> linarith

theorem logb_le_of_two_pow {c a : Nat} (h0 : 0 < c) (h : c ≤ 2 ^ a) : Real.logb 2 c ≤ a := by
  have hc : (0 : ℝ) < c := by exact_mod_cast h0
  rw [Real.logb_le_iff_le_rpow (by norm_num) hc, Real.rpow_natCast]
  exact_mod_cast h

theorem logb_nat_nonneg (c : Nat) : 0 ≤ Real.logb 2 c := by
  rcases Nat.eq_zero_or_pos c with rfl | h
  · simp
  · exact Real.logb_nonneg (by norm_num) (by exact_mod_cast h)

end

/-- The roundings of the sums, once the logarithms are computed. -/
theorem ruleSum_err {r : Rounding} {e n k d A B T1 T2 K lkv : ℝ} (hee : e = opError r) (hn : 2 ≤ n)
    (en1 : e * n ≤ 1 / 1000 * n) (T1n : 0 ≤ T1) (T2n : 0 ≤ T2) (Tn : T1 + T2 ≤ 3 / 2 * n)
    (x1 : |k * A - T1| ≤ e * T1 + 7 * (e * k)) (x2 : |d * B - T2| ≤ e * T2 + 7 * (e * d) + 4 * (e * k))
    (ek1 : 0 < e * k) (ed1 : 0 < e * d) (edk : e * d + e * k = e * n) (eT : e * T1 + e * T2 ≤ 3 / 2 * (e * n))
    (eT1 : 0 ≤ e * T1) (eT2 : 0 ≤ e * T2) (Kn : 0 ≤ K) (Kle : K ≤ n) (lk : |lkv - K| ≤ e * n) :
    |(r.fl (1 / 2 * (r.fl (lkv + (r.fl ((r.fl (k * A) : ℝ) + r.fl (d * B)) : ℝ)) : ℝ)) : ℝ) - 1 / 2 * (K + (T1 + T2))| ≤
      33 * (e * n) := by
  have f1 := fl_err r (x := k * A) (B := 3 * n) (by
    rw [abs_le] at x1 ⊢; constructor <;> linarith [x1.1, x1.2]) (by linarith)
  have f2 := fl_err r (x := d * B) (B := 3 * n) (by
    rw [abs_le] at x2 ⊢; constructor <;> linarith [x2.1, x2.2]) (by linarith)
  rw [← hee] at f1 f2
  obtain ⟨y1, hy1⟩ : ∃ y : ℝ, y = (r.fl (k * A) : ℝ) := ⟨_, rfl⟩
  obtain ⟨y2, hy2⟩ : ∃ y : ℝ, y = (r.fl (d * B) : ℝ) := ⟨_, rfl⟩
  rw [← hy1] at f1 ⊢
  rw [← hy2] at f2 ⊢
  have s1 : |y1 + y2 - (T1 + T2)| ≤ 31 * (e * n) := by
    rw [abs_le] at f1 f2 x1 x2 ⊢
    constructor <;> linarith [f1.1, f1.2, f2.1, f2.2, x1.1, x1.2, x2.1, x2.2]
  have f3 := fl_err r (x := y1 + y2) (B := 3 * n) (by
    rw [abs_le] at s1 ⊢; constructor <;> linarith [s1.1, s1.2]) (by linarith)
  rw [← hee] at f3
  obtain ⟨S, hS⟩ : ∃ S : ℝ, S = (r.fl (y1 + y2) : ℝ) := ⟨_, rfl⟩
  rw [← hS] at f3 ⊢
  have s2 : |lkv + S - (K + (T1 + T2))| ≤ 41 * (e * n) := by
    rw [abs_le] at lk f3 s1 ⊢
    constructor <;> linarith [lk.1, lk.2, f3.1, f3.2, s1.1, s1.2]
  have f4 := fl_err r (x := lkv + S) (B := 4 * n) (by
    rw [abs_le] at s2 ⊢; constructor <;> linarith [s2.1, s2.2]) (by linarith)
  rw [← hee] at f4
  obtain ⟨V, hV⟩ : ∃ V : ℝ, V = (r.fl (lkv + S) : ℝ) := ⟨_, rfl⟩
  rw [← hV] at f4 ⊢
  have s3 : |1 / 2 * V - 1 / 2 * (K + (T1 + T2))| ≤ 27 * (e * n) := by
    rw [abs_le] at f4 s2 ⊢
    constructor <;> linarith [f4.1, f4.2, s2.1, s2.2]
  have f5 := fl_err r (x := 1 / 2 * V) (B := 2 * n) (by
    rw [abs_le] at s3 ⊢; constructor <;> linarith [s3.1, s3.2]) (by linarith)
  rw [← hee] at f5
  rw [abs_le] at f5 s3 ⊢
  constructor <;> linarith [f5.1, f5.2, s3.1, s3.2]

/-- Bits of a rule computed with rounded numbers. -/
theorem ruleBits_err {r : Rounding} {m n k : Nat} (hf : FineFor r m n) (hk : 1 ≤ k) (hkn : k < n) :
    |(r.ruleBits n k : ℝ) - Spec.ruleBits n k| ≤ 33 * opError r * n ∧ Spec.ruleBits n k ≤ 2 * n := by
  have hu := r.u_pos; have hw := r.w_nonneg; have hl := r.least_pos
  have he := opError_pos r
  obtain ⟨e, hee⟩ : ∃ e, e = opError r := ⟨_, rfl⟩
  have ue : r.u ≤ e := by rw [hee]; unfold opError; linarith
  have we : r.w ≤ e := by rw [hee]; unfold opError; linarith
  have e1 : e ≤ 1 / 1000 := by
    have := hf.small
    rw [← hee] at this he
    have hm : e * 1 ≤ e * ((m : ℝ) + 1) := mul_le_mul_of_nonneg_left (by linarith [Nat.cast_nonneg (α := ℝ) m]) he.le
    linarith
  rw [← hee] at he ⊢
  have hn2 : (2 : ℝ) ≤ n := by exact_mod_cast (by omega : 2 ≤ n)
  have hk1 : (1 : ℝ) ≤ k := by exact_mod_cast hk
  have hkn' : (k : ℝ) + 1 ≤ n := by exact_mod_cast hkn
  obtain ⟨d, hd⟩ : ∃ d : ℝ, d = n - k := ⟨_, rfl⟩
  have hd1 : 1 ≤ d := by linarith
  have hn0 : (0 : ℝ) < n := by linarith
  have hk0 : (0 : ℝ) < k := by linarith
  have hd0 : (0 : ℝ) < d := by linarith
  have hnN : 2 * (n : ℝ) ≤ r.N := by exact_mod_cast hf.conds
  have unh : 2 * (r.u * n) ≤ 1 := by
    have h1 := mul_le_mul_of_nonneg_left hnN hu.le
    linarith [r.N_le]
  have lN : r.least * (8 * n) ≤ 1 := by
    have := mul_le_mul_of_nonneg_left hnN hl.le
    linarith [r.least_le]
  -- the share of conditions
  obtain ⟨p, hp⟩ : ∃ p : ℝ, p = k / n := ⟨_, rfl⟩
  have hp0 : 0 < p := by rw [hp]; positivity
  have hq : 1 - p = d / n := by rw [hp, hd]; field_simp
  have least_p : r.least ≤ p := by
    rw [hp, le_div_iff₀ hn0]
    have : r.least * (8 * n) = 8 * (r.least * n) := by ring
    have : 0 ≤ r.least * n := by positivity
    linarith
  obtain ⟨pr, hpr⟩ : ∃ pr : ℝ, pr = (r.fl p : ℝ) := ⟨_, rfl⟩
  have npr : |pr - p| ≤ r.u * p := by
    rw [hpr]; have := r.near p (by rwa [abs_of_pos hp0]); rwa [abs_of_pos hp0] at this
  have hp1 : p ≤ 1 := by rw [hp, div_le_one hn0]; linarith
  have pr1 : pr ≤ 1 := by rw [hpr]; exact_mod_cast r.fl_le_one hp1
  obtain ⟨pr0, lpr⟩ := logb_err hp0 npr (by linarith)
  have least4 := r.least_small
  have inv1 : 1 ≤ 1 / pr := by rw [le_div_iff₀ pr0]; linarith
  obtain ⟨a, ha⟩ : ∃ a : ℝ, a = (r.fl (1 / pr) : ℝ) := ⟨_, rfl⟩
  have na : |a - 1 / pr| ≤ r.u * (1 / pr) := by
    rw [ha]
    have := r.near (1 / pr) (by rw [abs_of_pos (by linarith)]; linarith)
    rwa [abs_of_pos (by linarith : 0 < 1 / pr)] at this
  obtain ⟨a0, la⟩ := logb_err (by linarith) na (by linarith)
  obtain ⟨L1, hL1⟩ : ∃ L, L = Real.logb 2 (1 / p) := ⟨_, rfl⟩
  have inv : ∀ x : ℝ, Real.logb 2 (1 / x) = - Real.logb 2 x := fun x => by rw [one_div, Real.logb_inv]
  have L1n : 0 ≤ L1 := by
    rw [hL1]; exact Real.logb_nonneg (by norm_num) (by rw [le_div_iff₀ hp0]; linarith)
  have eu0 : 0 ≤ e * r.u := by positivity
  have lga : |Real.logb 2 a - L1| ≤ 6 * r.u := by
    rw [hL1]
    rw [inv] at la
    rw [inv]
    rw [abs_le] at la lpr ⊢
    constructor <;> linarith [la.1, la.2, lpr.1, lpr.2]
  obtain ⟨A, hA⟩ : ∃ A : ℝ, A = (r.lg (r.fl (1 / pr)) : ℝ) := ⟨_, rfl⟩
  have wa : r.w * |Real.logb 2 a| ≤ e * L1 + e * (6 * r.u) := by
    have h1 : |Real.logb 2 a| ≤ L1 + 6 * r.u := by
      rw [abs_le] at lga ⊢
      constructor <;> linarith [lga.1, lga.2]
    have := mul_le_mul we h1 (abs_nonneg _) he.le
    linarith
  have eu : e * (6 * r.u) ≤ e := by
    have := mul_le_mul_of_nonneg_left (by linarith : 6 * r.u ≤ 1) he.le
    linarith
  have nA : |A - L1| ≤ e * L1 + 7 * e := by
    have h0 : (0 : Rat) < r.fl (1 / pr) := by
      have : (0 : ℝ) < (r.fl (1 / pr) : ℝ) := by rw [← ha]; exact a0
      exact_mod_cast this
    have := r.lg_near _ h0
    rw [← hA, ← ha] at this
    rw [abs_le] at this lga ⊢
    constructor <;> linarith [this.1, this.2, lga.1, lga.2]
  -- the share of the other conditions
  obtain ⟨q, hqq⟩ : ∃ q : ℝ, q = 1 - p := ⟨_, rfl⟩
  have hqd : q = d / n := by rw [hqq, hq]
  have hq0 : 0 < q := by rw [hqd]; positivity
  have kd : r.u * p = r.u * (k / d) * q := by rw [hqd, hp]; field_simp
  have kdle : k / d ≤ n := by
    rw [div_le_iff₀ hd0]
    have := mul_le_mul_of_nonneg_left hd1 hn0.le
    linarith
  have ukd : r.u * (k / d) ≤ 1 / 2 := by
    have := mul_le_mul_of_nonneg_left kdle hu.le
    linarith
  have ukd0 : 0 ≤ r.u * (k / d) := by positivity
  have nq : |(1 - pr) - q| ≤ r.u * (k / d) * q := by
    rw [← kd, hqq]
    rw [abs_le] at npr ⊢
    constructor <;> linarith [npr.1, npr.2]
  obtain ⟨s0, ls⟩ := logb_err hq0 nq ukd
  have sq : q / 2 ≤ 1 - pr := by
    have h1 := (abs_le.mp nq).1
    have h2 := mul_le_mul_of_nonneg_right ukd hq0.le
    linarith
  have least_s : r.least ≤ 1 - pr := by
    refine le_trans ?_ sq
    rw [hqd, le_div_iff₀ (by norm_num), le_div_iff₀ hn0]
    have : 0 ≤ r.least * n := by positivity
    linarith
  obtain ⟨c, hc⟩ : ∃ c : ℝ, c = (r.fl (1 - pr) : ℝ) := ⟨_, rfl⟩
  have nc : |c - (1 - pr)| ≤ r.u * (1 - pr) := by
    rw [hc]; have := r.near (1 - pr) (by rwa [abs_of_pos s0]); rwa [abs_of_pos s0] at this
  obtain ⟨c0, lc⟩ := logb_err s0 nc (by linarith)
  have c1 : c ≤ 1 := by rw [hc]; exact_mod_cast r.fl_le_one (by linarith)
  have inv2 : 1 ≤ 1 / c := by rw [le_div_iff₀ c0]; linarith
  obtain ⟨b, hb⟩ : ∃ b : ℝ, b = (r.fl (1 / c) : ℝ) := ⟨_, rfl⟩
  have nb : |b - 1 / c| ≤ r.u * (1 / c) := by
    rw [hb]
    have := r.near (1 / c) (by rw [abs_of_pos (by linarith)]; linarith)
    rwa [abs_of_pos (by linarith : 0 < 1 / c)] at this
  obtain ⟨b0, lb⟩ := logb_err (by linarith) nb (by linarith)
  obtain ⟨L2, hL2⟩ : ∃ L, L = Real.logb 2 (1 / q) := ⟨_, rfl⟩
  have L2n : 0 ≤ L2 := by
    rw [hL2]; exact Real.logb_nonneg (by norm_num) (by rw [le_div_iff₀ hq0]; linarith)
  have lgb : |Real.logb 2 b - L2| ≤ 6 * r.u + 3 * (r.u * (k / d)) := by
    rw [hL2]
    rw [inv] at lb
    rw [inv]
    rw [abs_le] at lb lc ls ⊢
    constructor <;> linarith [lb.1, lb.2, lc.1, lc.2, ls.1, ls.2]
  obtain ⟨B, hB⟩ : ∃ B : ℝ, B = (r.lg (r.fl (1 / c)) : ℝ) := ⟨_, rfl⟩
  have wb : r.w * |Real.logb 2 b| ≤ e * L2 + e * (6 * r.u) + e * (3 * (r.u * (k / d))) := by
    have h1 : |Real.logb 2 b| ≤ L2 + (6 * r.u + 3 * (r.u * (k / d))) := by
      rw [abs_le] at lgb ⊢
      constructor <;> linarith [lgb.1, lgb.2]
    have := mul_le_mul we h1 (abs_nonneg _) he.le
    linarith
  have ek : r.u * (k / d) ≤ e * (k / d) := mul_le_mul_of_nonneg_right ue (by positivity)
  have ek0 : 0 ≤ e * (k / d) := by positivity
  have eek : e * (3 * (r.u * (k / d))) ≤ e * (k / d) := by
    have h1 : 3 * (r.u * (k / d)) ≤ k / d := by
      have := mul_le_mul_of_nonneg_right (by linarith : 3 * r.u ≤ 1) (by positivity : 0 ≤ k / d)
      linarith
    exact mul_le_mul_of_nonneg_left h1 he.le
  have nB : |B - L2| ≤ e * L2 + 7 * e + 4 * (e * (k / d)) := by
    have h0 : (0 : Rat) < r.fl (1 / c) := by
      have : (0 : ℝ) < (r.fl (1 / c) : ℝ) := by rw [← hb]; exact b0
      exact_mod_cast this
    have := r.lg_near _ h0
    rw [← hB, ← hb] at this
    rw [abs_le] at this lgb ⊢
    constructor <;> linarith [this.1, this.2, lgb.1, lgb.2]
  -- the true value
  obtain ⟨T1, hT1⟩ : ∃ T, T = k * L1 := ⟨_, rfl⟩
  obtain ⟨T2, hT2⟩ : ∃ T, T = d * L2 := ⟨_, rfl⟩
  have T1n : 0 ≤ T1 := by rw [hT1]; positivity
  have T2n : 0 ≤ T2 := by rw [hT2]; positivity
  have hlog := log_two_large
  have hlog0 : 0 < Real.log 2 := by linarith
  have lb2 : ∀ x : ℝ, 1 ≤ x → Real.logb 2 x ≤ 3 / 2 * (x - 1) := by
    intro x hx
    have := Real.log_le_sub_one_of_pos (by linarith : 0 < x)
    rw [Real.logb, div_le_iff₀ hlog0]
    have h2 := mul_le_mul_of_nonneg_left hlog (by linarith : 0 ≤ 3 / 2 * (x - 1))
    linarith
  have T1le : T1 ≤ 3 / 2 * d := by
    have := mul_le_mul_of_nonneg_left (lb2 (1 / p) (by rw [le_div_iff₀ hp0]; linarith)) hk0.le
    rw [hT1, hL1]
    refine this.trans (le_of_eq ?_)
    rw [hp, hd]; field_simp
  have T2le : T2 ≤ 3 / 2 * k := by
    have := mul_le_mul_of_nonneg_left (lb2 (1 / q) (by rw [le_div_iff₀ hq0]; linarith)) hd0.le
    rw [hT2, hL2]
    refine this.trans (le_of_eq ?_)
    rw [hqd]
    field_simp
    rw [hd]; ring
  have Tn : T1 + T2 ≤ 3 / 2 * n := by rw [hd] at T1le; linarith
  -- the products
  have en : 0 < e * n := by positivity
  have ekn : e * k ≤ e * n := mul_le_mul_of_nonneg_left (by linarith) he.le
  have edn : e * d ≤ e * n := mul_le_mul_of_nonneg_left (by linarith) he.le
  have en1 : e * n ≤ 1 / 1000 * n := mul_le_mul_of_nonneg_right e1 hn0.le
  have x1 : |k * A - T1| ≤ e * T1 + 7 * (e * k) := by
    have h1 : k * A - T1 = k * (A - L1) := by rw [hT1]; ring
    rw [h1, abs_mul, abs_of_pos hk0]
    have := mul_le_mul_of_nonneg_left nA hk0.le
    rw [hT1]; linarith
  have x2 : |d * B - T2| ≤ e * T2 + 7 * (e * d) + 4 * (e * k) := by
    have h1 : d * B - T2 = d * (B - L2) := by rw [hT2]; ring
    rw [h1, abs_mul, abs_of_pos hd0]
    have := mul_le_mul_of_nonneg_left nB hd0.le
    have h2 : d * (4 * (e * (k / d))) = 4 * (e * k) := by field_simp
    rw [hT2]; linarith
  have edk : e * d + e * k = e * n := by rw [hd]; ring
  have eT : e * T1 + e * T2 ≤ 3 / 2 * (e * n) := by
    have := mul_le_mul_of_nonneg_left Tn he.le
    linarith
  have eT1 : 0 ≤ e * T1 := by positivity
  have eT2 : 0 ≤ e * T2 := by positivity
  have ek1 : 0 < e * k := by positivity
  have ed1 : 0 < e * d := by positivity
  have hflk : (r.fl (k : ℝ) : ℝ) = k := by
    rw [r.int k (by have := hf.conds; omega)]; simp
  have hfld : (r.fl ((n : ℝ) - k) : ℝ) = d := by
    have h1 : (n : ℝ) - k = ((n - k : Nat) : ℝ) := by rw [Nat.cast_sub hkn.le]
    rw [h1, r.int (n - k) (by have := hf.conds; omega), hd, h1]; simp
  obtain ⟨K, hK⟩ : ∃ K : ℝ, K = Real.logb 2 k := ⟨_, rfl⟩
  have Kn : 0 ≤ K := by rw [hK]; exact logb_nat_nonneg k
  have Kle : K ≤ k := by rw [hK]; exact logb_le_of_two_pow hk Nat.lt_two_pow_self.le
  have lk := hf.log_int k hk
  rw [← hK] at lk
  have wK : r.w * K ≤ e * n := by
    refine (mul_le_mul we Kle Kn he.le).trans ekn
  obtain ⟨lkv, hlk⟩ : ∃ l : ℝ, l = (r.lgInt k : ℝ) := ⟨_, rfl⟩
  rw [← hlk] at lk
  have s4 := ruleSum_err (r := r) hee hn2 en1 T1n T2n Tn x1 x2 ek1 ed1 edk eT eT1 eT2 Kn (by linarith) (lk.trans wK)
  have comp : (r.ruleBits n k : ℝ) = 
      max (r.fl (1 / 2 * (r.fl (lkv + (r.fl ((r.fl (k * A) : ℝ) + r.fl (d * B)) : ℝ)) : ℝ)) : ℝ) 1 := by
    unfold Rounding.ruleBits
    simp only
    rw [Rat.cast_max, Rat.cast_one]
    have e1 : (r.fl ((k : ℝ) / n) : ℝ) = pr := by rw [hpr, hp]
    rw [e1, ← hc, ← hA, ← hB, hflk, hfld, ← hlk]
  have tru : Spec.ruleBits n k = max (1 / 2 * (K + (T1 + T2))) 1 := by
    unfold Spec.ruleBits
    simp only
    rw [max_eq_left hk1, ← hp, ← hL1, ← hqq, ← hL2, ← hK, ← hd, ← hT1, ← hT2]
    norm_num
  rw [comp, tru]
  refine ⟨?_, ?_⟩
  · refine (abs_max_sub_max_le_abs _ _ _).trans ?_
    linarith
  · refine max_le ?_ ?_ <;> linarith

/-- Bound on the error of a description length computed for at most `m` rules over `n` possible conditions and `e` examples. -/
def Spec.lengthError (r : Rounding) (m n e : Nat) : ℝ := opError r * (60 * n * m ^ 2 + 20 * (e + 1))

theorem ruleTheory_err {r : Rounding} {m n len : Nat} (hf : FineFor r m n) {t : Rat}
    (h : @ruleTheory (Arith.rounded r) n len = .ok t) :
    1 ≤ n ∧ |(t : ℝ) - Spec.ruleBits n len| ≤ 33 * opError r * n ∧ Spec.ruleBits n len ≤ 2 * n := by
  unfold ruleTheory at h
  simp only at h
  split at h
  · cases h
  rename_i hn
  split at h
  · cases h
  rename_i hk
  split at h
  · cases h
  rename_i hlt
  injection h with h
  subst h
  have e : Spec.ruleBits n len = Spec.ruleBits n (max len 1) := by
    unfold Spec.ruleBits
    have : max ((max len 1 : Nat) : ℝ) 1 = max (len : ℝ) 1 := by push_cast; rw [max_assoc, max_self]
    simp only [this]
  rw [e]
  exact ⟨by omega, ruleBits_err hf (le_max_right _ _) (by omega)⟩

theorem ruleBits_nonneg (n len : Nat) : 0 ≤ Spec.ruleBits n len := le_trans zero_le_one (le_max_right _ _)

theorem theoryBits_nonneg (n : Nat) (rules : List (List Cond)) : 0 ≤ theoryBits n rules := by
  unfold theoryBits
  refine List.sum_nonneg ?_
  intro x hx
  obtain ⟨r, _, rfl⟩ := List.mem_map.mp hx
  exact ruleBits_nonneg n r.length

/-- One addition to the accumulated bits of the rules: `i` rules so far. -/
theorem theoryStep_err {r : Rounding} {m n : Nat} (hf : FineFor r m n) (hn : 1 ≤ n) {i : Nat} (hi : i < m) {t x : Rat} {T b : ℝ}
    (hT0 : 0 ≤ T) (hT : T ≤ 2 * n * i) (ht : |(t : ℝ) - T| ≤ 42 * opError r * n * m * i) (hb0 : 0 ≤ b) (hb : b ≤ 2 * n)
    (hx : |(x : ℝ) - b| ≤ 33 * opError r * n) :
    |(r.fl ((t : ℝ) + x) : ℝ) - (T + b)| ≤ 42 * opError r * n * m * (i + 1) := by
  have he := opError_pos r
  have hs := hf.small
  generalize hee : opError r = e at *
  have hn1 : (1 : ℝ) ≤ n := by exact_mod_cast hn
  have him : (i : ℝ) + 1 ≤ m := by exact_mod_cast hi
  have hi0 : (0 : ℝ) ≤ i := Nat.cast_nonneg i
  have hm1 : (1 : ℝ) ≤ m := by linarith
  have em : e * m ≤ 1 / 1000 := by linarith
  have e1 : e ≤ 1 / 1000 := by
    have := mul_le_mul_of_nonneg_left hm1 he.le
    linarith
  obtain ⟨nm, hnm⟩ : ∃ x : ℝ, x = n * m := ⟨_, rfl⟩
  have n0 : (0 : ℝ) ≤ n := by linarith
  have nnm : (n : ℝ) ≤ nm := by rw [hnm]; have := mul_le_mul_of_nonneg_left hm1 n0; linarith
  have en : e * n ≤ e * nm := mul_le_mul_of_nonneg_left nnm he.le
  have en1 : e * n ≤ 1 / 1000 * n := mul_le_mul_of_nonneg_right e1 n0
  have enm0 : 0 ≤ e * nm := mul_nonneg he.le (by linarith)
  have acc : 42 * e * n * m * i ≤ 42 / 1000 * nm := by
    have h1 : 42 * e * n * m * i ≤ 42 * e * n * m * m := mul_le_mul_of_nonneg_left (by linarith) (by positivity)
    have h2 : 42 * e * n * m * m = 42 * nm * (e * m) := by rw [hnm]; ring
    have h3 : 42 * nm * (e * m) ≤ 42 * nm * (1 / 1000) := mul_le_mul_of_nonneg_left em (by linarith)
    linarith
  have acc0 : 0 ≤ 42 * e * n * m * i := by positivity
  have size : T + b ≤ 2 * nm := by
    have h1 : 2 * (n : ℝ) * (i + 1) ≤ 2 * n * m := mul_le_mul_of_nonneg_left him (by linarith)
    rw [hnm]; linarith
  have f := fl_err r (x := (t : ℝ) + x) (B := 3 * nm) (by
    rw [abs_le] at ht hx ⊢
    constructor <;> linarith [ht.1, ht.2, hx.1, hx.2]) (by linarith)
  rw [hee] at f
  have g : 42 * e * n * m * (i + 1) = 42 * e * n * m * i + 42 * (e * nm) := by rw [hnm]; ring
  rw [g]
  rw [abs_le] at f ht hx ⊢
  constructor <;> linarith [f.1, f.2, ht.1, ht.2, hx.1, hx.2]

theorem theorySum_err {r : Rounding} {m n : Nat} (hf : FineFor r m n) : ∀ {rules : List (List Cond)} {i : Nat} {t v : Rat} {T : ℝ},
    i + rules.length ≤ m → 0 ≤ T → T ≤ 2 * n * i → |(t : ℝ) - T| ≤ 42 * opError r * n * m * i →
    @theorySum (Arith.rounded r) n t rules = .ok v →
    |(v : ℝ) - (T + theoryBits n rules)| ≤ 42 * opError r * n * m * (i + rules.length) ∧
      T + theoryBits n rules ≤ 2 * n * (i + rules.length)
  | [], i, t, v, T, _, _, hT, ht, h => by
    simp only [theorySum, Except.ok.injEq] at h; subst h
    simpa [theoryBits] using ⟨ht, hT⟩
  | c :: rs, i, t, v, T, hm, hT0, hT, ht, h => by
    unfold theorySum at h
    obtain ⟨x, hx, h⟩ := bind_ok_iff.mp h
    obtain ⟨hn, hx1, hx2⟩ := ruleTheory_err hf hx
    simp only [List.length_cons] at hm
    have b0 := ruleBits_nonneg n c.length
    have st := theoryStep_err hf hn (by omega : i < m) hT0 hT ht b0 hx2 hx1
    have := theorySum_err hf (rules := rs) (i := i + 1) (t := r.fl ((t : ℝ) + x)) (v := v) (T := T + Spec.ruleBits n c.length)
      (by omega) (by linarith) (by push_cast; linarith) (by push_cast; exact st) h
    obtain ⟨h1, h2⟩ := this
    have ht : T + theoryBits n (c :: rs) = T + Spec.ruleBits n c.length + theoryBits n rs := by
      simp only [theoryBits, List.map_cons, List.sum_cons]; ring
    have hl : ((i : ℝ) + ((c :: rs).length : Nat)) = ((i + 1 : Nat) : ℝ) + rs.length := by
      simp only [List.length_cons]; push_cast; ring
    rw [ht, hl]
    exact ⟨h1, h2⟩

theorem log2_err {r : Rounding} {m n : Nat} (hf : FineFor r m n) {c a : Nat} {v : Rat} (ha : c ≤ 2 ^ a)
    (h : @log2Exp (Arith.rounded r) (c : Int) = .ok v) :
    |(v : ℝ) - Real.logb 2 c| ≤ opError r * a ∧ Real.logb 2 c ≤ a := by
  unfold log2Exp at h
  split at h
  · cases h
  rename_i hc
  injection h with h
  subst h
  have c0 : 0 < c := by omega
  have hl := logb_le_of_two_pow c0 ha
  refine ⟨(hf.log_int c c0).trans ?_, hl⟩
  refine mul_le_mul ?_ hl (logb_nat_nonneg c) (opError_pos r).le
  have := r.u_pos; have := r.least_pos
  unfold opError; linarith

section
variable {r : Rounding} {m : Nat} {df : Frame} {cf : Feat} {cn : CatNap}

/-- The sum of the two logarithms of an exceptions length. -/
theorem exceptions_err {n : Nat} (hf : FineFor r m n) {tp fp P Q : Nat} (h1 : tp ≤ P) (h2 : fp ≤ Q) {v : Rat} {x y : Rat}
    (hx : @log2Exp (Arith.rounded r) (((tp + fp).choose fp : Nat) : Int) = .ok x)
    (hy : @log2Exp (Arith.rounded r) (((P + Q - (tp + fp)).choose (P - tp) : Nat) : Int) = .ok y)
    (hv : v = r.fl (((x + y : Rat)) : ℝ)) :
    |(v : ℝ) - (Real.logb 2 ((tp + fp).choose fp) + Real.logb 2 ((P + Q - (tp + fp)).choose (P - tp)))| ≤
      7 * opError r * (P + Q + 1) ∧
    Real.logb 2 ((tp + fp).choose fp) + Real.logb 2 ((P + Q - (tp + fp)).choose (P - tp)) ≤ P + Q := by
  have he := opError_pos r
  have hs := hf.small
  obtain ⟨a1, a2⟩ := log2_err hf (Nat.choose_le_two_pow _ _) hx
  obtain ⟨b1, b2⟩ := log2_err hf (Nat.choose_le_two_pow _ _) hy
  have a0 := logb_nat_nonneg ((tp + fp).choose fp)
  have b0 := logb_nat_nonneg ((P + Q - (tp + fp)).choose (P - tp))
  have cast : ((P + Q - (tp + fp) : Nat) : ℝ) = (P : ℝ) + Q - ((tp + fp : Nat) : ℝ) := by
    rw [Nat.cast_sub (by omega)]; push_cast; ring
  rw [cast] at b1 b2
  generalize hee : opError r = e at *
  generalize Real.logb 2 (((tp + fp).choose fp : Nat) : ℝ) = X at *
  generalize Real.logb 2 (((P + Q - (tp + fp)).choose (P - tp) : Nat) : ℝ) = Y at *
  generalize ((tp + fp : Nat) : ℝ) = s at *
  have hm0 : (0 : ℝ) ≤ m := Nat.cast_nonneg m
  have e1 : e ≤ 1 / 1000 := by
    have := mul_nonneg he.le hm0
    linarith
  obtain ⟨M, hM⟩ : ∃ M : ℝ, M = (P : ℝ) + Q + 1 := ⟨_, rfl⟩
  have hM1 : 1 ≤ M := by
    rw [hM]; linarith [Nat.cast_nonneg (α := ℝ) P, Nat.cast_nonneg (α := ℝ) Q]
  have sum : |(x : ℝ) + y - (X + Y)| ≤ e * M := by
    have : e * s + e * ((P : ℝ) + Q - s) = e * M - e := by rw [hM]; ring
    rw [abs_le] at a1 b1 ⊢
    constructor <;> linarith [a1.1, a1.2, b1.1, b1.2]
  have eM : e * M ≤ 1 / 1000 * M := mul_le_mul_of_nonneg_right e1 (by linarith)
  have f := fl_err r (x := (x : ℝ) + y) (B := 2 * M) (by
    rw [abs_le] at sum ⊢
    constructor <;> linarith [sum.1, sum.2]) (by linarith)
  rw [hee] at f
  refine ⟨?_, by linarith⟩
  rw [hv, Rat.cast_add, ← hM]
  rw [abs_le] at f sum ⊢
  constructor <;> linarith [f.1, f.2, sum.1, sum.2]

/-- A logarithm of a number of possibilities for at most as many bits. -/
theorem exceptionsCn_err (hb : CatNap.build df cf = .ok cn) (hu : df.UniqueIndex) {n : Nat} (hf : FineFor r m n)
    {rules : List (List Cond)} {pos neg : List Label} (h : Sensible df cf rules pos neg) {v : Rat}
    (hv : @exceptionsCn (Arith.rounded r) cn rules pos neg = .ok v) :
    |(v : ℝ) - exceptionBits df rules pos neg| ≤ 7 * opError r * (pos.length + neg.length + 1) ∧
      exceptionBits df rules pos neg ≤ pos.length + neg.length := by
  have hp := rulesetCovers_count hb hu h.over h.pos_mem (h.nonempty.imp id (·.1))
  have hn := rulesetCovers_count hb hu h.over h.neg_mem (h.nonempty.imp id (·.2))
  unfold exceptionsCn at hv
  simp only [hp, hn] at hv
  unfold exceptionBits
  simp only
  have h1 : nCoveredAny df rules pos ≤ pos.length := List.countP_le_length
  have h2 : nCoveredAny df rules neg ≤ neg.length := List.countP_le_length
  generalize nCoveredAny df rules pos = tp at *
  generalize nCoveredAny df rules neg = fp at *
  obtain ⟨x, hx, hv⟩ := bind_ok_iff.mp hv
  obtain ⟨y, hy, hv⟩ := bind_ok_iff.mp hv
  simp only [pure_eq_ok, Except.ok.injEq] at hv
  have e1 : (tp : Int) + fp = ((tp + fp : Nat) : Int) := by push_cast; rfl
  have e2 : (pos.length : Int) + neg.length - ((tp : Int) + fp) = ((pos.length + neg.length - (tp + fp) : Nat) : Int) := by
    rw [Nat.cast_sub (by omega)]; push_cast; rfl
  have e3 : (pos.length : Int) - tp = ((pos.length - tp : Nat) : Int) := by rw [Nat.cast_sub h1]
  rw [e1, C43_nCr] at hx
  rw [e2, e3, C43_nCr] at hy
  refine exceptions_err hf h1 h2 hx hy (hv.symm.trans ?_)
  show r.fl _ = r.fl _
  rw [Rat.cast_add]

/-- Bits of rules and exceptions added. -/
theorem total_err {n : Nat} (hf : FineFor r m n) {k P Q : Nat} (hk : k ≤ m) {t v : Rat} {T X : ℝ} (hT0 : 0 ≤ T)
    (hT : T ≤ 2 * n * k) (ht : |(t : ℝ) - T| ≤ 42 * opError r * n * m * k) (hX0 : 0 ≤ X) (hX : X ≤ P + Q)
    (hv : |(v : ℝ) - X| ≤ 7 * opError r * (P + Q + 1)) :
    |(r.fl ((t : ℝ) + v) : ℝ) - (T + X)| ≤ lengthError r m n (P + Q) ∧
      |(t : ℝ) + v| ≤ 3 * (n * m) + 2 * (P + Q + 1) ∧ |(r.fl ((t : ℝ) + v) : ℝ)| ≤ 3 * (n * m) + 2 * (P + Q + 1) := by
  have he := opError_pos r
  have hs := hf.small
  unfold lengthError
  generalize hee : opError r = e at *
  have hkm : (k : ℝ) ≤ m := by exact_mod_cast hk
  have hm0 : (0 : ℝ) ≤ m := Nat.cast_nonneg m
  have n0 : (0 : ℝ) ≤ n := Nat.cast_nonneg n
  have em : e * m ≤ 1 / 1000 := by linarith
  have e1 : e ≤ 1 / 1000 := by
    have := mul_nonneg he.le hm0
    linarith
  obtain ⟨nm, hnm⟩ : ∃ x : ℝ, x = n * m := ⟨_, rfl⟩
  obtain ⟨M, hM⟩ : ∃ M : ℝ, M = (P : ℝ) + Q + 1 := ⟨_, rfl⟩
  have hM1 : 1 ≤ M := by
    rw [hM]; linarith [Nat.cast_nonneg (α := ℝ) P, Nat.cast_nonneg (α := ℝ) Q]
  have nm0 : 0 ≤ nm := by rw [hnm]; positivity
  have m2 : (m : ℝ) ≤ (m : ℝ) ^ 2 := by
    have : m ≤ m ^ 2 := Nat.le_self_pow (by norm_num) m
    exact_mod_cast this
  have enm0 : 0 ≤ e * nm := mul_nonneg he.le nm0
  have enm : e * nm ≤ e * (n * (m : ℝ) ^ 2) := by
    rw [hnm]; exact mul_le_mul_of_nonneg_left (mul_le_mul_of_nonneg_left m2 n0) he.le
  have acc : 42 * e * n * m * k ≤ 42 * (e * (n * (m : ℝ) ^ 2)) := by
    have h1 : 42 * e * n * m * k ≤ 42 * e * n * m * m := mul_le_mul_of_nonneg_left hkm (by positivity)
    have h2 : 42 * e * n * m * m = 42 * (e * (n * (m : ℝ) ^ 2)) := by ring
    linarith
  have acc' : 42 * e * n * m * k ≤ 42 / 1000 * nm := by
    have h1 : 42 * (e * (n * (m : ℝ) ^ 2)) = 42 * nm * (e * m) := by rw [hnm]; ring
    have h3 : 42 * nm * (e * m) ≤ 42 * nm * (1 / 1000) := mul_le_mul_of_nonneg_left em (by linarith)
    linarith
  have size : T ≤ 2 * nm := by
    have h1 : 2 * (n : ℝ) * k ≤ 2 * n * m := mul_le_mul_of_nonneg_left hkm (by linarith)
    rw [hnm]; linarith
  rw [← hM] at hv ⊢
  have eM : e * M ≤ 1 / 1000 * M := mul_le_mul_of_nonneg_right e1 (by linarith)
  have eM0 : 0 < e * M := by positivity
  have sum : |(t : ℝ) + v| ≤ 5 / 2 * nm + 3 / 2 * M := by
    rw [abs_le] at ht hv ⊢
    constructor <;> linarith [ht.1, ht.2, hv.1, hv.2]
  have f := fl_err r (x := (t : ℝ) + v) (B := 5 / 2 * nm + 3 / 2 * M) sum (by linarith)
  rw [hee] at f
  have enm1 : e * nm ≤ 1 / 1000 * nm := mul_le_mul_of_nonneg_right e1 nm0
  rw [← hnm]
  refine ⟨?_, by linarith, ?_⟩
  · have goal : e * (60 * n * (m : ℝ) ^ 2 + 20 * (((P + Q : Nat) : ℝ) + 1)) = 60 * (e * (n * (m : ℝ) ^ 2)) + 20 * (e * M) := by
      rw [hM]; push_cast; ring
    rw [goal]
    rw [abs_le] at f ht hv ⊢
    constructor <;> linarith [f.1, f.2, ht.1, ht.2, hv.1, hv.2]
  · rw [abs_le] at f sum ⊢
    constructor <;> linarith [f.1, f.2, sum.1, sum.2]

theorem exceptionBits_nonneg (df : Frame) (rules : List (List Cond)) (pos neg : List Label) :
    0 ≤ exceptionBits df rules pos neg := add_nonneg (logb_nat_nonneg _) (logb_nat_nonneg _)

theorem totalBitsCn_err (hb : CatNap.build df cf = .ok cn) (hu : df.UniqueIndex) (hf : FineFor r m cn.conds.length)
    {rules : List (List Cond)} (hm : rules.length ≤ m) {pos neg : List Label} (h : Sensible df cf rules pos neg) {v : Rat}
    (hv : @totalBitsCn (Arith.rounded r) cn rules pos neg = .ok v) :
    |(v : ℝ) - totalBits df cn.conds.length rules pos neg| ≤ lengthError r m cn.conds.length (pos.length + neg.length) := by
  unfold totalBitsCn at hv
  obtain ⟨x, hx, hv⟩ := bind_ok_iff.mp hv
  obtain ⟨y, hy, hv⟩ := bind_ok_iff.mp hv
  simp only [pure_eq_ok, Except.ok.injEq] at hv
  obtain ⟨h1, h2⟩ := theorySum_err hf (rules := rules) (i := 0) (t := 0) (v := x) (T := 0) (by omega) le_rfl (by simp) (by simp) hx
  obtain ⟨h4, h5⟩ := exceptionsCn_err hb hu hf h hy
  simp only [Nat.cast_zero, zero_add] at h1 h2
  have key := (total_err hf hm (theoryBits_nonneg _ _) h2 h1
    (exceptionBits_nonneg df rules pos neg) h5 h4).1
  have e : v = r.fl ((x : ℝ) + y) := by
    rw [← hv]
    show r.fl _ = _
    norm_num
  rw [e]
  exact key

end

end Witt
