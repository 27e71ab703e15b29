import Mathlib.Tactic.Linarith
import Mathlib.Tactic.NormNum
import Mathlib.Tactic.FieldSimp
import Mathlib.Tactic.GCongr
import Verif.Rounding
import Verif.Lemmas.Random
import Verif.Lemmas.Grow
/-
C81: rounding. The laws assumed of the training arithmetic hold of doubles.
-/
namespace Witt

theorem image_pos (x : Rat) : 0 < Rounding.image x := by
  unfold Rounding.image
  split
  · linarith
  · have : 0 < 1 - x := by linarith
    positivity

/-- Comparing images is comparing gains. -/
theorem image_lt_iff {x y : Rat} : Rounding.image x < Rounding.image y ↔ x < y := by
  have key : ∀ x y : Rat, x < y → Rounding.image x < Rounding.image y := by
    intro x y h
    unfold Rounding.image
    split <;> split
    · linarith
    · linarith
    · rename_i hx hy
      have : 0 < 1 - x := by linarith
      calc 1 / (1 - x) < 1 := by rw [div_lt_one this]; linarith
        _ ≤ 1 + y := by linarith
    · rename_i hx hy
      exact one_div_lt_one_div_of_lt (by linarith) (by linarith)
  refine ⟨fun h => ?_, key x y⟩
  by_contra hc
  rcases eq_or_lt_of_le (not_lt.mp hc) with he | hlt
  · rw [he] at h; exact lt_irrefl _ h
  · exact lt_asymm h (key _ _ hlt)

theorem image_zero : Rounding.image 0 = 1 := by simp [Rounding.image]

namespace Rounding
variable (r : Rounding)

theorem fl_zero : r.fl 0 = 0 := by simpa using r.int 0 (Nat.zero_le _)
theorem fl_one : r.fl 1 = 1 := by simpa using r.int 1 r.N_pos
theorem fl_nonneg {x : ℝ} (h : 0 ≤ x) : 0 ≤ r.fl x := by rw [← r.fl_zero]; exact r.mono _ _ h
theorem fl_nonpos {x : ℝ} (h : x ≤ 0) : r.fl x ≤ 0 := by rw [← r.fl_zero]; exact r.mono _ _ h
theorem fl_le_one {x : ℝ} (h : x ≤ 1) : r.fl x ≤ 1 := by rw [← r.fl_one]; exact r.mono _ _ h
theorem least_small : r.least ≤ 1 / 4 := by
  have := r.least_le
  have hN : (1 : ℝ) ≤ r.N := by exact_mod_cast r.N_pos
  nlinarith [r.least_pos]

theorem fl_le {x : ℝ} (h : r.least ≤ x) : (r.fl x : ℝ) ≤ (1 + r.u) * x := by
  have hx : 0 < x := lt_of_lt_of_le r.least_pos h
  have := r.near x (by rw [abs_of_pos hx]; exact h)
  rw [abs_of_pos hx, abs_le] at this
  linarith [this.2]

theorem le_fl {x : ℝ} (h : r.least ≤ x) : (1 - r.u) * x ≤ r.fl x := by
  have hx : 0 < x := lt_of_lt_of_le r.least_pos h
  have := r.near x (by rw [abs_of_pos hx]; exact h)
  rw [abs_of_pos hx, abs_le] at this
  linarith [this.1]

theorem fl_pos {x : ℝ} (h : r.least ≤ x) : 0 < r.fl x := by
  have := r.le_fl h
  have hx : 0 < x := lt_of_lt_of_le r.least_pos h
  have h2 : (0 : ℝ) < r.fl x := lt_of_lt_of_le (mul_pos (by linarith [r.u_le]) hx) this
  exact_mod_cast h2

theorem ratio_large {p n : Nat} (h : p + n < r.N) : r.least ≤ ((p : ℝ) + 1) / (p + n + 1) := by
  have hN : ((p : ℝ) + n + 1) ≤ r.N := by exact_mod_cast h
  have hd : (0 : ℝ) < (p : ℝ) + n + 1 := by positivity
  have hN0 : (0 : ℝ) < r.N := lt_of_lt_of_le hd hN
  rw [le_div_iff₀ hd]
  have h1 : r.least * ((p : ℝ) + n + 1) ≤ r.least * (4 * r.N) := by
    apply mul_le_mul_of_nonneg_left _ r.least_pos.le
    linarith
  have := r.least_le
  have hp : (0 : ℝ) ≤ p := by positivity
  linarith

theorem gain_nonpos {p0 n0 p1 n1 : Nat} (h1 : p1 + n1 < r.N) (h : p1 = 0 ∨ (p1 ≤ p0 ∧ n0 ≤ n1)) :
    r.gain p0 n0 p1 n1 ≤ 0 := by
  unfold gain
  rcases h with rfl | ⟨hp, hn⟩
  · simp [r.fl_zero]
  · apply r.fl_nonpos
    apply mul_nonpos_of_nonneg_of_nonpos
    · exact_mod_cast r.fl_nonneg (by positivity)
    · rw [Rat.cast_nonpos]
      apply r.fl_nonpos
      rw [sub_nonpos, Rat.cast_le]
      apply r.lg_mono _ _ (r.fl_pos (r.ratio_large h1))
      apply r.mono
      rw [div_le_div_iff₀ (by positivity) (by positivity)]
      have a : (p1 : ℝ) ≤ p0 := by exact_mod_cast hp
      have b : (n0 : ℝ) ≤ n1 := by exact_mod_cast hn
      have c : (0 : ℝ) ≤ p1 := by positivity
      have d : (0 : ℝ) ≤ n0 := by positivity
      nlinarith

theorem trunc_nonneg {q : Rat} (h : 0 ≤ q) : pyTrunc q = ⌊q⌋ := by
  unfold pyTrunc; rw [if_neg (not_lt.mpr h)]; rfl

end Rounding

/-- C81. The rounded arithmetic obeys the laws that the theorems on training assume. -/
theorem C81_rounded_lawful (r : Rounding) : @Arith.Lawful (Arith.rounded r) := by
  refine @Arith.Lawful.mk (Arith.rounded r) ?_ ?_ ?_ ?_ ?_ ?_ ?_ ?_ ?_ ?_ ?_
  · intro p0 n0 p1 n1
    show 0 < (if p0 + n0 < r.N ∧ p1 + n1 < r.N then Rounding.image (r.gain p0 n0 p1 n1) else gainExp p0 n0 p1 n1)
    split
    · exact image_pos _
    · exact gainExp_pos _ _ _ _
  · intro p0 n0 p1 n1 hp h
    have h : 1 < (if p0 + n0 < r.N ∧ p1 + n1 < r.N then Rounding.image (r.gain p0 n0 p1 n1) else gainExp p0 n0 p1 n1) := h
    split at h
    · rename_i hN
      rw [← image_zero, image_lt_iff] at h
      by_contra hc
      refine absurd h (not_lt.mpr (r.gain_nonpos hN.2 ?_))
      by_cases h0 : p1 = 0
      · exact Or.inl h0
      · exact Or.inr ⟨hp, by by_contra hn; exact hc ⟨Nat.one_le_iff_ne_zero.mpr h0, not_le.mp hn⟩⟩
    · exact gain_loses_negative hp h
  · intro p n
    show (if _ then _ else _) = (1 : Rat)
    split
    · rw [← image_zero]
      congr 1
      unfold Rounding.gain
      simp [r.fl_zero]
    · unfold gainExp
      rw [div_self (by positivity), one_pow]
  · intro b hb
    show (if _ then _ else _) = (0 : Rat)
    split
    · simp [r.fl_zero]
    · simp
  · intro a b ha hb
    show (0 : Rat) ≤ (if b ≤ r.N then r.fl ((a : ℝ) / b) else (a : Rat) / b)
    have ha' : (0 : ℝ) ≤ a := by exact_mod_cast ha
    have hb' : (0 : ℝ) < b := by exact_mod_cast hb
    split
    · exact r.fl_nonneg (by positivity)
    · exact div_nonneg (by exact_mod_cast ha) (by exact_mod_cast hb.le)
  · intro a b hb h
    have h : 1 / 2 ≤ (if b ≤ r.N then r.fl ((a : ℝ) / b) else (a : Rat) / b) := h
    split at h
    · rename_i hN
      by_contra hc
      have hb1 : (1 : ℝ) ≤ b := by exact_mod_cast hb
      have hbN : (b : ℝ) ≤ r.N := by exact_mod_cast hN
      have h1 : r.fl ((a : ℝ) / b) ≤ r.fl (((b : ℝ) - 1) / (2 * b)) := by
        apply r.mono
        rw [div_le_div_iff₀ (by linarith) (by linarith)]
        have : (2 * a : ℝ) ≤ b - 1 := by
          have : 2 * a ≤ b - 1 := by omega
          exact_mod_cast this
        nlinarith
      have h2 : ((1 / 2 : Rat) : ℝ) ≤ r.fl (((b : ℝ) - 1) / (2 * b)) := by exact_mod_cast le_trans h h1
      by_cases hb2 : b = 1
      · subst hb2
        norm_num [r.fl_zero] at h2
      · have hb3 : (2 : ℝ) ≤ b := by
          have : 2 ≤ b := by omega
          exact_mod_cast this
        have hl : r.least ≤ ((b : ℝ) - 1) / (2 * b) := by
          rw [le_div_iff₀ (by linarith)]
          have := r.least_small
          nlinarith [r.least_pos]
        have h3 := r.fl_le hl
        have h4 : r.u * (b : ℝ) ≤ 1 := le_trans (mul_le_mul_of_nonneg_left hbN r.u_pos.le) r.N_le
        have h5 : (1 + r.u) * (((b : ℝ) - 1) / (2 * b)) < 1 / 2 := by
          rw [← mul_div_assoc, div_lt_div_iff₀ (by linarith) (by norm_num)]
          nlinarith [r.u_pos]
        push_cast at h2
        linarith
    · have hb' : (0 : Rat) < b := by exact_mod_cast hb
      rw [div_le_div_iff₀ (by norm_num) hb'] at h
      have : (b : Rat) ≤ ((2 * a : Int) : Rat) := by push_cast; linarith
      exact_mod_cast this
  · intro a ha
    show decide ((0 : Rat) ≤ a) = true
    simpa using ha
  · show r.fl (1 - ((0 : Rat) : ℝ)) = 1
    simpa using r.fl_one
  · intro q h0 h1
    have h0' : (0 : ℝ) ≤ q := by exact_mod_cast h0
    have h1' : (q : ℝ) ≤ 1 := by exact_mod_cast h1
    exact ⟨r.fl_nonneg (by linarith), r.fl_le_one (by linarith)⟩
  · intro n q h0 h1
    have h0' : (0 : ℝ) ≤ q := by exact_mod_cast h0
    have h1' : (q : ℝ) ≤ 1 := by exact_mod_cast h1
    show 0 ≤ (if n ≤ r.N then pyTrunc (r.fl (r.fl n * q)) else _) ∧ (if n ≤ r.N then _ else pyTrunc ((n : Rat) * q)) ≤ (n : Int)
    split
    · rename_i hN
      rw [r.int n hN]
      have e : 0 ≤ r.fl (((n : Rat) : ℝ) * q) := r.fl_nonneg (by positivity)
      rw [Rounding.trunc_nonneg e]
      refine ⟨Int.floor_nonneg.mpr e, ?_⟩
      have : r.fl (((n : Rat) : ℝ) * q) ≤ n := by
        rw [← r.int n hN]
        conv_lhs => rw [r.int n hN]
        apply r.mono
        have : (0 : ℝ) ≤ ((n : Rat) : ℝ) := by positivity
        push_cast at this ⊢
        nlinarith
      have h2 : ((⌊r.fl (((n : Rat) : ℝ) * q)⌋ : Int) : Rat) ≤ ((n : Int) : Rat) := le_trans (Int.floor_le _) (by simpa using this)
      exact_mod_cast h2
    · exact ⟨exact_cut_nonneg h0, exact_cut_le h0 h1⟩
  · intro n
    show (if n ≤ r.N then pyTrunc (r.fl (r.fl n * ((1 : Rat) : ℝ))) else pyTrunc ((n : Rat) * 1)) = (n : Int)
    split
    · rename_i hN
      rw [r.int n hN]
      have : r.fl (((n : Rat) : ℝ) * ((1 : Rat) : ℝ)) = n := by
        push_cast; rw [mul_one]; exact r.int n hN
      rw [this, Rounding.trunc_nonneg (by positivity)]
      simp
    · rw [mul_one, Rounding.trunc_nonneg (by positivity)]; simp

/-- C81. With rounding, a `prune_size` from `2u` (for doubles, 2^-52) to 1 leaves something to prune on. -/
theorem C81_prune_sizes (r : Rounding) (ps : Rat) (h0 : 2 * r.u ≤ ps) (h1 : ps ≤ 1) :
    @Arith.LeavesSome (Arith.rounded r) ps := by
  intro n hn
  have h1' : (ps : ℝ) ≤ 1 := by exact_mod_cast h1
  obtain ⟨q, hq⟩ : ∃ q, q = r.fl (1 - (ps : ℝ)) := ⟨_, rfl⟩
  have e : @Arith.complement (Arith.rounded r) ps = q := hq.symm
  rw [e]
  have hq0 : 0 ≤ q := by rw [hq]; exact r.fl_nonneg (by linarith)
  have hq1 : (q : ℝ) ≤ 1 - r.u := by
    have h2 : q ≤ r.fl (1 - 2 * r.u) := by rw [hq]; exact r.mono _ _ (by linarith)
    have h3 := r.fl_le (x := 1 - 2 * r.u) (by linarith [r.least_small, r.u_le])
    have h4 : (q : ℝ) ≤ r.fl (1 - 2 * r.u) := by exact_mod_cast h2
    nlinarith [r.u_pos]
  have hu := r.u_pos
  refine ⟨((C81_rounded_lawful r).cut_range n q hq0 (by
    have : (q : ℝ) ≤ 1 := by linarith
    exact_mod_cast this)).1, ?_⟩
  show (if n ≤ r.N then pyTrunc (r.fl (r.fl n * q)) else pyTrunc ((n : Rat) * q)) < (n : Int)
  split
  · rename_i hN
    rw [r.int n hN]
    have hn1 : (1 : ℝ) ≤ n := by exact_mod_cast hn
    have hq0' : (0 : ℝ) ≤ q := by exact_mod_cast hq0
    rw [Rounding.trunc_nonneg (r.fl_nonneg (by positivity)), Int.floor_lt]
    have h2 : r.fl (((n : Rat) : ℝ) * q) ≤ r.fl ((n : ℝ) * (1 - r.u)) := by
      apply r.mono
      push_cast
      nlinarith
    have h3 := r.fl_le (x := (n : ℝ) * (1 - r.u)) (by nlinarith [r.least_small, r.u_le])
    have h4 : (r.fl (((n : Rat) : ℝ) * q) : ℝ) ≤ r.fl ((n : ℝ) * (1 - r.u)) := by exact_mod_cast h2
    have h5 : (r.fl (((n : Rat) : ℝ) * q) : ℝ) < n := by nlinarith [mul_pos hu hu]
    have h6 : (r.fl (((n : Rat) : ℝ) * q) : ℝ) < (((n : Int) : Rat) : ℝ) := by simpa using h5
    exact_mod_cast h6
  · refine exact_cut_lt hq0 ?_ hn
    have : (q : ℝ) < 1 := by linarith
    exact_mod_cast this

theorem logb_facts {A B M : ℝ} (hM1 : 1 ≤ M) (hB0 : 1 / (2 * M) ≤ B) (hBA : B < A) (hA1 : A ≤ 1) :
    Real.logb 2 A ≤ 0 ∧ Real.logb 2 B ≤ Real.logb 2 A ∧ -(1 + Real.logb 2 M) ≤ Real.logb 2 B ∧
      A - B ≤ Real.logb 2 A - Real.logb 2 B := by
  have hBpos : 0 < B := lt_of_lt_of_le (by positivity) hB0
  have hApos : 0 < A := by linarith
  have hlogA : Real.logb 2 A ≤ 0 := Real.logb_nonpos (by norm_num) hApos.le hA1
  have hlogBA : Real.logb 2 B ≤ Real.logb 2 A := Real.logb_le_logb_of_le (by norm_num) hBpos hBA.le
  have hlogB : -(1 + Real.logb 2 M) ≤ Real.logb 2 B := by
    have h1 : Real.logb 2 (1 / (2 * M)) ≤ Real.logb 2 B := Real.logb_le_logb_of_le (by norm_num) (by positivity) hB0
    rw [one_div, Real.logb_inv, Real.logb_mul (by norm_num) (by linarith), Real.logb_self_eq_one (by norm_num)] at h1
    exact h1
  have hdiff : A - B ≤ Real.logb 2 A - Real.logb 2 B := by
    have h1 := Real.one_sub_inv_le_log_of_pos (div_pos hApos hBpos)
    rw [Real.log_div hApos.ne' hBpos.ne', inv_div] at h1
    have h2 : A - B ≤ 1 - B / A := by
      rw [one_sub_div hApos.ne', le_div_iff₀ hApos]
      nlinarith
    have h3 : Real.log A - Real.log B ≤ Real.logb 2 A - Real.logb 2 B := by
      rw [Real.logb, Real.logb, ← sub_div]
      have h4 : 0 ≤ Real.log A - Real.log B := by linarith
      rw [le_div_iff₀ (Real.log_pos (by norm_num))]
      have : Real.log 2 ≤ 1 := by linarith [Real.log_le_sub_one_of_pos (show (0 : ℝ) < 2 by norm_num)]
      nlinarith
    linarith
  exact ⟨hlogA, hlogBA, hlogB, hdiff⟩

set_option maxHeartbeats 1000000 in
/-- C81. With rounding, gains are sharp (as C69 asks) on data of `m` rows, where `m` is small enough for the precision of the
numbers; for doubles and a logarithm that errs by at most one unit in the last place, `m` may be eight million
(`C81_doubles_sharp`). -/
theorem C81_rounded_sharp (r : Rounding) (m : Nat) (hm : m < r.N)
    (hs : 2 * r.u + 2 * r.w * (1 + Real.logb 2 (m + 1)) + 2 * r.least ≤ 1 / ((m : ℝ) + 1) ^ 2) :
    @Arith.SharpUpTo (Arith.rounded r) m := by
  intro p0 n0 p1 n1 h0 hp hn hp1 hlt
  show 1 < (if p0 + n0 < r.N ∧ p1 + n1 < r.N then Rounding.image (r.gain p0 n0 p1 n1) else gainExp p0 n0 p1 n1)
  have hN1 : p1 + n1 < r.N := by omega
  rw [if_pos ⟨by omega, hN1⟩, ← image_zero, image_lt_iff]
  obtain ⟨M, hM⟩ : ∃ M : ℝ, M = m + 1 := ⟨_, rfl⟩
  rw [← hM] at hs
  have hM1 : 1 ≤ M := by rw [hM]; have : (0 : ℝ) ≤ m := by positivity
                         linarith
  have hd0 : ((p0 : ℝ) + n0 + 1) ≤ M := by rw [hM]; exact_mod_cast Nat.succ_le_succ h0
  have hd1 : ((p1 : ℝ) + n1 + 1) ≤ M := by rw [hM]; exact_mod_cast Nat.succ_le_succ (by omega : p1 + n1 ≤ m)
  have hw := r.w_nonneg
  have hu := r.u_pos
  have hl := r.least_pos
  unfold Rounding.gain
  obtain ⟨a, ha⟩ : ∃ a : ℝ, a = (p1 + 1) / (p1 + n1 + 1) := ⟨_, rfl⟩
  obtain ⟨b, hb⟩ : ∃ b : ℝ, b = (p0 + 1) / (p0 + n0 + 1) := ⟨_, rfl⟩
  have hal : r.least ≤ a := ha ▸ r.ratio_large hN1
  have hbl : r.least ≤ b := hb ▸ r.ratio_large (by omega : p0 + n0 < r.N)
  rw [← ha, ← hb]
  have q0 : (0 : ℝ) < (p0 : ℝ) + n0 + 1 := by positivity
  have q1 : (0 : ℝ) < (p1 : ℝ) + n1 + 1 := by positivity
  have hab : 1 / M ^ 2 ≤ a - b := by
    rw [ha, hb, div_sub_div _ _ q1.ne' q0.ne']
    have hnum : (1 : ℝ) ≤ ((p1 : ℝ) + 1) * (p0 + n0 + 1) - (p1 + n1 + 1) * (p0 + 1) := by
      have : ((n1 * (p0 + 1) + 1 : Nat) : ℝ) ≤ ((n0 * (p1 + 1) : Nat) : ℝ) := by exact_mod_cast hlt
      push_cast at this
      nlinarith
    have hden : ((p1 : ℝ) + n1 + 1) * (p0 + n0 + 1) ≤ M ^ 2 := by
      rw [sq]; exact mul_le_mul hd1 hd0 q0.le (by linarith)
    exact div_le_div₀ (by linarith) hnum (mul_pos q1 q0) hden
  have ha1 : a ≤ 1 := by
    rw [ha, div_le_one q1]
    have : (0 : ℝ) ≤ n1 := by positivity
    linarith
  have hb1 : b ≤ 1 := by
    rw [hb, div_le_one q0]
    have : (0 : ℝ) ≤ n0 := by positivity
    linarith
  have hbM : 1 / M ≤ b := by
    rw [hb]
    have : (0 : ℝ) ≤ p0 := by positivity
    exact div_le_div₀ (by linarith) (by linarith) q0 hd0
  obtain ⟨A, hA⟩ : ∃ A : ℝ, A = r.fl a := ⟨_, rfl⟩
  obtain ⟨B, hB⟩ : ∃ B : ℝ, B = r.fl b := ⟨_, rfl⟩
  have hAa : (1 - r.u) * a ≤ A := hA ▸ r.le_fl hal
  have hBb : B ≤ (1 + r.u) * b := hB ▸ r.fl_le hbl
  have hBb' : (1 - r.u) * b ≤ B := hB ▸ r.le_fl hbl
  have hlogM : 0 ≤ Real.logb 2 M := Real.logb_nonneg (by norm_num) hM1
  have hwl : 0 ≤ 2 * r.w * (1 + Real.logb 2 M) := by positivity
  have hAB : 1 / M ^ 2 - 2 * r.u ≤ A - B := by
    have t := mul_le_mul_of_nonneg_left (show a + b ≤ 2 by linarith) hu.le
    linarith [t, hAa, hBb, hab]
  have hA1 : A ≤ 1 := by rw [hA]; exact_mod_cast r.fl_le_one ha1
  have hB0 : 1 / (2 * M) ≤ B := by
    have h1 : 1 / (2 * M) = 1 / 2 * (1 / M) := by field_simp
    have h2 : 0 < 1 / M := by positivity
    have h3 : 1 / 2 * b ≤ (1 - r.u) * b := mul_le_mul_of_nonneg_right (by linarith [r.u_le]) (by linarith)
    linarith
  have hBpos : 0 < B := lt_of_lt_of_le (by positivity) hB0
  have hBA : B < A := by linarith
  have hApos : 0 < A := by linarith
  obtain ⟨hlogA, hlogBA, hlogB, hdiff⟩ := logb_facts hM1 hB0 hBA hA1
  have eA := r.lg_near (r.fl a) (r.fl_pos hal)
  have eB := r.lg_near (r.fl b) (r.fl_pos hbl)
  rw [← hA, abs_of_nonpos hlogA, abs_le] at eA
  rw [← hB, abs_of_nonpos (a := Real.logb 2 B) (by linarith), abs_le] at eB
  have hx : 2 * r.least ≤ (r.lg (r.fl a) : ℝ) - r.lg (r.fl b) := by
    have t1 : r.w * -Real.logb 2 A ≤ r.w * (1 + Real.logb 2 M) := mul_le_mul_of_nonneg_left (by linarith) hw
    have t2 : r.w * -Real.logb 2 B ≤ r.w * (1 + Real.logb 2 M) := mul_le_mul_of_nonneg_left (by linarith) hw
    linarith [eA.1, eB.2]
  have hd : r.least ≤ (r.fl ((r.lg (r.fl a) : ℝ) - r.lg (r.fl b)) : ℝ) := by
    have h1 := r.le_fl (x := (r.lg (r.fl a) : ℝ) - r.lg (r.fl b)) (by linarith)
    have h2 : 1 / 2 * ((r.lg (r.fl a) : ℝ) - r.lg (r.fl b)) ≤ (1 - r.u) * ((r.lg (r.fl a) : ℝ) - r.lg (r.fl b)) :=
      mul_le_mul_of_nonneg_right (by linarith [r.u_le]) (by linarith)
    linarith
  apply r.fl_pos
  rw [r.int p1 (by omega)]
  have h1 : (1 : ℝ) ≤ p1 := by exact_mod_cast hp1
  push_cast
  exact le_trans hd (le_mul_of_one_le_left (by linarith) h1)

/-- C81. With the precision of doubles, and a logarithm that errs by at most one unit in the last place, gains are sharp on
data of up to eight million rows. -/
theorem C81_doubles_sharp (r : Rounding) (hu : r.u ≤ 2⁻¹ ^ 53) (hw : r.w ≤ 2⁻¹ ^ 52) (hl : r.least ≤ 2⁻¹ ^ 1022)
    (hN : 2 ^ 53 ≤ r.N) (m : Nat) (hm : m ≤ 8000000) : @Arith.SharpUpTo (Arith.rounded r) m := by
  refine C81_rounded_sharp r m (lt_of_lt_of_le (by omega) hN) ?_
  have h1 : ((m : ℝ) + 1) ≤ 2 ^ 23 := by
    have : m + 1 ≤ 2 ^ 23 := by omega
    exact_mod_cast this
  have h0 : (0 : ℝ) < (m : ℝ) + 1 := by positivity
  have h2 : Real.logb 2 ((m : ℝ) + 1) ≤ 23 := by
    have : Real.logb 2 ((m : ℝ) + 1) ≤ Real.logb 2 (2 ^ 23) := Real.logb_le_logb_of_le (by norm_num) h0 h1
    rwa [← Real.rpow_natCast, Real.logb_rpow (by norm_num) (by norm_num)] at this
  have h3 : (2⁻¹ : ℝ) ^ 46 ≤ 1 / ((m : ℝ) + 1) ^ 2 := by
    rw [le_div_iff₀ (by positivity)]
    have : ((m : ℝ) + 1) ^ 2 ≤ (2 ^ 23) ^ 2 := by gcongr
    calc (2⁻¹ : ℝ) ^ 46 * ((m : ℝ) + 1) ^ 2 ≤ 2⁻¹ ^ 46 * (2 ^ 23) ^ 2 := by gcongr
      _ ≤ 1 := by norm_num
  have h4 : (2⁻¹ : ℝ) ^ 1022 ≤ 2⁻¹ ^ 60 := pow_le_pow_of_le_one (by norm_num) (by norm_num) (by norm_num)
  have h5 : 2 * r.w * (1 + Real.logb 2 ((m : ℝ) + 1)) ≤ 2 * 2⁻¹ ^ 52 * 24 := by
    have : 0 ≤ Real.logb 2 ((m : ℝ) + 1) := Real.logb_nonneg (by norm_num) (by
      have : (0 : ℝ) ≤ m := by positivity
      linarith)
    apply mul_le_mul (by linarith) (by linarith) (by linarith) (by norm_num)
  refine le_trans ?_ h3
  have h6 : 2 * (2⁻¹ : ℝ) ^ 53 + 2 * 2⁻¹ ^ 52 * 24 + 2 * 2⁻¹ ^ 60 ≤ 2⁻¹ ^ 46 := by norm_num
  have h7 : r.least ≤ 2⁻¹ ^ 60 := le_trans hl h4
  refine le_trans (add_le_add (add_le_add ?_ h5) ?_) h6
  · exact mul_le_mul_of_nonneg_left hu (by norm_num)
  · exact mul_le_mul_of_nonneg_left h7 (by norm_num)

/-! ### a concrete rounding -/

namespace Demo

/-- A positive number rounded to 53 significant bits. -/
noncomputable def near53 (x : ℝ) : Rat := (round (x * 2 ^ (52 - Int.log 2 x)) : Rat) * 2 ^ (Int.log 2 x - 52)

/-- A number rounded to the nearest with 53 significant bits. -/
noncomputable def fl53 (x : ℝ) : Rat := if 0 < x then near53 x else if x < 0 then - near53 (-x) else 0

theorem near53_cast (x : ℝ) : (near53 x : ℝ) = round (x * 2 ^ (52 - Int.log 2 x)) * 2 ^ (Int.log 2 x - 52) := by
  unfold near53; push_cast; rfl

theorem near53_err {x : ℝ} (h : 0 < x) : |(near53 x : ℝ) - x| ≤ 2⁻¹ ^ 53 * x := by
  rw [near53_cast]
  obtain ⟨e, he⟩ : ∃ e, e = Int.log 2 x := ⟨_, rfl⟩
  rw [← he]
  have h1 : x = x * 2 ^ (52 - e) * 2 ^ (e - 52) := by
    rw [mul_assoc, ← zpow_add₀ (by norm_num)]; simp
  have h2 := abs_sub_round (x * (2 : ℝ) ^ (52 - e))
  have h3 : (2 : ℝ) ^ e ≤ x := by rw [he]; exact_mod_cast Int.zpow_log_le_self (b := 2) (by norm_num) h
  have h4 : (0 : ℝ) < 2 ^ (e - 52) := by positivity
  calc |(round (x * 2 ^ (52 - e)) : ℝ) * 2 ^ (e - 52) - x|
      = |x * 2 ^ (52 - e) - round (x * 2 ^ (52 - e))| * 2 ^ (e - 52) := by
        rw [abs_sub_comm]
        nth_rewrite 1 [h1]
        rw [← sub_mul, abs_mul, abs_of_pos h4]
    _ ≤ 1 / 2 * 2 ^ (e - 52) := by gcongr
    _ = 2⁻¹ ^ 53 * 2 ^ e := by rw [zpow_sub₀ (by norm_num)]; norm_num; ring
    _ ≤ 2⁻¹ ^ 53 * x := by gcongr

theorem round_mono {x y : ℝ} (h : x ≤ y) : round x ≤ round y := by
  rw [round_eq, round_eq]; exact Int.floor_le_floor (by linarith)

theorem near53_bounds {x : ℝ} (h : 0 < x) : (2 : ℝ) ^ Int.log 2 x ≤ near53 x ∧ (near53 x : ℝ) ≤ 2 ^ (Int.log 2 x + 1) := by
  rw [near53_cast]
  obtain ⟨e, he⟩ : ∃ e, e = Int.log 2 x := ⟨_, rfl⟩
  rw [← he]
  have h3 : (2 : ℝ) ^ e ≤ x := by rw [he]; exact_mod_cast Int.zpow_log_le_self (b := 2) (by norm_num) h
  have h4 : x ≤ (2 : ℝ) ^ (e + 1) := by rw [he]; exact_mod_cast (Int.lt_zpow_succ_log_self (b := 2) (by norm_num) x).le
  have hp : (0 : ℝ) < 2 ^ (52 - e) := by positivity
  have l1 : ((2 ^ 52 : Int) : ℝ) ≤ x * 2 ^ (52 - e) := by
    calc ((2 ^ 52 : Int) : ℝ) = 2 ^ e * 2 ^ (52 - e) := by
          rw [← zpow_add₀ (by norm_num)]; norm_num
      _ ≤ _ := by gcongr
  have l2 : x * 2 ^ (52 - e) ≤ ((2 ^ 53 : Int) : ℝ) := by
    calc x * 2 ^ (52 - e) ≤ 2 ^ (e + 1) * 2 ^ (52 - e) := by gcongr
      _ = ((2 ^ 53 : Int) : ℝ) := by rw [← zpow_add₀ (by norm_num), show e + 1 + (52 - e) = 53 by ring]; norm_num
  have m1 := round_mono l1
  have m2 := round_mono l2
  rw [round_intCast] at m1 m2
  have m1' : ((2 ^ 52 : Int) : ℝ) ≤ round (x * 2 ^ (52 - e)) := by exact_mod_cast m1
  have m2' : (round (x * 2 ^ (52 - e)) : ℝ) ≤ ((2 ^ 53 : Int) : ℝ) := by exact_mod_cast m2
  constructor
  · calc (2 : ℝ) ^ e = ((2 ^ 52 : Int) : ℝ) * 2 ^ (e - 52) := by
          rw [show ((2 ^ 52 : Int) : ℝ) = 2 ^ (52 : Int) by norm_num, ← zpow_add₀ (by norm_num)]; congr 1; ring
      _ ≤ _ := by gcongr
  · calc _ ≤ ((2 ^ 53 : Int) : ℝ) * 2 ^ (e - 52) := by gcongr
      _ = (2 : ℝ) ^ (e + 1) := by
          rw [show ((2 ^ 53 : Int) : ℝ) = 2 ^ (53 : Int) by norm_num, ← zpow_add₀ (by norm_num)]; congr 1; ring

theorem near53_mono {x y : ℝ} (h : 0 < x) (hxy : x ≤ y) : near53 x ≤ near53 y := by
  have hle := Int.log_mono_right (b := 2) h hxy
  have : (near53 x : ℝ) ≤ near53 y := by
    rcases eq_or_lt_of_le hle with he | hlt
    · rw [near53_cast, near53_cast, he]
      have : round (x * (2 : ℝ) ^ (52 - Int.log 2 y)) ≤ round (y * (2 : ℝ) ^ (52 - Int.log 2 y)) := round_mono (by gcongr)
      have : (round (x * (2 : ℝ) ^ (52 - Int.log 2 y)) : ℝ) ≤ round (y * (2 : ℝ) ^ (52 - Int.log 2 y)) := by exact_mod_cast this
      gcongr
    · refine le_trans (near53_bounds h).2 (le_trans ?_ (near53_bounds (lt_of_lt_of_le h hxy)).1)
      exact zpow_le_zpow_right₀ (by norm_num) hlt
  exact_mod_cast this

theorem near53_pos {x : ℝ} (h : 0 < x) : 0 < near53 x := by
  have := (near53_bounds h).1
  have h2 : (0 : ℝ) < near53 x := lt_of_lt_of_le (by positivity) this
  exact_mod_cast h2

theorem fl53_mono {x y : ℝ} (h : x ≤ y) : fl53 x ≤ fl53 y := by
  unfold fl53
  by_cases hx : 0 < x
  · rw [if_pos hx, if_pos (lt_of_lt_of_le hx h)]
    exact near53_mono hx h
  · rw [if_neg hx]
    by_cases hx2 : x < 0
    · rw [if_pos hx2]
      have hn : -near53 (-x) ≤ 0 := neg_nonpos.mpr (near53_pos (by linarith)).le
      by_cases hy : 0 < y
      · rw [if_pos hy]
        exact le_trans hn (near53_pos hy).le
      · rw [if_neg hy]
        by_cases hy2 : y < 0
        · rw [if_pos hy2]
          exact neg_le_neg (near53_mono (by linarith) (by linarith))
        · rw [if_neg hy2]
          exact hn
    · rw [if_neg hx2]
      by_cases hy : 0 < y
      · rw [if_pos hy]
        exact (near53_pos hy).le
      · rw [if_neg hy, if_neg (by linarith)]

theorem fl53_err (x : ℝ) : |(fl53 x : ℝ) - x| ≤ 2⁻¹ ^ 53 * |x| := by
  unfold fl53
  split
  · rw [abs_of_pos ‹0 < x›]; exact near53_err ‹_›
  · split
    · have := near53_err (x := -x) (by linarith)
      rw [abs_of_neg ‹x < 0›]
      rw [abs_sub_comm] at this
      push_cast
      convert this using 2
      ring
    · have : x = 0 := by linarith
      subst this; simp

theorem fl53_int (n : Nat) (hn : n ≤ 2 ^ 53) : fl53 n = n := by
  unfold fl53
  rcases Nat.eq_zero_or_pos n with rfl | h0
  · simp
  · have h0' : (0 : ℝ) < n := by exact_mod_cast h0
    rw [if_pos h0']
    have : (near53 n : ℝ) = n := by
      rw [near53_cast, Int.log_natCast]
      obtain ⟨e, he⟩ : ∃ e, e = Nat.log 2 n := ⟨_, rfl⟩
      rw [← he]
      have h1 : 2 ^ e ≤ n := by rw [he]; exact Nat.pow_log_le_self 2 (by omega)
      have hk : ∃ k : Int, (n : ℝ) * 2 ^ (52 - (e : Int)) = k := by
        by_cases h : e ≤ 52
        · refine ⟨n * 2 ^ (52 - e), ?_⟩
          rw [show (52 : Int) - e = ((52 - e : Nat) : Int) by omega, zpow_natCast]
          push_cast; rfl
        · have h2 : 2 ^ 53 ≤ 2 ^ e := Nat.pow_le_pow_right (by norm_num) (by omega)
          have h3 : n = 2 ^ 53 := by omega
          have h4 : e = 53 := by
            rw [he, h3]; exact Nat.log_pow (by norm_num) 53
          refine ⟨2 ^ 52, ?_⟩
          rw [h3, h4]; norm_num
      obtain ⟨k, hk⟩ := hk
      rw [hk, round_intCast, ← hk, mul_assoc, ← zpow_add₀ (by norm_num)]
      simp
    exact_mod_cast this

/-- Doubles without underflow and overflow, and correctly rounded logarithms. -/
noncomputable def doubles : Rounding where
  fl := fl53
  lg x := fl53 (Real.logb 2 x)
  lgInt k := fl53 (Real.logb 2 k)
  u := 2⁻¹ ^ 53
  w := 2⁻¹ ^ 53
  least := 2⁻¹ ^ 1022
  N := 2 ^ 53
  u_pos := by positivity
  u_le := by norm_num
  w_nonneg := by positivity
  least_le := by
    have : (2⁻¹ : ℝ) ^ 1022 ≤ 2⁻¹ ^ 60 := pow_le_pow_of_le_one (by norm_num) (by norm_num) (by norm_num)
    calc (2⁻¹ : ℝ) ^ 1022 * (4 * ((2 ^ 53 : Nat) : ℝ)) ≤ 2⁻¹ ^ 60 * (4 * ((2 ^ 53 : Nat) : ℝ)) := by gcongr
      _ ≤ 1 := by norm_num
  least_pos := by positivity
  N_pos := by norm_num
  N_le := by norm_num
  mono _ _ h := fl53_mono h
  near x _ := fl53_err x
  int := fl53_int
  lg_mono x y hx h := fl53_mono (Real.logb_le_logb_of_le (by norm_num) (by exact_mod_cast hx) (by exact_mod_cast h))
  lg_near x _ := fl53_err _

end Demo

end Witt
