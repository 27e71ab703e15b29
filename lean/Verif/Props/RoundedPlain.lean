import Verif.Props.RoundedBits
import Verif.Props.PlainAllowance
/-
C103 with `cn_optimize=False`: RIPPER's decisions by description length, made with rounded numbers.
-/
namespace Witt
open Spec

namespace Spec
/-- The error of a description length computed with `cn_optimize=False`, for at most `m` rules (at most `k` with the initial ones),
`n` possible conditions and `e` rows: a row counts once for each rule that covers it. -/
def plainLengthError (r : Rounding) (m n k e : Nat) : ℝ := lengthError r m n (3 * ((k + 1) * e))

/-- `out` is, up to `δ` bits, what simplification by a description length leaves of `rules`: the first rule, and later ones in
order; a rule that is kept increases the length of the rules before it by at most `δ`, and a rule that is dropped lowers it by less
than `δ`. -/
def NearlySimplified (δ : ℝ) (bits : List (List Cond) → ℝ) (rules out : List (List Cond)) : Prop :=
  ∃ kept : Nat → Bool, out = ((List.range rules.length).filter kept).filterMap (fun i => rules[i]?) ∧ kept 0 = true ∧
    ∀ i, 0 < i → i < rules.length →
      (kept i = true → bits (rules.take (i + 1)) ≤ bits (rules.take i) + δ) ∧
      (kept i = false → bits (rules.take i) < bits (rules.take (i + 1)) + δ)
end Spec

variable {r : Rounding} {m n : Nat} {cands : List Cond} {hp : Hyper} {R : PyRandom} {fuel : Nat}

/-! ### the bits of exceptions -/

theorem timesCovered_le (rules : List (List Cond)) (d : Frame) : timesCovered rules d ≤ (rules.length + 1) * d.rows.length := by
  unfold timesCovered
  split
  · nlinarith [Nat.zero_le (rules.length * d.rows.length)]
  · have : ∀ rs : List (List Cond), (rs.map (fun r => d.rows.countP (fun row => decide (FiresC row r)))).sum ≤ rs.length * d.rows.length := by
      intro rs
      induction rs with
      | nil => simp
      | cons r rs ih =>
        simp only [List.map_cons, List.sum_cons, List.length_cons]
        have : d.rows.countP (fun row => decide (FiresC row r)) ≤ d.rows.length := List.countP_le_length
        rw [Nat.add_mul]
        omega
    have := this rules
    rw [Nat.add_mul]
    omega

/-- A generalised binomial coefficient is at most two to the sum of its arguments. -/
theorem ring_choose_le (z : Int) (k : Nat) : Ring.choose z k ≤ 2 ^ (z.natAbs + k) := by
  rcases Int.le_total 0 z with hz | hz
  · obtain ⟨a, rfl⟩ := Int.eq_ofNat_of_zero_le hz
    rw [Ring.choose_natCast]
    have h1 : a.choose k ≤ 2 ^ a := Nat.choose_le_two_pow a k
    have h2 : 2 ^ a ≤ 2 ^ (a + k) := Nat.pow_le_pow_right (by norm_num) (by omega)
    simp only [Int.natAbs_natCast]
    exact_mod_cast h1.trans h2
  · obtain ⟨a, ha⟩ := Int.eq_ofNat_of_zero_le (neg_nonneg.mpr hz)
    obtain rfl : z = -(a : Int) := by omega
    rw [Ring.choose_neg]
    have habs : ∀ x : Int, Int.negOnePow k • x ≤ |x| := by
      intro x
      rcases Int.even_or_odd (k : Int) with h | h
      · rw [Int.negOnePow_even _ h, one_smul]; exact le_abs_self x
      · rw [Int.negOnePow_odd _ h, Units.neg_smul, one_smul]; exact neg_le_abs x
    refine (habs _).trans ?_
    simp only [Int.natAbs_neg, Int.natAbs_natCast]
    rcases Nat.eq_zero_or_pos (a + k) with h0 | h0
    · obtain ⟨rfl, rfl⟩ : a = 0 ∧ k = 0 := by omega
      simp
    · have : (a : Int) + k - 1 = ((a + k - 1 : Nat) : Int) := by
        rw [Nat.cast_sub h0]; push_cast; rfl
      rw [this, Ring.choose_natCast, abs_of_nonneg (by positivity)]
      have h1 : (a + k - 1).choose k ≤ 2 ^ (a + k - 1) := Nat.choose_le_two_pow _ k
      have h2 : 2 ^ (a + k - 1) ≤ 2 ^ (a + k) := Nat.pow_le_pow_right (by norm_num) (by omega)
      exact_mod_cast h1.trans h2

theorem log2_err_int (hf : FineFor r m n) {c : Int} {a : Nat} {v : Rat} (ha : c ≤ 2 ^ a)
    (h : @log2Exp (Arith.rounded r) c = .ok v) :
    |(v : ℝ) - Real.logb 2 c| ≤ opError r * a ∧ Real.logb 2 c ≤ a ∧ 0 ≤ Real.logb 2 c := by
  have hc : 0 < c := by
    unfold log2Exp at h
    split at h
    · cases h
    · omega
  obtain ⟨k, rfl⟩ := Int.eq_ofNat_of_zero_le hc.le
  obtain ⟨h1, h2⟩ := log2_err hf (c := k) (a := a) (by exact_mod_cast ha) h
  refine ⟨by simpa using h1, by simpa using h2, ?_⟩
  have := logb_nat_nonneg k
  simpa using this

theorem exceptionsDf_err (hf : FineFor r m n) {k : Nat} {rules : List (List Cond)} (hk : rules.length ≤ k) {pos neg : Frame} {v : Rat}
    (h : @exceptionsDf (Arith.rounded r) rules pos neg = .ok v) :
    |(v : ℝ) - plainExceptionBits rules pos neg| ≤ 7 * opError r * (((3 * ((k + 1) * (pos.rows.length + neg.rows.length)) : Nat) : ℝ) + 1) ∧
      0 ≤ plainExceptionBits rules pos neg ∧
      plainExceptionBits rules pos neg ≤ ((3 * ((k + 1) * (pos.rows.length + neg.rows.length)) : Nat) : ℝ) := by
  unfold exceptionsDf at h
  obtain ⟨tp, h1, h⟩ := bind_ok_iff.mp h
  obtain ⟨fp, h2, h⟩ := bind_ok_iff.mp h
  obtain ⟨x, hx, h⟩ := bind_ok_iff.mp h
  obtain ⟨y, hy, h⟩ := bind_ok_iff.mp h
  simp only [pure_eq_ok, Except.ok.injEq] at h
  have ev : v = r.fl ((x : ℝ) + y) := by
    rw [← h]
    show r.fl _ = _
    norm_num
  clear h
  have e1 := rulesNumCovered_times h1
  have e2 := rulesNumCovered_times h2
  have l1 : tp ≤ (k + 1) * pos.rows.length := by
    rw [e1]; exact (timesCovered_le _ _).trans (Nat.mul_le_mul_right _ (by omega))
  have l2 : fp ≤ (k + 1) * neg.rows.length := by
    rw [e2]; exact (timesCovered_le _ _).trans (Nat.mul_le_mul_right _ (by omega))
  rw [nCr_choose] at hx hy
  unfold plainExceptionBits
  simp only
  rw [← e1, ← e2]
  have g1 : pos.rows.length ≤ (k + 1) * pos.rows.length := Nat.le_mul_of_pos_left _ (by omega)
  have g2 : neg.rows.length ≤ (k + 1) * neg.rows.length := Nat.le_mul_of_pos_left _ (by omega)
  have g3 : 3 * ((k + 1) * (pos.rows.length + neg.rows.length)) =
      3 * ((k + 1) * pos.rows.length) + 3 * ((k + 1) * neg.rows.length) := by ring
  generalize pos.rows.length = P at *
  generalize neg.rows.length = N at *
  rw [g3]
  generalize (k + 1) * P = P' at *
  generalize (k + 1) * N = N' at *
  have a0 := ring_choose_le ((tp : Int) + fp) fp
  have b0 := ring_choose_le ((P : Int) + N - (tp + fp)) ((P : Int) - tp).toNat
  simp only [Int.toNat_natCast] at hx ⊢
  have a0' : Ring.choose ((tp : Int) + fp) fp ≤ 2 ^ (tp + fp) := by
    have e : (tp : Int) + fp = ((tp + fp : Nat) : Int) := by push_cast; rfl
    rw [e, Ring.choose_natCast]
    exact_mod_cast Nat.choose_le_two_pow _ _
  obtain ⟨a1, a2, a3⟩ := log2_err_int hf a0' hx
  obtain ⟨b1, b2, b3⟩ := log2_err_int hf b0 hy
  generalize hX : Real.logb 2 ((Ring.choose ((tp : Int) + fp) fp : Int) : ℝ) = X at *
  generalize hY : Real.logb 2 ((Ring.choose ((P : Int) + N - (tp + fp)) ((P : Int) - tp).toNat : Int) : ℝ) = Y at *
  obtain ⟨s, hs⟩ : ∃ s : Nat, s = ((P : Int) + N - (tp + fp)).natAbs + ((P : Int) - tp).toNat := ⟨_, rfl⟩
  rw [← hs] at b1 b2
  have hsum : tp + fp + s ≤ 3 * P' + 3 * N' := by omega
  clear hX hY hx hy a0 b0 a0' e1 e2 h1 h2
  have hsum' : ((tp + fp : Nat) : ℝ) + s ≤ ((3 * P' + 3 * N' : Nat) : ℝ) := by exact_mod_cast hsum
  have he := opError_pos r
  have hsm := hf.small
  generalize hee : opError r = e at *
  generalize ((tp + fp : Nat) : ℝ) = q at *
  generalize ((3 * P' + 3 * N' : Nat) : ℝ) = E at *
  have hm0 : (0 : ℝ) ≤ m := Nat.cast_nonneg m
  have e1 : e ≤ 1 / 1000 := by
    have := mul_nonneg he.le hm0
    linarith
  have hE0 : 0 ≤ E := by linarith
  refine ⟨?_, by linarith, by linarith⟩
  have sum : |(x : ℝ) + y - (X + Y)| ≤ e * (E + 1) := by
    have := mul_le_mul_of_nonneg_left hsum' he.le
    rw [abs_le] at a1 b1 ⊢
    constructor <;> linarith [a1.1, a1.2, b1.1, b1.2]
  have eM : e * (E + 1) ≤ 1 / 1000 * (E + 1) := mul_le_mul_of_nonneg_right e1 (by linarith)
  have f := fl_err r (x := (x : ℝ) + y) (B := 2 * (E + 1)) (by
    rw [abs_le] at sum ⊢
    constructor <;> linarith [sum.1, sum.2]) (by linarith)
  rw [hee] at f
  rw [ev]
  rw [abs_le] at f sum ⊢
  constructor <;> linarith [f.1, f.2, sum.1, sum.2]

/-- C103 with `cn_optimize=False`. The description length of a ruleset of at most `m` rules, computed with rounded numbers, is within
`plainLengthError` of the true one. -/
theorem C103_plain_length (r : Rounding) (m n : Nat) (hf : FineFor r m n) (rules : List (List Cond)) (hm : rules.length ≤ m)
    (pos neg : Frame) (v : Rat) (h : @totalBitsDf (Arith.rounded r) n rules pos neg = .ok v) :
    |(v : ℝ) - plainBits n rules pos neg| ≤ plainLengthError r m n m (pos.rows.length + neg.rows.length) := by
  unfold totalBitsDf at h
  obtain ⟨x, hx, h⟩ := bind_ok_iff.mp h
  obtain ⟨y, hy, h⟩ := bind_ok_iff.mp h
  simp only [pure_eq_ok, Except.ok.injEq] at h
  obtain ⟨h1, h2⟩ := theorySum_err hf (rules := rules) (i := 0) (t := 0) (v := x) (T := 0) (by omega) le_rfl (by simp) (by simp) hx
  obtain ⟨h4, h5, h6⟩ := exceptionsDf_err hf hm hy
  simp only [Nat.cast_zero, zero_add] at h1 h2
  have key := (total_err hf (P := 3 * ((m + 1) * (pos.rows.length + neg.rows.length))) (Q := 0) hm (theoryBits_nonneg _ _) h2 h1
    h5 (by simpa using h6) (by simpa using h4)).1
  have e : v = r.fl ((x : ℝ) + y) := by
    rw [← h]
    show r.fl _ = _
    norm_num
  rw [e]
  exact key

/-- C103 with `cn_optimize=False`. With the precision of doubles and logarithms that err by at most one unit in the last place,
`plainLengthError` is below a ten-thousandth of a bit for up to 100 rules, 10 000 possible conditions and ten million rows. -/
theorem C103_plain_doubles (r : Rounding) (hu : r.u ≤ 2⁻¹ ^ 53) (hw : r.w ≤ 2⁻¹ ^ 52) (hl : r.least ≤ 2⁻¹ ^ 1022) (hN : 2 ^ 53 ≤ r.N)
    (hlog : ∀ k : Nat, 0 < k → |(r.lgInt k : ℝ) - Real.logb 2 k| ≤ r.w * Real.logb 2 k) (m n k e : Nat) (hm : m ≤ 100)
    (hn : n ≤ 10000) (hk : k ≤ 100) (he : e ≤ 10000000) : FineFor r m n ∧ plainLengthError r m n k e ≤ 1 / 10000 := by
  refine ⟨(C103_doubles r hu hw hl hN hlog m n 0 hm hn (by omega)).1, ?_⟩
  have h1 : opError r ≤ 2⁻¹ ^ 51 := by
    have h2 : (2⁻¹ : ℝ) ^ 1022 ≤ 2⁻¹ ^ 53 := pow_le_pow_of_le_one (by norm_num) (by norm_num) (by norm_num)
    have h3 := hl.trans h2
    unfold opError
    norm_num at hu hw h3 ⊢
    linarith
  have h0 := opError_pos r
  have hE : 3 * ((k + 1) * e) ≤ 3 * (101 * 10000000) := Nat.mul_le_mul_left _ (Nat.mul_le_mul (by omega) he)
  have hm' : (m : ℝ) ≤ 100 := by exact_mod_cast hm
  have hn' : (n : ℝ) ≤ 10000 := by exact_mod_cast hn
  have hE' : ((3 * ((k + 1) * e) : Nat) : ℝ) ≤ 3 * (101 * 10000000) := by exact_mod_cast hE
  have hm0 : (0 : ℝ) ≤ m := Nat.cast_nonneg m
  have hn0 : (0 : ℝ) ≤ n := Nat.cast_nonneg n
  unfold plainLengthError lengthError
  generalize 3 * ((k + 1) * e) = E at *
  have hE0 : (0 : ℝ) ≤ E := Nat.cast_nonneg E
  have hm2 : (m : ℝ) ^ 2 ≤ 100 ^ 2 := pow_le_pow_left₀ hm0 hm' 2
  have hnm : 60 * (n : ℝ) * (m : ℝ) ^ 2 ≤ 60 * 10000 * 100 ^ 2 :=
    mul_le_mul (by linarith) hm2 (by positivity) (by positivity)
  have : opError r * (60 * (n : ℝ) * (m : ℝ) ^ 2 + 20 * ((E : ℝ) + 1)) ≤ 2⁻¹ ^ 51 * (60 * 10000 * 100 ^ 2 + 20 * (3 * (101 * 10000000) + 1)) :=
    mul_le_mul h1 (by linarith) (by positivity) (by positivity)
  refine this.trans ?_
  norm_num

theorem bestSubsetDf_exact [Arith] {n : Nat} {rules out : List (List Cond)} {pos neg : Frame} {total : Rat}
    (h : bestSubsetDf n rules pos neg = .ok (out, total)) :
    ∃ dl : Nat → Rat,
      (∀ i < rules.length, totalBitsDf n (rules.take (i + 1)) pos neg = .ok (dl i)) ∧
      out = ((List.range rules.length).filter (fun i => decide (i = 0 ∨ dl i ≤ dl (i - 1)))).filterMap
        (fun i => rules[i]?) ∧
      totalBitsDf n out pos neg = .ok total := by
  unfold bestSubsetDf at h
  obtain ⟨dls, hd, h⟩ := bind_ok_iff.mp h
  obtain ⟨t, ht, h⟩ := bind_ok_iff.mp h
  simp only [pure_eq_ok, Except.ok.injEq, Prod.mk.injEq] at h
  obtain ⟨hout, rfl⟩ := h
  have hlen := subsetDlsDf_length rules _ _ _ hd
  refine ⟨fun i => dls[i]?.getD 0, ?_, by rw [← hout, mdlFilter_positions rules dls hlen], by rw [← hout]; exact ht⟩
  intro i hi
  have := subsetDlsDf_spec rules _ [] dls rfl hd i (dls[i]?.getD 0) (by
    rw [List.getElem?_eq_getElem (by omega)]; rfl)
  simpa using this

/-- C103 with `cn_optimize=False`, simplification. With rounded numbers, simplifying at most `m` rules by description length leaves,
up to twice the error, what it would leave by true lengths; the number reported is within the error of the length of the rules kept. -/
theorem C103_plain_simplification (r : Rounding) (m n : Nat) (hf : FineFor r m n) (rules out : List (List Cond)) (hm : rules.length ≤ m)
    (pos neg : Frame) (total : Rat) (h : @bestSubsetDf (Arith.rounded r) n rules pos neg = .ok (out, total)) :
    let ε := plainLengthError r m n m (pos.rows.length + neg.rows.length)
    NearlySimplified (2 * ε) (fun rs => plainBits n rs pos neg) rules out ∧ |(total : ℝ) - plainBits n out pos neg| ≤ ε := by
  intro ε
  obtain ⟨dl, h1, h2, h3⟩ := @bestSubsetDf_exact (Arith.rounded r) n rules out pos neg total h
  have hdl : ∀ i < rules.length, |(dl i : ℝ) - plainBits n (rules.take (i + 1)) pos neg| ≤ ε := fun i hi =>
    C103_plain_length r m n hf _ (le_trans (by simp) hm) pos neg _ (h1 i hi)
  have hout : out.Sublist rules := @bestSubsetDf_sublist (Arith.rounded r) _ _ _ _ _ _ h
  refine ⟨⟨fun i => decide (i = 0 ∨ dl i ≤ dl (i - 1)), h2, by simp, ?_⟩,
    C103_plain_length r m n hf _ (le_trans hout.length_le hm) pos neg _ h3⟩
  intro i hi0 hi
  obtain ⟨j, rfl⟩ : ∃ j, i = j + 1 := ⟨i - 1, by omega⟩
  obtain ⟨a1, a2⟩ := abs_le.mp (hdl (j + 1) hi)
  obtain ⟨b1, b2⟩ := abs_le.mp (hdl j (by omega))
  simp only [Nat.succ_ne_zero, false_or, Nat.add_sub_cancel, decide_eq_true_eq, decide_eq_false_iff_not, not_le]
  constructor
  · intro hle
    have : (dl (j + 1) : ℝ) ≤ dl j := by exact_mod_cast hle
    linarith
  · intro hlt
    have : (dl j : ℝ) < dl (j + 1) := by exact_mod_cast hlt
    linarith

/-- The length an alternative for a rule counts: `odl` if it prints like the rule, else that of `simplified`. -/
noncomputable def Spec.countedBits (n : Nat) (rule : List Cond) (odl : ℝ) (pos neg : Frame) (alt : Option (List Cond))
    (simplified : List (List Cond)) : ℝ :=
  @ite _ (∃ r, alt = some r ∧ PrintsAs r rule) (Classical.dec _) odl (plainBits n simplified pos neg)

/-- C103 with `cn_optimize=False`, the choice for one rule. With rounded numbers, whatever examples the choice is made on: the
alternatives to the rule are a replacement (cut from a rule grown from nothing) and a revision (cut from a rule grown from it); each
counts the length of the ruleset with it in place of the rule, simplified up to twice the error; and the one chosen of the three has,
up to twice the error, the least length on all training rows. The rule itself counts the description length `odl`, of which the number
`x` passed in is within the error (in a pass, that of the simplified ruleset). -/
theorem C103_plain_choice (r : Rounding) (m : Nat) (cands : List Cond) (hf : FineFor r m cands.length) (hp : Hyper) (fuel : Nat)
    (rules : List (List Cond)) (hm : rules.length ≤ m) (i : Nat) (rule best : List Cond) (hrule : rules[i]? = some rule) (pos neg : Frame)
    (x : Rat) (odl : ℝ) (hx : |(x : ℝ) - odl| ≤ plainLengthError r m cands.length m (pos.rows.length + neg.rows.length))
    (growPos prunePos growNeg pruneNeg : Frame)
    (h : @optimizeChoiceDf (Arith.rounded r) fuel cands hp rules x i rule pos neg growPos prunePos growNeg pruneNeg = .ok best) :
    let ε := plainLengthError r m cands.length m (pos.rows.length + neg.rows.length)
    ∃ grownRep grownRev replacement revision simpRep simpRev,
      @growRule (Arith.rounded r) fuel cands { minRuleSamples := hp.lim.minRuleSamples } growPos growNeg [] = .ok grownRep ∧
      @growRule (Arith.rounded r) fuel cands { minRuleSamples := hp.lim.minRuleSamples } growPos growNeg rule = .ok grownRev ∧
      (∀ r, replacement = some r → r <+: grownRep) ∧ (∀ r, revision = some r → r <+: grownRev) ∧
      (¬ (∃ r, replacement = some r ∧ PrintsAs r rule) →
        NearlySimplified (2 * ε) (fun rs => plainBits cands.length rs pos neg) (exchanged rules i replacement) simpRep) ∧
      (¬ (∃ r, revision = some r ∧ PrintsAs r rule) →
        NearlySimplified (2 * ε) (fun rs => plainBits cands.length rs pos neg) (exchanged rules i revision) simpRev) ∧
      NearlyLeast (2 * ε) [(some rule, odl),
        (replacement, countedBits cands.length rule odl pos neg replacement simpRep),
        (revision, countedBits cands.length rule odl pos neg revision simpRev)] (some best) := by
  intro ε
  let _ : Arith := Arith.rounded r
  have _ := C81_rounded_lawful r
  have hi : i < rules.length := (List.getElem?_eq_some_iff.mp hrule).1
  unfold optimizeChoiceDf at h
  obtain ⟨gRep, h1, h⟩ := bind_ok_iff.mp h
  obtain ⟨prRep, h2, h⟩ := bind_ok_iff.mp h
  obtain ⟨gRev, h3, h⟩ := bind_ok_iff.mp h
  obtain ⟨prRev, h4, h⟩ := bind_ok_iff.mp h
  obtain ⟨repDl, h5, h⟩ := bind_ok_iff.mp h
  obtain ⟨revDl, h6, h⟩ := bind_ok_iff.mp h
  obtain ⟨k, h7, h⟩ := bind_ok_iff.mp h
  have bits : ∀ (o : Option (List Cond)) (d : Rat),
      (if (match o with | none => false | some r => condsEq r rule) = true then (.ok x : Except PyErr Rat)
        else do return (← bestSubsetDf cands.length (iReplaced rules i o) pos neg).2) = .ok d →
      ∃ simp, (¬ (∃ r, o = some r ∧ PrintsAs r rule) →
          NearlySimplified (2 * ε) (fun rs => plainBits cands.length rs pos neg) (exchanged rules i o) simp) ∧
        |(d : ℝ) - countedBits cands.length rule odl pos neg o simp| ≤ ε := by
    intro o d hd
    have main : ∀ d : Rat, (¬ ∃ r, o = some r ∧ PrintsAs r rule) →
        ((do return (← bestSubsetDf cands.length (iReplaced rules i o) pos neg).2 : Except PyErr Rat) = .ok d) →
        ∃ simp, (¬ (∃ r, o = some r ∧ PrintsAs r rule) →
          NearlySimplified (2 * ε) (fun rs => plainBits cands.length rs pos neg) (exchanged rules i o) simp) ∧
        |(d : ℝ) - countedBits cands.length rule odl pos neg o simp| ≤ ε := by
      intro d hno hd
      obtain ⟨⟨out, t⟩, hb, hd⟩ := bind_ok_iff.mp hd
      simp only [pure_eq_ok, Except.ok.injEq] at hd
      subst hd
      rw [iReplaced_eq hi] at hb
      obtain ⟨g1, g2⟩ := C103_plain_simplification r m _ hf _ _ ((exchanged_length rules i o).trans hm) pos neg t hb
      refine ⟨out, fun _ => g1, ?_⟩
      unfold countedBits
      rw [if_neg hno]
      exact g2
    cases o with
    | none => exact main d (by rintro ⟨r, hr, _⟩; cases hr) hd
    | some s =>
      by_cases hr : condsEq s rule = true
      · simp only [hr, if_true, Except.ok.injEq] at hd
        subst hd
        have hp : ∃ r, some s = some r ∧ PrintsAs r rule := ⟨s, rfl, condsEq_prints.mp hr⟩
        refine ⟨[], fun hn => absurd hp hn, ?_⟩
        unfold countedBits
        rw [if_pos hp]; exact hx
      · simp only [hr, if_false, Bool.false_eq_true] at hd
        refine main d ?_ hd
        rintro ⟨r', hr', he⟩
        injection hr' with hr'
        subst hr'
        exact hr (condsEq_prints.mpr he)
  obtain ⟨simpRep, s1, s2⟩ := bits _ _ h5
  obtain ⟨simpRev, s3, s4⟩ := bits _ _ h6
  refine ⟨gRep, gRev, prRep, prRev, simpRep, simpRev, h1, h3, ?_, ?_, s1, s3, nearly_least hx s2 s4 h7 ?_⟩
  · intro r hr
    rw [hr] at h2
    exact (pruneRuleOn_prefix (iReplaced_getElem _ _ _ hi) h2).1
  · intro r hr
    rw [hr] at h4
    exact (pruneRuleOn_prefix (iReplaced_getElem _ _ _ hi) h4).1
  · split at h
    · simp only [pure_eq_ok, Except.ok.injEq] at h; exact Or.inl ⟨rfl, h.symm⟩
    · cases prRep with
      | none => cases h
      | some r => simp only [pure_eq_ok, Except.ok.injEq] at h; subst h; exact Or.inr (Or.inl ⟨rfl, rfl⟩)
    · rename_i hn0 hn1
      cases prRev with
      | none => cases h
      | some r =>
        simp only [pure_eq_ok, Except.ok.injEq] at h; subst h
        exact Or.inr (Or.inr ⟨fun e => hn0 e, fun e => hn1 e, rfl⟩)

/-- C103 with `cn_optimize=False`, a whole pass. With rounded numbers, an optimisation pass over at most `m` rules returns as many rules
as it was given; each is the rule at the same position or one of three alternatives for it of least counted length up to twice the
error, where the rule itself counts that of the ruleset, simplified up to twice the error, and an alternative that of the ruleset with
it in place of the rule, simplified likewise. -/
theorem C103_plain_pass (r : Rounding) (m : Nat) (cands : List Cond) (hf : FineFor r m cands.length) (hp : Hyper) (fuel : Nat)
    (R : PyRandom) (seed : Option Int) (rules out : List (List Cond)) (hm : rules.length ≤ m) (pos neg : Frame) (g g' : R.G)
    (h : @optimizeDf (Arith.rounded r) fuel R cands hp seed rules pos neg g = .ok (out, g')) :
    let ε := plainLengthError r m cands.length m (pos.rows.length + neg.rows.length)
    let near := NearlySimplified (2 * ε) (fun rs => plainBits cands.length rs pos neg)
    out.length = rules.length ∧ ∃ simplified, near rules simplified ∧
      ∀ j r', out[j]? = some r' → ∃ rule, rules[j]? = some rule ∧ (r' = rule ∨ ∃ replacement revision simpRep simpRev,
        let odl := plainBits cands.length simplified pos neg
        (¬ (∃ r, replacement = some r ∧ PrintsAs r rule) → near (exchanged rules j replacement) simpRep) ∧
        (¬ (∃ r, revision = some r ∧ PrintsAs r rule) → near (exchanged rules j revision) simpRev) ∧
        NearlyLeast (2 * ε) [(some rule, odl),
          (replacement, countedBits cands.length rule odl pos neg replacement simpRep),
          (revision, countedBits cands.length rule odl pos neg revision simpRev)] (some r')) := by
  intro ε near
  obtain ⟨simplified, x, hx, h1, h2⟩ := @optimizeDf_spec (Arith.rounded r) _ _ _ _ _ _ _ _ _ _ _ h
  obtain ⟨g1, hodl⟩ := C103_plain_simplification r m _ hf rules simplified hm pos neg x hx
  refine ⟨h1, simplified, g1, fun j r' hj => ?_⟩
  obtain ⟨rule, hr, h3⟩ := h2 j r' hj
  refine ⟨rule, hr, h3.imp_right ?_⟩
  rintro ⟨a, b, c, d, hc⟩
  obtain ⟨_, _, rep, rev, s1, s2, -, -, -, -, n1, n2, hn⟩ :=
    C103_plain_choice r m cands hf hp fuel rules hm j rule r' hr pos neg x _ hodl a b c d hc
  exact ⟨rep, rev, s1, s2, n1, n2, hn⟩

/-! ### the growing phase -/

theorem total_err_of (hf : FineFor r m n) {k E : Nat} (hk : k ≤ m) {t v : Rat} {T X : ℝ} (hT0 : 0 ≤ T)
    (hT : T ≤ 2 * n * k) (ht : |(t : ℝ) - T| ≤ 42 * opError r * n * m * k) (hX0 : 0 ≤ X) (hX : X ≤ E)
    (hv : |(v : ℝ) - X| ≤ 7 * opError r * (E + 1)) :
    |(r.fl ((t : ℝ) + v) : ℝ) - (T + X)| ≤ lengthError r m n E ∧
      |(t : ℝ) + v| ≤ 3 * (n * m) + 2 * ((E : ℝ) + 1) ∧ |(r.fl ((t : ℝ) + v) : ℝ)| ≤ 3 * (n * m) + 2 * ((E : ℝ) + 1) := by
  simpa using total_err (P := E) (Q := 0) hf hk hT0 hT ht hX0 (by simpa using hX) (by simpa using hv)

/-- What holds of every state of the growing phase (`cn_optimize=False`), with at most `m` rules added. -/
structure PlainNear (r : Rounding) (m E n : Nat) (a : Rat) (init : List (List Cond)) (pos neg : Frame)
    (s : FrameRipSt R) (added : List (List Cond)) : Prop where
  rules : s.rules = init ++ added
  first : added = [] → s.dl = none
  theory : theoryBits n added ≤ 2 * n * added.length
  dl : added ≠ [] → ∃ (t l : Rat) (tot : Nat → Rat), s.dl = some (t, l) ∧
    |(t : ℝ) - theoryBits n added| ≤ 42 * opError r * n * m * added.length ∧
    (∀ j, 1 ≤ j → j ≤ added.length → |(tot j : ℝ) - plainGrowBits n init added pos neg j| ≤ lengthError r m n E ∧
      |(tot j : ℝ)| ≤ 3 * (n * m) + 2 * ((E : ℝ) + 1)) ∧
    (∃ j, 1 ≤ j ∧ j ≤ added.length ∧ l = tot j) ∧ ∀ j, 1 ≤ j → j ≤ added.length → l ≤ tot j
  diff : ∃ d, |(s.diff : ℝ) - d| ≤ 3 * lengthError r m n E ∧
    Excess (plainGrowBits n init added pos neg) added.length d
  past : ∀ i < added.length, ∃ d, Excess (plainGrowBits n init added pos neg) i d ∧
    d ≤ (a : ℝ) + 3 * lengthError r m n E

theorem FrameRipReach.plainNear (hf : FineFor r m cands.length) {init : List (List Cond)} {pos neg : Frame} {g : R.G} {E : Nat}
    (hE : E = 3 * ((init.length + m + 1) * (pos.rows.length + neg.rows.length))) {s : FrameRipSt R}
    (h : @FrameRipReach (Arith.rounded r) fuel R cands hp pos neg ⟨init, pos, neg, none, 0, g⟩ s)
    (hm : s.rules.length ≤ init.length + m) : ∃ added, PlainNear r m E cands.length hp.dlAllowance init pos neg s added := by
  let _ : Arith := Arith.rounded r
  have _ := C81_rounded_lawful r
  have hε := lengthError_pos r m cands.length E
  induction h with
  | start =>
    refine ⟨[], ⟨by simp, fun _ => rfl, by simp [theoryBits], by simp, ⟨0, ?_, fun _ => rfl, by simp⟩, by simp⟩⟩
    simpa using hε.le
  | @add s s' rule hs ha ih =>
    have hlen' : s'.rules.length = s.rules.length + 1 := by rw [ha.rules]; simp
    obtain ⟨added, hG⟩ := ih (by omega)
    refine ⟨added ++ [rule], ?_⟩
    have ham : added.length + 1 ≤ m := by
      have : s.rules.length = init.length + added.length := by rw [hG.rules]; simp
      omega
    obtain ⟨ruleDl, dataDl, h1, h2, h3, h4⟩ := ha.dl
    obtain ⟨hn1, b1, b1'⟩ := ruleTheory_err hf h1
    rw [hG.rules, List.append_assoc] at h2
    obtain ⟨b2, x0, b2'⟩ := exceptionsDf_err hf (k := init.length + m) (by simp only [List.length_append, List.length_singleton]; omega) h2
    rw [← hE] at b2 b2'
    have hlen : (added ++ [rule]).length = added.length + 1 := by simp
    have hD : ∀ i ≤ added.length, plainGrowBits cands.length init (added ++ [rule]) pos neg i =
        plainGrowBits cands.length init added pos neg i := fun i hi => plainGrowBits_append _ _ _ _ _ _ hi
    have hth : theoryBits cands.length (added ++ [rule]) =
        theoryBits cands.length added + ruleBits cands.length rule.length := by
      rw [theoryBits_append]; simp [theoryBits]
    have hfull : plainGrowBits cands.length init (added ++ [rule]) pos neg (added.length + 1) =
        theoryBits cands.length (added ++ [rule]) + plainExceptionBits (init ++ (added ++ [rule])) pos neg := by
      unfold plainGrowBits
      rw [List.take_of_length_le (by simp)]
    have hsize : theoryBits cands.length (added ++ [rule]) ≤ 2 * cands.length * ((added.length + 1 : Nat) : ℝ) := by
      rw [hth]; push_cast; linarith [hG.theory]
    have t0 := theoryBits_nonneg cands.length (added ++ [rule])
    obtain ⟨d, hd, hex⟩ := hG.diff
    have hpast : ∀ i < (added ++ [rule]).length, ∃ d,
        Excess (plainGrowBits cands.length init (added ++ [rule]) pos neg) i d ∧
          d ≤ (hp.dlAllowance : ℝ) + 3 * lengthError r m cands.length E := by
      intro i hil
      rw [hlen] at hil
      rcases Nat.lt_or_ge i added.length with h | h
      · obtain ⟨d, h1, h2⟩ := hG.past i h
        exact ⟨d, h1.congr (fun j hj => hD j (by omega)), h2⟩
      · have : i = added.length := by omega
        subst this
        refine ⟨d, hex.congr (fun j hj => hD j hj), ?_⟩
        have hw : decide (s.diff ≤ hp.dlAllowance) = true := ha.within
        have hw' : (s.diff : ℝ) ≤ hp.dlAllowance := by exact_mod_cast of_decide_eq_true hw
        linarith [(abs_le.mp hd).1]
    by_cases he : added = []
    · subst he
      have hn := hG.first rfl
      rw [hn] at h3 h4
      simp only [ripDl, Option.getD_none] at h3 h4
      have hz : d = 0 := hex.1 (by simp)
      have bt : |(ruleDl : ℝ) - theoryBits cands.length [rule]| ≤ 42 * opError r * cands.length * m * ((1 : Nat) : ℝ) := by
        have e : theoryBits cands.length [rule] = ruleBits cands.length rule.length := by simp [theoryBits]
        rw [e]
        refine b1.trans ?_
        have hm1 : (1 : ℝ) ≤ m := by exact_mod_cast (by simpa using ham : 1 ≤ m)
        have p0 : 0 ≤ opError r * cands.length := mul_nonneg (opError_pos r).le (Nat.cast_nonneg _)
        have := mul_le_mul_of_nonneg_left hm1 p0
        push_cast
        linarith
      simp only [List.nil_append, List.length_nil, zero_add] at hfull hsize t0 x0 b2 b2' ham ⊢
      obtain ⟨c1, -, c2⟩ := total_err_of hf ham t0 hsize bt x0 b2' b2
      refine ⟨by rw [ha.rules, hG.rules]; simp, by simp, by simpa using hsize, ?_, ?_, by simpa using hpast⟩
      · intro _
        refine ⟨_, _, fun _ => Arith.addDl ruleDl dataDl, h3, by simpa using bt, ?_, ⟨1, le_refl _, by simp, rfl⟩, fun j _ _ => le_rfl⟩
        intro j hj1 hj2
        simp only [List.length_cons, List.length_nil] at hj2
        have : j = 1 := by omega
        subst this
        rw [hfull]
        have e : Arith.addDl ruleDl dataDl = r.fl ((ruleDl : ℝ) + dataDl) := by
          show r.fl _ = _
          norm_num
        rw [e]
        exact ⟨c1, c2⟩
      · refine ⟨d, by rw [h4]; exact hd, fun _ => hz, ?_⟩
        intro h
        simp at h
    · obtain ⟨t, l, tot, hdl, ht, htot, ⟨j0, hj1, hj2, hj3⟩, hmin⟩ := hG.dl he
      rw [hdl] at h3 h4
      simp only [ripDl, Option.getD_some] at h3 h4
      have hpos' : 1 ≤ added.length := List.length_pos_of_ne_nil he
      have et : Arith.addDl t ruleDl = r.fl ((t : ℝ) + ruleDl) := by
        show r.fl _ = _
        norm_num
      have bt : |(Arith.addDl t ruleDl : ℝ) - theoryBits cands.length (added ++ [rule])| ≤
          42 * opError r * cands.length * m * ((added.length + 1 : Nat) : ℝ) := by
        rw [hth, et]
        push_cast
        exact theoryStep_err hf hn1 (by omega) (theoryBits_nonneg _ _) hG.theory ht (ruleBits_nonneg _ _) b1' b1
      obtain ⟨c1, -, c2⟩ := total_err_of hf ham t0 hsize bt x0 b2' b2
      rw [← hfull] at c1
      obtain ⟨v, hv⟩ : ∃ v, v = Arith.addDl (Arith.addDl t ruleDl) dataDl := ⟨_, rfl⟩
      have ev : v = r.fl (((Arith.addDl t ruleDl : Rat) : ℝ) + dataDl) := by
        rw [hv]
        show r.fl _ = _
        norm_num
      rw [← ev] at c1 c2
      rw [← hv] at h3 h4
      -- the new list of computed lengths
      have htot' : ∀ j, 1 ≤ j → j ≤ added.length + 1 →
          |((if j = added.length + 1 then v else tot j : Rat) : ℝ) - plainGrowBits cands.length init (added ++ [rule]) pos neg j| ≤
            lengthError r m cands.length E ∧
          |((if j = added.length + 1 then v else tot j : Rat) : ℝ)| ≤ 3 * (cands.length * m) + 2 * ((E : ℝ) + 1) := by
        intro j g1 g2
        by_cases hj : j = added.length + 1
        · rw [if_pos hj, hj]; exact ⟨c1, c2⟩
        · rw [if_neg hj, hD j (by omega)]
          exact htot j g1 (by omega)
      refine ⟨by rw [ha.rules, hG.rules, List.append_assoc], by simp, by rw [hlen]; exact hsize, ?_, ?_, hpast⟩
      · intro _
        rw [hlen]
        refine ⟨_, _, fun j => if j = added.length + 1 then v else tot j, h3, bt, htot', ?_, ?_⟩
        · by_cases hc : v < l
          · rw [if_pos hc]
            exact ⟨added.length + 1, by omega, le_rfl, by simp⟩
          · rw [if_neg hc]
            exact ⟨j0, hj1, by omega, by dsimp only; rw [if_neg (by omega)]; exact hj3⟩
        · intro j g1 g2
          dsimp only
          by_cases hj : j = added.length + 1
          · rw [if_pos hj]
            split
            · exact le_rfl
            · rename_i hc; exact not_lt.mp hc
          · rw [if_neg hj]
            have := hmin j g1 (by omega)
            split
            · rename_i hc; exact hc.le.trans this
            · exact this
      · rw [hlen]
        obtain ⟨d', hd'⟩ := exists_excess (plainGrowBits cands.length init (added ++ [rule]) pos neg) (added.length + 1)
        refine ⟨d', ?_, hd'⟩
        obtain ⟨⟨k, k1, k2, k3⟩, kmin⟩ := hd'.2 (by omega)
        rw [h4]
        have es : Arith.subDl v l = r.fl ((v : ℝ) - l) := by
          show r.fl _ = _
          norm_num
        rw [es]
        obtain ⟨q1, q2⟩ := htot j0 hj1 hj2
        obtain ⟨q3, -⟩ := htot k k1 (by omega)
        have q4 := hmin k k1 (by omega)
        have q5 := kmin j0 hj1 (by omega)
        rw [hD j0 hj2] at q5
        rw [hD k (by omega)] at k3
        have q4' : (l : ℝ) ≤ tot k := by exact_mod_cast q4
        have hl : (l : ℝ) = tot j0 := by rw [hj3]
        have hs := hf.small
        have he := opError_pos r
        have hm0 : (0 : ℝ) ≤ m := Nat.cast_nonneg m
        obtain ⟨nm, hnm⟩ : ∃ x : ℝ, x = cands.length * m := ⟨_, rfl⟩
        obtain ⟨M, hM⟩ : ∃ M : ℝ, M = (E : ℝ) + 1 := ⟨_, rfl⟩
        have hM1 : 1 ≤ M := by
          rw [hM]; linarith [Nat.cast_nonneg (α := ℝ) E]
        have nm0 : 0 ≤ nm := by rw [hnm]; positivity
        rw [← hnm, ← hM] at c2 q2
        have f := fl_err r (x := (v : ℝ) - l) (B := 6 * nm + 4 * M) (by
          rw [abs_le] at c2 q2 ⊢
          constructor <;> linarith [c2.1, c2.2, q2.1, q2.2]) (by linarith)
        have bound : 3 * opError r * (6 * nm + 4 * M) ≤ lengthError r m cands.length E := by
          have m2 : (m : ℝ) ≤ (m : ℝ) ^ 2 := by
            have : m ≤ m ^ 2 := Nat.le_self_pow (by norm_num) m
            exact_mod_cast this
          have e1 : opError r * nm ≤ opError r * (cands.length * (m : ℝ) ^ 2) := by
            rw [hnm]; exact mul_le_mul_of_nonneg_left (mul_le_mul_of_nonneg_left m2 (Nat.cast_nonneg _)) he.le
          have e2 : lengthError r m cands.length E =
              60 * (opError r * (cands.length * (m : ℝ) ^ 2)) + 20 * (opError r * M) := by
            unfold lengthError; rw [hM]; ring
          have e3 : 0 ≤ opError r * (cands.length * (m : ℝ) ^ 2) := by positivity
          have e4 : 0 ≤ opError r * M := by positivity
          rw [e2]; linarith
        rw [abs_le] at f c1 q1 q3 ⊢
        constructor <;> linarith [f.1, f.2, c1.1, c1.2, q1.1, q1.2, q3.1, q3.2]

/-- C103 with `cn_optimize=False`, growing. With rounded numbers, RIPPER's growing phase goes on adding rules (at most `m`) only while
the description length is at most `dl_allowance` bits, and three times the error, above the least one seen so far. -/
theorem C103_plain_growth_within_allowance (r : Rounding) (m : Nat) (R : PyRandom) (hp : Hyper) (cands : List Cond)
    (hf : FineFor r m cands.length) (init : List (List Cond)) (pos neg : Frame) (fuel : Nat) (g : R.G) (st : FrameRipSt R)
    (h : @ripperGrow (Arith.rounded r) fuel R cands hp init pos neg g = .ok st) (hm : st.rules.length ≤ init.length + m) :
    ∃ added, st.rules = init ++ added ∧ ∀ i < added.length, ∃ d,
      Excess (plainGrowBits cands.length init added pos neg) i d ∧
        d ≤ (hp.dlAllowance : ℝ) + 3 * plainLengthError r m cands.length (init.length + m) (pos.rows.length + neg.rows.length) := by
  obtain ⟨s, hs, h1, _⟩ := @ripperGrow_reach (Arith.rounded r) _ _ _ _ _ _ _ _ _ h
  obtain ⟨added, hG⟩ := FrameRipReach.plainNear hf rfl hs (by rw [← h1]; exact hm)
  exact ⟨added, by rw [h1, hG.rules], hG.past⟩

/-- C103 with `cn_optimize=False`, stopping. With rounded numbers, if RIPPER's growing phase stops although positives are left, no
limit is reached and there was something to grow, then the description length is above the least one seen by more than `dl_allowance`
bits less three times the error. -/
theorem C103_plain_growth_stops (r : Rounding) (m : Nat) (R : PyRandom) (hp : Hyper) (cands : List Cond)
    (hf : FineFor r m cands.length) (init : List (List Cond)) (pos neg : Frame) (fuel : Nat) (g : R.G) (st : FrameRipSt R)
    (h : @ripperGrow (Arith.rounded r) fuel R cands hp init pos neg g = .ok st) (hm : st.rules.length ≤ init.length + m) :
    ∃ added, st.rules = init ++ added ∧
      (st.pos.rows = [] ∨
       (∃ d, Excess (plainGrowBits cands.length init added pos neg) added.length d ∧
         (hp.dlAllowance : ℝ) - 3 * plainLengthError r m cands.length (init.length + m) (pos.rows.length + neg.rows.length) < d) ∨
       stopEarly hp.lim st.rules st.pos.rows.length st.neg.rows.length = true ∨
       ∃ ps g', hp.pruneSize = some ps ∧
        (let s := @dfShuffledSplit (Arith.rounded r) R g' st.pos (r.fl (1 - (ps : ℝ))) hp.randomState
         let t := @dfShuffledSplit (Arith.rounded r) R s.2.2 st.neg (r.fl (1 - (ps : ℝ))) hp.randomState
         s.1.rows = [] ∨ @growRule (Arith.rounded r) fuel cands hp.lim s.1 t.1 [] = .ok [])) := by
  let _ : Arith := Arith.rounded r
  have key : ∃ s s', FrameRipReach fuel R cands hp pos neg ⟨init, pos, neg, none, Arith.zeroDl, g⟩ s ∧
      ripperStep fuel R cands hp pos neg s = .ok (.done s') ∧ s' = st := by
    unfold ripperGrow at h
    refine pyWhile_inv (I := fun s => FrameRipReach fuel R cands hp pos neg ⟨init, pos, neg, none, Arith.zeroDl, g⟩ s)
      (Q := fun a => ∃ s s', FrameRipReach fuel R cands hp pos neg ⟨init, pos, neg, none, Arith.zeroDl, g⟩ s ∧
        ripperStep fuel R cands hp pos neg s = .ok (.done s') ∧ s' = a) ?_ ?_ fuel _ st .start h
    · intro s s' hI hb'
      obtain ⟨rule, ha⟩ := ripperStep_more hb'
      exact .add hI ha
    · intro s a hI hb'
      exact ⟨s, a, hI, hb', rfl⟩
  obtain ⟨s, s', hs, hdone, rfl⟩ := key
  obtain ⟨e1, e2, e3⟩ := ripperStep_done hdone
  obtain ⟨added, hG⟩ := FrameRipReach.plainNear hf rfl hs (by rw [← e1]; exact hm)
  refine ⟨added, by rw [e1, hG.rules], ?_⟩
  rw [e1, e2, e3]
  rcases ripperStep_done_why hdone with h | h | h | ⟨ps, hps, h⟩
  · exact Or.inl h
  · refine Or.inr (Or.inl ?_)
    obtain ⟨d, hd, hex⟩ := hG.diff
    refine ⟨d, hex, ?_⟩
    have hw : decide (s.diff ≤ hp.dlAllowance) = false := h
    have hw' : (hp.dlAllowance : ℝ) < s.diff := by exact_mod_cast not_le.mp (of_decide_eq_false hw)
    have := (abs_le.mp hd).2
    unfold plainLengthError
    linarith
  · exact Or.inr (Or.inr (Or.inl h))
  · exact Or.inr (Or.inr (Or.inr ⟨ps, s.g, hps, h⟩))

/-- The exceptions of one rule can always be counted. -/
theorem exceptionsDf_one [Arith] {rule : List Cond} {pos neg : Frame} (hp : ∀ c ∈ rule, c.feature ∈ pos.cols)
    (hn : ∀ c ∈ rule, c.feature ∈ neg.cols) : ∃ v, exceptionsDf [rule] pos neg = .ok v := by
  have one : ∀ d : Frame, (∀ c ∈ rule, c.feature ∈ d.cols) → ∃ k, rulesNumCovered [rule] d = .ok k ∧ k ≤ d.rows.length := by
    intro d hd
    have : ∃ k, rulesNumCovered [rule] d = .ok k := by
      unfold rulesNumCovered Ruleset.numCovered
      obtain ⟨x, hx, -⟩ := Ruleset.covers_ok (rs := { rules := [rule].map (fun c => { conds := c }) }) (df := d)
        (Or.inr (by intro r hr c hc; simp at hr; subst hr; exact hd c hc))
      rw [hx]
      exact ⟨_, rfl⟩
    obtain ⟨k, hk⟩ := this
    refine ⟨k, hk, ?_⟩
    rw [rulesNumCovered_times hk]
    unfold timesCovered
    split
    · exact le_rfl
    · simpa using List.countP_le_length
  obtain ⟨tp, h1, h1'⟩ := one pos hp
  obtain ⟨fp, h2, h2'⟩ := one neg hn
  have pos_choose : ∀ a b : Nat, b ≤ a → 0 < nCr (a : Int) b := by
    intro a b hab
    rw [nCr_choose, Int.toNat_natCast, Ring.choose_natCast]
    exact_mod_cast Nat.choose_pos hab
  have e1 := pos_choose (tp + fp) fp (by omega)
  have e2 := pos_choose (pos.rows.length + neg.rows.length - (tp + fp)) (pos.rows.length - tp) (by omega)
  unfold exceptionsDf
  rw [h1, h2]
  simp only [ok_bind]
  obtain ⟨x, hx⟩ := log2Exp_pos e1
  obtain ⟨y, hy⟩ := log2Exp_pos e2
  push_cast at hx
  rw [Nat.cast_sub (by omega), Nat.cast_sub h1'] at hy
  push_cast at hy
  rw [hx, hy]
  exact ⟨_, rfl⟩

/-- Growing one rule of at most one condition. -/
theorem ripperGrow_one [Arith] [Arith.Lawful] {R : PyRandom} {hp : Hyper} {cands : List Cond} {pos neg : Frame} {ps : Rat}
    (hl : hp.lim = { maxRules := some 1, maxRuleConds := some 1 })
    (hps : hp.pruneSize = some ps) (hn : 2 ≤ cands.length) (hc : ∀ c ∈ cands, c.feature ∈ pos.cols ∧ c.feature ∈ neg.cols)
    (fuel : Nat) (hf : neg.rows.length + 2 < fuel) (g : R.G) : ∃ st, ripperGrow fuel R cands hp [] pos neg g = .ok st := by
  obtain ⟨f, rfl⟩ : ∃ f, fuel = f + 2 := ⟨fuel - 2, by omega⟩
  unfold ripperGrow
  generalize hs : (⟨[], pos, neg, none, Arith.zeroDl, g⟩ : FrameRipSt R) = s0
  have key : ∃ o, ripperStep (f + 2) R cands hp pos neg s0 = .ok o ∧ ∀ s, o = .more s → s.rules.length = 1 := by
    subst hs
    unfold ripperStep
    dsimp only
    split
    · exact ⟨_, rfl, by simp⟩
    split
    · exact ⟨_, rfl, by simp⟩
    rw [hps]
    dsimp only
    rcases hp1 : dfShuffledSplit R g pos (Arith.complement ps) hp.randomState with ⟨a, b, g1⟩
    rcases hp2 : dfShuffledSplit R g1 neg (Arith.complement ps) hp.randomState with ⟨c, d, g2⟩
    obtain ⟨a1, a2, a3, a4⟩ := dfSplit_sub hp1
    obtain ⟨c1, c2, c3, c4⟩ := dfSplit_sub hp2
    dsimp only
    split
    · exact ⟨_, rfl, by simp⟩
    obtain ⟨r, hr⟩ := growRule_total (fuel := f + 2) (cands := cands) (lim := hp.lim) (pos := a) (neg := c)
      (B := neg) (init := []) c1 (by omega) (fun x hx => by rw [a3, c3]; exact hc x hx) (by simp)
    have hrf : ∀ x ∈ r, x.feature ∈ pos.cols ∧ x.feature ∈ neg.cols := by
      have hcl : ClosedOn cands (fun r => ∀ x ∈ r, x.feature ∈ pos.cols ∧ x.feature ∈ neg.cols) := by
        refine ⟨by simp, ?_, fun r s hr hs c hc => hr c (hs.subset hc)⟩
        intro p n r c hr hu x hx
        rcases List.mem_append.mp hx with hx | hx
        · exact hr x hx
        · simp at hx; subst hx; exact hc x hu.mem
      exact hcl.grow hcl.nil hr
    have hlen : r.length ≤ 1 := by
      have := (growRule_post hr).len 1 (by rw [hl])
      simpa using this
    rw [hr]
    simp only [ok_bind]
    split
    · exact ⟨_, rfl, by simp⟩
    obtain ⟨p, hpr⟩ := pruneRule_total (metric := ripperGrowMetric b d) (rule := r) (fun n => by
      unfold ripperGrowMetric
      rw [numCoveredC_total (fun x hx => by rw [a4]; exact (hrf x (List.mem_of_mem_take hx)).1),
        numCoveredC_total (fun x hx => by rw [c4]; exact (hrf x (List.mem_of_mem_take hx)).2)]
      exact ⟨_, rfl⟩)
    have hpre := (pruneRule_prefix hpr).1
    obtain ⟨t, ht⟩ := ruleTheory_ok (n := cands.length) (k := p.length) (by have := hpre.length_le; omega)
    obtain ⟨e, he⟩ := exceptionsDf_one (rule := p) (pos := pos) (neg := neg) (fun x hx => (hrf x (hpre.subset hx)).1)
      (fun x hx => (hrf x (hpre.subset hx)).2)
    rw [hpr]
    simp only [ok_bind, ht, List.nil_append, he]
    unfold rmCoveredRule
    rw [condsCover_ok (fun x hx => (hrf x (hpre.subset hx)).1), condsCover_ok (fun x hx => (hrf x (hpre.subset hx)).2)]
    simp only [ok_bind, pure_eq_ok]
    exact ⟨_, rfl, by rintro s ⟨rfl⟩; rfl⟩
  obtain ⟨o, ho, hm⟩ := key
  rw [pyWhile, ho]
  cases o with
  | done s => exact ⟨_, rfl⟩
  | more s =>
    show ∃ st, pyWhile _ (f + 1) s = .ok st
    rw [pyWhile]
    have : ripperStep (f + 2) R cands hp pos neg s = .ok (.done s) := by
      unfold ripperStep
      split
      · rfl
      · rw [if_pos]
        · rfl
        · unfold stopEarly
          rw [hm s rfl, hl]
          rfl
    rw [this]
    exact ⟨_, rfl⟩

/-- The hypotheses are met by doubles: on `Demo.conj`, simplifying a rule and growing one (of at most 100) return. -/
example :
    let cands : List Cond := [⟨Demo.fa, Demo.vx⟩, ⟨Demo.fb, Demo.vx⟩, ⟨Demo.fb, Demo.vy⟩, ⟨Demo.fa, Demo.vy⟩]
    let rule : List Cond := [⟨Demo.fa, Demo.vx⟩, ⟨Demo.fb, Demo.vx⟩]
    let pos := posExamples Demo.conj Demo.fc Demo.vp
    let neg := negExamples Demo.conj Demo.fc Demo.vp
    let hp : Hyper := { pruneSize := some (1 / 2), lim := { maxRules := some 1, maxRuleConds := some 1 } }
    FineFor Demo.doubles 100 cands.length ∧
    (∃ out, @bestSubsetDf (Arith.rounded Demo.doubles) cands.length [rule] pos neg = .ok out) ∧
    (∃ st, @ripperGrow (Arith.rounded Demo.doubles) 30 Demo.R0 cands hp [] pos neg () = .ok st) := by
  intro cands rule pos neg hp
  let _ : Arith := Arith.rounded Demo.doubles
  have _ := C81_rounded_lawful Demo.doubles
  refine ⟨(Demo.doubles_fine 100 _ 0 le_rfl (by decide) (by norm_num)).1, ?_, ?_⟩
  · obtain ⟨e, he⟩ := exceptionsDf_one (rule := rule) (pos := pos) (neg := neg) (by decide +kernel) (by decide +kernel)
    obtain ⟨t, ht⟩ := ruleTheory_ok (n := cands.length) (k := rule.length) (by decide)
    refine ⟨([rule], Arith.addDl (Arith.addDl Arith.zeroDl t) e), ?_⟩
    unfold bestSubsetDf subsetDlsDf
    simp only [List.nil_append, he, ht, ok_bind, subsetDlsDf, pure_eq_ok]
    have hm : ∀ x : Rat, mdlFilter none ([rule].zip [x]) = [rule] := fun x => rfl
    rw [hm]
    unfold totalBitsDf rsTheory theorySum theorySum
    rw [ht, he]
    rfl
  · have h1 : 2 ≤ cands.length := by decide
    have h2 : ∀ c ∈ cands, c.feature ∈ pos.cols ∧ c.feature ∈ neg.cols := by decide +kernel
    have h3 : neg.rows.length + 2 < 30 := by decide +kernel
    clear_value cands pos neg
    exact ripperGrow_one (R := Demo.R0) (hp := hp) (ps := 1 / 2) rfl rfl h1 h2 30 h3 ()

end Witt
