import Verif.Lemmas.RoundedBits
import Verif.Props.Allowance
/-
C103: RIPPER's decisions by description length, made with rounded numbers.
-/
namespace Witt
open Spec

namespace Spec
/-- The value is, up to `δ`, a least one of a list of alternatives. -/
def NearlyLeast {A : Type} (δ : ℝ) (alts : List (A × ℝ)) (a : A) : Prop :=
  ∃ (n : Nat) (v : ℝ), alts[n]? = some (a, v) ∧ ∀ p ∈ alts, v ≤ p.2 + δ
end Spec

variable {r : Rounding} {m : Nat} {df : Frame} {cf : Feat} {cn : CatNap} {hp : Hyper} {R : PyRandom} {fuel : Nat}

/-- C103. The description length of a ruleset of at most `m` rules on the given training rows, computed with rounded numbers,
is within `lengthError` of the true one. -/
theorem C103_length (r : Rounding) (m : Nat) (df : Frame) (cf : Feat) (cn : CatNap) (hb : CatNap.build df cf = .ok cn)
    (hu : df.UniqueIndex) (hf : FineFor r m cn.conds.length) (rules : List (List Cond)) (hm : rules.length ≤ m)
    (pos neg : List Label) (hs : Sensible df cf rules pos neg) (v : Rat)
    (h : @totalBitsCn (Arith.rounded r) cn rules pos neg = .ok v) :
    |(v : ℝ) - totalBits df cn.conds.length rules pos neg| ≤ lengthError r m cn.conds.length (pos.length + neg.length) :=
  totalBitsCn_err hb hu hf hm hs h

/-- C103. With the precision of doubles and logarithms that err by at most one unit in the last place, `lengthError` is below a
hundred-thousandth of a bit for up to 100 rules, 10 000 possible conditions and ten million rows. -/
theorem C103_doubles (r : Rounding) (hu : r.u ≤ 2⁻¹ ^ 53) (hw : r.w ≤ 2⁻¹ ^ 52) (hl : r.least ≤ 2⁻¹ ^ 1022) (hN : 2 ^ 53 ≤ r.N)
    (hlog : ∀ k : Nat, 0 < k → |(r.lgInt k : ℝ) - Real.logb 2 k| ≤ r.w * Real.logb 2 k) (m n e : Nat) (hm : m ≤ 100)
    (hn : n ≤ 10000) (he : e ≤ 10000000) : FineFor r m n ∧ lengthError r m n e ≤ 1 / 100000 := by
  have h1 : opError r ≤ 2⁻¹ ^ 51 := by
    have h2 : (2⁻¹ : ℝ) ^ 1022 ≤ 2⁻¹ ^ 53 := pow_le_pow_of_le_one (by norm_num) (by norm_num) (by norm_num)
    have h3 := hl.trans h2
    unfold opError
    norm_num at hu hw h3 ⊢
    linarith
  have h0 := opError_pos r
  have hm' : (m : ℝ) ≤ 100 := by exact_mod_cast hm
  have hn' : (n : ℝ) ≤ 10000 := by exact_mod_cast hn
  have he' : (e : ℝ) ≤ 10000000 := by exact_mod_cast he
  have hm0 : (0 : ℝ) ≤ m := Nat.cast_nonneg m
  have hn0 : (0 : ℝ) ≤ n := Nat.cast_nonneg n
  have he0 : (0 : ℝ) ≤ e := Nat.cast_nonneg e
  refine ⟨⟨hlog, by omega, ?_⟩, ?_⟩
  · have : opError r * ((m : ℝ) + 1) ≤ 2⁻¹ ^ 51 * 101 := mul_le_mul h1 (by linarith) (by linarith) (by positivity)
    norm_num at this
    linarith
  · unfold lengthError
    have hm2 : (m : ℝ) ^ 2 ≤ 100 ^ 2 := pow_le_pow_left₀ hm0 hm' 2
    have hnm : 60 * (n : ℝ) * (m : ℝ) ^ 2 ≤ 60 * 10000 * 100 ^ 2 :=
      mul_le_mul (by linarith) hm2 (by positivity) (by positivity)
    have : opError r * (60 * (n : ℝ) * (m : ℝ) ^ 2 + 20 * ((e : ℝ) + 1)) ≤ 2⁻¹ ^ 51 * (60 * 10000 * 100 ^ 2 + 20 * (10000000 + 1)) :=
      mul_le_mul h1 (by linarith) (by positivity) (by positivity)
    refine this.trans ?_
    norm_num

/-- Such numbers exist: doubles with correctly rounded logarithms. -/
theorem Demo.doubles_fine (m n e : Nat) (hm : m ≤ 100) (hn : n ≤ 10000) (he : e ≤ 10000000) :
    FineFor Demo.doubles m n ∧ lengthError Demo.doubles m n e ≤ 1 / 100000 := by
  refine C103_doubles Demo.doubles le_rfl ?_ le_rfl le_rfl ?_ m n e hm hn he
  · exact pow_le_pow_of_le_one (by norm_num) (by norm_num) (by norm_num)
  · intro k hk
    have := Demo.fl53_err (Real.logb 2 k)
    rw [abs_of_nonneg (logb_nat_nonneg k)] at this
    exact_mod_cast this

/-- C103, simplification. With rounded numbers, simplifying at most `m` rules by description length keeps the first rule, and
later ones in order; a rule that is kept increases the description length of the rules before it by at most twice the error, and
a rule that is dropped lowers it by less than twice the error. -/
theorem C103_simplification (r : Rounding) (m : Nat) (df : Frame) (cf : Feat) (cn : CatNap) (hb : CatNap.build df cf = .ok cn)
    (hu : df.UniqueIndex) (hf : FineFor r m cn.conds.length) (rules out : List (List Cond)) (hm : rules.length ≤ m)
    (pos neg : List Label) (total : Rat) (hs : Sensible df cf rules pos neg)
    (h : @bestSubsetCn (Arith.rounded r) cn rules pos neg = .ok (out, total)) :
    let ε := lengthError r m cn.conds.length (pos.length + neg.length)
    let bits := fun i => totalBits df cn.conds.length (rules.take i) pos neg
    ∃ kept : Nat → Bool, out = ((List.range rules.length).filter kept).filterMap (fun i => rules[i]?) ∧ kept 0 = true ∧
      (∀ i, 0 < i → i < rules.length →
        (kept i = true → bits (i + 1) ≤ bits i + 2 * ε) ∧ (kept i = false → bits i < bits (i + 1) + 2 * ε)) ∧
      |(total : ℝ) - totalBits df cn.conds.length out pos neg| ≤ ε := by
  intro ε bits
  obtain ⟨dl, h1, h2, h3⟩ := @bestSubsetCn_exact (Arith.rounded r) cn rules out pos neg total h
  have hsub : ∀ rs : List (List Cond), rs.Sublist rules → Sensible df cf rs pos neg := fun rs hrs =>
    ⟨fun r hr => hs.over r (hrs.subset hr), hs.pos_mem, hs.neg_mem,
      hs.nonempty.imp (fun h hm => h (hrs.subset hm)) id⟩
  have hdl : ∀ i < rules.length, |(dl i : ℝ) - bits (i + 1)| ≤ ε := fun i hi =>
    totalBitsCn_err hb hu hf (le_trans (by simp) hm) (hsub _ (List.take_sublist _ _)) (h1 i hi)
  have hout : out.Sublist rules := @bestSubsetCn_sublist (Arith.rounded r) _ _ _ _ _ _ h
  refine ⟨fun i => decide (i = 0 ∨ dl i ≤ dl (i - 1)), h2, by simp, ?_,
    totalBitsCn_err hb hu hf (le_trans hout.length_le hm) (hsub _ hout) h3⟩
  intro i hi0 hi
  obtain ⟨j, rfl⟩ : ∃ j, i = j + 1 := ⟨i - 1, by omega⟩
  obtain ⟨a1, a2⟩ := abs_le.mp (hdl (j + 1) hi)
  obtain ⟨b1, b2⟩ := abs_le.mp (hdl j (by omega))
  simp only [Nat.succ_ne_zero, false_or, Nat.add_sub_cancel, decide_eq_true_eq, decide_eq_false_iff_not, not_le]
  constructor
  · intro hle
    have : (dl (j + 1) : ℝ) ≤ dl j := by exact_mod_cast hle
    linarith
  · intro hlt
    have : (dl j : ℝ) < dl (j + 1) := by exact_mod_cast hlt
    linarith

/-- Choosing the least of three computed numbers nearly chooses the least of the true ones. -/
theorem nearly_least {rule best : List Cond} {rep rev : Option (List Cond)} {x y z : Rat} {a b c ε : ℝ} {n : Nat}
    (hx : |(x : ℝ) - a| ≤ ε) (hy : |(y : ℝ) - b| ≤ ε) (hz : |(z : ℝ) - c| ≤ ε)
    (hmin : argmin (fun a b => decide (a < b)) [x, y, z] = .ok n)
    (pick : (n = 0 ∧ best = rule) ∨ (n = 1 ∧ rep = some best) ∨ (n ≠ 0 ∧ n ≠ 1 ∧ rev = some best)) :
    NearlyLeast (2 * ε) [(some rule, a), (rep, b), (rev, c)] (some best) := by
  obtain ⟨k, v, hm, hv, hle, -⟩ := (C44_argmin [x, y, z]).2 (by simp)
  rw [hmin] at hm
  injection hm with hm
  subst hm
  have l0 : (v : ℝ) ≤ x := by exact_mod_cast hle x (by simp)
  have l1 : (v : ℝ) ≤ y := by exact_mod_cast hle y (by simp)
  have l2 : (v : ℝ) ≤ z := by exact_mod_cast hle z (by simp)
  obtain ⟨x1, x2⟩ := abs_le.mp hx
  obtain ⟨y1, y2⟩ := abs_le.mp hy
  obtain ⟨z1, z2⟩ := abs_le.mp hz
  rcases pick with ⟨rfl, rfl⟩ | ⟨rfl, hbest⟩ | ⟨hn0, hn1, hbest⟩
  · simp only [List.getElem?_cons_zero, Option.some.injEq] at hv
    subst hv
    refine ⟨0, a, rfl, ?_⟩
    simp only [List.mem_cons, List.not_mem_nil, or_false]
    rintro p (rfl | rfl | rfl) <;> dsimp only <;> linarith
  · simp only [List.getElem?_cons_succ, List.getElem?_cons_zero, Option.some.injEq] at hv
    subst hv
    refine ⟨1, b, by rw [← hbest]; rfl, ?_⟩
    simp only [List.mem_cons, List.not_mem_nil, or_false]
    rintro p (rfl | rfl | rfl) <;> dsimp only <;> linarith
  · have hn2 : n = 2 := by
      have := (List.getElem?_eq_some_iff.mp hv).1
      simp only [List.length_cons, List.length_nil] at this
      omega
    subst hn2
    simp only [List.getElem?_cons_succ, List.getElem?_cons_zero, Option.some.injEq] at hv
    subst hv
    refine ⟨2, c, by rw [← hbest]; rfl, ?_⟩
    simp only [List.mem_cons, List.not_mem_nil, or_false]
    rintro p (rfl | rfl | rfl) <;> dsimp only <;> linarith

theorem exchanged_length (rules : List (List Cond)) (i : Nat) (o : Option (List Cond)) :
    (exchanged rules i o).length ≤ rules.length := by
  cases o with
  | none => exact (List.eraseIdx_sublist _ _).length_le
  | some v => simp [exchanged]

/-- C103, the choice for one rule. With rounded numbers, whatever examples the choice is made on: the alternatives to the rule are
a replacement (cut from a rule grown from nothing) and a revision (cut from a rule grown from it), and the one chosen of the
three has, up to twice the error, the least description length on all training rows. The rule itself counts the description
length `odl`, of which the number `x` passed in is within the error (in a pass, that of the simplified ruleset). -/
theorem C103_choice (r : Rounding) (m : Nat) (df : Frame) (cf : Feat) (cn : CatNap) (hb : CatNap.build df cf = .ok cn)
    (hu : df.UniqueIndex) (hf : FineFor r m cn.conds.length) (hp : Hyper) (fuel : Nat) (rules : List (List Cond))
    (hm : rules.length ≤ m) (i : Nat) (rule best : List Cond) (hrule : rules[i]? = some rule) (pos neg : List Label)
    (hpos : pos ≠ []) (hneg : neg ≠ []) (hs : Sensible df cf rules pos neg) (x : Rat) (odl : ℝ)
    (hx : |(x : ℝ) - odl| ≤ lengthError r m cn.conds.length (pos.length + neg.length))
    (growPos prunePos growNeg pruneNeg : List Label)
    (h : @optimizeChoice (Arith.rounded r) fuel cn hp rules x i rule pos neg growPos prunePos growNeg pruneNeg = .ok best) :
    ∃ grownRep grownRev replacement revision,
      @growRuleCn (Arith.rounded r) fuel cn { minRuleSamples := hp.lim.minRuleSamples } growPos growNeg [] = .ok grownRep ∧
      @growRuleCn (Arith.rounded r) fuel cn { minRuleSamples := hp.lim.minRuleSamples } growPos growNeg rule = .ok grownRev ∧
      (∀ r, replacement = some r → r <+: grownRep) ∧ (∀ r, revision = some r → r <+: grownRev) ∧
      NearlyLeast (2 * lengthError r m cn.conds.length (pos.length + neg.length)) [(some rule, odl),
        (replacement, altBits df cn.conds.length rules i rule odl pos neg replacement),
        (revision, altBits df cn.conds.length rules i rule odl pos neg revision)] (some best) := by
  let _ : Arith := Arith.rounded r
  have _ := C81_rounded_lawful r
  obtain ⟨gRep, gRev, prRep, prRev, repDl, revDl, n, hc⟩ := optimizeChoice_ok h
  have hi : i < rules.length := (List.getElem?_eq_some_iff.mp hrule).1
  have hw := CatNap.build_WF hb
  have hov : OverCols df cf rule := hs.over rule (List.mem_of_getElem? hrule)
  have hrep : ∀ r, prRep = some r → r <+: gRep := by
    intro r hr
    have := hc.pruneRep
    rw [hr] at this
    exact (pruneRuleOn_prefix (iReplaced_getElem _ _ _ hi) this).1
  have hrev : ∀ r, prRev = some r → r <+: gRev := by
    intro r hr
    have := hc.pruneRev
    rw [hr] at this
    exact (pruneRuleOn_prefix (iReplaced_getElem _ _ _ hi) this).1
  have hcl := overCols_closed hb
  have hsens : ∀ o : Option (List Cond), (∀ r, o = some r → OverCols df cf r) →
      Sensible df cf (iReplaced rules i o) pos neg := by
    intro o ho
    refine ⟨?_, hs.pos_mem, hs.neg_mem, Or.inr ⟨hpos, hneg⟩⟩
    intro r hr
    cases o with
    | none =>
      unfold iReplaced at hr
      rcases List.mem_append.mp hr with hr | hr
      · exact hs.over r (List.mem_of_mem_take hr)
      · exact hs.over r (List.mem_of_mem_drop hr)
    | some v =>
      rcases mem_iReplaced hr with rfl | hr
      · exact ho _ rfl
      · exact hs.over r hr
  have hs1 := hsens prRep (fun r hr => hcl.pre _ _ (hcl.grow hw hcl.nil hc.growRep) (hrep r hr))
  have hs2 := hsens prRev (fun r hr => hcl.pre _ _ (hcl.grow hw hov hc.growRev) (hrev r hr))
  have bits : ∀ (o : Option (List Cond)) (d : Rat), Sensible df cf (iReplaced rules i o) pos neg →
      ((∃ r, o = some r ∧ condsEq r rule = true ∧ d = x) ∨
      ((∀ r, o = some r → condsEq r rule = false) ∧ totalBitsCn cn (iReplaced rules i o) pos neg = .ok d)) →
      |(d : ℝ) - altBits df cn.conds.length rules i rule odl pos neg o| ≤
        lengthError r m cn.conds.length (pos.length + neg.length) := by
    intro o d hso hd
    unfold altBits
    rcases hd with ⟨r, h1, h2, rfl⟩ | ⟨h1, h2⟩
    · rw [if_pos ⟨r, h1, condsEq_prints.mp h2⟩]; exact hx
    · rw [if_neg]
      · rw [iReplaced_eq hi] at h2 hso
        exact totalBitsCn_err hb hu hf ((exchanged_length rules i o).trans hm) hso h2
      · rintro ⟨r, hr, he⟩
        have := h1 r hr
        rw [condsEq_prints.mpr he] at this
        cases this
  exact ⟨gRep, gRev, prRep, prRev, hc.growRep, hc.growRev, hrep, hrev,
    nearly_least hx (bits prRep repDl hs1 hc.dlRep) (bits prRev revDl hs2 hc.dlRev) hc.min hc.pick⟩

/-- C103, a whole pass. With rounded numbers, an optimisation pass over at most `m` rules returns as many rules as it was given;
each is the rule at the same position or one of three alternatives for it that has, up to twice the error, the least
description length, where the rule itself counts that of the simplified ruleset. -/
theorem C103_pass (r : Rounding) (m : Nat) (df : Frame) (cf : Feat) (cn : CatNap) (hb : CatNap.build df cf = .ok cn)
    (hu : df.UniqueIndex) (hf : FineFor r m cn.conds.length) (hp : Hyper) (fuel : Nat) (R : PyRandom) (seed : Option Int)
    (rules out : List (List Cond)) (hm : rules.length ≤ m) (pos neg : List Label) (hpos : pos ≠ []) (hneg : neg ≠ [])
    (hs : Sensible df cf rules pos neg) (g g' : R.G)
    (h : @optimizeCn (Arith.rounded r) fuel R cn hp seed rules pos neg g = .ok (out, g')) :
    out.length = rules.length ∧ ∃ simplified : List (List Cond), simplified.Sublist rules ∧
      ∀ j r', out[j]? = some r' → ∃ rule, rules[j]? = some rule ∧ (r' = rule ∨ ∃ replacement revision,
        let odl := totalBits df cn.conds.length simplified pos neg
        NearlyLeast (2 * lengthError r m cn.conds.length (pos.length + neg.length)) [(some rule, odl),
          (replacement, altBits df cn.conds.length rules j rule odl pos neg replacement),
          (revision, altBits df cn.conds.length rules j rule odl pos neg revision)] (some r')) := by
  obtain ⟨h1, simplified, x, hx, h2⟩ := @C47_pass (Arith.rounded r) fuel R cn hp seed rules out pos neg g g' h
  have hsub : simplified.Sublist rules := @bestSubsetCn_sublist (Arith.rounded r) _ _ _ _ _ _ hx
  obtain ⟨_, -, -, -, hodl⟩ := C103_simplification r m df cf cn hb hu hf rules simplified hm pos neg x hs hx
  refine ⟨h1, simplified, hsub, fun j r' hj => ?_⟩
  obtain ⟨rule, hr, h3⟩ := h2 j r' hj
  refine ⟨rule, hr, h3.imp_right ?_⟩
  rintro ⟨a, b, c, d, hc⟩
  obtain ⟨_, _, rep, rev, -, -, -, -, hn⟩ :=
    C103_choice r m df cf cn hb hu hf hp fuel rules hm j rule r' hr pos neg hpos hneg hs x _ hodl a b c d hc
  exact ⟨rep, rev, hn⟩

/-! ### the growing phase -/

theorem exists_excess (D : Nat → ℝ) (i : Nat) : ∃ d, Excess D i d := by
  rcases Nat.lt_or_ge 1 i with h | h
  · obtain ⟨j, hj, hmin⟩ := (Finset.Icc 1 (i - 1)).exists_min_image D ⟨1, by simp; omega⟩
    rw [Finset.mem_Icc] at hj
    refine ⟨D i - D j, fun h' => by omega, fun _ => ⟨⟨j, hj.1, by omega, rfl⟩, ?_⟩⟩
    intro k h1 h2
    have := hmin k (Finset.mem_Icc.mpr ⟨h1, by omega⟩)
    linarith
  · exact ⟨0, fun _ => rfl, fun h' => by omega⟩

/-- What holds of every state of the growing phase, with at most `m` rules added. -/
structure GrowNear (r : Rounding) (m : Nat) (df : Frame) (n : Nat) (a : Rat) (init : List (List Cond)) (pos neg : List Label)
    (s : RipSt R) (added : List (List Cond)) : Prop where
  rules : s.rules = init ++ added
  first : added = [] → s.dl = none
  theory : theoryBits n added ≤ 2 * n * added.length
  dl : added ≠ [] → ∃ (t l : Rat) (tot : Nat → Rat), s.dl = some (t, l) ∧
    |(t : ℝ) - theoryBits n added| ≤ 42 * opError r * n * m * added.length ∧
    (∀ j, 1 ≤ j → j ≤ added.length → |(tot j : ℝ) - growBits df n init added pos neg j| ≤ lengthError r m n (pos.length + neg.length) ∧
      |(tot j : ℝ)| ≤ 3 * (n * m) + 2 * (pos.length + neg.length + 1)) ∧
    (∃ j, 1 ≤ j ∧ j ≤ added.length ∧ l = tot j) ∧ ∀ j, 1 ≤ j → j ≤ added.length → l ≤ tot j
  diff : ∃ d, |(s.diff : ℝ) - d| ≤ 3 * lengthError r m n (pos.length + neg.length) ∧
    Excess (growBits df n init added pos neg) added.length d
  past : ∀ i < added.length, ∃ d, Excess (growBits df n init added pos neg) i d ∧
    d ≤ (a : ℝ) + 3 * lengthError r m n (pos.length + neg.length)

theorem lengthError_pos (r : Rounding) (m n e : Nat) : 0 < lengthError r m n e := by
  have := opError_pos r
  unfold lengthError
  positivity

theorem RipReach.growNear (hb : CatNap.build df cf = .ok cn) (hu : df.UniqueIndex) (hf : FineFor r m cn.conds.length)
    {init : List (List Cond)} (hi : ∀ r ∈ init, OverCols df cf r) (hi0 : [] ∉ init) {pos neg : List Label}
    (hpos : ∀ l ∈ pos, l ∈ df.index) (hneg : ∀ l ∈ neg, l ∈ df.index) {g : R.G} {s : RipSt R}
    (h : @RipReach (Arith.rounded r) fuel R cn hp pos neg ⟨init, pos, neg, none, 0, g⟩ s)
    (hm : s.rules.length ≤ init.length + m) :
    ∃ added, GrowNear r m df cn.conds.length hp.dlAllowance init pos neg s added ∧
      ∀ r ∈ added, OverCols df cf r ∧ r ≠ [] := by
  let _ : Arith := Arith.rounded r
  have _ := C81_rounded_lawful r
  have hε := lengthError_pos r m cn.conds.length (pos.length + neg.length)
  induction h with
  | start =>
    refine ⟨[], ⟨by simp, fun _ => rfl, by simp [theoryBits], by simp, ⟨0, ?_, fun _ => rfl, by simp⟩, by simp⟩, by simp⟩
    simpa using hε.le
  | @add s s' rule hs ha ih =>
    have hlen' : s'.rules.length = s.rules.length + 1 := by rw [ha.rules]; simp
    obtain ⟨added, hG, hov⟩ := ih (by omega)
    have hrule : OverCols df cf rule := (overCols_closed hb).add (CatNap.build_WF hb) ha
    have hov' : ∀ r ∈ added ++ [rule], OverCols df cf r ∧ r ≠ [] := by
      intro r hr
      rcases List.mem_append.mp hr with h | h
      · exact hov r h
      · simp only [List.mem_singleton] at h; subst h; exact ⟨hrule, ha.grown.1⟩
    have hsens : Sensible df cf (init ++ (added ++ [rule])) pos neg := by
      refine ⟨?_, hpos, hneg, Or.inl ?_⟩
      · intro r hr
        rcases List.mem_append.mp hr with h | h
        · exact hi r h
        · exact (hov' r h).1
      · intro hm
        rcases List.mem_append.mp hm with h | h
        · exact hi0 h
        · exact (hov' _ h).2 rfl
    refine ⟨added ++ [rule], ?_, hov'⟩
    have ham : added.length + 1 ≤ m := by
      have : s.rules.length = init.length + added.length := by rw [hG.rules]; simp
      omega
    obtain ⟨ruleDl, dataDl, h1, h2, h3, h4⟩ := ha.dl
    obtain ⟨hn1, b1, b1'⟩ := ruleTheory_err hf h1
    rw [hG.rules, List.append_assoc] at h2
    obtain ⟨b2, b2'⟩ := exceptionsCn_err hb hu hf hsens h2
    have hlen : (added ++ [rule]).length = added.length + 1 := by simp
    have hD : ∀ i ≤ added.length, growBits df cn.conds.length init (added ++ [rule]) pos neg i =
        growBits df cn.conds.length init added pos neg i := fun i hi => growBits_append _ _ _ _ _ _ _ hi
    have hth : theoryBits cn.conds.length (added ++ [rule]) =
        theoryBits cn.conds.length added + ruleBits cn.conds.length rule.length := by
      rw [theoryBits_append]; simp [theoryBits]
    have hfull : growBits df cn.conds.length init (added ++ [rule]) pos neg (added.length + 1) =
        theoryBits cn.conds.length (added ++ [rule]) + exceptionBits df (init ++ (added ++ [rule])) pos neg := by
      unfold growBits
      rw [List.take_of_length_le (by simp)]
    have hsize : theoryBits cn.conds.length (added ++ [rule]) ≤ 2 * cn.conds.length * ((added.length + 1 : Nat) : ℝ) := by
      rw [hth]; push_cast; linarith [hG.theory]
    have x0 := exceptionBits_nonneg df (init ++ (added ++ [rule])) pos neg
    have t0 := theoryBits_nonneg cn.conds.length (added ++ [rule])
    obtain ⟨d, hd, hex⟩ := hG.diff
    have hpast : ∀ i < (added ++ [rule]).length, ∃ d,
        Excess (growBits df cn.conds.length init (added ++ [rule]) pos neg) i d ∧
          d ≤ (hp.dlAllowance : ℝ) + 3 * lengthError r m cn.conds.length (pos.length + neg.length) := by
      intro i hil
      rw [hlen] at hil
      rcases Nat.lt_or_ge i added.length with h | h
      · obtain ⟨d, h1, h2⟩ := hG.past i h
        exact ⟨d, h1.congr (fun j hj => hD j (by omega)), h2⟩
      · have : i = added.length := by omega
        subst this
        refine ⟨d, hex.congr (fun j hj => hD j hj), ?_⟩
        have hw : decide (s.diff ≤ hp.dlAllowance) = true := ha.within
        have hw' : (s.diff : ℝ) ≤ hp.dlAllowance := by exact_mod_cast of_decide_eq_true hw
        linarith [(abs_le.mp hd).1]
    by_cases he : added = []
    · subst he
      have hn := hG.first rfl
      rw [hn] at h3 h4
      simp only [ripDl, Option.getD_none] at h3 h4
      have hz : d = 0 := hex.1 (by simp)
      have bt : |(ruleDl : ℝ) - theoryBits cn.conds.length [rule]| ≤ 42 * opError r * cn.conds.length * m * ((1 : Nat) : ℝ) := by
        have e : theoryBits cn.conds.length [rule] = ruleBits cn.conds.length rule.length := by simp [theoryBits]
        rw [e]
        refine b1.trans ?_
        have hm1 : (1 : ℝ) ≤ m := by exact_mod_cast (by simpa using ham : 1 ≤ m)
        have p0 : 0 ≤ opError r * cn.conds.length := mul_nonneg (opError_pos r).le (Nat.cast_nonneg _)
        have := mul_le_mul_of_nonneg_left hm1 p0
        push_cast
        linarith
      simp only [List.nil_append, List.length_nil, zero_add] at hfull hsize t0 x0 b2 b2' ham ⊢
      obtain ⟨c1, -, c2⟩ := total_err hf ham t0 hsize bt x0 b2' b2
      refine ⟨by rw [ha.rules, hG.rules]; simp, by simp, by simpa using hsize, ?_, ?_, by simpa using hpast⟩
      · intro _
        refine ⟨_, _, fun _ => Arith.addDl ruleDl dataDl, h3, by simpa using bt, ?_, ⟨1, le_refl _, by simp, rfl⟩, fun j _ _ => le_rfl⟩
        intro j hj1 hj2
        simp only [List.length_cons, List.length_nil] at hj2
        have : j = 1 := by omega
        subst this
        rw [hfull]
        have e : Arith.addDl ruleDl dataDl = r.fl ((ruleDl : ℝ) + dataDl) := by
          show r.fl _ = _
          norm_num
        rw [e]
        exact ⟨c1, c2⟩
      · refine ⟨d, by rw [h4]; exact hd, fun _ => hz, ?_⟩
        intro h
        simp at h
    · obtain ⟨t, l, tot, hdl, ht, htot, ⟨j0, hj1, hj2, hj3⟩, hmin⟩ := hG.dl he
      rw [hdl] at h3 h4
      simp only [ripDl, Option.getD_some] at h3 h4
      have hpos' : 1 ≤ added.length := List.length_pos_of_ne_nil he
      have et : Arith.addDl t ruleDl = r.fl ((t : ℝ) + ruleDl) := by
        show r.fl _ = _
        norm_num
      have bt : |(Arith.addDl t ruleDl : ℝ) - theoryBits cn.conds.length (added ++ [rule])| ≤
          42 * opError r * cn.conds.length * m * ((added.length + 1 : Nat) : ℝ) := by
        rw [hth, et]
        push_cast
        exact theoryStep_err hf hn1 (by omega) (theoryBits_nonneg _ _) hG.theory ht (ruleBits_nonneg _ _) b1' b1
      obtain ⟨c1, -, c2⟩ := total_err hf ham t0 hsize bt x0 b2' b2
      rw [← hfull] at c1
      obtain ⟨v, hv⟩ : ∃ v, v = Arith.addDl (Arith.addDl t ruleDl) dataDl := ⟨_, rfl⟩
      have ev : v = r.fl (((Arith.addDl t ruleDl : Rat) : ℝ) + dataDl) := by
        rw [hv]
        show r.fl _ = _
        norm_num
      rw [← ev] at c1 c2
      rw [← hv] at h3 h4
      -- the new list of computed lengths
      have htot' : ∀ j, 1 ≤ j → j ≤ added.length + 1 →
          |((if j = added.length + 1 then v else tot j : Rat) : ℝ) - growBits df cn.conds.length init (added ++ [rule]) pos neg j| ≤
            lengthError r m cn.conds.length (pos.length + neg.length) ∧
          |((if j = added.length + 1 then v else tot j : Rat) : ℝ)| ≤ 3 * (cn.conds.length * m) + 2 * (pos.length + neg.length + 1) := by
        intro j g1 g2
        by_cases hj : j = added.length + 1
        · rw [if_pos hj, hj]; exact ⟨c1, c2⟩
        · rw [if_neg hj, hD j (by omega)]
          exact htot j g1 (by omega)
      refine ⟨by rw [ha.rules, hG.rules, List.append_assoc], by simp, by rw [hlen]; exact hsize, ?_, ?_, hpast⟩
      · intro _
        rw [hlen]
        refine ⟨_, _, fun j => if j = added.length + 1 then v else tot j, h3, bt, htot', ?_, ?_⟩
        · by_cases hc : v < l
          · rw [if_pos hc]
            exact ⟨added.length + 1, by omega, le_rfl, by simp⟩
          · rw [if_neg hc]
            exact ⟨j0, hj1, by omega, by dsimp only; rw [if_neg (by omega)]; exact hj3⟩
        · intro j g1 g2
          dsimp only
          by_cases hj : j = added.length + 1
          · rw [if_pos hj]
            split
            · exact le_rfl
            · rename_i hc; exact not_lt.mp hc
          · rw [if_neg hj]
            have := hmin j g1 (by omega)
            split
            · rename_i hc; exact hc.le.trans this
            · exact this
      · rw [hlen]
        obtain ⟨d', hd'⟩ := exists_excess (growBits df cn.conds.length init (added ++ [rule]) pos neg) (added.length + 1)
        refine ⟨d', ?_, hd'⟩
        obtain ⟨⟨k, k1, k2, k3⟩, kmin⟩ := hd'.2 (by omega)
        rw [h4]
        have es : Arith.subDl v l = r.fl ((v : ℝ) - l) := by
          show r.fl _ = _
          norm_num
        rw [es]
        obtain ⟨q1, q2⟩ := htot j0 hj1 hj2
        obtain ⟨q3, -⟩ := htot k k1 (by omega)
        have q4 := hmin k k1 (by omega)
        have q5 := kmin j0 hj1 (by omega)
        rw [hD j0 hj2] at q5
        rw [hD k (by omega)] at k3
        have q4' : (l : ℝ) ≤ tot k := by exact_mod_cast q4
        have hl : (l : ℝ) = tot j0 := by rw [hj3]
        have hs := hf.small
        have he := opError_pos r
        have hm0 : (0 : ℝ) ≤ m := Nat.cast_nonneg m
        obtain ⟨nm, hnm⟩ : ∃ x : ℝ, x = cn.conds.length * m := ⟨_, rfl⟩
        obtain ⟨M, hM⟩ : ∃ M : ℝ, M = (pos.length : ℝ) + neg.length + 1 := ⟨_, rfl⟩
        have hM1 : 1 ≤ M := by
          rw [hM]; linarith [Nat.cast_nonneg (α := ℝ) pos.length, Nat.cast_nonneg (α := ℝ) neg.length]
        have nm0 : 0 ≤ nm := by rw [hnm]; positivity
        rw [← hnm, ← hM] at c2 q2
        have f := fl_err r (x := (v : ℝ) - l) (B := 6 * nm + 4 * M) (by
          rw [abs_le] at c2 q2 ⊢
          constructor <;> linarith [c2.1, c2.2, q2.1, q2.2]) (by linarith)
        have bound : 3 * opError r * (6 * nm + 4 * M) ≤ lengthError r m cn.conds.length (pos.length + neg.length) := by
          have m2 : (m : ℝ) ≤ (m : ℝ) ^ 2 := by
            have : m ≤ m ^ 2 := Nat.le_self_pow (by norm_num) m
            exact_mod_cast this
          have e1 : opError r * nm ≤ opError r * (cn.conds.length * (m : ℝ) ^ 2) := by
            rw [hnm]; exact mul_le_mul_of_nonneg_left (mul_le_mul_of_nonneg_left m2 (Nat.cast_nonneg _)) he.le
          have e2 : lengthError r m cn.conds.length (pos.length + neg.length) =
              60 * (opError r * (cn.conds.length * (m : ℝ) ^ 2)) + 20 * (opError r * M) := by
            unfold lengthError; rw [hM]; push_cast; ring
          have e3 : 0 ≤ opError r * (cn.conds.length * (m : ℝ) ^ 2) := by positivity
          have e4 : 0 ≤ opError r * M := by positivity
          rw [e2]; linarith
        rw [abs_le] at f c1 q1 q3 ⊢
        constructor <;> linarith [f.1, f.2, c1.1, c1.2, q1.1, q1.2, q3.1, q3.2]

/-- C103, growing. With rounded numbers, RIPPER's growing phase goes on adding rules (at most `m`) only while the description
length is at most `dl_allowance` bits, and three times the error, above the least one seen so far. -/
theorem C103_growth_within_allowance (r : Rounding) (m : Nat) (R : PyRandom) (hp : Hyper) (df : Frame) (cf : Feat) (cn : CatNap)
    (hb : CatNap.build df cf = .ok cn) (hu : df.UniqueIndex) (hf : FineFor r m cn.conds.length) (init : List (List Cond))
    (hi : ∀ r ∈ init, OverCols df cf r) (hi0 : [] ∉ init) (pos neg : List Label)
    (hpos : ∀ l ∈ pos, l ∈ df.index) (hneg : ∀ l ∈ neg, l ∈ df.index) (fuel : Nat) (g : R.G) (st : RipSt R)
    (h : @ripperGrowCn (Arith.rounded r) fuel R cn hp init pos neg g = .ok st) (hm : st.rules.length ≤ init.length + m) :
    ∃ added, st.rules = init ++ added ∧ ∀ i < added.length, ∃ d,
      Excess (growBits df cn.conds.length init added pos neg) i d ∧
        d ≤ (hp.dlAllowance : ℝ) + 3 * lengthError r m cn.conds.length (pos.length + neg.length) := by
  obtain ⟨s, hs, h1, _⟩ := @ripperGrowCn_reach (Arith.rounded r) _ _ _ _ _ _ _ _ _ h
  obtain ⟨added, hG, _⟩ := RipReach.growNear hb hu hf hi hi0 hpos hneg hs (by rw [← h1]; exact hm)
  exact ⟨added, by rw [h1, hG.rules], hG.past⟩

/-- C103, stopping. With rounded numbers, if RIPPER's growing phase stops although positives are left, no limit is reached and
there was something to grow, then the description length is above the least one seen by more than `dl_allowance` bits less three
times the error. -/
theorem C103_growth_stops (r : Rounding) (m : Nat) (R : PyRandom) (hp : Hyper) (df : Frame) (cf : Feat) (cn : CatNap)
    (hb : CatNap.build df cf = .ok cn) (hu : df.UniqueIndex) (hf : FineFor r m cn.conds.length) (init : List (List Cond))
    (hi : ∀ r ∈ init, OverCols df cf r) (hi0 : [] ∉ init) (pos neg : List Label)
    (hpos : ∀ l ∈ pos, l ∈ df.index) (hneg : ∀ l ∈ neg, l ∈ df.index) (fuel : Nat) (g : R.G) (st : RipSt R)
    (h : @ripperGrowCn (Arith.rounded r) fuel R cn hp init pos neg g = .ok st) (hm : st.rules.length ≤ init.length + m) :
    ∃ added, st.rules = init ++ added ∧
      (st.pos = [] ∨
       (∃ d, Excess (growBits df cn.conds.length init added pos neg) added.length d ∧
         (hp.dlAllowance : ℝ) - 3 * lengthError r m cn.conds.length (pos.length + neg.length) < d) ∨
       stopEarly hp.lim st.rules st.pos.length st.neg.length = true ∨
       ∃ ps g', hp.pruneSize = some ps ∧
        (let s := @randomSplit (Arith.rounded r) R g' st.pos (r.fl (1 - (ps : ℝ))) hp.randomState
         let t := @randomSplit (Arith.rounded r) R s.2.2 st.neg (r.fl (1 - (ps : ℝ))) hp.randomState
         s.1 = [] ∨ @growRuleCn (Arith.rounded r) fuel cn hp.lim s.1 t.1 [] = .ok [])) := by
  let _ : Arith := Arith.rounded r
  have key : ∃ s s', RipReach fuel R cn hp pos neg ⟨init, pos, neg, none, Arith.zeroDl, g⟩ s ∧
      ripperStepCn fuel R cn hp pos neg s = .ok (.done s') ∧ s' = st := by
    unfold ripperGrowCn at h
    refine pyWhile_inv (I := fun s => RipReach fuel R cn hp pos neg ⟨init, pos, neg, none, Arith.zeroDl, g⟩ s)
      (Q := fun a => ∃ s s', RipReach fuel R cn hp pos neg ⟨init, pos, neg, none, Arith.zeroDl, g⟩ s ∧
        ripperStepCn fuel R cn hp pos neg s = .ok (.done s') ∧ s' = a) ?_ ?_ fuel _ st .start h
    · intro s s' hI hb'
      obtain ⟨rule, ha⟩ := ripperStepCn_more hb'
      exact .add hI ha
    · intro s a hI hb'
      exact ⟨s, a, hI, hb', rfl⟩
  obtain ⟨s, s', hs, hdone, rfl⟩ := key
  obtain ⟨e1, e2, e3⟩ := ripperStepCn_done hdone
  obtain ⟨added, hG, -⟩ := RipReach.growNear hb hu hf hi hi0 hpos hneg hs (by rw [← e1]; exact hm)
  refine ⟨added, by rw [e1, hG.rules], ?_⟩
  rw [e1, e2, e3]
  rcases ripperStepCn_done_why hdone with h | h | h | ⟨ps, hps, h⟩
  · exact Or.inl h
  · refine Or.inr (Or.inl ?_)
    obtain ⟨d, hd, hex⟩ := hG.diff
    refine ⟨d, hex, ?_⟩
    have hw : decide (s.diff ≤ hp.dlAllowance) = false := h
    have hw' : (hp.dlAllowance : ℝ) < s.diff := by exact_mod_cast not_le.mp (of_decide_eq_false hw)
    linarith [(abs_le.mp hd).2]
  · exact Or.inr (Or.inr (Or.inl h))
  · exact Or.inr (Or.inr (Or.inr ⟨ps, s.g, hps, h⟩))

/-- The hypotheses are met by doubles: on `Demo.conj`, growing (at most 100 rules), a pass over two rules, and their
simplification return. -/
example : ∀ cn, CatNap.build Demo.conj Demo.fc = .ok cn →
    let rules : List (List Cond) := [[⟨Demo.fa, Demo.vx⟩, ⟨Demo.fb, Demo.vx⟩], [⟨Demo.fb, Demo.vy⟩]]
    let pos := labelSet (posRows Demo.conj Demo.fc Demo.vp).index
    let neg := labelSet (negRows Demo.conj Demo.fc Demo.vp).index
    let hp : Hyper := { pruneSize := some (1 / 2) }
    Demo.conj.UniqueIndex ∧ FineFor Demo.doubles 100 cn.conds.length ∧ rules.length ≤ 100 ∧
    Sensible Demo.conj Demo.fc rules pos neg ∧ pos ≠ [] ∧ neg ≠ [] ∧
    (∃ out, @bestSubsetCn (Arith.rounded Demo.doubles) cn rules pos neg = .ok out) ∧
    (∃ out, @optimizeCn (Arith.rounded Demo.doubles) 19 Demo.R0 cn hp none rules pos neg () = .ok out) ∧
    (∃ st, @ripperGrowCn (Arith.rounded Demo.doubles) 19 Demo.R0 cn hp [] pos neg () = .ok st) := by
  intro cn h rules pos neg hp
  have hb := h
  have : CatNap.build Demo.conj Demo.fc = .ok _ := CatNap.build_ok (by decide +kernel)
  rw [this] at h
  injection h with h
  subst h
  have hu : Demo.conj.UniqueIndex := by unfold Frame.UniqueIndex; decide +kernel
  let _ : Arith := Arith.rounded Demo.doubles
  have _ := C81_rounded_lawful Demo.doubles
  have hva : Varied Demo.conj Demo.fc Demo.fa := by
    refine ⟨by decide +kernel, by decide, Demo.conj.rows[0]'(by decide +kernel), List.getElem_mem _,
      Demo.conj.rows[2]'(by decide +kernel), List.getElem_mem _, ?_, by decide +kernel⟩
    rw [← Val.pyEq_iff]
    decide +kernel
  have hvb : Varied Demo.conj Demo.fc Demo.fb := by
    refine ⟨by decide +kernel, by decide, Demo.conj.rows[0]'(by decide +kernel), List.getElem_mem _,
      Demo.conj.rows[1]'(by decide +kernel), List.getElem_mem _, ?_, by decide +kernel⟩
    rw [← Val.pyEq_iff]
    decide +kernel
  have hg := (⟨by
    intro r hr
    simp only [rules, List.mem_cons, List.not_mem_nil, or_false] at hr
    rcases hr with rfl | rfl
    · refine ⟨by decide +kernel, fun c hc => ?_⟩
      simp only [List.mem_cons, List.not_mem_nil, or_false] at hc
      rcases hc with rfl | rfl
      · exact hva
      · exact hvb
    · refine ⟨by decide +kernel, fun c hc => ?_⟩
      simp only [List.mem_cons, List.not_mem_nil, or_false] at hc
      subst hc
      exact hvb, fun _ => varied_count hb hva |>.trans (List.length_filter_le _ _)⟩ : AllGood Demo.conj Demo.fc _ rules)
  have hl : Arith.LeavesSome (1 / 2) := C81_prune_sizes Demo.doubles _ (by norm_num [Demo.doubles]) (by norm_num)
  refine ⟨hu, (Demo.doubles_fine 100 _ 0 le_rfl (by decide +kernel) (by norm_num)).1, by decide, ?_, by decide +kernel,
    by decide +kernel, bestSubsetCn_ok (hg.fits hb) pos neg, ?_, ?_⟩
  · exact ⟨fun r hr c hc => ⟨((hg.good r hr).2 c hc).1, ((hg.good r hr).2 c hc).2.1⟩, by decide +kernel, by decide +kernel, Or.inl (by decide +kernel)⟩
  · obtain ⟨out, g', ho, -⟩ := optimizeCn_safe (fuel := 19) (hp := hp) (allPos := pos) (allNeg := neg) (rs := none) Demo.R0_lawful hb hu
      rfl hl hg (by decide +kernel) ()
    exact ⟨_, ho⟩
  · obtain ⟨st, ho, -⟩ := ripperGrowCn_safe (fuel := 19) (hp := hp) (pos := pos) (neg := neg) Demo.R0_lawful hb hu
      (ps := 1 / 2) rfl (init := []) ⟨by simp, by simp⟩ (by decide +kernel) (by decide +kernel) ()
    exact ⟨_, ho⟩

end Witt
