import Verif.Props.Optimize
import Verif.Props.PlainOptimize
/-
C91: separate and conquer. Which examples each rule of a model was learned from, and when learning ends.
-/
namespace Witt
open Spec

namespace Spec
open Classical in
/-- The examples (given by their labels) that no rule of `earlier` covers, in their order. -/
noncomputable def Uncovered (df : Frame) (earlier : List (List Cond)) (all : List Label) : List Label :=
  all.filter (fun l => decide (∀ r ∈ earlier, ¬ Covered df r l))

/-- `r` is `grown` cut after the condition where `value` is highest, the earliest such cut; a rule whose value is negative
wherever it is cut stays whole. -/
def CutBy (value : List Cond → Rat) (grown r : List Cond) : Prop :=
  ∃ k, 1 ≤ k ∧ k ≤ grown.length ∧ r = grown.take k ∧
    ((0 ≤ value r ∧ ∀ j, 1 ≤ j → j ≤ grown.length →
        value (grown.take j) ≤ value r ∧ (j < k → value (grown.take j) < value r)) ∨
      (k = grown.length ∧ ∀ j, 1 ≤ j → j ≤ grown.length → value (grown.take j) < 0))

/-- The share of the examples the rule classifies correctly, as the program computes it. -/
noncomputable def shareCorrect [Arith] (df : Frame) (pos neg : List Label) (r : List Cond) : Rat :=
  Arith.quot ((nCovered df r pos : Int) + ((neg.length : Int) - nCovered df r neg)) ((pos.length : Int) + neg.length)

/-- RIPPER's worth of a rule, `(p - n + 1) / (p + n + 1)` for `p` positives and `n` negatives covered. -/
noncomputable def ruleWorth [Arith] (df : Frame) (pos neg : List Label) (r : List Cond) : Rat :=
  Arith.quot ((nCovered df r pos : Int) - nCovered df r neg + 1) ((nCovered df r pos : Int) + nCovered df r neg + 1)

/-- Of the examples the rule covers, at least half are positive (and there is one). -/
def HalfRight [Arith] (df : Frame) (pos neg : List Label) (r : List Cond) : Prop :=
  0 < nCovered df r pos + nCovered df r neg ∧
  1 / 2 ≤ Arith.quot (nCovered df r pos) ((nCovered df r pos : Int) + nCovered df r neg)

/-- IREP proposes `rule` from the examples `posLeft` and `negLeft`: each side is split in two, a rule is grown from nothing on
the first parts; without pruning the first parts are everything and the rule is taken as grown; with pruning the
rule is cut where it is most accurate on the second parts, and taken exactly if it is right on half of what it covers there. -/
def IrepProposes [Arith] (fuel : Nat) (cn : CatNap) (df : Frame) (hp : Hyper) (posLeft negLeft : List Label)
    (rule : List Cond) (taken : Prop) : Prop :=
  ∃ growPos prunePos growNeg pruneNeg grown,
    (growPos ++ prunePos).Perm posLeft ∧ (growNeg ++ pruneNeg).Perm negLeft ∧
    growRuleCn fuel cn hp.lim growPos growNeg [] = .ok grown ∧
    ((hp.irepPrune = 0 ∧ prunePos = [] ∧ pruneNeg = [] ∧ rule = grown ∧ taken) ∨
     (hp.irepPrune ≠ 0 ∧ BestCut (shareCorrect df prunePos pruneNeg) grown rule ∧
      (taken ↔ HalfRight df prunePos pruneNeg rule)))

/-- RIPPER learns `rule` from the examples `posLeft` and `negLeft`: each side is split in two, a rule is grown from nothing on
the first parts, and (unless `prune_size` is 0) cut where its worth on the second parts is highest. -/
def RipperLearns [Arith] (fuel : Nat) (cn : CatNap) (df : Frame) (hp : Hyper) (posLeft negLeft : List Label)
    (rule : List Cond) : Prop :=
  ∃ ps growPos prunePos growNeg pruneNeg grown, hp.pruneSize = some ps ∧
    (growPos ++ prunePos).Perm posLeft ∧ (growNeg ++ pruneNeg).Perm negLeft ∧ growPos ≠ [] ∧
    growRuleCn fuel cn hp.lim growPos growNeg [] = .ok grown ∧ grown ≠ [] ∧
    if ps = 0 then rule = grown else CutBy (ruleWorth df prunePos pruneNeg) grown rule

/-- A limit ends learning: `max_rules` or `max_total_conds` is reached, or fewer than `min_ruleset_samples` examples are
left. -/
def LimitReached (lim : Limits) (rules : List (List Cond)) (left : Nat) : Prop :=
  (∃ k, lim.maxRules = some k ∧ k ≤ (rules.length : Int)) ∨
  (∃ k, lim.maxTotalConds = some k ∧ k ≤ ((rules.map List.length).sum : Nat)) ∨
  (∃ k, lim.minRulesetSamples = some k ∧ (left : Int) < k)
end Spec

theorem stopEarly_iff {lim : Limits} {rules : List (List Cond)} {p n : Nat} :
    stopEarly lim rules p n = true ↔ LimitReached lim rules (p + n) := by
  unfold stopEarly LimitReached countConds
  cases lim.maxRules <;> cases lim.maxTotalConds <;> cases lim.minRulesetSamples <;>
    simp [atLeast, below, or_assoc]

section index
variable {df : Frame} {cf : Feat} {cn : CatNap} {R : PyRandom} {hp : Hyper} {fuel : Nat}

theorem uncovered_nil (df : Frame) (all : List Label) : Uncovered df [] all = all := by
  unfold Uncovered; simp

theorem uncovered_snoc (hb : CatNap.build df cf = .ok cn) (hu : df.UniqueIndex) (earlier : List (List Cond))
    {rule : List Cond} (hr : OverCols df cf rule) (all : List Label) :
    setDiff (Uncovered df earlier all) (cn.ruleCovers rule (some (Uncovered df earlier all))) =
      Uncovered df (earlier ++ [rule]) all := by
  rw [setDiff_ruleCovers]
  unfold Uncovered
  rw [List.filter_filter]
  apply List.filter_congr
  intro l _
  rw [Bool.eq_iff_iff]
  simp only [Bool.and_eq_true, Bool.not_eq_true', decide_eq_true_eq, List.mem_append, List.mem_singleton]
  have : cn.hit rule l = false ↔ ¬ Covered df rule l := by
    rw [← Bool.not_eq_true, CatNap.hit_iff hb hu hr]; rfl
  rw [this]
  constructor
  · rintro ⟨h1, h2⟩ r (h | rfl)
    · exact h2 r h
    · exact h1
  · intro h
    exact ⟨h rule (Or.inr rfl), fun r hr => h r (Or.inl hr)⟩

theorem grown_over [Arith] [Arith.Lawful] (hb : CatNap.build df cf = .ok cn) {lim : Limits} {a c : List Label}
    {grown : List Cond} (h : growRuleCn fuel cn lim a c [] = .ok grown) : OverCols df cf grown :=
  fun x hx => overCols_conds hb (grown_conds (CatNap.build_WF hb) h x hx)

theorem OverCols.pre {a b : List Cond} (h : OverCols df cf b) (hp : a <+: b) : OverCols df cf a :=
  fun c hc => h c (hp.subset hc)

/-- Pruning by a metric that always has a value. -/
theorem pruneRule_cutBy {value value' : List Cond → Rat} {grown rule : List Cond} (hne : grown ≠ [])
    (h : pruneRule (fun r => .ok (some (value r))) grown = .ok (some rule))
    (hv : ∀ k, value (grown.take k) = value' (grown.take k)) : CutBy value' grown rule := by
  obtain ⟨k, h1, h2, h3, h4⟩ := C24_prune_keeps_best_prefix value grown hne
  rw [h3] at h
  injection h with h
  injection h with h
  subst h
  refine ⟨k, h1, h2, rfl, ?_⟩
  rw [← hv]
  rcases h4 with ⟨h4, h5, h6⟩ | ⟨h4, h5⟩
  · refine Or.inl ⟨h4, fun j hj hj' => ?_⟩
    rw [← hv]
    exact ⟨h5 j hj hj', h6 j hj⟩
  · refine Or.inr ⟨h4, fun j hj hj' => ?_⟩
    rw [← hv]
    exact h5 j hj hj'

theorem cutBy_best {value : List Cond → Rat} {grown rule : List Cond} (h : CutBy value grown rule)
    (h0 : 0 ≤ value grown) : BestCut value grown rule := by
  obtain ⟨k, h1, h2, h3, h4⟩ := h
  refine Or.inr ⟨k, h1, h2, h3, ?_⟩
  rcases h4 with ⟨_, h4⟩ | ⟨hk, h4⟩
  · exact h4
  · have := h4 k h1 h2
    rw [hk, List.take_length] at this
    exact absurd this (not_lt.mpr h0)

variable [Arith] [Arith.Lawful]

omit [Arith.Lawful] in
theorem shareCorrect_eq (hb : CatNap.build df cf = .ok cn) (hu : df.UniqueIndex) {r : List Cond}
    (hr : OverCols df cf r) {b d : List Label} (hne : b.length + d.length ≠ 0) :
    irepMetricCn cn b d r = .ok (some (shareCorrect df b d r)) := by
  unfold irepMetricCn shareCorrect
  simp only
  rw [if_neg hne, nCovered_eq hb hu hr, nCovered_eq hb hu hr]

omit [Arith] [Arith.Lawful] in
theorem nCovered_le (df : Frame) (r : List Cond) (l : List Label) : nCovered df r l ≤ l.length :=
  List.countP_le_length

theorem shareCorrect_nonneg {b d : List Label} (hne : b.length + d.length ≠ 0) (r : List Cond) :
    0 ≤ shareCorrect df b d r := by
  refine Arith.Lawful.quot_nonneg _ _ ?_ (by omega)
  have := nCovered_le df r d
  omega

theorem irepPrune_cut (hb : CatNap.build df cf = .ok cn) (hu : df.UniqueIndex) {b d : List Label} {grown rule : List Cond}
    (hg : OverCols df cf grown) (h : pruneRule (irepMetricCn cn b d) grown = .ok (some rule)) :
    BestCut (shareCorrect df b d) grown rule := by
  by_cases hne : grown = []
  · subst hne
    injection h with h; injection h with h
    exact Or.inl ⟨rfl, h.symm⟩
  · have hz : b.length + d.length ≠ 0 := by
      intro hz
      have hm : ∀ r, irepMetricCn cn b d r = .error .zeroDivision := by
        intro r; unfold irepMetricCn; simp only; rw [if_pos hz]
      unfold pruneRule at h
      rw [if_neg hne] at h
      obtain ⟨n, hn⟩ : ∃ n, grown.length = n + 1 := ⟨grown.length - 1, by
        have := List.length_pos_iff.mpr hne; omega⟩
      rw [hn, pruneLoop, hm] at h
      cases h
    have hm : irepMetricCn cn b d = fun r => .ok (some (Arith.quot
        (((cn.ruleCovers r (some b)).length : Int) + ((d.length : Int) - (cn.ruleCovers r (some d)).length))
        ((b.length : Int) + d.length))) := by
      funext r; unfold irepMetricCn; simp only; rw [if_neg hz]
    rw [hm] at h
    refine cutBy_best (pruneRule_cutBy hne h ?_) (shareCorrect_nonneg hz _)
    intro k
    have ho := OverCols.pre hg (List.take_prefix k grown)
    unfold shareCorrect
    rw [nCovered_eq hb hu ho, nCovered_eq hb hu ho]

omit [Arith.Lawful] in
theorem halfRight_iff (hb : CatNap.build df cf = .ok cn) (hu : df.UniqueIndex) {b d : List Label} {r : List Cond}
    (hr : OverCols df cf r) : HalfRight df b d r ↔ ∃ q, rulePrecisionCn cn r b d = some q ∧ q ≠ 0 ∧ 1 / 2 ≤ q := by
  unfold HalfRight rulePrecisionCn
  simp only
  rw [nCovered_eq hb hu hr, nCovered_eq hb hu hr]
  constructor
  · rintro ⟨h1, h2⟩
    rw [if_neg (by omega)]
    refine ⟨_, rfl, ?_, h2⟩
    intro h0
    rw [h0] at h2
    norm_num at h2
  · rintro ⟨q, h, _, h2⟩
    split at h
    · cases h
    · injection h with h
      subst h
      exact ⟨by omega, h2⟩

/-- The growing state is determined by the rules learned. -/
theorem irep_covering (hb : CatNap.build df cf = .ok cn) (hu : df.UniqueIndex) (hR : R.Lawful) {init : List (List Cond)}
    {P N : List Label} {g : R.G} {s : GrowSt R} (h : IrepReach fuel R cn hp ⟨init, P, N, g⟩ s) :
    ∃ learned, s.rules = init ++ learned ∧ s.pos = Uncovered df learned P ∧
      s.neg = (if hp.irepPrune = 0 then N else Uncovered df learned N) ∧
      ∀ (j : Nat) rule, learned[j]? = some rule →
        IrepProposes fuel cn df hp (Uncovered df (learned.take j) P)
          (if hp.irepPrune = 0 then N else Uncovered df (learned.take j) N) rule True := by
  induction h with
  | start => exact ⟨[], by simp, (uncovered_nil df P).symm, by simp [uncovered_nil], by intro j rule h; simp at h⟩
  | @add s s' rule _ ha ih =>
    obtain ⟨learned, h1, h2, h3, h4⟩ := ih
    have hov : OverCols df cf rule := fun c hc => overCols_conds hb (ha.conds (CatNap.build_WF hb) c hc)
    refine ⟨learned ++ [rule], by rw [ha.rules, h1, List.append_assoc], ?_, ?_, ?_⟩
    · rw [ha.pos, h2, uncovered_snoc hb hu _ hov]
    · obtain ⟨a, b, c, d, g1, grown, e1, e2, e3, e4⟩ := ha.how
      rcases e4 with ⟨hz, _, e⟩ | ⟨hz, _, e, _⟩
      · rw [e, h3, if_pos hz, if_pos hz]
      · rw [e, h3, if_neg hz, if_neg hz, uncovered_snoc hb hu _ hov]
    · intro j r hj
      rcases Nat.lt_trichotomy j learned.length with hlt | heq | hgt
      · rw [List.getElem?_append_left hlt] at hj
        rw [List.take_append_of_le_length (le_of_lt hlt)]
        exact h4 j r hj
      · subst heq
        rw [List.getElem?_append_right (le_refl _)] at hj
        simp only [Nat.sub_self, List.getElem?_cons_zero, Option.some.injEq] at hj
        subst hj
        rw [List.take_left' rfl, ← h2, ← h3]
        obtain ⟨a, b, c, d, g1, grown, e1, e2, e3, e4⟩ := ha.how
        have p1 := randomSplit_perm hR s.g s.pos (Arith.complement hp.irepPrune) hp.randomState
        have p2 := randomSplit_perm hR g1 s.neg (Arith.complement hp.irepPrune) hp.randomState
        rw [e1] at p1; rw [e2] at p2
        refine ⟨a, b, c, d, grown, p1, p2, e3, ?_⟩
        rcases e4 with ⟨hz, e, _⟩ | ⟨hz, e, _, q, hq⟩
        · have q1 := (randomSplit_one hR s.g s.pos hp.randomState).2
          have q2 := (randomSplit_one hR g1 s.neg hp.randomState).2
          rw [hz, Arith.Lawful.complement_zero] at e1 e2
          rw [e1] at q1; rw [e2] at q2
          exact Or.inl ⟨hz, q1, q2, e, trivial⟩
        · refine Or.inr ⟨hz, irepPrune_cut hb hu (grown_over hb e3) e, ?_⟩
          exact ⟨fun _ => (halfRight_iff hb hu hov).mpr ⟨q, hq⟩, fun _ => trivial⟩
      · rw [List.getElem?_eq_none (by simp; omega)] at hj; cases hj

omit [Arith.Lawful] in
/-- A growing loop ends with an iteration that ends it. -/
theorem irepGrowCn_last {init : List (List Cond)} {pos neg : List Label} {g : R.G} {st : GrowSt R}
    (h : irepGrowCn fuel R cn hp init pos neg g = .ok st) :
    ∃ s, IrepReach fuel R cn hp ⟨init, pos, neg, g⟩ s ∧ irepStepCn fuel R cn hp s = .ok (.done st) := by
  unfold irepGrowCn at h
  refine pyWhile_inv (I := fun s => IrepReach fuel R cn hp ⟨init, pos, neg, g⟩ s)
    (Q := fun a => ∃ s, IrepReach fuel R cn hp ⟨init, pos, neg, g⟩ s ∧ irepStepCn fuel R cn hp s = .ok (.done a))
    ?_ ?_ fuel _ st .start h
  · intro s s' hI hb
    obtain ⟨rule, ha⟩ := irepStepCn_more hb
    exact .add hI ha
  · intro s a hI hb
    exact ⟨s, hI, hb⟩

/-- Why an iteration is the last one. -/
theorem irepStepCn_last (hb : CatNap.build df cf = .ok cn) (hu : df.UniqueIndex) (hR : R.Lawful) {st st' : GrowSt R}
    (h : irepStepCn fuel R cn hp st = .ok (.done st')) :
    st'.rules = st.rules ∧ (st.pos = [] ∨ stopEarly hp.lim st.rules st.pos.length st.neg.length = true ∨
      ∃ rule, IrepProposes fuel cn df hp st.pos st.neg rule False) := by
  refine ⟨(irepStepCn_done h).1, ?_⟩
  unfold irepStepCn at h
  split at h
  · rename_i hz; exact Or.inl hz
  split at h
  · rename_i hs; exact Or.inr (Or.inl hs)
  refine Or.inr (Or.inr ?_)
  have p1 := randomSplit_perm hR st.g st.pos (Arith.complement hp.irepPrune) hp.randomState
  rcases hp1 : randomSplit R st.g st.pos (Arith.complement hp.irepPrune) hp.randomState with ⟨a, b, g1⟩
  have p2 := randomSplit_perm hR g1 st.neg (Arith.complement hp.irepPrune) hp.randomState
  rcases hp2 : randomSplit R g1 st.neg (Arith.complement hp.irepPrune) hp.randomState with ⟨c, d, g2⟩
  rw [hp1] at p1; rw [hp2] at p2
  simp only [hp1, hp2] at h
  obtain ⟨grown, hg, h⟩ := bind_ok_iff.mp h
  split at h
  · simp [pure_eq_ok] at h
  · rename_i hz
    obtain ⟨o, hpr, h⟩ := bind_ok_iff.mp h
    cases o with
    | none => simp at h
    | some pruned =>
      have hov : OverCols df cf pruned := OverCols.pre (grown_over hb hg) (pruneRule_prefix hpr).1
      refine ⟨pruned, a, b, c, d, grown, p1, p2, hg, Or.inr ⟨hz, irepPrune_cut hb hu (grown_over hb hg) hpr, ?_⟩⟩
      rw [halfRight_iff hb hu hov]
      refine ⟨False.elim, ?_⟩
      rintro ⟨q, hq, hq0, hq1⟩
      simp only at h
      rw [hq] at h
      simp only at h
      split at h
      · rename_i hc
        rcases hc with hc | hc
        · exact hq0 hc
        · exact absurd hq1 (not_le.mpr hc)
      · simp [pure_eq_ok] at h

/-- RIPPER's growing state is determined by the rules learned. -/
theorem ripper_covering (hb : CatNap.build df cf = .ok cn) (hu : df.UniqueIndex) (hR : R.Lawful)
    {init : List (List Cond)} {P N : List Label} {g : R.G} {dl : Option (Rat × Rat)} {diff : Rat} {s : RipSt R}
    (h : RipReach fuel R cn hp P N ⟨init, P, N, dl, diff, g⟩ s) :
    ∃ learned, s.rules = init ++ learned ∧ s.pos = Uncovered df learned P ∧ s.neg = Uncovered df learned N ∧
      ∀ (j : Nat) rule, learned[j]? = some rule →
        RipperLearns fuel cn df hp (Uncovered df (learned.take j) P) (Uncovered df (learned.take j) N) rule := by
  induction h with
  | start => exact ⟨[], by simp, (uncovered_nil df P).symm, (uncovered_nil df N).symm, by intro j rule h; simp at h⟩
  | @add s s' rule _ ha ih =>
    obtain ⟨learned, h1, h2, h3, h4⟩ := ih
    have hov : OverCols df cf rule := by
      obtain ⟨ps, a, b, c, d, g1, grown, _, _, _, _, h3, _, h4⟩ := ha.how
      exact OverCols.pre (grown_over hb h3) (ripPrune_prefix h4).1
    refine ⟨learned ++ [rule], by rw [ha.rules, h1, List.append_assoc], ?_, ?_, ?_⟩
    · rw [ha.pos, h2, uncovered_snoc hb hu _ hov]
    · rw [ha.neg, h3, uncovered_snoc hb hu _ hov]
    · intro j r hj
      rcases Nat.lt_trichotomy j learned.length with hlt | heq | hgt
      · rw [List.getElem?_append_left hlt] at hj
        rw [List.take_append_of_le_length (le_of_lt hlt)]
        exact h4 j r hj
      · subst heq
        rw [List.getElem?_append_right (le_refl _)] at hj
        simp only [Nat.sub_self, List.getElem?_cons_zero, Option.some.injEq] at hj
        subst hj
        rw [List.take_left' rfl, ← h2, ← h3]
        obtain ⟨ps, a, b, c, d, g1, grown, e0, e1, e2, e3, e4, e5, e6⟩ := ha.how
        have p1 := randomSplit_perm hR s.g s.pos (Arith.complement ps) hp.randomState
        have p2 := randomSplit_perm hR g1 s.neg (Arith.complement ps) hp.randomState
        rw [e1] at p1; rw [e2] at p2
        refine ⟨ps, a, b, c, d, grown, e0, p1, p2, e3, e4, e5, ?_⟩
        unfold ripPrune at e6
        split at e6
        · rename_i hz
          rw [if_neg hz]
          refine pruneRule_cutBy (value := fun r => Arith.quot
            (((cn.ruleCovers r (some b)).length : Int) - (cn.ruleCovers r (some d)).length + 1)
            (((cn.ruleCovers r (some b)).length : Int) + (cn.ruleCovers r (some d)).length + 1)) e5 e6 ?_
          intro k
          have ho := OverCols.pre (grown_over hb e4) (List.take_prefix k grown)
          simp only [ruleWorth]
          rw [nCovered_eq hb hu ho, nCovered_eq hb hu ho]
        · rename_i hz
          rw [if_pos (not_not.mp hz)]
          injection e6 with e6; injection e6 with e6
          exact e6.symm
      · rw [List.getElem?_eq_none (by simp; omega)] at hj; cases hj

omit [Arith.Lawful] in
/-- The choices of a pass are made on the examples no earlier rule of the given ruleset covers. -/
theorem optimizeLoop_examples (hb : CatNap.build df cf = .ok cn) (hu : df.UniqueIndex) (hR : R.Lawful) {ps : Rat}
    {rs : Option Int} {original : List (List Cond)} {odl : Rat} {allPos allNeg : List Label} :
    ∀ (rest : List (List Cond)) (i : Nat) (new : List (List Cond)) (pos neg : List Label) (g : R.G)
      (out : List (List Cond)) (g' : R.G),
    optimizeLoop fuel R cn hp ps rs original odl allPos allNeg i rest new pos neg g = .ok (out, g') →
    original.drop i = rest → (∀ r ∈ rest, OverCols df cf r) →
    pos = Uncovered df (original.take i) allPos → neg = Uncovered df (original.take i) allNeg →
    ∀ j x, out[j]? = some x → new[j]? = some x ∨
      (i ≤ j ∧ ∃ rule, rest[j - i]? = some rule ∧ (x = rule ∨ ∃ a b c d,
        (a ++ b).Perm (Uncovered df (original.take j) allPos) ∧
        (c ++ d).Perm (Uncovered df (original.take j) allNeg) ∧
        optimizeChoice fuel cn hp original odl j rule allPos allNeg a b c d = .ok x)) := by
  intro rest
  induction rest with
  | nil =>
    intro i new pos neg g out g' h
    simp only [optimizeLoop, Except.ok.injEq, Prod.mk.injEq] at h
    obtain ⟨rfl, rfl⟩ := h
    exact fun _ _ _ _ j x h => Or.inl h
  | cons rule rest ih =>
    intro i new pos neg g out g' h hd hov hpos hneg
    rw [optimizeLoop] at h
    have p1 := randomSplit_perm hR g pos (Arith.complement ps) rs
    rcases hp1 : randomSplit R g pos (Arith.complement ps) rs with ⟨a, b, g1⟩
    have p2 := randomSplit_perm hR g1 neg (Arith.complement ps) rs
    rcases hp2 : randomSplit R g1 neg (Arith.complement ps) rs with ⟨c, d, g2⟩
    rw [hp1, hpos] at p1; rw [hp2, hneg] at p2
    simp only [hp1, hp2] at h
    split at h
    · simp only [pure_eq_ok, Except.ok.injEq, Prod.mk.injEq] at h
      obtain ⟨rfl, rfl⟩ := h
      exact fun j x h => Or.inl h
    split at h
    · simp only [pure_eq_ok, Except.ok.injEq, Prod.mk.injEq] at h
      obtain ⟨rfl, rfl⟩ := h
      exact fun j x h => Or.inl h
    obtain ⟨best, hbest, h⟩ := bind_ok_iff.mp h
    generalize hv : (if (!condsIn best new) = true then best else rule) = v at h
    have hset : ∀ j x, (new.set i v)[j]? = some x → new[j]? = some x ∨
        (i ≤ j ∧ ∃ r, (rule :: rest)[j - i]? = some r ∧ (x = r ∨ ∃ a b c d,
          (a ++ b).Perm (Uncovered df (original.take j) allPos) ∧
          (c ++ d).Perm (Uncovered df (original.take j) allNeg) ∧
          optimizeChoice fuel cn hp original odl j r allPos allNeg a b c d = .ok x)) := by
      intro j x hx
      rw [List.getElem?_set] at hx
      split at hx
      · rename_i hij
        subst hij
        split at hx
        · injection hx with hx
          refine Or.inr ⟨le_refl _, rule, by simp, ?_⟩
          subst hx hv
          split
          · exact Or.inr ⟨a, b, c, d, p1, p2, hbest⟩
          · exact Or.inl rfl
        · cases hx
      · exact Or.inl hx
    have hi : original[i]? = some rule := by
      have := congrArg (·[0]?) hd
      simpa using this
    have htake : original.take (i + 1) = original.take i ++ [rule] := by
      rw [List.take_add_one, hi]; rfl
    have hdrop : original.drop (i + 1) = rest := by
      rw [← List.drop_drop, hd]; rfl
    have hro := hov rule List.mem_cons_self
    split at h
    · simp only [pure_eq_ok, Except.ok.injEq, Prod.mk.injEq] at h
      obtain ⟨rfl, _⟩ := h
      exact hset
    · have h2 := ih (i + 1) _ _ _ _ _ _ h hdrop (fun r hr => hov r (List.mem_cons_of_mem _ hr))
        (by rw [htake, hpos]; exact uncovered_snoc hb hu _ hro _)
        (by rw [htake, hneg]; exact uncovered_snoc hb hu _ hro _)
      intro j x hx
      rcases h2 j x hx with h | ⟨hj, r, hr, h⟩
      · exact hset j x h
      · refine Or.inr ⟨by omega, r, ?_, h⟩
        have : j - i = (j - (i + 1)) + 1 := by omega
        rw [this, List.getElem?_cons_succ]
        exact hr

end index

/-- C91, IREP. The model consists of initial rules and learned rules, in order (duplicates and what exceeds `max_total_conds`
left out). The j-th learned rule was proposed from exactly the positives that no rule learned before it covers, and (with
pruning) exactly the negatives no rule learned before it covers; without pruning all the negatives are used every time.
Learning ended because every positive was covered by a learned rule, or a limit was reached, or the next rule proposed
was not right on half of what it covers. -/
theorem C91_irep_separates_and_conquers [Arith] [Arith.Lawful] (R : PyRandom) (hR : R.Lawful) (hp : Hyper) (init : List (List Cond))
    (df : Frame) (hu : df.UniqueIndex) (cf : Feat) (pc : Val) (fuel : Nat) (g g' : R.G) (m : Fitted)
    (h : irepFit fuel R hp init df cf pc g = .ok (m, g')) :
    ∃ cn learned, CatNap.build df cf = .ok cn ∧
      (m.ruleset.rules.map Rule.conds).Sublist (init ++ learned) ∧
      let P := labelSet (posRows df cf pc).index
      let N := labelSet (negRows df cf pc).index
      let posLeft := fun rules => Uncovered df rules P
      let negLeft := fun rules => if hp.irepPrune = 0 then N else Uncovered df rules N
      (∀ (j : Nat) rule, learned[j]? = some rule →
        IrepProposes fuel cn df hp (posLeft (learned.take j)) (negLeft (learned.take j)) rule True) ∧
      (posLeft learned = [] ∨
        LimitReached hp.lim (init ++ learned) ((posLeft learned).length + (negLeft learned).length) ∨
        ∃ rule, IrepProposes fuel cn df hp (posLeft learned) (negLeft learned) rule False) := by
  obtain ⟨_, cn, st, hb, hg, hm, _⟩ := irepFit_ok h
  obtain ⟨s, hs, hd⟩ := irepGrowCn_last hg
  obtain ⟨hr, hend⟩ := irepStepCn_last hb hu hR hd
  obtain ⟨learned, h1, h2, h3, h4⟩ := irep_covering hb hu hR hs
  refine ⟨cn, learned, hb, ?_, h4, ?_⟩
  · rw [hm, ← h1, ← hr]; exact finish_sublist _ _
  · rw [stopEarly_iff, h1, h2, h3] at hend
    exact hend

/-- C91, RIPPER's growing phase (the first, and the one that covers what optimisation left): it adds rules to those it was
given, and the j-th one added was learned from exactly the positives and negatives that no rule added before it covers. -/
theorem C91_ripper_separates_and_conquers [Arith] [Arith.Lawful] (R : PyRandom) (hR : R.Lawful) (hp : Hyper) (df : Frame)
    (hu : df.UniqueIndex) (cf : Feat) (cn : CatNap) (hb : CatNap.build df cf = .ok cn) (init : List (List Cond))
    (pos neg : List Label) (fuel : Nat) (g : R.G) (st : RipSt R)
    (h : ripperGrowCn fuel R cn hp init pos neg g = .ok st) :
    ∃ learned, st.rules = init ++ learned ∧
      st.pos = Uncovered df learned pos ∧ st.neg = Uncovered df learned neg ∧
      ∀ (j : Nat) rule, learned[j]? = some rule →
        RipperLearns fuel cn df hp (Uncovered df (learned.take j) pos) (Uncovered df (learned.take j) neg) rule := by
  obtain ⟨s, hs, h1, h2, h3⟩ := ripperGrowCn_reach h
  obtain ⟨learned, e1, e2, e3, e4⟩ := ripper_covering hb hu hR hs
  exact ⟨learned, by rw [h1, e1], by rw [h2, e2], by rw [h3, e3], e4⟩

/-- C91, RIPPER's optimisation. A pass either keeps the rule at a position or exchanges it for the choice made (C47) with
the examples that no rule before that position, in the ruleset the pass was given, covers: replacements and revisions are
grown on one part of exactly these and cut on the other part. -/
theorem C91_optimisation_examples [Arith] (R : PyRandom) (hR : R.Lawful) (hp : Hyper) (df : Frame)
    (hu : df.UniqueIndex) (cf : Feat) (cn : CatNap) (hb : CatNap.build df cf = .ok cn) (seed : Option Int)
    (rules out : List (List Cond)) (hrules : ∀ r ∈ rules, OverCols df cf r) (pos neg : List Label) (fuel : Nat) (g g' : R.G)
    (h : optimizeCn fuel R cn hp seed rules pos neg g = .ok (out, g')) :
    ∃ simplified odl, bestSubsetCn cn rules pos neg = .ok (simplified, odl) ∧
      ∀ (j : Nat) r', out[j]? = some r' → ∃ r, rules[j]? = some r ∧ (r' = r ∨ ∃ growPos prunePos growNeg pruneNeg,
        (growPos ++ prunePos).Perm (Uncovered df (rules.take j) pos) ∧
        (growNeg ++ pruneNeg).Perm (Uncovered df (rules.take j) neg) ∧
        optimizeChoice fuel cn hp rules odl j r pos neg growPos prunePos growNeg pruneNeg = .ok r') := by
  unfold optimizeCn at h
  obtain ⟨⟨mdl, odl⟩, hbest, h⟩ := bind_ok_iff.mp h
  refine ⟨mdl, odl, hbest, ?_⟩
  simp only at h
  cases hps : hp.pruneSize with
  | none =>
    rw [hps] at h
    simp only at h
    split at h
    · simp only [pure_eq_ok, Except.ok.injEq, Prod.mk.injEq] at h
      obtain ⟨rfl, _⟩ := h
      exact fun j x hx => ⟨x, hx, Or.inl rfl⟩
    · cases h
  | some ps =>
    rw [hps] at h
    have h2 := optimizeLoop_examples hb hu hR _ _ _ _ _ _ _ _ h rfl hrules (uncovered_nil df pos).symm
      (uncovered_nil df neg).symm
    intro j x hx
    rcases h2 j x hx with h | ⟨_, r, hr, h⟩
    · exact ⟨x, h, Or.inl rfl⟩
    · exact ⟨r, by simpa using hr, h⟩

end Witt
