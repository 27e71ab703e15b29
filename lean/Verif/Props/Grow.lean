import Verif.Lemmas.GrowDf
import Verif.Props.Index
/-
C19-C25: growing and pruning one rule.
-/
namespace Witt
open Spec

/-- Specification of rule growth: `r` is reached from `init` by appending candidate conditions one at a
time, each one keeping a positive example covered and giving up a negative example covered before. -/
inductive Spec.GrownBy (df : Frame) (cands : List Cond) (pos neg : List Label) (init : List Cond) :
    List Cond → Prop where
  | start : GrownBy df cands pos neg init init
  | add {r : List Cond} {c : Cond} : GrownBy df cands pos neg init r → c ∈ cands →
      (∃ l ∈ pos, Covered df (r ++ [c]) l) →
      (∃ l ∈ neg, Covered df r l ∧ ¬ Covered df (r ++ [c]) l) →
      GrownBy df cands pos neg init (r ++ [c])

theorem GrowChain.grownBy {df : Frame} {cf : Feat} {cn : CatNap} (hb : CatNap.build df cf = .ok cn)
    (hu : df.UniqueIndex) {pos neg : List Label} {init r : List Cond} (hi : OverCols df cf init)
    (h : GrowChain cn pos neg init r) : GrownBy df cn.conds pos neg init r := by
  induction h with
  | refl => exact .start
  | @snoc r c hc hus ih =>
    have hr := hc.overCols hb hi
    have hrc : OverCols df cf (r ++ [c]) := overCols_append.mpr
      ⟨hr, by intro x hx; simp at hx; subst hx; exact overCols_conds hb hus.mem⟩
    refine .add ih hus.mem ?_ ?_
    · obtain ⟨l, hl, hh⟩ := hus.keeps
      exact ⟨l, hl, (CatNap.hit_iff hb hu hrc).mp hh⟩
    · obtain ⟨l, hl, h1, h2⟩ := hus.loses
      refine ⟨l, hl, (CatNap.hit_iff hb hu hr).mp h1, fun h3 => ?_⟩
      rw [← Bool.not_eq_true] at h2
      exact h2 ((CatNap.hit_iff hb hu hrc).mpr h3)

/-- C19. Growing over the index and growing over DataFrames give the same rule (or both run out of
fuel), given the same candidates and the same examples, for every setting of the limits. -/
theorem C19_growth_agrees [Arith] [Arith.Lawful] (df : Frame) (cf : Feat) (cn : CatNap) (hb : CatNap.build df cf = .ok cn)
    (hu : df.UniqueIndex) (pos neg : Frame)
    (hpos : ∀ row ∈ pos.rows, row ∈ df.rows) (hneg : ∀ row ∈ neg.rows, row ∈ df.rows)
    (hcp : ∀ f, f ∈ df.cols → f ≠ cf → f ∈ pos.cols) (hcn : ∀ f, f ∈ df.cols → f ≠ cf → f ∈ neg.cols)
    (lim : Limits) (init : List Cond) (hi : OverCols df cf init) (fuel : Nat) :
    growRule fuel cn.conds lim pos neg init =
      growRuleCn fuel cn lim (pos.rows.map Row.label) (neg.rows.map Row.label) init :=
  growRule_eq hb hu ⟨hpos, hcp⟩ ⟨hneg, hcn⟩ lim fuel hi

example : (∀ row ∈ (posRows Demo.train Demo.fc Demo.vp).rows, row ∈ Demo.train.rows) ∧
    growRule 9 Demo.cn.conds {} (posRows Demo.train Demo.fc Demo.vp) (negRows Demo.train Demo.fc Demo.vp) []
      = .ok [⟨Demo.fa, Demo.vx⟩, ⟨Demo.fb, Demo.vx⟩] ∧
    growRuleCn 9 Demo.cn {} [0, 1] [2, 3, 4] [] = .ok [⟨Demo.fa, Demo.vx⟩, ⟨Demo.fb, Demo.vx⟩] :=
  ⟨fun _ h => (List.mem_filter.mp h).1, by decide +kernel, by decide +kernel⟩

/-- C20. Growth halts: with more iterations allowed than there are negatives covered by the initial rule,
the loop ends normally, and the result no longer depends on the number allowed. The result is the
initial rule plus candidate conditions, each giving up a covered negative and keeping a positive; only
when `min_rule_samples` is set may the last condition have been popped again. -/
theorem C20_growth_terminates_and_refines [Arith] [Arith.Lawful] (df : Frame) (cf : Feat) (cn : CatNap)
    (hb : CatNap.build df cf = .ok cn) (hu : df.UniqueIndex) (lim : Limits) (pos neg : List Label)
    (init : List Cond) (hi : OverCols df cf init) :
    ∃ r, (∀ fuel, (cn.ruleCovers init (some neg)).length < fuel →
        growRuleCn fuel cn lim pos neg init = .ok r) ∧
      (cn.ruleCovers init (some neg)).length ≤ neg.length ∧
      ∃ r0, GrownBy df cn.conds pos neg init r0 ∧
        (r = r0 ∨ (lim.minRuleSamples.isSome ∧ r0 ≠ [] ∧ r = r0.dropLast)) := by
  have hw := CatNap.build_WF hb
  obtain ⟨r, h1, h2⟩ := growRuleCn_total (fuel := (cn.ruleCovers init (some neg)).length + 1) hw
    (lim := lim) (pos := pos) (neg := neg) (init := init) (Nat.lt_succ_self _)
  refine ⟨r, ?_, ruleCovers_length_le, ?_⟩
  · intro fuel hf
    rw [← h1]; exact growRuleCn_stable hw hf (Nat.lt_succ_self _)
  · obtain ⟨r0, hc, hr⟩ := h2.chain
    exact ⟨r0, hc.grownBy hb hu hi, hr⟩

/-- C20, for a single run: whatever the fuel, a run that ends has such a result. -/
theorem C20_every_run [Arith] [Arith.Lawful] (df : Frame) (cf : Feat) (cn : CatNap)
    (hb : CatNap.build df cf = .ok cn) (hu : df.UniqueIndex) (lim : Limits) (pos neg : List Label)
    (init : List Cond) (hi : OverCols df cf init) (fuel : Nat) (r : List Cond)
    (h : growRuleCn fuel cn lim pos neg init = .ok r) :
    ∃ r0, GrownBy df cn.conds pos neg init r0 ∧
        (r = r0 ∨ (lim.minRuleSamples.isSome ∧ r0 ≠ [] ∧ r = r0.dropLast)) := by
  obtain ⟨r0, hc, hr⟩ := (growRuleCn_post (CatNap.build_WF hb) h).chain
  exact ⟨r0, hc.grownBy hb hu hi, hr⟩

/-- C20. Each condition added is one of maximal gain among all candidates, the first such, and its gain
is positive; growth from a rule stops without a user limit only when it covers no negative or no
candidate has positive gain. -/
theorem C20_greedy_choice [Arith] (df : Frame) (cf : Feat) (cn : CatNap) (hb : CatNap.build df cf = .ok cn)
    (pos neg : List Label) (r : List Cond) :
    let p := fun s => (cn.ruleCovers s (some pos)).length
    let n := fun s => (cn.ruleCovers s (some neg)).length
    let gain := fun c => Arith.gain (p r) (n r) (p (r ++ [c])) (n (r ++ [c]))
    (∀ r', bestRuleSuccessorCn cn r pos neg = some r' →
      ∃ before c after, cn.conds = before ++ c :: after ∧ r' = r ++ [c] ∧ 1 < gain c ∧
        (∀ d ∈ before, gain d < gain c) ∧ ∀ d ∈ after, gain d ≤ gain c) ∧
    (bestRuleSuccessorCn cn r pos neg = none → ∀ c ∈ cn.conds, gain c ≤ 1) :=
  ⟨fun _ h => bestSucc_some (CatNap.build_WF hb) h, fun h => bestSucc_none (CatNap.build_WF hb) h⟩

/-- C21. A rule grown from the empty rule tests no feature twice, tests only non-class columns for values
that occur in them, and covers one of the positives it was grown on (if there was one). -/
theorem C21_grown_rule [Arith] [Arith.Lawful] (df : Frame) (cf : Feat) (cn : CatNap) (hb : CatNap.build df cf = .ok cn)
    (hu : df.UniqueIndex) (lim : Limits) (pos neg : List Label) (fuel : Nat) (r : List Cond)
    (h : growRuleCn fuel cn lim pos neg [] = .ok r) :
    (r.map Cond.feature).Nodup ∧
    (∀ c ∈ r, c.feature ∈ df.cols ∧ c.feature ≠ cf ∧ ∃ row ∈ df.rows, row.cell c.feature = c.val) ∧
    (pos ≠ [] → (∀ l ∈ pos, l ∈ df.index) → ∃ l ∈ pos, Covered df r l) := by
  have hw := CatNap.build_WF hb
  obtain ⟨r0, hc, hr⟩ := (growRuleCn_post hw h).chain
  have h0 : OverCols df cf [] := by intro c hc; simp at hc
  have hsub : r <+: r0 := by
    rcases hr with rfl | ⟨_, _, rfl⟩
    · exact List.prefix_rfl
    · exact List.dropLast_prefix _
  have hov : OverCols df cf r := fun c hx => hc.overCols hb h0 c (hsub.subset hx)
  refine ⟨(hc.nodup hb hu h0 (by simp)).sublist (hsub.sublist.map _), ?_, ?_⟩
  · intro c hx
    refine ⟨(hov c hx).1, (hov c hx).2, ?_⟩
    rcases hc.mem c (hsub.subset hx) with h | h
    · simp at h
    · rw [CatNap.build_conds hb] at h
      exact mem_unique (mem_possibleConds.mp h).2
  · intro hp hs
    obtain ⟨l, hl, hh⟩ := growRuleCn_covers_pos hw h hp (fun l hl => (CatNap.mem_all hb).mpr (hs l hl))
    exact ⟨l, hl, (CatNap.hit_iff hb hu hov).mp hh⟩

/-- C22, growth. A rule grown under `max_rule_conds = m` from a rule with at most `m` conditions has at
most `m` conditions. -/
theorem C22_grown_rule_length [Arith] [Arith.Lawful] (df : Frame) (cf : Feat) (cn : CatNap) (hb : CatNap.build df cf = .ok cn)
    (lim : Limits) (m : Int) (hm : lim.maxRuleConds = some m) (pos neg : List Label) (init : List Cond)
    (hi : (init.length : Int) ≤ m) (fuel : Nat) (r : List Cond)
    (h : growRuleCn fuel cn lim pos neg init = .ok r) : (r.length : Int) ≤ m := by
  have := (growRuleCn_post (CatNap.build_WF hb) h).len m hm
  omega

/-- C23, on the index. A rule grown from the empty rule under `min_rule_samples = m` is empty, or covers no
growing negative at all, or covers at least `m` growing examples. -/
theorem C23_min_rule_samples_index [Arith] [Arith.Lawful] (df : Frame) (cf : Feat) (cn : CatNap)
    (hb : CatNap.build df cf = .ok cn) (lim : Limits) (m : Int) (hm : lim.minRuleSamples = some m)
    (pos neg : List Label) (fuel : Nat) (r : List Cond)
    (h : growRuleCn fuel cn lim pos neg [] = .ok r) :
    r = [] ∨ cn.ruleCovers r (some neg) = [] ∨
      m ≤ (cn.ruleCovers r (some neg)).length + (cn.ruleCovers r (some pos)).length :=
  (growRuleCn_post (CatNap.build_WF hb) h).samples m hm rfl

/-- C23 is false in general: with `min_rule_samples = 2` a rule covering a single example is grown. -/
theorem C23_refuted_pure_rule :
    ∃ r, growRuleCn 9 Demo.cn { minRuleSamples := some 2 } [0, 1] [2, 3, 4] [] = .ok r ∧
      Demo.cn.ruleCovers r (some [0, 1]) = [0] ∧ Demo.cn.ruleCovers r (some [2, 3, 4]) = [] ∧ r ≠ [] :=
  ⟨[⟨Demo.fa, Demo.vx⟩, ⟨Demo.fb, Demo.vx⟩], by decide +kernel, by decide +kernel, by decide +kernel,
    by decide +kernel⟩

/-- With both limits, reaching `max_rule_conds` also pops the last condition: under `max_rule_conds = 1` the
rule comes back with no condition at all, although the one-condition rule satisfies both limits. -/
theorem C22_max_halt_pops :
    growRuleCn 9 Demo.cn { maxRuleConds := some 1, minRuleSamples := some 1 } [0, 1] [2, 3, 4] [] = .ok [] ∧
    growRuleCn 9 Demo.cn { maxRuleConds := some 1 } [0, 1] [2, 3, 4] [] = .ok [⟨Demo.fa, Demo.vx⟩] :=
  ⟨by decide +kernel, by decide +kernel⟩

example : growRuleCn 9 Demo.cn { minRuleSamples := some 3 } [0, 1] [2, 3, 4] [] = .ok [⟨Demo.fa, Demo.vx⟩, ⟨Demo.fb, Demo.vx⟩] ∧
    growRuleCn 9 Demo.cn { minRuleSamples := some 4 } [0, 1] [2, 3, 4] [] = .ok [] :=
  ⟨by decide +kernel, by decide +kernel⟩

/-! ### pruning -/

/-- C24. Pruning a non-empty rule with any real-valued metric keeps a non-empty prefix. Either its value
is at least 0, no non-empty prefix has a larger value, and every shorter one has a strictly smaller value;
or all non-empty prefixes have negative values and the rule is unchanged. -/
theorem C24_prune_keeps_best_prefix (value : List Cond → Rat) (rule : List Cond) (hne : rule ≠ []) :
    ∃ k, 1 ≤ k ∧ k ≤ rule.length ∧
      pruneRule (fun r => .ok (some (value r))) rule = .ok (some (rule.take k)) ∧
      ((0 ≤ value (rule.take k) ∧ (∀ j, 1 ≤ j → j ≤ rule.length → value (rule.take j) ≤ value (rule.take k)) ∧
          (∀ j, 1 ≤ j → j < k → value (rule.take j) < value (rule.take k))) ∨
        (k = rule.length ∧ ∀ j, 1 ≤ j → j ≤ rule.length → value (rule.take j) < 0)) := by
  have hpos := List.length_pos_of_ne_nil hne
  unfold pruneRule
  simp only [hne, if_false]
  rcases pruneLoop_spec (metric := fun r => .ok (some (value r))) (val := value) (rule := rule)
    (fun k _ _ => rfl) rule.length rule 0 (le_refl _) with ⟨h1, h2⟩ | ⟨k, hk1, hk2, h3, h4, h5, h6⟩
  · exact ⟨rule.length, hpos, le_refl _, by rw [h1, List.take_length], Or.inr ⟨rfl, h2⟩⟩
  · refine ⟨k, hk1, hk2, h3, Or.inl ⟨h4, ?_, h6⟩⟩
    intro j hj1 hj2
    rcases lt_trichotomy j k with h | h | h
    · exact le_of_lt (h6 j hj1 h)
    · rw [h]
    · exact h5 j h hj2

/-- C24. The empty rule is returned as it is. -/
theorem C24_prune_empty (metric : List Cond → Except PyErr (Option Rat)) :
    pruneRule metric [] = .ok (some []) := rfl

/-- C24. The three metrics of the optimised training code are the quotients of their documentation: with
`p`, `n` the positive and negative pruning examples covered, out of `P` and `N`, IREP maximises
`(p + (N - n)) / (P + N)`, RIPPER's growing phase `(p - n + 1) / (p + n + 1)` and RIPPER's optimisation
the accuracy `(p + (N - n)) / (P + N)`. -/
theorem C24_metrics [Arith] (cn : CatNap) (pos neg : List Label) (r : List Cond) (hne : 0 < pos.length + neg.length) :
    let p : Int := (cn.ruleCovers r (some pos)).length
    let n : Int := (cn.ruleCovers r (some neg)).length
    let P : Int := pos.length
    let N : Int := neg.length
    irepMetricCn cn pos neg r = .ok (some (Arith.quot (p + (N - n)) (P + N))) ∧
    ripperGrowMetricCn cn pos neg r = .ok (some (Arith.quot (p - n + 1) (p + n + 1))) ∧
    ripperOptMetricCn cn pos neg r = .ok (some (Arith.quot (p + (N - n)) (P + N))) := by
  have h : ¬ (pos.length + neg.length = 0) := by omega
  refine ⟨?_, rfl, ?_⟩
  · unfold irepMetricCn; simp only [h, if_false]
  · unfold ripperOptMetricCn; simp only [h, if_false]

/-- C24. The same without rounding: the metrics are the rational numbers of these formulas. -/
theorem C24_metrics_exact (cn : CatNap) (pos neg : List Label) (r : List Cond) (hne : 0 < pos.length + neg.length) :
    let p : Rat := (cn.ruleCovers r (some pos)).length
    let n : Rat := (cn.ruleCovers r (some neg)).length
    let P : Rat := pos.length
    let N : Rat := neg.length
    irepMetricCn cn pos neg r = .ok (some ((p + (N - n)) / (P + N))) ∧
    ripperGrowMetricCn cn pos neg r = .ok (some ((p - n + 1) / (p + n + 1))) ∧
    ripperOptMetricCn cn pos neg r = .ok (some ((p + (N - n)) / (P + N))) := by
  obtain ⟨h1, h2, h3⟩ := C24_metrics cn pos neg r hne
  have e : ∀ a b : Int, Arith.quot a b = (a : Rat) / (b : Rat) := fun _ _ => rfl
  rw [e] at h1 h2 h3
  refine ⟨h1.trans ?_, h2.trans ?_, h3.trans ?_⟩ <;> push_cast <;> rfl

/-- C24. Pruning judged on a whole ruleset (RIPPER's optimisation) returns the same rule as pruning the
rule alone with the same metric, whenever that metric is non-negative. -/
theorem C24_prune_on_ruleset (value : List Cond → Rat) (rule : List Cond) (rules : List (List Cond))
    (i : Nat) (h0 : rules[i]? = some rule) (hnn : 0 ≤ value rule) :
    pruneRuleOn (fun r => .ok (some (value r))) rule rules i =
      pruneRule (fun r => .ok (some (value r))) rule :=
  pruneRuleOn_eq_pruneRule h0 (fun _ _ _ => rfl) hnn

/-- C24. With a metric that is always negative the ruleset variant fails: its result variable is never
assigned. -/
theorem C24_prune_on_ruleset_unbound (rule : List Cond) (rules : List (List Cond)) (i : Nat)
    (hne : rule ≠ []) (h0 : rules[i]? = some rule) :
    pruneRuleOn (fun _ => .ok (some (-1))) rule rules i = .error .unboundLocal := by
  rw [pruneRuleOn_eq h0]
  simp only [hne, if_false]
  have : ∀ n, pruneLoopRs (fun _ => .ok (some (-1))) rule n (none, 0) = .error .unboundLocal := by
    intro n
    induction n with
    | zero => rfl
    | succ n ih =>
      rw [pruneLoopRs]
      simp only [ok_bind]
      have : ¬ ((0 : Rat) ≤ -1) := by norm_num
      simp only [this, if_false]
      exact ih
  exact this _

/-- C25. Pruning only generalises: whatever the metric does, a pruned rule's conditions are a prefix of
the rule's, every row the rule fires on the pruned rule fires on too, and a non-empty rule is never
pruned to the empty rule. -/
theorem C25_pruning_generalises (metric : List Cond → Except PyErr (Option Rat)) (rule pruned : List Cond)
    (h : pruneRule metric rule = .ok (some pruned)) :
    pruned <+: rule ∧ (∀ row, FiresC row rule → FiresC row pruned) ∧ (rule ≠ [] → pruned ≠ []) := by
  obtain ⟨h1, h2⟩ := pruneRule_prefix h
  exact ⟨h1, fun row hf c hc => hf c (h1.subset hc), fun h3 h4 => h3 (h2 h4)⟩

/-- C25, for the ruleset variant. -/
theorem C25_pruning_on_ruleset_generalises (metric : List Cond → Except PyErr (Option Rat))
    (rule pruned : List Cond) (rules : List (List Cond)) (i : Nat) (h0 : rules[i]? = some rule)
    (h : pruneRuleOn metric rule rules i = .ok (some pruned)) :
    pruned <+: rule ∧ (∀ row, FiresC row rule → FiresC row pruned) ∧ (rule ≠ [] → pruned ≠ []) := by
  obtain ⟨h1, h2⟩ := pruneRuleOn_prefix h0 h
  exact ⟨h1, fun row hf c hc => hf c (h1.subset hc), fun h3 h4 => h3 (h2 h4)⟩

example : pruneRule (irepMetricCn Demo.cn [0, 1] [2, 3, 4]) [⟨Demo.fa, Demo.vx⟩, ⟨Demo.fb, Demo.vx⟩] =
    .ok (some [⟨Demo.fa, Demo.vx⟩]) := by decide +kernel

end Witt
