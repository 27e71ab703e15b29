import Verif.Lemmas.RipperFit
import Verif.Lemmas.Fit
import Verif.Props.Irep
/-
C22, C29-C32, C34-C36, C46, C47 for RIPPER.
-/
namespace Witt
open Spec

namespace Demo
/-- Three copies of six examples; the positives are those with `a = x` and `b = x`. -/
def conj : Frame := Frame.ofTable [fa, fb, fc]
  ((List.range 18).map (fun i => ((i : Int),
    match i % 6 with
    | 0 => [vx, vx, vp] | 1 => [vx, vy, vn] | 2 => [vy, vx, vn] | 3 => [vy, vy, vn] | 4 => [vx, vx, vp]
    | _ => [vy, vx, vn])))
end Demo

/-! ### termination -/

/-- C34. RIPPER training halts: for every dataset (repeated labels included), generator, `prune_size`, `k`,
`dl_allowance`, limits and initial model there is one outcome (a model or an exception), not a divergence,
which every run with more iterations allowed than there are training rows reaches. -/
theorem C34_ripper_terminates [Arith] [Arith.Lawful] (R : PyRandom) (hR : R.Lawful) (hp : Hyper) (init : List (List Cond)) (df : Frame)
    (cf : Feat) (pc : Val) (g : R.G) :
    ∃ outcome, outcome ≠ .error .diverged ∧
      (∀ fuel, df.rows.length < fuel → ripperFit fuel R hp init df cf pc g = outcome) := by
  refine ⟨ripperFit (df.rows.length + 1) R hp init df cf pc g, ?_, ?_⟩
  · unfold ripperFit
    split
    · simp
    split
    · simp
    rename_i hcf
    simp only [not_not] at hcf
    cases hb : CatNap.build df cf with
    | error e => rw [CatNap.build_ok hcf] at hb; cases hb
    | ok cn =>
      have hw := CatNap.build_WF hb
      simp only [ok_bind]
      have h1 := posLabels_length (df := df) (cf := cf) (pc := pc)
      have h2 := negLabels_length (df := df) (cf := cf) (pc := pc)
      have hnd := ripperStages_noDiv (hp := hp) (fuel := df.rows.length + 1) (g := g) (init := init)
          (neg := labelSet (negRows df cf pc).index) hR hw (posLabels_all (pc := pc) hb)
          ⟨by omega, by omega⟩
      cases hg : ripperStages (df.rows.length + 1) R cn hp init (labelSet (posRows df cf pc).index)
        (labelSet (negRows df cf pc).index) g with
      | error e =>
        rw [hg] at hnd
        simp only [error_bind]
        intro h
        injection h with h
        exact hnd (by rw [h])
      | ok st =>
        obtain ⟨rules, g1⟩ := st
        simp only [ok_bind]
        generalize Ruleset.trimConds { rules := removeDups Rule.sameKey (rules.map (fun c => ({ conds := c } : Rule))) }
          hp.lim.maxTotalConds = rs0
        rcases hr : recalibrate rs0 df cf pc hp.alpha with ⟨rs, o⟩
        cases o with
        | none => simp [raiseIf]
        | some e =>
          simp only [raiseIf, error_bind]
          intro h
          injection h with h
          exact recalibrate_err (by rw [hr]) h
  · intro fuel hf
    unfold ripperFit
    split
    · rfl
    split
    · rfl
    cases hb : CatNap.build df cf with
    | error e => rfl
    | ok cn =>
      have hw := CatNap.build_WF hb
      have h1 := posLabels_length (df := df) (cf := cf) (pc := pc)
      have h2 := negLabels_length (df := df) (cf := cf) (pc := pc)
      simp only [ok_bind]
      rw [ripperStages_fuel (f' := df.rows.length + 1) hR hw (posLabels_all hb) ⟨by omega, by omega⟩
        ⟨by omega, by omega⟩]

/-- C34. A fitted model has at most one rule per initial rule and two per positive training row (one for
each of the two growing phases; optimisation keeps the number of rules). -/
theorem C34_ripper_rule_count [Arith] [Arith.Lawful] (R : PyRandom) (hR : R.Lawful) (hp : Hyper) (init : List (List Cond)) (df : Frame)
    (cf : Feat) (pc : Val) (fuel : Nat) (g g' : R.G) (m : Fitted)
    (h : ripperFit fuel R hp init df cf pc g = .ok (m, g')) :
    m.ruleset.rules.length ≤ init.length + 2 * (posRows df cf pc).rows.length := by
  obtain ⟨_, cn, rules, hb, hg, hm, _⟩ := ripperFit_ok h
  have hw := CatNap.build_WF hb
  obtain ⟨st, r2, r3, g2, dl, hs⟩ := ripperStages_ok hg
  obtain ⟨s, hs1, he, _⟩ := ripperGrowCn_reach hs.grow
  have hc1 := hs1.count hR hw (posLabels_all hb)
  have h2 : r2.length = st.rules.length :=
    stage2_spec (P := fun rules => rules.length = st.rules.length)
      (fun rules out g g' hr ho => by
        obtain ⟨_, _, _, hl, _⟩ := optimizeCn_spec ho
        rw [hl, hr]) _ _ _ _ _ rfl hs.optimize
  have h3 : r3.length ≤ r2.length + (labelSet (posRows df cf pc).index).length := by
    rcases coverRemainingCn_ok hs.cover with ⟨_, rfl⟩ | ⟨st', hg', rfl⟩
    · omega
    · obtain ⟨s', hs', he', _⟩ := ripperGrowCn_reach hg'
      have := hs'.count hR hw (posLabels_all hb)
      rw [he']
      simp only at this
      omega
  have h4 := (bestSubsetCn_sublist hs.simplify).length_le
  have hl := (finish_sublist hp.lim.maxTotalConds rules).length_le
  rw [← hm, List.length_map] at hl
  have := eraseDups_length_le (posRows df cf pc).index
  rw [he] at h2
  simp only [Frame.index, List.length_map] at this hc1 h3
  omega

/-! ### freedom from exceptions -/

theorem AllGood.of_build {df : Frame} {cf : Feat} {cn : CatNap} {rules : List (List Cond)}
    (hb : CatNap.build df cf = .ok cn) (h : ∀ r ∈ rules, GoodRule df cf r ∧ r ≠ []) : AllGood df cf cn rules :=
  ⟨fun r hr => (h r hr).1, fun hne => by
    obtain ⟨r, hr⟩ := List.exists_mem_of_ne_nil _ hne
    have h1 := (h r hr).1.count hb
    have h2 := List.length_pos_of_ne_nil (h r hr).2
    omega⟩

theorem finish_subset {k : Option Int} {rules : List (List Cond)} {rs : Ruleset} {df : Frame}
    (h : rs.rules.map Rule.conds = finish k rules) (hr : ∀ r ∈ rules, ∀ c ∈ r, c.feature ∈ df.cols) :
    HasFeatures df rs.rules := by
  intro r hmem c hc
  have : r.conds ∈ rs.rules.map Rule.conds := List.mem_map.mpr ⟨r, hmem, rfl⟩
  rw [h] at this
  exact hr _ ((finish_sublist _ _).subset this) c hc

/-- C35, RIPPER. Fitting with `cn_optimize=True`, a `prune_size` that leaves something to prune on (without
rounding: `0 < prune_size <= 1`) and `alpha > 0` on a non-empty frame with
distinct labels that has the class column raises nothing, whatever the data, the shuffles, `k`,
`dl_allowance` and the limits. The rules of an initial model, if given, must be non-empty and test
different columns, each a non-class column of the data with at least two different values. -/
theorem C35_ripper_never_raises [Arith] [Arith.Lawful] (R : PyRandom) (hR : R.Lawful) (hp : Hyper) (ps : Rat)
    (hps : hp.pruneSize = some ps) (hl : Arith.LeavesSome ps) (ha : 0 < hp.alpha) (init : List (List Cond))
    (df : Frame) (cf : Feat) (pc : Val) (hne : df.rows ≠ []) (hcf : cf ∈ df.cols) (hu : df.UniqueIndex)
    (hinit : ∀ r ∈ init, r ≠ [] ∧ (r.map Cond.feature).Nodup ∧ ∀ c ∈ r, Varied df cf c.feature)
    (fuel : Nat) (hf : df.rows.length < fuel) (g : R.G) :
    ∃ m g', ripperFit fuel R hp init df cf pc g = .ok (m, g') := by
  unfold ripperFit
  simp only [hne, if_false, hcf, not_true_eq_false]
  cases hb : CatNap.build df cf with
  | error e => rw [CatNap.build_ok hcf] at hb; cases hb
  | ok cn =>
    simp only [ok_bind]
    have hl1 := posLabels_length (df := df) (cf := cf) (pc := pc)
    have hl2 := negLabels_length (df := df) (cf := cf) (pc := pc)
    have hgi : AllGood df cf cn init := AllGood.of_build hb (fun r hr => ⟨(hinit r hr).2, (hinit r hr).1⟩)
    obtain ⟨rules, g', hs, hg⟩ := ripperStages_safe (fuel := fuel) hR hb hu hps hl hgi
      (posLabels_all (pc := pc) hb) (neg := labelSet (negRows df cf pc).index) ⟨by omega, by omega⟩ g
    simp only [hs, ok_bind]
    have hconds : (({ rules := removeDups Rule.sameKey (rules.map (fun c => ({ conds := c } : Rule))) } :
        Ruleset).trimConds hp.lim.maxTotalConds).rules.map Rule.conds = finish hp.lim.maxTotalConds rules := by
      have hid : List.map (Rule.conds ∘ fun c => ({ conds := c } : Rule)) rules = rules := by
        simp [Function.comp_def]
      simp only [Ruleset.trimConds, trimRules_conds, removeDups_conds, List.map_map, hid]
      rfl
    have hfeat := finish_subset (df := df) hconds (fun r hr c hc => ((hg.good r hr).2 c hc).1)
    rw [recalibrate_ok ha hcf hfeat]
    exact ⟨_, _, rfl⟩

/-- C35 for `prune_size=None`: RIPPER raises TypeError as soon as it tries to grow a rule. -/
theorem C35_ripper_prune_none [Arith] [Arith.Lawful] (R : PyRandom) (hp : Hyper) (hps : hp.pruneSize = none) (hl : hp.lim = {})
    (hd : 0 ≤ hp.dlAllowance) (init : List (List Cond)) (df : Frame) (cf : Feat) (pc : Val) (hcf : cf ∈ df.cols)
    (hpos : ∃ row ∈ df.rows, Positive cf pc row) (fuel : Nat) (g : R.G) :
    ripperFit (fuel + 1) R hp init df cf pc g = .error .typeError := by
  obtain ⟨row, hrow, hp'⟩ := hpos
  have hne : df.rows ≠ [] := by intro h; rw [h] at hrow; simp at hrow
  unfold ripperFit
  simp only [hne, if_false, hcf, not_true_eq_false]
  cases hb : CatNap.build df cf with
  | error e => rw [CatNap.build_ok hcf] at hb; cases hb
  | ok cn =>
    simp only [ok_bind]
    have hm : row.label ∈ labelSet (posRows df cf pc).index := mem_posLabels.mpr ⟨row, hrow, rfl, hp'⟩
    have hpn : labelSet (posRows df cf pc).index ≠ [] := by intro h; rw [h] at hm; simp at hm
    unfold ripperStages ripperGrowCn
    rw [pyWhile_succ]
    have hw : Arith.within Arith.zeroDl hp.dlAllowance = true := Arith.Lawful.within_zero _ hd
    have : ripperStepCn (fuel + 1) R cn hp (labelSet (posRows df cf pc).index)
        (labelSet (negRows df cf pc).index) ⟨init, labelSet (posRows df cf pc).index,
          labelSet (negRows df cf pc).index, none, Arith.zeroDl, g⟩ = .error .typeError := by
      unfold ripperStepCn
      simp [hpn, hw, hl, stopEarly, atLeast, below, hps]
    rw [this]
    rfl

/-- C35 for `prune_size=0`: RIPPER can raise AttributeError (a pruned rule is None when there is no prune
set, and removing the rule has the least description length). -/
theorem C35_refuted_prune_zero :
    (ripperFit 9 Demo.R0 { pruneSize := some 0 } [] Demo.train Demo.fc Demo.vp ()).map
      (fun m => m.1.ruleset.rules.map Rule.conds) = .error .attributeError := by
  decide +kernel

/-- C35 for an initial model: a rule on a column with a single value makes RIPPER divide by zero. -/
theorem C35_refuted_initial_model :
    let df := Frame.ofTable [Demo.fa, Demo.fc] [(0, [Demo.vx, Demo.vp]), (1, [Demo.vx, Demo.vn])]
    (ripperFit 9 Demo.R0 {} [[⟨Demo.fa, Demo.vx⟩]] df Demo.fc Demo.vp ()).map
      (fun m => m.1.ruleset.rules.map Rule.conds) = .error .zeroDivision := by
  decide +kernel

example : Demo.R0.Lawful ∧ (Demo.conj.rows ≠ []) ∧ Demo.fc ∈ Demo.conj.cols ∧
    (ripperFit 19 Demo.R0 { pruneSize := some (1 / 2) } [[⟨Demo.fa, Demo.vx⟩]] Demo.conj Demo.fc Demo.vp ()).map
      (fun m => m.1.ruleset.rules.map Rule.conds) = .ok [[⟨Demo.fa, Demo.vx⟩]] :=
  ⟨Demo.R0_lawful, by decide +kernel, by decide +kernel, by decide +kernel⟩

/-! ### what the fitted model looks like -/

theorem ripper_rules [Arith] [Arith.Lawful] {fuel : Nat} {R : PyRandom} {hp : Hyper} {init : List (List Cond)} {df : Frame}
    {cf : Feat} {pc : Val} {g g' : R.G} {m : Fitted} (h : ripperFit fuel R hp init df cf pc g = .ok (m, g'))
    {P : List Cond → Prop} (hP : ∀ cn, CatNap.build df cf = .ok cn → ClosedRule cn P) (hi : ∀ r ∈ init, P r) :
    ∀ r ∈ m.ruleset.rules, P r.conds := by
  obtain ⟨_, cn, rules, hb, hg, hm, _⟩ := ripperFit_ok h
  intro r hr
  have : r.conds ∈ m.ruleset.rules.map Rule.conds := List.mem_map.mpr ⟨r, hr, rfl⟩
  rw [hm] at this
  exact (hP cn hb).stages (CatNap.build_WF hb) hg hi _ ((finish_sublist _ _).subset this)

/-- C29, RIPPER. Every condition of a fitted model comes from the initial model, or tests a non-class column
of the training data for a value that occurs there and that some training row meets. -/
theorem C29_ripper_no_leakage [Arith] [Arith.Lawful] (R : PyRandom) (hp : Hyper) (init : List (List Cond)) (df : Frame) (cf : Feat)
    (pc : Val) (fuel : Nat) (g g' : R.G) (m : Fitted) (h : ripperFit fuel R hp init df cf pc g = .ok (m, g')) :
    ∀ r ∈ m.ruleset.rules, ∀ c ∈ r.conds, (∃ r0 ∈ init, c ∈ r0) ∨ (TrainCond df cf c ∧ SeenCond df cf c) := by
  refine ripper_rules (P := fun r => ∀ c ∈ r, (∃ r0 ∈ init, c ∈ r0) ∨ (TrainCond df cf c ∧ SeenCond df cf c)) h ?_ ?_
  · intro cn hb
    refine ⟨by simp, ?_, fun r s hr hs c hc => hr c (hs.subset hc)⟩
    intro pos neg r c hr hu x hx
    rcases List.mem_append.mp hx with hx | hx
    · exact hr x hx
    · simp only [List.mem_singleton] at hx; subst hx
      exact Or.inr ⟨trainCond_of_mem hb hu.mem, hu.seen hb⟩
  · intro r hr c hc; exact Or.inl ⟨r, hr, hc⟩

/-- C21, RIPPER (and C29). Without an initial model, on distinct labels, no rule of a fitted model tests a
column twice, nor a column with a single value. -/
theorem C21_ripper_distinct_features [Arith] [Arith.Lawful] (R : PyRandom) (hp : Hyper) (df : Frame) (cf : Feat) (pc : Val)
    (hu : df.UniqueIndex) (fuel : Nat) (g g' : R.G) (m : Fitted)
    (h : ripperFit fuel R hp [] df cf pc g = .ok (m, g')) :
    ∀ r ∈ m.ruleset.rules, (r.conds.map Cond.feature).Nodup ∧ ∀ c ∈ r.conds, Varied df cf c.feature :=
  ripper_rules (P := GoodRule df cf) h (fun cn hb => goodRule_closed hb hu) (by simp)

/-- C30, RIPPER. A fitted model has at most `max(max_rules, size of the initial model)` rules. -/
theorem C30_ripper_max_rules [Arith] (R : PyRandom) (hp : Hyper) (k : Int) (hk : hp.lim.maxRules = some k)
    (init : List (List Cond)) (df : Frame) (cf : Feat) (pc : Val) (fuel : Nat) (g g' : R.G) (m : Fitted)
    (h : ripperFit fuel R hp init df cf pc g = .ok (m, g')) :
    (m.ruleset.rules.length : Int) ≤ max k init.length := by
  obtain ⟨_, cn, rules, hb, hg, hm, _⟩ := ripperFit_ok h
  have hl := (finish_sublist hp.lim.maxTotalConds rules).length_le
  rw [← hm, List.length_map] at hl
  have := ripperStages_maxRules hg hk
  omega

/-- C31, RIPPER. A fitted model has at most `max_total_conds` conditions in total (none if it is negative). -/
theorem C31_ripper_max_total_conds [Arith] (R : PyRandom) (hp : Hyper) (k : Int) (hk : hp.lim.maxTotalConds = some k)
    (init : List (List Cond)) (df : Frame) (cf : Feat) (pc : Val) (fuel : Nat) (g g' : R.G) (m : Fitted)
    (h : ripperFit fuel R hp init df cf pc g = .ok (m, g')) :
    (((m.ruleset.rules.map (fun r => r.conds.length)).sum : Nat) : Int) ≤ max k 0 := by
  obtain ⟨_, cn, rules, hb, hg, hm, _⟩ := ripperFit_ok h
  have := finish_count k rules
  rw [← hk, ← hm] at this
  unfold countConds at this
  rw [List.map_map] at this
  exact this

/-- C32, RIPPER. No two rules of a fitted model print the same conditions, whatever their order. -/
theorem C32_ripper_no_duplicates [Arith] (R : PyRandom) (hp : Hyper)
    (init : List (List Cond)) (df : Frame) (cf : Feat) (pc : Val) (fuel : Nat) (g g' : R.G) (m : Fitted)
    (h : ripperFit fuel R hp init df cf pc g = .ok (m, g')) :
    m.ruleset.rules.Pairwise (fun r s => ¬ (r.conds.map Cond.text).Perm (s.conds.map Cond.text)) := by
  obtain ⟨_, cn, rules, hb, hg, hm, _⟩ := ripperFit_ok h
  have := finish_pairwise hp.lim.maxTotalConds rules
  rw [← hm, List.pairwise_map] at this
  refine this.imp ?_
  intro r s hrs hp
  have : condsSameKey r.conds s.conds = true := condsSameKey_iff.mpr hp
  rw [hrs] at this
  cases this

theorem grown_length [Arith] [Arith.Lawful] {fuel : Nat} {R : PyRandom} {cn : CatNap} {hp : Hyper} {allPos allNeg : List Label}
    (hw : cn.WF) {k : Int} (hk : hp.lim.maxRuleConds = some k) (hk0 : 0 ≤ k) {st st' : RipSt R}
    {rule : List Cond} (h : RipAdd fuel R cn hp allPos allNeg st st' rule) : (rule.length : Int) ≤ k := by
  obtain ⟨_, a, b, r, h1, h2⟩ := h.grown
  have := (growRuleCn_post hw h1).len k hk
  have := h2.length_le
  simp only [List.length_nil] at *
  omega

/-- C22, RIPPER without optimisation passes (`k <= 0`): every rule of a fitted model is an initial one or has
at most `max_rule_conds` conditions. -/
theorem C22_ripper_rule_length [Arith] [Arith.Lawful] (R : PyRandom) (hp : Hyper) (k : Int) (hk : hp.lim.maxRuleConds = some k)
    (hk0 : 0 ≤ k) (hopt : hp.k ≤ 0) (init : List (List Cond)) (df : Frame) (cf : Feat)
    (pc : Val) (fuel : Nat) (g g' : R.G) (m : Fitted) (h : ripperFit fuel R hp init df cf pc g = .ok (m, g')) :
    ∀ r ∈ m.ruleset.rules, r.conds ∈ init ∨ (r.conds.length : Int) ≤ k := by
  obtain ⟨_, cn, rules, hb, hg, hm, _⟩ := ripperFit_ok h
  have hw := CatNap.build_WF hb
  obtain ⟨st, r2, r3, g2, dl, hs⟩ := ripperStages_ok hg
  have h2 : r2 = st.rules := by
    have := hs.optimize
    rw [Int.toNat_of_nonpos hopt] at this
    simp only [stage2, Except.ok.injEq, Prod.mk.injEq] at this
    exact this.1.symm
  have grow : ∀ init pos neg g st, ripperGrowCn fuel R cn hp init pos neg g = .ok st →
      ∀ r ∈ st.rules, r ∈ init ∨ (r.length : Int) ≤ k := by
    intro init pos neg g st hg r hr
    obtain ⟨s, hs1, he, _⟩ := ripperGrowCn_reach hg
    rw [he] at hr
    rcases hs1.rule r hr with h | ⟨_, _, _, ha⟩
    · exact Or.inl h
    · exact Or.inr (grown_length hw hk hk0 ha)
  have h1 := grow _ _ _ _ _ hs.grow
  have h3 : ∀ r ∈ r3, r ∈ init ∨ (r.length : Int) ≤ k := by
    intro r hr
    rcases coverRemainingCn_ok hs.cover with ⟨_, rfl⟩ | ⟨st', hg', rfl⟩
    · rw [h2] at hr; exact h1 r hr
    · rcases grow _ _ _ _ _ hg' r hr with h | h
      · rw [h2] at h; exact h1 r h
      · exact Or.inr h
  intro r hr
  have : r.conds ∈ m.ruleset.rules.map Rule.conds := List.mem_map.mpr ⟨r, hr, rfl⟩
  rw [hm] at this
  exact h3 _ ((bestSubsetCn_sublist hs.simplify).subset ((finish_sublist _ _).subset this))

/-- C22 is false of RIPPER with optimisation: with `max_rule_conds=1` the fitted rule has two conditions. -/
theorem C22_refuted_ripper :
    (ripperFit 19 Demo.R0 { pruneSize := some (1 / 2), lim := { maxRuleConds := some 1 } } [] Demo.conj Demo.fc
      Demo.vp ()).map (fun m => m.1.ruleset.rules.map Rule.conds) =
      .ok [[⟨Demo.fa, Demo.vx⟩, ⟨Demo.fb, Demo.vx⟩]] ∧
    (ripperFit 19 Demo.R0 { pruneSize := some (1 / 2), k := 0, lim := { maxRuleConds := some 1 } } [] Demo.conj
      Demo.fc Demo.vp ()).map (fun m => m.1.ruleset.rules.map Rule.conds) = .ok [[⟨Demo.fa, Demo.vx⟩]] := by
  decide +kernel

/-- C36, RIPPER. With `random_state` set, the fitted model (rules, calibration, features) does not depend on
the state the global generator had before `fit`. -/
theorem C36_ripper_reproducible [Arith] (R : PyRandom) (hR : R.SeedResets) (hp : Hyper) (s : Int)
    (hs : hp.randomState = some s) (init : List (List Cond)) (df : Frame) (cf : Feat) (pc : Val)
    (fuel : Nat) (g g' : R.G) :
    (ripperFit fuel R hp init df cf pc g).map Prod.fst = (ripperFit fuel R hp init df cf pc g').map Prod.fst := by
  unfold ripperFit
  split
  · rfl
  split
  · rfl
  rw [map_bind, map_bind]
  congr 1
  funext cn
  rw [map_bind, map_bind]
  refine bind_map_congr (f := Prod.fst) (ripperStages_seeded hR hs _ _ _ _ _) ?_
  rintro ⟨a, ga⟩ ⟨b, gb⟩ hab
  simp only at hab
  subst hab
  simp only
  rw [map_bind, map_bind]
  rfl

end Witt
