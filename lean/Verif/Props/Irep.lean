import Verif.Lemmas.Fit
import Verif.Lemmas.Equal
import Verif.Props.Index
/-
C22, C26-C33, C35-C37 for IREP.
-/
namespace Witt
open Spec

namespace Demo
/-- A generator that never changes the order: one lawful outcome of `shuffle`. -/
def R0 : PyRandom := { G := Unit, seed := fun _ g => g, shuffle := fun g l => (l, g) }
/-- A generator that counts its uses and reverses every other list; seeding with a number resets it. -/
def R1 : PyRandom :=
  { G := Nat, seed := fun s g => match s with | some _ => 0 | none => g,
    shuffle := fun (g : Nat) l => (if g % 2 = 0 then l.reverse else l, g + 1) }
theorem R0_lawful : R0.Lawful := fun _ _ => List.Perm.refl _
theorem R1_lawful : R1.Lawful := by
  intro (g : Nat) l
  show (if g % 2 = 0 then l.reverse else l).Perm l
  split
  · exact List.reverse_perm l
  · exact List.Perm.refl _
theorem R1_resets : R1.SeedResets := fun _ _ _ => rfl
/-- Training data whose positives need two rules. -/
def fit1 : Frame := Frame.ofTable [fa, fb, fc]
  [(0, [vx, vx, vp]), (1, [vx, vy, vp]), (2, [vy, vx, vn]), (3, [vy, vy, vn]), (4, [vx, vx, vp]),
   (5, [vy, vy, vn]), (6, [vx, vy, vp])]
end Demo

section
variable {df : Frame} {cf : Feat} {pc : Val}

theorem mem_posLabels {l : Label} : l ∈ labelSet (posRows df cf pc).index ↔ PosLabel df cf pc l := by
  rw [mem_labelSet]
  simp only [Frame.index, posRows, Frame.keep, List.mem_map, List.mem_filter, PosLabel, Positive, ← Val.pyEq_iff]
  constructor
  · rintro ⟨r, ⟨h1, h2⟩, h3⟩; exact ⟨r, h1, h3, h2⟩
  · rintro ⟨r, h1, h3, h2⟩; exact ⟨r, ⟨h1, h2⟩, h3⟩

theorem mem_negLabels {l : Label} : l ∈ labelSet (negRows df cf pc).index ↔ NegLabel df cf pc l := by
  rw [mem_labelSet]
  simp only [Frame.index, negRows, Frame.keep, List.mem_map, List.mem_filter, NegLabel, Positive, ← Val.pyEq_iff]
  constructor
  · rintro ⟨r, ⟨h1, h2⟩, h3⟩; exact ⟨r, h1, h3, by simpa using h2⟩
  · rintro ⟨r, h1, h3, h2⟩; exact ⟨r, ⟨h1, by simpa using h2⟩, h3⟩

theorem posLabels_all {cn : CatNap} (hb : CatNap.build df cf = .ok cn) :
    ∀ l ∈ labelSet (posRows df cf pc).index, l ∈ cn.all := by
  intro l hl
  obtain ⟨row, h1, h2, _⟩ := mem_posLabels.mp hl
  rw [CatNap.mem_all hb]
  exact List.mem_map.mpr ⟨row, h1, h2⟩

theorem posLabels_length : (labelSet (posRows df cf pc).index).length ≤ df.rows.length := by
  refine le_trans (eraseDups_length_le _) ?_
  simp only [Frame.index, List.length_map, posRows, Frame.keep]
  exact List.length_filter_le _ _

theorem negLabels_length : (labelSet (negRows df cf pc).index).length ≤ df.rows.length := by
  refine le_trans (eraseDups_length_le _) ?_
  simp only [Frame.index, List.length_map, negRows, Frame.keep]
  exact List.length_filter_le _ _

theorem trainCond_of_mem {cn : CatNap} (hb : CatNap.build df cf = .ok cn) {c : Cond} (hc : c ∈ cn.conds) :
    TrainCond df cf c := by
  obtain ⟨h1, h2⟩ := overCols_conds hb hc
  rw [CatNap.build_conds hb] at hc
  exact ⟨h1, h2, mem_unique (mem_possibleConds.mp hc).2⟩

theorem TrainCond.over {r : List Cond} (h : ∀ c ∈ r, TrainCond df cf c) : OverCols df cf r :=
  fun c hc => ⟨(h c hc).1, (h c hc).2.1⟩

/-- A grown rule tests candidate conditions only, at most `max_rule_conds` of them. -/
theorem grown_conds [Arith] [Arith.Lawful] {fuel : Nat} {cn : CatNap} (hw : cn.WF) {lim : Limits} {pos neg : List Label}
    {r : List Cond} (h : growRuleCn fuel cn lim pos neg [] = .ok r) : ∀ c ∈ r, c ∈ cn.conds := by
  obtain ⟨r0, hc, hr⟩ := (growRuleCn_post hw h).chain
  intro c hx
  have : c ∈ r0 := by
    rcases hr with rfl | ⟨_, _, rfl⟩
    · exact hx
    · exact (List.dropLast_prefix _).subset hx
  rcases hc.mem c this with h | h
  · simp at h
  · exact h

theorem IrepAdd.conds [Arith] [Arith.Lawful] {fuel : Nat} {R : PyRandom} {cn : CatNap} {hp : Hyper} (hw : cn.WF)
    {st st' : GrowSt R} {rule : List Cond} (h : IrepAdd fuel R cn hp st st' rule) : ∀ c ∈ rule, c ∈ cn.conds := by
  obtain ⟨a, b, r, h1, h2⟩ := h.grown
  exact fun c hc => grown_conds hw h1 c (h2.subset hc)

theorem nCovered_eq {cn : CatNap} (hb : CatNap.build df cf = .ok cn) (hu : df.UniqueIndex) {r : List Cond}
    (hr : OverCols df cf r) (ls : List Label) : nCovered df r ls = (cn.ruleCovers r (some ls)).length := by
  unfold nCovered
  rw [CatNap.ruleCovers_some, List.countP_eq_length_filter]
  congr 1
  apply List.filter_congr
  intro l _
  rw [Bool.eq_iff_iff, CatNap.hit_iff hb hu hr]
  simp only [decide_eq_true_eq]; rfl

theorem hit_fires {cn : CatNap} (hb : CatNap.build df cf = .ok cn) (hu : df.UniqueIndex) {r : List Cond}
    {l : Label} (h : cn.hit r l = true) : ∃ row ∈ df.rows, row.label = l ∧ FiresC row r := by
  have hr : OverCols df cf r := by
    intro c hc
    unfold CatNap.hit at h
    have hn : r ≠ [] := by rintro rfl; simp at hc
    simp only [hn, if_false, List.all_eq_true, List.contains_iff_mem] at h
    exact ((CatNap.mem_lookup hb).mp (h c hc)).1
  exact (CatNap.hit_iff hb hu hr).mp h

end

/-! ### termination, and freedom from exceptions -/

/-- C26. IREP training halts: for every dataset, generator, hyperparameters (any `prune_size`) and initial
model there is one outcome, not a divergence, which every run with more iterations allowed than there are
training rows reaches; the loop adds at most one rule per positive training row. -/
theorem C26_irep_terminates [Arith] [Arith.Lawful] (R : PyRandom) (hR : R.Lawful) (hp : Hyper) (init : List (List Cond)) (df : Frame)
    (cf : Feat) (pc : Val) (g : R.G) :
    ∃ outcome, outcome ≠ .error .diverged ∧
      (∀ fuel, df.rows.length < fuel → irepFit fuel R hp init df cf pc g = outcome) := by
  refine ⟨irepFit (df.rows.length + 1) R hp init df cf pc g, ?_, ?_⟩
  · unfold irepFit
    split
    · simp
    split
    · simp
    rename_i hcf
    simp only [not_not] at hcf
    cases hb : CatNap.build df cf with
    | error e => rw [CatNap.build_ok hcf] at hb; cases hb
    | ok cn =>
      have hw := CatNap.build_WF hb
      simp only [ok_bind]
      have h1 := posLabels_length (df := df) (cf := cf) (pc := pc)
      have h2 := negLabels_length (df := df) (cf := cf) (pc := pc)
      cases hg : irepGrowCn (df.rows.length + 1) R cn hp init (labelSet (posRows df cf pc).index)
        (labelSet (negRows df cf pc).index) g with
      | error e =>
        have hnd := irepGrowCn_ne_diverged (hp := hp) (fuel := df.rows.length + 1) (g := g) (init := init)
          (neg := labelSet (negRows df cf pc).index) hR hw (posLabels_all (pc := pc) hb)
          ⟨by omega, by omega⟩
        rw [hg] at hnd
        simp only [error_bind]
        intro h
        injection h with h
        exact hnd (by rw [h])
      | ok st =>
        simp only [ok_bind]
        rcases hr : recalibrate { rules := st.rules.map (fun c => ({ conds := c } : Rule)), possible := some cn.conds }
          df cf pc hp.alpha with ⟨rs, o⟩
        cases o with
        | none => simp [raiseIf]
        | some e =>
          simp only [raiseIf, error_bind]
          intro h
          injection h with h
          exact recalibrate_err (by rw [hr]) h
  · intro fuel hf
    unfold irepFit
    split
    · rfl
    split
    · rfl
    cases hb : CatNap.build df cf with
    | error e => rfl
    | ok cn =>
      have hw := CatNap.build_WF hb
      have h1 := posLabels_length (df := df) (cf := cf) (pc := pc)
      have h2 := negLabels_length (df := df) (cf := cf) (pc := pc)
      simp only [ok_bind]
      rw [irepGrowCn_fuel (f' := df.rows.length + 1) hR hw (posLabels_all hb) ⟨by omega, by omega⟩
        ⟨by omega, by omega⟩]

theorem IrepReach.count [Arith] [Arith.Lawful] {fuel : Nat} {R : PyRandom} {cn : CatNap} {hp : Hyper} (hR : R.Lawful) (hw : cn.WF)
    {st0 st : GrowSt R} (h : IrepReach fuel R cn hp st0 st) (hsub : ∀ l ∈ st0.pos, l ∈ cn.all) :
    st.rules.length + st.pos.length ≤ st0.rules.length + st0.pos.length := by
  induction h with
  | start => exact le_refl _
  | add hs ha ih =>
    have := ha.pos_lt hR hw (fun l hl => hsub l (hs.pos_sub l hl))
    rw [ha.rules, List.length_append]
    simp only [List.length_cons, List.length_nil]
    omega

/-- C26. A fitted model has at most one rule per initial rule and positive training row. -/
theorem C26_irep_rule_count [Arith] [Arith.Lawful] (R : PyRandom) (hR : R.Lawful) (hp : Hyper) (init : List (List Cond)) (df : Frame)
    (cf : Feat) (pc : Val) (fuel : Nat) (g g' : R.G) (m : Fitted)
    (h : irepFit fuel R hp init df cf pc g = .ok (m, g')) :
    m.ruleset.rules.length ≤ init.length + (posRows df cf pc).rows.length := by
  obtain ⟨_, cn, st, hb, hg, hm, _⟩ := irepFit_ok h
  obtain ⟨s, hs, h1, _⟩ := irepGrowCn_reach hg
  have hc := hs.count hR (CatNap.build_WF hb) (posLabels_all hb)
  have hl := (finish_sublist hp.lim.maxTotalConds st.rules).length_le
  rw [← hm, List.length_map, h1] at hl
  have := eraseDups_length_le (posRows df cf pc).index
  simp only [Frame.index, List.length_map] at this hc
  omega

/-- C35. Without rounding, `0 <= prune_size <= 1` is all that is asked of it. -/
theorem C35_prune_sizes (ps : Rat) (h0 : 0 ≤ ps) (h1 : ps ≤ 1) : ps = 0 ∨ @Arith.LeavesSome Arith.exact ps := by
  rcases eq_or_lt_of_le h0 with h | h
  · exact Or.inl h.symm
  · exact Or.inr (exact_leavesSome h h1)

/-- C35, IREP. Fitting with `cn_optimize=True`, a `prune_size` that is 0 (or None) or leaves something to prune on, and
`alpha > 0` on a non-empty frame that has the class column raises nothing, whatever the data, the shuffles and the limits; the
initial model's features must be in the data. -/
theorem C35_irep_never_raises [Arith] [Arith.Lawful] (R : PyRandom) (hR : R.Lawful) (hp : Hyper)
    (hl : hp.irepPrune = 0 ∨ Arith.LeavesSome hp.irepPrune) (ha : 0 < hp.alpha) (init : List (List Cond)) (df : Frame) (cf : Feat) (pc : Val)
    (hne : df.rows ≠ []) (hcf : cf ∈ df.cols) (hinit : ∀ r ∈ init, ∀ c ∈ r, c.feature ∈ df.cols) (fuel : Nat)
    (hf : df.rows.length < fuel) (g : R.G) : ∃ m g', irepFit fuel R hp init df cf pc g = .ok (m, g') := by
  unfold irepFit
  simp only [hne, if_false, hcf, not_true_eq_false]
  cases hb : CatNap.build df cf with
  | error e => rw [CatNap.build_ok hcf] at hb; cases hb
  | ok cn =>
    have hw := CatNap.build_WF hb
    simp only [ok_bind]
    have hl1 := posLabels_length (df := df) (cf := cf) (pc := pc)
    have hl2 := negLabels_length (df := df) (cf := cf) (pc := pc)
    have hstep : ∀ st : GrowSt R, (∀ l ∈ st.pos, l ∈ cn.all) → st.neg.length < fuel →
        ∃ o, irepStepCn fuel R cn hp st = .ok o := by
      intro st hsub hfn
      unfold irepStepCn
      split
      · exact ⟨_, rfl⟩
      rename_i hpne
      split
      · exact ⟨_, rfl⟩
      rcases hp1 : randomSplit R st.g st.pos (Arith.complement hp.irepPrune) hp.randomState with ⟨a, b, g1⟩
      have hlen := randomSplit_length_le hR g1 st.neg (Arith.complement hp.irepPrune) hp.randomState
      rcases hp2 : randomSplit R g1 st.neg (Arith.complement hp.irepPrune) hp.randomState with ⟨c, d, g2⟩
      rw [hp2] at hlen
      simp only at hlen
      have hcov := ruleCovers_nil_le (cn := cn) (neg := c)
      obtain ⟨r, hr, _⟩ := growRuleCn_total (fuel := fuel) hw (lim := hp.lim) (pos := a) (neg := c) (init := [])
        (by omega)
      simp only [hp1, hp2, hr, ok_bind]
      split
      · exact ⟨_, rfl⟩
      · rename_i hz
        have hbne : b ≠ [] := by
          have hls := hl.resolve_left hz _ (List.length_pos_of_ne_nil hpne)
          have := randomSplit_prune_ne_nil hR st.g (l := st.pos) (q := Arith.complement hp.irepPrune) hp.randomState
            hls.1 hls.2
          rw [hp1] at this
          exact this
        have hmet : ∀ x, ∃ v, irepMetricCn cn b d x = .ok (some v) := by
          intro x
          unfold irepMetricCn
          have : ¬ (b.length + d.length = 0) := by
            have := List.length_pos_of_ne_nil hbne; omega
          simp only [this, if_false]
          exact ⟨_, rfl⟩
        cases hpr : pruneRule (irepMetricCn cn b d) r with
        | error e =>
          obtain ⟨x, hx⟩ := pruneRule_error hpr
          obtain ⟨v, hv⟩ := hmet x
          rw [hv] at hx; cases hx
        | ok o =>
          cases o with
          | none =>
            obtain ⟨x, hx⟩ := pruneRule_none hpr
            obtain ⟨v, hv⟩ := hmet x
            rw [hv] at hx; cases hx
          | some pruned =>
            simp only [ok_bind]
            cases rulePrecisionCn cn pruned b d with
            | none => exact ⟨_, rfl⟩
            | some q =>
              simp only
              split
              · exact ⟨_, rfl⟩
              · exact ⟨_, rfl⟩
    obtain ⟨st, hst, _⟩ := pyWhile_total (body := irepStepCn fuel R cn hp) (Q := fun _ => True)
      (I := fun s : GrowSt R => (∀ l ∈ s.pos, l ∈ cn.all) ∧ s.neg.length < fuel)
      (m := fun s => s.pos.length) (by
        intro s hI
        obtain ⟨o, ho⟩ := hstep s hI.1 hI.2
        cases o with
        | done a => exact Or.inl ⟨a, ho, trivial⟩
        | more s' =>
          obtain ⟨rule, hadd⟩ := irepStepCn_more ho
          have := hadd.neg_sub.length_le
          exact Or.inr ⟨s', ho, ⟨fun l hl => hI.1 l (hadd.pos_sub l hl), by have := hI.2; omega⟩,
            hadd.pos_lt hR hw hI.1⟩) fuel
      { rules := init, pos := labelSet (posRows df cf pc).index, neg := labelSet (negRows df cf pc).index, g := g }
      ⟨posLabels_all hb, by simp only; omega⟩ (by simp only; omega)
    have hst' : irepGrowCn fuel R cn hp init (labelSet (posRows df cf pc).index)
        (labelSet (negRows df cf pc).index) g = .ok st := hst
    simp only [hst', ok_bind]
    obtain ⟨s, hs, hrules, _⟩ := irepGrowCn_reach hst'
    have hfeat : HasFeatures df (st.rules.map (fun c => ({ conds := c } : Rule))) := by
      intro r hr c hc
      obtain ⟨cs, hcs, rfl⟩ := List.mem_map.mp hr
      rw [hrules] at hcs
      rcases hs.rule cs hcs with h | ⟨s1, s2, _, hadd⟩
      · exact hinit cs h c hc
      · exact (overCols_conds hb (hadd.conds hw c hc)).1
    rw [recalibrate_ok ha hcf hfeat]
    exact ⟨_, _, rfl⟩

/-! ### what the fitted model looks like -/

theorem fit_rules [Arith] {fuel : Nat} {R : PyRandom} {hp : Hyper} {init : List (List Cond)} {df : Frame}
    {cf : Feat} {pc : Val} {g g' : R.G} {m : Fitted} (h : irepFit fuel R hp init df cf pc g = .ok (m, g')) :
    ∃ cn, CatNap.build df cf = .ok cn ∧ ∀ r ∈ m.ruleset.rules, r.conds ∈ init ∨
      ∃ s s', IrepReach fuel R cn hp ⟨init, labelSet (posRows df cf pc).index,
        labelSet (negRows df cf pc).index, g⟩ s ∧ IrepAdd fuel R cn hp s s' r.conds := by
  obtain ⟨_, cn, st, hb, hg, hm, _⟩ := irepFit_ok h
  obtain ⟨s, hs, h1, _⟩ := irepGrowCn_reach hg
  refine ⟨cn, hb, fun r hr => ?_⟩
  have : r.conds ∈ m.ruleset.rules.map Rule.conds := List.mem_map.mpr ⟨r, hr, rfl⟩
  rw [hm] at this
  have := (finish_sublist _ _).subset this
  rw [h1] at this
  exact hs.rule _ this

namespace Spec
/-- The condition tests a non-class column of the frame, and some row of the frame meets it. -/
def SeenCond (df : Frame) (cf : Feat) (c : Cond) : Prop :=
  c.feature ∈ df.cols ∧ c.feature ≠ cf ∧ ∃ row ∈ df.rows, Meets row c
end Spec

theorem UsefulStep.seen {df : Frame} {cf : Feat} {cn : CatNap} (hb : CatNap.build df cf = .ok cn) {pos neg : List Label}
    {r : List Cond} {c : Cond} (h : UsefulStep cn pos neg r c) : SeenCond df cf c := by
  obtain ⟨l, _, hl⟩ := h.keeps
  unfold CatNap.hit at hl
  simp only [List.append_eq_nil_iff, List.cons_ne_nil, and_false, if_false, List.all_eq_true, List.contains_iff_mem] at hl
  obtain ⟨⟨h1, h2⟩, row, hr, _, hm⟩ := (CatNap.mem_lookup hb).mp (hl c (by simp))
  exact ⟨h1, h2, row, hr, Cond.met_iff.mp hm⟩

theorem GrowChain.seen {df : Frame} {cf : Feat} {cn : CatNap} (hb : CatNap.build df cf = .ok cn) {pos neg : List Label}
    {init r : List Cond} (h : GrowChain cn pos neg init r) : ∀ c ∈ r, c ∈ init ∨ SeenCond df cf c := by
  induction h with
  | refl => exact fun c hc => Or.inl hc
  | snoc _ hu ih =>
    intro c hc
    rcases List.mem_append.mp hc with hc | hc
    · exact ih c hc
    · simp only [List.mem_singleton] at hc; subst hc; exact Or.inr (hu.seen hb)

theorem IrepAdd.seen [Arith] [Arith.Lawful] {df : Frame} {cf : Feat} {fuel : Nat} {R : PyRandom} {cn : CatNap} {hp : Hyper}
    (hb : CatNap.build df cf = .ok cn) {st st' : GrowSt R} {rule : List Cond} (h : IrepAdd fuel R cn hp st st' rule) :
    ∀ c ∈ rule, SeenCond df cf c := by
  obtain ⟨a, b, r, h1, h2⟩ := h.grown
  obtain ⟨r0, hc, hr⟩ := (growRuleCn_post (CatNap.build_WF hb) h1).chain
  intro c hx
  have hx := h2.subset hx
  have : c ∈ r0 := by
    rcases hr with rfl | ⟨_, _, rfl⟩
    · exact hx
    · exact (List.dropLast_prefix _).subset hx
  rcases hc.seen hb c this with h | h
  · simp at h
  · exact h

/-- C29, IREP. Every condition of a fitted model outside the initial rules tests a non-class column of the
training data for a value that occurs there, and some training row meets it. -/
theorem C29_irep_no_leakage [Arith] [Arith.Lawful] (R : PyRandom) (hp : Hyper) (init : List (List Cond)) (df : Frame) (cf : Feat)
    (pc : Val) (fuel : Nat) (g g' : R.G) (m : Fitted) (h : irepFit fuel R hp init df cf pc g = .ok (m, g')) :
    ∀ r ∈ m.ruleset.rules, r.conds ∈ init ∨ ∀ c ∈ r.conds, TrainCond df cf c ∧ SeenCond df cf c := by
  obtain ⟨cn, hb, hr⟩ := fit_rules h
  intro r hmem
  rcases hr r hmem with h | ⟨s, s', _, ha⟩
  · exact Or.inl h
  · exact Or.inr (fun c hc => ⟨trainCond_of_mem hb (ha.conds (CatNap.build_WF hb) c hc), ha.seen hb c hc⟩)

/-- C22, IREP. Every learned rule of a fitted model has at most `max_rule_conds` conditions. -/
theorem C22_irep_rule_length [Arith] [Arith.Lawful] (R : PyRandom) (hp : Hyper) (k : Int) (hk : hp.lim.maxRuleConds = some k)
    (hk0 : 0 ≤ k) (init : List (List Cond)) (df : Frame) (cf : Feat)
    (pc : Val) (fuel : Nat) (g g' : R.G) (m : Fitted) (h : irepFit fuel R hp init df cf pc g = .ok (m, g')) :
    ∀ r ∈ m.ruleset.rules, r.conds ∈ init ∨ (r.conds.length : Int) ≤ k := by
  obtain ⟨cn, hb, hr⟩ := fit_rules h
  intro r hmem
  rcases hr r hmem with h | ⟨s, s', _, ha⟩
  · exact Or.inl h
  · right
    obtain ⟨a, b, r0, h1, h2⟩ := ha.grown
    have := (growRuleCn_post (CatNap.build_WF hb) h1).len k hk
    have := h2.length_le
    simp only [List.length_nil] at *
    omega

theorem IrepReach.maxRules [Arith] {fuel : Nat} {R : PyRandom} {cn : CatNap} {hp : Hyper} {st0 st : GrowSt R}
    (h : IrepReach fuel R cn hp st0 st) {k : Int} (hk : hp.lim.maxRules = some k) :
    (st.rules.length : Int) ≤ max k st0.rules.length := by
  induction h with
  | start => omega
  | @add s s' r hs ha ih =>
    have hgo := ha.go
    unfold stopEarly at hgo
    simp only [Bool.or_eq_false_iff] at hgo
    have := atLeast_eq_false hgo.1.1 hk
    rw [ha.rules, List.length_append]
    simp only [List.length_cons, List.length_nil]
    push_cast
    omega

/-- C30, IREP. A fitted model has at most `max(max_rules, size of the initial model)` rules. -/
theorem C30_irep_max_rules [Arith] (R : PyRandom) (hp : Hyper) (k : Int) (hk : hp.lim.maxRules = some k)
    (init : List (List Cond)) (df : Frame) (cf : Feat) (pc : Val) (fuel : Nat) (g g' : R.G) (m : Fitted)
    (h : irepFit fuel R hp init df cf pc g = .ok (m, g')) :
    (m.ruleset.rules.length : Int) ≤ max k init.length := by
  obtain ⟨_, cn, st, hb, hg, hm, _⟩ := irepFit_ok h
  obtain ⟨s, hs, h1, _⟩ := irepGrowCn_reach hg
  have hl := (finish_sublist hp.lim.maxTotalConds st.rules).length_le
  rw [← hm, List.length_map, h1] at hl
  have := hs.maxRules hk
  simp only at this
  omega

theorem finish_count (k : Int) (rules : List (List Cond)) :
    (countConds (finish (some k) rules) : Int) ≤ max k 0 := by
  unfold finish
  rcases le_or_gt 0 k with h | h
  · exact le_trans (trimRules_count (size := List.length) k h _) (le_max_left _ _)
  · have : trimRules List.length (some k) (removeDups condsSameKey rules) = [] := by
      simp only [trimRules]
      have : ∀ n, trimAux List.length k (removeDups condsSameKey rules) n = [] := by
        intro n
        induction n with
        | zero => rfl
        | succ n ih =>
          rw [trimAux]
          rw [if_pos (by omega)]
          exact ih
      exact this _
    rw [this]
    simp [countConds]

/-- C31, IREP. A fitted model has at most `max_total_conds` conditions in total (none if it is negative). -/
theorem C31_irep_max_total_conds [Arith] (R : PyRandom) (hp : Hyper) (k : Int) (hk : hp.lim.maxTotalConds = some k)
    (init : List (List Cond)) (df : Frame) (cf : Feat) (pc : Val) (fuel : Nat) (g g' : R.G) (m : Fitted)
    (h : irepFit fuel R hp init df cf pc g = .ok (m, g')) :
    (((m.ruleset.rules.map (fun r => r.conds.length)).sum : Nat) : Int) ≤ max k 0 := by
  obtain ⟨_, cn, st, hb, hg, hm, _⟩ := irepFit_ok h
  have := finish_count k st.rules
  rw [← hk, ← hm] at this
  unfold countConds at this
  rw [List.map_map] at this
  exact this

/-- C32, IREP. No two rules of a fitted model print the same conditions, whatever their order. -/
theorem C32_irep_no_duplicates [Arith] (R : PyRandom) (hp : Hyper)
    (init : List (List Cond)) (df : Frame) (cf : Feat) (pc : Val) (fuel : Nat) (g g' : R.G) (m : Fitted)
    (h : irepFit fuel R hp init df cf pc g = .ok (m, g')) :
    m.ruleset.rules.Pairwise (fun r s => ¬ (r.conds.map Cond.text).Perm (s.conds.map Cond.text)) := by
  obtain ⟨_, cn, st, hb, hg, hm, _⟩ := irepFit_ok h
  have := finish_pairwise hp.lim.maxTotalConds st.rules
  rw [← hm, List.pairwise_map] at this
  refine this.imp ?_
  intro r s hrs hp
  have : condsSameKey r.conds s.conds = true := condsSameKey_iff.mpr hp
  rw [hrs] at this
  cases this

/-- C33. Fitting IREP from an initial model without duplicates whose conditions fit `max_total_conds` gives
a model that starts with exactly the initial rules, in order. -/
theorem C33_irep_keeps_initial_model [Arith] (R : PyRandom) (hp : Hyper) (init : List (List Cond)) (df : Frame)
    (cf : Feat) (pc : Val) (hdup : init.Pairwise (fun a b => ¬ (a.map Cond.text).Perm (b.map Cond.text)))
    (hfits : ∀ k, hp.lim.maxTotalConds = some k → (((init.map List.length).sum : Nat) : Int) ≤ k)
    (fuel : Nat) (g g' : R.G) (m : Fitted) (h : irepFit fuel R hp init df cf pc g = .ok (m, g')) :
    init <+: m.ruleset.rules.map Rule.conds := by
  obtain ⟨_, cn, st, hb, hg, hm, _⟩ := irepFit_ok h
  obtain ⟨s, hs, h1, _⟩ := irepGrowCn_reach hg
  have hpre : init <+: st.rules := by rw [h1]; exact hs.prefix
  obtain ⟨added, hadd⟩ := hpre
  rw [hm, ← hadd]
  unfold finish
  have hd : removeDups condsSameKey (init ++ added) = init ++ removeDupsAux condsSameKey (init.reverse ++ []) added := by
    refine removeDupsAux_prefix init added [] (by simp) (hdup.imp ?_)
    intro a b hab
    rw [← Bool.not_eq_true, condsSameKey_iff]
    exact hab
  rw [hd]
  cases hk : hp.lim.maxTotalConds with
  | none => exact List.prefix_append _ _
  | some k =>
    have hfit := hfits k hk
    simp only [trimRules]
    obtain ⟨j, hj, he, _, hmax⟩ := trimAux_spec (size := List.length) k
      (init ++ removeDupsAux condsSameKey (init.reverse ++ []) added) _ (le_refl _)
    rw [he]
    have hji : init.length ≤ j := by
      by_contra hc
      have := hmax init.length (by omega) (by simp)
      rw [List.take_left'] at this
      · omega
      · rfl
    rw [List.take_append]
    rw [List.take_of_length_le hji]
    exact List.prefix_append _ _

/-! ### complete coverage and quality of the rules -/

/-- C27. With `prune_size` 0 or None and without `max_rules`, `max_total_conds` and `min_ruleset_samples`, a fitted
IREP model predicts True for every positive training row (the other two limits may be set). Conditions
that print alike must mean the same, because de-duplication compares printed text. -/
theorem C27_irep_covers_positives [Arith] [Arith.Lawful] (R : PyRandom) (hp : Hyper) (hprune : hp.irepPrune = 0)
    (hl : hp.lim.maxRules = none ∧ hp.lim.maxTotalConds = none ∧ hp.lim.minRulesetSamples = none)
    (init : List (List Cond)) (df : Frame) (cf : Feat) (pc : Val) (hu : df.UniqueIndex)
    (hinit : ∀ r ∈ init, OverCols df cf r)
    (htext : PrintsApart (fun c => (TrainCond df cf c ∧ SeenCond df cf c) ∨ ∃ r ∈ init, c ∈ r))
    (fuel : Nat) (g g' : R.G) (m : Fitted) (h : irepFit fuel R hp init df cf pc g = .ok (m, g')) :
    ∃ p : Row → Bool, m.ruleset.predict (df.dropCol cf) = .ok (df.rows.map p) ∧
      ∀ row ∈ df.rows, Positive cf pc row → p row = true := by
  obtain ⟨_, cn, st, hb, hg, hm, _⟩ := irepFit_ok h
  obtain ⟨s, hs, h1, h2, _, hstop⟩ := irepGrowCn_reach hg
  have hw := CatNap.build_WF hb
  have hcond : ∀ r ∈ st.rules, ∀ c ∈ r, (TrainCond df cf c ∧ SeenCond df cf c) ∨ ∃ r ∈ init, c ∈ r := by
    intro r hr c hc
    rw [h1] at hr
    rcases hs.rule r hr with h | ⟨s1, s2, _, ha⟩
    · exact Or.inr ⟨r, h, hc⟩
    · exact Or.inl ⟨trainCond_of_mem hb (ha.conds hw c hc), ha.seen hb c hc⟩
  have hover : ∀ r ∈ st.rules, OverCols df cf r := by
    intro r hr c hc
    rcases hcond r hr c hc with ⟨h, _⟩ | ⟨r', hr', hc'⟩
    · exact ⟨h.1, h.2.1⟩
    · exact hinit r' hr' c hc'
  have hsubl : ∀ r ∈ m.ruleset.rules, r.conds ∈ st.rules := by
    intro r hr
    have : r.conds ∈ m.ruleset.rules.map Rule.conds := List.mem_map.mpr ⟨r, hr, rfl⟩
    rw [hm] at this
    exact (finish_sublist _ _).subset this
  have hfeat : HasFeatures (df.dropCol cf) m.ruleset.rules := by
    intro r hr c hc
    exact Frame.mem_dropCol.mpr (hover _ (hsubl r hr) c hc)
  refine ⟨rulesMet m.ruleset.rules, Ruleset.predict_unique (df := df.dropCol cf) hu (Or.inr hfeat), ?_⟩
  intro row hrow hpos
  rw [rulesMet_iff]
  have hse : s.pos = [] := by
    rcases hstop with h | h | h
    · exact h
    · unfold stopEarly at h
      rw [hl.1, hl.2.1, hl.2.2] at h
      simp [atLeast, below] at h
    · exact absurd hprune h
  rcases hs.complete row.label (mem_posLabels.mpr ⟨row, hrow, rfl, hpos⟩) with h | ⟨r, hr, hh⟩
  · rw [hse] at h; simp at h
  · rw [← h1] at hr
    obtain ⟨row', hr', hlab, hf⟩ := hit_fires hb hu hh
    have : row' = row := row_eq_of_label hu hr' hrow hlab
    subst this
    have hrep := removeDups_rep (same := condsSameKey) st.rules hr
    have hfin : m.ruleset.rules.map Rule.conds = removeDups condsSameKey st.rules := by
      rw [hm]; unfold finish; rw [hl.2.1]; rfl
    rw [← hfin] at hrep
    rcases hrep with h | ⟨t, ht, hkey⟩
    · obtain ⟨q, hq, he⟩ := List.mem_map.mp h
      exact ⟨q, hq, by unfold Fires; rw [he]; exact hf⟩
    · obtain ⟨q, hq, rfl⟩ := List.mem_map.mp ht
      refine ⟨q, hq, ?_⟩
      intro c hc
      have hperm := condsSameKey_iff.mp hkey
      have : c.text ∈ condTexts r := hperm.mem_iff.mp (List.mem_map.mpr ⟨c, hc, rfl⟩)
      obtain ⟨d, hd, hde⟩ := List.mem_map.mp this
      exact (htext d c (hcond r hr d hd) (hcond _ (hsubl q hq) c hc) hde row').mp (hf d hd)

namespace Spec
/-- Nothing in the data prints like something else: column labels contain no `=` and print differently, and different
values (missing ones apart) of one column print differently. -/
structure ReadsApart (df : Frame) (cf : Feat) : Prop where
  noEq : ∀ f ∈ df.cols, '=' ∉ f.text
  cols : ∀ f ∈ df.cols, ∀ f' ∈ df.cols, f.text = f'.text → f = f'
  cells : ∀ f ∈ df.cols, f ≠ cf → ∀ row ∈ df.rows, ∀ row' ∈ df.rows, row.cell f ≠ .nan → row'.cell f ≠ .nan →
    (row.cell f).text = (row'.cell f).text → Same (row.cell f) (row'.cell f)
end Spec

theorem Same.congr {a b v : Val} (h : Same a b) : Same v a ↔ Same v b := by
  rcases h with ⟨s, rfl, rfl⟩ | ⟨q, t, u, rfl, rfl⟩
  · exact Iff.rfl
  · constructor
    · rintro (⟨s, rfl, h⟩ | ⟨q', t', u', rfl, h⟩)
      · cases h
      · cases h; exact Or.inr ⟨_, _, _, rfl, rfl⟩
    · rintro (⟨s, rfl, h⟩ | ⟨q', t', u', rfl, h⟩)
      · cases h
      · cases h; exact Or.inr ⟨_, _, _, rfl, rfl⟩

/-- Learned conditions on such data print apart. -/
theorem Spec.ReadsApart.printsApart {df : Frame} {cf : Feat} (h : ReadsApart df cf) :
    PrintsApart (fun c => TrainCond df cf c ∧ SeenCond df cf c) := by
  rintro ⟨f, v⟩ ⟨f', v'⟩ ⟨⟨h1, h2, row1, hr1, hv1⟩, hs1⟩ ⟨⟨h3, h4, row2, hr2, hv2⟩, hs2⟩ he row
  simp only [Cond.text, List.append_assoc, List.singleton_append] at he
  obtain ⟨hf, hv⟩ := append_eq_split (h.noEq f h1) (h.noEq f' h3) he
  have hff := h.cols f h1 f' h3 hf
  subst hff
  have hn : ∀ {w : Val}, SeenCond df cf ⟨f, w⟩ → w ≠ .nan := by
    rintro w ⟨_, _, r, _, hm⟩ rfl
    rcases hm with ⟨s, _, h⟩ | ⟨q, t, u, _, h⟩ <;> cases h
  simp only at hv1 hv2
  have := h.cells f h1 h2 row1 hr1 row2 hr2 (by rw [hv1]; exact hn hs1) (by rw [hv2]; exact hn hs2) (by rw [hv1, hv2]; exact hv)
  rw [hv1, hv2] at this
  exact Same.congr this

/-- C27 without an initial model: on data in which nothing prints like something else, every positive training row is
predicted True. -/
theorem C27_irep_covers_positives_data [Arith] [Arith.Lawful] (R : PyRandom) (hp : Hyper) (hprune : hp.irepPrune = 0)
    (hl : hp.lim.maxRules = none ∧ hp.lim.maxTotalConds = none ∧ hp.lim.minRulesetSamples = none)
    (df : Frame) (cf : Feat) (pc : Val) (hu : df.UniqueIndex) (hr : ReadsApart df cf)
    (fuel : Nat) (g g' : R.G) (m : Fitted) (h : irepFit fuel R hp [] df cf pc g = .ok (m, g')) :
    ∃ p : Row → Bool, m.ruleset.predict (df.dropCol cf) = .ok (df.rows.map p) ∧
      ∀ row ∈ df.rows, Positive cf pc row → p row = true := by
  refine C27_irep_covers_positives R hp hprune hl [] df cf pc hu (by simp) ?_ fuel g g' m h
  intro c d h1 h2
  exact hr.printsApart c d (by simpa using h1) (by simpa using h2)

example : ReadsApart Demo.train Demo.fc ∧
    (irepFit 9 Demo.R0 { pruneSize := none } [] Demo.train Demo.fc Demo.vp ()).map
      (fun m => (m.1.ruleset.rules.map Rule.conds, m.1.ruleset.predict (Demo.train.dropCol Demo.fc))) =
      .ok ([[⟨Demo.fa, Demo.vx⟩, ⟨Demo.fb, Demo.vx⟩], [⟨Demo.fa, Demo.vx⟩]], .ok [true, true, false, false, true]) := by
  refine ⟨⟨by decide +kernel, by decide +kernel, ?_⟩, by decide +kernel⟩
  intro f hf _ row hr row' hr' _ _ he
  simp only [Demo.train, Frame.ofTable, List.map_cons, List.map_nil, List.mem_cons, List.not_mem_nil, or_false] at hr hr' hf
  have key : ∀ r, (r = row ∨ r = row') → ∃ t, r.cell f = .str t := by
    rintro r (rfl | rfl)
    · rcases hr with rfl | rfl | rfl | rfl | rfl <;> rcases hf with rfl | rfl | rfl <;> exact ⟨_, rfl⟩
    · rcases hr' with rfl | rfl | rfl | rfl | rfl <;> rcases hf with rfl | rfl | rfl <;> exact ⟨_, rfl⟩
  obtain ⟨t, ht⟩ := key row (Or.inl rfl)
  obtain ⟨u, hu⟩ := key row' (Or.inr rfl)
  rw [ht, hu] at he ⊢
  simp only [Val.text] at he
  exact Or.inl ⟨_, rfl, by rw [he]⟩

/-- C27 without its hypothesis on printed text is false: a column holding both the number 1 and the text
`1` needs two rules that print alike, and de-duplication drops the second. -/
theorem C27_refuted_mixed_types :
    let one : Val := .num 1 p!"1"
    let df := Frame.ofTable [Demo.fa, Demo.fc] [(0, [one, Demo.vp]), (1, [.str p!"1", Demo.vp]), (2, [Demo.vx, Demo.vn])]
    (irepFit 9 Demo.R0 { pruneSize := none } [] df Demo.fc Demo.vp ()).map
        (fun m => (m.1.ruleset.rules.map Rule.conds, m.1.ruleset.predict df)) =
      .ok ([[⟨Demo.fa, one⟩]], .ok [true, false, false]) := by
  decide +kernel

/-- Specification of "the model was built by a chain of steps". -/
inductive Spec.StepsFrom {S A : Type} (body : S → Except PyErr (Step S A)) (s0 : S) : S → Prop where
  | start : StepsFrom body s0 s0
  | step {s s'} : StepsFrom body s0 s → body s = .ok (.more s') → StepsFrom body s0 s'

/-- C28. With pruning on, an iteration that adds a rule adds exactly one, and the rule covers at least as many
positives as negatives of the prune set of that iteration, and at least one positive. -/
theorem C28_irep_step_quality [Arith] [Arith.Lawful] (R : PyRandom) (hp : Hyper) (hprune : hp.irepPrune ≠ 0) (df : Frame)
    (cf : Feat) (cn : CatNap) (hb : CatNap.build df cf = .ok cn) (hu : df.UniqueIndex) (fuel : Nat)
    (st st' : GrowSt R) (h : irepStepCn fuel R cn hp st = .ok (.more st')) :
    let splitPos := randomSplit R st.g st.pos (Arith.complement hp.irepPrune) hp.randomState
    let splitNeg := randomSplit R splitPos.2.2 st.neg (Arith.complement hp.irepPrune) hp.randomState
    ∃ rule, st'.rules = st.rules ++ [rule] ∧
      nCovered df rule splitNeg.2.1 ≤ nCovered df rule splitPos.2.1 ∧ 1 ≤ nCovered df rule splitPos.2.1 := by
  obtain ⟨rule, ha⟩ := irepStepCn_more h
  refine ⟨rule, ha.rules, ?_⟩
  have hov : OverCols df cf rule := fun c hc => overCols_conds hb (ha.conds (CatNap.build_WF hb) c hc)
  obtain ⟨a, b, c, d, g1, grown, h1, h2, h3, h4⟩ := ha.how
  rw [h1]
  simp only
  rw [h2]
  simp only
  rcases h4 with ⟨hz, _⟩ | ⟨_, _, _, q, hq, hq0, hq1⟩
  · exact absurd hz hprune
  · rw [nCovered_eq hb hu hov, nCovered_eq hb hu hov]
    unfold rulePrecisionCn at hq
    simp only at hq
    split at hq
    · cases hq
    · rename_i hne
      injection hq with hq
      generalize (cn.ruleCovers rule (some b)).length = x at *
      generalize (cn.ruleCovers rule (some d)).length = y at *
      rw [← hq] at hq1
      have := Arith.Lawful.quot_half _ _ (by omega) hq1
      omega

/-- C28, whole runs. Every learned rule of a fitted model was added by such an iteration: one reached from
the start of training, with splits of the positives and negatives remaining at that point. -/
theorem C28_irep_every_rule [Arith] [Arith.Lawful] (R : PyRandom) (hp : Hyper) (hprune : hp.irepPrune ≠ 0)
    (init : List (List Cond)) (df : Frame) (cf : Feat) (pc : Val) (hu : df.UniqueIndex) (fuel : Nat) (g g' : R.G)
    (m : Fitted) (h : irepFit fuel R hp init df cf pc g = .ok (m, g')) :
    ∃ cn, CatNap.build df cf = .ok cn ∧
    ∀ r ∈ m.ruleset.rules, r.conds ∈ init ∨ ∃ s s',
      StepsFrom (irepStepCn fuel R cn hp)
        ⟨init, labelSet (posRows df cf pc).index,
          labelSet (negRows df cf pc).index, g⟩ s ∧
      irepStepCn fuel R cn hp s = .ok (.more s') ∧ s'.rules = s.rules ++ [r.conds] ∧
      (let splitPos := randomSplit R s.g s.pos (Arith.complement hp.irepPrune) hp.randomState
       let splitNeg := randomSplit R splitPos.2.2 s.neg (Arith.complement hp.irepPrune) hp.randomState
       nCovered df r.conds splitNeg.2.1 ≤ nCovered df r.conds splitPos.2.1 ∧
       1 ≤ nCovered df r.conds splitPos.2.1) := by
  obtain ⟨_, cn, st, hb, hg, hm, _⟩ := irepFit_ok h
  refine ⟨cn, hb, ?_⟩
  let s0 : GrowSt R := ⟨init, labelSet (posRows df cf pc).index,
          labelSet (negRows df cf pc).index, g⟩
  have key : ∀ s, StepsFrom (irepStepCn fuel R cn hp) s0 s → ∀ r ∈ s.rules, r ∈ init ∨ ∃ t t',
      StepsFrom (irepStepCn fuel R cn hp) s0 t ∧ irepStepCn fuel R cn hp t = .ok (.more t') ∧
      t'.rules = t.rules ++ [r] := by
    intro s hs
    induction hs with
    | start => intro r hr; exact Or.inl hr
    | @step s s' hs hb' ih =>
      intro r hr
      obtain ⟨rule, ha⟩ := irepStepCn_more hb'
      rw [ha.rules] at hr
      rcases List.mem_append.mp hr with hr | hr
      · exact ih r hr
      · simp at hr; subst hr; exact Or.inr ⟨s, s', hs, hb', ha.rules⟩
  have hfin : ∃ s, StepsFrom (irepStepCn fuel R cn hp) s0 s ∧ st.rules = s.rules := by
    refine pyWhile_inv (body := irepStepCn fuel R cn hp)
      (I := fun s => StepsFrom (irepStepCn fuel R cn hp) s0 s)
      (Q := fun a => ∃ s, StepsFrom (irepStepCn fuel R cn hp) s0 s ∧ a.rules = s.rules)
      (fun s s' hI hb' => .step hI hb') (fun s a hI hb' => ⟨s, hI, (irepStepCn_done hb').1⟩)
      fuel s0 st .start hg
  obtain ⟨s, hs, hrules⟩ := hfin
  intro r hr
  have : r.conds ∈ m.ruleset.rules.map Rule.conds := List.mem_map.mpr ⟨r, hr, rfl⟩
  rw [hm] at this
  have := (finish_sublist _ _).subset this
  rw [hrules] at this
  rcases key s hs _ this with h | ⟨t, t', ht, hstep, heq⟩
  · exact Or.inl h
  · refine Or.inr ⟨t, t', ht, hstep, heq, ?_⟩
    obtain ⟨rule, hrl, hq⟩ := C28_irep_step_quality R hp hprune df cf cn hb hu fuel t t' hstep
    rw [heq] at hrl
    have := List.append_cancel_left hrl
    simp only [List.cons.injEq, and_true] at this
    rw [this]
    exact hq

/-! ### reproducibility and splits -/

theorem irepStepCn_seeded [Arith] {fuel : Nat} {R : PyRandom} {cn : CatNap} {hp : Hyper} (hR : R.SeedResets) {s : Int}
    (hs : hp.randomState = some s) (rules : List (List Cond)) (pos neg : List Label) (g g' : R.G) :
    (∃ e, irepStepCn fuel R cn hp ⟨rules, pos, neg, g⟩ = .error e ∧
      irepStepCn fuel R cn hp ⟨rules, pos, neg, g'⟩ = .error e) ∨
    (∃ t, irepStepCn fuel R cn hp ⟨rules, pos, neg, g⟩ = .ok (.more t) ∧
      irepStepCn fuel R cn hp ⟨rules, pos, neg, g'⟩ = .ok (.more t)) ∨
    (∃ t t', irepStepCn fuel R cn hp ⟨rules, pos, neg, g⟩ = .ok (.done t) ∧
      irepStepCn fuel R cn hp ⟨rules, pos, neg, g'⟩ = .ok (.done t') ∧ t.rules = t'.rules) := by
  by_cases h1 : pos = []
  · exact Or.inr (Or.inr ⟨⟨rules, pos, neg, g⟩, ⟨rules, pos, neg, g'⟩, by simp [irepStepCn, h1], by simp [irepStepCn, h1], rfl⟩)
  by_cases h2 : stopEarly hp.lim rules pos.length neg.length = true
  · exact Or.inr (Or.inr ⟨⟨rules, pos, neg, g⟩, ⟨rules, pos, neg, g'⟩, by simp [irepStepCn, h1, h2],
      by simp [irepStepCn, h1, h2], rfl⟩)
  have : irepStepCn fuel R cn hp ⟨rules, pos, neg, g⟩ = irepStepCn fuel R cn hp ⟨rules, pos, neg, g'⟩ := by
    unfold irepStepCn
    simp only [h1, if_false, h2]
    rw [hs, randomSplit_seeded hR g g' pos _ s]
    rfl
  rw [this]
  cases hb : irepStepCn fuel R cn hp ⟨rules, pos, neg, g'⟩ with
  | error e => exact Or.inl ⟨e, rfl, rfl⟩
  | ok o =>
    cases o with
    | more t => exact Or.inr (Or.inl ⟨t, rfl, rfl⟩)
    | done t => exact Or.inr (Or.inr ⟨t, t, rfl, rfl, rfl⟩)

/-- C36, IREP. With `random_state` set, the fitted model (rules, calibration, features) does not depend on the
state the global generator had before `fit`. -/
theorem C36_irep_reproducible [Arith] (R : PyRandom) (hR : R.SeedResets) (hp : Hyper) (s : Int)
    (hs : hp.randomState = some s) (init : List (List Cond)) (df : Frame) (cf : Feat) (pc : Val)
    (fuel : Nat) (g g' : R.G) :
    (irepFit fuel R hp init df cf pc g).map Prod.fst = (irepFit fuel R hp init df cf pc g').map Prod.fst := by
  have hgrow : ∀ cn pos neg, (irepGrowCn fuel R cn hp init pos neg g).map GrowSt.rules =
      (irepGrowCn fuel R cn hp init pos neg g').map GrowSt.rules := by
    intro cn pos neg
    unfold irepGrowCn
    cases hf : fuel with
    | zero => rfl
    | succ n =>
      rw [pyWhile_succ, pyWhile_succ]
      rcases irepStepCn_seeded (fuel := n + 1) (cn := cn) hR hs init pos neg g g' with
        ⟨e, h1, h2⟩ | ⟨t, h1, h2⟩ | ⟨t, t', h1, h2, h3⟩
      · rw [h1, h2]
      · rw [h1, h2]
      · rw [h1, h2]; simp [Except.map, h3]
  unfold irepFit
  split
  · rfl
  split
  · rfl
  cases hb : CatNap.build df cf with
  | error e => rfl
  | ok cn =>
    simp only [ok_bind]
    have := hgrow cn (labelSet (posRows df cf pc).index) (labelSet (negRows df cf pc).index)
    cases h1 : irepGrowCn fuel R cn hp init (labelSet (posRows df cf pc).index)
        (labelSet (negRows df cf pc).index) g with
    | error e =>
      cases h2 : irepGrowCn fuel R cn hp init (labelSet (posRows df cf pc).index)
        (labelSet (negRows df cf pc).index) g' with
      | error e' =>
        rw [h1, h2] at this
        simp only [Except.map, Except.error.injEq] at this
        subst this; rfl
      | ok b => rw [h1, h2] at this; simp [Except.map] at this
    | ok a =>
      cases h2 : irepGrowCn fuel R cn hp init (labelSet (posRows df cf pc).index)
        (labelSet (negRows df cf pc).index) g' with
      | error e' => rw [h1, h2] at this; simp [Except.map] at this
      | ok b =>
        rw [h1, h2] at this
        simp only [Except.map, Except.ok.injEq] at this
        simp only [ok_bind, this]
        rcases recalibrate { rules := b.rules.map (fun c => ({ conds := c } : Rule)), possible := some cn.conds }
          df cf pc hp.alpha with ⟨rs, o⟩
        cases o with
        | none => rfl
        | some e => rfl

/-- C37. A split holds every element exactly once; the first part has `int(n * size)` elements if that number is between 0
and `n`, and the second part is not empty if it is below `n`. -/
theorem C37_splits [Arith] (R : PyRandom) (hR : R.Lawful) (g : R.G) (l : List Label) (size : Rat) (seed : Option Int) :
    let s := randomSplit R g l size seed
    let n := Arith.cut l.length size
    (s.1 ++ s.2.1).Perm l ∧
    (0 ≤ n → n ≤ l.length → ((s.1.length : Nat) : Int) = n) ∧
    (0 ≤ n → n < l.length → s.2.1 ≠ []) :=
  ⟨randomSplit_perm hR g l size seed,
   fun h0 h1 => (randomSplit_lengths hR g l size seed h0 h1).1,
   fun h0 h1 => randomSplit_prune_ne_nil hR g seed h0 h1⟩

/-- C37. Without rounding, for `0 <= size <= 1` that number is `floor(n * size)`, which is between 0 and `n`, and below `n`
for `size < 1` and a non-empty list. -/
theorem C37_cut (n : Nat) (size : Rat) (h0 : 0 ≤ size) (h1 : size ≤ 1) :
    @Arith.cut Arith.exact n size = ⌊(n : Rat) * size⌋ ∧ 0 ≤ @Arith.cut Arith.exact n size ∧
    @Arith.cut Arith.exact n size ≤ n ∧ (size < 1 → 0 < n → @Arith.cut Arith.exact n size < n) :=
  ⟨exact_cut h0, exact_cut_nonneg h0, exact_cut_le h0 h1, fun h hn => exact_cut_lt h0 h hn⟩

/-- C37. On a frame with distinct labels the DataFrame split divides the rows in the same way. -/
theorem C37_frame_split [Arith] (R : PyRandom) (hR : R.Lawful) (g : R.G) (df : Frame) (hu : df.UniqueIndex)
    (size : Rat) (seed : Option Int) :
    let s := dfShuffledSplit R g df size seed
    (s.1.rows ++ s.2.1.rows).Perm df.rows ∧ s.1.cols = df.cols ∧ s.2.1.cols = df.cols := by
  refine ⟨?_, rfl, rfl⟩
  unfold dfShuffledSplit Frame.loc
  simp only
  rw [← List.flatMap_append]
  refine ((randomSplit_perm hR g df.index size seed).flatMap_right _).trans ?_
  unfold Frame.index
  rw [List.flatMap_map]
  have : ∀ row ∈ df.rows, df.rows.filter (fun r => r.label == row.label) = [row] :=
    fun row hr => filter_label_singleton hu hr
  rw [List.flatMap_congr this]
  simp

/-! ### concrete runs -/

example : Demo.R1.Lawful ∧ Demo.R1.SeedResets ∧ (9 : Rat) / 10 ≤ 1 ∧
    (irepFit 9 Demo.R1 { pruneSize := some (1 / 2), randomState := some 3 } [] Demo.fit1 Demo.fc Demo.vp (0 : Nat)).map
      (fun m => m.1.ruleset.rules.map Rule.conds) = .ok [[⟨Demo.fa, Demo.vx⟩]] :=
  ⟨Demo.R1_lawful, Demo.R1_resets, by norm_num, by decide +kernel⟩

/-- A run without pruning, with an initial model: it learns a duplicate, which is dropped, and one more rule. -/
example : (irepFit 9 Demo.R0 { pruneSize := none } [[⟨Demo.fb, Demo.vx⟩, ⟨Demo.fa, Demo.vx⟩]] Demo.train Demo.fc Demo.vp ()).map
      (fun m => m.1.ruleset.rules.map Rule.conds) =
    .ok [[⟨Demo.fb, Demo.vx⟩, ⟨Demo.fa, Demo.vx⟩], [⟨Demo.fa, Demo.vx⟩]] := by decide +kernel

example : (irepFit 9 Demo.R0 { pruneSize := none, lim := { maxRules := some 1 } } [] Demo.train Demo.fc Demo.vp ()).map
      (fun m => m.1.ruleset.rules.map Rule.conds) = .ok [[⟨Demo.fa, Demo.vx⟩, ⟨Demo.fb, Demo.vx⟩]] := by decide +kernel

end Witt
