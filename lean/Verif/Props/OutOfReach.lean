import Verif.Props.Smoothing
import Verif.Props.Limits
import Verif.Props.RoundedPrune
/-
C109: limits out of reach have no effect. `max_rules` at or above the largest number of rules a fit can add, `max_rule_conds` at or
above the number of columns, and `min_rule_samples`/`min_ruleset_samples` of at most 1 change nothing: `fit` does exactly what it
does without them.
-/
namespace Witt

namespace Spec

/-- No limit, or one of `n` or more. -/
def OutOfReach (n : Nat) (o : Option Int) : Prop := ∀ m, o = some m → (n : Int) ≤ m

/-- No minimum, or one of at most 1. -/
def AtMostOne (o : Option Int) : Prop := ∀ m, o = some m → m ≤ 1

/-- Two choices of limits that differ only out of reach of a fit that can have `n` rules and `c` columns. (A differing
`min_rule_samples` needs a `max_rule_conds` out of reach: where that limit stops a growing rule, the last condition is popped if and
only if `min_rule_samples` is set.) -/
structure SameReach (n c : Nat) (l l' : Limits) : Prop where
  rules : l.maxRules = l'.maxRules ∨ (OutOfReach n l.maxRules ∧ OutOfReach n l'.maxRules)
  total : l.maxTotalConds = l'.maxTotalConds
  left : l.minRulesetSamples = l'.minRulesetSamples ∨ (AtMostOne l.minRulesetSamples ∧ AtMostOne l'.minRulesetSamples)
  conds : l.maxRuleConds = l'.maxRuleConds ∨ (OutOfReach c l.maxRuleConds ∧ OutOfReach c l'.maxRuleConds)
  samples : l.minRuleSamples = l'.minRuleSamples ∨
    ((AtMostOne l.minRuleSamples ∧ AtMostOne l'.minRuleSamples) ∧ OutOfReach c l.maxRuleConds ∧ OutOfReach c l'.maxRuleConds)

end Spec
open Spec

theorem outOfReach_not {n : Nat} {o : Option Int} (h : OutOfReach n o) {x : Nat} (hx : x < n) : atLeast (x : Int) o = false := by
  cases o with
  | none => rfl
  | some m =>
    have := h m rfl
    simp only [atLeast, decide_eq_false_iff_not]
    omega

theorem atMostOne_not {o : Option Int} (h : AtMostOne o) {p q : Nat} (hx : 1 ≤ p + q) :
    below ((p : Int) + q) o = false := by
  cases o with
  | none => rfl
  | some m =>
    have := h m rfl
    simp only [below, decide_eq_false_iff_not]
    omega

theorem stopEarly_reach {n c : Nat} {l l' : Limits} (h : SameReach n c l l') {rules : List (List Cond)} {p q : Nat}
    (hr : rules.length < n) (hp : 1 ≤ p + q) : stopEarly l rules p q = stopEarly l' rules p q := by
  unfold stopEarly
  rw [h.total]
  have h1 : atLeast rules.length l.maxRules = atLeast rules.length l'.maxRules := by
    rcases h.rules with h | ⟨h, h'⟩
    · rw [h]
    · rw [outOfReach_not h hr, outOfReach_not h' hr]
  have h2 : below ((p : Int) + q) l.minRulesetSamples = below ((p : Int) + q) l'.minRulesetSamples := by
    rcases h.left with h | ⟨h, h'⟩
    · rw [h]
    · rw [atMostOne_not h hp, atMostOne_not h' hp]
  rw [h1, h2]

/-! ### growing a rule -/

theorem growStepCn_reach [Arith] {n c : Nat} {l l' : Limits} (h : SameReach n c l l') {cn : CatNap} {pos neg : List Label} {r : List Cond}
    (hr : r.length < c) : growStepCn cn l pos neg r = growStepCn cn l' pos neg r := by
  unfold growStepCn
  dsimp only
  by_cases h0 : (cn.ruleCovers r (some neg)).length = 0
  · rw [if_pos h0, if_pos h0]
  rw [if_neg h0, if_neg h0]
  have h1 : atLeast r.length l.maxRuleConds = atLeast r.length l'.maxRuleConds := by
    rcases h.conds with h | ⟨h, h'⟩
    · rw [h]
    · rw [outOfReach_not h hr, outOfReach_not h' hr]
  rcases h.samples with hs | ⟨⟨hs, hs'⟩, hc, hc'⟩
  · unfold userHalt haltRule
    rw [h1, hs]
  · have : ∀ {l : Limits}, AtMostOne l.minRuleSamples → OutOfReach c l.maxRuleConds →
        userHalt l r (cn.ruleCovers r (some neg)).length (cn.ruleCovers r (some pos)).length = false := by
      intro l hs hc
      unfold userHalt
      rw [outOfReach_not hc hr, atMostOne_not hs (by omega)]
      rfl
    rw [this hs hc, this hs' hc']
    rfl

theorem growStepCn_samples [Arith] {n c : Nat} {l l' : Limits} (h : SameReach n c l l') {cn : CatNap} {pos neg : List Label} {r : List Cond} :
    growStepCn cn { minRuleSamples := l.minRuleSamples } pos neg r = growStepCn cn { minRuleSamples := l'.minRuleSamples } pos neg r := by
  rcases h.samples with hs | ⟨⟨hs, hs'⟩, _⟩
  · rw [hs]
  · refine growStepCn_reach (n := 0) (c := r.length + 1) (l := { minRuleSamples := l.minRuleSamples })
      (l' := { minRuleSamples := l'.minRuleSamples }) ⟨Or.inl rfl, rfl, Or.inl rfl, Or.inl rfl, Or.inr ⟨⟨hs, hs'⟩, ?_, ?_⟩⟩ (by omega)
    · intro m hm; cases hm
    · intro m hm; cases hm

/-- Two loops whose bodies agree wherever the first one gets. -/
theorem pyWhile_agree_inv {S A : Type} {body body' : S → Except PyErr (Step S A)} {I : S → Prop}
    (hmore : ∀ s s', I s → body s = .ok (.more s') → I s') (hbody : ∀ s, I s → body s = body' s) :
    ∀ n s, I s → pyWhile body n s = pyWhile body' n s := by
  intro n
  induction n with
  | zero => intro s _; rfl
  | succ n ih =>
    intro s hI
    rw [pyWhile_succ, pyWhile_succ, ← hbody s hI]
    cases hb : body s with
    | error e => rfl
    | ok st =>
      cases st with
      | done a => rfl
      | more s' => exact ih s' (hmore s s' hI hb)

theorem GrowChain.short [Arith] {df : Frame} {cf : Feat} {cn : CatNap} (hb : CatNap.build df cf = .ok cn) (hu : df.UniqueIndex) (hcf : cf ∈ df.cols)
    {pos neg : List Label} {r : List Cond} (h : GrowChain cn pos neg [] r) : r.length < df.cols.length := by
  have hd := h.nodup hb hu (by intro c hc; cases hc) (by simp)
  have ho := h.overCols hb (by intro c hc; cases hc)
  have hsub : (r.map Cond.feature) ⊆ df.cols.filter (fun f => decide (f ≠ cf)) := by
    intro f hf
    obtain ⟨c, hc, rfl⟩ := List.mem_map.mp hf
    exact List.mem_filter.mpr ⟨(ho c hc).1, by simpa using (ho c hc).2⟩
  have h1 := (List.subperm_of_subset hd hsub).length_le
  rw [List.length_map] at h1
  have h2 : (df.cols.filter (fun f => decide (f ≠ cf))).length < df.cols.length := by
    rcases Nat.lt_or_ge (df.cols.filter (fun f => decide (f ≠ cf))).length df.cols.length with h | h
    · exact h
    · have := (List.filter_sublist (l := df.cols)).eq_of_length_le h
      rw [List.filter_eq_self] at this
      have := this cf hcf
      simp at this
  omega

section
variable [Arith] [Arith.Lawful] {df : Frame} {cf : Feat} {cn : CatNap} {R : PyRandom} {fuel : Nat} {n : Nat} {l l' : Limits}

theorem growRuleCn_reach (hb : CatNap.build df cf = .ok cn) (hu : df.UniqueIndex) (hcf : cf ∈ df.cols)
    (h : SameReach n df.cols.length l l') (pos neg : List Label) :
    growRuleCn fuel cn l pos neg [] = growRuleCn fuel cn l' pos neg [] := by
  unfold growRuleCn
  refine pyWhile_agree_inv (I := fun r => GrowChain cn pos neg [] r) ?_ ?_ fuel [] .refl
  · intro r r' hI hm
    rcases growStepCn_cases hm with ⟨_, h⟩ | ⟨_, _, h⟩ | ⟨h0, hu, ⟨_, h⟩ | ⟨r'', hb', h⟩⟩
    · cases h
    · cases h
    · cases h
    · injection h with h; subst h
      obtain ⟨c, rfl, hus, _⟩ := bestSucc_useful (CatNap.build_WF hb) hb'
      exact hI.snoc hus
  · intro r hI
    exact growStepCn_reach h (hI.short hb hu hcf)

omit [Arith.Lawful] in
theorem growRuleCn_samples (h : SameReach n df.cols.length l l') (pos neg : List Label) (init : List Cond) :
    growRuleCn fuel cn { minRuleSamples := l.minRuleSamples } pos neg init =
      growRuleCn fuel cn { minRuleSamples := l'.minRuleSamples } pos neg init := by
  unfold growRuleCn
  congr 1
  funext r
  exact growStepCn_samples h

/-! ### IREP -/

theorem irepStepCn_reach (hb : CatNap.build df cf = .ok cn) (hu : df.UniqueIndex) (hcf : cf ∈ df.cols)
    (h : SameReach n df.cols.length l l') (hp : Hyper) {st : GrowSt R} (hst : st.rules.length + st.pos.length ≤ n) :
    irepStepCn fuel R cn { hp with lim := l } st = irepStepCn fuel R cn { hp with lim := l' } st := by
  unfold irepStepCn
  by_cases h0 : st.pos = []
  · rw [if_pos h0, if_pos h0]
  have hpos : 0 < st.pos.length := List.length_pos_iff.mpr h0
  rw [if_neg h0, if_neg h0]
  simp only [stopEarly_reach h (rules := st.rules) (p := st.pos.length) (q := st.neg.length) (by omega) (by omega),
    growRuleCn_reach (fuel := fuel) hb hu hcf h, Hyper.irepPrune]
  rfl

theorem irepGrowCn_reach_limits (hR : R.Lawful) (hb : CatNap.build df cf = .ok cn) (hu : df.UniqueIndex) (hcf : cf ∈ df.cols)
    (h : SameReach n df.cols.length l l') (hp : Hyper) {init : List (List Cond)} {pos neg : List Label} {g : R.G}
    (hsub : ∀ x ∈ pos, x ∈ cn.all) (hn : init.length + pos.length ≤ n) :
    irepGrowCn fuel R cn { hp with lim := l } init pos neg g = irepGrowCn fuel R cn { hp with lim := l' } init pos neg g := by
  unfold irepGrowCn
  refine pyWhile_agree_inv (I := fun st : GrowSt R => (∀ x ∈ st.pos, x ∈ cn.all) ∧ st.rules.length + st.pos.length ≤ n) ?_ ?_ fuel _
    ⟨hsub, hn⟩
  · rintro st st' ⟨h1, h2⟩ hm
    obtain ⟨rule, ha⟩ := irepStepCn_more hm
    have h3 := ha.pos_lt hR (CatNap.build_WF hb) h1
    refine ⟨fun x hx => h1 x (ha.pos_sub x hx), ?_⟩
    rw [ha.rules, List.length_append, List.length_singleton]
    omega
  · rintro st ⟨_, h2⟩
    exact irepStepCn_reach hb hu hcf h hp h2

/-! ### RIPPER -/

theorem ripperStepCn_reach (hb : CatNap.build df cf = .ok cn) (hu : df.UniqueIndex) (hcf : cf ∈ df.cols)
    (h : SameReach n df.cols.length l l') (hp : Hyper) {allPos allNeg : List Label} {st : RipSt R}
    (hst : st.rules.length + st.pos.length ≤ n) :
    ripperStepCn fuel R cn { hp with lim := l } allPos allNeg st = ripperStepCn fuel R cn { hp with lim := l' } allPos allNeg st := by
  unfold ripperStepCn
  by_cases h0 : st.pos = []
  · rw [if_pos (Or.inl h0), if_pos (Or.inl h0)]
  have hpos : 0 < st.pos.length := List.length_pos_iff.mpr h0
  simp only [stopEarly_reach h (rules := st.rules) (p := st.pos.length) (q := st.neg.length) (by omega) (by omega),
    growRuleCn_reach (fuel := fuel) hb hu hcf h]

theorem ripperGrowCn_reach_limits (hR : R.Lawful) (hb : CatNap.build df cf = .ok cn) (hu : df.UniqueIndex) (hcf : cf ∈ df.cols)
    (h : SameReach n df.cols.length l l') (hp : Hyper) {init : List (List Cond)} {pos neg : List Label} {g : R.G}
    (hsub : ∀ x ∈ pos, x ∈ cn.all) (hn : init.length + pos.length ≤ n) :
    ripperGrowCn fuel R cn { hp with lim := l } init pos neg g = ripperGrowCn fuel R cn { hp with lim := l' } init pos neg g := by
  unfold ripperGrowCn
  refine pyWhile_agree_inv (I := fun st : RipSt R => (∀ x ∈ st.pos, x ∈ cn.all) ∧ st.rules.length + st.pos.length ≤ n) ?_ ?_ fuel _
    ⟨hsub, hn⟩
  · rintro st st' ⟨h1, h2⟩ hm
    obtain ⟨rule, ha⟩ := ripperStepCn_more hm
    have h3 := ha.pos_lt hR (CatNap.build_WF hb) h1
    refine ⟨fun x hx => h1 x (ha.pos_sub x hx), ?_⟩
    rw [ha.rules, List.length_append, List.length_singleton]
    omega
  · rintro st ⟨_, h2⟩
    exact ripperStepCn_reach hb hu hcf h hp h2

omit [Arith.Lawful] in
theorem optimizeChoice_reach (h : SameReach n df.cols.length l l') (hp : Hyper) {original : List (List Cond)} {odl : Rat} {i : Nat} {rule : List Cond}
    {allPos allNeg a b c d : List Label} :
    optimizeChoice fuel cn { hp with lim := l } original odl i rule allPos allNeg a b c d =
      optimizeChoice fuel cn { hp with lim := l' } original odl i rule allPos allNeg a b c d := by
  unfold optimizeChoice
  simp only [growRuleCn_samples (df := df) (cn := cn) (fuel := fuel) h]

omit [Arith.Lawful] in
theorem optimizeLoop_reach (hR : R.Lawful) (h : SameReach n df.cols.length l l') (hp : Hyper) {ps : Rat} {rs : Option Int} {original : List (List Cond)} {odl : Rat}
    {allPos allNeg : List Label} :
    ∀ (rest : List (List Cond)) (i : Nat) (new : List (List Cond)) (pos neg : List Label) (g : R.G),
    (pos ≠ [] → new.length < n) →
    optimizeLoop fuel R cn { hp with lim := l } ps rs original odl allPos allNeg i rest new pos neg g =
      optimizeLoop fuel R cn { hp with lim := l' } ps rs original odl allPos allNeg i rest new pos neg g := by
  intro rest
  induction rest with
  | nil => intros; rfl
  | cons rule rest ih =>
    intro i new pos neg g hn
    rw [optimizeLoop, optimizeLoop]
    rcases hp1 : randomSplit R g pos (Arith.complement ps) rs with ⟨a, b, g1⟩
    rcases hp2 : randomSplit R g1 neg (Arith.complement ps) rs with ⟨c, d, g2⟩
    have h1 := split_fst_le hR hp1
    simp only [hp2]
    by_cases ha : a = []
    · rw [if_pos ha, if_pos ha]
    have hpos : 0 < pos.length := lt_of_lt_of_le (List.length_pos_iff.mpr ha) h1
    have hlt := hn (List.length_pos_iff.mp hpos)
    rw [if_neg ha, if_neg ha]
    simp only [stopEarly_reach h (rules := new) (p := pos.length) (q := neg.length) hlt (by omega),
      optimizeChoice_reach (df := df) (fuel := fuel) h hp]
    split
    · rfl
    refine bind_congr fun best => ?_
    rw [ih _ _ _ _ _ (fun _ => by rw [List.length_set]; exact hlt)]

omit [Arith.Lawful] in
theorem optimizeCn_reach (hR : R.Lawful) (h : SameReach n df.cols.length l l') (hp : Hyper) {rs : Option Int} {allPos allNeg : List Label} {rules : List (List Cond)} {g : R.G}
    (hn : allPos ≠ [] → rules.length < n) :
    optimizeCn fuel R cn { hp with lim := l } rs rules allPos allNeg g =
      optimizeCn fuel R cn { hp with lim := l' } rs rules allPos allNeg g := by
  unfold optimizeCn
  refine bind_congr fun x => ?_
  obtain ⟨mdl, odl⟩ := x
  dsimp only
  have hl := fun ps => optimizeLoop_reach (cn := cn) (fuel := fuel) hR h hp (ps := ps) (rs := rs) (original := rules) (odl := odl) (allPos := allPos)
    (allNeg := allNeg) rules 0 rules allPos allNeg g hn
  obtain ⟨ps, k, a, lim, al, r⟩ := hp
  cases ps with
  | none => rfl
  | some ps => exact hl ps

omit [Arith.Lawful] in
theorem stage2_reach (hR : R.Lawful) (h : SameReach n df.cols.length l l') (hp : Hyper) {allPos allNeg : List Label} :
    ∀ (k : Nat) (rules : List (List Cond)) (g : R.G), (allPos ≠ [] → rules.length < n) →
    stage2 fuel R cn { hp with lim := l } allPos allNeg k rules g = stage2 fuel R cn { hp with lim := l' } allPos allNeg k rules g := by
  intro k
  induction k with
  | zero => intros; rfl
  | succ k ih =>
    intro rules g hn
    rw [stage2, stage2, optimizeCn_reach hR h hp hn]
    refine bind_congr_ok fun x hx => ?_
    obtain ⟨new, g'⟩ := x
    dsimp only
    split
    · rfl
    · refine ih new g' (fun hne => ?_)
      obtain ⟨_, _, _, hl, _⟩ := optimizeCn_spec hx
      rw [hl]; exact hn hne

theorem ripperStages_reach (hR : R.Lawful) (hb : CatNap.build df cf = .ok cn) (hu : df.UniqueIndex) (hcf : cf ∈ df.cols)
    (h : SameReach n df.cols.length l l') (hp : Hyper) {init : List (List Cond)} {pos neg : List Label} {g : R.G}
    (hsub : ∀ x ∈ pos, x ∈ cn.all) (hn : init.length + 2 * pos.length ≤ n) :
    ripperStages fuel R cn { hp with lim := l } init pos neg g = ripperStages fuel R cn { hp with lim := l' } init pos neg g := by
  unfold ripperStages
  rw [ripperGrowCn_reach_limits hR hb hu hcf h hp hsub (by omega)]
  refine bind_congr_ok fun st hst => ?_
  obtain ⟨s, hs1, he, _⟩ := ripperGrowCn_reach hst
  have hc1 := hs1.count hR (CatNap.build_WF hb) hsub
  have hlen : st.rules.length ≤ init.length + pos.length := by rw [he]; simp only at hc1; omega
  have hlt : pos ≠ [] → st.rules.length < n := fun hne => by
    have := List.length_pos_iff.mpr hne
    omega
  rw [stage2_reach hR h hp _ _ _ hlt]
  refine bind_congr_ok fun x hx => ?_
  obtain ⟨r2, g2⟩ := x
  have h2 : r2.length = st.rules.length :=
    stage2_spec (P := fun rules => rules.length = st.rules.length)
      (fun rules out g g' hr ho => by
        obtain ⟨_, _, _, hl, _⟩ := optimizeCn_spec ho
        rw [hl, hr]) _ _ _ _ _ rfl hx
  dsimp only
  unfold coverRemainingCn
  rw [ripperGrowCn_reach_limits hR hb hu hcf h hp hsub (by omega)]

end

theorem Spec.SameReach.mono {n n' c c' : Nat} {l l' : Limits} (h : SameReach n c l l') (hn : n' ≤ n) (hc : c' ≤ c) :
    SameReach n' c' l l' := by
  have hm : ∀ {a b : Nat} {o : Option Int}, b ≤ a → OutOfReach a o → OutOfReach b o := by
    intro a b o hab h m hm
    have := h m hm
    omega
  exact ⟨h.rules.imp id (fun x => ⟨hm hn x.1, hm hn x.2⟩), h.total, h.left, h.conds.imp id (fun x => ⟨hm hc x.1, hm hc x.2⟩),
    h.samples.imp id (fun x => ⟨x.1, hm hc x.2.1, hm hc x.2.2⟩)⟩

/-- C109 for training on a labelled frame without repeated row labels: two choices of limits that differ only out of reach (for
IREP, of as many rules as the initial model has and positive rows there are) give the same model, or the same exception. -/
theorem C109_irep [Arith] [Arith.Lawful] (R : PyRandom) (hR : R.Lawful) (hp : Hyper) (init : List (List Cond)) (df : Frame) (hu : df.UniqueIndex)
    (cf : Feat) (pc : Val) (l l' : Limits) (h : SameReach (init.length + (posRows df cf pc).rows.length) df.cols.length l l')
    (fuel : Nat) (g : R.G) :
    irepFit fuel R { hp with lim := l } init df cf pc g = irepFit fuel R { hp with lim := l' } init df cf pc g := by
  unfold irepFit
  split
  · rfl
  split
  · rfl
  rename_i hcf
  rw [not_not] at hcf
  cases hb : CatNap.build df cf with
  | error e => rfl
  | ok cn =>
  have hlen := eraseDups_length_le (posRows df cf pc).index
  have hi : (posRows df cf pc).index.length = (posRows df cf pc).rows.length := by simp [Frame.index]
  simp only [ok_bind]
  rw [irepGrowCn_reach_limits hR hb hu hcf h hp (posLabels_all hb) (by omega), h.total]

/-- C109 for RIPPER, which grows twice: twice as many rules. -/
theorem C109_ripper [Arith] [Arith.Lawful] (R : PyRandom) (hR : R.Lawful) (hp : Hyper) (init : List (List Cond)) (df : Frame) (hu : df.UniqueIndex)
    (cf : Feat) (pc : Val) (l l' : Limits) (h : SameReach (init.length + 2 * (posRows df cf pc).rows.length) df.cols.length l l')
    (fuel : Nat) (g : R.G) :
    ripperFit fuel R { hp with lim := l } init df cf pc g = ripperFit fuel R { hp with lim := l' } init df cf pc g := by
  unfold ripperFit
  split
  · rfl
  split
  · rfl
  rename_i hcf
  rw [not_not] at hcf
  cases hb : CatNap.build df cf with
  | error e => rfl
  | ok cn =>
  have hlen := eraseDups_length_le (posRows df cf pc).index
  have hi : (posRows df cf pc).index.length = (posRows df cf pc).rows.length := by simp [Frame.index]
  simp only [ok_bind]
  rw [ripperStages_reach hR hb hu hcf h hp (posLabels_all hb) (by omega), h.total]

theorem toTraining_cols_length {X : TFrame} {y : Option YArg} {cf : Feat} {names : Option (List Feat)} {df : TFrame}
    (h : toTraining X y cf names = .ok df) : df.cols.length ≤ (names.getD X.cols).length + 1 := by
  unfold toTraining at h
  obtain ⟨X1, h1, h⟩ := bind_ok_iff.mp h
  have hX1 : X1.cols = names.getD X.cols := by
    cases names with
    | none => simp only [Except.ok.injEq] at h1; subst h1; rfl
    | some ns =>
      simp only [TFrame.rename] at h1
      split at h1
      · cases h1
      · cases h1; rfl
  rw [← hX1]
  have hset : ∀ (d : TFrame) (vs : List Val), (d.setCol cf vs).cols.length ≤ d.cols.length + 1 := by
    intro d vs
    simp only [TFrame.setCol]
    split <;> simp
  cases y with
  | none => cases h; omega
  | some y =>
    cases y with
    | list vs =>
      simp only [attachY] at h
      split at h
      · cases h
      · cases h; exact hset _ _
    | series name lvs =>
      simp only [attachY] at h
      split at h
      · cases h; exact hset _ _
      · split at h
        · cases h
        · cases h; exact hset _ _

/-- The classifier with other limits. -/
def Clf.withLimits (l : Limits) (c : Clf) : Clf := { c with hyper := { c.hyper with lim := l } }

/-- C109 for the API: on valid data without repeated row labels `fit` of a classifier with other limits, differing only out of reach,
raises the same exception, or leaves the same object but for the limits stored in it: the same rules, frequencies and generator. -/
theorem C109_fit [Arith] [Arith.Lawful] (a : Method) (ha : a = .irep ∨ a = .ripper) (R : PyRandom) (hR : R.Lawful) (F : PyFloat) (P : PandasCut)
    (d : FitData) (hv : ValidInput d) (hu : (rowLabels d).Nodup) (init : ModelArg) (c : Clf) (l : Limits)
    (h : ∀ start, init.toRuleset = .ok start →
      SameReach (start.rules.length + 2 * d.X.rows.length) ((d.names.getD d.X.cols).length + 1) c.hyper.lim l) (fuel : Nat) (g : R.G) :
    completed (a.fit fuel R F P d init g (c.withLimits l)) =
      (completed (a.fit fuel R F P d init g c)).map (fun p => (p.1, p.2.withLimits l)) := by
  rw [Method.fit_completed, Method.fit_completed]
  cases a.early init with
  | error e => rfl
  | ok _ =>
  simp only [ok_bind]
  have hn : (c.withLimits l).nBins = c.nBins := rfl
  have hh : (c.withLimits l).hyper = { c.hyper with lim := l } := rfl
  rw [hn, hh]
  cases hpre : preprocessTraining F P c.nBins d with
  | error e => rfl
  | ok q =>
  obtain ⟨df, cf, pc, b⟩ := q
  simp only [ok_bind]
  cases hinit : init.toRuleset with
  | error e => rfl
  | ok start =>
  obtain ⟨_, hcf, df0, ht, _, _, _, hlen, _, hc, hi, _⟩ := preprocessTraining_ok hpre
  obtain ⟨_, df1, ht1, hidx⟩ := valid_toTraining hv
  rw [← hcf, ht] at ht1
  injection ht1 with ht1
  subst ht1
  have hu' : df.toFrame.UniqueIndex := by unfold Frame.UniqueIndex; rw [hi, hidx]; exact hu
  have hcl := toTraining_cols_length ht
  rw [← hc] at hcl
  have hpl : (posRows df.toFrame cf pc).rows.length ≤ d.X.rows.length := by
    rw [← preprocessTraining_length hpre]
    simp only [posRows, Frame.keep]
    exact List.length_filter_le _ _
  have h' := h start hinit
  have htrain : a.train fuel R { c.hyper with lim := l } start.possible (start.rules.map Rule.conds) df.toFrame cf pc g =
      a.train fuel R c.hyper start.possible (start.rules.map Rule.conds) df.toFrame cf pc g := by
    rcases ha with rfl | rfl
    · exact (C109_irep R hR c.hyper _ df.toFrame hu' cf pc c.hyper.lim l
        (h'.mono (by rw [List.length_map]; omega) hcl) fuel g).symm
    · exact (C109_ripper R hR c.hyper _ df.toFrame hu' cf pc c.hyper.lim l
        (h'.mono (by rw [List.length_map]; omega) hcl) fuel g).symm
  simp only [ok_bind, htrain]
  cases a.train fuel R c.hyper start.possible (start.rules.map Rule.conds) df.toFrame cf pc g with
  | error e => rfl
  | ok mg => rfl

namespace Demo
/-- Limits out of reach of any fit on the rows of exclusive or: four rows, two columns and the class. -/
def outOfReach : Limits := { maxRules := some 8, maxRuleConds := some 3, minRuleSamples := some 1, minRulesetSamples := some 1 }
end Demo
open Demo

/-- The hypotheses of `C109_fit` hold of exclusive or, with four limits out of reach: the same two rules as without them. -/
example : ValidInput xorData ∧ (rowLabels xorData).Nodup ∧
    (∀ start, ModelArg.toRuleset .nothing = .ok start →
      SameReach (start.rules.length + 2 * xorData.X.rows.length) ((xorData.names.getD xorData.X.cols).length + 1) newIrep.hyper.lim
        outOfReach) ∧
    rulesOf (after (Clf.irepFit 5 R0 F P xorData .nothing () newIrep)) =
      some [[⟨fa, vx⟩, ⟨fb, vx⟩], [⟨fa, vy⟩, ⟨fb, vy⟩]] ∧
    rulesOf (after (Clf.irepFit 5 R0 F P xorData .nothing () (newIrep.withLimits outOfReach))) =
      some [[⟨fa, vx⟩, ⟨fb, vx⟩], [⟨fa, vy⟩, ⟨fb, vy⟩]] := by
  refine ⟨xor_valid, by decide +kernel, ?_, by decide +kernel, by decide +kernel⟩
  intro start hs
  have h0 : start.rules.length = 0 := by cases hs; rfl
  have hr : xorData.X.rows.length = 4 := by decide +kernel
  have hc : (xorData.names.getD xorData.X.cols).length = 2 := by decide +kernel
  rw [h0, hr, hc]
  have hnone : ∀ n, OutOfReach n none := fun n m hm => by cases hm
  have hnone' : AtMostOne none := fun m hm => by cases hm
  have hsome : ∀ n m : Nat, n ≤ m → OutOfReach n (some (m : Int)) := fun n m h k hk => by cases hk; exact_mod_cast h
  have hone : AtMostOne (some 1) := fun m hm => by cases hm; exact le_refl _
  exact ⟨.inr ⟨hnone _, hsome 8 8 (by decide)⟩, rfl, .inr ⟨hnone', hone⟩, .inr ⟨hnone _, hsome 3 3 (by decide)⟩,
    .inr ⟨⟨hnone', hone⟩, hnone _, hsome 3 3 (by decide)⟩⟩

/-- A minimum of one sample is not idle where `max_rule_conds` is within reach: with `max_rule_conds=1` alone exclusive or gives two
rules of one condition; with `min_rule_samples=1` as well the condition is popped again, and the one rule left is empty and covers
everything. Nor is a limit just within reach idle. -/
theorem C109_refuted_min_one :
    rulesOf (after (Clf.irepFit 5 R0 F P xorData .nothing () (newIrep.withLimits { maxRuleConds := some 1 }))) =
      some [[⟨fa, vx⟩], [⟨fa, vy⟩]] ∧
    rulesOf (after (Clf.irepFit 5 R0 F P xorData .nothing () (newIrep.withLimits { maxRuleConds := some 1, minRuleSamples := some 1 }))) =
      some [[]] := by
  refine ⟨?_, ?_⟩ <;> decide +kernel

end Witt
