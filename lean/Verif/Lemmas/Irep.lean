import Verif.Irep
import Verif.Lemmas.Random
import Verif.Lemmas.GrowDf
import Verif.Lemmas.Dedup
/-
IREP's rule-adding loop: what one iteration does, termination, invariants.
-/
namespace Witt
open Spec
variable [Arith] [Arith.Lawful]

variable {fuel : Nat} {R : PyRandom} {cn : CatNap} {hp : Hyper}

omit [Arith] [Arith.Lawful] in
theorem pruneLoop_error {metric : List Cond → Except PyErr (Option Rat)} {rule : List Cond} {e : PyErr} :
    ∀ n best, pruneLoop metric rule n best = .error e → ∃ r, metric r = .error e := by
  intro n
  induction n with
  | zero => intro best h; simp [pruneLoop] at h
  | succ n ih =>
    intro best h
    rw [pruneLoop] at h
    cases hm : metric (rule.take (n + 1)) with
    | error e' => rw [hm] at h; simp at h; exact ⟨_, h ▸ hm⟩
    | ok o =>
      rw [hm] at h
      cases o with
      | none => simp at h
      | some v => exact ih _ h

omit [Arith] [Arith.Lawful] in
theorem pruneLoop_none {metric : List Cond → Except PyErr (Option Rat)} {rule : List Cond} :
    ∀ n best, pruneLoop metric rule n best = .ok none → ∃ r, metric r = .ok none := by
  intro n
  induction n with
  | zero => intro best h; simp [pruneLoop] at h
  | succ n ih =>
    intro best h
    rw [pruneLoop] at h
    cases hm : metric (rule.take (n + 1)) with
    | error e' => rw [hm] at h; simp at h
    | ok o =>
      rw [hm] at h
      cases o with
      | none => exact ⟨_, hm⟩
      | some v => exact ih _ h

omit [Arith] [Arith.Lawful] in
theorem pruneRule_error {metric : List Cond → Except PyErr (Option Rat)} {rule : List Cond} {e : PyErr}
    (h : pruneRule metric rule = .error e) : ∃ r, metric r = .error e := by
  unfold pruneRule at h
  split at h
  · simp at h
  · exact pruneLoop_error _ _ h

omit [Arith] [Arith.Lawful] in
theorem pruneRule_none {metric : List Cond → Except PyErr (Option Rat)} {rule : List Cond}
    (h : pruneRule metric rule = .ok none) : ∃ r, metric r = .ok none := by
  unfold pruneRule at h
  split at h
  · simp at h
  · exact pruneLoop_none _ _ h

/-- An iteration that adds `rule`, going from `st` to `st'`. -/
structure IrepAdd (fuel : Nat) (R : PyRandom) (cn : CatNap) (hp : Hyper) (st st' : GrowSt R)
    (rule : List Cond) : Prop where
  pos_ne : st.pos ≠ []
  go : stopEarly hp.lim st.rules st.pos.length st.neg.length = false
  rules : st'.rules = st.rules ++ [rule]
  pos : st'.pos = setDiff st.pos (cn.ruleCovers rule (some st.pos))
  how : ∃ (posGrow posPrune negGrow negPrune : List Label) (g1 : R.G) (grown : List Cond),
    randomSplit R st.g st.pos (Arith.complement hp.irepPrune) hp.randomState = (posGrow, posPrune, g1) ∧
    randomSplit R g1 st.neg (Arith.complement hp.irepPrune) hp.randomState = (negGrow, negPrune, st'.g) ∧
    growRuleCn fuel cn hp.lim posGrow negGrow [] = .ok grown ∧
    ((hp.irepPrune = 0 ∧ rule = grown ∧ st'.neg = st.neg) ∨
     (hp.irepPrune ≠ 0 ∧ pruneRule (irepMetricCn cn posPrune negPrune) grown = .ok (some rule) ∧
      st'.neg = setDiff st.neg (cn.ruleCovers rule (some st.neg)) ∧
      ∃ q, rulePrecisionCn cn rule posPrune negPrune = some q ∧ q ≠ 0 ∧ 1 / 2 ≤ q))

omit [Arith.Lawful] in
theorem irepStepCn_more {st st' : GrowSt R} (h : irepStepCn fuel R cn hp st = .ok (.more st')) :
    ∃ rule, IrepAdd fuel R cn hp st st' rule := by
  unfold irepStepCn at h
  split at h
  · simp [pure_eq_ok] at h
  rename_i hne
  split at h
  · simp [pure_eq_ok] at h
  rename_i hs
  rcases hp1 : randomSplit R st.g st.pos (Arith.complement hp.irepPrune) hp.randomState with ⟨a, b, g1⟩
  rcases hp2 : randomSplit R g1 st.neg (Arith.complement hp.irepPrune) hp.randomState with ⟨c, d, g2⟩
  simp only [hp1, hp2] at h
  cases hg : growRuleCn fuel cn hp.lim a c [] with
  | error e => rw [hg] at h; simp [error_bind] at h
  | ok grown =>
    rw [hg] at h
    simp only [ok_bind] at h
    have hs' : stopEarly hp.lim st.rules st.pos.length st.neg.length = false := by simpa using hs
    split at h
    · rename_i hz
      simp only [pure_eq_ok, Except.ok.injEq, Step.more.injEq] at h
      subst h
      exact ⟨grown, hne, hs', rfl, rfl, a, b, c, d, g1, grown, hp1, hp2, hg, Or.inl ⟨hz, rfl, rfl⟩⟩
    · rename_i hz
      cases hpr : pruneRule (irepMetricCn cn b d) grown with
      | error e => rw [hpr] at h; simp [error_bind] at h
      | ok o =>
        rw [hpr] at h
        simp only [ok_bind] at h
        cases o with
        | none => simp at h
        | some pruned =>
          simp only at h
          cases hq : rulePrecisionCn cn pruned b d with
          | none => rw [hq] at h; simp [pure_eq_ok] at h
          | some q =>
            rw [hq] at h
            simp only at h
            split at h
            · simp [pure_eq_ok] at h
            · rename_i hc
              simp only [pure_eq_ok, Except.ok.injEq, Step.more.injEq] at h
              subst h
              push Not at hc
              exact ⟨pruned, hne, hs', rfl, rfl, a, b, c, d, g1, grown, hp1, hp2, hg,
                Or.inr ⟨hz, hpr, rfl, q, hq, hc.1, hc.2⟩⟩

omit [Arith.Lawful] in
theorem irepStepCn_done {st st' : GrowSt R} (h : irepStepCn fuel R cn hp st = .ok (.done st')) :
    st'.rules = st.rules ∧ st'.pos = st.pos ∧ st'.neg = st.neg ∧
    (st.pos = [] ∨ stopEarly hp.lim st.rules st.pos.length st.neg.length = true ∨ hp.irepPrune ≠ 0) := by
  unfold irepStepCn at h
  split at h
  · rename_i hz
    simp only [pure_eq_ok, Except.ok.injEq, Step.done.injEq] at h
    subst h; exact ⟨rfl, rfl, rfl, Or.inl hz⟩
  split at h
  · rename_i hs
    simp only [pure_eq_ok, Except.ok.injEq, Step.done.injEq] at h
    subst h; exact ⟨rfl, rfl, rfl, Or.inr (Or.inl hs)⟩
  rcases hp1 : randomSplit R st.g st.pos (Arith.complement hp.irepPrune) hp.randomState with ⟨a, b, g1⟩
  rcases hp2 : randomSplit R g1 st.neg (Arith.complement hp.irepPrune) hp.randomState with ⟨c, d, g2⟩
  simp only [hp1, hp2] at h
  cases hg : growRuleCn fuel cn hp.lim a c [] with
  | error e => rw [hg] at h; simp [error_bind] at h
  | ok grown =>
    rw [hg] at h
    simp only [ok_bind] at h
    split at h
    · simp [pure_eq_ok] at h
    · rename_i hz
      cases hpr : pruneRule (irepMetricCn cn b d) grown with
      | error e => rw [hpr] at h; simp [error_bind] at h
      | ok o =>
        rw [hpr] at h
        simp only [ok_bind] at h
        cases o with
        | none => simp at h
        | some pruned =>
          simp only at h
          cases hq : rulePrecisionCn cn pruned b d with
          | none =>
            rw [hq] at h
            simp only [pure_eq_ok, Except.ok.injEq, Step.done.injEq] at h
            subst h; exact ⟨rfl, rfl, rfl, Or.inr (Or.inr hz)⟩
          | some q =>
            rw [hq] at h
            simp only at h
            split at h
            · simp only [pure_eq_ok, Except.ok.injEq, Step.done.injEq] at h
              subst h; exact ⟨rfl, rfl, rfl, Or.inr (Or.inr hz)⟩
            · simp [pure_eq_ok] at h

/-- A positive precision means that some of the positives it was measured on is covered. -/
theorem rulePrecisionCn_pos {r : List Cond} {pos neg : List Label} {q : Rat}
    (h : rulePrecisionCn cn r pos neg = some q) (hq : q ≠ 0) : ∃ l ∈ pos, cn.hit r l = true := by
  unfold rulePrecisionCn at h
  simp only at h
  split at h
  · simp at h
  · simp only [Option.some.injEq] at h
    have : (cn.ruleCovers r (some pos)).length ≠ 0 := by
      intro h0
      rename_i hne
      rw [h0] at h hne
      exact hq (h.symm.trans (Arith.Lawful.quot_zero _ (by simp at hne ⊢; exact List.length_pos_of_ne_nil hne)))
    rw [CatNap.ruleCovers_some] at this
    obtain ⟨l, hl⟩ := List.exists_mem_of_length_pos (Nat.pos_of_ne_zero this)
    rw [List.mem_filter] at hl
    exact ⟨l, hl⟩

/-- The added rule covers one of the remaining positives. -/
theorem IrepAdd.covers (hR : R.Lawful) (hw : cn.WF) {st st' : GrowSt R} {rule : List Cond}
    (h : IrepAdd fuel R cn hp st st' rule) (hsub : ∀ l ∈ st.pos, l ∈ cn.all) :
    ∃ l ∈ st.pos, cn.hit rule l = true := by
  obtain ⟨a, b, c, d, g1, grown, h1, h2, h3, h4⟩ := h.how
  have hmem : ∀ l, l ∈ st.pos ↔ l ∈ a ∨ l ∈ b := by
    intro l
    have := randomSplit_mem hR st.g st.pos (Arith.complement hp.irepPrune) hp.randomState l
    rw [h1] at this
    exact this
  rcases h4 with ⟨hz, rfl, _⟩ | ⟨_, _, _, q, hq, hq0, _⟩
  · have ha : a.Perm st.pos := by
      have := (randomSplit_one hR st.g st.pos hp.randomState).1
      rw [hz, Arith.Lawful.complement_zero] at h1
      rw [h1] at this
      exact this
    obtain ⟨l, hl, hh⟩ := growRuleCn_covers_pos hw h3
      (by intro hn; rw [hn] at ha; exact h.pos_ne (List.nil_perm.mp ha))
      (fun l hl => hsub l ((hmem l).mpr (Or.inl hl)))
    exact ⟨l, (hmem l).mpr (Or.inl hl), hh⟩
  · obtain ⟨l, hl, hh⟩ := rulePrecisionCn_pos hq hq0
    exact ⟨l, (hmem l).mpr (Or.inr hl), hh⟩

omit [Arith] [Arith.Lawful] in
theorem setDiff_ruleCovers (s : List Label) (r : List Cond) :
    setDiff s (cn.ruleCovers r (some s)) = s.filter (fun l => !cn.hit r l) := by
  unfold setDiff
  rw [CatNap.ruleCovers_some]
  apply List.filter_congr
  intro l hl
  congr 1
  rw [Bool.eq_iff_iff]
  simp [List.mem_filter, hl]

/-- Each added rule removes a positive. -/
theorem IrepAdd.pos_lt (hR : R.Lawful) (hw : cn.WF) {st st' : GrowSt R} {rule : List Cond}
    (h : IrepAdd fuel R cn hp st st' rule) (hsub : ∀ l ∈ st.pos, l ∈ cn.all) :
    st'.pos.length < st.pos.length := by
  obtain ⟨l, hl, hh⟩ := h.covers hR hw hsub
  rw [h.pos, setDiff_ruleCovers]
  rcases Nat.lt_or_ge (st.pos.filter (fun l => !cn.hit rule l)).length st.pos.length with h | h
  · exact h
  · have : st.pos.filter (fun l => !cn.hit rule l) = st.pos := (List.filter_sublist).eq_of_length_le h
    rw [List.filter_eq_self] at this
    have := this l hl
    simp [hh] at this

omit [Arith.Lawful] in
theorem IrepAdd.pos_sub {st st' : GrowSt R} {rule : List Cond}
    (h : IrepAdd fuel R cn hp st st' rule) : ∀ l ∈ st'.pos, l ∈ st.pos := by
  rw [h.pos]; intro l hl; exact (List.mem_filter.mp hl).1

omit [Arith.Lawful] in
theorem IrepAdd.neg_sub {st st' : GrowSt R} {rule : List Cond}
    (h : IrepAdd fuel R cn hp st st' rule) : st'.neg.Sublist st.neg := by
  obtain ⟨a, b, c, d, g1, grown, h1, h2, h3, h4⟩ := h.how
  rcases h4 with ⟨_, _, h⟩ | ⟨_, _, h, _⟩
  · rw [h]
  · rw [h]; exact List.filter_sublist

omit [Arith.Lawful] in
/-- The added rule is a non-longer prefix of a rule grown on part of the remaining examples. -/
theorem IrepAdd.grown {st st' : GrowSt R} {rule : List Cond}
    (h : IrepAdd fuel R cn hp st st' rule) :
    ∃ posGrow negGrow r, growRuleCn fuel cn hp.lim posGrow negGrow [] = .ok r ∧ rule <+: r := by
  obtain ⟨a, b, c, d, g1, grown, h1, h2, h3, h4⟩ := h.how
  refine ⟨a, c, grown, h3, ?_⟩
  rcases h4 with ⟨_, rfl, _⟩ | ⟨_, h4, _⟩
  · exact List.prefix_rfl
  · exact (pruneRule_prefix h4).1

/-- States reachable by adding rules. -/
inductive IrepReach (fuel : Nat) (R : PyRandom) (cn : CatNap) (hp : Hyper) (st0 : GrowSt R) :
    GrowSt R → Prop where
  | start : IrepReach fuel R cn hp st0 st0
  | add {st st' rule} : IrepReach fuel R cn hp st0 st → IrepAdd fuel R cn hp st st' rule →
      IrepReach fuel R cn hp st0 st'

omit [Arith.Lawful] in
theorem IrepReach.pos_sub {st0 st : GrowSt R} (h : IrepReach fuel R cn hp st0 st) :
    ∀ l ∈ st.pos, l ∈ st0.pos := by
  induction h with
  | start => exact fun _ h => h
  | add _ ha ih => exact fun l hl => ih l (ha.pos_sub l hl)

omit [Arith.Lawful] in
theorem IrepReach.neg_sub {st0 st : GrowSt R} (h : IrepReach fuel R cn hp st0 st) :
    st.neg.Sublist st0.neg := by
  induction h with
  | start => exact List.Sublist.refl _
  | add _ ha ih => exact ha.neg_sub.trans ih

omit [Arith.Lawful] in
/-- The rules are the initial ones followed by the added ones. -/
theorem IrepReach.prefix {st0 st : GrowSt R} (h : IrepReach fuel R cn hp st0 st) :
    st0.rules <+: st.rules := by
  induction h with
  | start => exact List.prefix_rfl
  | add _ ha ih => rw [ha.rules]; exact ih.trans (List.prefix_append _ _)

omit [Arith.Lawful] in
/-- Every rule of a reachable state is an initial one or was added in some reachable step. -/
theorem IrepReach.rule {st0 st : GrowSt R} (h : IrepReach fuel R cn hp st0 st) :
    ∀ r ∈ st.rules, r ∈ st0.rules ∨
      ∃ s s', IrepReach fuel R cn hp st0 s ∧ IrepAdd fuel R cn hp s s' r := by
  induction h with
  | start => exact fun r h => Or.inl h
  | @add s s' rule hs ha ih =>
    intro r hr
    rw [ha.rules] at hr
    rcases List.mem_append.mp hr with hr | hr
    · exact ih r hr
    · simp at hr; subst hr; exact Or.inr ⟨_, _, hs, ha⟩

omit [Arith.Lawful] in
/-- Every result of the loop: a reachable set of rules, left for one of the reasons to stop. -/
theorem irepGrowCn_reach {init : List (List Cond)} {pos neg : List Label} {g : R.G} {st : GrowSt R}
    (h : irepGrowCn fuel R cn hp init pos neg g = .ok st) :
    ∃ s, IrepReach fuel R cn hp { rules := init, pos := pos, neg := neg, g := g } s ∧
      st.rules = s.rules ∧ st.pos = s.pos ∧ st.neg = s.neg ∧
      (s.pos = [] ∨ stopEarly hp.lim s.rules s.pos.length s.neg.length = true ∨ hp.irepPrune ≠ 0) := by
  unfold irepGrowCn at h
  refine pyWhile_inv (I := fun s => IrepReach fuel R cn hp { rules := init, pos := pos, neg := neg, g := g } s)
    (Q := fun a => ∃ s, IrepReach fuel R cn hp { rules := init, pos := pos, neg := neg, g := g } s ∧
      a.rules = s.rules ∧ a.pos = s.pos ∧ a.neg = s.neg ∧
      (s.pos = [] ∨ stopEarly hp.lim s.rules s.pos.length s.neg.length = true ∨ hp.irepPrune ≠ 0))
    ?_ ?_ fuel _ st .start h
  · intro s s' hI hb
    obtain ⟨rule, ha⟩ := irepStepCn_more hb
    exact .add hI ha
  · intro s a hI hb
    obtain ⟨h1, h2, h3, h4⟩ := irepStepCn_done hb
    exact ⟨s, hI, h1, h2, h3, h4⟩

omit [Arith.Lawful] in
/-- With no more positives than covered already and no limits... the invariant for complete coverage:
every initial positive is still remaining or hit by some rule. -/
theorem IrepReach.complete {st0 st : GrowSt R} (h : IrepReach fuel R cn hp st0 st) :
    ∀ l ∈ st0.pos, l ∈ st.pos ∨ ∃ r ∈ st.rules, cn.hit r l = true := by
  induction h with
  | start => exact fun l hl => Or.inl hl
  | @add s s' rule _ ha ih =>
    intro l hl
    rcases ih l hl with h | ⟨r, hr, hh⟩
    · by_cases hh : cn.hit rule l = true
      · exact Or.inr ⟨rule, by rw [ha.rules]; simp, hh⟩
      · left
        rw [ha.pos, setDiff_ruleCovers, List.mem_filter]
        exact ⟨h, by simpa using hh⟩
    · exact Or.inr ⟨r, by rw [ha.rules]; simp [hr], hh⟩

/-! ### termination -/

omit [Arith] [Arith.Lawful] in
theorem ruleCovers_nil_le {neg : List Label} : (cn.ruleCovers [] (some neg)).length ≤ neg.length :=
  ruleCovers_length_le

omit [Arith.Lawful] in
theorem randomSplit_length_le (hR : R.Lawful) (g : R.G) (l : List Label) (q : Rat) (rs : Option Int) :
    (randomSplit R g l q rs).1.length ≤ l.length := by
  have := (randomSplit_perm hR g l q rs).length_eq
  rw [List.length_append] at this
  omega

theorem irepStepCn_fuel {f f' : Nat} (hR : R.Lawful) (hw : cn.WF) {st : GrowSt R} (hf : st.neg.length < f)
    (hf' : st.neg.length < f') : irepStepCn f R cn hp st = irepStepCn f' R cn hp st := by
  unfold irepStepCn
  rcases hp1 : randomSplit R st.g st.pos (Arith.complement hp.irepPrune) hp.randomState with ⟨a, b, g1⟩
  have h1 := randomSplit_length_le hR g1 st.neg (Arith.complement hp.irepPrune) hp.randomState
  rcases hp2 : randomSplit R g1 st.neg (Arith.complement hp.irepPrune) hp.randomState with ⟨c, d, g2⟩
  rw [hp2] at h1
  simp only at h1
  have h2 := ruleCovers_nil_le (cn := cn) (neg := c)
  have := growRuleCn_stable (fuel := f) (fuel' := f') hw (lim := hp.lim) (pos := a) (neg := c) (init := [])
    (by omega) (by omega)
  simp only [hp1, hp2, this]

theorem irepStepCn_ne_diverged (hR : R.Lawful) (hw : cn.WF) {st : GrowSt R} (hf : st.neg.length < fuel) :
    irepStepCn fuel R cn hp st ≠ .error .diverged := by
  unfold irepStepCn
  split
  · simp [pure_eq_ok]
  split
  · simp [pure_eq_ok]
  rcases hp1 : randomSplit R st.g st.pos (Arith.complement hp.irepPrune) hp.randomState with ⟨a, b, g1⟩
  have h1 := randomSplit_length_le hR g1 st.neg (Arith.complement hp.irepPrune) hp.randomState
  rcases hp2 : randomSplit R g1 st.neg (Arith.complement hp.irepPrune) hp.randomState with ⟨c, d, g2⟩
  rw [hp2] at h1
  simp only at h1
  have h2 := ruleCovers_nil_le (cn := cn) (neg := c)
  obtain ⟨r, hr, _⟩ := growRuleCn_total (fuel := fuel) hw (lim := hp.lim) (pos := a) (neg := c) (init := [])
    (by omega)
  simp only [hp1, hp2, hr, ok_bind]
  split
  · simp [pure_eq_ok]
  · have hm' : pruneRule (irepMetricCn cn b d) r ≠ .error .diverged := by
      intro h
      obtain ⟨x, hx⟩ := pruneRule_error h
      unfold irepMetricCn at hx
      simp only at hx
      split at hx <;> simp at hx
    cases hpr : pruneRule (irepMetricCn cn b d) r with
    | error e =>
      simp only [error_bind]
      intro h
      injection h with h
      exact hm' (by rw [hpr, h])
    | ok o =>
      simp only [ok_bind]
      cases o with
      | none => simp
      | some pruned =>
        simp only
        cases rulePrecisionCn cn pruned b d with
        | none => simp [pure_eq_ok]
        | some q =>
          simp only
          split <;> simp [pure_eq_ok]

theorem irepGrowCn_fuel {f f' : Nat} (hR : R.Lawful) (hw : cn.WF) {init : List (List Cond)}
    {pos neg : List Label} {g : R.G} (hsub : ∀ l ∈ pos, l ∈ cn.all)
    (hf : pos.length < f ∧ neg.length < f) (hf' : pos.length < f' ∧ neg.length < f') :
    irepGrowCn f R cn hp init pos neg g = irepGrowCn f' R cn hp init pos neg g := by
  unfold irepGrowCn
  refine pyWhile_stable
    (I := fun s : GrowSt R => (∀ l ∈ s.pos, l ∈ cn.all) ∧ s.neg.length ≤ neg.length)
    (m := fun s => s.pos.length) ?_ ?_ f f' _ ⟨hsub, le_refl _⟩ hf.1 hf'.1
  · intro s s' hI hb
    obtain ⟨rule, ha⟩ := irepStepCn_more hb
    refine ⟨⟨fun l hl => hI.1 l (ha.pos_sub l hl), ?_⟩, ha.pos_lt hR hw hI.1⟩
    exact le_trans ha.neg_sub.length_le hI.2
  · intro s hI
    have := hI.2
    exact irepStepCn_fuel hR hw (by omega) (by omega)

theorem irepGrowCn_ne_diverged (hR : R.Lawful) (hw : cn.WF) {init : List (List Cond)}
    {pos neg : List Label} {g : R.G} (hsub : ∀ l ∈ pos, l ∈ cn.all)
    (hf : pos.length < fuel ∧ neg.length < fuel) :
    irepGrowCn fuel R cn hp init pos neg g ≠ .error .diverged := by
  unfold irepGrowCn
  refine pyWhile_ne_error
    (I := fun s : GrowSt R => (∀ l ∈ s.pos, l ∈ cn.all) ∧ s.neg.length ≤ neg.length)
    (m := fun s => s.pos.length) ?_ ?_ fuel _ ⟨hsub, le_refl _⟩ hf.1
  · intro s s' hI hb
    obtain ⟨rule, ha⟩ := irepStepCn_more hb
    refine ⟨⟨fun l hl => hI.1 l (ha.pos_sub l hl), ?_⟩, ha.pos_lt hR hw hI.1⟩
    exact le_trans ha.neg_sub.length_le hI.2
  · intro s hI
    have := hI.2
    exact irepStepCn_ne_diverged hR hw (by omega)

end Witt
