import Verif.Ripper
import Verif.Lemmas.Irep
/-
RIPPER: what one growing iteration does, how the rules of each stage arise, termination.
-/
namespace Witt
open Spec
variable [Arith] [Arith.Lawful]

variable {fuel : Nat} {R : PyRandom} {cn : CatNap} {hp : Hyper}

/-- The prune phase of RIPPER's growing loop. -/
def ripPrune (cn : CatNap) (ps : Rat) (posPrune negPrune : List Label) (grown : List Cond) :
    Except PyErr (Option (List Cond)) :=
  if ps ≠ 0 then pruneRule (ripperGrowMetricCn cn posPrune negPrune) grown else .ok (some grown)

/-- An iteration that adds `rule`, going from `st` to `st'`. -/
structure RipAdd (fuel : Nat) (R : PyRandom) (cn : CatNap) (hp : Hyper) (allPos allNeg : List Label)
    (st st' : RipSt R) (rule : List Cond) : Prop where
  pos_ne : st.pos ≠ []
  within : Arith.within st.diff hp.dlAllowance = true
  go : stopEarly hp.lim st.rules st.pos.length st.neg.length = false
  rules : st'.rules = st.rules ++ [rule]
  pos : st'.pos = setDiff st.pos (cn.ruleCovers rule (some st.pos))
  neg : st'.neg = setDiff st.neg (cn.ruleCovers rule (some st.neg))
  how : ∃ (ps : Rat) (posGrow posPrune negGrow negPrune : List Label) (g1 : R.G) (grown : List Cond),
    hp.pruneSize = some ps ∧
    randomSplit R st.g st.pos (Arith.complement ps) hp.randomState = (posGrow, posPrune, g1) ∧
    randomSplit R g1 st.neg (Arith.complement ps) hp.randomState = (negGrow, negPrune, st'.g) ∧
    posGrow ≠ [] ∧ growRuleCn fuel cn hp.lim posGrow negGrow [] = .ok grown ∧ grown ≠ [] ∧
    ripPrune cn ps posPrune negPrune grown = .ok (some rule)
  dl : ∃ ruleDl dataDl, ruleTheory cn.conds.length rule.length = .ok ruleDl ∧
    exceptionsCn cn (st.rules ++ [rule]) allPos allNeg = .ok dataDl ∧
    st'.dl = some (ripDl st.dl ruleDl dataDl).1 ∧ st'.diff = (ripDl st.dl ruleDl dataDl).2.getD st.diff

omit [Arith.Lawful] in
theorem ripPrune_prefix {ps : Rat} {b d : List Label} {grown rule : List Cond}
    (h : ripPrune cn ps b d grown = .ok (some rule)) : rule <+: grown ∧ (rule = [] → grown = []) := by
  unfold ripPrune at h
  split at h
  · exact pruneRule_prefix h
  · injection h with h; injection h with h; subst h; exact ⟨List.prefix_rfl, id⟩

omit [Arith.Lawful] in
theorem ripPrune_total (ps : Rat) (b d : List Label) (grown : List Cond) :
    ∃ rule, ripPrune cn ps b d grown = .ok (some rule) := by
  unfold ripPrune
  split
  · cases h : pruneRule (ripperGrowMetricCn cn b d) grown with
    | error e => obtain ⟨x, hx⟩ := pruneRule_error h; simp [ripperGrowMetricCn] at hx
    | ok o =>
      cases o with
      | none => obtain ⟨x, hx⟩ := pruneRule_none h; simp [ripperGrowMetricCn] at hx
      | some r => exact ⟨r, rfl⟩
  · exact ⟨_, rfl⟩

variable {allPos allNeg : List Label}

omit [Arith.Lawful] in
theorem ripperStepCn_more {st st' : RipSt R}
    (h : ripperStepCn fuel R cn hp allPos allNeg st = .ok (.more st')) :
    ∃ rule, RipAdd fuel R cn hp allPos allNeg st st' rule := by
  unfold ripperStepCn at h
  split at h
  · simp [pure_eq_ok] at h
  rename_i hne
  split at h
  · simp [pure_eq_ok] at h
  rename_i hs
  cases hps : hp.pruneSize with
  | none => rw [hps] at h; simp at h
  | some ps =>
    simp only [hps] at h
    rcases hp1 : randomSplit R st.g st.pos (Arith.complement ps) hp.randomState with ⟨a, b, g1⟩
    rcases hp2 : randomSplit R g1 st.neg (Arith.complement ps) hp.randomState with ⟨c, d, g2⟩
    simp only [hp1, hp2] at h
    split at h
    · simp [pure_eq_ok] at h
    rename_i hag
    cases hg : growRuleCn fuel cn hp.lim a c [] with
    | error e => rw [hg] at h; simp [error_bind] at h
    | ok grown =>
      rw [hg] at h
      simp only [ok_bind] at h
      split at h
      · simp [pure_eq_ok] at h
      rename_i hgn
      change (ripPrune cn ps b d grown >>= _) = _ at h
      cases hpr : ripPrune cn ps b d grown with
      | error e => rw [hpr] at h; simp [error_bind] at h
      | ok o =>
        rw [hpr] at h
        simp only [ok_bind] at h
        cases o with
        | none => simp at h
        | some pruned =>
          simp only at h
          cases ht : ruleTheory cn.conds.length pruned.length with
          | error e => rw [ht] at h; simp [error_bind] at h
          | ok t =>
            cases he : exceptionsCn cn (st.rules ++ [pruned]) allPos allNeg with
            | error e => rw [ht, ok_bind, he] at h; simp [error_bind] at h
            | ok x =>
              rw [ht, ok_bind, he, ok_bind] at h
              simp only [pure_eq_ok, Except.ok.injEq, Step.more.injEq] at h
              subst h
              push Not at hne
              exact ⟨pruned, hne.1, by simpa using hne.2, by simpa using hs, rfl, rfl, rfl,
                ⟨ps, a, b, c, d, g1, grown, hps, hp1, hp2, hag, hg, hgn, hpr⟩, ⟨t, x, ht, he, rfl, rfl⟩⟩

omit [Arith.Lawful] in
theorem ripperStepCn_done {st st' : RipSt R}
    (h : ripperStepCn fuel R cn hp allPos allNeg st = .ok (.done st')) :
    st'.rules = st.rules ∧ st'.pos = st.pos ∧ st'.neg = st.neg := by
  unfold ripperStepCn at h
  split at h
  · simp only [pure_eq_ok, Except.ok.injEq, Step.done.injEq] at h; subst h; exact ⟨rfl, rfl, rfl⟩
  split at h
  · simp only [pure_eq_ok, Except.ok.injEq, Step.done.injEq] at h; subst h; exact ⟨rfl, rfl, rfl⟩
  cases hps : hp.pruneSize with
  | none => rw [hps] at h; simp at h
  | some ps =>
    simp only [hps] at h
    rcases hp1 : randomSplit R st.g st.pos (Arith.complement ps) hp.randomState with ⟨a, b, g1⟩
    rcases hp2 : randomSplit R g1 st.neg (Arith.complement ps) hp.randomState with ⟨c, d, g2⟩
    simp only [hp1, hp2] at h
    split at h
    · simp only [pure_eq_ok, Except.ok.injEq, Step.done.injEq] at h; subst h; exact ⟨rfl, rfl, rfl⟩
    cases hg : growRuleCn fuel cn hp.lim a c [] with
    | error e => rw [hg] at h; simp [error_bind] at h
    | ok grown =>
      rw [hg] at h
      simp only [ok_bind] at h
      split at h
      · simp only [pure_eq_ok, Except.ok.injEq, Step.done.injEq] at h; subst h; exact ⟨rfl, rfl, rfl⟩
      change (ripPrune cn ps b d grown >>= _) = _ at h
      cases hpr : ripPrune cn ps b d grown with
      | error e => rw [hpr] at h; simp [error_bind] at h
      | ok o =>
        rw [hpr] at h
        simp only [ok_bind] at h
        cases o with
        | none => simp at h
        | some pruned =>
          simp only at h
          cases ht : ruleTheory cn.conds.length pruned.length with
          | error e => rw [ht] at h; simp [error_bind] at h
          | ok t =>
            cases he : exceptionsCn cn (st.rules ++ [pruned]) allPos allNeg with
            | error e => rw [ht, ok_bind, he] at h; simp [error_bind] at h
            | ok x => rw [ht, ok_bind, he, ok_bind] at h; simp [pure_eq_ok] at h

/-- The added rule covers one of the remaining positives. -/
theorem RipAdd.covers (hR : R.Lawful) (hw : cn.WF) {st st' : RipSt R} {rule : List Cond}
    (h : RipAdd fuel R cn hp allPos allNeg st st' rule) (hsub : ∀ l ∈ st.pos, l ∈ cn.all) :
    ∃ l ∈ st.pos, cn.hit rule l = true := by
  obtain ⟨ps, a, b, c, d, g1, grown, _, h1, h2, hne, h3, _, h4⟩ := h.how
  have hmem : ∀ l ∈ a, l ∈ st.pos := by
    intro l hl
    have := randomSplit_mem hR st.g st.pos (Arith.complement ps) hp.randomState l
    rw [h1] at this
    exact this.mpr (Or.inl hl)
  obtain ⟨l, hl, hh⟩ := growRuleCn_covers_pos hw h3 hne (fun l hl => hsub l (hmem l hl))
  exact ⟨l, hmem l hl, CatNap.hit_mono hw (fun c hc => (ripPrune_prefix h4).1.subset hc) hh⟩

theorem RipAdd.pos_lt (hR : R.Lawful) (hw : cn.WF) {st st' : RipSt R} {rule : List Cond}
    (h : RipAdd fuel R cn hp allPos allNeg st st' rule) (hsub : ∀ l ∈ st.pos, l ∈ cn.all) :
    st'.pos.length < st.pos.length := by
  obtain ⟨l, hl, hh⟩ := h.covers hR hw hsub
  rw [h.pos, setDiff_ruleCovers]
  rcases Nat.lt_or_ge (st.pos.filter (fun l => !cn.hit rule l)).length st.pos.length with h | h
  · exact h
  · have : st.pos.filter (fun l => !cn.hit rule l) = st.pos := (List.filter_sublist).eq_of_length_le h
    rw [List.filter_eq_self] at this
    have := this l hl
    simp [hh] at this

omit [Arith.Lawful] in
theorem RipAdd.pos_sub {st st' : RipSt R} {rule : List Cond}
    (h : RipAdd fuel R cn hp allPos allNeg st st' rule) : ∀ l ∈ st'.pos, l ∈ st.pos := by
  rw [h.pos]; intro l hl; exact (List.mem_filter.mp hl).1

omit [Arith.Lawful] in
theorem RipAdd.neg_sub {st st' : RipSt R} {rule : List Cond}
    (h : RipAdd fuel R cn hp allPos allNeg st st' rule) : st'.neg.Sublist st.neg := by
  rw [h.neg]; exact List.filter_sublist

omit [Arith.Lawful] in
/-- The added rule is a non-empty prefix of a rule grown on part of the remaining examples. -/
theorem RipAdd.grown {st st' : RipSt R} {rule : List Cond}
    (h : RipAdd fuel R cn hp allPos allNeg st st' rule) :
    rule ≠ [] ∧ ∃ posGrow negGrow r, growRuleCn fuel cn hp.lim posGrow negGrow [] = .ok r ∧ rule <+: r := by
  obtain ⟨ps, a, b, c, d, g1, grown, _, h1, h2, hne, h3, hgn, h4⟩ := h.how
  exact ⟨fun h0 => hgn ((ripPrune_prefix h4).2 h0), a, c, grown, h3, (ripPrune_prefix h4).1⟩

/-- States reachable by adding rules. -/
inductive RipReach (fuel : Nat) (R : PyRandom) (cn : CatNap) (hp : Hyper) (allPos allNeg : List Label)
    (st0 : RipSt R) : RipSt R → Prop where
  | start : RipReach fuel R cn hp allPos allNeg st0 st0
  | add {st st' rule} : RipReach fuel R cn hp allPos allNeg st0 st →
      RipAdd fuel R cn hp allPos allNeg st st' rule → RipReach fuel R cn hp allPos allNeg st0 st'

omit [Arith.Lawful] in
theorem RipReach.pos_sub {st0 st : RipSt R} (h : RipReach fuel R cn hp allPos allNeg st0 st) :
    ∀ l ∈ st.pos, l ∈ st0.pos := by
  induction h with
  | start => exact fun _ h => h
  | add _ ha ih => exact fun l hl => ih l (ha.pos_sub l hl)

omit [Arith.Lawful] in
theorem RipReach.prefix {st0 st : RipSt R} (h : RipReach fuel R cn hp allPos allNeg st0 st) :
    st0.rules <+: st.rules := by
  induction h with
  | start => exact List.prefix_rfl
  | add _ ha ih => rw [ha.rules]; exact ih.trans (List.prefix_append _ _)

omit [Arith.Lawful] in
theorem RipReach.rule {st0 st : RipSt R} (h : RipReach fuel R cn hp allPos allNeg st0 st) :
    ∀ r ∈ st.rules, r ∈ st0.rules ∨ ∃ s s', RipReach fuel R cn hp allPos allNeg st0 s ∧
      RipAdd fuel R cn hp allPos allNeg s s' r := by
  induction h with
  | start => exact fun r h => Or.inl h
  | @add s s' rule hs ha ih =>
    intro r hr
    rw [ha.rules] at hr
    rcases List.mem_append.mp hr with hr | hr
    · exact ih r hr
    · simp at hr; subst hr; exact Or.inr ⟨_, _, hs, ha⟩

omit [Arith.Lawful] in
theorem RipReach.maxRules {st0 st : RipSt R} (h : RipReach fuel R cn hp allPos allNeg st0 st) {k : Int}
    (hk : hp.lim.maxRules = some k) : (st.rules.length : Int) ≤ max k st0.rules.length := by
  induction h with
  | start => omega
  | @add s s' r hs ha ih =>
    have hgo := ha.go
    unfold stopEarly at hgo
    simp only [Bool.or_eq_false_iff] at hgo
    have := atLeast_eq_false hgo.1.1 hk
    rw [ha.rules, List.length_append]
    simp only [List.length_cons, List.length_nil]
    push_cast
    omega

theorem RipReach.count (hR : R.Lawful) (hw : cn.WF) {st0 st : RipSt R}
    (h : RipReach fuel R cn hp allPos allNeg st0 st) (hsub : ∀ l ∈ st0.pos, l ∈ cn.all) :
    st.rules.length + st.pos.length ≤ st0.rules.length + st0.pos.length := by
  induction h with
  | start => exact le_refl _
  | add hs ha ih =>
    have := ha.pos_lt hR hw (fun l hl => hsub l (hs.pos_sub l hl))
    rw [ha.rules, List.length_append]
    simp only [List.length_cons, List.length_nil]
    omega

omit [Arith.Lawful] in
theorem ripperGrowCn_reach {init : List (List Cond)} {pos neg : List Label} {g : R.G} {st : RipSt R}
    (h : ripperGrowCn fuel R cn hp init pos neg g = .ok st) :
    ∃ s, RipReach fuel R cn hp pos neg ⟨init, pos, neg, none, Arith.zeroDl, g⟩ s ∧ st.rules = s.rules ∧
      st.pos = s.pos ∧ st.neg = s.neg := by
  unfold ripperGrowCn at h
  refine pyWhile_inv (I := fun s => RipReach fuel R cn hp pos neg ⟨init, pos, neg, none, Arith.zeroDl, g⟩ s)
    (Q := fun a => ∃ s, RipReach fuel R cn hp pos neg ⟨init, pos, neg, none, Arith.zeroDl, g⟩ s ∧ a.rules = s.rules ∧
      a.pos = s.pos ∧ a.neg = s.neg) ?_ ?_ fuel _ st .start h
  · intro s s' hI hb
    obtain ⟨rule, ha⟩ := ripperStepCn_more hb
    exact .add hI ha
  · intro s a hI hb
    obtain ⟨h1, h2, h3⟩ := ripperStepCn_done hb
    exact ⟨s, hI, h1, h2, h3⟩

/-! ### properties of rules kept by every stage -/

/-- `P` holds of the empty rule and is kept by useful extensions and by cutting off the end. -/
structure ClosedRule (cn : CatNap) (P : List Cond → Prop) : Prop where
  nil : P []
  snoc : ∀ pos neg r c, P r → UsefulStep cn pos neg r c → P (r ++ [c])
  pre : ∀ r s, P r → s <+: r → P s

theorem ClosedRule.grow {P : List Cond → Prop} (hP : ClosedRule cn P) (hw : cn.WF) {lim : Limits}
    {pos neg : List Label} {init r : List Cond} (hi : P init) (h : growRuleCn fuel cn lim pos neg init = .ok r) :
    P r := by
  obtain ⟨r0, hc, hr⟩ := (growRuleCn_post hw h).chain
  have : P r0 := by
    clear hr
    induction hc with
    | refl => exact hi
    | snoc _ hu ih => exact hP.snoc _ _ _ _ ih hu
  rcases hr with rfl | ⟨_, _, rfl⟩
  · exact this
  · exact hP.pre _ _ this (List.dropLast_prefix _)

theorem ClosedRule.add {P : List Cond → Prop} (hP : ClosedRule cn P) (hw : cn.WF) {st st' : RipSt R}
    {rule : List Cond} (h : RipAdd fuel R cn hp allPos allNeg st st' rule) : P rule := by
  obtain ⟨_, a, b, r, h1, h2⟩ := h.grown
  exact hP.pre _ _ (hP.grow hw hP.nil h1) h2

theorem ClosedRule.ripperGrow {P : List Cond → Prop} (hP : ClosedRule cn P) (hw : cn.WF)
    {init : List (List Cond)} {pos neg : List Label} {g : R.G} {st : RipSt R}
    (h : ripperGrowCn fuel R cn hp init pos neg g = .ok st) (hi : ∀ r ∈ init, P r) : ∀ r ∈ st.rules, P r := by
  obtain ⟨s, hs, h1, _⟩ := ripperGrowCn_reach h
  intro r hr
  rw [h1] at hr
  rcases hs.rule r hr with h | ⟨_, _, _, ha⟩
  · exact hi r h
  · exact hP.add hw ha

omit [Arith] [Arith.Lawful] in
theorem iReplaced_getElem {α : Type} (l : List α) (i : Nat) (v : α) (h : i < l.length) :
    (iReplaced l i (some v))[i]? = some v := by
  unfold iReplaced
  simp only
  rw [List.append_assoc, List.getElem?_append_right (by simp)]
  simp [Nat.min_eq_left (Nat.le_of_lt h)]

omit [Arith] [Arith.Lawful] in
theorem bind_ok_iff {α β : Type} {x : Except PyErr α} {f : α → Except PyErr β} {b : β} :
    (x >>= f) = .ok b ↔ ∃ a, x = .ok a ∧ f a = .ok b := by
  cases x with
  | error e => simp [error_bind]
  | ok a => simp

/-- The parts of a successful choice for one rule. -/
structure OptChoice (fuel : Nat) (cn : CatNap) (hp : Hyper) (original : List (List Cond)) (odl : Rat) (i : Nat)
    (rule : List Cond) (allPos allNeg a b c d : List Label) (gRep gRev : List Cond)
    (prRep prRev : Option (List Cond)) (repDl revDl : Rat) (n : Nat) (best : List Cond) : Prop where
  growRep : growRuleCn fuel cn { minRuleSamples := hp.lim.minRuleSamples } a c [] = .ok gRep
  pruneRep : pruneRuleOn (ripperOptMetricCn cn b d) gRep (iReplaced original i (some gRep)) i = .ok prRep
  growRev : growRuleCn fuel cn { minRuleSamples := hp.lim.minRuleSamples } a c rule = .ok gRev
  pruneRev : pruneRuleOn (ripperOptMetricCn cn b d) gRev (iReplaced original i (some gRev)) i = .ok prRev
  dlRep : (∃ r, prRep = some r ∧ condsEq r rule = true ∧ repDl = odl) ∨
    ((∀ r, prRep = some r → condsEq r rule = false) ∧
      totalBitsCn cn (iReplaced original i prRep) allPos allNeg = .ok repDl)
  dlRev : (∃ r, prRev = some r ∧ condsEq r rule = true ∧ revDl = odl) ∨
    ((∀ r, prRev = some r → condsEq r rule = false) ∧
      totalBitsCn cn (iReplaced original i prRev) allPos allNeg = .ok revDl)
  min : argmin (fun a b => decide (a < b)) [odl, repDl, revDl] = .ok n
  pick : (n = 0 ∧ best = rule) ∨ (n = 1 ∧ prRep = some best) ∨ (n ≠ 0 ∧ n ≠ 1 ∧ prRev = some best)

omit [Arith.Lawful] in
theorem optimizeChoice_ok {original : List (List Cond)} {odl : Rat} {i : Nat} {rule best : List Cond}
    {a b c d : List Label}
    (h : optimizeChoice fuel cn hp original odl i rule allPos allNeg a b c d = .ok best) :
    ∃ gRep gRev prRep prRev repDl revDl n,
      OptChoice fuel cn hp original odl i rule allPos allNeg a b c d gRep gRev prRep prRev repDl revDl n best := by
  unfold optimizeChoice at h
  obtain ⟨gRep, h1, h⟩ := bind_ok_iff.mp h
  obtain ⟨prRep, h2, h⟩ := bind_ok_iff.mp h
  obtain ⟨gRev, h3, h⟩ := bind_ok_iff.mp h
  obtain ⟨prRev, h4, h⟩ := bind_ok_iff.mp h
  obtain ⟨repDl, h5, h⟩ := bind_ok_iff.mp h
  obtain ⟨revDl, h6, h⟩ := bind_ok_iff.mp h
  obtain ⟨n, h7, h⟩ := bind_ok_iff.mp h
  refine ⟨gRep, gRev, prRep, prRev, repDl, revDl, n, h1, h2, h3, h4, ?_, ?_, h7, ?_⟩
  · cases prRep with
    | none => right; exact ⟨by simp, h5⟩
    | some r =>
      simp only at h5
      split at h5
      · rename_i he; injection h5 with h5; exact Or.inl ⟨r, rfl, he, h5.symm⟩
      · rename_i he; exact Or.inr ⟨by simpa using he, h5⟩
  · cases prRev with
    | none => right; exact ⟨by simp, h6⟩
    | some r =>
      simp only at h6
      split at h6
      · rename_i he; injection h6 with h6; exact Or.inl ⟨r, rfl, he, h6.symm⟩
      · rename_i he; exact Or.inr ⟨by simpa using he, h6⟩
  · split at h
    · simp only [pure_eq_ok, Except.ok.injEq] at h; exact Or.inl ⟨rfl, h.symm⟩
    · cases prRep with
      | none => cases h
      | some r => simp only [pure_eq_ok, Except.ok.injEq] at h; subst h; exact Or.inr (Or.inl ⟨rfl, rfl⟩)
    · rename_i hn0 hn1
      cases prRev with
      | none => cases h
      | some r =>
        simp only [pure_eq_ok, Except.ok.injEq] at h; subst h
        exact Or.inr (Or.inr ⟨hn0, hn1, rfl⟩)

theorem ClosedRule.choice {P : List Cond → Prop} (hP : ClosedRule cn P) (hw : cn.WF)
    {original : List (List Cond)} {odl : Rat} {i : Nat} {rule best : List Cond} {a b c d : List Label}
    (hi : i < original.length) (hr : P rule)
    (h : optimizeChoice fuel cn hp original odl i rule allPos allNeg a b c d = .ok best) : P best := by
  obtain ⟨gRep, gRev, prRep, prRev, repDl, revDl, n, hc⟩ := optimizeChoice_ok h
  rcases hc.pick with ⟨_, rfl⟩ | ⟨_, h⟩ | ⟨_, _, h⟩
  · exact hr
  · have := hc.pruneRep
    rw [h] at this
    exact hP.pre _ _ (hP.grow hw hP.nil hc.growRep) (pruneRuleOn_prefix (iReplaced_getElem _ _ _ hi) this).1
  · have := hc.pruneRev
    rw [h] at this
    exact hP.pre _ _ (hP.grow hw hr hc.growRev) (pruneRuleOn_prefix (iReplaced_getElem _ _ _ hi) this).1

omit [Arith.Lawful] in
/-- One pass of the optimisation loop: every position keeps its rule or gets a choice made for the rule
at that position (or that rule itself). -/
theorem optimizeLoop_spec {ps : Rat} {rs : Option Int} {original : List (List Cond)} {odl : Rat} :
    ∀ (rest : List (List Cond)) (i : Nat) (new : List (List Cond)) (pos neg : List Label) (g : R.G)
      (out : List (List Cond)) (g' : R.G),
    optimizeLoop fuel R cn hp ps rs original odl allPos allNeg i rest new pos neg g = .ok (out, g') →
    out.length = new.length ∧ ∀ j x, out[j]? = some x → new[j]? = some x ∨
      (i ≤ j ∧ ∃ rule, rest[j - i]? = some rule ∧ (x = rule ∨ ∃ a b c d,
        optimizeChoice fuel cn hp original odl j rule allPos allNeg a b c d = .ok x)) := by
  intro rest
  induction rest with
  | nil =>
    intro i new pos neg g out g' h
    simp only [optimizeLoop, Except.ok.injEq, Prod.mk.injEq] at h
    obtain ⟨rfl, rfl⟩ := h
    exact ⟨rfl, fun j x h => Or.inl h⟩
  | cons rule rest ih =>
    intro i new pos neg g out g' h
    rw [optimizeLoop] at h
    rcases hp1 : randomSplit R g pos (Arith.complement ps) rs with ⟨a, b, g1⟩
    rcases hp2 : randomSplit R g1 neg (Arith.complement ps) rs with ⟨c, d, g2⟩
    simp only [hp1, hp2] at h
    split at h
    · simp only [pure_eq_ok, Except.ok.injEq, Prod.mk.injEq] at h
      obtain ⟨rfl, rfl⟩ := h
      exact ⟨rfl, fun j x h => Or.inl h⟩
    split at h
    · simp only [pure_eq_ok, Except.ok.injEq, Prod.mk.injEq] at h
      obtain ⟨rfl, rfl⟩ := h
      exact ⟨rfl, fun j x h => Or.inl h⟩
    obtain ⟨best, hbest, h⟩ := bind_ok_iff.mp h
    generalize hv : (if (!condsIn best new) = true then best else rule) = v at h
    have hset : ∀ j x, (new.set i v)[j]? = some x → new[j]? = some x ∨
        (i ≤ j ∧ ∃ r, (rule :: rest)[j - i]? = some r ∧ (x = r ∨ ∃ a b c d,
          optimizeChoice fuel cn hp original odl j r allPos allNeg a b c d = .ok x)) := by
      intro j x hx
      rw [List.getElem?_set] at hx
      split at hx
      · rename_i hij
        subst hij
        split at hx
        · injection hx with hx
          refine Or.inr ⟨le_refl _, rule, by simp, ?_⟩
          subst hx hv
          split
          · exact Or.inr ⟨a, b, c, d, hbest⟩
          · exact Or.inl rfl
        · cases hx
      · exact Or.inl hx
    have fin : out = new.set i v → out.length = new.length ∧ ∀ j x, out[j]? = some x → new[j]? = some x ∨
        (i ≤ j ∧ ∃ r, (rule :: rest)[j - i]? = some r ∧ (x = r ∨ ∃ a b c d,
          optimizeChoice fuel cn hp original odl j r allPos allNeg a b c d = .ok x)) := by
      rintro rfl
      exact ⟨by simp, hset⟩
    split at h
    · simp only [pure_eq_ok, Except.ok.injEq, Prod.mk.injEq] at h
      exact fin h.1.symm
    · obtain ⟨h1, h2⟩ := ih (i + 1) _ _ _ _ _ _ h
      refine ⟨by simpa using h1, ?_⟩
      intro j x hx
      rcases h2 j x hx with h | ⟨hj, r, hr, h⟩
      · exact hset j x h
      · refine Or.inr ⟨by omega, r, ?_, h⟩
        have : j - i = (j - (i + 1)) + 1 := by omega
        rw [this, List.getElem?_cons_succ]
        exact hr

omit [Arith.Lawful] in
theorem optimizeCn_spec {rs : Option Int} {rules out : List (List Cond)} {g g' : R.G}
    (h : optimizeCn fuel R cn hp rs rules allPos allNeg g = .ok (out, g')) :
    ∃ mdl odl, bestSubsetCn cn rules allPos allNeg = .ok (mdl, odl) ∧
    out.length = rules.length ∧ ∀ j x, out[j]? = some x → ∃ rule, rules[j]? = some rule ∧
      (x = rule ∨ ∃ a b c d, optimizeChoice fuel cn hp rules odl j rule allPos allNeg a b c d = .ok x) := by
  unfold optimizeCn at h
  obtain ⟨⟨mdl, odl⟩, hb, h⟩ := bind_ok_iff.mp h
  refine ⟨mdl, odl, hb, ?_⟩
  simp only at h
  cases hps : hp.pruneSize with
  | none =>
    rw [hps] at h
    simp only at h
    split at h
    · rename_i hn
      simp only [pure_eq_ok, Except.ok.injEq, Prod.mk.injEq] at h
      obtain ⟨rfl, _⟩ := h
      exact ⟨rfl, fun j x hx => ⟨x, hx, Or.inl rfl⟩⟩
    · cases h
  | some ps =>
    rw [hps] at h
    obtain ⟨h1, h2⟩ := optimizeLoop_spec _ _ _ _ _ _ _ _ h
    refine ⟨h1, ?_⟩
    intro j x hx
    rcases h2 j x hx with h | ⟨_, r, hr, h⟩
    · exact ⟨x, h, Or.inl rfl⟩
    · exact ⟨r, by simpa using hr, h⟩

theorem ClosedRule.optimize {P : List Cond → Prop} (hP : ClosedRule cn P) (hw : cn.WF) {rs : Option Int}
    {rules out : List (List Cond)} {g g' : R.G}
    (h : optimizeCn fuel R cn hp rs rules allPos allNeg g = .ok (out, g')) (hr : ∀ r ∈ rules, P r) :
    ∀ r ∈ out, P r := by
  obtain ⟨mdl, odl, _, _, hs⟩ := optimizeCn_spec h
  intro x hx
  obtain ⟨j, hj⟩ := List.getElem?_of_mem hx
  obtain ⟨rule, hrule, hcase⟩ := hs j x hj
  have hlt : j < rules.length := (List.getElem?_eq_some_iff.mp hrule).1
  have hPr := hr rule (List.mem_of_getElem? hrule)
  rcases hcase with rfl | ⟨a, b, c, d, hch⟩
  · exact hPr
  · exact hP.choice hw hlt hPr hch

omit [Arith.Lawful] in
theorem stage2_spec {P : List (List Cond) → Prop}
    (hstep : ∀ rules out (g g' : R.G), P rules →
      optimizeCn fuel R cn hp (hp.randomState.map (· + 100)) rules allPos allNeg g = .ok (out, g') → P out) :
    ∀ (n : Nat) (rules : List (List Cond)) (g : R.G) (out : List (List Cond)) (g' : R.G), P rules →
    stage2 fuel R cn hp allPos allNeg n rules g = .ok (out, g') → P out := by
  intro n
  induction n with
  | zero =>
    intro rules g out g' hP h
    simp only [stage2, Except.ok.injEq, Prod.mk.injEq] at h
    exact h.1 ▸ hP
  | succ n ih =>
    intro rules g out g' hP h
    rw [stage2] at h
    obtain ⟨⟨new, g1⟩, ho, h⟩ := bind_ok_iff.mp h
    simp only at h
    split at h
    · simp only [pure_eq_ok, Except.ok.injEq, Prod.mk.injEq] at h
      exact h.1 ▸ hP
    · exact ih _ _ _ _ (hstep _ _ _ _ hP ho) h

omit [Arith] [Arith.Lawful] in
theorem mdlFilter_sublist : ∀ (xs : List (List Cond × Rat)) (p : Option Rat),
    (mdlFilter p xs).Sublist (xs.map Prod.fst) := by
  intro xs
  induction xs with
  | nil => intro p; cases p <;> simp [mdlFilter]
  | cons x xs ih =>
    intro p
    obtain ⟨r, d⟩ := x
    cases p with
    | none => exact (ih _).cons_cons _
    | some p =>
      rw [mdlFilter, List.map_cons]
      split
      · exact (ih _).cons_cons _
      · exact (ih _).cons _

omit [Arith.Lawful] in
theorem subsetDls_length {cn : CatNap} {pos neg : List Label} : ∀ (rules : List (List Cond)) (t : Rat)
    (done : List (List Cond)) (dls : List Rat), subsetDls cn pos neg t done rules = .ok dls →
    dls.length = rules.length := by
  intro rules
  induction rules with
  | nil => intro t done dls h; simp only [subsetDls, Except.ok.injEq] at h; subst h; rfl
  | cons r rs ih =>
    intro t done dls h
    rw [subsetDls] at h
    obtain ⟨x, _, h⟩ := bind_ok_iff.mp h
    obtain ⟨y, _, h⟩ := bind_ok_iff.mp h
    obtain ⟨z, hz, h⟩ := bind_ok_iff.mp h
    simp only [pure_eq_ok, Except.ok.injEq] at h
    subst h
    simp [ih _ _ _ hz]

omit [Arith.Lawful] in
theorem bestSubsetCn_sublist {rules out : List (List Cond)} {dl : Rat} {pos neg : List Label}
    (h : bestSubsetCn cn rules pos neg = .ok (out, dl)) : out.Sublist rules := by
  unfold bestSubsetCn at h
  obtain ⟨dls, hd, h⟩ := bind_ok_iff.mp h
  obtain ⟨t, _, h⟩ := bind_ok_iff.mp h
  simp only [pure_eq_ok, Except.ok.injEq, Prod.mk.injEq] at h
  rw [← h.1]
  have := mdlFilter_sublist (rules.zip dls) none
  rwa [List.map_fst_zip (by rw [subsetDls_length _ _ _ _ hd])] at this

/-- The four stages. -/
structure RipStages (fuel : Nat) (R : PyRandom) (cn : CatNap) (hp : Hyper) (init : List (List Cond))
    (pos neg : List Label) (g : R.G) (st : RipSt R) (r2 r3 r4 : List (List Cond)) (g2 g3 : R.G) (dl : Rat) :
    Prop where
  grow : ripperGrowCn fuel R cn hp init pos neg g = .ok st
  optimize : stage2 fuel R cn hp pos neg hp.k.toNat st.rules st.g = .ok (r2, g2)
  cover : coverRemainingCn fuel R cn hp r2 pos neg g2 = .ok (r3, g3)
  simplify : bestSubsetCn cn r3 pos neg = .ok (r4, dl)

omit [Arith.Lawful] in
theorem ripperStages_ok {init out : List (List Cond)} {pos neg : List Label} {g g' : R.G}
    (h : ripperStages fuel R cn hp init pos neg g = .ok (out, g')) :
    ∃ st r2 r3 g2 dl, RipStages fuel R cn hp init pos neg g st r2 r3 out g2 g' dl := by
  unfold ripperStages at h
  obtain ⟨st, h1, h⟩ := bind_ok_iff.mp h
  obtain ⟨⟨r2, g2⟩, h2, h⟩ := bind_ok_iff.mp h
  obtain ⟨⟨r3, g3⟩, h3, h⟩ := bind_ok_iff.mp h
  obtain ⟨⟨r4, dl⟩, h4, h⟩ := bind_ok_iff.mp h
  simp only [pure_eq_ok, Except.ok.injEq, Prod.mk.injEq] at h
  obtain ⟨rfl, rfl⟩ := h
  exact ⟨st, r2, r3, g2, dl, h1, h2, h3, h4⟩

omit [Arith.Lawful] in
theorem coverRemainingCn_ok {rules out : List (List Cond)} {pos neg : List Label} {g g' : R.G}
    (h : coverRemainingCn fuel R cn hp rules pos neg g = .ok (out, g')) :
    (pos = [] ∧ out = rules) ∨ ∃ st, ripperGrowCn fuel R cn hp rules pos neg g = .ok st ∧ out = st.rules := by
  unfold coverRemainingCn at h
  split at h
  · obtain ⟨st, h1, h⟩ := bind_ok_iff.mp h
    simp only [pure_eq_ok, Except.ok.injEq, Prod.mk.injEq] at h
    exact Or.inr ⟨st, h1, h.1.symm⟩
  · rename_i hl
    simp only [pure_eq_ok, Except.ok.injEq, Prod.mk.injEq] at h
    exact Or.inl ⟨List.length_eq_zero_iff.mp (by omega), h.1.symm⟩

theorem ClosedRule.stages {P : List Cond → Prop} (hP : ClosedRule cn P) (hw : cn.WF)
    {init out : List (List Cond)} {pos neg : List Label} {g g' : R.G}
    (h : ripperStages fuel R cn hp init pos neg g = .ok (out, g')) (hi : ∀ r ∈ init, P r) :
    ∀ r ∈ out, P r := by
  obtain ⟨st, r2, r3, g2, dl, hs⟩ := ripperStages_ok h
  have h1 := hP.ripperGrow hw hs.grow hi
  have h2 : ∀ r ∈ r2, P r := stage2_spec (P := fun rules => ∀ r ∈ rules, P r)
    (fun rules out g g' hr ho => hP.optimize hw ho hr) _ _ _ _ _ h1 hs.optimize
  have h3 : ∀ r ∈ r3, P r := by
    rcases coverRemainingCn_ok hs.cover with ⟨_, rfl⟩ | ⟨st, h, rfl⟩
    · exact h2
    · exact hP.ripperGrow hw h h2
  exact fun r hr => h3 r ((bestSubsetCn_sublist hs.simplify).subset hr)

omit [Arith.Lawful] in
/-- How many rules the stages can produce. -/
theorem ripperStages_maxRules {init out : List (List Cond)} {pos neg : List Label} {g g' : R.G}
    (h : ripperStages fuel R cn hp init pos neg g = .ok (out, g')) {k : Int} (hk : hp.lim.maxRules = some k) :
    (out.length : Int) ≤ max k init.length := by
  obtain ⟨st, r2, r3, g2, dl, hs⟩ := ripperStages_ok h
  obtain ⟨s, hs1, he, _⟩ := ripperGrowCn_reach hs.grow
  have h1 : (st.rules.length : Int) ≤ max k init.length := by rw [he]; exact hs1.maxRules hk
  have h2 : (r2.length : Int) ≤ max k init.length :=
    stage2_spec (P := fun rules => (rules.length : Int) ≤ max k init.length)
      (fun rules out g g' hr ho => by
        obtain ⟨_, _, _, hl, _⟩ := optimizeCn_spec ho
        rw [hl]; exact hr) _ _ _ _ _ h1 hs.optimize
  have h3 : (r3.length : Int) ≤ max k init.length := by
    rcases coverRemainingCn_ok hs.cover with ⟨_, rfl⟩ | ⟨st, h, rfl⟩
    · exact h2
    · obtain ⟨s, hs1, he, _⟩ := ripperGrowCn_reach h
      have := hs1.maxRules hk
      rw [he]
      simp only at this
      omega
  have := (bestSubsetCn_sublist hs.simplify).length_le
  omega

end Witt
