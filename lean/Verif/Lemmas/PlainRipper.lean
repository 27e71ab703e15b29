import Verif.Lemmas.PlainIrep
/-
RIPPER with `cn_optimize=False`: how the rules of each stage arise, termination, results of `fit`.
-/
namespace Witt
open Spec
variable [Arith] [Arith.Lawful]

variable {fuel : Nat} {R : PyRandom} {S : SetOps} {cands : List Cond} {hp : Hyper} {allPos allNeg : Frame}

omit [Arith] [Arith.Lawful] in
theorem rulesNumCovered_noDiv (rules : List (List Cond)) (d : Frame) : NoDiv (rulesNumCovered rules d) := by
  unfold rulesNumCovered Ruleset.numCovered
  refine NoDiv.bind ?_ fun _ _ => .pure _
  generalize ({ rules := rules.map (fun c => ({ conds := c } : Rule)) } : Ruleset) = rs
  by_cases h : (∃ r ∈ rs.rules, r.conds = []) ∨ HasFeatures d rs.rules
  · obtain ⟨x, hx, _⟩ := Ruleset.covers_ok h
    rw [hx]; exact .ok _
  · rw [Ruleset.covers_err h]; simp [NoDiv]

omit [Arith] [Arith.Lawful] in
theorem rmCoveredRuleset_noDiv (rs : Ruleset) (pos neg : Frame) : NoDiv (rmCoveredRuleset rs pos neg) := by
  have hc : ∀ d, NoDiv (rs.covers d) := by
    intro d
    by_cases h : (∃ r ∈ rs.rules, r.conds = []) ∨ HasFeatures d rs.rules
    · obtain ⟨x, hx, _⟩ := Ruleset.covers_ok h
      rw [hx]; exact .ok _
    · rw [Ruleset.covers_err h]; simp [NoDiv]
  unfold rmCoveredRuleset
  exact (hc _).bind fun _ _ => (hc _).bind fun _ _ => .pure _

omit [Arith.Lawful] in
theorem exceptionsDf_noDiv (rules : List (List Cond)) (pos neg : Frame) : NoDiv (exceptionsDf rules pos neg) := by
  unfold exceptionsDf
  exact (rulesNumCovered_noDiv _ _).bind fun _ _ => (rulesNumCovered_noDiv _ _).bind fun _ _ =>
    (log2Exp_noDiv _).bind fun _ _ => (log2Exp_noDiv _).bind fun _ _ => .pure _

omit [Arith.Lawful] in
theorem totalBitsDf_noDiv (n : Nat) (rules : List (List Cond)) (pos neg : Frame) :
    NoDiv (totalBitsDf n rules pos neg) := by
  unfold totalBitsDf
  exact (rsTheory_noDiv _ _).bind fun _ _ => (exceptionsDf_noDiv _ _ _).bind fun _ _ => .pure _

omit [Arith.Lawful] in
theorem subsetDlsDf_noDiv (n : Nat) (pos neg : Frame) : ∀ (rules : List (List Cond)) (t : Rat) (done : List (List Cond)),
    NoDiv (subsetDlsDf n pos neg t done rules) := by
  intro rules
  induction rules with
  | nil => intros; exact .ok _
  | cons r rs ih =>
    intro t done
    rw [subsetDlsDf]
    exact (ruleTheory_noDiv _ _).bind fun _ _ => (exceptionsDf_noDiv _ _ _).bind fun _ _ =>
      (ih _ _).bind fun _ _ => .pure _

omit [Arith.Lawful] in
theorem bestSubsetDf_noDiv (n : Nat) (rules : List (List Cond)) (pos neg : Frame) :
    NoDiv (bestSubsetDf n rules pos neg) := by
  unfold bestSubsetDf
  exact (subsetDlsDf_noDiv _ _ _ _ _ _).bind fun _ _ => (totalBitsDf_noDiv _ _ _ _).bind fun _ _ => .pure _

omit [Arith.Lawful] in
theorem rulesetAccuracy_noDiv (rules : List (List Cond)) (pos neg : Frame) : NoDiv (rulesetAccuracy rules pos neg) := by
  unfold rulesetAccuracy
  simp only
  split
  · exact .pure _
  · exact (rulesNumCovered_noDiv _ _).bind fun _ _ => (rulesNumCovered_noDiv _ _).bind fun _ _ => .pure _

omit [Arith.Lawful] in
theorem ripperGrowMetric_noDiv (pos neg : Frame) (r : List Cond) : NoDiv (ripperGrowMetric pos neg r) := by
  unfold ripperGrowMetric
  exact (numCoveredC_noDiv _ _).bind fun _ _ => (numCoveredC_noDiv _ _).bind fun _ _ => .pure _

/-! ### growing -/

/-- An iteration that adds `rule`, going from `st` to `st'`. -/
structure FrameRipAdd (fuel : Nat) (R : PyRandom) (cands : List Cond) (hp : Hyper) (allPos allNeg : Frame)
    (st st' : FrameRipSt R) (rule : List Cond) : Prop where
  pos_ne : st.pos.rows ≠ []
  within : Arith.within st.diff hp.dlAllowance = true
  go : stopEarly hp.lim st.rules st.pos.rows.length st.neg.rows.length = false
  rules : st'.rules = st.rules ++ [rule]
  feats : ∀ c ∈ rule, c.feature ∈ st.pos.cols
  pos : st'.pos = st.pos.dropLabels (hitLabels rule st.pos)
  neg : st'.neg = st.neg.dropLabels (hitLabels rule st.neg)
  how : ∃ (ps : Rat) (posGrow posPrune negGrow negPrune : Frame) (g1 : R.G) (grown : List Cond),
    hp.pruneSize = some ps ∧
    dfShuffledSplit R st.g st.pos (Arith.complement ps) hp.randomState = (posGrow, posPrune, g1) ∧
    dfShuffledSplit R g1 st.neg (Arith.complement ps) hp.randomState = (negGrow, negPrune, st'.g) ∧
    posGrow.rows ≠ [] ∧ growRule fuel cands hp.lim posGrow negGrow [] = .ok grown ∧ grown ≠ [] ∧
    pruneRule (ripperGrowMetric posPrune negPrune) grown = .ok (some rule)
  dl : ∃ ruleDl dataDl, ruleTheory cands.length rule.length = .ok ruleDl ∧
    exceptionsDf (st.rules ++ [rule]) allPos allNeg = .ok dataDl ∧
    st'.dl = some (ripDl st.dl ruleDl dataDl).1 ∧ st'.diff = (ripDl st.dl ruleDl dataDl).2.getD st.diff

omit [Arith.Lawful] in
theorem ripperStep_more {st st' : FrameRipSt R}
    (h : ripperStep fuel R cands hp allPos allNeg st = .ok (.more st')) :
    ∃ rule, FrameRipAdd fuel R cands hp allPos allNeg st st' rule := by
  unfold ripperStep at h
  split at h
  · simp [pure_eq_ok] at h
  rename_i hne
  split at h
  · simp [pure_eq_ok] at h
  rename_i hs
  cases hps : hp.pruneSize with
  | none => rw [hps] at h; simp at h
  | some ps =>
    simp only [hps] at h
    rcases hp1 : dfShuffledSplit R st.g st.pos (Arith.complement ps) hp.randomState with ⟨a, b, g1⟩
    rcases hp2 : dfShuffledSplit R g1 st.neg (Arith.complement ps) hp.randomState with ⟨c, d, g2⟩
    simp only [hp1, hp2] at h
    split at h
    · simp [pure_eq_ok] at h
    rename_i hag
    obtain ⟨grown, hg, h⟩ := bind_ok_iff.mp h
    split at h
    · simp [pure_eq_ok] at h
    rename_i hgn
    obtain ⟨o, hpr, h⟩ := bind_ok_iff.mp h
    cases o with
    | none => simp at h
    | some pruned =>
      simp only at h
      obtain ⟨t, ht, h⟩ := bind_ok_iff.mp h
      obtain ⟨x, hx, h⟩ := bind_ok_iff.mp h
      obtain ⟨⟨pos', neg'⟩, hrm, h⟩ := bind_ok_iff.mp h
      simp only [pure_eq_ok, Except.ok.injEq, Step.more.injEq] at h
      subst h
      obtain ⟨e1, e2, f1, _⟩ := rmCoveredRule_ok hrm
      push Not at hne
      exact ⟨pruned, hne.1, by simpa using hne.2, by simpa using hs, rfl, f1, e1, e2,
        ⟨ps, a, b, c, d, g1, grown, hps, hp1, hp2, hag, hg, hgn, hpr⟩, ⟨t, x, ht, hx, rfl, rfl⟩⟩

omit [Arith.Lawful] in
theorem ripperStep_done {st st' : FrameRipSt R}
    (h : ripperStep fuel R cands hp allPos allNeg st = .ok (.done st')) :
    st'.rules = st.rules ∧ st'.pos = st.pos ∧ st'.neg = st.neg := by
  unfold ripperStep at h
  split at h
  · simp only [pure_eq_ok, Except.ok.injEq, Step.done.injEq] at h; subst h; exact ⟨rfl, rfl, rfl⟩
  split at h
  · simp only [pure_eq_ok, Except.ok.injEq, Step.done.injEq] at h; subst h; exact ⟨rfl, rfl, rfl⟩
  cases hps : hp.pruneSize with
  | none => rw [hps] at h; simp at h
  | some ps =>
    simp only [hps] at h
    rcases hp1 : dfShuffledSplit R st.g st.pos (Arith.complement ps) hp.randomState with ⟨a, b, g1⟩
    rcases hp2 : dfShuffledSplit R g1 st.neg (Arith.complement ps) hp.randomState with ⟨c, d, g2⟩
    simp only [hp1, hp2] at h
    split at h
    · simp only [pure_eq_ok, Except.ok.injEq, Step.done.injEq] at h; subst h; exact ⟨rfl, rfl, rfl⟩
    obtain ⟨grown, hg, h⟩ := bind_ok_iff.mp h
    split at h
    · simp only [pure_eq_ok, Except.ok.injEq, Step.done.injEq] at h; subst h; exact ⟨rfl, rfl, rfl⟩
    obtain ⟨o, hpr, h⟩ := bind_ok_iff.mp h
    cases o with
    | none => simp at h
    | some pruned =>
      simp only at h
      obtain ⟨t, ht, h⟩ := bind_ok_iff.mp h
      obtain ⟨x, hx, h⟩ := bind_ok_iff.mp h
      obtain ⟨⟨pos', neg'⟩, hrm, h⟩ := bind_ok_iff.mp h
      simp [pure_eq_ok] at h

theorem FrameRipAdd.covers {st st' : FrameRipSt R} {rule : List Cond}
    (h : FrameRipAdd fuel R cands hp allPos allNeg st st' rule) :
    ∃ row ∈ st.pos.rows, condsMet rule row = true := by
  obtain ⟨ps, a, b, c, d, g1, grown, _, h1, h2, hne, h3, _, h4⟩ := h.how
  obtain ⟨row, hrow, hm⟩ := growRule_covers_pos h3 hne
  refine ⟨row, (dfSplit_sub h1).1 row hrow, ?_⟩
  rw [condsMet_iff] at hm ⊢
  exact fun c hc => hm c ((pruneRule_prefix h4).1.subset hc)

theorem FrameRipAdd.pos_lt {st st' : FrameRipSt R} {rule : List Cond}
    (h : FrameRipAdd fuel R cands hp allPos allNeg st st' rule) : st'.pos.rows.length < st.pos.rows.length := by
  obtain ⟨row, hrow, hm⟩ := h.covers
  rw [h.pos]
  exact dropLabels_lt hrow (mem_hitLabels.mpr ⟨row, hrow, hm, rfl⟩)

omit [Arith.Lawful] in
theorem FrameRipAdd.neg_sub {st st' : FrameRipSt R} {rule : List Cond}
    (h : FrameRipAdd fuel R cands hp allPos allNeg st st' rule) : st'.neg.rows.Sublist st.neg.rows := by
  rw [h.neg]; exact dropLabels_sublist

omit [Arith.Lawful] in
theorem FrameRipAdd.grown {st st' : FrameRipSt R} {rule : List Cond}
    (h : FrameRipAdd fuel R cands hp allPos allNeg st st' rule) :
    rule ≠ [] ∧ ∃ posGrow negGrow r, growRule fuel cands hp.lim posGrow negGrow [] = .ok r ∧ rule <+: r := by
  obtain ⟨ps, a, b, c, d, g1, grown, _, h1, h2, hne, h3, hgn, h4⟩ := h.how
  exact ⟨fun h0 => hgn ((pruneRule_prefix h4).2 h0), a, c, grown, h3, (pruneRule_prefix h4).1⟩

/-- States reachable by adding rules. -/
inductive FrameRipReach (fuel : Nat) (R : PyRandom) (cands : List Cond) (hp : Hyper) (allPos allNeg : Frame)
    (st0 : FrameRipSt R) : FrameRipSt R → Prop where
  | start : FrameRipReach fuel R cands hp allPos allNeg st0 st0
  | add {st st' rule} : FrameRipReach fuel R cands hp allPos allNeg st0 st →
      FrameRipAdd fuel R cands hp allPos allNeg st st' rule → FrameRipReach fuel R cands hp allPos allNeg st0 st'

omit [Arith.Lawful] in
theorem FrameRipReach.prefix {st0 st : FrameRipSt R} (h : FrameRipReach fuel R cands hp allPos allNeg st0 st) :
    st0.rules <+: st.rules := by
  induction h with
  | start => exact List.prefix_rfl
  | add _ ha ih => rw [ha.rules]; exact ih.trans (List.prefix_append _ _)

omit [Arith.Lawful] in
theorem FrameRipReach.rule {st0 st : FrameRipSt R} (h : FrameRipReach fuel R cands hp allPos allNeg st0 st) :
    ∀ r ∈ st.rules, r ∈ st0.rules ∨ ∃ s s', FrameRipReach fuel R cands hp allPos allNeg st0 s ∧
      FrameRipAdd fuel R cands hp allPos allNeg s s' r := by
  induction h with
  | start => exact fun r h => Or.inl h
  | @add s s' rule hs ha ih =>
    intro r hr
    rw [ha.rules] at hr
    rcases List.mem_append.mp hr with hr | hr
    · exact ih r hr
    · simp at hr; subst hr; exact Or.inr ⟨_, _, hs, ha⟩

omit [Arith.Lawful] in
theorem FrameRipReach.maxRules {st0 st : FrameRipSt R} (h : FrameRipReach fuel R cands hp allPos allNeg st0 st)
    {k : Int} (hk : hp.lim.maxRules = some k) : (st.rules.length : Int) ≤ max k st0.rules.length := by
  induction h with
  | start => omega
  | @add s s' r hs ha ih =>
    have hgo := ha.go
    unfold stopEarly at hgo
    simp only [Bool.or_eq_false_iff] at hgo
    have := atLeast_eq_false hgo.1.1 hk
    rw [ha.rules, List.length_append]
    simp only [List.length_cons, List.length_nil]
    push_cast
    omega

omit [Arith.Lawful] in
theorem ripperGrow_reach {init : List (List Cond)} {pos neg : Frame} {g : R.G} {st : FrameRipSt R}
    (h : ripperGrow fuel R cands hp init pos neg g = .ok st) :
    ∃ s, FrameRipReach fuel R cands hp pos neg ⟨init, pos, neg, none, Arith.zeroDl, g⟩ s ∧ st.rules = s.rules ∧
      st.pos = s.pos ∧ st.neg = s.neg := by
  unfold ripperGrow at h
  refine pyWhile_inv (I := fun s => FrameRipReach fuel R cands hp pos neg ⟨init, pos, neg, none, Arith.zeroDl, g⟩ s)
    (Q := fun a => ∃ s, FrameRipReach fuel R cands hp pos neg ⟨init, pos, neg, none, Arith.zeroDl, g⟩ s ∧ a.rules = s.rules ∧
      a.pos = s.pos ∧ a.neg = s.neg) ?_ ?_ fuel _ st .start h
  · intro s s' hI hb
    obtain ⟨rule, ha⟩ := ripperStep_more hb
    exact .add hI ha
  · intro s a hI hb
    obtain ⟨h1, h2, h3⟩ := ripperStep_done hb
    exact ⟨s, hI, h1, h2, h3⟩

theorem ClosedOn.ripperGrow {P : List Cond → Prop} (hP : ClosedOn cands P)
    {init : List (List Cond)} {pos neg : Frame} {g : R.G} {st : FrameRipSt R}
    (h : Witt.ripperGrow fuel R cands hp init pos neg g = .ok st) (hi : ∀ r ∈ init, P r) : ∀ r ∈ st.rules, P r := by
  obtain ⟨s, hs, h1, _⟩ := ripperGrow_reach h
  intro r hr
  rw [h1] at hr
  rcases hs.rule r hr with h | ⟨_, _, _, ha⟩
  · exact hi r h
  · obtain ⟨_, a, b, r', h1, h2⟩ := ha.grown
    exact hP.pre _ _ (hP.grow hP.nil h1) h2

/-! ### optimising -/

omit [Arith.Lawful] in
/-- The three candidates for a position, and where they come from. -/
theorem optimizeChoiceDf_ok {original : List (List Cond)} {odl : Rat} {i : Nat} {rule best : List Cond}
    {a b c d : Frame} (h : optimizeChoiceDf fuel cands hp original odl i rule allPos allNeg a b c d = .ok best) :
    best = rule ∨ ∃ start grown, (start = [] ∨ start = rule) ∧
      growRule fuel cands { minRuleSamples := hp.lim.minRuleSamples } a c start = .ok grown ∧
      pruneRuleOn (fun r => rulesetAccuracy (iReplaced original i (some r)) b d) grown
        (iReplaced original i (some grown)) i = .ok (some best) := by
  unfold optimizeChoiceDf at h
  obtain ⟨gRep, h1, h⟩ := bind_ok_iff.mp h
  obtain ⟨prRep, h2, h⟩ := bind_ok_iff.mp h
  obtain ⟨gRev, h3, h⟩ := bind_ok_iff.mp h
  obtain ⟨prRev, h4, h⟩ := bind_ok_iff.mp h
  obtain ⟨repDl, h5, h⟩ := bind_ok_iff.mp h
  obtain ⟨revDl, h6, h⟩ := bind_ok_iff.mp h
  obtain ⟨n, h7, h⟩ := bind_ok_iff.mp h
  split at h
  · simp only [pure_eq_ok, Except.ok.injEq] at h; exact Or.inl h.symm
  · cases prRep with
    | none => cases h
    | some r =>
      simp only [pure_eq_ok, Except.ok.injEq] at h; subst h
      exact Or.inr ⟨[], gRep, Or.inl rfl, h1, h2⟩
  · cases prRev with
    | none => cases h
    | some r =>
      simp only [pure_eq_ok, Except.ok.injEq] at h; subst h
      exact Or.inr ⟨rule, gRev, Or.inr rfl, h3, h4⟩

theorem ClosedOn.choice {P : List Cond → Prop} (hP : ClosedOn cands P)
    {original : List (List Cond)} {odl : Rat} {i : Nat} {rule best : List Cond} {a b c d : Frame}
    (hi : i < original.length) (hr : P rule)
    (h : optimizeChoiceDf fuel cands hp original odl i rule allPos allNeg a b c d = .ok best) : P best := by
  rcases optimizeChoiceDf_ok h with rfl | ⟨start, grown, hs, hg, hp⟩
  · exact hr
  · refine hP.pre _ _ (hP.grow ?_ hg) (pruneRuleOn_prefix (iReplaced_getElem _ _ _ hi) hp).1
    rcases hs with rfl | rfl
    · exact hP.nil
    · exact hr

omit [Arith.Lawful] in
theorem optimizeLoopDf_spec {ps : Rat} {rs : Option Int} {original : List (List Cond)} {odl : Rat} :
    ∀ (rest : List (List Cond)) (i : Nat) (new : List (List Cond)) (pos neg : Frame) (g : R.G)
      (out : List (List Cond)) (g' : R.G),
    optimizeLoopDf fuel R cands hp ps rs original odl allPos allNeg i rest new pos neg g = .ok (out, g') →
    out.length = new.length ∧ ∀ j x, out[j]? = some x → new[j]? = some x ∨
      (i ≤ j ∧ ∃ rule, rest[j - i]? = some rule ∧ (x = rule ∨ ∃ a b c d,
        optimizeChoiceDf fuel cands hp original odl j rule allPos allNeg a b c d = .ok x)) := by
  intro rest
  induction rest with
  | nil =>
    intro i new pos neg g out g' h
    simp only [optimizeLoopDf, Except.ok.injEq, Prod.mk.injEq] at h
    obtain ⟨rfl, rfl⟩ := h
    exact ⟨rfl, fun j x h => Or.inl h⟩
  | cons rule rest ih =>
    intro i new pos neg g out g' h
    rw [optimizeLoopDf] at h
    rcases hp1 : dfShuffledSplit R g pos (Arith.complement ps) rs with ⟨a, b, g1⟩
    rcases hp2 : dfShuffledSplit R g1 neg (Arith.complement ps) rs with ⟨c, d, g2⟩
    simp only [hp1, hp2] at h
    split at h
    · simp only [pure_eq_ok, Except.ok.injEq, Prod.mk.injEq] at h
      obtain ⟨rfl, rfl⟩ := h
      exact ⟨rfl, fun j x h => Or.inl h⟩
    split at h
    · simp only [pure_eq_ok, Except.ok.injEq, Prod.mk.injEq] at h
      obtain ⟨rfl, rfl⟩ := h
      exact ⟨rfl, fun j x h => Or.inl h⟩
    obtain ⟨best, hbest, h⟩ := bind_ok_iff.mp h
    generalize hv : (if (!condsIn best new) = true then best else rule) = v at h
    have hset : ∀ j x, (new.set i v)[j]? = some x → new[j]? = some x ∨
        (i ≤ j ∧ ∃ r, (rule :: rest)[j - i]? = some r ∧ (x = r ∨ ∃ a b c d,
          optimizeChoiceDf fuel cands hp original odl j r allPos allNeg a b c d = .ok x)) := by
      intro j x hx
      rw [List.getElem?_set] at hx
      split at hx
      · rename_i hij
        subst hij
        split at hx
        · injection hx with hx
          refine Or.inr ⟨le_refl _, rule, by simp, ?_⟩
          subst hx hv
          split
          · exact Or.inr ⟨a, b, c, d, hbest⟩
          · exact Or.inl rfl
        · cases hx
      · exact Or.inl hx
    obtain ⟨⟨pos', neg'⟩, hrm, h⟩ := bind_ok_iff.mp h
    simp only at h
    split at h
    · simp only [pure_eq_ok, Except.ok.injEq, Prod.mk.injEq] at h
      obtain ⟨rfl, _⟩ := h
      exact ⟨by simp, hset⟩
    · obtain ⟨h1, h2⟩ := ih (i + 1) _ _ _ _ _ _ h
      refine ⟨by simpa using h1, ?_⟩
      intro j x hx
      rcases h2 j x hx with h | ⟨hj, r, hr, h⟩
      · exact hset j x h
      · refine Or.inr ⟨by omega, r, ?_, h⟩
        have : j - i = (j - (i + 1)) + 1 := by omega
        rw [this, List.getElem?_cons_succ]
        exact hr

omit [Arith.Lawful] in
theorem optimizeDf_spec {rs : Option Int} {rules out : List (List Cond)} {g g' : R.G}
    (h : optimizeDf fuel R cands hp rs rules allPos allNeg g = .ok (out, g')) :
    ∃ mdl odl, bestSubsetDf cands.length rules allPos allNeg = .ok (mdl, odl) ∧
    out.length = rules.length ∧ ∀ j x, out[j]? = some x → ∃ rule, rules[j]? = some rule ∧
      (x = rule ∨ ∃ a b c d, optimizeChoiceDf fuel cands hp rules odl j rule allPos allNeg a b c d = .ok x) := by
  unfold optimizeDf at h
  obtain ⟨⟨mdl, odl⟩, hb, h⟩ := bind_ok_iff.mp h
  refine ⟨mdl, odl, hb, ?_⟩
  simp only at h
  cases hps : hp.pruneSize with
  | none =>
    rw [hps] at h
    simp only at h
    split at h
    · simp only [pure_eq_ok, Except.ok.injEq, Prod.mk.injEq] at h
      obtain ⟨rfl, _⟩ := h
      exact ⟨rfl, fun j x hx => ⟨x, hx, Or.inl rfl⟩⟩
    · cases h
  | some ps =>
    rw [hps] at h
    obtain ⟨h1, h2⟩ := optimizeLoopDf_spec _ _ _ _ _ _ _ _ h
    refine ⟨h1, ?_⟩
    intro j x hx
    rcases h2 j x hx with h | ⟨_, r, hr, h⟩
    · exact ⟨x, h, Or.inl rfl⟩
    · exact ⟨r, by simpa using hr, h⟩

theorem ClosedOn.optimize {P : List Cond → Prop} (hP : ClosedOn cands P) {rs : Option Int}
    {rules out : List (List Cond)} {g g' : R.G}
    (h : optimizeDf fuel R cands hp rs rules allPos allNeg g = .ok (out, g')) (hr : ∀ r ∈ rules, P r) :
    ∀ r ∈ out, P r := by
  obtain ⟨mdl, odl, _, _, hs⟩ := optimizeDf_spec h
  intro x hx
  obtain ⟨j, hj⟩ := List.getElem?_of_mem hx
  obtain ⟨rule, hrule, hcase⟩ := hs j x hj
  have hlt : j < rules.length := (List.getElem?_eq_some_iff.mp hrule).1
  have hPr := hr rule (List.mem_of_getElem? hrule)
  rcases hcase with rfl | ⟨a, b, c, d, hch⟩
  · exact hPr
  · exact hP.choice hlt hPr hch

omit [Arith.Lawful] in
theorem stage2Df_spec {P : List (List Cond) → Prop}
    (hstep : ∀ rules out (g g' : R.G), P rules →
      optimizeDf fuel R cands hp (hp.randomState.map (· + 100)) rules allPos allNeg g = .ok (out, g') → P out) :
    ∀ (n : Nat) (rules : List (List Cond)) (g : R.G) (out : List (List Cond)) (g' : R.G), P rules →
    stage2Df fuel R cands hp allPos allNeg n rules g = .ok (out, g') → P out := by
  intro n
  induction n with
  | zero =>
    intro rules g out g' hP h
    simp only [stage2Df, Except.ok.injEq, Prod.mk.injEq] at h
    exact h.1 ▸ hP
  | succ n ih =>
    intro rules g out g' hP h
    rw [stage2Df] at h
    obtain ⟨⟨new, g1⟩, ho, h⟩ := bind_ok_iff.mp h
    simp only at h
    split at h
    · simp only [pure_eq_ok, Except.ok.injEq, Prod.mk.injEq] at h
      exact h.1 ▸ hP
    · exact ih _ _ _ _ (hstep _ _ _ _ hP ho) h

omit [Arith.Lawful] in
theorem subsetDlsDf_length {n : Nat} {pos neg : Frame} : ∀ (rules : List (List Cond)) (t : Rat)
    (done : List (List Cond)) (dls : List Rat), subsetDlsDf n pos neg t done rules = .ok dls →
    dls.length = rules.length := by
  intro rules
  induction rules with
  | nil => intro t done dls h; simp only [subsetDlsDf, Except.ok.injEq] at h; subst h; rfl
  | cons r rs ih =>
    intro t done dls h
    rw [subsetDlsDf] at h
    obtain ⟨x, _, h⟩ := bind_ok_iff.mp h
    obtain ⟨y, _, h⟩ := bind_ok_iff.mp h
    obtain ⟨z, hz, h⟩ := bind_ok_iff.mp h
    simp only [pure_eq_ok, Except.ok.injEq] at h
    subst h
    simp [ih _ _ _ hz]

omit [Arith.Lawful] in
theorem bestSubsetDf_sublist {n : Nat} {rules out : List (List Cond)} {dl : Rat} {pos neg : Frame}
    (h : bestSubsetDf n rules pos neg = .ok (out, dl)) : out.Sublist rules := by
  unfold bestSubsetDf at h
  obtain ⟨dls, hd, h⟩ := bind_ok_iff.mp h
  obtain ⟨t, _, h⟩ := bind_ok_iff.mp h
  simp only [pure_eq_ok, Except.ok.injEq, Prod.mk.injEq] at h
  rw [← h.1]
  have := mdlFilter_sublist (rules.zip dls) none
  rwa [List.map_fst_zip (by rw [subsetDlsDf_length _ _ _ _ hd])] at this

/-! ### the stages -/

/-- The four stages. -/
structure FrameStages (fuel : Nat) (R : PyRandom) (S : SetOps) (hp : Hyper) (old : Option (List Cond))
    (init : List (List Cond)) (pos neg : Frame) (g : R.G) (st : FrameRipSt R) (r2 r3 r4 : List (List Cond))
    (cands3 : List Cond) (g2 g3 : R.G) (dl : Rat) : Prop where
  grow : ripperGrow fuel R (updatedConds S old pos neg) hp init pos neg g = .ok st
  optimize : stage2Df fuel R (updatedConds S old pos neg) hp pos neg hp.k.toNat st.rules st.g = .ok (r2, g2)
  cover : coverRemainingDf fuel R S (updatedConds S old pos neg) hp r2 pos neg g2 = .ok (r3, cands3, g3)
  simplify : bestSubsetDf cands3.length r3 pos neg = .ok (r4, dl)

omit [Arith.Lawful] in
theorem ripperStagesDf_ok {old : Option (List Cond)} {init out : List (List Cond)} {pos neg : Frame} {g g' : R.G}
    (h : ripperStagesDf fuel R S hp old init pos neg g = .ok (out, g')) :
    ∃ st r2 r3 cands3 g2 dl, FrameStages fuel R S hp old init pos neg g st r2 r3 out cands3 g2 g' dl := by
  unfold ripperStagesDf at h
  obtain ⟨st, h1, h⟩ := bind_ok_iff.mp h
  obtain ⟨⟨r2, g2⟩, h2, h⟩ := bind_ok_iff.mp h
  obtain ⟨⟨r3, c3, g3⟩, h3, h⟩ := bind_ok_iff.mp h
  obtain ⟨⟨r4, dl⟩, h4, h⟩ := bind_ok_iff.mp h
  simp only [pure_eq_ok, Except.ok.injEq, Prod.mk.injEq] at h
  obtain ⟨rfl, rfl⟩ := h
  exact ⟨st, r2, r3, c3, g2, dl, h1, h2, h3, h4⟩

omit [Arith] [Arith.Lawful] in
theorem rmCoveredRuleset_sub {rs : Ruleset} {pos neg pos' neg' : Frame}
    (h : rmCoveredRuleset rs pos neg = .ok (pos', neg')) :
    pos'.rows.Sublist pos.rows ∧ neg'.rows.Sublist neg.rows ∧ pos'.cols = pos.cols ∧ neg'.cols = neg.cols := by
  unfold rmCoveredRuleset at h
  obtain ⟨p, hp, h⟩ := bind_ok_iff.mp h
  obtain ⟨n, hn, h⟩ := bind_ok_iff.mp h
  simp only [pure_eq_ok, Except.ok.injEq, Prod.mk.injEq] at h
  obtain ⟨rfl, rfl⟩ := h
  exact ⟨dropLabels_sublist, dropLabels_sublist, rfl, rfl⟩

omit [Arith.Lawful] in
theorem coverRemainingDf_ok {rules out : List (List Cond)} {cands' : List Cond} {pos neg : Frame} {g g' : R.G}
    (h : coverRemainingDf fuel R S cands hp rules pos neg g = .ok (out, cands', g')) :
    (out = rules ∧ cands' = cands) ∨ ∃ pos' neg' st, pos'.rows.Sublist pos.rows ∧ neg'.rows.Sublist neg.rows ∧
      pos'.cols = pos.cols ∧ neg'.cols = neg.cols ∧
      cands' = updatedConds S (if rules = [] then none else some cands) pos' neg' ∧
      ripperGrow fuel R cands' hp rules pos' neg' g = .ok st ∧ out = st.rules := by
  unfold coverRemainingDf at h
  obtain ⟨⟨pos', neg'⟩, hrm, h⟩ := bind_ok_iff.mp h
  obtain ⟨s1, s2, s3, s4⟩ := rmCoveredRuleset_sub hrm
  simp only at h
  split at h
  · obtain ⟨st, h1, h⟩ := bind_ok_iff.mp h
    simp only [pure_eq_ok, Except.ok.injEq, Prod.mk.injEq] at h
    obtain ⟨rfl, rfl, _⟩ := h
    exact Or.inr ⟨pos', neg', st, s1, s2, s3, s4, rfl, h1, rfl⟩
  · simp only [pure_eq_ok, Except.ok.injEq, Prod.mk.injEq] at h
    exact Or.inl ⟨h.1.symm, h.2.1.symm⟩

/-- What holds of rules built from the first candidates and from any later ones holds of the result. -/
theorem ClosedOn.stages {P : List Cond → Prop} {old : Option (List Cond)}
    {init out : List (List Cond)} {pos neg : Frame} {g g' : R.G}
    (hP : ClosedOn (updatedConds S old pos neg) P)
    (hP' : ∀ pos' neg' : Frame, pos'.rows.Sublist pos.rows → neg'.rows.Sublist neg.rows → pos'.cols = pos.cols →
      neg'.cols = neg.cols → ∀ o, (o = none ∨ o = some (updatedConds S old pos neg)) →
      ClosedOn (updatedConds S o pos' neg') P)
    (h : ripperStagesDf fuel R S hp old init pos neg g = .ok (out, g')) (hi : ∀ r ∈ init, P r) :
    ∀ r ∈ out, P r := by
  obtain ⟨st, r2, r3, c3, g2, dl, hs⟩ := ripperStagesDf_ok h
  have h1 := hP.ripperGrow hs.grow hi
  have h2 : ∀ r ∈ r2, P r := stage2Df_spec (P := fun rules => ∀ r ∈ rules, P r)
    (fun rules out g g' hr ho => hP.optimize ho hr) _ _ _ _ _ h1 hs.optimize
  have h3 : ∀ r ∈ r3, P r := by
    rcases coverRemainingDf_ok hs.cover with ⟨rfl, _⟩ | ⟨p', n', st, a1, a2, a3, a4, rfl, h, rfl⟩
    · exact h2
    · refine (hP' p' n' a1 a2 a3 a4 _ ?_).ripperGrow h h2
      split
      · exact Or.inl rfl
      · exact Or.inr rfl
  exact fun r hr => h3 r ((bestSubsetDf_sublist hs.simplify).subset hr)

omit [Arith.Lawful] in
theorem ripperStagesDf_maxRules {old : Option (List Cond)} {init out : List (List Cond)} {pos neg : Frame} {g g' : R.G}
    (h : ripperStagesDf fuel R S hp old init pos neg g = .ok (out, g')) {k : Int} (hk : hp.lim.maxRules = some k) :
    (out.length : Int) ≤ max k init.length := by
  obtain ⟨st, r2, r3, c3, g2, dl, hs⟩ := ripperStagesDf_ok h
  obtain ⟨s, hs1, he, _⟩ := ripperGrow_reach hs.grow
  have h1 : (st.rules.length : Int) ≤ max k init.length := by rw [he]; exact hs1.maxRules hk
  have h2 : (r2.length : Int) ≤ max k init.length :=
    stage2Df_spec (P := fun rules => (rules.length : Int) ≤ max k init.length)
      (fun rules out g g' hr ho => by
        obtain ⟨_, _, _, hl, _⟩ := optimizeDf_spec ho
        rw [hl]; exact hr) _ _ _ _ _ h1 hs.optimize
  have h3 : (r3.length : Int) ≤ max k init.length := by
    rcases coverRemainingDf_ok hs.cover with ⟨rfl, _⟩ | ⟨p', n', st, a1, a2, a3, a4, _, h, rfl⟩
    · exact h2
    · obtain ⟨s, hs1, he, _⟩ := ripperGrow_reach h
      have := hs1.maxRules hk
      rw [he]
      simp only at this
      omega
  have := (bestSubsetDf_sublist hs.simplify).length_le
  omega

/-! ### termination -/

theorem ripperStep_noDiv {st : FrameRipSt R} {B : Frame} (hB : ∀ row ∈ st.neg.rows, row ∈ B.rows)
    (hf : B.rows.length < fuel) : NoDiv (ripperStep fuel R cands hp allPos allNeg st) := by
  unfold ripperStep
  split
  · exact .pure _
  split
  · exact .pure _
  cases hps : hp.pruneSize with
  | none => simp [NoDiv]
  | some ps =>
    rcases hp1 : dfShuffledSplit R st.g st.pos (Arith.complement ps) hp.randomState with ⟨a, b, g1⟩
    rcases hp2 : dfShuffledSplit R g1 st.neg (Arith.complement ps) hp.randomState with ⟨c, d, g2⟩
    simp only [hp1, hp2]
    split
    · exact .pure _
    refine (growRule_noDiv (B := B) (fun row hr => hB row ((dfSplit_sub hp2).1 row hr)) hf).bind fun _ _ => ?_
    split
    · exact .pure _
    refine (pruneRule_noDiv (ripperGrowMetric_noDiv _ _) _).bind fun o _ => ?_
    cases o with
    | none => simp [NoDiv]
    | some p =>
      simp only
      exact (ruleTheory_noDiv _ _).bind fun _ _ => (exceptionsDf_noDiv _ _ _).bind fun _ _ =>
        (rmCoveredRule_noDiv _ _ _).bind fun _ _ => .pure _

theorem ripperStep_fuel {f f' : Nat} {st : FrameRipSt R} {B : Frame} (hB : ∀ row ∈ st.neg.rows, row ∈ B.rows)
    (hf : B.rows.length < f) (hf' : B.rows.length < f') :
    ripperStep f R cands hp allPos allNeg st = ripperStep f' R cands hp allPos allNeg st := by
  unfold ripperStep
  cases hps : hp.pruneSize with
  | none => rfl
  | some ps =>
    rcases hp1 : dfShuffledSplit R st.g st.pos (Arith.complement ps) hp.randomState with ⟨a, b, g1⟩
    rcases hp2 : dfShuffledSplit R g1 st.neg (Arith.complement ps) hp.randomState with ⟨c, d, g2⟩
    have := growRule_fuel (fuel := f) (fuel' := f') (cands := cands) (lim := hp.lim) (pos := a) (neg := c) (B := B)
      (init := []) (fun row hr => hB row ((dfSplit_sub hp2).1 row hr)) hf hf'
    simp only [hp1, hp2, this]

theorem ripperGrow_noDiv {init : List (List Cond)} {pos neg : Frame} {g : R.G}
    (hf : pos.rows.length < fuel ∧ neg.rows.length < fuel) :
    NoDiv (ripperGrow fuel R cands hp init pos neg g) := by
  unfold ripperGrow
  refine pyWhile_ne_error (I := fun s : FrameRipSt R => ∀ row ∈ s.neg.rows, row ∈ neg.rows)
    (m := fun s => s.pos.rows.length) ?_ ?_ fuel _ (fun _ h => h) hf.1
  · intro s s' hI hb
    obtain ⟨rule, ha⟩ := ripperStep_more hb
    exact ⟨fun row hr => hI row (ha.neg_sub.subset hr), ha.pos_lt⟩
  · intro s hI
    exact ripperStep_noDiv hI hf.2

theorem ripperGrow_fuel {f f' : Nat} {init : List (List Cond)} {pos neg : Frame} {g : R.G}
    (hf : pos.rows.length < f ∧ neg.rows.length < f) (hf' : pos.rows.length < f' ∧ neg.rows.length < f') :
    ripperGrow f R cands hp init pos neg g = ripperGrow f' R cands hp init pos neg g := by
  unfold ripperGrow
  refine pyWhile_stable (I := fun s : FrameRipSt R => ∀ row ∈ s.neg.rows, row ∈ neg.rows)
    (m := fun s => s.pos.rows.length) ?_ ?_ f f' _ (fun _ h => h) hf.1 hf'.1
  · intro s s' hI hb
    obtain ⟨rule, ha⟩ := ripperStep_more hb
    exact ⟨fun row hr => hI row (ha.neg_sub.subset hr), ha.pos_lt⟩
  · intro s hI
    exact ripperStep_fuel hI hf.2 hf'.2

theorem optimizeChoiceDf_noDiv {original : List (List Cond)} {odl : Rat} {i : Nat}
    {rule : List Cond} {a b c d B : Frame} (hB : ∀ row ∈ c.rows, row ∈ B.rows) (hf : B.rows.length < fuel) :
    NoDiv (optimizeChoiceDf fuel cands hp original odl i rule allPos allNeg a b c d) := by
  unfold optimizeChoiceDf
  have hg : ∀ lim init, NoDiv (growRule fuel cands lim a c init) := fun _ _ => growRule_noDiv hB hf
  have hm : ∀ r, NoDiv (rulesetAccuracy (iReplaced original i (some r)) b d) := fun r => rulesetAccuracy_noDiv _ _ _
  refine (hg _ _).bind fun _ _ => (pruneRuleOn_noDiv hm _ _ _).bind fun _ _ =>
    (hg _ _).bind fun _ _ => (pruneRuleOn_noDiv hm _ _ _).bind fun _ _ => ?_
  refine NoDiv.bind ?_ fun _ _ => NoDiv.bind ?_ fun _ _ => NoDiv.bind ?_ fun _ _ => ?_
  · split
    · exact .ok _
    · exact (bestSubsetDf_noDiv _ _ _ _).bind fun _ _ => .pure _
  · split
    · exact .ok _
    · exact (bestSubsetDf_noDiv _ _ _ _).bind fun _ _ => .pure _
  · simp [argmin, NoDiv]
  · split
    · exact .pure _
    · split
      · exact .pure _
      · simp [NoDiv]
    · split
      · exact .pure _
      · simp [NoDiv]

theorem optimizeChoiceDf_fuel {f f' : Nat} {original : List (List Cond)} {odl : Rat} {i : Nat}
    {rule : List Cond} {a b c d B : Frame} (hB : ∀ row ∈ c.rows, row ∈ B.rows) (hf : B.rows.length < f)
    (hf' : B.rows.length < f') :
    optimizeChoiceDf f cands hp original odl i rule allPos allNeg a b c d =
    optimizeChoiceDf f' cands hp original odl i rule allPos allNeg a b c d := by
  unfold optimizeChoiceDf
  have hg : ∀ lim init, growRule f cands lim a c init = growRule f' cands lim a c init :=
    fun _ _ => growRule_fuel hB hf hf'
  simp only [hg]

theorem optimizeLoopDf_noDiv {ps : Rat} {rs : Option Int}
    {original : List (List Cond)} {odl : Rat} {B : Frame} (hf : B.rows.length < fuel) :
    ∀ (rest : List (List Cond)) (i : Nat) (new : List (List Cond)) (pos neg : Frame) (g : R.G),
    (∀ row ∈ neg.rows, row ∈ B.rows) →
    NoDiv (optimizeLoopDf fuel R cands hp ps rs original odl allPos allNeg i rest new pos neg g) := by
  intro rest
  induction rest with
  | nil => intros; exact .ok _
  | cons rule rest ih =>
    intro i new pos neg g hB
    rw [optimizeLoopDf]
    rcases hp1 : dfShuffledSplit R g pos (Arith.complement ps) rs with ⟨a, b, g1⟩
    rcases hp2 : dfShuffledSplit R g1 neg (Arith.complement ps) rs with ⟨c, d, g2⟩
    simp only [hp1, hp2]
    split
    · exact .pure _
    split
    · exact .pure _
    refine (optimizeChoiceDf_noDiv (B := B) (fun row hr => hB row ((dfSplit_sub hp2).1 row hr)) hf).bind fun _ _ => ?_
    refine (rmCoveredRule_noDiv _ _ _).bind fun p hrm => ?_
    obtain ⟨pos', neg'⟩ := p
    obtain ⟨_, rfl, _⟩ := rmCoveredRule_ok hrm
    simp only
    split
    · exact .pure _
    · exact ih _ _ _ _ _ (fun row hr => hB row (dropLabels_sublist.subset hr))

theorem optimizeLoopDf_fuel {f f' : Nat} {ps : Rat} {rs : Option Int}
    {original : List (List Cond)} {odl : Rat} {B : Frame} (hf : B.rows.length < f) (hf' : B.rows.length < f') :
    ∀ (rest : List (List Cond)) (i : Nat) (new : List (List Cond)) (pos neg : Frame) (g : R.G),
    (∀ row ∈ neg.rows, row ∈ B.rows) →
    optimizeLoopDf f R cands hp ps rs original odl allPos allNeg i rest new pos neg g =
    optimizeLoopDf f' R cands hp ps rs original odl allPos allNeg i rest new pos neg g := by
  intro rest
  induction rest with
  | nil => intros; rfl
  | cons rule rest ih =>
    intro i new pos neg g hB
    rw [optimizeLoopDf, optimizeLoopDf]
    rcases hp1 : dfShuffledSplit R g pos (Arith.complement ps) rs with ⟨a, b, g1⟩
    rcases hp2 : dfShuffledSplit R g1 neg (Arith.complement ps) rs with ⟨c, d, g2⟩
    simp only [hp1, hp2]
    rw [optimizeChoiceDf_fuel (f := f) (f' := f') (B := B) (fun row hr => hB row ((dfSplit_sub hp2).1 row hr)) hf hf']
    split
    · rfl
    split
    · rfl
    congr 1
    funext best
    cases hrm : rmCoveredRule rule pos neg with
    | error e => rfl
    | ok p =>
      obtain ⟨pos', neg'⟩ := p
      obtain ⟨_, rfl, _⟩ := rmCoveredRule_ok hrm
      simp only [ok_bind]
      split
      · rfl
      · exact ih _ _ _ _ _ (fun row hr => hB row (dropLabels_sublist.subset hr))

theorem optimizeDf_noDiv {rs : Option Int} {rules : List (List Cond)} {g : R.G} (hf : allNeg.rows.length < fuel) :
    NoDiv (optimizeDf fuel R cands hp rs rules allPos allNeg g) := by
  unfold optimizeDf
  refine (bestSubsetDf_noDiv _ _ _ _).bind fun _ _ => ?_
  simp only
  split
  · split
    · exact .pure _
    · simp [NoDiv]
  · exact optimizeLoopDf_noDiv hf _ _ _ _ _ _ (fun _ h => h)

theorem optimizeDf_fuel {f f' : Nat} {rs : Option Int} {rules : List (List Cond)} {g : R.G}
    (hf : allNeg.rows.length < f) (hf' : allNeg.rows.length < f') :
    optimizeDf f R cands hp rs rules allPos allNeg g = optimizeDf f' R cands hp rs rules allPos allNeg g := by
  unfold optimizeDf
  congr 1
  funext x
  obtain ⟨mdl, odl⟩ := x
  cases hp.pruneSize with
  | none => rfl
  | some ps => exact optimizeLoopDf_fuel hf hf' rules 0 rules allPos allNeg g (fun _ h => h)

theorem stage2Df_noDiv (hf : allNeg.rows.length < fuel) :
    ∀ (n : Nat) (rules : List (List Cond)) (g : R.G), NoDiv (stage2Df fuel R cands hp allPos allNeg n rules g) := by
  intro n
  induction n with
  | zero => intros; exact .ok _
  | succ n ih =>
    intro rules g
    rw [stage2Df]
    refine (optimizeDf_noDiv hf).bind fun _ _ => ?_
    simp only
    split
    · exact .pure _
    · exact ih _ _

theorem stage2Df_fuel {f f' : Nat} (hf : allNeg.rows.length < f) (hf' : allNeg.rows.length < f') :
    ∀ (n : Nat) (rules : List (List Cond)) (g : R.G),
    stage2Df f R cands hp allPos allNeg n rules g = stage2Df f' R cands hp allPos allNeg n rules g := by
  intro n
  induction n with
  | zero => intros; rfl
  | succ n ih =>
    intro rules g
    rw [stage2Df, stage2Df, optimizeDf_fuel hf hf']
    simp only [ih]

theorem coverRemainingDf_noDiv {rules : List (List Cond)} {pos neg : Frame} {g : R.G}
    (hf : pos.rows.length < fuel ∧ neg.rows.length < fuel) :
    NoDiv (coverRemainingDf fuel R S cands hp rules pos neg g) := by
  unfold coverRemainingDf
  refine (rmCoveredRuleset_noDiv _ _ _).bind fun p hrm => ?_
  obtain ⟨pos', neg'⟩ := p
  obtain ⟨s1, s2, _⟩ := rmCoveredRuleset_sub hrm
  simp only
  split
  · exact (ripperGrow_noDiv ⟨lt_of_le_of_lt s1.length_le hf.1, lt_of_le_of_lt s2.length_le hf.2⟩).bind
      fun _ _ => .pure _
  · exact .pure _

theorem coverRemainingDf_fuel {f f' : Nat} {rules : List (List Cond)} {pos neg : Frame} {g : R.G}
    (hf : pos.rows.length < f ∧ neg.rows.length < f) (hf' : pos.rows.length < f' ∧ neg.rows.length < f') :
    coverRemainingDf f R S cands hp rules pos neg g = coverRemainingDf f' R S cands hp rules pos neg g := by
  unfold coverRemainingDf
  cases hrm : rmCoveredRuleset { rules := rules.map (fun c => ({ conds := c } : Rule)) } pos neg with
  | error e => rfl
  | ok p =>
    obtain ⟨pos', neg'⟩ := p
    obtain ⟨s1, s2, _⟩ := rmCoveredRuleset_sub hrm
    have l1 := s1.length_le
    have l2 := s2.length_le
    simp only [ok_bind]
    rw [ripperGrow_fuel (f := f) (f' := f') ⟨by omega, by omega⟩ ⟨by omega, by omega⟩]

theorem ripperStagesDf_noDiv {old : Option (List Cond)} {init : List (List Cond)}
    {pos neg : Frame} {g : R.G} (hf : pos.rows.length < fuel ∧ neg.rows.length < fuel) :
    NoDiv (ripperStagesDf fuel R S hp old init pos neg g) := by
  unfold ripperStagesDf
  exact (ripperGrow_noDiv hf).bind fun _ _ => (stage2Df_noDiv hf.2 _ _ _).bind fun _ _ =>
    (coverRemainingDf_noDiv hf).bind fun _ _ => (bestSubsetDf_noDiv _ _ _ _).bind fun _ _ => .pure _

theorem ripperStagesDf_fuel {f f' : Nat} {old : Option (List Cond)} {init : List (List Cond)}
    {pos neg : Frame} {g : R.G} (hf : pos.rows.length < f ∧ neg.rows.length < f)
    (hf' : pos.rows.length < f' ∧ neg.rows.length < f') :
    ripperStagesDf f R S hp old init pos neg g = ripperStagesDf f' R S hp old init pos neg g := by
  unfold ripperStagesDf
  simp only [ripperGrow_fuel hf hf', stage2Df_fuel hf.2 hf'.2, fun c r g => coverRemainingDf_fuel (R := R) (S := S)
    (cands := c) (hp := hp) (rules := r) (g := g) hf hf']

/-! ### fit -/

omit [Arith.Lawful] in
theorem ripperFitPlain_ok {old : Option (List Cond)} {init : List (List Cond)} {df : Frame}
    {cf : Feat} {pc : Val} {g g' : R.G} {m : Fitted} (h : ripperFitPlain fuel R S hp old init df cf pc g = .ok (m, g')) :
    df.rows ≠ [] ∧ cf ∈ df.cols ∧ ∃ rules,
      ripperStagesDf fuel R S hp old init (posExamples df cf pc) (negExamples df cf pc) g = .ok (rules, g') ∧
      m.ruleset.rules.map Rule.conds = finish hp.lim.maxTotalConds rules ∧
      m.selected = Ruleset.selectedFeatures { rules := rules.map (fun c => { conds := c }) } ∧
      m.trainFeats = (df.dropCol cf).cols ∧
      (∃ rs0 : Ruleset, rs0.rules.map Rule.conds = finish hp.lim.maxTotalConds rules ∧
        recalibrate rs0 df cf pc hp.alpha = (m.ruleset, none)) := by
  unfold ripperFitPlain at h
  split at h
  · simp at h
  rename_i hne
  split at h
  · simp at h
  rename_i hcf
  obtain ⟨⟨rules, g1⟩, hs, h⟩ := bind_ok_iff.mp h
  simp only at h
  refine ⟨hne, by simpa using hcf, rules, ?_⟩
  generalize hrs0 : Ruleset.trimConds { rules := removeDups Rule.sameKey (rules.map (fun c => ({ conds := c } : Rule))) }
    hp.lim.maxTotalConds = rs0 at h
  have hc := recalibrate_conds rs0 df cf pc hp.alpha
  rcases hr : recalibrate rs0 df cf pc hp.alpha with ⟨rs1, o⟩
  rw [hr] at h hc
  cases o with
  | some e => simp [raiseIf] at h
  | none =>
    simp only [raiseIf, ok_bind, pure_eq_ok, Except.ok.injEq, Prod.mk.injEq] at h
    obtain ⟨hm, hg'⟩ := h
    subst hm
    have hid : List.map (Rule.conds ∘ fun c => ({ conds := c } : Rule)) rules = rules := by
      simp [Function.comp_def]
    have h0 : rs0.rules.map Rule.conds = finish hp.lim.maxTotalConds rules := by
      rw [← hrs0]
      simp only [Ruleset.trimConds, trimRules_conds, removeDups_conds, List.map_map, hid]
      rfl
    refine ⟨by rw [hs, hg'], ?_, rfl, rfl, rs0, h0, hr⟩
    simp only at hc ⊢
    rw [hc, h0]

end Witt
