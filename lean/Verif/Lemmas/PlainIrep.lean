import Verif.Lemmas.PlainGrow
import Verif.Lemmas.RipperFit
/-
IREP with `cn_optimize=False`: what one growing iteration does, termination, results of `fit`.
-/
namespace Witt
open Spec
variable [Arith] [Arith.Lawful]

variable {fuel : Nat} {R : PyRandom} {S : SetOps} {cands : List Cond} {hp : Hyper}

/-- The rows of `d` that satisfy `r`, by label. -/
def hitLabels (r : List Cond) (d : Frame) : List Label := (d.keep (condsMet r)).index

omit [Arith] [Arith.Lawful] in
theorem mem_hitLabels {r : List Cond} {d : Frame} {l : Label} :
    l ∈ hitLabels r d ↔ ∃ row ∈ d.rows, condsMet r row = true ∧ row.label = l := by
  unfold hitLabels Frame.index
  simp only [Frame.keep_rows, List.mem_map, List.mem_filter]
  constructor
  · rintro ⟨row, ⟨h1, h2⟩, h3⟩; exact ⟨row, h1, h2, h3⟩
  · rintro ⟨row, h1, h2, h3⟩; exact ⟨row, ⟨h1, h2⟩, h3⟩

omit [Arith] [Arith.Lawful] in
theorem rmCoveredRule_ok {r : List Cond} {pos neg pos' neg' : Frame} (h : rmCoveredRule r pos neg = .ok (pos', neg')) :
    pos' = pos.dropLabels (hitLabels r pos) ∧ neg' = neg.dropLabels (hitLabels r neg) ∧
    (∀ c ∈ r, c.feature ∈ pos.cols) ∧ ∀ c ∈ r, c.feature ∈ neg.cols := by
  unfold rmCoveredRule at h
  obtain ⟨p, hp, h⟩ := bind_ok_iff.mp h
  obtain ⟨n, hn, h⟩ := bind_ok_iff.mp h
  simp only [pure_eq_ok, Except.ok.injEq, Prod.mk.injEq] at h
  rcases condsCover_cases r pos with ⟨h1, h1'⟩ | ⟨h1, _⟩
  · rcases condsCover_cases r neg with ⟨h2, h2'⟩ | ⟨h2, _⟩
    · rw [h1] at hp; rw [h2] at hn
      injection hp with hp; injection hn with hn
      subst hp hn
      exact ⟨h.1.symm, h.2.symm, h1', h2'⟩
    · rw [h2] at hn; cases hn
  · rw [h1] at hp; cases hp

omit [Arith] [Arith.Lawful] in
theorem rmCoveredRule_noDiv (r : List Cond) (pos neg : Frame) : NoDiv (rmCoveredRule r pos neg) := by
  unfold rmCoveredRule
  exact (condsCover_noDiv _ _).bind fun _ _ => (condsCover_noDiv _ _).bind fun _ _ => .pure _

theorem precisionDf_some {r : List Cond} {pos neg : Frame} {q : Rat} (h : precisionDf r pos neg = .ok (some q))
    (hq : q ≠ 0) : ∃ row ∈ pos.rows, condsMet r row = true := by
  unfold precisionDf at h
  obtain ⟨p, hp, h⟩ := bind_ok_iff.mp h
  obtain ⟨n, hn, h⟩ := bind_ok_iff.mp h
  obtain ⟨rfl, _⟩ := numCoveredC_ok hp
  split at h
  · simp [pure_eq_ok] at h
  · rename_i hne
    simp only [pure_eq_ok, Except.ok.injEq, Option.some.injEq] at h
    refine rowHits_pos (Nat.one_le_iff_ne_zero.mpr ?_)
    intro h0
    rw [h0] at h hne
    exact hq (h.symm.trans (Arith.Lawful.quot_zero _ (by omega)))

omit [Arith.Lawful] in
theorem precisionDf_noDiv (r : List Cond) (pos neg : Frame) : NoDiv (precisionDf r pos neg) := by
  unfold precisionDf
  refine (numCoveredC_noDiv _ _).bind fun _ _ => (numCoveredC_noDiv _ _).bind fun _ _ => ?_
  split <;> exact .pure _

omit [Arith.Lawful] in
theorem irepMetric_noDiv (pos neg : Frame) (r : List Cond) : NoDiv (irepMetric pos neg r) := by
  unfold irepMetric
  refine (numCoveredC_noDiv _ _).bind fun _ _ => (numCoveredC_noDiv _ _).bind fun _ _ => ?_
  split
  · simp [NoDiv]
  · exact .pure _

omit [Arith] [Arith.Lawful] in
theorem pruneRule_noDiv {metric : List Cond → Except PyErr (Option Rat)} (hm : ∀ r, NoDiv (metric r))
    (rule : List Cond) : NoDiv (pruneRule metric rule) := by
  intro h
  obtain ⟨r, hr⟩ := pruneRule_error h
  exact hm r hr

/-- An iteration that adds `rule`, going from `st` to `st'`. -/
structure FrameAdd (fuel : Nat) (R : PyRandom) (cands : List Cond) (hp : Hyper) (st st' : FrameSt R)
    (rule : List Cond) : Prop where
  pos_ne : st.pos.rows ≠ []
  go : stopEarly hp.lim st.rules st.pos.rows.length st.neg.rows.length = false
  rules : st'.rules = st.rules ++ [rule]
  feats : ∀ c ∈ rule, c.feature ∈ st.pos.cols
  pos : st'.pos = st.pos.dropLabels (hitLabels rule st.pos)
  neg : (hp.irepPrune = 0 ∧ st'.neg = st.neg) ∨
    (hp.irepPrune ≠ 0 ∧ st'.neg = st.neg.dropLabels (hitLabels rule st.neg))
  how : ∃ (posGrow posPrune negGrow negPrune : Frame) (g1 : R.G) (grown : List Cond),
    dfShuffledSplit R st.g st.pos (Arith.complement hp.irepPrune) hp.randomState = (posGrow, posPrune, g1) ∧
    dfShuffledSplit R g1 st.neg (Arith.complement hp.irepPrune) hp.randomState = (negGrow, negPrune, st'.g) ∧
    growRule fuel cands hp.lim posGrow negGrow [] = .ok grown ∧
    ((hp.irepPrune = 0 ∧ rule = grown) ∨
     (hp.irepPrune ≠ 0 ∧ pruneRule (irepMetric posPrune negPrune) grown = .ok (some rule) ∧
      ∃ q, precisionDf rule posPrune negPrune = .ok (some q) ∧ q ≠ 0 ∧ 1 / 2 ≤ q))

omit [Arith.Lawful] in
theorem irepStep_more {st st' : FrameSt R} (h : irepStep fuel R cands hp st = .ok (.more st')) :
    ∃ rule, FrameAdd fuel R cands hp st st' rule := by
  unfold irepStep at h
  split at h
  · simp [pure_eq_ok] at h
  rename_i hne
  split at h
  · simp [pure_eq_ok] at h
  rename_i hs
  rcases hp1 : dfShuffledSplit R st.g st.pos (Arith.complement hp.irepPrune) hp.randomState with ⟨a, b, g1⟩
  rcases hp2 : dfShuffledSplit R g1 st.neg (Arith.complement hp.irepPrune) hp.randomState with ⟨c, d, g2⟩
  simp only [hp1, hp2] at h
  obtain ⟨grown, hg, h⟩ := bind_ok_iff.mp h
  split at h
  · rename_i hz
    obtain ⟨cov, hc, h⟩ := bind_ok_iff.mp h
    simp only [pure_eq_ok, Except.ok.injEq, Step.more.injEq] at h
    subst h
    rcases condsCover_cases grown st.pos with ⟨h1, h1'⟩ | ⟨h1, _⟩
    · rw [h1] at hc
      injection hc with hc
      subst hc
      exact ⟨grown, hne, by simpa using hs, rfl, h1', rfl, Or.inl ⟨hz, rfl⟩,
        ⟨a, b, c, d, g1, grown, hp1, hp2, hg, Or.inl ⟨hz, rfl⟩⟩⟩
    · rw [h1] at hc; cases hc
  · rename_i hz
    obtain ⟨o, hpr, h⟩ := bind_ok_iff.mp h
    cases o with
    | none => simp at h
    | some pruned =>
      simp only at h
      obtain ⟨q, hq, h⟩ := bind_ok_iff.mp h
      cases q with
      | none => simp [pure_eq_ok] at h
      | some q =>
        simp only at h
        split at h
        · simp [pure_eq_ok] at h
        · rename_i hq'
          push Not at hq'
          obtain ⟨⟨pos', neg'⟩, hrm, h⟩ := bind_ok_iff.mp h
          simp only [pure_eq_ok, Except.ok.injEq, Step.more.injEq] at h
          subst h
          obtain ⟨e1, e2, f1, _⟩ := rmCoveredRule_ok hrm
          exact ⟨pruned, hne, by simpa using hs, rfl, f1, e1, Or.inr ⟨hz, e2⟩,
            ⟨a, b, c, d, g1, grown, hp1, hp2, hg, Or.inr ⟨hz, hpr, q, hq, hq'.1, hq'.2⟩⟩⟩

omit [Arith.Lawful] in
theorem irepStep_done {st st' : FrameSt R} (h : irepStep fuel R cands hp st = .ok (.done st')) :
    st'.rules = st.rules ∧ st'.pos = st.pos ∧ st'.neg = st.neg ∧
    (st.pos.rows = [] ∨ stopEarly hp.lim st.rules st.pos.rows.length st.neg.rows.length = true ∨ hp.irepPrune ≠ 0) := by
  unfold irepStep at h
  split at h
  · rename_i hz
    simp only [pure_eq_ok, Except.ok.injEq, Step.done.injEq] at h
    subst h; exact ⟨rfl, rfl, rfl, Or.inl hz⟩
  split at h
  · rename_i hs
    simp only [pure_eq_ok, Except.ok.injEq, Step.done.injEq] at h
    subst h; exact ⟨rfl, rfl, rfl, Or.inr (Or.inl hs)⟩
  rcases hp1 : dfShuffledSplit R st.g st.pos (Arith.complement hp.irepPrune) hp.randomState with ⟨a, b, g1⟩
  rcases hp2 : dfShuffledSplit R g1 st.neg (Arith.complement hp.irepPrune) hp.randomState with ⟨c, d, g2⟩
  simp only [hp1, hp2] at h
  obtain ⟨grown, hg, h⟩ := bind_ok_iff.mp h
  split at h
  · obtain ⟨cov, hc, h⟩ := bind_ok_iff.mp h
    simp [pure_eq_ok] at h
  · rename_i hz
    obtain ⟨o, hpr, h⟩ := bind_ok_iff.mp h
    cases o with
    | none => simp at h
    | some pruned =>
      simp only at h
      obtain ⟨q, hq, h⟩ := bind_ok_iff.mp h
      cases q with
      | none =>
        simp only [pure_eq_ok, Except.ok.injEq, Step.done.injEq] at h
        subst h; exact ⟨rfl, rfl, rfl, Or.inr (Or.inr hz)⟩
      | some q =>
        simp only at h
        split at h
        · simp only [pure_eq_ok, Except.ok.injEq, Step.done.injEq] at h
          subst h; exact ⟨rfl, rfl, rfl, Or.inr (Or.inr hz)⟩
        · obtain ⟨⟨pos', neg'⟩, hrm, h⟩ := bind_ok_iff.mp h
          simp [pure_eq_ok] at h

/-- The added rule holds of one of the remaining positives. -/
theorem FrameAdd.covers (hR : R.Lawful) {st st' : FrameSt R} {rule : List Cond}
    (h : FrameAdd fuel R cands hp st st' rule) : ∃ row ∈ st.pos.rows, condsMet rule row = true := by
  obtain ⟨a, b, c, d, g1, grown, h1, h2, h3, h4⟩ := h.how
  obtain ⟨ha, hb, _⟩ := dfSplit_sub h1
  rcases h4 with ⟨hz, rfl⟩ | ⟨_, _, q, hq, hq0, _⟩
  · have hne : a.rows ≠ [] := by
      obtain ⟨row, hrow⟩ := List.exists_mem_of_ne_nil _ h.pos_ne
      rw [hz, Arith.Lawful.complement_zero] at h1
      exact List.ne_nil_of_mem (dfSplit_one hR h1 row hrow)
    obtain ⟨row, hrow, hm⟩ := growRule_covers_pos h3 hne
    exact ⟨row, ha row hrow, hm⟩
  · obtain ⟨row, hrow, hm⟩ := precisionDf_some hq hq0
    exact ⟨row, hb row hrow, hm⟩

theorem FrameAdd.pos_lt (hR : R.Lawful) {st st' : FrameSt R} {rule : List Cond}
    (h : FrameAdd fuel R cands hp st st' rule) : st'.pos.rows.length < st.pos.rows.length := by
  obtain ⟨row, hrow, hm⟩ := h.covers hR
  rw [h.pos]
  exact dropLabels_lt hrow (mem_hitLabels.mpr ⟨row, hrow, hm, rfl⟩)

omit [Arith.Lawful] in
theorem FrameAdd.pos_sub {st st' : FrameSt R} {rule : List Cond}
    (h : FrameAdd fuel R cands hp st st' rule) : st'.pos.rows.Sublist st.pos.rows := by
  rw [h.pos]; exact dropLabels_sublist

omit [Arith.Lawful] in
theorem FrameAdd.neg_sub {st st' : FrameSt R} {rule : List Cond}
    (h : FrameAdd fuel R cands hp st st' rule) : st'.neg.rows.Sublist st.neg.rows := by
  rcases h.neg with ⟨_, h⟩ | ⟨_, h⟩
  · rw [h]
  · rw [h]; exact dropLabels_sublist

omit [Arith.Lawful] in
theorem FrameAdd.grown {st st' : FrameSt R} {rule : List Cond}
    (h : FrameAdd fuel R cands hp st st' rule) :
    ∃ posGrow negGrow r, growRule fuel cands hp.lim posGrow negGrow [] = .ok r ∧ rule <+: r := by
  obtain ⟨a, b, c, d, g1, grown, h1, h2, h3, h4⟩ := h.how
  refine ⟨a, c, grown, h3, ?_⟩
  rcases h4 with ⟨_, rfl⟩ | ⟨_, h4, _⟩
  · exact List.prefix_rfl
  · exact (pruneRule_prefix h4).1

/-- States reachable by adding rules. -/
inductive FrameReach (fuel : Nat) (R : PyRandom) (cands : List Cond) (hp : Hyper) (st0 : FrameSt R) :
    FrameSt R → Prop where
  | start : FrameReach fuel R cands hp st0 st0
  | add {st st' rule} : FrameReach fuel R cands hp st0 st → FrameAdd fuel R cands hp st st' rule →
      FrameReach fuel R cands hp st0 st'

omit [Arith.Lawful] in
theorem FrameReach.pos_sub {st0 st : FrameSt R} (h : FrameReach fuel R cands hp st0 st) :
    st.pos.rows.Sublist st0.pos.rows := by
  induction h with
  | start => exact List.Sublist.refl _
  | add _ ha ih => exact ha.pos_sub.trans ih

omit [Arith.Lawful] in
theorem FrameReach.neg_sub {st0 st : FrameSt R} (h : FrameReach fuel R cands hp st0 st) :
    st.neg.rows.Sublist st0.neg.rows := by
  induction h with
  | start => exact List.Sublist.refl _
  | add _ ha ih => exact ha.neg_sub.trans ih

omit [Arith.Lawful] in
theorem FrameReach.prefix {st0 st : FrameSt R} (h : FrameReach fuel R cands hp st0 st) :
    st0.rules <+: st.rules := by
  induction h with
  | start => exact List.prefix_rfl
  | add _ ha ih => rw [ha.rules]; exact ih.trans (List.prefix_append _ _)

omit [Arith.Lawful] in
theorem FrameReach.rule {st0 st : FrameSt R} (h : FrameReach fuel R cands hp st0 st) :
    ∀ r ∈ st.rules, r ∈ st0.rules ∨
      ∃ s s', FrameReach fuel R cands hp st0 s ∧ FrameAdd fuel R cands hp s s' r := by
  induction h with
  | start => exact fun r h => Or.inl h
  | @add s s' rule hs ha ih =>
    intro r hr
    rw [ha.rules] at hr
    rcases List.mem_append.mp hr with hr | hr
    · exact ih r hr
    · simp at hr; subst hr; exact Or.inr ⟨_, _, hs, ha⟩

omit [Arith.Lawful] in
theorem FrameReach.maxRules {st0 st : FrameSt R} (h : FrameReach fuel R cands hp st0 st) {k : Int}
    (hk : hp.lim.maxRules = some k) : (st.rules.length : Int) ≤ max k st0.rules.length := by
  induction h with
  | start => omega
  | @add s s' r hs ha ih =>
    have hgo := ha.go
    unfold stopEarly at hgo
    simp only [Bool.or_eq_false_iff] at hgo
    have := atLeast_eq_false hgo.1.1 hk
    rw [ha.rules, List.length_append]
    simp only [List.length_cons, List.length_nil]
    push_cast
    omega

theorem FrameReach.count (hR : R.Lawful) {st0 st : FrameSt R} (h : FrameReach fuel R cands hp st0 st) :
    st.rules.length + st.pos.rows.length ≤ st0.rules.length + st0.pos.rows.length := by
  induction h with
  | start => exact le_refl _
  | add hs ha ih =>
    have := ha.pos_lt hR
    rw [ha.rules, List.length_append]
    simp only [List.length_cons, List.length_nil]
    omega

omit [Arith.Lawful] in
/-- Every initial positive row is still there, or satisfies a rule, or shares its label with a row that does. -/
theorem FrameReach.complete {st0 st : FrameSt R} (h : FrameReach fuel R cands hp st0 st) :
    ∀ row ∈ st0.pos.rows, row ∈ st.pos.rows ∨
      ∃ r ∈ st.rules, ∃ row' ∈ st0.pos.rows, row'.label = row.label ∧ condsMet r row' = true := by
  induction h with
  | start => exact fun row hrow => Or.inl hrow
  | @add s s' rule hs ha ih =>
    intro row hrow
    rcases ih row hrow with h | ⟨r, hr, x⟩
    · by_cases hl : row.label ∈ hitLabels rule s.pos
      · obtain ⟨row', h1, h2, h3⟩ := mem_hitLabels.mp hl
        exact Or.inr ⟨rule, by rw [ha.rules]; simp, row', hs.pos_sub.subset h1, h3, h2⟩
      · left
        rw [ha.pos]
        exact dropLabels_rows.mpr ⟨h, hl⟩
    · exact Or.inr ⟨r, by rw [ha.rules]; simp [hr], x⟩

omit [Arith.Lawful] in
theorem irepGrow_reach {init : List (List Cond)} {pos neg : Frame} {g : R.G} {st : FrameSt R}
    (h : irepGrow fuel R cands hp init pos neg g = .ok st) :
    ∃ s, FrameReach fuel R cands hp { rules := init, pos := pos, neg := neg, g := g } s ∧
      st.rules = s.rules ∧ st.pos = s.pos ∧ st.neg = s.neg ∧
      (s.pos.rows = [] ∨ stopEarly hp.lim s.rules s.pos.rows.length s.neg.rows.length = true ∨ hp.irepPrune ≠ 0) := by
  unfold irepGrow at h
  refine pyWhile_inv (I := fun s => FrameReach fuel R cands hp { rules := init, pos := pos, neg := neg, g := g } s)
    (Q := fun a => ∃ s, FrameReach fuel R cands hp { rules := init, pos := pos, neg := neg, g := g } s ∧
      a.rules = s.rules ∧ a.pos = s.pos ∧ a.neg = s.neg ∧
      (s.pos.rows = [] ∨ stopEarly hp.lim s.rules s.pos.rows.length s.neg.rows.length = true ∨ hp.irepPrune ≠ 0))
    ?_ ?_ fuel _ st .start h
  · intro s s' hI hb
    obtain ⟨rule, ha⟩ := irepStep_more hb
    exact .add hI ha
  · intro s a hI hb
    obtain ⟨h1, h2, h3, h4⟩ := irepStep_done hb
    exact ⟨s, hI, h1, h2, h3, h4⟩

theorem ClosedOn.irepGrow {P : List Cond → Prop} (hP : ClosedOn cands P)
    {init : List (List Cond)} {pos neg : Frame} {g : R.G} {st : FrameSt R}
    (h : Witt.irepGrow fuel R cands hp init pos neg g = .ok st) (hi : ∀ r ∈ init, P r) : ∀ r ∈ st.rules, P r := by
  obtain ⟨s, hs, h1, _⟩ := irepGrow_reach h
  intro r hr
  rw [h1] at hr
  rcases hs.rule r hr with h | ⟨_, _, _, ha⟩
  · exact hi r h
  · obtain ⟨a, b, r', h1, h2⟩ := ha.grown
    exact hP.pre _ _ (hP.grow hP.nil h1) h2

/-! ### termination -/

theorem irepStep_noDiv {st : FrameSt R} {B : Frame} (hB : ∀ row ∈ st.neg.rows, row ∈ B.rows)
    (hf : B.rows.length < fuel) : NoDiv (irepStep fuel R cands hp st) := by
  unfold irepStep
  split
  · exact .pure _
  split
  · exact .pure _
  rcases hp1 : dfShuffledSplit R st.g st.pos (Arith.complement hp.irepPrune) hp.randomState with ⟨a, b, g1⟩
  rcases hp2 : dfShuffledSplit R g1 st.neg (Arith.complement hp.irepPrune) hp.randomState with ⟨c, d, g2⟩
  simp only [hp1, hp2]
  refine (growRule_noDiv (B := B) (fun row hr => hB row ((dfSplit_sub hp2).1 row hr)) hf).bind fun _ _ => ?_
  split
  · exact (condsCover_noDiv _ _).bind fun _ _ => .pure _
  · refine (pruneRule_noDiv (irepMetric_noDiv _ _) _).bind fun o _ => ?_
    cases o with
    | none => simp [NoDiv]
    | some p =>
      simp only
      refine (precisionDf_noDiv _ _ _).bind fun q _ => ?_
      cases q with
      | none => exact .pure _
      | some q =>
        simp only
        split
        · exact .pure _
        · exact (rmCoveredRule_noDiv _ _ _).bind fun _ _ => .pure _

theorem irepStep_fuel {f f' : Nat} {st : FrameSt R} {B : Frame} (hB : ∀ row ∈ st.neg.rows, row ∈ B.rows)
    (hf : B.rows.length < f) (hf' : B.rows.length < f') :
    irepStep f R cands hp st = irepStep f' R cands hp st := by
  unfold irepStep
  rcases hp1 : dfShuffledSplit R st.g st.pos (Arith.complement hp.irepPrune) hp.randomState with ⟨a, b, g1⟩
  rcases hp2 : dfShuffledSplit R g1 st.neg (Arith.complement hp.irepPrune) hp.randomState with ⟨c, d, g2⟩
  have := growRule_fuel (fuel := f) (fuel' := f') (cands := cands) (lim := hp.lim) (pos := a) (neg := c) (B := B)
    (init := []) (fun row hr => hB row ((dfSplit_sub hp2).1 row hr)) hf hf'
  simp only [hp1, hp2, this]

theorem irepGrow_noDiv (hR : R.Lawful) {init : List (List Cond)} {pos neg : Frame} {g : R.G}
    (hf : pos.rows.length < fuel ∧ neg.rows.length < fuel) :
    NoDiv (irepGrow fuel R cands hp init pos neg g) := by
  unfold irepGrow
  refine pyWhile_ne_error (I := fun s : FrameSt R => ∀ row ∈ s.neg.rows, row ∈ neg.rows)
    (m := fun s => s.pos.rows.length) ?_ ?_ fuel _ (fun _ h => h) hf.1
  · intro s s' hI hb
    obtain ⟨rule, ha⟩ := irepStep_more hb
    exact ⟨fun row hr => hI row (ha.neg_sub.subset hr), ha.pos_lt hR⟩
  · intro s hI
    exact irepStep_noDiv hI hf.2

theorem irepGrow_fuel (hR : R.Lawful) {f f' : Nat} {init : List (List Cond)} {pos neg : Frame} {g : R.G}
    (hf : pos.rows.length < f ∧ neg.rows.length < f) (hf' : pos.rows.length < f' ∧ neg.rows.length < f') :
    irepGrow f R cands hp init pos neg g = irepGrow f' R cands hp init pos neg g := by
  unfold irepGrow
  refine pyWhile_stable (I := fun s : FrameSt R => ∀ row ∈ s.neg.rows, row ∈ neg.rows)
    (m := fun s => s.pos.rows.length) ?_ ?_ f f' _ (fun _ h => h) hf.1 hf'.1
  · intro s s' hI hb
    obtain ⟨rule, ha⟩ := irepStep_more hb
    exact ⟨fun row hr => hI row (ha.neg_sub.subset hr), ha.pos_lt hR⟩
  · intro s hI
    exact irepStep_fuel hI hf.2 hf'.2

/-! ### fit -/

omit [Arith.Lawful] in
theorem irepFitPlain_ok {old : Option (List Cond)} {init : List (List Cond)} {df : Frame}
    {cf : Feat} {pc : Val} {g g' : R.G} {m : Fitted} (h : irepFitPlain fuel R S hp old init df cf pc g = .ok (m, g')) :
    df.rows ≠ [] ∧ cf ∈ df.cols ∧ ∃ st,
      irepGrow fuel R (updatedConds S old (posExamples df cf pc) (negExamples df cf pc)) hp init
        (posExamples df cf pc) (negExamples df cf pc) g = .ok st ∧
      m.ruleset.rules.map Rule.conds = finish hp.lim.maxTotalConds st.rules ∧
      m.selected = Ruleset.selectedFeatures { rules := st.rules.map (fun c => { conds := c }) } ∧
      m.trainFeats = (df.dropCol cf).cols ∧
      (∃ rs1, recalibrate
          { rules := st.rules.map (fun c => { conds := c })
            possible := some (updatedConds S old (posExamples df cf pc) (negExamples df cf pc)) }
          df cf pc hp.alpha = (rs1, none) ∧ (∀ r ∈ m.ruleset.rules, r ∈ rs1.rules) ∧
          m.ruleset.uncov = rs1.uncov) ∧ g' = st.g := by
  unfold irepFitPlain at h
  split at h
  · simp at h
  rename_i hne
  split at h
  · simp at h
  rename_i hcf
  simp only at h
  obtain ⟨st, hg, h⟩ := bind_ok_iff.mp h
  generalize hrs0 : ({ rules := st.rules.map (fun c => ({ conds := c } : Rule)), possible := some (updatedConds S old (posExamples df cf pc) (negExamples df cf pc)) } : Ruleset) = rs0 at h
  have hc := recalibrate_conds rs0 df cf pc hp.alpha
  rcases hr : recalibrate rs0 df cf pc hp.alpha with ⟨rs1, o⟩
  rw [hr] at h hc
  cases o with
  | some e => simp [raiseIf] at h
  | none =>
    simp only [raiseIf, ok_bind, pure_eq_ok, Except.ok.injEq, Prod.mk.injEq] at h
    obtain ⟨hm, hg'⟩ := h
    subst hm hrs0
    have hid : List.map (Rule.conds ∘ fun c => ({ conds := c } : Rule)) st.rules = st.rules := by
      simp [Function.comp_def]
    refine ⟨hne, by simpa using hcf, st, hg, ?_, rfl, rfl, ⟨rs1, hr, ?_, rfl⟩, hg'.symm⟩
    · simp only [Ruleset.trimConds, trimRules_conds, removeDups_conds]
      simp only [List.map_map, hid] at hc
      rw [hc]; rfl
    · intro r hmem
      exact (removeDups_sublist (same := Rule.sameKey) rs1.rules).subset
        ((trimRules_prefix (size := fun r : Rule => r.conds.length) _ _).sublist.subset hmem)

end Witt
