import Verif.Lemmas.PlainIrep
import Verif.Lemmas.GrowDf
/-
Training over DataFrames and over the coverage index agree when they are given the same candidate conditions.
-/
namespace Witt
open Spec
variable [Arith] [Arith.Lawful]

/-- The index with other candidate conditions. -/
def CatNap.withConds (cn : CatNap) (cands : List Cond) : CatNap := { cn with conds := cands }

section
variable {df : Frame} {cf : Feat} {cn : CatNap} {cands : List Cond}

theorem bestSuccessor_cands (hb : CatNap.build df cf = .ok cn) (hu : df.UniqueIndex)
    (hc : OverCols df cf cands) {pos neg : Frame} (hp : SameData df cf pos) (hn : SameData df cf neg)
    {r : List Cond} (hr : OverCols df cf r) :
    bestSuccessor r cands pos neg = .ok (bestRuleSuccessorCn (cn.withConds cands) r pos.index neg.index) := by
  have hw := CatNap.build_WF hb
  unfold bestSuccessor successors
  have hs : ∀ s ∈ (cands.filter (fun c => !condIn c r)).map (fun c => r ++ [c]),
      gainDf r s pos neg = .ok (Arith.gain (cn.ruleCovers r (some pos.index)).length
        (cn.ruleCovers r (some neg.index)).length (cn.ruleCovers s (some pos.index)).length
        (cn.ruleCovers s (some neg.index)).length) := by
    intro s hs
    obtain ⟨c, hcm, rfl⟩ := List.mem_map.mp hs
    have hcm := (List.mem_filter.mp hcm).1
    have hrc : OverCols df cf (r ++ [c]) := overCols_append.mpr
      ⟨hr, by intro x hx; simp at hx; subst hx; exact hc x hcm⟩
    unfold gainDf
    rw [numCoveredC_eq hb hu hp hr, numCoveredC_eq hb hu hn hr, numCoveredC_eq hb hu hp hrc,
      numCoveredC_eq hb hu hn hrc]
    rfl
  rw [bestLoopM_ok _ _ hs]
  simp only [ok_bind, pure_eq_ok]
  congr 1
  have hm := bestLoop_map (fun c => r ++ [c])
    (fun s => Arith.gain (cn.ruleCovers r (some pos.index)).length
        (cn.ruleCovers r (some neg.index)).length (cn.ruleCovers s (some pos.index)).length
        (cn.ruleCovers s (some neg.index)).length)
    (cands.filter (fun c => !condIn c r)) none 1
  simp only [Option.map_none] at hm
  rw [hm]
  have hg : ∀ c, Arith.gain (cn.ruleCovers r (some pos.index)).length
        (cn.ruleCovers r (some neg.index)).length (cn.ruleCovers (r ++ [c]) (some pos.index)).length
        (cn.ruleCovers (r ++ [c]) (some neg.index)).length = stepGain cn pos.index neg.index r c :=
    fun c => rfl
  simp only [hg]
  rw [bestLoop_filter _ _ _ _ _ (le_refl _) (fun c _ hc => by
    rw [stepGain_present hb (by simpa using hc)]), bestLoop_start _ _ none 0 (by norm_num)]
  have hbr : bestRuleSuccessorCn (cn.withConds cands) r pos.index neg.index =
      match bestLoop (fun c => stepGain cn pos.index neg.index r c) (none, 0) cands with
      | (some c, g) => if 1 < g then some (r ++ [c]) else none
      | (none, _) => none := by
    unfold bestRuleSuccessorCn
    have : ∀ c, gainCn (cn.withConds cands) c ((cn.withConds cands).ruleCovers r (some pos.index))
        ((cn.withConds cands).ruleCovers r (some neg.index)) = stepGain cn pos.index neg.index r c :=
      fun c => gainCn_eq hw _ _ _ _
    simp only [this]
    rfl
  rw [hbr]
  rcases bestLoop_spec (fun c => stepGain cn pos.index neg.index r c) cands none 0 with
    ⟨h1, h2⟩ | ⟨pre, c, post, h0, h1, h2, h3, h4⟩
  · rw [h1]
    have : ¬ (1 : Rat) < 0 := by norm_num
    simp [this]
  · rw [h1]
    simp only
    by_cases hg : 1 < stepGain cn pos.index neg.index r c
    · simp [hg]
    · simp [hg]

theorem growStep_cands (hb : CatNap.build df cf = .ok cn) (hu : df.UniqueIndex)
    (hc : OverCols df cf cands) {pos neg : Frame} (hp : SameData df cf pos) (hn : SameData df cf neg)
    (lim : Limits) {r : List Cond} (hr : OverCols df cf r) :
    growStep cands lim pos neg r = growStepCn (cn.withConds cands) lim pos.index neg.index r := by
  unfold growStep growStepCn
  rw [numCoveredC_eq hb hu hn hr, numCoveredC_eq hb hu hp hr]
  have e : ∀ r s, (cn.withConds cands).ruleCovers r s = cn.ruleCovers r s := fun _ _ => rfl
  simp only [ok_bind, pure_eq_ok, e]
  by_cases h0 : (cn.ruleCovers r (some neg.index)).length = 0
  · simp [h0]
  · simp only [h0, if_false]
    have hpos : ∀ (m : Option Int), (if m.isSome = true then
        (Except.ok (cn.ruleCovers r (some pos.index)).length : Except PyErr Nat) else Except.ok 0) =
        .ok (if m.isSome = true then (cn.ruleCovers r (some pos.index)).length else 0) := by
      intro m; cases m <;> rfl
    rw [hpos]
    simp only [ok_bind]
    have hh : userHalt lim r (cn.ruleCovers r (some neg.index)).length
        (if lim.minRuleSamples.isSome = true then (cn.ruleCovers r (some pos.index)).length else 0) =
        userHalt lim r (cn.ruleCovers r (some neg.index)).length
          (cn.ruleCovers r (some pos.index)).length := by
      unfold userHalt
      cases lim.minRuleSamples <;> simp [below]
    rw [hh]
    split
    · rfl
    · rw [bestSuccessor_cands hb hu hc hp hn hr]
      simp only [ok_bind]

theorem growRule_cands (hb : CatNap.build df cf = .ok cn) (hu : df.UniqueIndex)
    (hc : OverCols df cf cands) {pos neg : Frame} (hp : SameData df cf pos) (hn : SameData df cf neg)
    (lim : Limits) (fuel : Nat) {init : List Cond} (hi : OverCols df cf init) :
    growRule fuel cands lim pos neg init = growRuleCn fuel (cn.withConds cands) lim pos.index neg.index init := by
  unfold growRule growRuleCn
  have : ∀ (n : Nat) (r : List Cond), OverCols df cf r →
      pyWhile (growStep cands lim pos neg) n r =
        pyWhile (growStepCn (cn.withConds cands) lim pos.index neg.index) n r := by
    intro n
    induction n with
    | zero => intro r _; rfl
    | succ n ih =>
      intro r hr
      rw [pyWhile_succ, pyWhile_succ, ← growStep_cands hb hu hc hp hn lim hr]
      cases hs : growStep cands lim pos neg r with
      | error e => rfl
      | ok o =>
        cases o with
        | done a => rfl
        | more r' =>
          refine ih r' ?_
          obtain ⟨⟨c, rfl, hus⟩, _⟩ := growStep_more hs
          exact overCols_append.mpr ⟨hr, by intro x hx; simp at hx; subst hx; exact hc x hus.mem⟩
  exact this fuel init hi

/-! ### splits and removal -/

omit [Arith] [Arith.Lawful] in
theorem loc_index {d : Frame} (hd : d.UniqueIndex) : ∀ {ls : List Label}, (∀ l ∈ ls, l ∈ d.index) → (d.loc ls).index = ls := by
  intro ls h
  unfold Frame.loc Frame.index
  simp only [List.map_flatMap]
  induction ls with
  | nil => rfl
  | cons l ls ih =>
    rw [List.flatMap_cons, ih (fun x hx => h x (by simp [hx]))]
    obtain ⟨row, hrow, rfl⟩ := List.mem_map.mp (h l (by simp))
    rw [filter_label_singleton hd hrow]
    rfl

omit [Arith] [Arith.Lawful] in
theorem loc_sameData {d : Frame} {ls : List Label} (h : SameData df cf d) : SameData df cf (d.loc ls) :=
  ⟨fun row hr => h.rows row (loc_rows row hr), h.cols⟩

omit [Arith] [Arith.Lawful] in
theorem dropLabels_sameData {d : Frame} {ls : List Label} (h : SameData df cf d) : SameData df cf (d.dropLabels ls) :=
  ⟨fun row hr => h.rows row (dropLabels_sublist.subset hr), h.cols⟩

omit [Arith] [Arith.Lawful] in
theorem dropLabels_unique {d : Frame} {ls : List Label} (h : d.UniqueIndex) : (d.dropLabels ls).UniqueIndex := by
  unfold Frame.UniqueIndex Frame.index at *
  exact h.sublist (dropLabels_sublist.map _)

omit [Arith] [Arith.Lawful] in
theorem dropLabels_index {d : Frame} {ls : List Label} : (d.dropLabels ls).index = setDiff d.index ls := by
  unfold Frame.dropLabels Frame.keep Frame.index setDiff
  rw [List.filter_map]
  rfl

omit [Arith] [Arith.Lawful] in
theorem hitLabels_eq (hb : CatNap.build df cf = .ok cn) (hu : df.UniqueIndex) {d : Frame} (hd : SameData df cf d)
    {r : List Cond} (hr : OverCols df cf r) : hitLabels r d = cn.ruleCovers r (some d.index) := by
  rw [CatNap.ruleCovers_some]
  unfold hitLabels Frame.keep Frame.index
  rw [List.filter_map]
  simp only
  congr 1
  apply List.filter_congr
  intro row hrow
  rw [Bool.eq_iff_iff, condsMet_iff]
  simp only [Function.comp]
  rw [CatNap.hit_iff hb hu hr]
  constructor
  · intro h; exact ⟨row, hd.rows row hrow, rfl, h⟩
  · rintro ⟨row', h1, h2, h3⟩
    rwa [row_eq_of_label hu h1 (hd.rows row hrow) h2] at h3

/-! ### IREP -/

/-- The state of the index-based loop that corresponds to a state of the DataFrame loop. -/
def FrameSt.labels {R : PyRandom} (st : FrameSt R) : GrowSt R :=
  { rules := st.rules, pos := st.pos.index, neg := st.neg.index, g := st.g }

/-- What the correspondence needs. -/
structure FrameSt.Fits {R : PyRandom} (df : Frame) (cf : Feat) (st : FrameSt R) : Prop where
  pos : SameData df cf st.pos
  neg : SameData df cf st.neg
  posU : st.pos.UniqueIndex
  negU : st.neg.UniqueIndex

/-- Map a step. -/
def Step.both {S S' A A' : Type} (f : S → S') (h : A → A') : Step S A → Step S' A'
  | .more s => .more (f s)
  | .done a => .done (h a)

omit [Arith.Lawful] in
theorem dfSplit_labels {R : PyRandom} (hR : R.Lawful) {g g' : R.G} {d a b : Frame} {q : Rat} {rs : Option Int}
    (hd : d.UniqueIndex) (h : dfShuffledSplit R g d q rs = (a, b, g')) :
    randomSplit R g d.index q rs = (a.index, b.index, g') ∧ ∀ {df cf}, SameData df cf d → SameData df cf a ∧ SameData df cf b := by
  unfold dfShuffledSplit at h
  rcases hr : randomSplit R g d.index q rs with ⟨x, y, z⟩
  rw [hr] at h
  simp only [Prod.mk.injEq] at h
  obtain ⟨rfl, rfl, rfl⟩ := h
  have hmem := randomSplit_mem hR g d.index q rs
  rw [hr] at hmem
  simp only at hmem
  rw [loc_index hd (fun l hl => (hmem l).mpr (Or.inl hl)), loc_index hd (fun l hl => (hmem l).mpr (Or.inr hl))]
  exact ⟨rfl, fun hs => ⟨loc_sameData hs, loc_sameData hs⟩⟩

omit [Arith.Lawful] in
theorem irepMetric_eq (hb : CatNap.build df cf = .ok cn) (hu : df.UniqueIndex) {pos neg : Frame}
    (hp : SameData df cf pos) (hn : SameData df cf neg) {r : List Cond} (hr : OverCols df cf r) :
    irepMetric pos neg r = irepMetricCn (cn.withConds cands) pos.index neg.index r := by
  unfold irepMetric irepMetricCn
  rw [numCoveredC_eq hb hu hp hr, numCoveredC_eq hb hu hn hr]
  have e : ∀ r s, (cn.withConds cands).ruleCovers r s = cn.ruleCovers r s := fun _ _ => rfl
  simp only [ok_bind, e, Frame.index, List.length_map]
  rfl

omit [Arith.Lawful] in
theorem precisionDf_eq (hb : CatNap.build df cf = .ok cn) (hu : df.UniqueIndex) {pos neg : Frame}
    (hp : SameData df cf pos) (hn : SameData df cf neg) {r : List Cond} (hr : OverCols df cf r) :
    precisionDf r pos neg = .ok (rulePrecisionCn (cn.withConds cands) r pos.index neg.index) := by
  unfold precisionDf rulePrecisionCn
  rw [numCoveredC_eq hb hu hp hr, numCoveredC_eq hb hu hn hr]
  have e : ∀ r s, (cn.withConds cands).ruleCovers r s = cn.ruleCovers r s := fun _ _ => rfl
  simp only [ok_bind, e, pure_eq_ok]
  split <;> rfl

omit [Arith] [Arith.Lawful] in
theorem pruneLoop_congr {m m' : List Cond → Except PyErr (Option Rat)} {rule : List Cond}
    (h : ∀ n, m (rule.take n) = m' (rule.take n)) : ∀ n best, pruneLoop m rule n best = pruneLoop m' rule n best := by
  intro n
  induction n with
  | zero => intro best; rfl
  | succ n ih =>
    intro best
    rw [pruneLoop, pruneLoop, h]
    congr 1
    funext o
    cases o with
    | none => rfl
    | some v => exact ih _

omit [Arith] [Arith.Lawful] in
theorem pruneRule_congr {m m' : List Cond → Except PyErr (Option Rat)} {rule : List Cond}
    (h : ∀ n, m (rule.take n) = m' (rule.take n)) : pruneRule m rule = pruneRule m' rule := by
  unfold pruneRule
  split
  · rfl
  · exact pruneLoop_congr h _ _

theorem irepStep_cands {R : PyRandom} (hR : R.Lawful) (hb : CatNap.build df cf = .ok cn) (hu : df.UniqueIndex)
    (hc : OverCols df cf cands) (fuel : Nat) (hp : Hyper) (st : FrameSt R) (hst : st.Fits df cf) :
    (irepStep fuel R cands hp st).map (Step.both FrameSt.labels FrameSt.labels) =
      irepStepCn fuel R (cn.withConds cands) hp st.labels := by
  unfold irepStep irepStepCn
  have hnil : (st.labels.pos = []) = (st.pos.rows = []) := by
    simp only [FrameSt.labels, Frame.index, List.map_eq_nil_iff]
  have hl1 : st.labels.pos.length = st.pos.rows.length := by simp [FrameSt.labels, Frame.index]
  have hl2 : st.labels.neg.length = st.neg.rows.length := by simp [FrameSt.labels, Frame.index]
  simp only [hnil, hl1, hl2]
  have hrules : st.labels.rules = st.rules := rfl
  rw [hrules]
  by_cases h1 : st.pos.rows = []
  · simp only [h1, if_true]; rfl
  simp only [h1, if_false]
  by_cases h2 : stopEarly hp.lim st.rules st.pos.rows.length st.neg.rows.length = true
  · simp only [h2, if_true]; rfl
  simp only [h2, Bool.false_eq_true, if_false]
  rcases hp1 : dfShuffledSplit R st.g st.pos (Arith.complement hp.irepPrune) hp.randomState with ⟨a, b, g1⟩
  rcases hp2 : dfShuffledSplit R g1 st.neg (Arith.complement hp.irepPrune) hp.randomState with ⟨c, d, g2⟩
  obtain ⟨e1, s1⟩ := dfSplit_labels hR hst.posU hp1
  obtain ⟨e2, s2⟩ := dfSplit_labels hR hst.negU hp2
  obtain ⟨sa, sb⟩ := s1 hst.pos
  obtain ⟨sc, sd⟩ := s2 hst.neg
  have e1' : randomSplit R st.labels.g st.labels.pos (Arith.complement hp.irepPrune) hp.randomState = (a.index, b.index, g1) := e1
  have e2' : randomSplit R g1 st.labels.neg (Arith.complement hp.irepPrune) hp.randomState = (c.index, d.index, g2) := e2
  simp only [hp2, e1', e2']
  have h0 : OverCols df cf [] := by intro c hc; simp at hc
  rw [growRule_cands hb hu hc sa sc hp.lim fuel h0]
  cases hg : growRuleCn fuel (cn.withConds cands) hp.lim a.index c.index [] with
  | error e => rfl
  | ok grown =>
    have hov : OverCols df cf grown := by
      rw [← growRule_cands hb hu hc sa sc hp.lim fuel h0] at hg
      have hcl : ClosedOn cands (fun r => OverCols df cf r) := by
        refine ⟨h0, ?_, fun r s hr hs c hc => hr c (hs.subset hc)⟩
        intro p n r x hr hus
        exact overCols_append.mpr ⟨hr, by intro y hy; simp at hy; subst hy; exact hc y hus.mem⟩
      exact hcl.grow hcl.nil hg
    have hcov : ∀ {r : List Cond} {x : Frame}, OverCols df cf r → SameData df cf x →
        condsCover r x = .ok (x.keep (condsMet r)) := fun hr hx =>
      condsCover_ok (fun c hc => hx.cols _ (hr c hc).1 (hr c hc).2)
    have hhit : ∀ {r : List Cond} {x : Frame}, OverCols df cf r → SameData df cf x →
        (x.keep (condsMet r)).index = cn.ruleCovers r (some x.index) := fun hr hx => hitLabels_eq hb hu hx hr
    simp only [ok_bind]
    by_cases hz : hp.irepPrune = 0
    · simp only [hz, if_true]
      rw [hcov hov hst.pos]
      simp only [ok_bind, pure_eq_ok, Except.map, Step.both, FrameSt.labels, dropLabels_index, hhit hov hst.pos]
      rfl
    · simp only [hz, if_false]
      have hpre : ∀ n, OverCols df cf (grown.take n) := fun n c hc => hov c (List.mem_of_mem_take hc)
      rw [pruneRule_congr (fun n => irepMetric_eq (cands := cands) hb hu sb sd (hpre n))]
      cases hpr : pruneRule (irepMetricCn (cn.withConds cands) b.index d.index) grown with
      | error e => rfl
      | ok o =>
        cases o with
        | none => rfl
        | some pruned =>
          have hpo : OverCols df cf pruned := fun c hc => hov c ((pruneRule_prefix hpr).1.subset hc)
          simp only [ok_bind]
          rw [precisionDf_eq (cands := cands) hb hu sb sd hpo]
          simp only [ok_bind]
          cases rulePrecisionCn (cn.withConds cands) pruned b.index d.index with
          | none => rfl
          | some q =>
            simp only
            by_cases hq : q = 0 ∨ q < 1 / 2
            · simp only [hq, if_true]; rfl
            · simp only [hq, if_false]
              unfold rmCoveredRule
              rw [hcov hpo hst.pos, hcov hpo hst.neg]
              simp only [ok_bind, pure_eq_ok, Except.map, Step.both, FrameSt.labels, dropLabels_index, hhit hpo hst.pos,
                hhit hpo hst.neg]
              rfl

omit [Arith.Lawful] in
theorem FrameAdd.fits {R : PyRandom} {fuel : Nat} {hp : Hyper} {st st' : FrameSt R} {rule : List Cond}
    (h : FrameAdd fuel R cands hp st st' rule) (hs : st.Fits df cf) : st'.Fits df cf := by
  refine ⟨?_, ?_, ?_, ?_⟩
  · rw [h.pos]; exact dropLabels_sameData hs.pos
  · rcases h.neg with ⟨_, e⟩ | ⟨_, e⟩ <;> rw [e]
    · exact hs.neg
    · exact dropLabels_sameData hs.neg
  · rw [h.pos]; exact dropLabels_unique hs.posU
  · rcases h.neg with ⟨_, e⟩ | ⟨_, e⟩ <;> rw [e]
    · exact hs.negU
    · exact dropLabels_unique hs.negU

theorem irepGrow_cands {R : PyRandom} (hR : R.Lawful) (hb : CatNap.build df cf = .ok cn) (hu : df.UniqueIndex)
    (hc : OverCols df cf cands) (fuel : Nat) (hp : Hyper) (init : List (List Cond)) (pos neg : Frame) (g : R.G)
    (hst : FrameSt.Fits (R := R) df cf { rules := init, pos := pos, neg := neg, g := g }) :
    (irepGrow fuel R cands hp init pos neg g).map FrameSt.labels =
      irepGrowCn fuel R (cn.withConds cands) hp init pos.index neg.index g := by
  unfold irepGrow irepGrowCn
  have : ∀ (n : Nat) (st : FrameSt R), st.Fits df cf → (pyWhile (irepStep fuel R cands hp) n st).map FrameSt.labels =
      pyWhile (irepStepCn fuel R (cn.withConds cands) hp) n st.labels := by
    intro n
    induction n with
    | zero => intro st _; rfl
    | succ n ih =>
      intro st hs
      rw [pyWhile_succ, pyWhile_succ, ← irepStep_cands hR hb hu hc fuel hp st hs]
      cases h : irepStep fuel R cands hp st with
      | error e => rfl
      | ok o =>
        cases o with
        | done a => rfl
        | more st' =>
          obtain ⟨rule, ha⟩ := irepStep_more h
          exact ih st' (ha.fits hs)
  exact this fuel _ hst

end

end Witt
