import Verif.Lemmas.RecodeRip
import Verif.Lemmas.PlainRipper
/-
The same for training without the coverage index, provided that the order in which Python enumerates the shared values of a column does
not depend on the recoding.
-/
namespace Witt
open Spec
variable [Arith]
variable {φ : Recoding} {D : Cond → Prop}

namespace Spec
/-- The shared values of a column are enumerated in the same order before and after the recoding (trivial when the values stay as they
are). -/
def Recoding.KeepsOrder (φ : Recoding) (S : SetOps) : Prop :=
  ∀ f a b, S.inter (a.map (φ.val f)) (b.map (φ.val f)) = (S.inter a b).map (φ.val f)
end Spec

/-! ### growing and pruning -/

theorem gainDf_recode (before after : List Cond) (pos neg : Frame) :
    gainDf (φ.conds before) (φ.conds after) (pos.recode φ) (neg.recode φ) = gainDf before after pos neg := by
  unfold gainDf
  simp only [numCoveredC_recode]

omit [Arith] in
theorem successors_recode (r cands : List Cond) : successors (φ.conds r) (φ.conds cands) = (successors r cands).map φ.conds := by
  unfold successors
  have : (φ.conds cands).filter (fun c => !condIn c (φ.conds r)) = φ.conds (cands.filter (fun c => !condIn c r)) := by
    unfold Recoding.conds
    rw [List.filter_map]
    congr 1
    refine List.filter_congr fun c _ => ?_
    simp only [Function.comp]
    rw [← condIn_recode (φ := φ) c r]
    rfl
  rw [this]
  unfold Recoding.conds
  rw [List.map_map, List.map_map]
  refine List.map_congr_left fun c _ => ?_
  simp

omit [Arith] in
theorem bestLoopM_recode (score score' : List Cond → Except PyErr Rat) (hs : ∀ r, score' (φ.conds r) = score r) (l : List (List Cond)) :
    ∀ b : Option (List Cond) × Rat, bestLoopM score' (b.1.map φ.conds, b.2) (l.map φ.conds) =
      (bestLoopM score b l).map (fun x => (x.1.map φ.conds, x.2)) := by
  induction l with
  | nil => intro b; rfl
  | cons s l ih =>
    intro b
    rw [List.map_cons, bestLoopM, bestLoopM, hs]
    cases score s with
    | error e => rfl
    | ok g =>
      simp only [ok_bind]
      rw [← ih]
      congr 1
      split <;> rfl

theorem bestSuccessor_recode (r cands : List Cond) (pos neg : Frame) :
    bestSuccessor (φ.conds r) (φ.conds cands) (pos.recode φ) (neg.recode φ) =
      (bestSuccessor r cands pos neg).map (Option.map φ.conds) := by
  unfold bestSuccessor
  rw [successors_recode]
  have := bestLoopM_recode (φ := φ) (fun s => gainDf r s pos neg) (fun s => gainDf (φ.conds r) s (pos.recode φ) (neg.recode φ))
    (fun s => gainDf_recode r s pos neg) (successors r cands) (none, 1)
  rw [Option.map_none] at this
  rw [this]
  generalize bestLoopM _ _ _ = o
  cases o <;> rfl

theorem growRule_recode (fuel : Nat) (cands : List Cond) (lim : Limits) (pos neg : Frame) (r : List Cond) :
    growRule fuel (φ.conds cands) lim (pos.recode φ) (neg.recode φ) (φ.conds r) = (growRule fuel cands lim pos neg r).map φ.conds := by
  unfold growRule
  refine pyWhile_map (fun r => ?_) fuel r
  unfold growStep
  rw [numCoveredC_recode, numCoveredC_recode, bestSuccessor_recode]
  cases numCoveredC r neg with
  | error e => exact .err e
  | ok n =>
    simp only [ok_bind]
    split
    · exact .done rfl
    · generalize (if lim.minRuleSamples.isSome = true then numCoveredC r pos else Except.ok 0) = o
      cases o with
      | error e => exact .err e
      | ok p =>
        simp only [ok_bind, userHalt_recode, haltRule_recode]
        split
        · exact .done rfl
        · cases bestSuccessor r cands pos neg with
          | error e => exact .err e
          | ok o => cases o with
            | none => exact .done rfl
            | some s => exact .more rfl

theorem irepMetric_recode (pos neg : Frame) (r : List Cond) :
    irepMetric (pos.recode φ) (neg.recode φ) (φ.conds r) = irepMetric pos neg r := by
  unfold irepMetric
  simp only [numCoveredC_recode, rows_length_recode]

theorem ripperGrowMetric_recode (pos neg : Frame) (r : List Cond) :
    ripperGrowMetric (pos.recode φ) (neg.recode φ) (φ.conds r) = ripperGrowMetric pos neg r := by
  unfold ripperGrowMetric
  simp only [numCoveredC_recode]

theorem precisionDf_recode (r : List Cond) (pos neg : Frame) :
    precisionDf (φ.conds r) (pos.recode φ) (neg.recode φ) = precisionDf r pos neg := by
  unfold precisionDf
  simp only [numCoveredC_recode]

/-- Both parts of a pair of frames in the new names. -/
def recodePair (φ : Recoding) (x : Frame × Frame) : Frame × Frame := (x.1.recode φ, x.2.recode φ)

omit [Arith] in
theorem rmCoveredRule_recode (r : List Cond) (pos neg : Frame) :
    rmCoveredRule (φ.conds r) (pos.recode φ) (neg.recode φ) = (rmCoveredRule r pos neg).map (recodePair φ) := by
  unfold rmCoveredRule
  rw [condsCover_recode, condsCover_recode]
  cases condsCover r pos with
  | error e => rfl
  | ok p =>
    cases condsCover r neg with
    | error e => rfl
    | ok n => simp only [Except.map, ok_bind, pure_eq_ok, index_recode, dropLabels_recode, recodePair]

omit [Arith] in
theorem rulesetOf_recode (rules : List (List Cond)) :
    ({ rules := (rules.map φ.conds).map (fun c => { conds := c }) } : Ruleset) =
      ({ rules := rules.map (fun c => { conds := c }) } : Ruleset).recode φ := by
  simp only [Ruleset.recode, List.map_map, Option.map]
  rfl

omit [Arith] in
theorem rmCoveredRuleset_recode (rules : List (List Cond)) (pos neg : Frame) :
    rmCoveredRuleset { rules := (rules.map φ.conds).map (fun c => { conds := c }) } (pos.recode φ) (neg.recode φ) =
      (rmCoveredRuleset { rules := rules.map (fun c => { conds := c }) } pos neg).map (recodePair φ) := by
  rw [rulesetOf_recode]
  unfold rmCoveredRuleset
  rw [rsCovers_recode, rsCovers_recode]
  generalize Ruleset.covers _ pos = o
  cases o with
  | error e => rfl
  | ok p =>
    generalize Ruleset.covers _ neg = o
    cases o with
    | error e => rfl
    | ok n => simp only [Except.map, ok_bind, pure_eq_ok, index_recode, dropLabels_recode, recodePair]

theorem dfSplit_recode {R : PyRandom} {g g' : R.G} {df a b : Frame} {q : Rat} {rs : Option Int}
    (h : dfShuffledSplit R g df q rs = (a, b, g')) : dfShuffledSplit R g (df.recode φ) q rs = (a.recode φ, b.recode φ, g') := by
  unfold dfShuffledSplit at h ⊢
  rcases e : randomSplit R g df.index q rs with ⟨x, y, z⟩
  simp only [e, Prod.mk.injEq] at h
  obtain ⟨rfl, rfl, rfl⟩ := h
  simp only [index_recode, e, loc_recode]

omit [Arith] in
theorem updatedConds_recode {S : SetOps} (hS : φ.KeepsOrder S) (old : Option (List Cond)) (pos neg : Frame) :
    updatedConds S (old.map φ.conds) (pos.recode φ) (neg.recode φ) = φ.conds (updatedConds S old pos neg) := by
  unfold updatedConds sharedConds
  rw [conds_append]
  congr 1
  · cases old <;> rfl
  · have : (pos.recode φ).cols = pos.cols.map φ.feat := rfl
    rw [this, List.flatMap_map]
    unfold Recoding.conds
    rw [List.map_flatMap]
    congr 1
    funext f
    rw [unique_recode, unique_recode, hS, List.map_map, List.map_map]
    rfl

omit [Arith] in
theorem posExamples_recode (df : Frame) (cf : Feat) (pc : Val) :
    posExamples (df.recode φ) (φ.feat cf) (φ.val cf pc) = (posExamples df cf pc).recode φ := by
  unfold posExamples
  rw [posRows_recode, dropCol_recode]

omit [Arith] in
theorem negExamples_recode (df : Frame) (cf : Feat) (pc : Val) :
    negExamples (df.recode φ) (φ.feat cf) (φ.val cf pc) = (negExamples df cf pc).recode φ := by
  unfold negExamples
  rw [negRows_recode, dropCol_recode]

/-! ### IREP -/

/-- A state of the growing loop in the new names. -/
def FrameSt.recode {R : PyRandom} (φ : Recoding) (s : FrameSt R) : FrameSt R :=
  { rules := s.rules.map φ.conds, pos := s.pos.recode φ, neg := s.neg.recode φ, g := s.g }

theorem irepGrow_recode (fuel : Nat) (R : PyRandom) (cands : List Cond) (hp : Hyper) (init : List (List Cond)) (pos neg : Frame)
    (g : R.G) : irepGrow fuel R (φ.conds cands) hp (init.map φ.conds) (pos.recode φ) (neg.recode φ) g =
      (irepGrow fuel R cands hp init pos neg g).map (FrameSt.recode φ) := by
  unfold irepGrow
  refine pyWhile_map (h := FrameSt.recode φ) (k := FrameSt.recode φ) (fun s => ?_) fuel { rules := init, pos := pos, neg := neg, g := g }
  obtain ⟨rules, pos, neg, g⟩ := s
  unfold irepStep FrameSt.recode
  simp only [stopEarly_recode, rows_length_recode, rows_nil_recode]
  split
  · exact .done rfl
  split
  · exact .done rfl
  rcases e1 : dfShuffledSplit R g pos (Arith.complement hp.irepPrune) hp.randomState with ⟨a, b, g1⟩
  rcases e2 : dfShuffledSplit R g1 neg (Arith.complement hp.irepPrune) hp.randomState with ⟨c, d, g2⟩
  simp only [dfSplit_recode (φ := φ) e1, dfSplit_recode (φ := φ) e2]
  have hg := growRule_recode (φ := φ) fuel cands hp.lim a c []
  rw [conds_nil] at hg
  simp only [hg]
  cases growRule fuel cands hp.lim a c [] with
  | error e => exact .err e
  | ok grown =>
    simp only [Except.map, ok_bind]
    split
    · rw [condsCover_recode]
      cases condsCover grown pos with
      | error e => exact .err e
      | ok cov =>
        simp only [Except.map, ok_bind, index_recode, dropLabels_recode]
        exact .more (by simp)
    · rw [pruneRule_recode _ _ (irepMetric_recode b d)]
      cases pruneRule (irepMetric b d) grown with
      | error e => exact .err e
      | ok o =>
        cases o with
        | none => exact .err _
        | some pruned =>
          simp only [Except.map, Option.map, ok_bind, precisionDf_recode]
          cases precisionDf pruned b d with
          | error e => exact .err e
          | ok q =>
            simp only [ok_bind]
            cases q with
            | none => exact .done rfl
            | some q =>
              simp only
              split
              · exact .done rfl
              · rw [rmCoveredRule_recode]
                cases rmCoveredRule pruned pos neg with
                | error e => exact .err e
                | ok x =>
                  simp only [Except.map, ok_bind, recodePair]
                  exact .more (by simp)

omit [Arith] in
theorem bestLoopM_from (score : List Cond → Except PyErr Rat) (l : List (List Cond)) : ∀ (b x : Option (List Cond) × Rat) (r : List Cond),
    bestLoopM score b l = .ok x → x.1 = some r → r ∈ l ∨ b.1 = some r := by
  induction l with
  | nil => intro b x r h hx; injection h with h; subst h; exact Or.inr hx
  | cons s l ih =>
    intro b x r h hx
    rw [bestLoopM] at h
    obtain ⟨g, _, h⟩ := bind_ok_iff.mp h
    rcases ih _ x r h hx with h | h
    · exact Or.inl (List.mem_cons_of_mem _ h)
    · split at h
      · injection h with h; subst h; exact Or.inl List.mem_cons_self
      · exact Or.inr h

theorem bestSuccessor_from {r cands : List Cond} {pos neg : Frame} {s : List Cond} (h : bestSuccessor r cands pos neg = .ok (some s)) :
    ∃ c ∈ cands, s = r ++ [c] := by
  unfold bestSuccessor at h
  obtain ⟨x, hx, h⟩ := bind_ok_iff.mp h
  simp only [pure_eq_ok, Except.ok.injEq] at h
  rcases bestLoopM_from _ _ _ _ s hx h with h | h
  · unfold successors at h
    obtain ⟨c, hc, rfl⟩ := List.mem_map.mp h
    exact ⟨c, (List.mem_filter.mp hc).1, rfl⟩
  · cases h

theorem growRule_in {fuel : Nat} {cands : List Cond} {lim : Limits} {pos neg : Frame} {r0 r : List Cond}
    (hcn : ∀ c ∈ cands, D c) (h0 : AllIn D r0) (h : growRule fuel cands lim pos neg r0 = .ok r) : AllIn D r := by
  have hh : ∀ r, AllIn D r → AllIn D (haltRule lim r) := by
    intro r hr c hc
    unfold haltRule at hc
    split at hc
    · exact hr c (List.dropLast_subset _ hc)
    · exact hr c hc
  have key : ∀ s x, AllIn D s → growStep cands lim pos neg s = .ok x →
      (∀ s', x = .more s' → AllIn D s') ∧ (∀ a, x = .done a → AllIn D a) := by
    intro s x hs hb
    unfold growStep at hb
    obtain ⟨n, _, hb⟩ := bind_ok_iff.mp hb
    split at hb
    · injection hb with hb; subst hb
      exact ⟨fun _ e => (by cases e), fun a e => by injection e with e; subst e; exact hs⟩
    obtain ⟨p, _, hb⟩ := bind_ok_iff.mp hb
    split at hb
    · injection hb with hb; subst hb
      exact ⟨fun _ e => (by cases e), fun a e => by injection e with e; subst e; exact hh s hs⟩
    obtain ⟨o, ho, hb⟩ := bind_ok_iff.mp hb
    cases o with
    | none =>
      injection hb with hb; subst hb
      exact ⟨fun _ e => (by cases e), fun a e => by injection e with e; subst e; exact hs⟩
    | some t =>
      injection hb with hb; subst hb
      refine ⟨fun s' e => ?_, fun a e => (by cases e)⟩
      injection e with e; subst e
      obtain ⟨c, hc, rfl⟩ := bestSuccessor_from ho
      intro x hx
      rcases List.mem_append.mp hx with hx | hx
      · exact hs x hx
      · rw [List.mem_singleton] at hx; exact hx ▸ hcn c hc
  unfold growRule at h
  exact pyWhile_inv (I := AllIn D) (Q := AllIn D) (fun s s' hs hb => (key s _ hs hb).1 s' rfl)
    (fun s a hs hb => (key s _ hs hb).2 a rfl) fuel _ r h0 h

theorem irepGrow_in {fuel : Nat} {R : PyRandom} {cands : List Cond} {hp : Hyper} {init : List (List Cond)} {pos neg : Frame}
    {g : R.G} {st : FrameSt R} (hcn : ∀ c ∈ cands, D c) (hi : ∀ r ∈ init, AllIn D r)
    (h : irepGrow fuel R cands hp init pos neg g = .ok st) : ∀ r ∈ st.rules, AllIn D r := by
  obtain ⟨s, hs, h1, h2⟩ := irepGrow_reach h
  rw [h1]
  clear h h1 h2
  induction hs with
  | start => exact hi
  | add _ ha ih =>
    obtain ⟨a, b, c, d, g1, grown, _, _, h3, h4⟩ := ha.how
    have hg : AllIn D grown := growRule_in hcn (fun _ hc => absurd hc List.not_mem_nil) h3
    rw [ha.rules]
    intro x hx
    rcases List.mem_append.mp hx with hx | hx
    · exact ih x hx
    · rw [List.mem_singleton] at hx
      subst hx
      rcases h4 with ⟨_, rfl⟩ | ⟨_, h4, _⟩
      · exact hg
      · exact hg.prefix (pruneRule_prefix h4).1

omit [Arith] in
/-- The cells of the examples make training conditions. -/
theorem examples_in {df : Frame} {cf : Feat} {pc : Val} (hD : ∀ c, TrainCond df cf c → D c) :
    (∀ f ∈ (posExamples df cf pc).cols, ∀ row ∈ (posExamples df cf pc).rows, D ⟨f, row.cell f⟩) ∧
    (∀ f ∈ (posExamples df cf pc).cols, ∀ row ∈ (negExamples df cf pc).rows, D ⟨f, row.cell f⟩) := by
  have hc : ∀ f ∈ (posExamples df cf pc).cols, f ∈ df.cols ∧ f ≠ cf := by
    intro f hf
    obtain ⟨h1, h2⟩ := List.mem_filter.mp hf
    exact ⟨h1, by simpa using h2⟩
  refine ⟨fun f hf row hrow => hD _ ⟨(hc f hf).1, (hc f hf).2, row, ?_, rfl⟩,
    fun f hf row hrow => hD _ ⟨(hc f hf).1, (hc f hf).2, row, ?_, rfl⟩⟩
  · exact (List.mem_filter.mp hrow).1
  · exact (List.mem_filter.mp hrow).1

theorem irepFitPlain_recode (fuel : Nat) (R : PyRandom) (S : SetOps) (hS : φ.KeepsOrder S) (hp : Hyper) (old : Option (List Cond))
    (init : List (List Cond)) (df : Frame) (cf : Feat) (pc : Val) (g : R.G) (h : φ.PrintsAlike D)
    (hD : ∀ c ∈ updatedConds S old (posExamples df cf pc) (negExamples df cf pc), D c) (hi : ∀ r ∈ init, AllIn D r) :
    irepFitPlain fuel R S hp (old.map φ.conds) (init.map φ.conds) (df.recode φ) (φ.feat cf) (φ.val cf pc) g =
      (irepFitPlain fuel R S hp old init df cf pc g).map (fun m => (m.1.recode φ, m.2)) := by
  unfold irepFitPlain
  have hc : φ.feat cf ∉ (df.recode φ).cols ↔ cf ∉ df.cols := not_congr (feat_mem _ _)
  simp only [rows_nil_recode, hc, posExamples_recode, negExamples_recode, updatedConds_recode hS, irepGrow_recode]
  split
  · rfl
  split
  · rfl
  revert hD
  generalize updatedConds S old (posExamples df cf pc) (negExamples df cf pc) = cands
  intro hD
  cases hg : irepGrow fuel R cands hp init (posExamples df cf pc) (negExamples df cf pc) g with
  | error e => rfl
  | ok st =>
    have hx := irepGrow_in hD hi hg
    simp only [Except.map, ok_bind, FrameSt.recode]
    have hrs : ({ rules := (st.rules.map φ.conds).map (fun c => { conds := c }), possible := some (φ.conds cands) } : Ruleset) =
        ({ rules := st.rules.map (fun c => { conds := c }), possible := some cands } : Ruleset).recode φ := by
      simp only [Ruleset.recode, List.map_map, Option.map]
      rfl
    rw [hrs, selectedFeatures_recode, recalibrate_recode, dropCol_recode]
    have hin : ∀ r ∈ ({ rules := st.rules.map (fun c => { conds := c }), possible := some cands } : Ruleset).rules, AllIn D r.conds := by
      intro r hr
      obtain ⟨c, hc, rfl⟩ := List.mem_map.mp hr
      exact hx c hc
    have hcal := recalibrate_conds ({ rules := st.rules.map (fun c => { conds := c }), possible := some cands } : Ruleset) df cf pc hp.alpha
    revert hcal
    generalize recalibrate _ df cf pc hp.alpha = q
    intro hcal
    rcases q with ⟨rs, o⟩
    cases o with
    | some e => rfl
    | none =>
      have hconds : ∀ r ∈ rs.rules, AllIn D r.conds := by
        intro r hr
        have h2 := List.mem_map_of_mem (f := Rule.conds) hr
        rw [hcal] at h2
        obtain ⟨s, hs, hs2⟩ := List.mem_map.mp h2
        rw [← hs2]
        exact hin s hs
      show Except.ok _ = Except.ok _
      rw [tidy_recode h rs hconds]
      rfl

/-! ### RIPPER -/

omit [Arith] in
theorem rulesNumCovered_recode (rules : List (List Cond)) (df : Frame) :
    rulesNumCovered (rules.map φ.conds) (df.recode φ) = rulesNumCovered rules df := by
  unfold rulesNumCovered Ruleset.numCovered
  rw [rulesetOf_recode]
  rw [rsCovers_recode]
  generalize Ruleset.covers _ df = o
  cases o with
  | error e => rfl
  | ok x => simp only [Except.map, ok_bind, rows_length_recode]

theorem exceptionsDf_recode (rules : List (List Cond)) (pos neg : Frame) :
    exceptionsDf (rules.map φ.conds) (pos.recode φ) (neg.recode φ) = exceptionsDf rules pos neg := by
  unfold exceptionsDf
  simp only [rulesNumCovered_recode, rows_length_recode]

theorem totalBitsDf_recode (n : Nat) (rules : List (List Cond)) (pos neg : Frame) :
    totalBitsDf n (rules.map φ.conds) (pos.recode φ) (neg.recode φ) = totalBitsDf n rules pos neg := by
  unfold totalBitsDf
  rw [rsTheory_recode, exceptionsDf_recode]

theorem subsetDlsDf_recode (n : Nat) (pos neg : Frame) (rules : List (List Cond)) : ∀ (theory : Rat) (done : List (List Cond)),
    subsetDlsDf n (pos.recode φ) (neg.recode φ) theory (done.map φ.conds) (rules.map φ.conds) = subsetDlsDf n pos neg theory done rules := by
  induction rules with
  | nil => intro _ _; rfl
  | cons r rules ih =>
    intro theory done
    rw [List.map_cons, subsetDlsDf, subsetDlsDf]
    have : done.map φ.conds ++ [φ.conds r] = (done ++ [r]).map φ.conds := by simp
    simp only [this, conds_length, exceptionsDf_recode, ih]

theorem bestSubsetDf_recode (n : Nat) (rules : List (List Cond)) (pos neg : Frame) :
    bestSubsetDf n (rules.map φ.conds) (pos.recode φ) (neg.recode φ) = (bestSubsetDf n rules pos neg).map (recodeFst φ) := by
  unfold bestSubsetDf
  have := subsetDlsDf_recode (φ := φ) n pos neg rules Arith.zeroDl []
  rw [List.map_nil] at this
  rw [this]
  cases subsetDlsDf n pos neg Arith.zeroDl [] rules with
  | error e => rfl
  | ok dls =>
    simp only [ok_bind]
    rw [zip_recode, mdlFilter_recode, totalBitsDf_recode]
    cases totalBitsDf n (mdlFilter none (rules.zip dls)) pos neg with
    | error e => rfl
    | ok t => rfl

theorem rulesetAccuracy_recode (rules : List (List Cond)) (pos neg : Frame) :
    rulesetAccuracy (rules.map φ.conds) (pos.recode φ) (neg.recode φ) = rulesetAccuracy rules pos neg := by
  unfold rulesetAccuracy
  simp only [rulesNumCovered_recode, rows_length_recode]

/-- A state of the growing loop in the new names. -/
def FrameRipSt.recode {R : PyRandom} (φ : Recoding) (s : FrameRipSt R) : FrameRipSt R :=
  { s with rules := s.rules.map φ.conds, pos := s.pos.recode φ, neg := s.neg.recode φ }

theorem ripperGrow_recode (fuel : Nat) (R : PyRandom) (cands : List Cond) (hp : Hyper) (init : List (List Cond)) (allPos allNeg : Frame)
    (g : R.G) : ripperGrow fuel R (φ.conds cands) hp (init.map φ.conds) (allPos.recode φ) (allNeg.recode φ) g =
      (ripperGrow fuel R cands hp init allPos allNeg g).map (FrameRipSt.recode φ) := by
  unfold ripperGrow
  refine pyWhile_map (h := FrameRipSt.recode φ) (k := FrameRipSt.recode φ) (fun s => ?_) fuel
    { rules := init, pos := allPos, neg := allNeg, dl := none, diff := Arith.zeroDl, g := g }
  obtain ⟨rules, pos, neg, dl, diff, g⟩ := s
  unfold ripperStep FrameRipSt.recode
  simp only [stopEarly_recode, rows_length_recode, rows_nil_recode, conds_length]
  split
  · exact .done rfl
  split
  · exact .done rfl
  cases hp.pruneSize with
  | none => exact .err _
  | some ps =>
    simp only
    rcases e1 : dfShuffledSplit R g pos (Arith.complement ps) hp.randomState with ⟨a, b, g1⟩
    rcases e2 : dfShuffledSplit R g1 neg (Arith.complement ps) hp.randomState with ⟨c, d, g2⟩
    have hg := growRule_recode (φ := φ) fuel cands hp.lim a c []
    rw [conds_nil] at hg
    simp only [dfSplit_recode (φ := φ) e1, dfSplit_recode (φ := φ) e2, hg, rows_nil_recode]
    split
    · exact .done rfl
    cases growRule fuel cands hp.lim a c [] with
    | error e => exact .err e
    | ok grown =>
      simp only [Except.map, ok_bind, conds_eq_nil]
      split
      · exact .done rfl
      rw [pruneRule_recode _ _ (ripperGrowMetric_recode b d)]
      cases pruneRule (ripperGrowMetric b d) grown with
      | error e => exact .err e
      | ok o =>
        cases o with
        | none => exact .err _
        | some pruned =>
          have happ : rules.map φ.conds ++ [φ.conds pruned] = (rules ++ [pruned]).map φ.conds := by simp
          simp only [Except.map, Option.map, ok_bind, conds_length, happ, exceptionsDf_recode, rmCoveredRule_recode]
          cases ruleTheory cands.length pruned.length with
          | error e => exact .err e
          | ok rd =>
            simp only [ok_bind]
            cases exceptionsDf (rules ++ [pruned]) allPos allNeg with
            | error e => exact .err e
            | ok dd =>
              simp only [ok_bind]
              cases rmCoveredRule pruned pos neg with
              | error e => exact .err e
              | ok x => exact .more (by simp [recodePair])

theorem ripperGrow_in {fuel : Nat} {R : PyRandom} {cands : List Cond} {hp : Hyper} {init : List (List Cond)} {pos neg : Frame}
    {g : R.G} {st : FrameRipSt R} (hcn : ∀ c ∈ cands, D c) (hi : ∀ r ∈ init, AllIn D r)
    (h : ripperGrow fuel R cands hp init pos neg g = .ok st) : ∀ r ∈ st.rules, AllIn D r := by
  obtain ⟨s, hs, h1, h2⟩ := ripperGrow_reach h
  rw [h1]
  clear h h1 h2
  induction hs with
  | start => exact hi
  | add _ ha ih =>
    obtain ⟨ps, a, b, c, d, g1, grown, _, _, _, _, h3, _, h4⟩ := ha.how
    have hg : AllIn D grown := growRule_in hcn (fun _ hc => absurd hc List.not_mem_nil) h3
    rw [ha.rules]
    intro x hx
    rcases List.mem_append.mp hx with hx | hx
    · exact ih x hx
    · rw [List.mem_singleton] at hx
      subst hx
      exact hg.prefix (pruneRule_prefix h4).1

theorem growRule_same {fuel : Nat} {cands : List Cond} (lim : Limits) (pos neg : Frame) (hcn : ∀ c ∈ cands, D c) (r : List Cond)
    (hr : AllIn D r) : OutRel (RecodedRule φ D) (growRule fuel cands lim pos neg r)
      (growRule fuel (φ.conds cands) lim (pos.recode φ) (neg.recode φ) (φ.conds r)) := by
  rw [growRule_recode]
  cases hg : growRule fuel cands lim pos neg r with
  | error e => exact .err e
  | ok s => exact .ok ⟨rfl, growRule_in hcn hr hg⟩

theorem optimizeChoiceDf_recode (h : φ.PrintsAlike D) (fuel : Nat) (cands : List Cond) (hcn : ∀ c ∈ cands, D c) (hp : Hyper)
    (original : List (List Cond)) (originalDl : Rat) (i : Nat) (rule : List Cond) (allPos allNeg a b c d : Frame)
    (ho : ∀ r ∈ original, AllIn D r) (hr : AllIn D rule) :
    OutRel (RecodedRule φ D) (optimizeChoiceDf fuel cands hp original originalDl i rule allPos allNeg a b c d)
      (optimizeChoiceDf fuel (φ.conds cands) hp (original.map φ.conds) originalDl i (φ.conds rule) (allPos.recode φ) (allNeg.recode φ)
        (a.recode φ) (b.recode φ) (c.recode φ) (d.recode φ)) :=
  choiceOf_recode h
    (grow := growRule fuel cands { minRuleSamples := hp.lim.minRuleSamples } a c)
    (grow' := growRule fuel (φ.conds cands) { minRuleSamples := hp.lim.minRuleSamples } (a.recode φ) (c.recode φ))
    (metric := fun r => rulesetAccuracy (iReplaced original i (some r)) b d)
    (metric' := fun r => rulesetAccuracy (iReplaced (original.map φ.conds) i (some r)) (b.recode φ) (d.recode φ))
    (dl := fun rs => do return (← bestSubsetDf cands.length rs allPos allNeg).2)
    (dl' := fun rs => do return (← bestSubsetDf (φ.conds cands).length rs (allPos.recode φ) (allNeg.recode φ)).2)
    (growRule_same _ a c hcn)
    (fun r => by
      have := iReplaced_recode (φ := φ) original i (some r)
      rw [Option.map_some] at this
      simp only [this, rulesetAccuracy_recode])
    (fun rs => by
      simp only [bestSubsetDf_recode, conds_length]
      cases bestSubsetDf cands.length rs allPos allNeg <;> rfl)
    original originalDl i rule ho hr

theorem optimizeLoopDf_recode (h : φ.PrintsAlike D) (fuel : Nat) (R : PyRandom) (cands : List Cond) (hcn : ∀ c ∈ cands, D c) (hp : Hyper)
    (ps : Rat) (rs : Option Int) (original : List (List Cond)) (ho : ∀ r ∈ original, AllIn D r) (originalDl : Rat)
    (allPos allNeg : Frame) (rest : List (List Cond)) :
    ∀ (i : Nat) (new : List (List Cond)) (pos neg : Frame) (g : R.G), (∀ r ∈ rest, AllIn D r) → (∀ r ∈ new, AllIn D r) →
    OutRel (RecodedRules φ D) (optimizeLoopDf fuel R cands hp ps rs original originalDl allPos allNeg i rest new pos neg g)
      (optimizeLoopDf fuel R (φ.conds cands) hp ps rs (original.map φ.conds) originalDl (allPos.recode φ) (allNeg.recode φ) i
        (rest.map φ.conds) (new.map φ.conds) (pos.recode φ) (neg.recode φ) g) := by
  induction rest with
  | nil => intro i new pos neg g _ hn; exact .ok ⟨rfl, hn⟩
  | cons rule rest ih =>
    intro i new pos neg g hrest hn
    have hrule := hrest rule List.mem_cons_self
    rw [List.map_cons]
    unfold optimizeLoopDf
    rcases e1 : dfShuffledSplit R g pos (Arith.complement ps) rs with ⟨a, b, g1⟩
    rcases e2 : dfShuffledSplit R g1 neg (Arith.complement ps) rs with ⟨c, d, g2⟩
    simp only [dfSplit_recode (φ := φ) e1, dfSplit_recode (φ := φ) e2, e2, rows_nil_recode, rows_length_recode, stopEarly_recode]
    split
    · exact .ok ⟨rfl, hn⟩
    split
    · exact .ok ⟨rfl, hn⟩
    have hc := optimizeChoiceDf_recode h fuel cands hcn hp original originalDl i rule allPos allNeg a b c d ho hrule
    revert hc
    generalize optimizeChoiceDf fuel cands hp original originalDl i rule allPos allNeg a b c d = o
    generalize optimizeChoiceDf fuel (φ.conds cands) hp (original.map φ.conds) originalDl i (φ.conds rule) _ _ _ _ _ _ = o'
    intro hc
    cases hc with
    | err e => exact .err e
    | @ok best best' hc =>
      obtain ⟨rfl, hbest⟩ := hc
      simp only [ok_bind]
      have hset : (new.map φ.conds).set i (if (!condsIn (φ.conds best) (new.map φ.conds)) = true then φ.conds best else φ.conds rule) =
          (new.set i (if (!condsIn best new) = true then best else rule)).map φ.conds := by
        rw [condsIn_recode h hbest hn, List.map_set]
        congr 1
        split <;> rfl
      have hin : ∀ s ∈ new.set i (if (!condsIn best new) = true then best else rule), AllIn D s := by
        refine set_in hn ?_
        split
        · exact hbest
        · exact hrule
      rw [hset, rmCoveredRule_recode]
      cases rmCoveredRule rule pos neg with
      | error e => exact .err e
      | ok x =>
        simp only [Except.map, ok_bind, recodePair, rows_nil_recode]
        split
        · exact .ok ⟨rfl, hin⟩
        · exact ih _ _ _ _ _ (fun r hr => hrest r (List.mem_cons_of_mem _ hr)) hin

theorem optimizeDf_recode (h : φ.PrintsAlike D) (fuel : Nat) (R : PyRandom) (cands : List Cond) (hcn : ∀ c ∈ cands, D c) (hp : Hyper)
    (rs : Option Int) (rules : List (List Cond)) (hr : ∀ r ∈ rules, AllIn D r) (pos neg : Frame) (g : R.G) :
    OutRel (RecodedRules φ D) (optimizeDf fuel R cands hp rs rules pos neg g)
      (optimizeDf fuel R (φ.conds cands) hp rs (rules.map φ.conds) (pos.recode φ) (neg.recode φ) g) := by
  unfold optimizeDf
  rw [conds_length, bestSubsetDf_recode]
  cases bestSubsetDf cands.length rules pos neg with
  | error e => exact .err e
  | ok x =>
    simp only [Except.map, ok_bind]
    cases hp.pruneSize with
    | none =>
      simp only [List.map_eq_nil_iff]
      split
      · exact .ok ⟨rfl, hr⟩
      · exact .err _
    | some ps => exact optimizeLoopDf_recode h fuel R cands hcn hp ps rs rules hr x.2 pos neg rules 0 rules pos neg g hr hr

theorem stage2Df_recode (h : φ.PrintsAlike D) (fuel : Nat) (R : PyRandom) (cands : List Cond) (hcn : ∀ c ∈ cands, D c) (hp : Hyper)
    (pos neg : Frame) (n : Nat) : ∀ (rules : List (List Cond)) (g : R.G), (∀ r ∈ rules, AllIn D r) →
    OutRel (RecodedRules φ D) (stage2Df fuel R cands hp pos neg n rules g)
      (stage2Df fuel R (φ.conds cands) hp (pos.recode φ) (neg.recode φ) n (rules.map φ.conds) g) := by
  induction n with
  | zero => intro rules g hr; exact .ok ⟨rfl, hr⟩
  | succ n ih =>
    intro rules g hr
    unfold stage2Df
    have ho := optimizeDf_recode h fuel R cands hcn hp (hp.randomState.map (· + 100)) rules hr pos neg g
    revert ho
    generalize optimizeDf fuel R cands hp (hp.randomState.map (· + 100)) rules pos neg g = o
    generalize optimizeDf fuel R (φ.conds cands) hp (hp.randomState.map (· + 100)) (rules.map φ.conds) _ _ g = o'
    intro ho
    cases ho with
    | err e => exact .err e
    | @ok x x' ho =>
      obtain ⟨rfl, hx⟩ := ho
      obtain ⟨new, g'⟩ := x
      simp only [ok_bind, recodeFst]
      rw [condsRulesetEq_recode h hr hx]
      split
      · exact .ok ⟨rfl, hr⟩
      · exact ih new g' hx

omit [Arith] in
/-- The conditions offered test columns of the positive examples for values found among the examples. -/
theorem updatedConds_in {S : SetOps} (hL : S.Lawful) {old : Option (List Cond)} {pos neg : Frame} (ho : ∀ l, old = some l → AllIn D l)
    (hp : ∀ f ∈ pos.cols, ∀ row ∈ pos.rows, D ⟨f, row.cell f⟩) (hn : ∀ f ∈ pos.cols, ∀ row ∈ neg.rows, D ⟨f, row.cell f⟩) :
    ∀ c ∈ updatedConds S old pos neg, D c := by
  intro c hc
  unfold updatedConds at hc
  rcases List.mem_append.mp hc with hc | hc
  · cases old with
    | none => cases hc
    | some l => exact ho l rfl c hc
  · unfold sharedConds at hc
    obtain ⟨f, hf, hc⟩ := List.mem_flatMap.mp hc
    obtain ⟨v, hv, rfl⟩ := List.mem_map.mp hc
    rcases hL.mem _ _ v hv with h | h
    · obtain ⟨row, hrow, e⟩ := mem_unique h
      have := hp f hf row hrow
      rwa [e] at this
    · obtain ⟨row, hrow, e⟩ := mem_unique h
      have := hn f hf row hrow
      rwa [e] at this

theorem coverRemainingDf_recode (fuel : Nat) (R : PyRandom) (S : SetOps) (hS : φ.KeepsOrder S) (hL : S.Lawful) (cands : List Cond)
    (hcn : ∀ c ∈ cands, D c) (hp : Hyper) (rules : List (List Cond)) (hr : ∀ r ∈ rules, AllIn D r) (pos neg : Frame) (g : R.G)
    (hpd : ∀ f ∈ pos.cols, ∀ row ∈ pos.rows, D ⟨f, row.cell f⟩) (hnd : ∀ f ∈ pos.cols, ∀ row ∈ neg.rows, D ⟨f, row.cell f⟩) :
    OutRel (fun x x' => x' = (x.1.map φ.conds, φ.conds x.2.1, x.2.2) ∧ ∀ r ∈ x.1, AllIn D r)
      (coverRemainingDf fuel R S cands hp rules pos neg g)
      (coverRemainingDf fuel R S (φ.conds cands) hp (rules.map φ.conds) (pos.recode φ) (neg.recode φ) g) := by
  unfold coverRemainingDf
  rw [rmCoveredRuleset_recode]
  cases hrm : rmCoveredRuleset { rules := rules.map (fun c => { conds := c }) } pos neg with
  | error e => exact .err e
  | ok x =>
    obtain ⟨pos', neg'⟩ := x
    obtain ⟨s1, s2, s3, s4⟩ := rmCoveredRuleset_sub hrm
    have hold : (if rules.map φ.conds = [] then none else some (φ.conds cands)) =
        (if rules = [] then none else some cands : Option (List Cond)).map φ.conds := by
      cases rules <;> rfl
    simp only [Except.map, ok_bind, recodePair, rows_length_recode, hold, updatedConds_recode hS, ripperGrow_recode]
    split
    · have hin : ∀ c ∈ updatedConds S (if rules = [] then none else some cands) pos' neg', D c := by
        refine updatedConds_in hL ?_ ?_ ?_
        · intro l e
          split at e
          · cases e
          · injection e with e; subst e; exact hcn
        · rw [s3]; exact fun f hf row hrow => hpd f hf row (s1.subset hrow)
        · rw [s3]; exact fun f hf row hrow => hnd f hf row (s2.subset hrow)
      revert hin
      generalize updatedConds S (if rules = [] then none else some cands) pos' neg' = cands'
      intro hin
      cases hg : ripperGrow fuel R cands' hp rules pos' neg' g with
      | error e => exact .err e
      | ok st => exact .ok ⟨rfl, ripperGrow_in hin hr hg⟩
    · exact .ok ⟨rfl, hr⟩

theorem ripperStagesDf_recode (h : φ.PrintsAlike D) (fuel : Nat) (R : PyRandom) (S : SetOps) (hS : φ.KeepsOrder S) (hL : S.Lawful)
    (hp : Hyper) (old : Option (List Cond)) (hold : ∀ l, old = some l → AllIn D l) (init : List (List Cond))
    (hi : ∀ r ∈ init, AllIn D r) (pos neg : Frame) (g : R.G)
    (hpd : ∀ f ∈ pos.cols, ∀ row ∈ pos.rows, D ⟨f, row.cell f⟩) (hnd : ∀ f ∈ pos.cols, ∀ row ∈ neg.rows, D ⟨f, row.cell f⟩) :
    OutRel (RecodedRules φ D) (ripperStagesDf fuel R S hp old init pos neg g)
      (ripperStagesDf fuel R S hp (old.map φ.conds) (init.map φ.conds) (pos.recode φ) (neg.recode φ) g) := by
  unfold ripperStagesDf
  simp only [updatedConds_recode hS, ripperGrow_recode]
  have hcn := updatedConds_in hL hold hpd hnd
  revert hcn
  generalize updatedConds S old pos neg = cands
  intro hcn
  cases hg : ripperGrow fuel R cands hp init pos neg g with
  | error e => exact .err e
  | ok st =>
    simp only [Except.map, ok_bind]
    have h2 := stage2Df_recode h fuel R cands hcn hp pos neg hp.k.toNat st.rules st.g (ripperGrow_in hcn hi hg)
    have e1 : (FrameRipSt.recode φ st).rules = st.rules.map φ.conds := rfl
    have e2 : (FrameRipSt.recode φ st).g = st.g := rfl
    rw [e1, e2]
    revert h2
    generalize stage2Df fuel R cands hp pos neg hp.k.toNat st.rules st.g = o
    generalize stage2Df fuel R (φ.conds cands) hp _ _ hp.k.toNat (st.rules.map φ.conds) st.g = o'
    intro h2
    cases h2 with
    | err e => exact .err e
    | @ok x x' h2 =>
      obtain ⟨rfl, hx⟩ := h2
      obtain ⟨r2, g2⟩ := x
      simp only [ok_bind, recodeFst]
      have h3 := coverRemainingDf_recode (φ := φ) fuel R S hS hL cands hcn hp r2 hx pos neg g2 hpd hnd
      revert h3
      generalize coverRemainingDf fuel R S cands hp r2 pos neg g2 = o
      generalize coverRemainingDf fuel R S (φ.conds cands) hp (r2.map φ.conds) _ _ g2 = o'
      intro h3
      cases h3 with
      | err e => exact .err e
      | @ok x x' h3 =>
        obtain ⟨rfl, hx⟩ := h3
        obtain ⟨r3, cands', g3⟩ := x
        simp only [ok_bind, bestSubsetDf_recode, conds_length]
        cases hb : bestSubsetDf cands'.length r3 pos neg with
        | error e => exact .err e
        | ok y => exact .ok ⟨rfl, fun r hr => hx r ((bestSubsetDf_sublist hb).subset hr)⟩

theorem ripperFitPlain_recode (fuel : Nat) (R : PyRandom) (S : SetOps) (hS : φ.KeepsOrder S) (hL : S.Lawful) (hp : Hyper)
    (old : Option (List Cond)) (hold : ∀ l, old = some l → AllIn D l) (init : List (List Cond)) (df : Frame) (cf : Feat) (pc : Val) (g : R.G)
    (h : φ.PrintsAlike D) (hD : ∀ c, TrainCond df cf c → D c) (hi : ∀ r ∈ init, AllIn D r) :
    ripperFitPlain fuel R S hp (old.map φ.conds) (init.map φ.conds) (df.recode φ) (φ.feat cf) (φ.val cf pc) g =
      (ripperFitPlain fuel R S hp old init df cf pc g).map (fun m => (m.1.recode φ, m.2)) := by
  unfold ripperFitPlain
  have hc : φ.feat cf ∉ (df.recode φ).cols ↔ cf ∉ df.cols := not_congr (feat_mem _ _)
  simp only [rows_nil_recode, hc, posExamples_recode, negExamples_recode]
  split
  · rfl
  split
  · rfl
  exact ripperTail_recode h hp df cf pc (ripperStagesDf_recode h fuel R S hS hL hp old hold init hi _ _ g
    (examples_in hD).1 (examples_in hD).2)

end Witt
