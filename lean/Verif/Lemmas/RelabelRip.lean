import Verif.Lemmas.Relabel
/-
Renaming the row labels of the data: RIPPER, and training without the coverage index.
-/
namespace Witt
open Spec
variable [Arith]
variable {f : Label ≃ Label}

/-! ### RIPPER with the index -/

theorem exceptionsCn_relabel (cn : CatNap) (rules : List (List Cond)) (pos neg : List Label) :
    exceptionsCn (cn.relabel f) rules (pos.map f) (neg.map f) = exceptionsCn cn rules pos neg := by
  unfold exceptionsCn
  simp only [rulesetCovers_relabel, List.length_map]

omit [Arith] in
theorem conds_relabel (cn : CatNap) : (cn.relabel f).conds = cn.conds := rfl

theorem totalBitsCn_relabel (cn : CatNap) (rules : List (List Cond)) (pos neg : List Label) :
    totalBitsCn (cn.relabel f) rules (pos.map f) (neg.map f) = totalBitsCn cn rules pos neg := by
  unfold totalBitsCn
  simp only [exceptionsCn_relabel, conds_relabel]

theorem subsetDls_relabel (cn : CatNap) (pos neg : List Label) (rules : List (List Cond)) : ∀ (theory : Rat) (done : List (List Cond)),
    subsetDls (cn.relabel f) (pos.map f) (neg.map f) theory done rules = subsetDls cn pos neg theory done rules := by
  induction rules with
  | nil => intro theory done; rfl
  | cons r rules ih =>
    intro theory done
    unfold subsetDls
    simp only [exceptionsCn_relabel, conds_relabel, ih]

theorem bestSubsetCn_relabel (cn : CatNap) (rules : List (List Cond)) (pos neg : List Label) :
    bestSubsetCn (cn.relabel f) rules (pos.map f) (neg.map f) = bestSubsetCn cn rules pos neg := by
  unfold bestSubsetCn
  simp only [subsetDls_relabel, totalBitsCn_relabel]

/-- The same state under other labels. -/
def RenamedRip {R : PyRandom} (f : Label ≃ Label) (s : RipSt R) (s' : RipSt (R.relabel f)) : Prop :=
  s'.rules = s.rules ∧ s'.pos = s.pos.map f ∧ s'.neg = s.neg.map f ∧ s'.dl = s.dl ∧ s'.diff = s.diff ∧ s'.g = s.g

theorem ripperStepCn_relabel (fuel : Nat) (R : PyRandom) (cn : CatNap) (hp : Hyper) (allPos allNeg : List Label) (s : RipSt R)
    (s' : RipSt (R.relabel f)) (h : RenamedRip f s s') :
    StepRel (RenamedRip f) (RenamedRip f) (ripperStepCn fuel R cn hp allPos allNeg s)
      (ripperStepCn fuel (R.relabel f) (cn.relabel f) hp (allPos.map f) (allNeg.map f) s') := by
  obtain ⟨rules, pos, neg, dl, diff, g⟩ := s
  obtain ⟨rules', pos', neg', dl', diff', g'⟩ := s'
  obtain ⟨h1, h2, h3, h4, h5, h6⟩ := h
  dsimp only at h1 h2 h3 h4 h5 h6
  subst h1 h2 h3 h4 h5 h6
  unfold ripperStepCn
  simp only [List.map_eq_nil_iff, List.length_map, rmRuleCoversCn_relabel, exceptionsCn_relabel, conds_relabel]
  split
  · exact .done ⟨rfl, rfl, rfl, rfl, rfl, rfl⟩
  split
  · exact .done ⟨rfl, rfl, rfl, rfl, rfl, rfl⟩
  cases hp.pruneSize with
  | none => exact .err _
  | some ps =>
    simp only
    rcases e1 : randomSplit R g' pos (Arith.complement ps) hp.randomState with ⟨a, b, g1⟩
    have e1' := randomSplit_eq (f := f) e1
    rcases e2 : randomSplit R g1 neg (Arith.complement ps) hp.randomState with ⟨c, d, g2⟩
    have e2' := randomSplit_eq (f := f) e2
    simp only [e1', e2', growRuleCn_relabel, ripperGrowMetricCn_relabel, List.map_eq_nil_iff]
    split
    · exact .done ⟨rfl, rfl, rfl, rfl, rfl, rfl⟩
    cases growRuleCn fuel cn hp.lim a c [] with
    | error e => exact .err e
    | ok grown =>
      simp only [ok_bind]
      split
      · exact .done ⟨rfl, rfl, rfl, rfl, rfl, rfl⟩
      generalize (if ps ≠ 0 then pruneRule (ripperGrowMetricCn cn b d) grown else .ok (some grown)) = o
      cases o with
      | error e => exact .err e
      | ok o =>
        simp only [ok_bind]
        cases o with
        | none => exact .err _
        | some pruned =>
          simp only
          cases ruleTheory cn.conds.length pruned.length with
          | error e => exact .err e
          | ok rd =>
            simp only [ok_bind]
            cases exceptionsCn cn (rules' ++ [pruned]) allPos allNeg with
            | error e => exact .err e
            | ok dd => exact .more ⟨rfl, rfl, rfl, rfl, rfl, rfl⟩

theorem ripperGrowCn_relabel (fuel : Nat) (R : PyRandom) (cn : CatNap) (hp : Hyper) (init : List (List Cond)) (pos neg : List Label)
    (g : R.G) : OutRel (RenamedRip f) (ripperGrowCn fuel R cn hp init pos neg g)
      (ripperGrowCn fuel (R.relabel f) (cn.relabel f) hp init (pos.map f) (neg.map f) g) :=
  pyWhile_rel (ripperStepCn_relabel fuel R cn hp pos neg) fuel _ _ ⟨rfl, rfl, rfl, rfl, rfl, rfl⟩

theorem optimizeChoice_relabel (fuel : Nat) (cn : CatNap) (hp : Hyper) (original : List (List Cond)) (originalDl : Rat) (i : Nat)
    (rule : List Cond) (allPos allNeg a b c d : List Label) :
    optimizeChoice fuel (cn.relabel f) hp original originalDl i rule (allPos.map f) (allNeg.map f) (a.map f) (b.map f) (c.map f)
      (d.map f) = optimizeChoice fuel cn hp original originalDl i rule allPos allNeg a b c d := by
  unfold optimizeChoice
  simp only [growRuleCn_relabel, ripperOptMetricCn_relabel, totalBitsCn_relabel]

theorem optimizeLoop_relabel (fuel : Nat) (R : PyRandom) (cn : CatNap) (hp : Hyper) (ps : Rat) (rs : Option Int)
    (original : List (List Cond)) (originalDl : Rat) (allPos allNeg : List Label) (rest : List (List Cond)) :
    ∀ (i : Nat) (new : List (List Cond)) (pos neg : List Label) (g : R.G),
    optimizeLoop fuel (R.relabel f) (cn.relabel f) hp ps rs original originalDl (allPos.map f) (allNeg.map f) i rest new
      (pos.map f) (neg.map f) g = optimizeLoop fuel R cn hp ps rs original originalDl allPos allNeg i rest new pos neg g := by
  induction rest with
  | nil => intro i new pos neg g; rfl
  | cons rule rest ih =>
    intro i new pos neg g
    conv_lhs => unfold optimizeLoop
    conv_rhs => unfold optimizeLoop
    rcases e1 : randomSplit R g pos (Arith.complement ps) rs with ⟨a, b, g1⟩
    have e1' := randomSplit_eq (f := f) e1
    rcases e2 : randomSplit R g1 neg (Arith.complement ps) rs with ⟨c, d, g2⟩
    have e2' := randomSplit_eq (f := f) e2
    simp only [e1', e2, e2', List.map_eq_nil_iff, List.length_map, optimizeChoice_relabel, rmRuleCoversCn_relabel]
    split
    · rfl
    split
    · rfl
    cases optimizeChoice fuel cn hp original originalDl i rule allPos allNeg a b c d with
    | error e => rfl
    | ok best =>
      simp only [ok_bind]
      split
      · rfl
      · exact ih _ _ _ _ _

theorem optimizeCn_relabel (fuel : Nat) (R : PyRandom) (cn : CatNap) (hp : Hyper) (rs : Option Int) (rules : List (List Cond))
    (pos neg : List Label) (g : R.G) :
    optimizeCn fuel (R.relabel f) (cn.relabel f) hp rs rules (pos.map f) (neg.map f) g =
      optimizeCn fuel R cn hp rs rules pos neg g := by
  unfold optimizeCn
  rw [bestSubsetCn_relabel]
  cases bestSubsetCn cn rules pos neg with
  | error e => rfl
  | ok x =>
    simp only [ok_bind]
    cases hp.pruneSize with
    | none => rfl
    | some ps => exact optimizeLoop_relabel fuel R cn hp ps rs rules x.2 pos neg rules 0 rules pos neg g

theorem stage2_relabel (fuel : Nat) (R : PyRandom) (cn : CatNap) (hp : Hyper) (pos neg : List Label) (n : Nat) :
    ∀ (rules : List (List Cond)) (g : R.G),
    stage2 fuel (R.relabel f) (cn.relabel f) hp (pos.map f) (neg.map f) n rules g = stage2 fuel R cn hp pos neg n rules g := by
  induction n with
  | zero => intro rules g; rfl
  | succ n ih =>
    intro rules g
    unfold stage2
    have h := optimizeCn_relabel (f := f) fuel R cn hp (hp.randomState.map (· + 100)) rules pos neg g
    rw [h]
    cases optimizeCn fuel R cn hp (hp.randomState.map (· + 100)) rules pos neg g with
    | error e => rfl
    | ok x =>
      simp only [ok_bind]
      split
      · rfl
      · exact ih _ _

theorem coverRemainingCn_relabel (fuel : Nat) (R : PyRandom) (cn : CatNap) (hp : Hyper) (rules : List (List Cond))
    (pos neg : List Label) (g : R.G) :
    coverRemainingCn fuel (R.relabel f) (cn.relabel f) hp rules (pos.map f) (neg.map f) g =
      coverRemainingCn fuel R cn hp rules pos neg g := by
  unfold coverRemainingCn
  rw [List.length_map]
  split
  · have h := ripperGrowCn_relabel (f := f) fuel R cn hp rules pos neg g
    revert h
    generalize ripperGrowCn fuel R cn hp rules pos neg g = o
    generalize ripperGrowCn fuel (R.relabel f) (cn.relabel f) hp rules _ _ g = o'
    intro h
    cases h with
    | err e => rfl
    | ok h =>
      simp only [ok_bind]
      rw [h.1, h.2.2.2.2.2]
  · rfl

theorem ripperStages_relabel (fuel : Nat) (R : PyRandom) (cn : CatNap) (hp : Hyper) (init : List (List Cond)) (pos neg : List Label)
    (g : R.G) : ripperStages fuel (R.relabel f) (cn.relabel f) hp init (pos.map f) (neg.map f) g =
      ripperStages fuel R cn hp init pos neg g := by
  unfold ripperStages
  have h := ripperGrowCn_relabel (f := f) fuel R cn hp init pos neg g
  revert h
  generalize ripperGrowCn fuel R cn hp init pos neg g = o
  generalize ripperGrowCn fuel (R.relabel f) (cn.relabel f) hp init _ _ g = o'
  intro h
  cases h with
  | err e => rfl
  | @ok s s' h =>
    simp only [ok_bind]
    rw [h.1, h.2.2.2.2.2, stage2_relabel]
    cases stage2 fuel R cn hp pos neg hp.k.toNat s.rules s.g with
    | error e => rfl
    | ok x =>
      simp only [ok_bind]
      rw [coverRemainingCn_relabel]
      cases coverRemainingCn fuel R cn hp x.1 pos neg x.2 with
      | error e => rfl
      | ok y =>
        simp only [ok_bind]
        rw [bestSubsetCn_relabel]

theorem ripperFit_relabel (fuel : Nat) (R : PyRandom) (hp : Hyper) (init : List (List Cond)) (df : Frame) (cf : Feat) (pc : Val)
    (g : R.G) : ripperFit fuel (R.relabel f) hp init (df.relabel f) cf pc g = ripperFit fuel R hp init df cf pc g := by
  unfold ripperFit
  have hc : (df.relabel f).cols = df.cols := rfl
  simp only [relabel_nil, hc, dropCol_relabel, posRows_relabel, negRows_relabel, index_relabel, labelSet_relabel, build_relabel,
    recalibrate_relabel]
  split
  · rfl
  split
  · rfl
  cases CatNap.build df cf with
  | error e => rfl
  | ok cn =>
    simp only [Except.map, ok_bind]
    rw [ripperStages_relabel]
    rfl

/-! ### training without the index -/

theorem growRule_relabel (fuel : Nat) (cands : List Cond) (lim : Limits) (pos neg : Frame) (r : List Cond) :
    growRule fuel cands lim (pos.relabel f) (neg.relabel f) r = growRule fuel cands lim pos neg r := by
  have : growStep cands lim (pos.relabel f) (neg.relabel f) = growStep cands lim pos neg := by
    funext rule
    unfold growStep bestSuccessor gainDf
    simp only [numCoveredC_relabel]
  unfold growRule
  rw [this]

theorem irepMetric_relabel (pos neg : Frame) : irepMetric (pos.relabel f) (neg.relabel f) = irepMetric pos neg := by
  funext r
  unfold irepMetric
  simp only [numCoveredC_relabel, rows_length_relabel]

theorem ripperGrowMetric_relabel (pos neg : Frame) : ripperGrowMetric (pos.relabel f) (neg.relabel f) = ripperGrowMetric pos neg := by
  funext r
  unfold ripperGrowMetric
  simp only [numCoveredC_relabel]

theorem precisionDf_relabel (r : List Cond) (pos neg : Frame) :
    precisionDf r (pos.relabel f) (neg.relabel f) = precisionDf r pos neg := by
  unfold precisionDf
  simp only [numCoveredC_relabel]

/-- Both parts of a pair of frames under other labels. -/
def relabelPair (f : Label ≃ Label) (x : Frame × Frame) : Frame × Frame := (x.1.relabel f, x.2.relabel f)

omit [Arith] in
theorem rmCoveredRule_relabel (r : List Cond) (pos neg : Frame) :
    rmCoveredRule r (pos.relabel f) (neg.relabel f) = (rmCoveredRule r pos neg).map (relabelPair f) := by
  unfold rmCoveredRule
  rw [condsCover_relabel, condsCover_relabel]
  cases condsCover r pos with
  | error e => rfl
  | ok p =>
    cases condsCover r neg with
    | error e => rfl
    | ok n => simp only [Except.map, ok_bind, pure_eq_ok, index_relabel, dropLabels_relabel, relabelPair]

omit [Arith] in
theorem rmCoveredRuleset_relabel (rs : Ruleset) (pos neg : Frame) :
    rmCoveredRuleset rs (pos.relabel f) (neg.relabel f) = (rmCoveredRuleset rs pos neg).map (relabelPair f) := by
  unfold rmCoveredRuleset
  rw [rsCovers_relabel, rsCovers_relabel]
  cases rs.covers pos with
  | error e => rfl
  | ok p =>
    cases rs.covers neg with
    | error e => rfl
    | ok n => simp only [Except.map, ok_bind, pure_eq_ok, index_relabel, dropLabels_relabel, relabelPair]

theorem dfSplit_relabel {R : PyRandom} {g g' : R.G} {df a b : Frame} {q : Rat} {rs : Option Int}
    (h : dfShuffledSplit R g df q rs = (a, b, g')) :
    dfShuffledSplit (R.relabel f) g (df.relabel f) q rs = (a.relabel f, b.relabel f, g') := by
  unfold dfShuffledSplit at h ⊢
  rcases e : randomSplit R g df.index q rs with ⟨x, y, z⟩
  have e' := randomSplit_eq (f := f) e
  simp only [e, Prod.mk.injEq] at h
  obtain ⟨rfl, rfl, rfl⟩ := h
  simp only [index_relabel, e', loc_relabel]

omit [Arith] in
theorem updatedConds_relabel (S : SetOps) (old : Option (List Cond)) (pos neg : Frame) :
    updatedConds S old (pos.relabel f) (neg.relabel f) = updatedConds S old pos neg := by
  unfold updatedConds sharedConds
  have : (pos.relabel f).cols = pos.cols := rfl
  simp only [this, unique_relabel]

/-- The same state under other labels. -/
def RenamedDf {R : PyRandom} (f : Label ≃ Label) (s : FrameSt R) (s' : FrameSt (R.relabel f)) : Prop :=
  s'.rules = s.rules ∧ s'.pos = s.pos.relabel f ∧ s'.neg = s.neg.relabel f ∧ s'.g = s.g

theorem irepStep_relabel (fuel : Nat) (R : PyRandom) (cands : List Cond) (hp : Hyper) (s : FrameSt R)
    (s' : FrameSt (R.relabel f)) (h : RenamedDf f s s') :
    StepRel (RenamedDf f) (RenamedDf f) (irepStep fuel R cands hp s) (irepStep fuel (R.relabel f) cands hp s') := by
  obtain ⟨rules, pos, neg, g⟩ := s
  obtain ⟨rules', pos', neg', g'⟩ := s'
  obtain ⟨h1, h2, h3, h4⟩ := h
  dsimp only at h1 h2 h3 h4
  subst h1 h2 h3 h4
  unfold irepStep
  simp only [rows_nil_relabel, rows_length_relabel, condsCover_relabel, rmCoveredRule_relabel]
  split
  · exact .done ⟨rfl, rfl, rfl, rfl⟩
  split
  · exact .done ⟨rfl, rfl, rfl, rfl⟩
  rcases e1 : dfShuffledSplit R g' pos (Arith.complement hp.irepPrune) hp.randomState with ⟨a, b, g1⟩
  have e1' := dfSplit_relabel (f := f) e1
  rcases e2 : dfShuffledSplit R g1 neg (Arith.complement hp.irepPrune) hp.randomState with ⟨c, d, g2⟩
  have e2' := dfSplit_relabel (f := f) e2
  simp only [e1', e2', growRule_relabel, irepMetric_relabel, precisionDf_relabel]
  cases growRule fuel cands hp.lim a c [] with
  | error e => exact .err e
  | ok grown =>
    simp only [ok_bind]
    split
    · cases condsCover grown pos with
      | error e => exact .err e
      | ok v =>
        simp only [Except.map, ok_bind, index_relabel, dropLabels_relabel]
        exact .more ⟨rfl, rfl, rfl, rfl⟩
    cases pruneRule (irepMetric b d) grown with
    | error e => exact .err e
    | ok o =>
      simp only [ok_bind]
      cases o with
      | none => exact .err _
      | some pruned =>
        simp only
        cases precisionDf pruned b d with
        | error e => exact .err e
        | ok o =>
          simp only [ok_bind]
          cases o with
          | none => exact .done ⟨rfl, rfl, rfl, rfl⟩
          | some q =>
            simp only
            split
            · exact .done ⟨rfl, rfl, rfl, rfl⟩
            cases rmCoveredRule pruned pos neg with
            | error e => exact .err e
            | ok x => exact .more ⟨rfl, rfl, rfl, rfl⟩

theorem irepGrow_relabel (fuel : Nat) (R : PyRandom) (cands : List Cond) (hp : Hyper) (init : List (List Cond)) (pos neg : Frame)
    (g : R.G) : OutRel (RenamedDf f) (irepGrow fuel R cands hp init pos neg g)
      (irepGrow fuel (R.relabel f) cands hp init (pos.relabel f) (neg.relabel f) g) :=
  pyWhile_rel (irepStep_relabel fuel R cands hp) fuel _ _ ⟨rfl, rfl, rfl, rfl⟩

omit [Arith] in
theorem posExamples_relabel (df : Frame) (cf : Feat) (pc : Val) :
    posExamples (df.relabel f) cf pc = (posExamples df cf pc).relabel f := by
  unfold posExamples
  rw [posRows_relabel, dropCol_relabel]

omit [Arith] in
theorem negExamples_relabel (df : Frame) (cf : Feat) (pc : Val) :
    negExamples (df.relabel f) cf pc = (negExamples df cf pc).relabel f := by
  unfold negExamples
  rw [negRows_relabel, dropCol_relabel]

theorem irepFitPlain_relabel (fuel : Nat) (R : PyRandom) (S : SetOps) (hp : Hyper) (old : Option (List Cond))
    (init : List (List Cond)) (df : Frame) (cf : Feat) (pc : Val) (g : R.G) :
    irepFitPlain fuel (R.relabel f) S hp old init (df.relabel f) cf pc g = irepFitPlain fuel R S hp old init df cf pc g := by
  unfold irepFitPlain
  have hc : (df.relabel f).cols = df.cols := rfl
  simp only [relabel_nil, hc, dropCol_relabel, posExamples_relabel, negExamples_relabel, updatedConds_relabel,
    recalibrate_relabel]
  split
  · rfl
  split
  · rfl
  have := irepGrow_relabel (f := f) fuel R (updatedConds S old (posExamples df cf pc) (negExamples df cf pc)) hp init
    (posExamples df cf pc) (negExamples df cf pc) g
  revert this
  generalize irepGrow fuel R _ hp init _ _ g = o
  generalize irepGrow fuel (R.relabel f) _ hp init _ _ g = o'
  intro h
  cases h with
  | err e => rfl
  | ok h =>
    simp only [ok_bind]
    rw [h.1, h.2.2.2]
    rfl

/-! ### RIPPER without the index -/

omit [Arith] in
theorem rulesNumCovered_relabel (rules : List (List Cond)) (df : Frame) :
    rulesNumCovered rules (df.relabel f) = rulesNumCovered rules df := by
  unfold rulesNumCovered Ruleset.numCovered
  rw [rsCovers_relabel]
  generalize Ruleset.covers _ df = o
  cases o with
  | error e => rfl
  | ok d => simp only [Except.map, ok_bind, rows_length_relabel]

theorem exceptionsDf_relabel (rules : List (List Cond)) (pos neg : Frame) :
    exceptionsDf rules (pos.relabel f) (neg.relabel f) = exceptionsDf rules pos neg := by
  unfold exceptionsDf
  simp only [rulesNumCovered_relabel, rows_length_relabel]

theorem totalBitsDf_relabel (n : Nat) (rules : List (List Cond)) (pos neg : Frame) :
    totalBitsDf n rules (pos.relabel f) (neg.relabel f) = totalBitsDf n rules pos neg := by
  unfold totalBitsDf
  simp only [exceptionsDf_relabel]

theorem subsetDlsDf_relabel (n : Nat) (pos neg : Frame) (rules : List (List Cond)) : ∀ (theory : Rat) (done : List (List Cond)),
    subsetDlsDf n (pos.relabel f) (neg.relabel f) theory done rules = subsetDlsDf n pos neg theory done rules := by
  induction rules with
  | nil => intro theory done; rfl
  | cons r rules ih =>
    intro theory done
    unfold subsetDlsDf
    simp only [exceptionsDf_relabel, ih]

theorem bestSubsetDf_relabel (n : Nat) (rules : List (List Cond)) (pos neg : Frame) :
    bestSubsetDf n rules (pos.relabel f) (neg.relabel f) = bestSubsetDf n rules pos neg := by
  unfold bestSubsetDf
  simp only [subsetDlsDf_relabel, totalBitsDf_relabel]

theorem rulesetAccuracy_relabel (rules : List (List Cond)) (pos neg : Frame) :
    rulesetAccuracy rules (pos.relabel f) (neg.relabel f) = rulesetAccuracy rules pos neg := by
  unfold rulesetAccuracy
  simp only [rulesNumCovered_relabel, rows_length_relabel]

/-- The same state under other labels. -/
def RenamedRipDf {R : PyRandom} (f : Label ≃ Label) (s : FrameRipSt R) (s' : FrameRipSt (R.relabel f)) : Prop :=
  s'.rules = s.rules ∧ s'.pos = s.pos.relabel f ∧ s'.neg = s.neg.relabel f ∧ s'.dl = s.dl ∧ s'.diff = s.diff ∧ s'.g = s.g

theorem ripperStep_relabel (fuel : Nat) (R : PyRandom) (cands : List Cond) (hp : Hyper) (allPos allNeg : Frame) (s : FrameRipSt R)
    (s' : FrameRipSt (R.relabel f)) (h : RenamedRipDf f s s') :
    StepRel (RenamedRipDf f) (RenamedRipDf f) (ripperStep fuel R cands hp allPos allNeg s)
      (ripperStep fuel (R.relabel f) cands hp (allPos.relabel f) (allNeg.relabel f) s') := by
  obtain ⟨rules, pos, neg, dl, diff, g⟩ := s
  obtain ⟨rules', pos', neg', dl', diff', g'⟩ := s'
  obtain ⟨h1, h2, h3, h4, h5, h6⟩ := h
  dsimp only at h1 h2 h3 h4 h5 h6
  subst h1 h2 h3 h4 h5 h6
  unfold ripperStep
  simp only [rows_nil_relabel, rows_length_relabel, rmCoveredRule_relabel, exceptionsDf_relabel]
  split
  · exact .done ⟨rfl, rfl, rfl, rfl, rfl, rfl⟩
  split
  · exact .done ⟨rfl, rfl, rfl, rfl, rfl, rfl⟩
  cases hp.pruneSize with
  | none => exact .err _
  | some ps =>
    simp only
    rcases e1 : dfShuffledSplit R g' pos (Arith.complement ps) hp.randomState with ⟨a, b, g1⟩
    have e1' := dfSplit_relabel (f := f) e1
    rcases e2 : dfShuffledSplit R g1 neg (Arith.complement ps) hp.randomState with ⟨c, d, g2⟩
    have e2' := dfSplit_relabel (f := f) e2
    simp only [e1', e2', growRule_relabel, ripperGrowMetric_relabel, rows_nil_relabel]
    split
    · exact .done ⟨rfl, rfl, rfl, rfl, rfl, rfl⟩
    cases growRule fuel cands hp.lim a c [] with
    | error e => exact .err e
    | ok grown =>
      simp only [ok_bind]
      split
      · exact .done ⟨rfl, rfl, rfl, rfl, rfl, rfl⟩
      cases pruneRule (ripperGrowMetric b d) grown with
      | error e => exact .err e
      | ok o =>
        simp only [ok_bind]
        cases o with
        | none => exact .err _
        | some pruned =>
          simp only
          cases ruleTheory cands.length pruned.length with
          | error e => exact .err e
          | ok rd =>
            simp only [ok_bind]
            cases exceptionsDf (rules' ++ [pruned]) allPos allNeg with
            | error e => exact .err e
            | ok dd =>
              simp only [ok_bind]
              cases rmCoveredRule pruned pos neg with
              | error e => exact .err e
              | ok x => exact .more ⟨rfl, rfl, rfl, rfl, rfl, rfl⟩

theorem ripperGrow_relabel (fuel : Nat) (R : PyRandom) (cands : List Cond) (hp : Hyper) (init : List (List Cond)) (pos neg : Frame)
    (g : R.G) : OutRel (RenamedRipDf f) (ripperGrow fuel R cands hp init pos neg g)
      (ripperGrow fuel (R.relabel f) cands hp init (pos.relabel f) (neg.relabel f) g) :=
  pyWhile_rel (ripperStep_relabel fuel R cands hp pos neg) fuel _ _ ⟨rfl, rfl, rfl, rfl, rfl, rfl⟩

theorem optimizeChoiceDf_relabel (fuel : Nat) (cands : List Cond) (hp : Hyper) (original : List (List Cond)) (originalDl : Rat)
    (i : Nat) (rule : List Cond) (allPos allNeg a b c d : Frame) :
    optimizeChoiceDf fuel cands hp original originalDl i rule (allPos.relabel f) (allNeg.relabel f) (a.relabel f) (b.relabel f)
      (c.relabel f) (d.relabel f) = optimizeChoiceDf fuel cands hp original originalDl i rule allPos allNeg a b c d := by
  unfold optimizeChoiceDf
  simp only [growRule_relabel, rulesetAccuracy_relabel, bestSubsetDf_relabel]

theorem optimizeLoopDf_relabel (fuel : Nat) (R : PyRandom) (cands : List Cond) (hp : Hyper) (ps : Rat) (rs : Option Int)
    (original : List (List Cond)) (originalDl : Rat) (allPos allNeg : Frame) (rest : List (List Cond)) :
    ∀ (i : Nat) (new : List (List Cond)) (pos neg : Frame) (g : R.G),
    optimizeLoopDf fuel (R.relabel f) cands hp ps rs original originalDl (allPos.relabel f) (allNeg.relabel f) i rest new
      (pos.relabel f) (neg.relabel f) g = optimizeLoopDf fuel R cands hp ps rs original originalDl allPos allNeg i rest new pos neg g := by
  induction rest with
  | nil => intro i new pos neg g; rfl
  | cons rule rest ih =>
    intro i new pos neg g
    conv_lhs => unfold optimizeLoopDf
    conv_rhs => unfold optimizeLoopDf
    rcases e1 : dfShuffledSplit R g pos (Arith.complement ps) rs with ⟨a, b, g1⟩
    have e1' := dfSplit_relabel (f := f) e1
    rcases e2 : dfShuffledSplit R g1 neg (Arith.complement ps) rs with ⟨c, d, g2⟩
    have e2' := dfSplit_relabel (f := f) e2
    simp only [e1', e2, e2', rows_nil_relabel, rows_length_relabel, optimizeChoiceDf_relabel, rmCoveredRule_relabel]
    split
    · rfl
    split
    · rfl
    cases optimizeChoiceDf fuel cands hp original originalDl i rule allPos allNeg a b c d with
    | error e => rfl
    | ok best =>
      simp only [ok_bind]
      cases rmCoveredRule rule pos neg with
      | error e => rfl
      | ok x =>
        simp only [Except.map, ok_bind, relabelPair, rows_nil_relabel]
        split
        · rfl
        · exact ih _ _ _ _ _

theorem optimizeDf_relabel (fuel : Nat) (R : PyRandom) (cands : List Cond) (hp : Hyper) (rs : Option Int) (rules : List (List Cond))
    (pos neg : Frame) (g : R.G) :
    optimizeDf fuel (R.relabel f) cands hp rs rules (pos.relabel f) (neg.relabel f) g =
      optimizeDf fuel R cands hp rs rules pos neg g := by
  unfold optimizeDf
  rw [bestSubsetDf_relabel]
  cases bestSubsetDf cands.length rules pos neg with
  | error e => rfl
  | ok x =>
    simp only [ok_bind]
    cases hp.pruneSize with
    | none => rfl
    | some ps => exact optimizeLoopDf_relabel fuel R cands hp ps rs rules x.2 pos neg rules 0 rules pos neg g

theorem stage2Df_relabel (fuel : Nat) (R : PyRandom) (cands : List Cond) (hp : Hyper) (pos neg : Frame) (n : Nat) :
    ∀ (rules : List (List Cond)) (g : R.G),
    stage2Df fuel (R.relabel f) cands hp (pos.relabel f) (neg.relabel f) n rules g = stage2Df fuel R cands hp pos neg n rules g := by
  induction n with
  | zero => intro rules g; rfl
  | succ n ih =>
    intro rules g
    unfold stage2Df
    have h := optimizeDf_relabel (f := f) fuel R cands hp (hp.randomState.map (· + 100)) rules pos neg g
    rw [h]
    cases optimizeDf fuel R cands hp (hp.randomState.map (· + 100)) rules pos neg g with
    | error e => rfl
    | ok x =>
      simp only [ok_bind]
      split
      · rfl
      · exact ih _ _

theorem coverRemainingDf_relabel (fuel : Nat) (R : PyRandom) (S : SetOps) (cands : List Cond) (hp : Hyper)
    (rules : List (List Cond)) (pos neg : Frame) (g : R.G) :
    coverRemainingDf fuel (R.relabel f) S cands hp rules (pos.relabel f) (neg.relabel f) g =
      coverRemainingDf fuel R S cands hp rules pos neg g := by
  unfold coverRemainingDf
  rw [rmCoveredRuleset_relabel]
  generalize rmCoveredRuleset _ pos neg = o
  cases o with
  | error e => rfl
  | ok x =>
    simp only [Except.map, ok_bind, relabelPair, rows_length_relabel, updatedConds_relabel]
    split
    · have h := ripperGrow_relabel (f := f) fuel R (updatedConds S (if rules = [] then none else some cands) x.1 x.2) hp rules
        x.1 x.2 g
      revert h
      generalize ripperGrow fuel R _ hp rules _ _ g = o
      generalize ripperGrow fuel (R.relabel f) _ hp rules _ _ g = o'
      intro h
      cases h with
      | err e => rfl
      | ok h =>
        simp only [ok_bind]
        rw [h.1, h.2.2.2.2.2]
    · rfl

theorem ripperStagesDf_relabel (fuel : Nat) (R : PyRandom) (S : SetOps) (hp : Hyper) (old : Option (List Cond))
    (init : List (List Cond)) (pos neg : Frame) (g : R.G) :
    ripperStagesDf fuel (R.relabel f) S hp old init (pos.relabel f) (neg.relabel f) g =
      ripperStagesDf fuel R S hp old init pos neg g := by
  unfold ripperStagesDf
  simp only [updatedConds_relabel]
  generalize updatedConds S old pos neg = cands
  have h := ripperGrow_relabel (f := f) fuel R cands hp init pos neg g
  revert h
  generalize ripperGrow fuel R cands hp init pos neg g = o
  generalize ripperGrow fuel (R.relabel f) cands hp init _ _ g = o'
  intro h
  cases h with
  | err e => rfl
  | @ok s s' h =>
    simp only [ok_bind]
    rw [h.1, h.2.2.2.2.2, stage2Df_relabel]
    cases stage2Df fuel R cands hp pos neg hp.k.toNat s.rules s.g with
    | error e => rfl
    | ok x =>
      simp only [ok_bind]
      rw [coverRemainingDf_relabel]
      cases coverRemainingDf fuel R S cands hp x.1 pos neg x.2 with
      | error e => rfl
      | ok y =>
        simp only [ok_bind]
        rw [bestSubsetDf_relabel]

theorem ripperFitPlain_relabel (fuel : Nat) (R : PyRandom) (S : SetOps) (hp : Hyper) (old : Option (List Cond))
    (init : List (List Cond)) (df : Frame) (cf : Feat) (pc : Val) (g : R.G) :
    ripperFitPlain fuel (R.relabel f) S hp old init (df.relabel f) cf pc g = ripperFitPlain fuel R S hp old init df cf pc g := by
  unfold ripperFitPlain
  have hc : (df.relabel f).cols = df.cols := rfl
  simp only [relabel_nil, hc, dropCol_relabel, posExamples_relabel, negExamples_relabel, recalibrate_relabel]
  split
  · rfl
  split
  · rfl
  rw [ripperStagesDf_relabel]
  rfl

/-! ### prediction -/

omit [Arith] in
theorem predict_relabel (rs : Ruleset) (df : Frame) : rs.predict (df.relabel f) = rs.predict df := by
  unfold Ruleset.predict
  rw [rsCovers_relabel]
  cases rs.covers df with
  | error e => rfl
  | ok d =>
    simp only [Except.map, ok_bind, pure_eq_ok, index_relabel, labelSet_relabel, List.map_map, Except.ok.injEq]
    exact List.map_congr_left fun x _ => contains_map _ x

omit [Arith] in
theorem numCovered_relabel (r : Rule) (df : Frame) : r.numCovered (df.relabel f) = r.numCovered df :=
  numCoveredC_relabel r.conds df

omit [Arith] in
theorem reasonsAt_relabel (rules : List Rule) (df : Frame) (i : Label) :
    reasonsAt rules (df.relabel f) (f i) = reasonsAt rules df i := by
  unfold reasonsAt
  rw [keep_relabel df (fun row => row.label == i) (fun row => row.label == f i) (fun r => by simp [Row.relabel])]
  simp only [numCovered_relabel]

omit [Arith] in
theorem predictReasons_relabel (rs : Ruleset) (df : Frame) : rs.predictReasons (df.relabel f) = rs.predictReasons df := by
  unfold Ruleset.predictReasons
  rw [predict_relabel]
  cases rs.predict df with
  | error e => rfl
  | ok ps =>
    simp only [ok_bind, index_relabel]
    have : (df.index.map f).zip ps = (df.index.zip ps).map (fun ip => (f ip.1, ip.2)) := by
      rw [List.zip_map_left]
      rfl
    rw [this, List.mapM_map]
    simp only [Function.comp_def, reasonsAt_relabel]

omit [Arith] in
theorem predictProbaReasons_relabel (rs : Ruleset) (df : Frame) :
    rs.predictProbaReasons (df.relabel f) = rs.predictProbaReasons df := by
  unfold Ruleset.predictProbaReasons
  rw [predictReasons_relabel]

end Witt
