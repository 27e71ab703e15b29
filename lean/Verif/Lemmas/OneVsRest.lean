import Verif.Lemmas.RecodePlain
/-
Training looks at the class column only to tell the positive rows from the negative ones: after that, cells outside the columns of a
frame are never read.
-/
namespace Witt
open Spec
variable [Arith]

/-- The row with the cells of the listed columns only. -/
def Row.only (cols : List Feat) (r : Row) : Row := { r with cell := fun f => if f ∈ cols then r.cell f else .nan }
/-- The frame with the cells of its columns only. -/
def Frame.bare (df : Frame) : Frame := { df with rows := df.rows.map (Row.only df.cols) }

omit [Arith] in
theorem rows_length_bare (df : Frame) : df.bare.rows.length = df.rows.length := by simp [Frame.bare]
omit [Arith] in
theorem rows_nil_bare (df : Frame) : df.bare.rows = [] ↔ df.rows = [] := by simp [Frame.bare]
omit [Arith] in
theorem index_bare (df : Frame) : df.bare.index = df.index := by
  simp [Frame.index, Frame.bare, Row.only, Function.comp_def]

omit [Arith] in
theorem keep_bare (df : Frame) (p : Row → Bool) (h : ∀ r, p (r.only df.cols) = p r) : df.bare.keep p = (df.keep p).bare := by
  unfold Frame.keep Frame.bare
  simp only [List.filter_map, Frame.mk.injEq, true_and]
  congr 1
  exact List.filter_congr fun r _ => h r

omit [Arith] in
theorem dropLabels_bare (df : Frame) (ls : List Label) : df.bare.dropLabels ls = (df.dropLabels ls).bare := keep_bare df _ fun _ => rfl

omit [Arith] in
theorem loc_bare (df : Frame) (ls : List Label) : df.bare.loc ls = (df.loc ls).bare := by
  unfold Frame.loc Frame.bare
  simp only [Frame.mk.injEq, true_and, List.map_flatMap, List.filter_map]
  rfl

omit [Arith] in
theorem unique_bare (df : Frame) {f : Feat} (h : f ∈ df.cols) : df.bare.unique f = df.unique f := by
  unfold Frame.unique Frame.bare
  rw [List.map_map]
  congr 1
  refine List.map_congr_left fun r _ => ?_
  simp [Row.only, h]

omit [Arith] in
theorem covers_bare (c : Cond) (df : Frame) : c.covers df.bare = (c.covers df).map Frame.bare := by
  unfold Cond.covers
  have : df.bare.cols = df.cols := rfl
  rw [this]
  split
  · rename_i h
    rw [keep_bare df c.met fun r => by simp [Cond.met, Row.only, h]]; rfl
  · rfl

omit [Arith] in
theorem condsCover_bare (r : List Cond) : ∀ df : Frame, condsCover r df.bare = (condsCover r df).map Frame.bare := by
  induction r with
  | nil => intro df; rfl
  | cons c r ih =>
    intro df
    unfold condsCover
    rw [covers_bare]
    cases c.covers df with
    | error e => rfl
    | ok d => exact ih d

omit [Arith] in
theorem numCoveredC_bare (r : List Cond) (df : Frame) : numCoveredC r df.bare = numCoveredC r df := by
  unfold numCoveredC
  rw [condsCover_bare]
  cases condsCover r df with
  | error e => rfl
  | ok d => simp [Except.map, ok_bind, rows_length_bare]

omit [Arith] in
theorem rsCovers_bare (rs : Ruleset) (df : Frame) : rs.covers df.bare = (rs.covers df).map Frame.bare := by
  unfold Ruleset.covers
  split
  · rfl
  split
  · rfl
  have : rs.rules.mapM (fun r : Rule => r.covers df.bare) = (rs.rules.mapM (fun r : Rule => r.covers df)).map (List.map Frame.bare) :=
    mapM_map (fun r : Rule => condsCover_bare r.conds df) rs.rules
  rw [this]
  have hcols : ∀ ds, rs.rules.mapM (fun r : Rule => r.covers df) = .ok ds → ∀ d ∈ ds, d.cols = df.cols := by
    have aux : ∀ (l : List Rule) ds, l.mapM (fun r : Rule => r.covers df) = .ok ds → ∀ d ∈ ds, d.cols = df.cols := by
      intro l
      induction l with
      | nil => intro ds h; cases h; intro d hd; cases hd
      | cons r l ih =>
        intro ds h
        rw [List.mapM_cons] at h
        obtain ⟨d0, h0, h⟩ := bind_ok_iff.mp h
        obtain ⟨ds0, h1, h⟩ := bind_ok_iff.mp h
        cases h
        intro d hd
        rcases List.mem_cons.mp hd with rfl | hd
        · have aux : ∀ (cs : List Cond) (df d : Frame), condsCover cs df = .ok d → d.cols = df.cols := by
            intro cs
            induction cs with
            | nil => intro df d h; cases h; rfl
            | cons c cs ih =>
              intro df d h
              unfold condsCover Cond.covers at h
              split at h
              · exact (ih _ _ h).trans rfl
              · cases h
          exact aux r.conds df _ h0
        · exact ih ds0 h1 d hd
    exact aux rs.rules
  revert hcols
  generalize rs.rules.mapM (fun r : Rule => r.covers df) = o
  intro hcols
  cases o with
  | error e => rfl
  | ok ds =>
    have := hcols ds rfl
    simp only [Except.map, ok_bind, pure_eq_ok, Frame.bare]
    rw [List.map_flatten, List.map_map, List.map_map]
    congr 3
    refine List.map_congr_left fun d hd => ?_
    simp only [Function.comp]
    show d.rows.map (Row.only d.cols) = _
    rw [this d hd]

omit [Arith] in
theorem rulesNumCovered_bare (rules : List (List Cond)) (df : Frame) : rulesNumCovered rules df.bare = rulesNumCovered rules df := by
  unfold rulesNumCovered Ruleset.numCovered
  rw [rsCovers_bare]
  generalize Ruleset.covers _ df = o
  cases o with
  | error e => rfl
  | ok x => simp only [Except.map, ok_bind, rows_length_bare]

/-! ### growing and pruning -/

theorem gainDf_bare (a b : List Cond) (pos neg : Frame) : gainDf a b pos.bare neg.bare = gainDf a b pos neg := by
  unfold gainDf
  simp only [numCoveredC_bare]

theorem growRule_bare (fuel : Nat) (cands : List Cond) (lim : Limits) (pos neg : Frame) (r : List Cond) :
    growRule fuel cands lim pos.bare neg.bare r = growRule fuel cands lim pos neg r := by
  unfold growRule
  congr 1
  funext r
  unfold growStep bestSuccessor
  simp only [numCoveredC_bare, gainDf_bare]

theorem irepMetric_bare (pos neg : Frame) : irepMetric pos.bare neg.bare = irepMetric pos neg := by
  funext r
  unfold irepMetric
  simp only [numCoveredC_bare, rows_length_bare]

theorem ripperGrowMetric_bare (pos neg : Frame) : ripperGrowMetric pos.bare neg.bare = ripperGrowMetric pos neg := by
  funext r
  unfold ripperGrowMetric
  simp only [numCoveredC_bare]

theorem precisionDf_bare (r : List Cond) (pos neg : Frame) : precisionDf r pos.bare neg.bare = precisionDf r pos neg := by
  unfold precisionDf
  simp only [numCoveredC_bare]

/-- Both parts of a pair of frames. -/
def barePair (x : Frame × Frame) : Frame × Frame := (x.1.bare, x.2.bare)

omit [Arith] in
theorem rmCoveredRule_bare (r : List Cond) (pos neg : Frame) :
    rmCoveredRule r pos.bare neg.bare = (rmCoveredRule r pos neg).map barePair := by
  unfold rmCoveredRule
  rw [condsCover_bare, condsCover_bare]
  cases condsCover r pos with
  | error e => rfl
  | ok p =>
    cases condsCover r neg with
    | error e => rfl
    | ok n => simp only [Except.map, ok_bind, pure_eq_ok, index_bare, dropLabels_bare, barePair]

omit [Arith] in
theorem rmCoveredRuleset_bare (rs : Ruleset) (pos neg : Frame) :
    rmCoveredRuleset rs pos.bare neg.bare = (rmCoveredRuleset rs pos neg).map barePair := by
  unfold rmCoveredRuleset
  rw [rsCovers_bare, rsCovers_bare]
  cases rs.covers pos with
  | error e => rfl
  | ok p =>
    cases rs.covers neg with
    | error e => rfl
    | ok n => simp only [Except.map, ok_bind, pure_eq_ok, index_bare, dropLabels_bare, barePair]

theorem dfSplit_bare {R : PyRandom} {g g' : R.G} {df a b : Frame} {q : Rat} {rs : Option Int}
    (h : dfShuffledSplit R g df q rs = (a, b, g')) : dfShuffledSplit R g df.bare q rs = (a.bare, b.bare, g') := by
  unfold dfShuffledSplit at h ⊢
  rcases e : randomSplit R g df.index q rs with ⟨x, y, z⟩
  simp only [e, Prod.mk.injEq] at h
  obtain ⟨rfl, rfl, rfl⟩ := h
  simp only [index_bare, e, loc_bare]

omit [Arith] in
theorem updatedConds_bare (S : SetOps) (old : Option (List Cond)) {pos neg : Frame} (h : neg.cols = pos.cols) :
    updatedConds S old pos.bare neg.bare = updatedConds S old pos neg := by
  unfold updatedConds sharedConds
  congr 1
  have : pos.bare.cols = pos.cols := rfl
  rw [this]
  refine List.flatMap_congr fun f hf => ?_
  rw [unique_bare pos hf, unique_bare neg (h ▸ hf)]

/-- A state of the growing loop. -/
def FrameSt.bare {R : PyRandom} (s : FrameSt R) : FrameSt R := { s with pos := s.pos.bare, neg := s.neg.bare }

theorem irepGrow_bare (fuel : Nat) (R : PyRandom) (cands : List Cond) (hp : Hyper) (init : List (List Cond)) (pos neg : Frame)
    (g : R.G) : irepGrow fuel R cands hp init pos.bare neg.bare g = (irepGrow fuel R cands hp init pos neg g).map FrameSt.bare := by
  unfold irepGrow
  refine pyWhile_map (h := FrameSt.bare) (k := FrameSt.bare) (fun s => ?_) fuel { rules := init, pos := pos, neg := neg, g := g }
  obtain ⟨rules, pos, neg, g⟩ := s
  unfold irepStep FrameSt.bare
  simp only [rows_length_bare, rows_nil_bare]
  split
  · exact .done rfl
  split
  · exact .done rfl
  rcases e1 : dfShuffledSplit R g pos (Arith.complement hp.irepPrune) hp.randomState with ⟨a, b, g1⟩
  rcases e2 : dfShuffledSplit R g1 neg (Arith.complement hp.irepPrune) hp.randomState with ⟨c, d, g2⟩
  simp only [dfSplit_bare e1, dfSplit_bare e2, growRule_bare]
  cases growRule fuel cands hp.lim a c [] with
  | error e => exact .err e
  | ok grown =>
    simp only [ok_bind]
    split
    · rw [condsCover_bare]
      cases condsCover grown pos with
      | error e => exact .err e
      | ok cov =>
        simp only [Except.map, ok_bind, index_bare, dropLabels_bare]
        exact .more rfl
    · rw [irepMetric_bare]
      cases pruneRule (irepMetric b d) grown with
      | error e => exact .err e
      | ok o =>
        cases o with
        | none => exact .err _
        | some pruned =>
          simp only [ok_bind, precisionDf_bare]
          cases precisionDf pruned b d with
          | error e => exact .err e
          | ok q =>
            simp only [ok_bind]
            cases q with
            | none => exact .done rfl
            | some q =>
              simp only
              split
              · exact .done rfl
              · rw [rmCoveredRule_bare]
                cases rmCoveredRule pruned pos neg with
                | error e => exact .err e
                | ok x =>
                  simp only [Except.map, ok_bind, barePair]
                  exact .more rfl

/-! ### RIPPER -/

theorem exceptionsDf_bare (rules : List (List Cond)) (pos neg : Frame) : exceptionsDf rules pos.bare neg.bare = exceptionsDf rules pos neg := by
  unfold exceptionsDf
  simp only [rulesNumCovered_bare, rows_length_bare]

theorem subsetDlsDf_bare (n : Nat) (pos neg : Frame) (rules : List (List Cond)) : ∀ (theory : Rat) (done : List (List Cond)),
    subsetDlsDf n pos.bare neg.bare theory done rules = subsetDlsDf n pos neg theory done rules := by
  induction rules with
  | nil => intro _ _; rfl
  | cons r rules ih =>
    intro theory done
    rw [subsetDlsDf, subsetDlsDf]
    simp only [exceptionsDf_bare, ih]

theorem bestSubsetDf_bare (n : Nat) (rules : List (List Cond)) (pos neg : Frame) :
    bestSubsetDf n rules pos.bare neg.bare = bestSubsetDf n rules pos neg := by
  unfold bestSubsetDf totalBitsDf
  simp only [subsetDlsDf_bare, exceptionsDf_bare]

theorem rulesetAccuracy_bare (rules : List (List Cond)) (pos neg : Frame) :
    rulesetAccuracy rules pos.bare neg.bare = rulesetAccuracy rules pos neg := by
  unfold rulesetAccuracy
  simp only [rulesNumCovered_bare, rows_length_bare]

/-- A state of the growing loop. -/
def FrameRipSt.bare {R : PyRandom} (s : FrameRipSt R) : FrameRipSt R := { s with pos := s.pos.bare, neg := s.neg.bare }

theorem ripperGrow_bare (fuel : Nat) (R : PyRandom) (cands : List Cond) (hp : Hyper) (init : List (List Cond)) (allPos allNeg : Frame)
    (g : R.G) : ripperGrow fuel R cands hp init allPos.bare allNeg.bare g =
      (ripperGrow fuel R cands hp init allPos allNeg g).map FrameRipSt.bare := by
  unfold ripperGrow
  refine pyWhile_map (h := FrameRipSt.bare) (k := FrameRipSt.bare) (fun s => ?_) fuel
    { rules := init, pos := allPos, neg := allNeg, dl := none, diff := Arith.zeroDl, g := g }
  obtain ⟨rules, pos, neg, dl, diff, g⟩ := s
  unfold ripperStep FrameRipSt.bare
  simp only [rows_length_bare, rows_nil_bare]
  split
  · exact .done rfl
  split
  · exact .done rfl
  cases hp.pruneSize with
  | none => exact .err _
  | some ps =>
    simp only
    rcases e1 : dfShuffledSplit R g pos (Arith.complement ps) hp.randomState with ⟨a, b, g1⟩
    rcases e2 : dfShuffledSplit R g1 neg (Arith.complement ps) hp.randomState with ⟨c, d, g2⟩
    simp only [dfSplit_bare e1, dfSplit_bare e2, growRule_bare, rows_nil_bare]
    split
    · exact .done rfl
    cases growRule fuel cands hp.lim a c [] with
    | error e => exact .err e
    | ok grown =>
      simp only [ok_bind]
      split
      · exact .done rfl
      rw [ripperGrowMetric_bare]
      cases pruneRule (ripperGrowMetric b d) grown with
      | error e => exact .err e
      | ok o =>
        cases o with
        | none => exact .err _
        | some pruned =>
          simp only [ok_bind, exceptionsDf_bare, rmCoveredRule_bare]
          cases ruleTheory cands.length pruned.length with
          | error e => exact .err e
          | ok rd =>
            simp only [ok_bind]
            cases exceptionsDf (rules ++ [pruned]) allPos allNeg with
            | error e => exact .err e
            | ok dd =>
              simp only [ok_bind]
              cases rmCoveredRule pruned pos neg with
              | error e => exact .err e
              | ok x => exact .more rfl

theorem optimizeChoiceDf_bare (fuel : Nat) (cands : List Cond) (hp : Hyper) (original : List (List Cond)) (originalDl : Rat) (i : Nat)
    (rule : List Cond) (allPos allNeg a b c d : Frame) :
    optimizeChoiceDf fuel cands hp original originalDl i rule allPos.bare allNeg.bare a.bare b.bare c.bare d.bare =
      optimizeChoiceDf fuel cands hp original originalDl i rule allPos allNeg a b c d := by
  unfold optimizeChoiceDf
  simp only [growRule_bare, rulesetAccuracy_bare, bestSubsetDf_bare]

theorem optimizeLoopDf_bare (fuel : Nat) (R : PyRandom) (cands : List Cond) (hp : Hyper) (ps : Rat) (rs : Option Int)
    (original : List (List Cond)) (originalDl : Rat) (allPos allNeg : Frame) (rest : List (List Cond)) :
    ∀ (i : Nat) (new : List (List Cond)) (pos neg : Frame) (g : R.G),
    OutRel Eq (optimizeLoopDf fuel R cands hp ps rs original originalDl allPos.bare allNeg.bare i rest new pos.bare neg.bare g)
      (optimizeLoopDf fuel R cands hp ps rs original originalDl allPos allNeg i rest new pos neg g) := by
  induction rest with
  | nil => intro i new pos neg g; exact .ok rfl
  | cons rule rest ih =>
    intro i new pos neg g
    unfold optimizeLoopDf
    rcases e1 : dfShuffledSplit R g pos (Arith.complement ps) rs with ⟨a, b, g1⟩
    rcases e2 : dfShuffledSplit R g1 neg (Arith.complement ps) rs with ⟨c, d, g2⟩
    simp only [dfSplit_bare e1, dfSplit_bare e2, e2, rows_nil_bare, rows_length_bare]
    split
    · exact .ok rfl
    split
    · exact .ok rfl
    have hc := optimizeChoiceDf_bare fuel cands hp original originalDl i rule allPos allNeg a b c d
    revert hc
    generalize optimizeChoiceDf fuel cands hp original originalDl i rule allPos allNeg a b c d = o
    generalize optimizeChoiceDf fuel cands hp original originalDl i rule _ _ _ _ _ _ = o'
    intro hc
    subst hc
    cases o' with
    | error e => exact .err e
    | ok best =>
      simp only [ok_bind]
      rw [rmCoveredRule_bare]
      cases rmCoveredRule rule pos neg with
      | error e => exact .err e
      | ok x =>
        simp only [Except.map, ok_bind, barePair, rows_nil_bare]
        split
        · exact .ok rfl
        · exact ih _ _ _ _ _

omit [Arith] in
theorem OutRel.eq {α : Type} {o o' : Except PyErr α} (h : OutRel Eq o o') : o = o' := by
  cases h with
  | err e => rfl
  | ok h => rw [h]

theorem stage2Df_bare (fuel : Nat) (R : PyRandom) (cands : List Cond) (hp : Hyper) (pos neg : Frame) (n : Nat) :
    ∀ (rules : List (List Cond)) (g : R.G),
    stage2Df fuel R cands hp pos.bare neg.bare n rules g = stage2Df fuel R cands hp pos neg n rules g := by
  induction n with
  | zero => intro rules g; rfl
  | succ n ih =>
    intro rules g
    unfold stage2Df optimizeDf
    simp only [bestSubsetDf_bare, (optimizeLoopDf_bare fuel R cands hp _ _ _ _ _ _ _ _ _ _ _ _).eq, ih]

theorem ripperStagesDf_bare (fuel : Nat) (R : PyRandom) (S : SetOps) (hp : Hyper) (old : Option (List Cond)) (init : List (List Cond))
    {pos neg : Frame} (hc : neg.cols = pos.cols) (g : R.G) :
    ripperStagesDf fuel R S hp old init pos.bare neg.bare g = ripperStagesDf fuel R S hp old init pos neg g := by
  unfold ripperStagesDf
  simp only [updatedConds_bare S old hc, ripperGrow_bare]
  generalize updatedConds S old pos neg = cands
  cases ripperGrow fuel R cands hp init pos neg g with
  | error e => rfl
  | ok st =>
    simp only [Except.map, ok_bind]
    have e1 : st.bare.rules = st.rules := rfl
    have e2 : st.bare.g = st.g := rfl
    rw [e1, e2, stage2Df_bare]
    cases stage2Df fuel R cands hp pos neg hp.k.toNat st.rules st.g with
    | error e => rfl
    | ok x =>
      obtain ⟨r2, g2⟩ := x
      simp only [ok_bind]
      have : coverRemainingDf fuel R S cands hp r2 pos.bare neg.bare g2 = coverRemainingDf fuel R S cands hp r2 pos neg g2 := by
        unfold coverRemainingDf
        rw [rmCoveredRuleset_bare]
        cases hrm : rmCoveredRuleset { rules := r2.map (fun c => { conds := c }) } pos neg with
        | error e => rfl
        | ok x =>
          obtain ⟨pos', neg'⟩ := x
          obtain ⟨s1, s2, s3, s4⟩ := rmCoveredRuleset_sub hrm
          have hc' : neg'.cols = pos'.cols := by rw [s3, s4, hc]
          simp only [Except.map, ok_bind, barePair, rows_length_bare, updatedConds_bare S _ hc', ripperGrow_bare]
          split
          · generalize ripperGrow fuel R _ hp r2 pos' neg' g2 = o
            cases o <;> rfl
          · rfl
      rw [this]
      simp only [bestSubsetDf_bare]

/-! ### the class column -/

namespace Spec
/-- The two rows have the same label and the same cells outside the class column, and are both positive or both negative. -/
structure SameExample (cf : Feat) (pc pc' : Val) (r r' : Row) : Prop where
  label : r.label = r'.label
  cell : ∀ f, f ≠ cf → r.cell f = r'.cell f
  positive : (r.cell cf).pyEq pc = (r'.cell cf).pyEq pc'
/-- The two frames hold the same examples: they differ at most in the class column, and there only in how the two classes are written. -/
structure SameExamples (cf : Feat) (pc pc' : Val) (df df' : Frame) : Prop where
  cols : df.cols = df'.cols
  rows : List.Forall₂ (SameExample cf pc pc') df.rows df'.rows
end Spec

variable {cf : Feat} {pc pc' : Val}

omit [Arith] in
theorem forall₂_filter_both {α β : Type} {Q : α → β → Prop} {p : α → Bool} {p' : β → Bool} {l : List α} {l' : List β}
    (hp : ∀ a b, Q a b → p a = p' b) (h : List.Forall₂ Q l l') : List.Forall₂ Q (l.filter p) (l'.filter p') := by
  induction h with
  | nil => exact .nil
  | @cons a b l l' hab _ ih =>
    rw [List.filter_cons, List.filter_cons, hp a b hab]
    split
    · exact .cons hab ih
    · exact ih

omit [Arith] in
theorem Spec.SameExamples.keep {df df' : Frame} {p p' : Row → Bool} (h : SameExamples cf pc pc' df df')
    (hp : ∀ r r', SameExample cf pc pc' r r' → p r = p' r') : SameExamples cf pc pc' (df.keep p) (df'.keep p') :=
  ⟨h.cols, forall₂_filter_both hp h.rows⟩

omit [Arith] in
theorem Spec.SameExamples.index {df df' : Frame} (h : SameExamples cf pc pc' df df') : df.index = df'.index := by
  have := h.rows
  unfold Frame.index
  revert this
  generalize df.rows = l
  generalize df'.rows = l'
  intro h
  induction h with
  | nil => rfl
  | cons hab _ ih => rw [List.map_cons, List.map_cons, hab.label, ih]

omit [Arith] in
theorem Spec.SameExamples.pos {df df' : Frame} (h : SameExamples cf pc pc' df df') :
    SameExamples cf pc pc' (posRows df cf pc) (posRows df' cf pc') := h.keep fun _ _ h => h.positive

omit [Arith] in
theorem Spec.SameExamples.neg {df df' : Frame} (h : SameExamples cf pc pc' df df') :
    SameExamples cf pc pc' (negRows df cf pc) (negRows df' cf pc') := h.keep fun _ _ h => congrArg not h.positive

omit [Arith] in
theorem Spec.SameExamples.length {df df' : Frame} (h : SameExamples cf pc pc' df df') : df.rows.length = df'.rows.length :=
  h.rows.length_eq

omit [Arith] in
theorem Spec.SameExamples.bare {df df' : Frame} (h : SameExamples cf pc pc' df df') : (df.dropCol cf).bare = (df'.dropCol cf).bare := by
  unfold Frame.dropCol Frame.bare
  dsimp only
  rw [h.cols]
  congr 1
  have := h.rows
  generalize hc : df'.cols.filter (fun x => decide (x ≠ cf)) = cols
  have hcf : cf ∉ cols := by subst hc; simp
  clear hc
  revert this
  generalize df.rows = l
  generalize df'.rows = l'
  intro h
  induction h with
  | nil => rfl
  | @cons a b l l' hab _ ih =>
    rw [List.map_cons, List.map_cons, ih]
    congr 1
    unfold Row.only
    rw [hab.label]
    congr 1
    funext f
    split
    · rename_i hf
      exact hab.cell f fun e => hcf (e ▸ hf)
    · rfl

omit [Arith] in
theorem possibleConds_bare (df : Frame) : possibleConds df.bare = possibleConds df := by
  unfold possibleConds
  have : df.bare.cols = df.cols := rfl
  rw [this]
  refine List.flatMap_congr fun f hf => ?_
  rw [unique_bare df hf]

omit [Arith] in
theorem build_sameExamples {df df' : Frame} (h : SameExamples cf pc pc' df df') : CatNap.build df cf = CatNap.build df' cf := by
  have key : ∀ df : Frame, CatNap.build df cf = if cf ∈ df.cols then do
      let conds := possibleConds (df.dropCol cf).bare
      let maps ← conds.mapM (fun c => do
        return (c, labelSet (← c.covers (df.dropCol cf).bare).index))
      return { conds := conds, maps := maps, all := labelSet df.index }
      else .error .keyError := by
    intro df
    unfold CatNap.build
    split
    · rw [possibleConds_bare]
      dsimp only
      congr 2
      funext c
      rw [covers_bare]
      cases c.covers (df.dropCol cf) with
      | error e => rfl
      | ok d => simp only [Except.map, ok_bind, index_bare]
    · rfl
  rw [key df, key df', h.bare, h.cols, h.index]

omit [Arith] in
theorem covers_sameExamples {c : Cond} (hc : c.feature ≠ cf) {df df' : Frame} (h : SameExamples cf pc pc' df df') :
    OutRel (SameExamples cf pc pc') (c.covers df) (c.covers df') := by
  unfold Cond.covers
  rw [h.cols]
  split
  · exact .ok (h.keep fun r r' hr => by unfold Cond.met; rw [hr.cell _ hc])
  · exact .err _

omit [Arith] in
theorem condsCover_sameExamples {r : List Cond} (hr : ∀ c ∈ r, c.feature ≠ cf) : ∀ {df df' : Frame}, SameExamples cf pc pc' df df' →
    OutRel (SameExamples cf pc pc') (condsCover r df) (condsCover r df') := by
  induction r with
  | nil => intro df df' h; exact .ok h
  | cons c r ih =>
    intro df df' h
    unfold condsCover
    have hc := covers_sameExamples (hr c List.mem_cons_self) h
    revert hc
    generalize c.covers df = o
    generalize c.covers df' = o'
    intro hc
    cases hc with
    | err e => exact .err e
    | ok hd => exact ih (fun c hc => hr c (List.mem_cons_of_mem _ hc)) hd

omit [Arith] in
theorem rsCovers_sameExamples {rs : Ruleset} (hr : ∀ r ∈ rs.rules, ∀ c ∈ r.conds, c.feature ≠ cf) {df df' : Frame}
    (h : SameExamples cf pc pc' df df') : OutRel (SameExamples cf pc pc') (rs.covers df) (rs.covers df') := by
  unfold Ruleset.covers
  split
  · exact .ok h
  split
  · exact .ok ⟨h.cols, .nil⟩
  have : OutRel (List.Forall₂ (SameExamples cf pc pc')) (rs.rules.mapM fun r => r.covers df) (rs.rules.mapM fun r => r.covers df') := by
    revert hr
    generalize rs.rules = l
    induction l with
    | nil => intro _; exact .ok .nil
    | cons r l ih =>
      intro hr
      rw [List.mapM_cons, List.mapM_cons]
      have h1 : OutRel (SameExamples cf pc pc') (r.covers df) (r.covers df') := condsCover_sameExamples (hr r List.mem_cons_self) h
      have h2 := ih fun r hr' => hr r (List.mem_cons_of_mem _ hr')
      revert h1 h2
      generalize r.covers df = o
      generalize r.covers df' = o'
      generalize (l.mapM fun r => r.covers df) = q
      generalize (l.mapM fun r => r.covers df') = q'
      intro h1 h2
      cases h1 with
      | err e => exact .err e
      | ok h1 =>
        cases h2 with
        | err e => exact .err e
        | ok h2 => exact .ok (.cons h1 h2)
  revert this
  generalize (rs.rules.mapM fun r => r.covers df) = q
  generalize (rs.rules.mapM fun r => r.covers df') = q'
  intro hq
  cases hq with
  | err e => exact .err e
  | @ok ds ds' hq =>
    refine .ok ⟨h.cols, ?_⟩
    show List.Forall₂ _ (ds.map Frame.rows).flatten (ds'.map Frame.rows).flatten
    induction hq with
    | nil => exact .nil
    | cons h1 _ ih =>
      rw [List.map_cons, List.map_cons, List.flatten_cons, List.flatten_cons]
      exact List.rel_append h1.rows ih

omit [Arith] in
theorem numPos_sameExamples {df df' : Frame} (h : SameExamples cf pc pc' df df') : numPos df cf pc = numPos df' cf pc' := by
  unfold numPos
  rw [h.cols, h.pos.length]

omit [Arith] in
theorem numNeg_sameExamples {df df' : Frame} (h : SameExamples cf pc pc' df df') : numNeg df cf pc = numNeg df' cf pc' := by
  unfold numNeg
  rw [h.cols, h.neg.length]

omit [Arith] in
theorem recalRules_sameExamples {df df' : Frame} (h : SameExamples cf pc pc' df df') (alpha : Rat) : ∀ (rs : List Rule),
    (∀ r ∈ rs, ∀ c ∈ r.conds, c.feature ≠ cf) → recalRules df cf pc alpha rs = recalRules df' cf pc' alpha rs
  | [], _ => rfl
  | r :: rs, hr => by
    have h1 : recalRule df cf pc alpha r = recalRule df' cf pc' alpha r := by
      unfold recalRule Rule.covers
      have := condsCover_sameExamples (hr r List.mem_cons_self) h
      revert this
      generalize condsCover r.conds df = o
      generalize condsCover r.conds df' = o'
      intro ho
      cases ho with
      | err e => rfl
      | ok hd => simp only [ok_bind, numPos_sameExamples hd, hd.length]
    unfold recalRules
    rw [h1, recalRules_sameExamples h alpha rs fun r hr' => hr r (List.mem_cons_of_mem _ hr')]

omit [Arith] in
theorem recalibrate_sameExamples {df df' : Frame} (h : SameExamples cf pc pc' df df') (alpha : Rat) {rs : Ruleset}
    (hr : ∀ r ∈ rs.rules, ∀ c ∈ r.conds, c.feature ≠ cf) : recalibrate rs df cf pc alpha = recalibrate rs df' cf pc' alpha := by
  unfold recalibrate
  rw [h.cols]
  split
  · rfl
  rw [recalRules_sameExamples h alpha rs.rules hr]
  have hrec := (recalRules_conds df' cf pc' alpha rs.rules)
  revert hrec
  generalize recalRules df' cf pc' alpha rs.rules = q
  intro hrec
  rcases q with ⟨rules, o⟩
  cases o with
  | some e => rfl
  | none =>
    simp only
    have hr2 : ∀ r ∈ ({ rs with rules := rules } : Ruleset).rules, ∀ c ∈ r.conds, c.feature ≠ cf := by
      intro r hr'
      have h2 := List.mem_map_of_mem (f := Rule.conds) hr'
      rw [hrec] at h2
      obtain ⟨s, hs, e⟩ := List.mem_map.mp h2
      rw [← e]
      exact hr s hs
    have := rsCovers_sameExamples hr2 h
    revert this
    generalize ({ rs with rules := rules } : Ruleset).covers df = o
    generalize ({ rs with rules := rules } : Ruleset).covers df' = o'
    intro ho
    cases ho with
    | err e => rfl
    | @ok d d' hd =>
      have hdl : SameExamples cf pc pc' (df.dropLabels d.index) (df'.dropLabels d'.index) := by
        rw [hd.index]
        exact h.keep fun r r' hr => by rw [hr.label]
      simp only [ok_bind, numNeg_sameExamples hdl, hdl.length]

/-! ### training -/

omit [Arith] in
theorem notOn_tidy {rules : List (List Cond)} (h : ∀ r ∈ rules, ∀ c ∈ r, c.feature ≠ cf) (m : Option Int) (p : Option (List Cond)) :
    ∀ r ∈ (({ rules := removeDups Rule.sameKey (rules.map (fun c => ({ conds := c } : Rule))), possible := p } : Ruleset).trimConds m).rules,
      ∀ c ∈ r.conds, c.feature ≠ cf := by
  intro r hr
  have h1 : r ∈ rules.map (fun c => ({ conds := c } : Rule)) := by
    have hsub := (trimRules_prefix (size := fun r : Rule => r.conds.length) m
      (removeDups Rule.sameKey (rules.map (fun c => ({ conds := c } : Rule))))).subset hr
    exact (removeDups_sublist _).subset hsub
  obtain ⟨c, hc, rfl⟩ := List.mem_map.mp h1
  exact h c hc

omit [Arith] in
theorem notOn_build {df : Frame} {cn : CatNap} (h : CatNap.build df cf = .ok cn) : ∀ c ∈ cn.conds, c.feature ≠ cf :=
  build_in (D := fun c => c.feature ≠ cf) h fun _ hc => hc.2.1

theorem irepFit_sameExamples (fuel : Nat) (R : PyRandom) (hp : Hyper) {init : List (List Cond)} (hi : ∀ r ∈ init, ∀ c ∈ r, c.feature ≠ cf)
    {df df' : Frame} (h : SameExamples cf pc pc' df df') (g : R.G) :
    irepFit fuel R hp init df cf pc g = irepFit fuel R hp init df' cf pc' g := by
  unfold irepFit
  have e1 : df.rows = [] ↔ df'.rows = [] := by
    rw [← List.length_eq_zero_iff, h.length, List.length_eq_zero_iff]
  have e2 : (df.dropCol cf).cols = (df'.dropCol cf).cols := by unfold Frame.dropCol; rw [h.cols]
  rw [h.cols, h.pos.index, h.neg.index, build_sameExamples h, e2]
  simp only [e1]
  split
  · rfl
  split
  · rfl
  cases hb : CatNap.build df' cf with
  | error e => rfl
  | ok cn =>
    simp only [ok_bind]
    cases hg : irepGrowCn fuel R cn hp init (labelSet (posRows df' cf pc').index) (labelSet (negRows df' cf pc').index) g with
    | error e => rfl
    | ok st =>
      simp only [ok_bind]
      have hin := irepGrowCn_in (D := fun c => c.feature ≠ cf) (notOn_build hb) hi hg
      rw [recalibrate_sameExamples h hp.alpha]
      intro r hr
      obtain ⟨c, hc, rfl⟩ := List.mem_map.mp hr
      exact hin c hc

theorem irepFitPlain_sameExamples (fuel : Nat) (R : PyRandom) {S : SetOps} (hS : S.Lawful) (hp : Hyper) {old : Option (List Cond)}
    (ho : ∀ l, old = some l → ∀ c ∈ l, c.feature ≠ cf) {init : List (List Cond)} (hi : ∀ r ∈ init, ∀ c ∈ r, c.feature ≠ cf)
    {df df' : Frame} (h : SameExamples cf pc pc' df df') (g : R.G) :
    irepFitPlain fuel R S hp old init df cf pc g = irepFitPlain fuel R S hp old init df' cf pc' g := by
  unfold irepFitPlain
  have e1 : df.rows = [] ↔ df'.rows = [] := by
    rw [← List.length_eq_zero_iff, h.length, List.length_eq_zero_iff]
  have e2 : (df.dropCol cf).cols = (df'.dropCol cf).cols := by unfold Frame.dropCol; rw [h.cols]
  have e3 : (posExamples df cf pc).bare = (posExamples df' cf pc').bare := h.pos.bare
  have e4 : (negExamples df cf pc).bare = (negExamples df' cf pc').bare := h.neg.bare
  have c1 : (negExamples df cf pc).cols = (posExamples df cf pc).cols := rfl
  have c2 : (negExamples df' cf pc').cols = (posExamples df' cf pc').cols := rfl
  have e5 : updatedConds S old (posExamples df cf pc) (negExamples df cf pc) =
      updatedConds S old (posExamples df' cf pc') (negExamples df' cf pc') := by
    rw [← updatedConds_bare S old c1, ← updatedConds_bare S old c2, e3, e4]
  rw [h.cols, e2]
  simp only [e1, e5]
  split
  · rfl
  split
  · rfl
  have hcn : ∀ c ∈ updatedConds S old (posExamples df' cf pc') (negExamples df' cf pc'), c.feature ≠ cf :=
    updatedConds_in hS ho (examples_in (D := fun c => c.feature ≠ cf) fun _ hc => hc.2.1).1
      (examples_in (D := fun c => c.feature ≠ cf) fun _ hc => hc.2.1).2
  revert hcn
  generalize updatedConds S old (posExamples df' cf pc') (negExamples df' cf pc') = cands
  intro hcn
  have hgrow := irepGrow_bare fuel R cands hp init (posExamples df cf pc) (negExamples df cf pc) g
  rw [e3, e4, irepGrow_bare] at hgrow
  cases hg' : irepGrow fuel R cands hp init (posExamples df' cf pc') (negExamples df' cf pc') g with
  | error e =>
    rw [hg'] at hgrow
    cases hg : irepGrow fuel R cands hp init (posExamples df cf pc) (negExamples df cf pc) g with
    | error e' => rw [hg] at hgrow; cases hgrow; rfl
    | ok st => rw [hg] at hgrow; cases hgrow
  | ok st' =>
    rw [hg'] at hgrow
    cases hg : irepGrow fuel R cands hp init (posExamples df cf pc) (negExamples df cf pc) g with
    | error e' => rw [hg] at hgrow; cases hgrow
    | ok st =>
      rw [hg] at hgrow
      injection hgrow with hgrow
      have r1 : st.rules = st'.rules := (congrArg FrameSt.rules hgrow).symm
      have r2 : st.g = st'.g := (congrArg FrameSt.g hgrow).symm
      simp only [ok_bind, r1, r2]
      have hin := irepGrow_in (D := fun c => c.feature ≠ cf) hcn hi hg'
      rw [recalibrate_sameExamples h hp.alpha]
      intro r hr
      obtain ⟨c, hc, rfl⟩ := List.mem_map.mp hr
      exact hin c hc

/-- Nothing renamed. -/
def Spec.Recoding.none : Recoding where
  feat := Equiv.refl _
  val _ v := v
  eq _ _ _ := rfl
  nan _ _ := Iff.rfl

theorem ripperStages_in {D : Cond → Prop} {fuel : Nat} {R : PyRandom} {cn : CatNap} (hcn : ∀ c ∈ cn.conds, D c) {hp : Hyper}
    {init : List (List Cond)} (hi : ∀ r ∈ init, AllIn D r) {pos neg : List Label} {g : R.G} {x : List (List Cond) × R.G}
    (h : ripperStages fuel R cn hp init pos neg g = .ok x) : ∀ r ∈ x.1, AllIn D r := by
  have key := ripperStages_recode (φ := Recoding.none) (D := D) (fun _ _ _ _ => by rw [show Recoding.none.cond = id from rfl]; rfl)
    fuel R cn hcn hp init hi pos neg g
  rw [h] at key
  revert key
  generalize ripperStages fuel R (cn.recode Recoding.none) hp (init.map Recoding.none.conds) pos neg g = o
  intro key
  cases key with
  | ok k => exact k.2

theorem ripperStagesDf_in {D : Cond → Prop} {fuel : Nat} {R : PyRandom} {S : SetOps} (hS : S.Lawful) {hp : Hyper} {old : Option (List Cond)}
    (hold : ∀ l, old = some l → AllIn D l) {init : List (List Cond)} (hi : ∀ r ∈ init, AllIn D r) {pos neg : Frame} {g : R.G}
    (hpd : ∀ f ∈ pos.cols, ∀ row ∈ pos.rows, D ⟨f, row.cell f⟩) (hnd : ∀ f ∈ pos.cols, ∀ row ∈ neg.rows, D ⟨f, row.cell f⟩)
    {x : List (List Cond) × R.G} (h : ripperStagesDf fuel R S hp old init pos neg g = .ok x) : ∀ r ∈ x.1, AllIn D r := by
  have key := ripperStagesDf_recode (φ := Recoding.none) (D := D) (fun _ _ _ _ => by rw [show Recoding.none.cond = id from rfl]; rfl)
    fuel R S (fun f a b => by show S.inter (a.map id) (b.map id) = (S.inter a b).map id; simp) hS hp old hold init hi pos neg g hpd hnd
  rw [h] at key
  revert key
  generalize ripperStagesDf fuel R S hp (old.map Recoding.none.conds) (init.map Recoding.none.conds) (pos.recode Recoding.none) (neg.recode Recoding.none) g = o
  intro key
  cases key with
  | ok k => exact k.2

theorem ripperFit_sameExamples (fuel : Nat) (R : PyRandom) (hp : Hyper) {init : List (List Cond)} (hi : ∀ r ∈ init, ∀ c ∈ r, c.feature ≠ cf)
    {df df' : Frame} (h : SameExamples cf pc pc' df df') (g : R.G) :
    ripperFit fuel R hp init df cf pc g = ripperFit fuel R hp init df' cf pc' g := by
  unfold ripperFit
  have e1 : df.rows = [] ↔ df'.rows = [] := by
    rw [← List.length_eq_zero_iff, h.length, List.length_eq_zero_iff]
  have e2 : (df.dropCol cf).cols = (df'.dropCol cf).cols := by unfold Frame.dropCol; rw [h.cols]
  rw [h.cols, h.pos.index, h.neg.index, build_sameExamples h, e2]
  simp only [e1]
  split
  · rfl
  split
  · rfl
  cases hb : CatNap.build df' cf with
  | error e => rfl
  | ok cn =>
    simp only [ok_bind]
    cases hg : ripperStages fuel R cn hp init (labelSet (posRows df' cf pc').index) (labelSet (negRows df' cf pc').index) g with
    | error e => rfl
    | ok st =>
      simp only [ok_bind]
      have hin := ripperStages_in (D := fun c => c.feature ≠ cf) (notOn_build hb) hi hg
      rw [recalibrate_sameExamples h hp.alpha]
      exact notOn_tidy hin _ _

theorem ripperFitPlain_sameExamples (fuel : Nat) (R : PyRandom) {S : SetOps} (hS : S.Lawful) (hp : Hyper) {old : Option (List Cond)}
    (ho : ∀ l, old = some l → ∀ c ∈ l, c.feature ≠ cf) {init : List (List Cond)} (hi : ∀ r ∈ init, ∀ c ∈ r, c.feature ≠ cf)
    {df df' : Frame} (h : SameExamples cf pc pc' df df') (g : R.G) :
    ripperFitPlain fuel R S hp old init df cf pc g = ripperFitPlain fuel R S hp old init df' cf pc' g := by
  unfold ripperFitPlain
  have e1 : df.rows = [] ↔ df'.rows = [] := by
    rw [← List.length_eq_zero_iff, h.length, List.length_eq_zero_iff]
  have e2 : (df.dropCol cf).cols = (df'.dropCol cf).cols := by unfold Frame.dropCol; rw [h.cols]
  have e3 : (posExamples df cf pc).bare = (posExamples df' cf pc').bare := h.pos.bare
  have e4 : (negExamples df cf pc).bare = (negExamples df' cf pc').bare := h.neg.bare
  have c1 : (negExamples df cf pc).cols = (posExamples df cf pc).cols := rfl
  have c2 : (negExamples df' cf pc').cols = (posExamples df' cf pc').cols := rfl
  have e5 : ripperStagesDf fuel R S hp old init (posExamples df cf pc) (negExamples df cf pc) g =
      ripperStagesDf fuel R S hp old init (posExamples df' cf pc') (negExamples df' cf pc') g := by
    rw [← ripperStagesDf_bare fuel R S hp old init c1, ← ripperStagesDf_bare fuel R S hp old init c2, e3, e4]
  rw [h.cols, e2, e5]
  simp only [e1]
  split
  · rfl
  split
  · rfl
  cases hg : ripperStagesDf fuel R S hp old init (posExamples df' cf pc') (negExamples df' cf pc') g with
  | error e => rfl
  | ok st =>
    simp only [ok_bind]
    have hin := ripperStagesDf_in (D := fun c => c.feature ≠ cf) hS ho hi
      (examples_in (D := fun c => c.feature ≠ cf) fun _ hc => hc.2.1).1 (examples_in (D := fun c => c.feature ≠ cf) fun _ hc => hc.2.1).2 hg
    rw [recalibrate_sameExamples h hp.alpha]
    exact notOn_tidy hin _ _

end Witt
