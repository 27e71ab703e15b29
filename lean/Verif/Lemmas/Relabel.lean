import Mathlib.Logic.Equiv.Basic
import Mathlib.Data.List.Perm.Basic
import Verif.Lemmas.Unpruned
/-
Renaming the row labels of the data renames the labels in every intermediate result and changes nothing else.
-/
namespace Witt
open Spec
variable [Arith]

/-! ### renaming -/

/-- A row under another label. -/
def Row.relabel (f : Label ≃ Label) (r : Row) : Row := { r with label := f r.label }
/-- The frame with every row label renamed. -/
def Frame.relabel (f : Label ≃ Label) (df : Frame) : Frame := { df with rows := df.rows.map (Row.relabel f) }
/-- The index with every row label renamed. -/
def CatNap.relabel (f : Label ≃ Label) (cn : CatNap) : CatNap :=
  { cn with maps := cn.maps.map (fun kv => (kv.1, kv.2.map f)), all := cn.all.map f }
/-- The generator that shuffles renamed labels as `R` shuffles the labels. -/
@[reducible] def PyRandom.relabel (f : Label ≃ Label) (R : PyRandom) : PyRandom :=
  { G := R.G, seed := R.seed,
    shuffle := fun g l => ((R.shuffle g (l.map f.symm)).1.map f, (R.shuffle g (l.map f.symm)).2) }

variable {f : Label ≃ Label}

/-! ### sets of labels -/

omit [Arith] in
theorem map_symm_map (l : List Label) : (l.map f).map f.symm = l := by simp

omit [Arith] in
theorem contains_map (l : List Label) (x : Label) : (l.map f).contains (f x) = l.contains x := by
  rw [Bool.eq_iff_iff, List.contains_iff_mem, List.contains_iff_mem]
  simp

omit [Arith] in
theorem setInter_relabel (a b : List Label) : setInter (a.map f) (b.map f) = (setInter a b).map f := by
  unfold setInter
  rw [List.filter_map]
  congr 1
  refine List.filter_congr fun x _ => ?_
  exact contains_map a x

omit [Arith] in
theorem setDiff_relabel (a b : List Label) : setDiff (a.map f) (b.map f) = (setDiff a b).map f := by
  unfold setDiff
  rw [List.filter_map]
  congr 1
  refine List.filter_congr fun x _ => ?_
  exact congrArg not (contains_map b x)

omit [Arith] in
theorem labelSet_relabel (l : List Label) : labelSet (l.map f) = (labelSet l).map f := by
  unfold labelSet
  induction h : l.length using Nat.strong_induction_on generalizing l with
  | _ n ih =>
    cases l with
    | nil => rfl
    | cons a l =>
      rw [List.map_cons, List.eraseDups_cons, List.eraseDups_cons, List.map_cons, List.filter_map]
      congr 1
      have : (fun b => !b == f a) ∘ f = fun b => !b == a := by
        funext b
        simp
      rw [this]
      refine ih (l.filter (fun b => !b == a)).length ?_ _ rfl
      subst h
      exact Nat.lt_succ_of_le (List.length_filter_le _ _)

omit [Arith] in
theorem setInterAll_relabel : ∀ ss : List (List Label), setInterAll (ss.map (List.map f)) = (setInterAll ss).map f
  | [] => rfl
  | [s] => rfl
  | s :: t :: ss => by
    rw [List.map_cons, List.map_cons, setInterAll, setInterAll, ← List.map_cons, setInterAll_relabel (t :: ss), setInter_relabel]

omit [Arith] in
theorem setUnionAll_relabel (ss : List (List Label)) : setUnionAll (ss.map (List.map f)) = (setUnionAll ss).map f := by
  unfold setUnionAll
  rw [← List.map_flatten, labelSet_relabel]

/-! ### the index -/

omit [Arith] in
theorem lookup_relabel (cn : CatNap) (c : Cond) : (cn.relabel f).lookup c = (cn.lookup c).map f := by
  unfold CatNap.lookup CatNap.relabel
  simp only
  rw [← List.map_reverse, List.find?_map]
  have : ((fun kv : Cond × List Label => kv.1.pyEq c) ∘ fun kv : Cond × List Label => (kv.1, kv.2.map f)) =
      fun kv : Cond × List Label => kv.1.pyEq c := rfl
  rw [this]
  cases cn.maps.reverse.find? (fun kv => kv.1.pyEq c) with
  | none => rfl
  | some kv => rfl

omit [Arith] in
theorem condCovers_relabel (cn : CatNap) (c : Cond) (s : List Label) :
    (cn.relabel f).condCovers c (some (s.map f)) = (cn.condCovers c (some s)).map f := by
  unfold CatNap.condCovers
  simp only [lookup_relabel, setInter_relabel]

omit [Arith] in
theorem mapLookup_relabel (cn : CatNap) (r : List Cond) : r.map (cn.relabel f).lookup = (r.map cn.lookup).map (List.map f) := by
  rw [List.map_map]
  exact List.map_congr_left fun c _ => lookup_relabel cn c

omit [Arith] in
theorem ruleCovers_relabel (cn : CatNap) (r : List Cond) (s : List Label) :
    (cn.relabel f).ruleCovers r (some (s.map f)) = (cn.ruleCovers r (some s)).map f := by
  unfold CatNap.ruleCovers
  simp only [mapLookup_relabel, setInterAll_relabel, setInter_relabel]
  split
  · rfl
  · exact setInter_relabel _ _

omit [Arith] in
theorem rulesetCovers_relabel (cn : CatNap) (rs : List (List Cond)) (s : List Label) :
    (cn.relabel f).rulesetCovers rs (some (s.map f)) = (cn.rulesetCovers rs (some s)).map f := by
  unfold CatNap.rulesetCovers
  split
  · cases s with
    | nil => rfl
    | cons a s => rfl
  split
  · rfl
  simp only
  have : rs.map (fun r => setInterAll (r.map (cn.relabel f).lookup)) =
      (rs.map (fun r => setInterAll (r.map cn.lookup))).map (List.map f) := by
    rw [List.map_map]
    refine List.map_congr_left fun r _ => ?_
    simp only [Function.comp, mapLookup_relabel, setInterAll_relabel]
  rw [this, setUnionAll_relabel, setInter_relabel]

/-! ### growth and pruning with the index -/

theorem growRuleCn_relabel (fuel : Nat) (cn : CatNap) (lim : Limits) (pos neg : List Label) (r : List Cond) :
    growRuleCn fuel (cn.relabel f) lim (pos.map f) (neg.map f) r = growRuleCn fuel cn lim pos neg r := by
  have : growStepCn (cn.relabel f) lim (pos.map f) (neg.map f) = growStepCn cn lim pos neg := by
    funext rule
    have hg : ∀ p n : List Label, (fun c => gainCn (cn.relabel f) c (p.map f) (n.map f)) = fun c => gainCn cn c p n := by
      intro p n
      funext c
      unfold gainCn
      simp only [condCovers_relabel, List.length_map]
    unfold growStepCn bestRuleSuccessorCn
    simp only [ruleCovers_relabel, List.length_map, hg]
    rfl
  unfold growRuleCn
  rw [this]

theorem irepMetricCn_relabel (cn : CatNap) (pos neg : List Label) :
    irepMetricCn (cn.relabel f) (pos.map f) (neg.map f) = irepMetricCn cn pos neg := by
  funext r
  unfold irepMetricCn
  simp only [ruleCovers_relabel, List.length_map]

theorem ripperGrowMetricCn_relabel (cn : CatNap) (pos neg : List Label) :
    ripperGrowMetricCn (cn.relabel f) (pos.map f) (neg.map f) = ripperGrowMetricCn cn pos neg := by
  funext r
  unfold ripperGrowMetricCn
  simp only [ruleCovers_relabel, List.length_map]

theorem ripperOptMetricCn_relabel (cn : CatNap) (pos neg : List Label) :
    ripperOptMetricCn (cn.relabel f) (pos.map f) (neg.map f) = ripperOptMetricCn cn pos neg := by
  funext r
  unfold ripperOptMetricCn
  simp only [ruleCovers_relabel, List.length_map]

theorem rulePrecisionCn_relabel (cn : CatNap) (r : List Cond) (pos neg : List Label) :
    rulePrecisionCn (cn.relabel f) r (pos.map f) (neg.map f) = rulePrecisionCn cn r pos neg := by
  unfold rulePrecisionCn
  simp only [ruleCovers_relabel, List.length_map]

omit [Arith] in
theorem rmRuleCoversCn_relabel (cn : CatNap) (r : List Cond) (pos neg : List Label) :
    rmRuleCoversCn (cn.relabel f) r (pos.map f) (neg.map f) =
      ((rmRuleCoversCn cn r pos neg).1.map f, (rmRuleCoversCn cn r pos neg).2.map f) := by
  unfold rmRuleCoversCn
  simp only [ruleCovers_relabel, setDiff_relabel]

theorem randomSplit_relabel (R : PyRandom) (g : R.G) (l : List Label) (q : Rat) (rs : Option Int) :
    randomSplit (R.relabel f) g (l.map f) q rs =
      ((randomSplit R g l q rs).1.map f, (randomSplit R g l q rs).2.1.map f, (randomSplit R g l q rs).2.2) := by
  unfold randomSplit PyRandom.relabel
  simp only [map_symm_map, List.length_map, sliceTo, sliceFrom, List.map_take, List.map_drop]

theorem randomSplit_eq {R : PyRandom} {g g' : R.G} {l a b : List Label} {q : Rat} {rs : Option Int}
    (h : randomSplit R g l q rs = (a, b, g')) : randomSplit (R.relabel f) g (l.map f) q rs = (a.map f, b.map f, g') := by
  rw [randomSplit_relabel, h]

/-! ### IREP with the index -/

/-- The same state under other labels. -/
def Renamed {R : PyRandom} (f : Label ≃ Label) (s : GrowSt R) (s' : GrowSt (R.relabel f)) : Prop :=
  s'.rules = s.rules ∧ s'.pos = s.pos.map f ∧ s'.neg = s.neg.map f ∧ s'.g = s.g

theorem irepStepCn_relabel (fuel : Nat) (R : PyRandom) (cn : CatNap) (hp : Hyper) (s : GrowSt R) (s' : GrowSt (R.relabel f))
    (h : Renamed f s s') : StepRel (Renamed f) (Renamed f) (irepStepCn fuel R cn hp s)
      (irepStepCn fuel (R.relabel f) (cn.relabel f) hp s') := by
  obtain ⟨rules, pos, neg, g⟩ := s
  obtain ⟨rules', pos', neg', g'⟩ := s'
  obtain ⟨h1, h2, h3, h4⟩ := h
  dsimp only at h1 h2 h3 h4
  subst h1 h2 h3 h4
  unfold irepStepCn
  simp only [List.map_eq_nil_iff, List.length_map, rmRuleCoversCn_relabel, ruleCovers_relabel, setDiff_relabel]
  split
  · exact .done ⟨rfl, rfl, rfl, rfl⟩
  split
  · exact .done ⟨rfl, rfl, rfl, rfl⟩
  rcases e1 : randomSplit R g' pos (Arith.complement hp.irepPrune) hp.randomState with ⟨a, b, g1⟩
  have e1' := randomSplit_eq (f := f) e1
  rcases e2 : randomSplit R g1 neg (Arith.complement hp.irepPrune) hp.randomState with ⟨c, d, g2⟩
  have e2' := randomSplit_eq (f := f) e2
  simp only [e1', e2', growRuleCn_relabel, irepMetricCn_relabel, rulePrecisionCn_relabel]
  cases growRuleCn fuel cn hp.lim a c [] with
  | error e => exact .err e
  | ok grown =>
    simp only [ok_bind]
    split
    · exact .more ⟨rfl, rfl, rfl, rfl⟩
    cases pruneRule (irepMetricCn cn b d) grown with
    | error e => exact .err e
    | ok o =>
      simp only [ok_bind]
      cases o with
      | none => exact .err _
      | some pruned =>
        simp only
        cases rulePrecisionCn cn pruned b d with
        | none => exact .done ⟨rfl, rfl, rfl, rfl⟩
        | some q =>
          simp only
          split
          · exact .done ⟨rfl, rfl, rfl, rfl⟩
          · exact .more ⟨rfl, rfl, rfl, rfl⟩

theorem irepGrowCn_relabel (fuel : Nat) (R : PyRandom) (cn : CatNap) (hp : Hyper) (init : List (List Cond)) (pos neg : List Label)
    (g : R.G) : OutRel (Renamed f) (irepGrowCn fuel R cn hp init pos neg g)
      (irepGrowCn fuel (R.relabel f) (cn.relabel f) hp init (pos.map f) (neg.map f) g) :=
  pyWhile_rel (irepStepCn_relabel fuel R cn hp) fuel _ _ ⟨rfl, rfl, rfl, rfl⟩

/-! ### frames -/

omit [Arith] in
theorem index_relabel (df : Frame) : (df.relabel f).index = df.index.map f := by
  simp [Frame.index, Frame.relabel, Row.relabel, Function.comp_def]

omit [Arith] in
theorem keep_relabel (df : Frame) (p p' : Row → Bool) (h : ∀ r, p' (r.relabel f) = p r) :
    (df.relabel f).keep p' = (df.keep p).relabel f := by
  unfold Frame.keep Frame.relabel
  simp only [List.filter_map, Frame.mk.injEq, true_and]
  congr 1
  exact List.filter_congr fun r _ => h r

omit [Arith] in
theorem dropCol_relabel (df : Frame) (x : Feat) : (df.relabel f).dropCol x = (df.dropCol x).relabel f := rfl

omit [Arith] in
theorem dropLabels_relabel (df : Frame) (ls : List Label) :
    (df.relabel f).dropLabels (ls.map f) = (df.dropLabels ls).relabel f :=
  keep_relabel df _ _ fun r => congrArg not (contains_map ls r.label)

omit [Arith] in
theorem unique_relabel (df : Frame) (x : Feat) : (df.relabel f).unique x = df.unique x := by
  simp [Frame.unique, Frame.relabel, Row.relabel, Function.comp_def]

omit [Arith] in
theorem posRows_relabel (df : Frame) (cf : Feat) (pc : Val) : posRows (df.relabel f) cf pc = (posRows df cf pc).relabel f :=
  keep_relabel df _ _ fun _ => rfl

omit [Arith] in
theorem negRows_relabel (df : Frame) (cf : Feat) (pc : Val) : negRows (df.relabel f) cf pc = (negRows df cf pc).relabel f :=
  keep_relabel df _ _ fun _ => rfl

omit [Arith] in
theorem loc_relabel (df : Frame) (ls : List Label) : (df.relabel f).loc (ls.map f) = (df.loc ls).relabel f := by
  unfold Frame.loc Frame.relabel
  simp only [Frame.mk.injEq, true_and, List.flatMap_map, List.map_flatMap, List.filter_map]
  congr 1
  funext l
  congr 1
  refine List.filter_congr fun r _ => ?_
  simp [Row.relabel]

omit [Arith] in
theorem rows_length_relabel (df : Frame) : (df.relabel f).rows.length = df.rows.length := by simp [Frame.relabel]

omit [Arith] in
theorem rows_nil_relabel (df : Frame) : (df.relabel f).rows = [] ↔ df.rows = [] := by simp [Frame.relabel]

omit [Arith] in
theorem map_ok {α β : Type} {h : α → β} {o : Except PyErr α} : o.map h = (do return h (← o)) := by cases o <;> rfl

omit [Arith] in
theorem covers_relabel (c : Cond) (df : Frame) : c.covers (df.relabel f) = (c.covers df).map (Frame.relabel f) := by
  unfold Cond.covers
  have : (df.relabel f).cols = df.cols := rfl
  rw [this]
  split
  · rw [keep_relabel df c.met c.met fun _ => rfl]; rfl
  · rfl

omit [Arith] in
theorem condsCover_relabel (r : List Cond) : ∀ df : Frame, condsCover r (df.relabel f) = (condsCover r df).map (Frame.relabel f) := by
  induction r with
  | nil => intro df; rfl
  | cons c r ih =>
    intro df
    unfold condsCover
    rw [covers_relabel]
    cases c.covers df with
    | error e => rfl
    | ok d => exact ih d

omit [Arith] in
theorem numCoveredC_relabel (r : List Cond) (df : Frame) : numCoveredC r (df.relabel f) = numCoveredC r df := by
  unfold numCoveredC
  rw [condsCover_relabel]
  cases condsCover r df with
  | error e => rfl
  | ok d => simp [Except.map, ok_bind, rows_length_relabel]

omit [Arith] in
theorem mapM_map {α β γ : Type} {F : α → Except PyErr β} {F' : α → Except PyErr γ} {h : β → γ} (hF : ∀ x, F' x = (F x).map h)
    (l : List α) : l.mapM F' = (l.mapM F).map (List.map h) := by
  induction l with
  | nil => rfl
  | cons a l ih =>
    rw [List.mapM_cons, List.mapM_cons, ih, hF]
    cases F a with
    | error e => rfl
    | ok d =>
      simp only [Except.map, ok_bind]
      cases l.mapM F with
      | error e => rfl
      | ok ds => rfl

omit [Arith] in
theorem rsCovers_relabel (rs : Ruleset) (df : Frame) : rs.covers (df.relabel f) = (rs.covers df).map (Frame.relabel f) := by
  unfold Ruleset.covers
  split
  · rfl
  split
  · rfl
  rw [mapM_map (F := fun r => r.covers df) (h := Frame.relabel f) fun r => condsCover_relabel r.conds df]
  cases rs.rules.mapM (fun r => r.covers df) with
  | error e => rfl
  | ok ds =>
    simp only [Except.map, ok_bind, pure_eq_ok, Frame.relabel]
    rw [List.map_flatten, List.map_map, List.map_map]
    rfl

omit [Arith] in
theorem possibleConds_relabel (df : Frame) : possibleConds (df.relabel f) = possibleConds df := by
  unfold possibleConds
  have : (df.relabel f).cols = df.cols := rfl
  simp only [this, unique_relabel]

omit [Arith] in
theorem build_relabel (df : Frame) (cf : Feat) :
    CatNap.build (df.relabel f) cf = (CatNap.build df cf).map (CatNap.relabel f) := by
  unfold CatNap.build
  have : (df.relabel f).cols = df.cols := rfl
  rw [this]
  split
  · simp only [dropCol_relabel, possibleConds_relabel, index_relabel, labelSet_relabel]
    rw [mapM_map (F := fun c => (do return (c, labelSet (← c.covers (df.dropCol cf)).index) : Except PyErr (Cond × List Label)))
      (h := fun kv => (kv.1, kv.2.map f)) (fun c => by
        rw [covers_relabel]
        cases c.covers (df.dropCol cf) with
        | error e => rfl
        | ok d => simp only [Except.map, ok_bind, pure_eq_ok, index_relabel, labelSet_relabel])]
    generalize List.mapM (m := Except PyErr) _ (possibleConds (df.dropCol cf)) = o
    cases o with
    | error e => rfl
    | ok ds => rfl
  · rfl

omit [Arith] in
theorem numPos_relabel (df : Frame) (cf : Feat) (pc : Val) : numPos (df.relabel f) cf pc = numPos df cf pc := by
  unfold numPos
  have : (df.relabel f).cols = df.cols := rfl
  rw [this, posRows_relabel, rows_length_relabel]

omit [Arith] in
theorem numNeg_relabel (df : Frame) (cf : Feat) (pc : Val) : numNeg (df.relabel f) cf pc = numNeg df cf pc := by
  unfold numNeg
  have : (df.relabel f).cols = df.cols := rfl
  rw [this, negRows_relabel, rows_length_relabel]

omit [Arith] in
theorem recalRule_relabel (df : Frame) (cf : Feat) (pc : Val) (alpha : Rat) (r : Rule) :
    recalRule (df.relabel f) cf pc alpha r = recalRule df cf pc alpha r := by
  unfold recalRule Rule.covers
  rw [condsCover_relabel]
  cases condsCover r.conds df with
  | error e => rfl
  | ok d => simp only [Except.map, ok_bind, numPos_relabel, rows_length_relabel]

omit [Arith] in
theorem recalRules_relabel (df : Frame) (cf : Feat) (pc : Val) (alpha : Rat) (rs : List Rule) :
    recalRules (df.relabel f) cf pc alpha rs = recalRules df cf pc alpha rs := by
  induction rs with
  | nil => rfl
  | cons r rs ih => simp only [recalRules, recalRule_relabel, ih]

omit [Arith] in
theorem recalibrate_relabel (rs : Ruleset) (df : Frame) (cf : Feat) (pc : Val) (alpha : Rat) :
    recalibrate rs (df.relabel f) cf pc alpha = recalibrate rs df cf pc alpha := by
  unfold recalibrate
  have : (df.relabel f).cols = df.cols := rfl
  rw [this]
  split
  · rfl
  rw [recalRules_relabel]
  rcases recalRules df cf pc alpha rs.rules with ⟨rules, o⟩
  cases o with
  | some e => rfl
  | none =>
    simp only [rsCovers_relabel]
    cases ({ rs with rules := rules } : Ruleset).covers df with
    | error e => rfl
    | ok d => simp only [Except.map, ok_bind, index_relabel, dropLabels_relabel, numNeg_relabel, rows_length_relabel]

omit [Arith] in
theorem relabel_nil {df : Frame} : (df.relabel f).rows = [] ↔ df.rows = [] := by simp [Frame.relabel]

theorem irepFit_relabel (fuel : Nat) (R : PyRandom) (hp : Hyper) (init : List (List Cond)) (df : Frame) (cf : Feat) (pc : Val)
    (g : R.G) : irepFit fuel (R.relabel f) hp init (df.relabel f) cf pc g = irepFit fuel R hp init df cf pc g := by
  unfold irepFit
  have hc : (df.relabel f).cols = df.cols := rfl
  simp only [relabel_nil, hc, dropCol_relabel, posRows_relabel, negRows_relabel, index_relabel, labelSet_relabel, build_relabel,
    recalibrate_relabel]
  split
  · rfl
  split
  · rfl
  cases CatNap.build df cf with
  | error e => rfl
  | ok cn =>
    simp only [Except.map, ok_bind]
    have := irepGrowCn_relabel (f := f) fuel R cn hp init (labelSet (posRows df cf pc).index) (labelSet (negRows df cf pc).index) g
    revert this
    generalize irepGrowCn fuel R cn hp init _ _ g = o
    generalize irepGrowCn fuel (R.relabel f) (cn.relabel f) hp init _ _ g = o'
    intro h
    cases h with
    | err e => rfl
    | ok h =>
      simp only [ok_bind]
      rw [h.1, h.2.2.2]
      rfl

end Witt
