import Mathlib.Logic.Equiv.Basic
import Verif.Lemmas.Unpruned
import Verif.Lemmas.Relabel
/-
Renaming columns and recoding their values renames the conditions in every intermediate result and changes nothing else.
-/
namespace Witt
open Spec
variable [Arith]

namespace Spec
/-- A one-to-one renaming of columns, and for every column (under its old name) a recoding of its values that keeps apart what was
apart, makes equal what was equal, and keeps missing values missing. -/
structure Recoding where
  feat : Feat ≃ Feat
  val : Feat → Val → Val
  eq : ∀ f v w, (val f v).pyEq (val f w) = v.pyEq w
  nan : ∀ f v, val f v = .nan ↔ v = .nan
end Spec

/-! ### renaming -/

/-- The condition on the renamed column, for the recoded value. -/
def Spec.Recoding.cond (φ : Recoding) (c : Cond) : Cond := ⟨φ.feat c.feature, φ.val c.feature c.val⟩
/-- The rule in the new names. -/
def Spec.Recoding.conds (φ : Recoding) (r : List Cond) : List Cond := r.map φ.cond
/-- A row in the new names. -/
def Row.recode (φ : Recoding) (r : Row) : Row :=
  { r with cell := fun f => φ.val (φ.feat.symm f) (r.cell (φ.feat.symm f)) }
/-- A frame in the new names. -/
def Frame.recode (φ : Recoding) (df : Frame) : Frame := { cols := df.cols.map φ.feat, rows := df.rows.map (Row.recode φ) }
/-- The index in the new names. -/
def CatNap.recode (φ : Recoding) (cn : CatNap) : CatNap :=
  { conds := cn.conds.map φ.cond, maps := cn.maps.map (fun kv => (φ.cond kv.1, kv.2)), all := cn.all }
/-- A rule with its probabilities, in the new names. -/
def Rule.recode (φ : Recoding) (r : Rule) : Rule := { r with conds := φ.conds r.conds }
/-- A ruleset with its probabilities, in the new names. -/
def Ruleset.recode (φ : Recoding) (rs : Ruleset) : Ruleset :=
  { rs with rules := rs.rules.map (Rule.recode φ), possible := rs.possible.map φ.conds }
/-- A model in the new names. -/
def Fitted.recode (φ : Recoding) (m : Fitted) : Fitted :=
  { ruleset := m.ruleset.recode φ, selected := m.selected.map φ.feat, trainFeats := m.trainFeats.map φ.feat }

variable {φ : Recoding}

omit [Arith] in
theorem feat_beq (a b : Feat) : (φ.feat a == φ.feat b) = (a == b) := by
  rw [Bool.eq_iff_iff]
  simp

omit [Arith] in
theorem feat_mem (f : Feat) (l : List Feat) : φ.feat f ∈ l.map φ.feat ↔ f ∈ l := by simp

omit [Arith] in
theorem feat_contains (f : Feat) (l : List Feat) : (l.map φ.feat).contains (φ.feat f) = l.contains f := by
  rw [Bool.eq_iff_iff, List.contains_iff_mem, List.contains_iff_mem, feat_mem]

omit [Arith] in
theorem cond_pyEq (c d : Cond) : (φ.cond c).pyEq (φ.cond d) = c.pyEq d := by
  unfold Cond.pyEq Recoding.cond
  dsimp only
  rw [feat_beq]
  by_cases h : c.feature = d.feature
  · rw [h, φ.eq]
  · rw [beq_eq_false_iff_ne.mpr h]; rfl

omit [Arith] in
theorem conds_length (r : List Cond) : (φ.conds r).length = r.length := by simp [Recoding.conds]
omit [Arith] in
theorem conds_nil : φ.conds [] = [] := rfl
omit [Arith] in
theorem conds_eq_nil (r : List Cond) : φ.conds r = [] ↔ r = [] := by simp [Recoding.conds]
omit [Arith] in
theorem conds_append (r s : List Cond) : φ.conds (r ++ s) = φ.conds r ++ φ.conds s := by simp [Recoding.conds]
omit [Arith] in
theorem conds_take (r : List Cond) (n : Nat) : (φ.conds r).take n = φ.conds (r.take n) := by simp [Recoding.conds, List.map_take]
omit [Arith] in
theorem conds_isEmpty (r : List Cond) : (φ.conds r).isEmpty = r.isEmpty := by cases r <;> rfl

omit [Arith] in
theorem condIn_recode (c : Cond) (cs : List Cond) : condIn (φ.cond c) (φ.conds cs) = condIn c cs := by
  unfold condIn Recoding.conds
  rw [List.any_map]
  congr 1
  funext d
  exact cond_pyEq d c

/-! ### frames -/

omit [Arith] in
theorem met_recode (c : Cond) (r : Row) : (φ.cond c).met (r.recode φ) = c.met r := by
  unfold Cond.met Row.recode Recoding.cond
  simp only [Equiv.symm_apply_apply]
  exact φ.eq _ _ _

omit [Arith] in
theorem rows_length_recode (df : Frame) : (df.recode φ).rows.length = df.rows.length := by simp [Frame.recode]

omit [Arith] in
theorem rows_nil_recode (df : Frame) : (df.recode φ).rows = [] ↔ df.rows = [] := by simp [Frame.recode]

omit [Arith] in
theorem index_recode (df : Frame) : (df.recode φ).index = df.index := by
  simp [Frame.index, Frame.recode, Row.recode, Function.comp_def]

omit [Arith] in
theorem keep_recode (df : Frame) (p p' : Row → Bool) (h : ∀ r, p' (r.recode φ) = p r) :
    (df.recode φ).keep p' = (df.keep p).recode φ := by
  unfold Frame.keep Frame.recode
  simp only [List.filter_map, Frame.mk.injEq, true_and]
  congr 1
  exact List.filter_congr fun r _ => h r

omit [Arith] in
theorem dropCol_recode (df : Frame) (x : Feat) : (df.recode φ).dropCol (φ.feat x) = (df.dropCol x).recode φ := by
  unfold Frame.dropCol Frame.recode
  simp only [List.filter_map, Frame.mk.injEq, and_true]
  congr 1
  refine List.filter_congr fun f _ => ?_
  simp

omit [Arith] in
theorem dropLabels_recode (df : Frame) (ls : List Label) : (df.recode φ).dropLabels ls = (df.dropLabels ls).recode φ :=
  keep_recode df _ _ fun _ => rfl

omit [Arith] in
theorem loc_recode (df : Frame) (ls : List Label) : (df.recode φ).loc ls = (df.loc ls).recode φ := by
  unfold Frame.loc Frame.recode
  simp only [Frame.mk.injEq, true_and, List.map_flatMap, List.filter_map]
  rfl

omit [Arith] in
theorem cells_recode (df : Frame) (x : Feat) :
    (df.recode φ).rows.map (·.cell (φ.feat x)) = (df.rows.map (·.cell x)).map (φ.val x) := by
  simp [Frame.recode, Row.recode, Function.comp_def]

omit [Arith] in
theorem pyUniqueAux_recode (x : Feat) (l : List Val) : ∀ seen : List Val,
    pyUniqueAux (seen.map (φ.val x)) (l.map (φ.val x)) = (pyUniqueAux seen l).map (φ.val x) := by
  induction l with
  | nil => intro seen; rfl
  | cons v l ih =>
    intro seen
    rw [List.map_cons, pyUniqueAux, pyUniqueAux, List.any_map]
    have hn : ∀ v, (φ.val x v == .nan) = (v == .nan) := by
      intro v
      rw [Bool.eq_iff_iff, beq_iff_eq, beq_iff_eq, φ.nan]
    have : ((fun w => w.pyEq (φ.val x v) || (w == .nan && φ.val x v == .nan)) ∘ φ.val x) =
        fun w => w.pyEq v || (w == .nan && v == .nan) := by
      funext w
      simp only [Function.comp, φ.eq, hn]
    rw [this]
    split
    · exact ih seen
    · rw [List.map_cons, ← ih (v :: seen), List.map_cons]

omit [Arith] in
theorem unique_recode (df : Frame) (x : Feat) : (df.recode φ).unique (φ.feat x) = (df.unique x).map (φ.val x) := by
  unfold Frame.unique
  rw [cells_recode]
  exact pyUniqueAux_recode x _ []

omit [Arith] in
theorem posRows_recode (df : Frame) (cf : Feat) (pc : Val) :
    posRows (df.recode φ) (φ.feat cf) (φ.val cf pc) = (posRows df cf pc).recode φ :=
  keep_recode df _ _ fun r => by simp only [Row.recode, Equiv.symm_apply_apply, φ.eq]

omit [Arith] in
theorem negRows_recode (df : Frame) (cf : Feat) (pc : Val) :
    negRows (df.recode φ) (φ.feat cf) (φ.val cf pc) = (negRows df cf pc).recode φ :=
  keep_recode df _ _ fun r => by simp only [Row.recode, Equiv.symm_apply_apply, φ.eq]

omit [Arith] in
theorem covers_recode (c : Cond) (df : Frame) : (φ.cond c).covers (df.recode φ) = (c.covers df).map (Frame.recode φ) := by
  unfold Cond.covers
  have : (φ.cond c).feature ∈ (df.recode φ).cols ↔ c.feature ∈ df.cols := feat_mem _ _
  simp only [this]
  split
  · rw [keep_recode df c.met (φ.cond c).met (met_recode c)]; rfl
  · rfl

omit [Arith] in
theorem condsCover_recode (r : List Cond) : ∀ df : Frame,
    condsCover (φ.conds r) (df.recode φ) = (condsCover r df).map (Frame.recode φ) := by
  induction r with
  | nil => intro df; rfl
  | cons c r ih =>
    intro df
    show condsCover (φ.cond c :: φ.conds r) _ = _
    unfold condsCover
    rw [covers_recode]
    cases c.covers df with
    | error e => rfl
    | ok d => exact ih d

omit [Arith] in
theorem numCoveredC_recode (r : List Cond) (df : Frame) : numCoveredC (φ.conds r) (df.recode φ) = numCoveredC r df := by
  unfold numCoveredC
  rw [condsCover_recode]
  cases condsCover r df with
  | error e => rfl
  | ok d => simp [Except.map, ok_bind, rows_length_recode]

omit [Arith] in
/-- `mapM` over a mapped list. -/
theorem mapM_map_both {α α' β γ : Type} {F : α → Except PyErr β} {F' : α' → Except PyErr γ} {k : α → α'} {h : β → γ}
    (hF : ∀ x, F' (k x) = (F x).map h) (l : List α) : (l.map k).mapM F' = (l.mapM F).map (List.map h) := by
  rw [List.mapM_map]
  exact mapM_map (F := F) (F' := F' ∘ k) (h := h) hF l

omit [Arith] in
theorem isUniversal_recode (rs : Ruleset) : (rs.recode φ).isUniversal = rs.isUniversal := by
  unfold Ruleset.isUniversal Ruleset.recode
  simp only [List.length_map, List.any_map]
  split
  · congr 1
    funext r
    exact conds_isEmpty r.conds
  · rfl

omit [Arith] in
theorem isNull_recode (rs : Ruleset) : (rs.recode φ).isNull = rs.isNull := by
  simp [Ruleset.isNull, Ruleset.recode]

omit [Arith] in
theorem rsCovers_recode (rs : Ruleset) (df : Frame) : (rs.recode φ).covers (df.recode φ) = (rs.covers df).map (Frame.recode φ) := by
  unfold Ruleset.covers
  rw [isUniversal_recode, isNull_recode]
  split
  · rfl
  split
  · rfl
  have : (rs.recode φ).rules.mapM (fun r : Rule => r.covers (df.recode φ)) =
      (rs.rules.mapM (fun r : Rule => r.covers df)).map (List.map (Frame.recode φ)) :=
    mapM_map_both (fun r => condsCover_recode r.conds df) rs.rules
  rw [this]
  cases rs.rules.mapM (fun r => r.covers df) with
  | error e => rfl
  | ok ds =>
    simp only [Except.map, ok_bind, pure_eq_ok, Frame.recode]
    rw [List.map_flatten, List.map_map, List.map_map]
    rfl

omit [Arith] in
theorem selectedAux_recode (l : List Feat) : ∀ seen : List Feat,
    selectedAux (seen.map φ.feat) (l.map φ.feat) = (selectedAux seen l).map φ.feat := by
  induction l with
  | nil => intro seen; rfl
  | cons f l ih =>
    intro seen
    rw [List.map_cons, selectedAux, selectedAux, feat_contains]
    split
    · exact ih seen
    · rw [List.map_cons, ← ih (f :: seen), List.map_cons]

omit [Arith] in
theorem selectedFeatures_recode (rs : Ruleset) : (rs.recode φ).selectedFeatures = rs.selectedFeatures.map φ.feat := by
  unfold Ruleset.selectedFeatures
  rw [← selectedAux_recode]
  congr 1
  simp only [Ruleset.recode, List.flatMap_map, List.map_flatMap, Rule.recode, Recoding.conds, List.map_map]
  rfl

/-! ### probabilities -/

omit [Arith] in
theorem numPos_recode (df : Frame) (cf : Feat) (pc : Val) : numPos (df.recode φ) (φ.feat cf) (φ.val cf pc) = numPos df cf pc := by
  unfold numPos
  have : φ.feat cf ∈ (df.recode φ).cols ↔ cf ∈ df.cols := feat_mem _ _
  simp only [this, posRows_recode, rows_length_recode]

omit [Arith] in
theorem numNeg_recode (df : Frame) (cf : Feat) (pc : Val) : numNeg (df.recode φ) (φ.feat cf) (φ.val cf pc) = numNeg df cf pc := by
  unfold numNeg
  have : φ.feat cf ∈ (df.recode φ).cols ↔ cf ∈ df.cols := feat_mem _ _
  simp only [this, negRows_recode, rows_length_recode]

omit [Arith] in
theorem recalRule_recode (df : Frame) (cf : Feat) (pc : Val) (alpha : Rat) (r : Rule) :
    recalRule (df.recode φ) (φ.feat cf) (φ.val cf pc) alpha (r.recode φ) =
      ((recalRule df cf pc alpha r).1.recode φ, (recalRule df cf pc alpha r).2) := by
  unfold recalRule Rule.covers
  have : (r.recode φ).conds = φ.conds r.conds := rfl
  rw [this, condsCover_recode]
  cases condsCover r.conds df with
  | error e => rfl
  | ok d =>
    simp only [Except.map, ok_bind, numPos_recode, rows_length_recode]
    cases numPos d cf pc with
    | error e => rfl
    | ok n => rfl

omit [Arith] in
theorem recalRules_recode (df : Frame) (cf : Feat) (pc : Val) (alpha : Rat) (rs : List Rule) :
    recalRules (df.recode φ) (φ.feat cf) (φ.val cf pc) alpha (rs.map (Rule.recode φ)) =
      ((recalRules df cf pc alpha rs).1.map (Rule.recode φ), (recalRules df cf pc alpha rs).2) := by
  induction rs with
  | nil => rfl
  | cons r rs ih =>
    rw [List.map_cons, recalRules, recalRules, recalRule_recode]
    rcases recalRule df cf pc alpha r with ⟨r', o⟩
    cases o with
    | some e => rfl
    | none =>
      simp only
      rw [ih]
      rfl

omit [Arith] in
theorem recalibrate_recode (rs : Ruleset) (df : Frame) (cf : Feat) (pc : Val) (alpha : Rat) :
    recalibrate (rs.recode φ) (df.recode φ) (φ.feat cf) (φ.val cf pc) alpha =
      ((recalibrate rs df cf pc alpha).1.recode φ, (recalibrate rs df cf pc alpha).2) := by
  unfold recalibrate
  rw [selectedFeatures_recode, List.any_map]
  have : ((fun f => !(df.recode φ).cols.contains f) ∘ φ.feat) = fun f => !df.cols.contains f := by
    funext f
    exact congrArg not (feat_contains f df.cols)
  rw [this]
  split
  · rfl
  have hr : (rs.recode φ).rules = rs.rules.map (Rule.recode φ) := rfl
  rw [hr, recalRules_recode]
  rcases recalRules df cf pc alpha rs.rules with ⟨rules, o⟩
  cases o with
  | some e => rfl
  | none =>
    simp only
    have h2 : ({ rs.recode φ with rules := rules.map (Rule.recode φ) } : Ruleset) = ({ rs with rules := rules } : Ruleset).recode φ := rfl
    rw [h2, rsCovers_recode]
    cases ({ rs with rules := rules } : Ruleset).covers df with
    | error e => rfl
    | ok d =>
      simp only [Except.map, ok_bind, index_recode, dropLabels_recode, numNeg_recode, rows_length_recode]
      cases numNeg (df.dropLabels d.index) cf pc with
      | error e => rfl
      | ok n => rfl

/-! ### the index -/

omit [Arith] in
theorem lookup_recode (cn : CatNap) (c : Cond) : (cn.recode φ).lookup (φ.cond c) = cn.lookup c := by
  unfold CatNap.lookup CatNap.recode
  simp only
  rw [← List.map_reverse, List.find?_map]
  have : ((fun kv : Cond × List Label => kv.1.pyEq (φ.cond c)) ∘ fun kv : Cond × List Label => (φ.cond kv.1, kv.2)) =
      fun kv : Cond × List Label => kv.1.pyEq c := by
    funext kv
    exact cond_pyEq kv.1 c
  rw [this]
  cases cn.maps.reverse.find? (fun kv => kv.1.pyEq c) with
  | none => rfl
  | some kv => rfl

omit [Arith] in
theorem condCovers_recode (cn : CatNap) (c : Cond) (s : Option (List Label)) :
    (cn.recode φ).condCovers (φ.cond c) s = cn.condCovers c s := by
  unfold CatNap.condCovers
  simp only [lookup_recode]

omit [Arith] in
theorem mapLookup_recode (cn : CatNap) (r : List Cond) : (φ.conds r).map (cn.recode φ).lookup = r.map cn.lookup := by
  unfold Recoding.conds
  rw [List.map_map]
  exact List.map_congr_left fun c _ => lookup_recode cn c

omit [Arith] in
theorem ruleCovers_recode (cn : CatNap) (r : List Cond) (s : Option (List Label)) :
    (cn.recode φ).ruleCovers (φ.conds r) s = cn.ruleCovers r s := by
  unfold CatNap.ruleCovers
  have : (cn.recode φ).all = cn.all := rfl
  simp only [mapLookup_recode, ne_eq, conds_eq_nil, this]

omit [Arith] in
theorem rulesetCovers_recode (cn : CatNap) (rs : List (List Cond)) (s : Option (List Label)) :
    (cn.recode φ).rulesetCovers (rs.map φ.conds) s = cn.rulesetCovers rs s := by
  unfold CatNap.rulesetCovers
  have h1 : (rs.map φ.conds).any List.isEmpty = rs.any List.isEmpty := by
    rw [List.any_map]
    congr 1
    funext r
    exact conds_isEmpty r
  have h2 : (rs.map φ.conds).map (fun r => setInterAll (r.map (cn.recode φ).lookup)) =
      rs.map (fun r => setInterAll (r.map cn.lookup)) := by
    rw [List.map_map]
    refine List.map_congr_left fun r _ => ?_
    simp only [Function.comp, mapLookup_recode]
  have h3 : (cn.recode φ).all = cn.all := rfl
  rw [h1, h2, h3]
  simp only [List.map_eq_nil_iff]

omit [Arith] in
theorem possibleConds_recode (df : Frame) : possibleConds (df.recode φ) = φ.conds (possibleConds df) := by
  unfold possibleConds Recoding.conds
  have : (df.recode φ).cols = df.cols.map φ.feat := rfl
  rw [this, List.flatMap_map, List.map_flatMap]
  congr 1
  funext f
  rw [unique_recode, List.map_map, List.map_map]
  rfl

omit [Arith] in
theorem build_recode (df : Frame) (cf : Feat) :
    CatNap.build (df.recode φ) (φ.feat cf) = (CatNap.build df cf).map (CatNap.recode φ) := by
  unfold CatNap.build
  have : φ.feat cf ∈ (df.recode φ).cols ↔ cf ∈ df.cols := feat_mem _ _
  simp only [this]
  split
  · simp only [dropCol_recode, possibleConds_recode, index_recode]
    have : (φ.conds (possibleConds (df.dropCol cf))).mapM
          (fun c => (do return (c, labelSet (← c.covers ((df.dropCol cf).recode φ)).index) : Except PyErr (Cond × List Label))) =
        ((possibleConds (df.dropCol cf)).mapM
          (fun c => (do return (c, labelSet (← c.covers (df.dropCol cf)).index) : Except PyErr (Cond × List Label)))).map
            (List.map (fun kv => (φ.cond kv.1, kv.2))) := by
      refine mapM_map_both (fun c => ?_) _
      rw [covers_recode]
      cases c.covers (df.dropCol cf) with
      | error e => rfl
      | ok d => simp only [Except.map, ok_bind, pure_eq_ok, index_recode]
    rw [this]
    generalize List.mapM (m := Except PyErr) _ (possibleConds (df.dropCol cf)) = o
    cases o with
    | error e => rfl
    | ok ds => rfl
  · rfl

/-! ### growth and pruning with the index -/

omit [Arith] in
theorem bestLoop_recode {α β : Type} (h : α → β) (score : α → Rat) (score' : β → Rat) (hs : ∀ a, score' (h a) = score a) (l : List α) :
    ∀ b : Option α × Rat, bestLoop score' (b.1.map h, b.2) (l.map h) =
      ((bestLoop score b l).1.map h, (bestLoop score b l).2) := by
  induction l with
  | nil => intro b; rfl
  | cons a l ih =>
    intro b
    rw [List.map_cons, bestLoop, bestLoop, hs]
    dsimp only
    split
    · exact ih (some a, score a)
    · exact ih b

theorem gainCn_recode (cn : CatNap) (c : Cond) (p n : List Label) : gainCn (cn.recode φ) (φ.cond c) p n = gainCn cn c p n := by
  unfold gainCn
  simp only [condCovers_recode]

theorem bestRuleSuccessorCn_recode (cn : CatNap) (r : List Cond) (p n : List Label) :
    bestRuleSuccessorCn (cn.recode φ) (φ.conds r) p n = (bestRuleSuccessorCn cn r p n).map φ.conds := by
  unfold bestRuleSuccessorCn
  simp only [ruleCovers_recode]
  have := bestLoop_recode φ.cond (fun c => gainCn cn c (cn.ruleCovers r (some p)) (cn.ruleCovers r (some n)))
    (fun c => gainCn (cn.recode φ) c (cn.ruleCovers r (some p)) (cn.ruleCovers r (some n))) (fun c => gainCn_recode cn c _ _)
    cn.conds (none, 0)
  have hc : (cn.recode φ).conds = cn.conds.map φ.cond := rfl
  rw [hc]
  simp only [Option.map_none] at this
  rw [this]
  rcases bestLoop (fun c => gainCn cn c (cn.ruleCovers r (some p)) (cn.ruleCovers r (some n))) (none, 0) cn.conds with ⟨o, g⟩
  cases o with
  | none => rfl
  | some c =>
    simp only [Option.map_some]
    split
    · simp [Recoding.conds]
    · rfl

omit [Arith] in
theorem userHalt_recode (lim : Limits) (r : List Cond) (p n : Nat) : userHalt lim (φ.conds r) p n = userHalt lim r p n := by
  unfold userHalt
  rw [conds_length]

omit [Arith] in
theorem haltRule_recode (lim : Limits) (r : List Cond) : haltRule lim (φ.conds r) = φ.conds (haltRule lim r) := by
  unfold haltRule
  rw [conds_isEmpty]
  split
  · simp [Recoding.conds, List.map_dropLast]
  · rfl

omit [Arith] in
/-- A loop on mapped states. -/
theorem pyWhile_map {S A S' A' : Type} {body : S → Except PyErr (Step S A)} {body' : S' → Except PyErr (Step S' A')} {h : S → S'}
    {k : A → A'} (hb : ∀ s, StepRel (fun s s' => s' = h s) (fun a a' => a' = k a) (body s) (body' (h s))) (n : Nat) (s : S) :
    pyWhile body' n (h s) = (pyWhile body n s).map k := by
  have := pyWhile_rel (rs := fun s s' => s' = h s) (ra := fun a a' => a' = k a) (body := body) (body' := body')
    (fun s s' e => by subst e; exact hb s) n s (h s) rfl
  revert this
  generalize pyWhile body n s = o
  generalize pyWhile body' n (h s) = o'
  intro this
  cases this with
  | err e => rfl
  | ok h => rw [h]; rfl

theorem growRuleCn_recode (fuel : Nat) (cn : CatNap) (lim : Limits) (pos neg : List Label) (r : List Cond) :
    growRuleCn fuel (cn.recode φ) lim pos neg (φ.conds r) = (growRuleCn fuel cn lim pos neg r).map φ.conds := by
  unfold growRuleCn
  refine pyWhile_map (fun r => ?_) fuel r
  unfold growStepCn
  simp only [ruleCovers_recode, userHalt_recode, haltRule_recode, bestRuleSuccessorCn_recode]
  split
  · exact .done rfl
  split
  · exact .done rfl
  cases bestRuleSuccessorCn cn r pos neg with
  | none => exact .done rfl
  | some s => exact .more rfl

omit [Arith] in
theorem pruneLoop_recode (metric metric' : List Cond → Except PyErr (Option Rat)) (hm : ∀ r, metric' (φ.conds r) = metric r)
    (r : List Cond) (n : Nat) : ∀ best : List Cond × Rat,
    pruneLoop metric' (φ.conds r) n (φ.conds best.1, best.2) = (pruneLoop metric r n best).map (Option.map φ.conds) := by
  induction n with
  | zero => intro best; rfl
  | succ n ih =>
    intro best
    rw [pruneLoop, pruneLoop, conds_take, hm]
    cases metric (r.take (n + 1)) with
    | error e => rfl
    | ok o =>
      simp only [ok_bind]
      cases o with
      | none => rfl
      | some v =>
        dsimp only
        split
        · exact ih (r.take (n + 1), v)
        · exact ih best

omit [Arith] in
theorem pruneRule_recode (metric metric' : List Cond → Except PyErr (Option Rat)) (hm : ∀ r, metric' (φ.conds r) = metric r)
    (r : List Cond) : pruneRule metric' (φ.conds r) = (pruneRule metric r).map (Option.map φ.conds) := by
  unfold pruneRule
  simp only [conds_eq_nil, conds_length]
  split
  · rfl
  · exact pruneLoop_recode metric metric' hm r r.length (r, 0)

theorem irepMetricCn_recode (cn : CatNap) (pos neg : List Label) (r : List Cond) :
    irepMetricCn (cn.recode φ) pos neg (φ.conds r) = irepMetricCn cn pos neg r := by
  unfold irepMetricCn
  simp only [ruleCovers_recode]

theorem ripperGrowMetricCn_recode (cn : CatNap) (pos neg : List Label) (r : List Cond) :
    ripperGrowMetricCn (cn.recode φ) pos neg (φ.conds r) = ripperGrowMetricCn cn pos neg r := by
  unfold ripperGrowMetricCn
  simp only [ruleCovers_recode]

theorem ripperOptMetricCn_recode (cn : CatNap) (pos neg : List Label) (r : List Cond) :
    ripperOptMetricCn (cn.recode φ) pos neg (φ.conds r) = ripperOptMetricCn cn pos neg r := by
  unfold ripperOptMetricCn
  simp only [ruleCovers_recode]

theorem rulePrecisionCn_recode (cn : CatNap) (r : List Cond) (pos neg : List Label) :
    rulePrecisionCn (cn.recode φ) (φ.conds r) pos neg = rulePrecisionCn cn r pos neg := by
  unfold rulePrecisionCn
  simp only [ruleCovers_recode]

omit [Arith] in
theorem rmRuleCoversCn_recode (cn : CatNap) (r : List Cond) (pos neg : List Label) :
    rmRuleCoversCn (cn.recode φ) (φ.conds r) pos neg = rmRuleCoversCn cn r pos neg := by
  unfold rmRuleCoversCn
  simp only [ruleCovers_recode]

omit [Arith] in
theorem countConds_recode (rs : List (List Cond)) : countConds (rs.map φ.conds) = countConds rs := by
  unfold countConds
  rw [List.map_map]
  congr 1
  exact List.map_congr_left fun r _ => conds_length r

omit [Arith] in
theorem stopEarly_recode (lim : Limits) (rs : List (List Cond)) (p n : Nat) : stopEarly lim (rs.map φ.conds) p n = stopEarly lim rs p n := by
  unfold stopEarly
  rw [List.length_map, countConds_recode]

/-! ### IREP with the index -/

/-- A state of the growing loop in the new names. -/
def GrowSt.recode {R : PyRandom} (φ : Recoding) (s : GrowSt R) : GrowSt R := { s with rules := s.rules.map φ.conds }

theorem irepGrowCn_recode (fuel : Nat) (R : PyRandom) (cn : CatNap) (hp : Hyper) (init : List (List Cond)) (pos neg : List Label)
    (g : R.G) : irepGrowCn fuel R (cn.recode φ) hp (init.map φ.conds) pos neg g =
      (irepGrowCn fuel R cn hp init pos neg g).map (GrowSt.recode φ) := by
  unfold irepGrowCn
  refine pyWhile_map (h := GrowSt.recode φ) (k := GrowSt.recode φ) (fun s => ?_) fuel { rules := init, pos := pos, neg := neg, g := g }
  obtain ⟨rules, pos, neg, g⟩ := s
  unfold irepStepCn GrowSt.recode
  simp only [stopEarly_recode]
  split
  · exact .done rfl
  split
  · exact .done rfl
  rcases randomSplit R g pos (Arith.complement hp.irepPrune) hp.randomState with ⟨a, b, g1⟩
  rcases randomSplit R g1 neg (Arith.complement hp.irepPrune) hp.randomState with ⟨c, d, g2⟩
  have hg := growRuleCn_recode (φ := φ) fuel cn hp.lim a c []
  rw [conds_nil] at hg
  simp only [hg]
  cases growRuleCn fuel cn hp.lim a c [] with
  | error e => exact .err e
  | ok grown =>
    simp only [Except.map, ok_bind]
    rw [ruleCovers_recode, pruneRule_recode _ _ (irepMetricCn_recode cn b d)]
    split
    · exact .more (by simp)
    cases pruneRule (irepMetricCn cn b d) grown with
    | error e => exact .err e
    | ok o =>
      cases o with
      | none => exact .err _
      | some pruned =>
        simp only [Except.map, Option.map, ok_bind, rulePrecisionCn_recode, rmRuleCoversCn_recode]
        cases rulePrecisionCn cn pruned b d with
        | none => exact .done rfl
        | some q =>
          simp only
          split
          · exact .done rfl
          · exact .more (by simp)

/-! ### printed rules -/

/-- Among the conditions in `D`, two print alike under the new names exactly if they print alike under the old ones. -/
def Spec.Recoding.PrintsAlike (φ : Recoding) (D : Cond → Prop) : Prop :=
  ∀ c d, D c → D d → ((φ.cond c).text = (φ.cond d).text ↔ c.text = d.text)

/-- All conditions of the rule are in `D`. -/
abbrev AllIn (D : Cond → Prop) (r : List Cond) : Prop := ∀ c ∈ r, D c

variable {D : Cond → Prop}

omit [Arith] in
/-- The new texts are the old ones renamed. -/
theorem condTexts_recode (h : φ.PrintsAlike D) {a : List Cond} (ha : AllIn D a) {c : Cond} (hc : D c) :
    (condTexts (φ.conds a)).contains (φ.cond c).text = (condTexts a).contains c.text := by
  rw [Bool.eq_iff_iff, List.contains_iff_mem, List.contains_iff_mem]
  simp only [condTexts, Recoding.conds, List.map_map, List.mem_map, Function.comp]
  refine exists_congr fun d => and_congr_right fun hd => h d c (ha d hd) hc

omit [Arith] in
theorem condsEq_recode (h : φ.PrintsAlike D) {a b : List Cond} (ha : AllIn D a) (hb : AllIn D b) :
    condsEq (φ.conds a) (φ.conds b) = condsEq a b := by
  have key : ∀ {a b : List Cond}, AllIn D a → AllIn D b →
      (condTexts (φ.conds a)).all (fun t => (condTexts (φ.conds b)).contains t) =
        (condTexts a).all (fun t => (condTexts b).contains t) := by
    intro a b ha hb
    have e1 : condTexts (φ.conds a) = a.map (fun c => (φ.cond c).text) := by simp [condTexts, Recoding.conds, Function.comp_def]
    have e2 : condTexts a = a.map Cond.text := rfl
    rw [e1, e2, List.all_map, List.all_map, Bool.eq_iff_iff, List.all_eq_true, List.all_eq_true]
    refine forall_congr' fun c => forall_congr' fun hc => ?_
    simp only [Function.comp]
    rw [condTexts_recode h hb (ha c hc)]
  unfold condsEq
  rw [conds_length, conds_length, key ha hb, key hb ha]

omit [Arith] in
theorem count_recode (h : φ.PrintsAlike D) {a : List Cond} (ha : AllIn D a) {c : Cond} (hc : D c) :
    (condTexts (φ.conds a)).count (φ.cond c).text = (condTexts a).count c.text := by
  induction a with
  | nil => rfl
  | cons d a ih =>
    have hd := ha d List.mem_cons_self
    have ih := ih fun x hx => ha x (List.mem_cons_of_mem _ hx)
    show ((φ.cond d).text :: condTexts (φ.conds a)).count _ = (d.text :: condTexts a).count _
    rw [List.count_cons, List.count_cons, ih]
    have : ((φ.cond d).text == (φ.cond c).text) = (d.text == c.text) := by
      rw [Bool.eq_iff_iff, beq_iff_eq, beq_iff_eq]
      exact h d c hd hc
    rw [this]

omit [Arith] in
theorem condsSameKey_recode (h : φ.PrintsAlike D) {a b : List Cond} (ha : AllIn D a) (hb : AllIn D b) :
    condsSameKey (φ.conds a) (φ.conds b) = condsSameKey a b := by
  unfold condsSameKey
  rw [Bool.eq_iff_iff, List.isPerm_iff, List.isPerm_iff, List.perm_iff_count, List.perm_iff_count]
  constructor
  · intro hp t
    by_cases ht : t ∈ condTexts a ∨ t ∈ condTexts b
    · have : ∃ c, D c ∧ c.text = t := by
        rcases ht with ht | ht
        · obtain ⟨c, hc, rfl⟩ := List.mem_map.mp ht
          exact ⟨c, ha c hc, rfl⟩
        · obtain ⟨c, hc, rfl⟩ := List.mem_map.mp ht
          exact ⟨c, hb c hc, rfl⟩
      obtain ⟨c, hc, rfl⟩ := this
      have := hp (φ.cond c).text
      rwa [count_recode h ha hc, count_recode h hb hc] at this
    · rw [not_or] at ht
      rw [List.count_eq_zero_of_not_mem ht.1, List.count_eq_zero_of_not_mem ht.2]
  · intro hp t
    have e1 : ∀ a : List Cond, condTexts (φ.conds a) = a.map (fun c => (φ.cond c).text) := by
      intro a; simp [condTexts, Recoding.conds, Function.comp_def]
    by_cases ht : t ∈ condTexts (φ.conds a) ∨ t ∈ condTexts (φ.conds b)
    · have : ∃ c, D c ∧ (φ.cond c).text = t := by
        rcases ht with ht | ht
        · rw [e1] at ht
          obtain ⟨c, hc, rfl⟩ := List.mem_map.mp ht
          exact ⟨c, ha c hc, rfl⟩
        · rw [e1] at ht
          obtain ⟨c, hc, rfl⟩ := List.mem_map.mp ht
          exact ⟨c, hb c hc, rfl⟩
      obtain ⟨c, hc, rfl⟩ := this
      rw [count_recode h ha hc, count_recode h hb hc]
      exact hp c.text
    · rw [not_or] at ht
      rw [List.count_eq_zero_of_not_mem ht.1, List.count_eq_zero_of_not_mem ht.2]

omit [Arith] in
theorem removeDupsAux_recode (h : φ.PrintsAlike D) (l : List Rule) (hl : ∀ r ∈ l, AllIn D r.conds) : ∀ seen : List Rule,
    (∀ r ∈ seen, AllIn D r.conds) →
    removeDupsAux Rule.sameKey (seen.map (Rule.recode φ)) (l.map (Rule.recode φ)) =
      (removeDupsAux Rule.sameKey seen l).map (Rule.recode φ) := by
  induction l with
  | nil => intro seen _; rfl
  | cons r l ih =>
    intro seen hs
    have hr := hl r List.mem_cons_self
    have ih := ih fun x hx => hl x (List.mem_cons_of_mem _ hx)
    rw [List.map_cons, removeDupsAux, removeDupsAux, List.any_map]
    have : seen.any ((fun s => s.sameKey (r.recode φ)) ∘ Rule.recode φ) = seen.any (fun s => s.sameKey r) := by
      rw [Bool.eq_iff_iff, List.any_eq_true, List.any_eq_true]
      refine exists_congr fun s => and_congr_right fun hsm => ?_
      have : ((fun s : Rule => s.sameKey (r.recode φ)) ∘ Rule.recode φ) s = s.sameKey r :=
        condsSameKey_recode h (hs s hsm) hr
      rw [this]
    rw [this]
    split
    · exact ih seen hs
    · rw [List.map_cons, ← ih (r :: seen) (fun x hx => by
        rcases List.mem_cons.mp hx with rfl | hx
        · exact hr
        · exact hs x hx), List.map_cons]

omit [Arith] in
theorem trimRules_recode (m : Option Int) (l : List Rule) :
    trimRules (fun r => r.conds.length) m (l.map (Rule.recode φ)) = (trimRules (fun r => r.conds.length) m l).map (Rule.recode φ) := by
  unfold trimRules
  cases m with
  | none => rfl
  | some m =>
    simp only [List.length_map]
    generalize l.length = n
    induction n with
    | zero => rfl
    | succ n ih =>
      rw [trimAux, trimAux]
      have : ((l.map (Rule.recode φ)).take (n + 1)).map (fun r => r.conds.length) =
          (l.take (n + 1)).map (fun r => r.conds.length) := by
        rw [← List.map_take, List.map_map]
        refine List.map_congr_left fun r _ => conds_length r.conds
      rw [this]
      split
      · exact ih
      · rw [List.map_take]

omit [Arith] in
/-- `remove_duplicates` and `trim_conds` in the new names. -/
theorem tidy_recode (h : φ.PrintsAlike D) (rs : Ruleset) (hl : ∀ r ∈ rs.rules, AllIn D r.conds) (m : Option Int) :
    ({ rs.recode φ with rules := removeDups Rule.sameKey (rs.recode φ).rules } : Ruleset).trimConds m =
      (({ rs with rules := removeDups Rule.sameKey rs.rules } : Ruleset).trimConds m).recode φ := by
  unfold Ruleset.trimConds Ruleset.recode
  have : removeDups Rule.sameKey (rs.rules.map (Rule.recode φ)) = (removeDups Rule.sameKey rs.rules).map (Rule.recode φ) :=
    removeDupsAux_recode h rs.rules hl [] (by simp)
  simp only [this, trimRules_recode]

/-! ### the rules learned test candidate conditions -/

omit [Arith] in
theorem bestLoop_from {α : Type} (score : α → Rat) (l : List α) : ∀ b : Option α × Rat, ∀ c, (bestLoop score b l).1 = some c →
    c ∈ l ∨ b.1 = some c := by
  induction l with
  | nil => intro b c h; exact Or.inr h
  | cons a l ih =>
    intro b c h
    rw [bestLoop] at h
    rcases ih _ c h with h | h
    · exact Or.inl (List.mem_cons_of_mem _ h)
    · split at h
      · injection h with h; subst h; exact Or.inl List.mem_cons_self
      · exact Or.inr h

theorem growRuleCn_in {fuel : Nat} {cn : CatNap} {lim : Limits} {pos neg : List Label} {r0 r : List Cond}
    (hcn : ∀ c ∈ cn.conds, D c) (h0 : AllIn D r0) (h : growRuleCn fuel cn lim pos neg r0 = .ok r) : AllIn D r := by
  have hh : ∀ r, AllIn D r → AllIn D (haltRule lim r) := by
    intro r hr c hc
    unfold haltRule at hc
    split at hc
    · exact hr c (List.dropLast_subset _ hc)
    · exact hr c hc
  unfold growRuleCn at h
  refine pyWhile_inv (I := AllIn D) (Q := AllIn D) ?_ ?_ fuel _ r h0 h
  · intro s s' hs hb
    unfold growStepCn at hb
    dsimp only at hb
    split at hb
    · cases hb
    split at hb
    · cases hb
    cases hs' : bestRuleSuccessorCn cn s pos neg with
    | none => rw [hs'] at hb; cases hb
    | some t =>
      rw [hs'] at hb
      injection hb with hb; injection hb with hb; subst hb
      unfold bestRuleSuccessorCn at hs'
      dsimp only at hs'
      split at hs'
      · rename_i c g he
        split at hs'
        · injection hs' with hs'
          subst hs'
          intro x hx
          rcases List.mem_append.mp hx with hx | hx
          · exact hs x hx
          · rw [List.mem_singleton] at hx
            subst hx
            rcases bestLoop_from _ _ _ x (by rw [he]) with h | h
            · exact hcn x h
            · cases h
        · cases hs'
      · cases hs'
  · intro s a hs hb
    unfold growStepCn at hb
    dsimp only at hb
    split at hb
    · injection hb with hb; injection hb with hb; subst hb; exact hs
    split at hb
    · injection hb with hb; injection hb with hb; subst hb; exact hh s hs
    cases hs' : bestRuleSuccessorCn cn s pos neg with
    | none => rw [hs'] at hb; injection hb with hb; injection hb with hb; subst hb; exact hs
    | some t => rw [hs'] at hb; cases hb

omit [Arith] in
theorem AllIn.prefix {r s : List Cond} (h : AllIn D r) (hs : s <+: r) : AllIn D s := fun c hc => h c (hs.subset hc)

theorem irepGrowCn_in {fuel : Nat} {R : PyRandom} {cn : CatNap} {hp : Hyper} {init : List (List Cond)} {pos neg : List Label}
    {g : R.G} {st : GrowSt R} (hcn : ∀ c ∈ cn.conds, D c) (hi : ∀ r ∈ init, AllIn D r)
    (h : irepGrowCn fuel R cn hp init pos neg g = .ok st) : ∀ r ∈ st.rules, AllIn D r := by
  unfold irepGrowCn at h
  have snoc : ∀ (rules : List (List Cond)) (r : List Cond), (∀ x ∈ rules, AllIn D x) → AllIn D r → ∀ x ∈ rules ++ [r], AllIn D x := by
    intro rules r h1 h2 x hx
    rcases List.mem_append.mp hx with hx | hx
    · exact h1 x hx
    · rw [List.mem_singleton] at hx; exact hx ▸ h2
  refine pyWhile_inv (I := fun s : GrowSt R => ∀ r ∈ s.rules, AllIn D r) (Q := fun s : GrowSt R => ∀ r ∈ s.rules, AllIn D r) ?_ ?_
    fuel _ st hi h
  · intro s s' hs hb
    obtain ⟨rule, ha⟩ := irepStepCn_more hb
    obtain ⟨a, b, c, d, g1, grown, _, _, h3, h4⟩ := ha.how
    have hg : AllIn D grown := growRuleCn_in hcn (fun _ hc => absurd hc List.not_mem_nil) h3
    rw [ha.rules]
    refine snoc _ _ hs ?_
    rcases h4 with ⟨_, rfl, _⟩ | ⟨_, h4, _⟩
    · exact hg
    · exact hg.prefix (pruneRule_prefix h4).1
  · intro s s' hs hb
    rw [irepStepCn_done hb |>.1]
    exact hs

omit [Arith] in
theorem build_in {df : Frame} {cf : Feat} {cn : CatNap} (hb : CatNap.build df cf = .ok cn) (hD : ∀ c, TrainCond df cf c → D c) :
    ∀ c ∈ cn.conds, D c := by
  intro c hc
  refine hD c ?_
  obtain ⟨h1, h2⟩ := overCols_conds hb hc
  rw [CatNap.build_conds hb] at hc
  exact ⟨h1, h2, mem_unique (mem_possibleConds.mp hc).2⟩

theorem irepFit_recode (fuel : Nat) (R : PyRandom) (hp : Hyper) (init : List (List Cond)) (df : Frame) (cf : Feat) (pc : Val)
    (g : R.G) (h : φ.PrintsAlike D) (hD : ∀ c, TrainCond df cf c → D c) (hi : ∀ r ∈ init, AllIn D r) :
    irepFit fuel R hp (init.map φ.conds) (df.recode φ) (φ.feat cf) (φ.val cf pc) g =
      (irepFit fuel R hp init df cf pc g).map (fun m => (m.1.recode φ, m.2)) := by
  unfold irepFit
  have hc : φ.feat cf ∉ (df.recode φ).cols ↔ cf ∉ df.cols := not_congr (feat_mem _ _)
  simp only [rows_nil_recode, hc, posRows_recode, negRows_recode, index_recode, build_recode]
  split
  · rfl
  split
  · rfl
  cases hb : CatNap.build df cf with
  | error e => rfl
  | ok cn =>
    simp only [Except.map, ok_bind]
    rw [irepGrowCn_recode]
    cases hg : irepGrowCn fuel R cn hp init (labelSet (posRows df cf pc).index) (labelSet (negRows df cf pc).index) g with
    | error e => rfl
    | ok st =>
      simp only [Except.map, ok_bind]
      have hin := irepGrowCn_in (build_in hb hD) hi hg
      have hrs : ({ rules := (GrowSt.recode φ st).rules.map (fun c => { conds := c }), possible := some (cn.recode φ).conds } : Ruleset) =
          ({ rules := st.rules.map (fun c => { conds := c }), possible := some cn.conds } : Ruleset).recode φ := by
        simp only [Ruleset.recode, GrowSt.recode, List.map_map, Option.map]
        rfl
      rw [hrs]
      rw [recalibrate_recode, selectedFeatures_recode]
      have hst : (GrowSt.recode φ st).g = st.g := rfl
      rw [hst]
      have hconds : ∀ r ∈ (recalibrate ({ rules := st.rules.map (fun c => { conds := c }), possible := some cn.conds } : Ruleset)
          df cf pc hp.alpha).1.rules, AllIn D r.conds := by
        intro r hr
        have := recalibrate_conds ({ rules := st.rules.map (fun c => { conds := c }), possible := some cn.conds } : Ruleset)
          df cf pc hp.alpha
        have h2 := List.mem_map_of_mem (f := Rule.conds) hr
        rw [this] at h2
        obtain ⟨s, hs, hs2⟩ := List.mem_map.mp h2
        obtain ⟨c, hc, rfl⟩ := List.mem_map.mp hs
        rw [← hs2]
        exact hin c hc
      revert hconds
      generalize recalibrate _ df cf pc hp.alpha = o
      intro hconds
      rcases o with ⟨rs, o⟩
      cases o with
      | some e => rfl
      | none =>
        show Except.ok _ = Except.ok _
        rw [tidy_recode h rs hconds]
        congr 3
        exact congrArg Frame.cols (dropCol_recode df cf)

end Witt
