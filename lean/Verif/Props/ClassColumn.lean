import Verif.Props.Frames
/-
C92: the class labels may be a column of the data, anywhere among the others, or be passed separately as a list or a Series.
-/
namespace Witt
open Spec

namespace Spec
/-- The same table but for the position of the class column `cf` among the columns (its dtype is of no interest). -/
structure SameButClassColumn (cf : Feat) (df df' : TFrame) : Prop where
  rows : df'.rows = df.rows
  cols : df'.cols.filter (· ≠ cf) = df.cols.filter (· ≠ cf)
  has : cf ∈ df.cols
  has' : cf ∈ df'.cols
  kinds : ∀ f, f ≠ cf → df'.kind f = df.kind f
end Spec

section lemmas
variable {cf : Feat} {df df' : TFrame}

theorem mem_of_filter_ne {f cf : Feat} {l : List Feat} (h : f ≠ cf) : f ∈ l.filter (· ≠ cf) ↔ f ∈ l := by
  simp [h]

theorem Spec.SameButClassColumn.mem (h : SameButClassColumn cf df df') (f : Feat) : f ∈ df'.cols ↔ f ∈ df.cols := by
  by_cases e : f = cf
  · subst e; exact ⟨fun _ => h.has, fun _ => h.has'⟩
  · rw [← mem_of_filter_ne e, h.cols, mem_of_filter_ne e]

theorem Spec.SameButClassColumn.contains (h : SameButClassColumn cf df df') (f : Feat) :
    df'.cols.contains f = df.cols.contains f := by
  rw [Bool.eq_iff_iff]
  simpa using h.mem f

theorem Spec.SameButClassColumn.unique (h : SameButClassColumn cf df df') (f : Feat) : df'.unique f = df.unique f := by
  unfold Frame.unique
  rw [h.rows]

theorem Spec.SameButClassColumn.dropCol (h : SameButClassColumn cf df df') :
    df'.toFrame.dropCol cf = df.toFrame.dropCol cf := by
  unfold Frame.dropCol
  rw [h.rows, h.cols]

theorem filter_filter_ne {cf : Feat} {l : List Feat} {p : Feat → Bool} (h : p cf = false) :
    l.filter p = (l.filter (· ≠ cf)).filter p := by
  rw [List.filter_filter]
  refine List.filter_congr fun f _ => ?_
  by_cases e : f = cf
  · subst e; simp [h]
  · simp [e]

theorem Spec.SameButClassColumn.continuous (h : SameButClassColumn cf df df') (n : Option Nat) :
    continuousFeats n df' [cf] = continuousFeats n df [cf] := by
  unfold continuousFeats
  split
  · rfl
  · rfl
  · rw [filter_filter_ne (cf := cf) (l := df'.cols) (by simp), filter_filter_ne (cf := cf) (l := df.cols) (by simp), h.cols]
    refine List.filter_congr fun f hf => ?_
    rw [List.mem_filter] at hf
    have e : f ≠ cf := by simpa using hf.2
    rw [h.kinds f e, h.unique]

theorem Spec.SameButClassColumn.fit (h : SameButClassColumn cf df df') (F : PyFloat) (P : PandasCut) (n : Option Nat) :
    Binner.fit F P n df' [cf] = Binner.fit F P n df [cf] := by
  unfold Binner.fit
  rw [h.continuous, h.rows]

/-- No bins are ever fitted to the class column. -/
theorem fit_no_class (F : PyFloat) (P : PandasCut) (n : Option Nat) (df : TFrame) (cf : Feat) :
    ∀ p ∈ (Binner.fit F P n df [cf]).bins, p.1 ≠ cf := by
  intro p hp
  unfold Binner.fit at hp
  simp only [List.mem_filterMap] at hp
  obtain ⟨f, hf, hp⟩ := hp
  have hne : f ≠ cf := by
    unfold continuousFeats at hf
    split at hf
    · simp at hf
    · simp at hf
    · rw [List.mem_filter] at hf
      intro e
      subst e
      simp at hf
  split at hp
  · injection hp with hp
    rw [← hp]
    exact hne
  · cases hp

theorem Spec.SameButClassColumn.mapCol (h : SameButClassColumn cf df df') (f : Feat) (g : Val → Val) :
    SameButClassColumn cf (df.mapCol f g) (df'.mapCol f g) where
  rows := by simp only [TFrame.mapCol, h.rows]
  cols := h.cols
  has := h.has
  has' := h.has'
  kinds f' hf := by simp only [TFrame.mapCol, h.kinds f' hf]

theorem Spec.SameButClassColumn.transformed (h : SameButClassColumn cf df df') (b : Binner) (hb : ∀ p ∈ b.bins, p.1 ≠ cf) :
    findTransformed b df' = findTransformed b df := by
  have e1 : transformedFeats b df' = transformedFeats b df := by
    unfold transformedFeats
    refine List.filter_congr fun f hf => ?_
    obtain ⟨p, hp, rfl⟩ := List.mem_map.mp hf
    rw [h.contains, h.kinds _ (hb p hp)]
  have e2 : ∀ l : List (Feat × List PStr), (∀ p ∈ l, p.1 ≠ cf) →
      l.any (fun p => df'.cols.contains p.1 && df'.kind p.1 == .text &&
        df'.rows.any (fun row => !(p.2.any (fun l => (row.cell p.1).pyEq (.str l))))) =
      l.any (fun p => df.cols.contains p.1 && df.kind p.1 == .text &&
        df.rows.any (fun row => !(p.2.any (fun l => (row.cell p.1).pyEq (.str l))))) := by
    intro l hl
    induction l with
    | nil => rfl
    | cons p l ih =>
      rw [List.any_cons, List.any_cons, ih (fun q hq => hl q (List.mem_cons_of_mem _ hq)), h.contains,
        h.kinds _ (hl p List.mem_cons_self), h.rows]
  unfold findTransformed
  rw [e2 _ hb, e1]

/-- Both computations raise the same exception or give related results. -/
def RelOut {α : Type} (r : α → α → Prop) (x y : Except PyErr α) : Prop :=
  (∃ e, x = .error e ∧ y = .error e) ∨ ∃ a b, x = .ok a ∧ y = .ok b ∧ r a b

theorem transformLoop_class (F : PyFloat) (b : Binner) (done : List Feat) : ∀ (l : List (Feat × List PStr)) {df df' : TFrame},
    SameButClassColumn cf df df' → (∀ p ∈ l, p.1 ≠ cf) →
    RelOut (SameButClassColumn cf) (transformLoop F b done l df) (transformLoop F b done l df')
  | [], df, df', h, _ => Or.inr ⟨df, df', rfl, rfl, h⟩
  | (f, labels) :: rest, df, df', h, hl => by
    unfold transformLoop
    rw [h.contains]
    split
    · cases featTransform F b f labels with
      | error e => exact Or.inl ⟨e, rfl, rfl⟩
      | ok g => exact transformLoop_class F b done rest (h.mapCol f g) (fun p hp => hl p (List.mem_cons_of_mem _ hp))
    · exact transformLoop_class F b done rest h (fun p hp => hl p (List.mem_cons_of_mem _ hp))

theorem transform_class (F : PyFloat) (b : Binner) (hb : ∀ p ∈ b.bins, p.1 ≠ cf) (h : SameButClassColumn cf df df') :
    RelOut (SameButClassColumn cf) (b.transform F df) (b.transform F df') := by
  unfold Binner.transform
  rw [h.transformed b hb]
  cases findTransformed b df with
  | error e => exact Or.inl ⟨e, rfl, rfl⟩
  | ok done => exact transformLoop_class F b done b.bins h hb

theorem posRows_index (h : SameButClassColumn cf df df') (pc : Val) :
    (posRows df'.toFrame cf pc).index = (posRows df.toFrame cf pc).index ∧
    (negRows df'.toFrame cf pc).index = (negRows df.toFrame cf pc).index := by
  unfold posRows negRows Frame.keep Frame.index
  simp only [h.rows, and_self]

theorem examples_class (h : SameButClassColumn cf df df') (pc : Val) :
    posExamples df'.toFrame cf pc = posExamples df.toFrame cf pc ∧
    negExamples df'.toFrame cf pc = negExamples df.toFrame cf pc := by
  unfold posExamples negExamples posRows negRows Frame.keep Frame.dropCol
  simp only [h.rows, h.cols, and_self]

theorem build_class (h : SameButClassColumn cf df df') : CatNap.build df'.toFrame cf = CatNap.build df.toFrame cf := by
  unfold CatNap.build
  rw [if_pos h.has, if_pos h.has', h.dropCol]
  unfold Frame.index
  rw [h.rows]

end lemmas

/-! ### calibration -/

/-- The same rows, and the same columns in any order. -/
structure SameRowsCols (a b : Frame) : Prop where
  rows : b.rows = a.rows
  mem : ∀ f, f ∈ b.cols ↔ f ∈ a.cols

theorem Spec.SameButClassColumn.frame {cf : Feat} {df df' : TFrame} (h : SameButClassColumn cf df df') :
    SameRowsCols df.toFrame df'.toFrame := ⟨h.rows, h.mem⟩

theorem condsCover_cols : ∀ (cs : List Cond) {a b : Frame}, SameRowsCols a b →
    RelOut SameRowsCols (condsCover cs a) (condsCover cs b)
  | [], a, b, h => Or.inr ⟨a, b, rfl, rfl, h⟩
  | c :: cs, a, b, h => by
    unfold condsCover Cond.covers
    by_cases hc : c.feature ∈ a.cols
    · rw [if_pos hc, if_pos ((h.mem _).mpr hc)]
      exact condsCover_cols cs ⟨by simp only [Frame.keep, h.rows], h.mem⟩
    · rw [if_neg hc, if_neg (fun e => hc ((h.mem _).mp e))]
      exact Or.inl ⟨_, rfl, rfl⟩

theorem rulesCover_cols {a b : Frame} (h : SameRowsCols a b) : ∀ rules : List Rule,
    RelOut (fun x y : List Frame => x.map Frame.rows = y.map Frame.rows) (rules.mapM (fun r => r.covers a))
      (rules.mapM (fun r => r.covers b))
  | [] => Or.inr ⟨[], [], rfl, rfl, rfl⟩
  | r :: rs => by
    rw [List.mapM_cons, List.mapM_cons]
    rcases condsCover_cols (a := a) (b := b) r.conds h with ⟨e, h1, h2⟩ | ⟨x, y, h1, h2, h3⟩
    · refine Or.inl ⟨e, ?_, ?_⟩ <;> (unfold Rule.covers; simp only [h1, h2]; rfl)
    · rcases rulesCover_cols h rs with ⟨e, k1, k2⟩ | ⟨xs, ys, k1, k2, k3⟩
      · refine Or.inl ⟨e, ?_, ?_⟩ <;> (unfold Rule.covers at k1 k2 ⊢; simp only [h1, h2, k1, k2]; rfl)
      · refine Or.inr ⟨x :: xs, y :: ys, ?_, ?_, ?_⟩
        · unfold Rule.covers at k1 ⊢; simp only [h1, k1]; rfl
        · unfold Rule.covers at k2 ⊢; simp only [h2, k2]; rfl
        · simp [h3.rows, k3]

theorem rulesetCovers_cols {a b : Frame} (h : SameRowsCols a b) (rs : Ruleset) :
    RelOut SameRowsCols (rs.covers a) (rs.covers b) := by
  unfold Ruleset.covers
  split
  · exact Or.inr ⟨a, b, rfl, rfl, h⟩
  · split
    · exact Or.inr ⟨_, _, rfl, rfl, rfl, h.mem⟩
    · rcases rulesCover_cols h rs.rules with ⟨e, h1, h2⟩ | ⟨x, y, h1, h2, h3⟩
      · rw [h1, h2]; exact Or.inl ⟨e, rfl, rfl⟩
      · rw [h1, h2]
        exact Or.inr ⟨_, _, rfl, rfl, by simp only [h3], h.mem⟩

theorem numPos_cols {a b : Frame} (h : SameRowsCols a b) (cf : Feat) (pc : Val) : numPos b cf pc = numPos a cf pc := by
  unfold numPos posRows Frame.keep
  simp only [h.mem, h.rows]

theorem numNeg_cols {a b : Frame} (h : SameRowsCols a b) (cf : Feat) (pc : Val) : numNeg b cf pc = numNeg a cf pc := by
  unfold numNeg negRows Frame.keep
  simp only [h.mem, h.rows]

theorem recalRule_cols {a b : Frame} (h : SameRowsCols a b) (cf : Feat) (pc : Val) (alpha : Rat) (r : Rule) :
    recalRule b cf pc alpha r = recalRule a cf pc alpha r := by
  unfold recalRule
  rcases condsCover_cols (a := a) (b := b) r.conds h with ⟨e, h1, h2⟩ | ⟨x, y, h1, h2, h3⟩
  · unfold Rule.covers; rw [h1, h2]
  · unfold Rule.covers; rw [h1, h2]
    simp only [ok_bind, numPos_cols h3, h3.rows]

theorem recalRules_cols {a b : Frame} (h : SameRowsCols a b) (cf : Feat) (pc : Val) (alpha : Rat) : ∀ rs : List Rule,
    recalRules b cf pc alpha rs = recalRules a cf pc alpha rs
  | [] => rfl
  | r :: rs => by
    unfold recalRules
    rw [recalRule_cols h, recalRules_cols h]

theorem recalibrate_cols {a b : Frame} (h : SameRowsCols a b) (rs : Ruleset) (cf : Feat) (pc : Val) (alpha : Rat) :
    recalibrate rs b cf pc alpha = recalibrate rs a cf pc alpha := by
  unfold recalibrate
  have e : ∀ f, b.cols.contains f = a.cols.contains f := fun f => by
    rw [Bool.eq_iff_iff]; simpa using h.mem f
  simp only [e, recalRules_cols h]
  split
  · rfl
  · split
    · rfl
    · rename_i rules _
      rcases rulesetCovers_cols h { rs with rules := rules } with ⟨e, h1, h2⟩ | ⟨x, y, h1, h2, h3⟩
      · rw [h1, h2]; rfl
      · rw [h1, h2]
        have hd : SameRowsCols (a.dropLabels x.index) (b.dropLabels y.index) :=
          ⟨by unfold Frame.dropLabels Frame.keep Frame.index; simp only [h.rows, h3.rows], h.mem⟩
        simp only [ok_bind, numNeg_cols hd, hd.rows]

/-! ### fit -/

theorem fitProbas_class {cf : Feat} {df df' : TFrame} (h : SameButClassColumn cf df df') (pc : Val) :
    Clf.fitProbas df'.toFrame cf pc = Clf.fitProbas df.toFrame cf pc := by
  unfold Clf.fitProbas
  simp only [recalibrate_cols h.frame]

theorem rest_class [Arith] {cf : Feat} {df df' : TFrame} (h : SameButClassColumn cf df df') (a : Method) (fuel : Nat) (R : PyRandom)
    (init : ModelArg) (g : R.G) (pc : Val) (b : Binner) :
    a.rest fuel R init g df' cf pc b = a.rest fuel R init g df cf pc b := by
  cases a with
  | irep =>
    show Clf.irepRest _ _ _ _ _ _ _ _ = Clf.irepRest _ _ _ _ _ _ _ _
    unfold Clf.irepRest
    rw [build_class h, (posRows_index h pc).1, (posRows_index h pc).2, h.dropCol, fitProbas_class h]
  | ripper =>
    show Clf.ripperRest _ _ _ _ _ _ _ _ = Clf.ripperRest _ _ _ _ _ _ _ _
    unfold Clf.ripperRest
    rw [build_class h, (posRows_index h pc).1, (posRows_index h pc).2, h.dropCol, fitProbas_class h]
  | irepPlain S =>
    show Clf.irepPlainRest _ _ _ _ _ _ _ _ _ = Clf.irepPlainRest _ _ _ _ _ _ _ _ _
    unfold Clf.irepPlainRest
    rw [(examples_class h pc).1, (examples_class h pc).2, h.dropCol, fitProbas_class h]
  | ripperPlain S =>
    show Clf.ripperPlainRest _ _ _ _ _ _ _ _ _ = Clf.ripperPlainRest _ _ _ _ _ _ _ _ _
    unfold Clf.ripperPlainRest
    rw [(examples_class h pc).1, (examples_class h pc).2, h.dropCol, fitProbas_class h]

/-- What `fit` does with the labelled table. -/
theorem fit_labelled [Arith] (a : Method) (fuel : Nat) (R : PyRandom) (F : PyFloat) (P : PandasCut) (d d' : FitData) (cf : Feat)
    (T T' : TFrame) (hT : SameButClassColumn cf T T') (hc : checkInput d.X d.y d.classFeat d.names = .ok ())
    (hc' : checkInput d'.X d'.y d'.classFeat d'.names = .ok ()) (hn : classFeatName d.classFeat d.y = cf)
    (hn' : classFeatName d'.classFeat d'.y = cf) (ht : toTraining d.X d.y cf d.names = .ok T)
    (ht' : toTraining d'.X d'.y cf d'.names = .ok T') (hp : d'.posClass = d.posClass) (init : ModelArg) (g : R.G) :
    a.fit fuel R F P d' init g = a.fit fuel R F P d init g := by
  rw [fit_rest, fit_rest]
  congr 1
  funext _
  congr 1
  funext c
  unfold preprocessTraining
  simp only [hc, hc', hn, hn', ht, ht', hp, ok_bind, hT.unique]
  cases posClassOf (T.unique cf) d.posClass with
  | error e => rfl
  | ok pc =>
    unfold Binner.fitTransform
    simp only [ok_bind, hT.fit]
    rcases transform_class F (Binner.fit F P c.nBins T [cf]) (fit_no_class F P c.nBins T cf) hT with
      ⟨e, h1, h2⟩ | ⟨x, y, h1, h2, h3⟩
    · rw [h1, h2]
    · rw [h1, h2]
      simp only [ok_bind, pure_eq_ok]
      funext c
      rw [bind_ok (by rw [pureCode_run]; rfl), bind_ok (by rw [pureCode_run]; rfl)]
      show a.rest fuel R init g y cf pc _ _ = a.rest fuel R init g x cf pc _ _
      rw [rest_class h3]

namespace Spec
/-- The class column of a table as a list of labels. -/
def labelsOf (T : TFrame) (cf : Feat) : List Val := T.rows.map (·.cell cf)
/-- The class column of a table as a Series: with the row labels of the table. -/
def labelSeries (T : TFrame) (cf : Feat) : List (Label × Val) := T.rows.map (fun r => (r.label, r.cell cf))
end Spec

theorem setCol_self (T : TFrame) (cf : Feat) (rows : List Row) (h : rows = T.rows) :
    ((T.dropCol cf).setCol cf (labelsOf T cf)).rows = rows := by
  subst h
  show (T.rows.zip (T.rows.map (·.cell cf))).map _ = T.rows
  refine List.ext_getElem (by simp) fun i h1 h2 => ?_
  simp only [List.getElem_map, List.getElem_zip]
  obtain ⟨l, c⟩ : Row := T.rows[i]
  congr 1
  funext f
  by_cases e : f = cf <;> simp [e]

theorem sameSetCol {T : TFrame} {cf : Feat} (hcf : cf ∈ T.cols) :
    SameButClassColumn cf T ((T.dropCol cf).setCol cf (labelsOf T cf)) where
  rows := setCol_self T cf _ rfl
  cols := by
    have h : (T.dropCol cf).cols.contains cf = false := by
      show (T.cols.filter (· ≠ cf)).contains cf = false
      simp
    have : ((T.dropCol cf).setCol cf (labelsOf T cf)).cols = T.cols.filter (· ≠ cf) ++ [cf] := by
      show (if (T.dropCol cf).cols.contains cf then _ else _) = _
      rw [h]
      rfl
    rw [this]
    simp
  has := hcf
  has' := by
    show cf ∈ (if (T.dropCol cf).cols.contains cf then _ else _)
    split
    · rename_i h; simpa using h
    · simp
  kinds f hf := by
    show (if f = cf then _ else _) = _
    rw [if_neg hf]
    rfl

theorem toTraining_list (T : TFrame) (cf : Feat) :
    toTraining (T.dropCol cf) (some (.list (labelsOf T cf))) cf none = .ok ((T.dropCol cf).setCol cf (labelsOf T cf)) := by
  unfold toTraining attachY labelsOf
  have : (T.dropCol cf).rows.length = T.rows.length := rfl
  simp [this]

theorem toTraining_series (T : TFrame) (cf name : Feat) :
    toTraining (T.dropCol cf) (some (.series name (labelSeries T cf))) cf none =
      .ok ((T.dropCol cf).setCol cf (labelsOf T cf)) := by
  have h1 : (labelSeries T cf).length = (T.dropCol cf).rows.length := by
    show (T.rows.map _).length = T.rows.length
    simp
  have h2 : ((T.dropCol cf).rows.zip (labelSeries T cf)).map (fun rl => ({ rl.1 with label := rl.2.1 } : Row)) = (T.dropCol cf).rows := by
    show (T.rows.zip (T.rows.map _)).map _ = T.rows
    refine List.ext_getElem (by simp) fun i h1 h2 => ?_
    simp
  have h3 : (labelSeries T cf).map Prod.snd = labelsOf T cf := by
    simp [labelSeries, labelsOf]
  show attachY (T.dropCol cf) cf (.series name (labelSeries T cf)) = _
  unfold attachY
  simp only [h1, if_true, h2, h3]

theorem preprocessPrediction_class (F : PyFloat) (X : TFrame) (cf : Feat) (b : Binner) (names : Option (List Feat))
    (sel : List Feat) : preprocessPrediction F (X.dropCol cf) cf b names sel = preprocessPrediction F X cf b names sel := by
  have h : toPrediction (X.dropCol cf) cf names = toPrediction X cf names := by
    have h1 : (X.dropCol cf).cols.contains cf = false := by
      show (X.cols.filter (· ≠ cf)).contains cf = false
      simp
    have h2 : (if X.cols.contains cf then X.dropCol cf else X) = X.dropCol cf := by
      split
      · rfl
      · rename_i hc
        have : X.cols.filter (· ≠ cf) = X.cols := by
          rw [List.filter_eq_self]
          intro f hf
          have : f ≠ cf := fun e => hc (by rw [← e]; simpa using hf)
          simpa using this
        obtain ⟨⟨cols, rows⟩, kind⟩ := X
        show _ = ({ cols := cols.filter (· ≠ cf), rows := rows, kind := kind } : TFrame)
        simp only at this
        rw [this]
    unfold toPrediction
    simp only [h1, h2]
    rfl
  unfold preprocessPrediction
  rw [h]
  rfl

theorem ensureBinner_class (F : PyFloat) (c : Clf) : (after (ensureBinner F c)).classFeat = c.classFeat := by
  unfold ensureBinner
  rw [bind_ok (get_run c)]
  cases c.binner with
  | some b => rfl
  | none =>
    simp only [bind_run, self_run, modify_run]
    cases attr c.ruleset with
    | error e => rfl
    | ok rs =>
      simp only [outcome_ok, pureCode_run]
      cases constructFromRuleset F rs <;> rfl

/-- C92. Where the class column stands among the columns makes no difference: `fit` leaves the same object (or the same one after the
same exception). -/
theorem C92_class_column_anywhere [Arith] (a : Method) (fuel : Nat) (R : PyRandom) (F : PyFloat) (P : PandasCut) (cf : Feat)
    (pos : Option Val) (T T' : TFrame) (hT : SameButClassColumn cf T T') (init : ModelArg) (g : R.G) (c : Clf) :
    a.fit fuel R F P { X := T', classFeat := some cf, posClass := pos } init g c =
      a.fit fuel R F P { X := T, classFeat := some cf, posClass := pos } init g c := by
  have e : ∀ D : TFrame, cf ∈ D.cols → checkInput D none (some cf) none = if D.rows = [] then .error .valueError else .ok () := by
    intro D hD
    unfold checkInput
    simp [hD]
  by_cases h0 : T.rows = []
  · have h1 : T'.rows = [] := by rw [hT.rows, h0]
    rw [fit_rest, fit_rest]
    unfold preprocessTraining
    simp only [e T hT.has, e T' hT.has', h0, h1, if_true, error_bind]
  · have h1 : T'.rows ≠ [] := by rw [hT.rows]; exact h0
    refine congrFun (fit_labelled a fuel R F P { X := T, classFeat := some cf, posClass := pos }
      { X := T', classFeat := some cf, posClass := pos } cf T T' hT ?_ ?_ rfl rfl rfl rfl rfl init g) c
    · simp only [e T hT.has, h0, if_false]
    · simp only [e T' hT.has', h1, if_false]

/-- C92. A table with its class column, or the table without it and the labels as a list or as a Series: `fit` leaves the same
object (or the same one after the same exception). With a Series `class_feat` may be left out. -/
theorem C92_labels_separately [Arith] (a : Method) (fuel : Nat) (R : PyRandom) (F : PyFloat) (P : PandasCut) (cf : Feat)
    (pos : Option Val) (T : TFrame) (hcf : cf ∈ T.cols) (init : ModelArg) (g : R.G) (c : Clf) :
    let together := a.fit fuel R F P { X := T, classFeat := some cf, posClass := pos } init g c
    let X := T.dropCol cf
    a.fit fuel R F P { X := X, y := some (.list (labelsOf T cf)), classFeat := some cf, posClass := pos } init g c = together ∧
    a.fit fuel R F P { X := X, y := some (.series cf (labelSeries T cf)), classFeat := some cf, posClass := pos } init g c = together ∧
    a.fit fuel R F P { X := X, y := some (.series cf (labelSeries T cf)), posClass := pos } init g c = together := by
  intro together X
  have hT : SameButClassColumn cf T (X.setCol cf (labelsOf T cf)) := sameSetCol hcf
  by_cases h0 : T.rows = []
  · have hX : X.rows = [] := h0
    have h1 : checkInput T none (some cf) none = .error .valueError := by simp [checkInput, h0]
    have h2 : ∀ y cf', checkInput X y cf' none = .error .valueError := by intro y cf'; simp [checkInput, hX]
    refine ⟨?_, ?_, ?_⟩ <;>
    · show a.fit _ _ _ _ _ _ _ _ = a.fit _ _ _ _ _ _ _ _
      rw [fit_rest, fit_rest]
      unfold preprocessTraining
      simp only [h1, h2]
      rfl
  · have hX : X.rows ≠ [] := h0
    have h1 : checkInput T none (some cf) none = .ok () := by simp [checkInput, h0, hcf]
    have hl : toTraining X (some (.list (labelsOf T cf))) cf none = .ok (X.setCol cf (labelsOf T cf)) := toTraining_list T cf
    have hs : toTraining X (some (.series cf (labelSeries T cf))) cf none = .ok (X.setCol cf (labelsOf T cf)) :=
      toTraining_series T cf cf
    refine ⟨?_, ?_, ?_⟩
    · exact congrFun (fit_labelled a fuel R F P { X := T, classFeat := some cf, posClass := pos }
        { X := X, y := some (.list (labelsOf T cf)), classFeat := some cf, posClass := pos } cf T _ hT h1 (by simp [checkInput, hX]) rfl rfl rfl hl rfl init g) c
    · exact congrFun (fit_labelled a fuel R F P { X := T, classFeat := some cf, posClass := pos }
        { X := X, y := some (.series cf (labelSeries T cf)), classFeat := some cf, posClass := pos } cf T _ hT h1 (by simp [checkInput, hX]) rfl rfl rfl hs rfl init g) c
    · exact congrFun (fit_labelled a fuel R F P { X := T, classFeat := some cf, posClass := pos }
        { X := X, y := some (.series cf (labelSeries T cf)), posClass := pos } cf T _ hT h1 (by simp [checkInput, hX]) rfl rfl rfl hs rfl init g) c

/-- C92. Labels passed as a list without `class_feat` make a class column named "Class". -/
theorem C92_default_class_name [Arith] (a : Method) (fuel : Nat) (R : PyRandom) (F : PyFloat) (P : PandasCut) (X : TFrame)
    (ys : List Val) (pos : Option Val) (names : Option (List Feat)) (init : ModelArg) (g : R.G) (c : Clf) :
    a.fit fuel R F P { X := X, y := some (.list ys), posClass := pos, names := names } init g c =
      a.fit fuel R F P { X := X, y := some (.list ys), classFeat := some (.name p!"Class"), posClass := pos, names := names } init g c := by
  rw [fit_rest, fit_rest]
  rfl

/-- C92 for `recalibrate_proba`. -/
theorem C92_recalibrate (F : PyFloat) (c : Clf) (cf : Feat) (hc : c.classFeat = some cf)
    (hb : ∀ b, c.binner = some b → ∀ p ∈ b.bins, p.1 ≠ cf) (T T' : TFrame) (hT : SameButClassColumn cf T T')
    (minSamples : Option Int) (require discretize : Bool) :
    let together := Clf.recalibrate F T none none minSamples require discretize c
    let X := T.dropCol cf
    Clf.recalibrate F T' none none minSamples require discretize c = together ∧
    Clf.recalibrate F X (some (.list (labelsOf T cf))) none minSamples require discretize c = together ∧
    Clf.recalibrate F X (some (.series cf (labelSeries T cf))) none minSamples require discretize c = together := by
  intro together X
  have hS : SameButClassColumn cf T (X.setCol cf (labelsOf T cf)) := sameSetCol hT.has
  have key : ∀ (D : TFrame) (y : Option YArg) (D' : TFrame), SameButClassColumn cf T D' → toTraining D y cf none = .ok D' →
      checkInput D y (some cf) none = checkInput T none (some cf) none →
      Clf.recalibrate F D y none minSamples require discretize c = together := by
    intro D y D' hD ht hc'
    show _ = Clf.recalibrate F T none none minSamples require discretize c
    unfold Clf.recalibrate
    rw [bind_ok (c' := c) (a := cf) (by rw [self_run, hc]; rfl), bind_ok (c' := c) (a := cf) (by rw [self_run, hc]; rfl)]
    cases hpc : attr c.posClass with
    | error e =>
      rw [bind_error (c' := c) (e := e) (by rw [self_run, hpc]; rfl), bind_error (c' := c) (e := e) (by rw [self_run, hpc]; rfl)]
    | ok pc =>
      rw [bind_ok (c' := c) (a := pc) (by rw [self_run, hpc]; rfl), bind_ok (c' := c) (a := pc) (by rw [self_run, hpc]; rfl)]
      have main : ∀ b : Option Binner, (∀ b', b = some b' → ∀ p ∈ b'.bins, p.1 ≠ cf) →
          RelOut (SameButClassColumn cf) (preprocessRecalibrate F T none cf b none) (preprocessRecalibrate F D y cf b none) := by
        intro b hbb
        unfold preprocessRecalibrate
        rw [hc', ht]
        cases checkInput T none (some cf) none with
        | error e => exact Or.inl ⟨e, rfl, rfl⟩
        | ok u =>
          cases b with
          | none => exact Or.inr ⟨T, D', rfl, rfl, hD⟩
          | some b =>
            show RelOut _ (applyBins F b T) (applyBins F b D')
            unfold applyBins
            split
            · exact Or.inr ⟨T, D', rfl, rfl, hD⟩
            · exact transform_class F b (hbb b rfl) hD
      have fin : ∀ (k : TFrame → OnClf Unit), (∀ x z, SameButClassColumn cf x z → k z = k x) → ∀ b : Option Binner,
          (∀ b', b = some b' → ∀ p ∈ b'.bins, p.1 ≠ cf) →
          (pureCode (preprocessRecalibrate F D y cf b none) >>= k) c =
            (pureCode (preprocessRecalibrate F T none cf b none) >>= k) c := by
        intro k hk b hbb
        rcases main b hbb with ⟨e, h1, h2⟩ | ⟨x, z, h1, h2, h3⟩
        · rw [h1, h2]
        · rw [h1, h2, bind_pureCode, bind_pureCode]
          simp only [hk x z h3]
      have hk : ∀ x z : TFrame, SameButClassColumn cf x z → ∀ rs alpha,
          recalibrateProba rs z.toFrame cf pc minSamples require alpha =
            recalibrateProba rs x.toFrame cf pc minSamples require alpha := fun x z h3 rs alpha => by
        unfold recalibrateProba
        exact recalibrate_cols h3.frame rs cf pc alpha
      cases discretize with
      | false =>
        have : ((if false = true then do return some (← self Clf.binner) else pure none : OnClf (Option Binner)) c) =
            .ok none c := rfl
        rw [bind_ok this, bind_ok this]
        exact fin _ (fun x z h3 => by simp only [hk x z h3]) none (fun _ h => by cases h)
      | true =>
        cases hbn : c.binner with
        | none =>
          have : ((if true = true then do return some (← self Clf.binner) else pure none : OnClf (Option Binner)) c) =
              .error .attributeError c := by
            rw [if_pos rfl, bind_error (c' := c) (e := .attributeError) (by rw [self_run, hbn]; rfl)]
          rw [bind_error this, bind_error this]
        | some b =>
          have : ((if true = true then do return some (← self Clf.binner) else pure none : OnClf (Option Binner)) c) =
              .ok (some b) c := by
            rw [if_pos rfl, bind_ok (c' := c) (a := b) (by rw [self_run, hbn]; rfl)]
            rfl
          rw [bind_ok this, bind_ok this]
          exact fin _ (fun x z h3 => by simp only [hk x z h3]) (some b)
            (fun b' h => by injection h with h; subst h; exact hb b hbn)
  refine ⟨?_, ?_, ?_⟩
  · exact key T' none T' hT rfl (by simp [checkInput, hT.rows, hT.has, hT.has'])
  · refine key X _ _ hS (toTraining_list T cf) ?_
    have : X.rows = T.rows := rfl
    simp [checkInput, this, hT.has]
  · refine key X _ _ hS (toTraining_series T cf cf) ?_
    have : X.rows = T.rows := rfl
    simp [checkInput, this, hT.has]

/-- C92 for queries: a class column in the data to predict is ignored. -/
theorem C92_class_column_ignored (F : PyFloat) (c : Clf) (cf : Feat) (hc : c.classFeat = some cf) (X : TFrame) (y : Option (List Val))
    (ys : List Val) (names : Option (List Feat)) (scoreFn : List Bool → List Bool → Except PyErr (Option Rat)) :
    let X' := X.dropCol cf
    Clf.predict F X' names c = Clf.predict F X names c ∧
    Clf.predictReasons F X' names c = Clf.predictReasons F X names c ∧
    Clf.predictProba F X' names c = Clf.predictProba F X names c ∧
    Clf.predictProbaReasons F X' names c = Clf.predictProbaReasons F X names c ∧
    Clf.score F X' ys scoreFn c = Clf.score F X ys scoreFn c ∧
    Clf.ruleStats F X' y names c = Clf.ruleStats F X y names c := by
  intro X'
  have he : ∀ b ns sel, preprocessPrediction F X' cf b ns sel = preprocessPrediction F X cf b ns sel :=
    fun b ns sel => preprocessPrediction_class F X cf b ns sel
  have hp : ∀ d : Clf, d.classFeat = some cf → prepared F X' names d = prepared F X names d := by
    intro d hd
    simp only [prepared_run, hd]
    simp only [attr, ok_bind, he]
  have hp0 : ∀ d : Clf, d.classFeat = some cf → prepared F X' none d = prepared F X none d := by
    intro d hd
    simp only [prepared_run, hd]
    simp only [attr, ok_bind, he]
  have q : ∀ {α : Type} (ns : Option (List Feat)) (act : Frame → OnClf α), (∀ d : Clf, d.classFeat = some cf →
      prepared F X' ns d = prepared F X ns d) →
      (do let _ ← self Clf.ruleset; ensureBinner F; let df ← prepared F X' ns; act df : OnClf α) c =
      (do let _ ← self Clf.ruleset; ensureBinner F; let df ← prepared F X ns; act df : OnClf α) c := by
    intro α ns act h
    simp only [bind_run, self_run]
    cases attr c.ruleset with
    | error e => rfl
    | ok rs =>
      simp only [outcome_ok]
      have := ensureBinner_class F c
      cases he : ensureBinner F c with
      | error e c' => rfl
      | ok u c' =>
        rw [he] at this
        have e : c'.classFeat = c.classFeat := this
        simp only [h c' (by rw [e]; exact hc)]
  have q2 : ∀ {α : Type} (act : Ruleset → Frame → Except PyErr α), probaQuery F act X' names c = probaQuery F act X names c := by
    intro α act
    unfold probaQuery
    simp only [bind_run, self_run]
    cases attr c.ruleset with
    | error e => rfl
    | ok rs =>
      simp only [outcome_ok]
      cases attr c.binner with
      | error e => rfl
      | ok b => simp only [outcome_ok, hp c hc]
  refine ⟨q names _ hp, q names _ hp, q2 _, q2 _, ?_, q names _ hp⟩
  unfold Clf.score
  have h1 : Clf.predict F X' none c = Clf.predict F X none c := q none _ hp0
  simp only [bind_run, self_run]
  cases attr c.ruleset with
  | error e => rfl
  | ok rs => simp only [outcome_ok, h1]

namespace Demo
/-- A table with its class column in front. -/
def classFirst : TFrame :=
  { Frame.ofTable [fc, fa, fn]
      [(0, [vp, vx, numCell 1]), (1, [vp, vx, numCell 2]), (2, [vn, vx, numCell 12]), (3, [vn, vy, numCell 25]),
       (4, [vn, vy, numCell 3]), (5, [vn, vx, numCell 20])] with
    kind := fun f => if f = fn then .number else .text }
/-- The same with the class column in the middle. -/
def classMiddle : TFrame := { classFirst with cols := [fa, fc, fn] }
end Demo

/-- The hypotheses are met by tables with a column that is discretised, and a model with a rule is learned. -/
example : SameButClassColumn Demo.fc Demo.classFirst Demo.classMiddle ∧ Demo.classFirst.cols ≠ Demo.classMiddle.cols ∧
    Demo.fc ∈ Demo.classFirst.cols ∧ (Demo.classFirst.dropCol Demo.fc).cols = [Demo.fa, Demo.fn] ∧
    labelsOf Demo.classFirst Demo.fc = [Demo.vp, Demo.vp, Demo.vn, Demo.vn, Demo.vn, Demo.vn] := by
  refine ⟨⟨rfl, by decide +kernel, by decide +kernel, by decide +kernel, fun _ _ => rfl⟩, by decide +kernel, by decide +kernel,
    by decide +kernel, by decide +kernel⟩

example :
    let d : FitData := { X := Demo.classFirst, classFeat := some Demo.fc, posClass := some Demo.vp }
    (Demo.seen (Method.irep.fit 7 Demo.R0 Demo.F Demo.P d .nothing () Demo.newIrep)) =
      (Demo.seen (Method.irep.fit 7 Demo.R0 Demo.F Demo.P Demo.mixedData .nothing () Demo.newIrep)) := by
  decide +kernel

/-- A classifier fitted to labels has a class column and no bins for it. -/
example : (Demo.clf.classFeat).isSome ∧ ∀ b, Demo.clf.binner = some b → ∀ cf, Demo.clf.classFeat = some cf → ∀ p ∈ b.bins, p.1 ≠ cf := by
  refine ⟨by decide +kernel, ?_⟩
  intro b hb cf hc
  have e1 : Demo.clf.binner = some _ := rfl
  have e2 : Demo.clf.classFeat = some _ := rfl
  rw [e1] at hb; rw [e2] at hc
  injection hb with hb; injection hc with hc
  subst hb; subst hc
  decide +kernel

end Witt
