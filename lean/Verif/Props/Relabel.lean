import Mathlib.Logic.Equiv.Basic
import Verif.Lemmas.RelabelApi
import Verif.Props.Unpruned
/-
C87: row labels carry no information.
-/
namespace Witt
open Spec

namespace Spec
/-- The same columns and the same rows in the same order: only the row labels may differ. -/
structure SameRows (df df' : Frame) : Prop where
  cols : df'.cols = df.cols
  cells : df'.rows.map Row.cell = df.rows.map Row.cell

/-- A generator whose `shuffle` moves positions without looking at the elements, as `random.shuffle` does. -/
def Positional (R : PyRandom) : Prop :=
  ∀ (f : Label → Label) (g : R.G) (l : List Label),
    R.shuffle g (l.map f) = ((R.shuffle g l).1.map f, (R.shuffle g l).2)

/-- The same data for `fit` up to row labels, with distinct labels, and with class labels given as a list or as a column. -/
structure SameFitData (d d' : FitData) : Prop where
  rows : SameRows d.X.toFrame d'.X.toFrame
  kinds : d'.X.kind = d.X.kind
  unique : d.X.UniqueIndex
  unique' : d'.X.UniqueIndex
  rest : d'.y = d.y ∧ d'.classFeat = d.classFeat ∧ d'.posClass = d.posClass ∧ d'.names = d.names
  noSeries : ∀ n lvs, d.y ≠ some (.series n lvs)
end Spec

/-! ### a renaming for every pair of frames -/

theorem exists_renaming : ∀ (a b : List Label), a.Nodup → b.Nodup → a.length = b.length → ∃ f : Label ≃ Label, b = a.map f
  | [], [], _, _, _ => ⟨Equiv.refl _, rfl⟩
  | x :: a, y :: b, ha, hb, hl => by
    rw [List.nodup_cons] at ha hb
    obtain ⟨f, hf⟩ := exists_renaming a b ha.2 hb.2 (by simpa using hl)
    refine ⟨f.trans (Equiv.swap (f x) y), ?_⟩
    rw [List.map_cons]
    congr 1
    · simp
    · rw [hf]
      refine List.map_congr_left fun z hz => ?_
      have h1 : f z ≠ f x := fun e => ha.1 (f.injective e ▸ hz)
      have h2 : f z ≠ y := fun e => hb.1 (by rw [hf, ← e]; exact List.mem_map_of_mem hz)
      simp [Equiv.swap_apply_of_ne_of_ne h1 h2]
  | [], _ :: _, _, _, hl => by simp at hl
  | _ :: _, [], _, _, hl => by simp at hl

theorem Spec.SameRows.relabel {df df' : Frame} (h : SameRows df df') (hu : df.UniqueIndex) (hu' : df'.UniqueIndex) :
    ∃ f, df' = df.relabel f := by
  have hlen : df'.rows.length = df.rows.length := by simpa using congrArg List.length h.cells
  obtain ⟨f, hf⟩ := exists_renaming df.index df'.index hu hu' (by simp [Frame.index, hlen])
  refine ⟨f, ?_⟩
  obtain ⟨cols, rows⟩ := df
  obtain ⟨cols', rows'⟩ := df'
  obtain ⟨h1, h2⟩ := h
  dsimp only at h1 h2
  subst h1
  unfold Frame.relabel
  congr 1
  show rows' = rows.map (Row.relabel f)
  refine List.ext_getElem (by simpa using hlen) fun i hi hi' => ?_
  have hi2 : i < rows.length := by simpa using hi'
  rw [List.getElem_map]
  have e1 : (rows'.map Row.cell)[i]'(by simpa using hi) = (rows.map Row.cell)[i]'(by simpa using hi2) := by
    simp only [h2]
  have e2 : (rows'.map Row.label)[i]'(by simpa using hi) = ((rows.map Row.label).map f)[i]'(by simpa using hi2) := by
    have : rows'.map Row.label = (rows.map Row.label).map f := hf
    simp only [this]
  simp only [List.getElem_map] at e1 e2
  unfold Row.relabel
  rw [← e1, ← e2]

theorem Spec.Positional.relabel_eq {R : PyRandom} (h : Positional R) (f : Label ≃ Label) : R.relabel f = R := by
  obtain ⟨G, seed, shuffle⟩ := R
  unfold PyRandom.relabel
  congr 1
  funext g l
  have := h f.symm g l
  dsimp only at this ⊢
  rw [this]
  simp

theorem PyRandom.Lawful.relabel {R : PyRandom} (h : R.Lawful) (f : Label ≃ Label) : (R.relabel f).Lawful := by
  intro g l
  have := (h g (l.map f.symm)).map f
  simpa using this

/-! ### training -/

theorem train_relabel [Arith] (a : Method) (fuel : Nat) (R : PyRandom) (hp : Hyper) (old : Option (List Cond))
    (init : List (List Cond)) (df : Frame) (cf : Feat) (pc : Val) (g : R.G) (f : Label ≃ Label) :
    a.train fuel (R.relabel f) hp old init (df.relabel f) cf pc g = a.train fuel R hp old init df cf pc g := by
  cases a with
  | irep => exact irepFit_relabel fuel R hp init df cf pc g
  | ripper => exact ripperFit_relabel fuel R hp init df cf pc g
  | irepPlain S => exact irepFitPlain_relabel fuel R S hp old init df cf pc g
  | ripperPlain S => exact ripperFitPlain_relabel fuel R S hp old init df cf pc g

theorem fit_relabel [Arith] (a : Method) (fuel : Nat) (R : PyRandom) (F : PyFloat) (P : PandasCut) (d : FitData) (init : ModelArg)
    (g : R.G) (c : Clf) (f : Label ≃ Label) :
    completed (a.fit fuel (R.relabel f) F P (d.relabel f) init g c) = completed (a.fit fuel R F P d init g c) := by
  simp only [Method.fit_completed, preprocessTraining_relabel]
  cases a.early init with
  | error e => rfl
  | ok rs =>
    simp only [ok_bind]
    cases preprocessTraining F P c.nBins d with
    | error e => rfl
    | ok q =>
      simp only [Except.map, ok_bind, toFrame_relabel, train_relabel]

theorem Spec.SameFitData.relabel {d d' : FitData} (h : SameFitData d d') : ∃ f, d' = d.relabel f := by
  obtain ⟨f, hf⟩ := SameRows.relabel h.rows h.unique h.unique'
  refine ⟨f, ?_⟩
  obtain ⟨X, y, cf, pc, names⟩ := d
  obtain ⟨X', y', cf', pc', names'⟩ := d'
  obtain ⟨h1, h2, h3, h4⟩ := h.rest
  dsimp only at h1 h2 h3 h4
  subst h1 h2 h3 h4
  unfold FitData.relabel
  have hX : X' = X.relabel f := by
    have hk := h.kinds
    obtain ⟨fr, k⟩ := X
    obtain ⟨fr', k'⟩ := X'
    dsimp only at hf hk
    subst hf hk
    rfl
  have hy : y'.map (YArg.relabel f) = y' := by
    cases y' with
    | none => rfl
    | some y =>
      cases y with
      | list vs => rfl
      | series n lvs => exact absurd rfl (h.noSeries n lvs)
  rw [hX, hy]

/-- C87. What IREP and RIPPER learn (the model, or the exception) does not depend on the row labels, as long as they are distinct
and shuffling does not look at them. With `cn_optimize=False` that is so in Python; with the coverage index `shuffle` stands also for
the order in which sets of labels are enumerated, which Python does not promise to be independent of the labels (see the next two
theorems for that case). -/
theorem C87_labels_irrelevant [Arith] (a : Method) (fuel : Nat) (R : PyRandom) (hR : Positional R) (F : PyFloat) (P : PandasCut)
    (d d' : FitData) (hd : SameFitData d d') (init : ModelArg) (g : R.G) (c : Clf) :
    completed (a.fit fuel R F P d' init g c) = completed (a.fit fuel R F P d init g c) := by
  obtain ⟨f, rfl⟩ := hd.relabel
  have h := fit_relabel a fuel R F P d init g c f
  have hr := hR.relabel_eq f
  obtain ⟨G, seed, shuffle⟩ := R
  unfold PyRandom.relabel at h hr
  dsimp only at h hr
  rw [PyRandom.mk.injEq] at hr
  rw [eq_of_heq hr.2.2] at h
  exact h

/-- C87. Without pruning, IREP's outcome does not depend on the row labels either with the coverage index, whatever the
generators do. -/
theorem C87_unpruned_labels_irrelevant [Arith] [Arith.Lawful] (a : Method) (ha : a = .irep ∨ ∃ S, a = .irepPlain S) (fuel : Nat)
    (R R' : PyRandom) (hR : R.Lawful) (hR' : R'.Lawful) (F : PyFloat) (P : PandasCut) (d d' : FitData) (hd : SameFitData d d')
    (init : ModelArg) (g : R.G) (g' : R'.G) (c : Clf) (h0 : Unpruned c.hyper) :
    (completed (a.fit fuel R' F P d' init g' c)).map Prod.snd = (completed (a.fit fuel R F P d init g c)).map Prod.snd := by
  obtain ⟨f, rfl⟩ := hd.relabel
  have h1 := C86_fit_unpruned a ha fuel (R.relabel f) R' (hR.relabel f) hR' F P (d.relabel f) init g g' c h0 c.hyper.randomState
  rw [fit_relabel] at h1
  exact h1.trans (C86_fit_unpruned a ha fuel R R hR hR F P d init g g c h0 c.hyper.randomState).symm

/-- C87. With the coverage index and pruning, the enumeration order of sets of labels comes in, and with it the labels; but they
make no outcome possible that is not possible under other labels. -/
theorem C87_same_possible_outcomes [Arith] (a : Method) (fuel : Nat) (R : PyRandom) (hR : R.Lawful) (F : PyFloat) (P : PandasCut)
    (d d' : FitData) (hd : SameFitData d d') (init : ModelArg) (g : R.G) (c : Clf) :
    ∃ (R' : PyRandom) (g' : R'.G), R'.Lawful ∧
      (completed (a.fit fuel R' F P d' init g' c)).map Prod.snd = (completed (a.fit fuel R F P d init g c)).map Prod.snd := by
  obtain ⟨f, rfl⟩ := hd.relabel
  exact ⟨R.relabel f, g, hR.relabel f, by rw [fit_relabel]⟩

/-! ### using a classifier -/

/-- C87. The answers of `predict`, `predict_proba`, `score`, their reasons and `rule_stats` do not depend on the row labels, as long
as they are distinct; nor do the attributes and exceptions left behind. -/
theorem C87_answers_label_free (F : PyFloat) (X X' : TFrame) (h : SameRows X.toFrame X'.toFrame) (hk : X'.kind = X.kind)
    (hu : X.UniqueIndex) (hu' : X'.UniqueIndex) (names : Option (List Feat)) (y : Option (List Val)) (ys : List Val)
    (scoreFn : List Bool → List Bool → Except PyErr Rat) :
    Clf.predict F X' names = Clf.predict F X names ∧
    Clf.predictReasons F X' names = Clf.predictReasons F X names ∧
    Clf.predictProba F X' names = Clf.predictProba F X names ∧
    Clf.predictProbaReasons F X' names = Clf.predictProbaReasons F X names ∧
    Clf.score F X' ys scoreFn = Clf.score F X ys scoreFn ∧
    Clf.ruleStats F X' y names = Clf.ruleStats F X y names := by
  obtain ⟨f, hf⟩ := SameRows.relabel h hu hu'
  have hX : X' = X.relabel f := by
    obtain ⟨fr, k⟩ := X
    obtain ⟨fr', k'⟩ := X'
    dsimp only at hf hk
    subst hf hk
    rfl
  subst hX
  have hp : ∀ names, Clf.predict F (X.relabel f) names = Clf.predict F X names := by
    intro names
    unfold Clf.predict
    simp only [prepared_relabel, bind_assoc, pure_bind, predict_relabel]
  refine ⟨hp names, ?_, ?_, ?_, ?_, ?_⟩
  · unfold Clf.predictReasons
    simp only [prepared_relabel, bind_assoc, pure_bind, predictReasons_relabel]
  · unfold Clf.predictProba probaQuery Ruleset.predictProba
    simp only [prepared_relabel, bind_assoc, pure_bind, predictProbaReasons_relabel]
  · unfold Clf.predictProbaReasons probaQuery
    simp only [prepared_relabel, bind_assoc, pure_bind, predictProbaReasons_relabel]
  · unfold Clf.score
    simp only [hp]
  · have ht : ∀ pc rs df, ruleTable pc y rs (df.relabel f) = ruleTable pc y rs df := by
      intro pc rs df
      unfold ruleTable
      simp only [rows_length_relabel]
      split
      · rfl
      congr 1
      funext ri
      unfold ruleStat Rule.covers
      rw [condsCover_relabel]
      cases condsCover ri.1.conds df with
      | error e => rfl
      | ok d =>
        simp only [Except.map, ok_bind, index_relabel, rows_length_relabel, List.map_map]
        have : (df.index.map ((fun l => (d.index.map f).contains l) ∘ f)) = df.index.map (fun l => d.index.contains l) :=
          List.map_congr_left fun x _ => contains_map _ x
        rw [this]
    unfold Clf.ruleStats
    simp only [prepared_relabel, bind_assoc, pure_bind, ht]

theorem preprocessRecalibrate_relabel (F : PyFloat) (X : TFrame) (y : Option YArg) (cf : Feat) (b : Option Binner)
    (names : Option (List Feat)) (f : Label ≃ Label) :
    preprocessRecalibrate F (X.relabel f) (y.map (YArg.relabel f)) cf b names =
      (preprocessRecalibrate F X y cf b names).map (TFrame.relabel f) := by
  unfold preprocessRecalibrate
  rw [checkInput_relabel, toTraining_relabel]
  cases checkInput X y (some cf) names with
  | error e => rfl
  | ok u =>
    simp only [ok_bind]
    cases toTraining X y cf names with
    | error e => rfl
    | ok df =>
      simp only [Except.map, ok_bind]
      cases b with
      | none => rfl
      | some b =>
        unfold applyBins
        dsimp only
        split
        · rfl
        · rw [transform_relabel]
          cases b.transform F df <;> rfl

/-- C87. `recalibrate_proba` gives the same probabilities (or exception) under other distinct row labels. -/
theorem C87_recalibrate_label_free (F : PyFloat) (X X' : TFrame) (h : SameRows X.toFrame X'.toFrame) (hk : X'.kind = X.kind)
    (hu : X.UniqueIndex) (hu' : X'.UniqueIndex) (y : Option (List Val)) (names : Option (List Feat)) (minSamples : Option Int)
    (require discretize : Bool) :
    Clf.recalibrate F X' (y.map YArg.list) names minSamples require discretize =
      Clf.recalibrate F X (y.map YArg.list) names minSamples require discretize := by
  obtain ⟨f, hf⟩ := SameRows.relabel h hu hu'
  have hX : X' = X.relabel f := by
    obtain ⟨fr, k⟩ := X
    obtain ⟨fr', k'⟩ := X'
    dsimp only at hf hk
    subst hf hk
    rfl
  subst hX
  have hy : y.map YArg.list = (y.map YArg.list).map (YArg.relabel f) := by cases y <;> rfl
  unfold Clf.recalibrate
  congr 1; funext cf
  congr 1; funext pc
  congr 1; funext b
  have hp : preprocessRecalibrate F (X.relabel f) (y.map YArg.list) cf b names =
      (preprocessRecalibrate F X (y.map YArg.list) cf b names).map (TFrame.relabel f) := by
    conv_lhs => rw [hy]
    exact preprocessRecalibrate_relabel F X _ cf b names f
  rw [hp]
  cases preprocessRecalibrate F X (y.map YArg.list) cf b names with
  | error e => rfl
  | ok df =>
    show _ = (pureCode (.ok df) >>= _)
    simp only [Except.map, pureCode, pure_bind]
    congr 1; funext rs
    congr 1; funext c
    have hr : ∀ alpha, recalibrateProba rs (df.relabel f).toFrame cf pc minSamples require alpha =
        recalibrateProba rs df.toFrame cf pc minSamples require alpha := by
      intro alpha
      unfold recalibrateProba
      rw [toFrame_relabel, recalibrate_relabel]
    rw [hr]

/-! ### a Series brings its own labels -/

/-- `X` with the requested column names, if any. -/
def named (X : TFrame) : Option (List Feat) → Except PyErr TFrame
  | none => .ok X
  | some ns => X.rename ns

theorem toTraining_named (X : TFrame) (y : YArg) (cf : Feat) (names : Option (List Feat)) :
    toTraining X (some y) cf names = (named X names >>= fun d => attachY d cf y) := by
  cases names <;> rfl

theorem SameRows_rename {X X' : TFrame} (h : SameRows X.toFrame X'.toFrame) (hk : X'.kind = X.kind) (names : Option (List Feat)) :
    (∃ e, named X names = .error e ∧
      named X' names = .error e) ∨
    ∃ d d' : TFrame, named X names = .ok d ∧
      named X' names = .ok d' ∧
      SameRows d.toFrame d'.toFrame ∧ d'.kind = d.kind := by
  cases names with
  | none => exact Or.inr ⟨X, X', rfl, rfl, h, hk⟩
  | some ns =>
    simp only [named]
    unfold TFrame.rename
    have hc : X'.cols = X.cols := h.cols
    rw [hc]
    by_cases hl : ns.length ≠ X.cols.length
    · exact Or.inl ⟨_, by rw [if_pos hl], by rw [if_pos hl]⟩
    · rw [if_neg hl, if_neg hl]
      refine Or.inr ⟨_, _, rfl, rfl, ⟨rfl, ?_⟩, by simp only [hk]⟩
      simp only [List.map_map]
      have : ∀ rows : List Row, rows.map (Row.cell ∘ fun row => ({ row with
            cell := fun f => ((oldName ns X.cols f).map row.cell).getD .nan } : Row)) =
          (rows.map Row.cell).map (fun c f => ((oldName ns X.cols f).map c).getD .nan) := by
        intro rows
        rw [List.map_map]
        rfl
      rw [this, this, h.cells]

/-- C87. When the class labels come as a Series with one label per row, the row labels of `X` do not matter at all, distinct or not. -/
theorem C87_series_labels_win [Arith] (a : Method) (fuel : Nat) (R : PyRandom) (F : PyFloat) (P : PandasCut) (d : FitData)
    (name : Feat) (lvs : List (Label × Val)) (hy : d.y = some (.series name lvs)) (hl : lvs.length = d.X.rows.length)
    (X' : TFrame) (h : SameRows d.X.toFrame X'.toFrame) (hk : X'.kind = d.X.kind) (init : ModelArg) (g : R.G) (c : Clf) :
    completed (a.fit fuel R F P { d with X := X' } init g c) = completed (a.fit fuel R F P d init g c) := by
  have hlen : X'.rows.length = d.X.rows.length := by simpa using congrArg List.length h.cells
  have hp : preprocessTraining F P c.nBins { d with X := X' } = preprocessTraining F P c.nBins d := by
    unfold preprocessTraining
    have h1 : checkInput X' d.y d.classFeat d.names = checkInput d.X d.y d.classFeat d.names := by
      unfold checkInput
      have hc : X'.cols = d.X.cols := h.cols
      have hr : X'.rows = [] ↔ d.X.rows = [] := by
        rw [← List.length_eq_zero_iff, hlen, List.length_eq_zero_iff]
      simp only [hc, hr]
    have h2 : ∀ cf, toTraining X' d.y cf d.names = toTraining d.X d.y cf d.names := by
      intro cf
      rw [hy]
      have key : ∀ e1 e2 : TFrame, SameRows e1.toFrame e2.toFrame → e2.kind = e1.kind → e1.rows.length = d.X.rows.length →
          attachY e2 cf (.series name lvs) = attachY e1 cf (.series name lvs) := by
        intro e1 e2 hs hk2 hlen1
        have hlen2 : e2.rows.length = e1.rows.length := by simpa using congrArg List.length hs.cells
        unfold attachY
        dsimp only
        rw [hlen2, hlen1, if_pos hl, if_pos hl]
        have : ∀ rows : List Row, (rows.zip lvs).map (fun rl => ({ rl.1 with label := rl.2.1 } : Row)) =
            ((rows.map Row.cell).zip lvs).map (fun cl => ({ label := cl.2.1, cell := cl.1 } : Row)) := by
          intro rows
          rw [List.zip_map_left, List.map_map]
          rfl
        simp only [this, hs.cells]
        obtain ⟨⟨cols1, rows1⟩, k1⟩ := e1
        obtain ⟨⟨cols2, rows2⟩, k2⟩ := e2
        have hc2 := hs.cols
        dsimp only at hk2 hc2
        subst hk2 hc2
        rfl
      have hlr : ∀ e, named d.X d.names = .ok e →
          e.rows.length = d.X.rows.length := by
        intro e he
        cases hn : d.names with
        | none => rw [hn] at he; cases he; rfl
        | some ns =>
          rw [hn] at he
          simp only [named, TFrame.rename] at he
          split at he
          · cases he
          · cases he; simp
      rw [toTraining_named, toTraining_named]
      rcases SameRows_rename h hk d.names with ⟨e, e1, e2⟩ | ⟨d1, d2, e1, e2, hs, hk2⟩
      · rw [e1, e2]
      · rw [e1, e2]
        exact key d1 d2 hs hk2 (hlr _ e1)
    simp only [h1, h2]
  simp only [Method.fit_completed, hp]

/-- C87 needs distinct labels: a repeated label makes two rows one to `predict`. Here the second row fires no rule, but shares its
label with one that does. -/
theorem C87_refuted_repeated_labels :
    let df : Frame := Frame.ofTable [Demo.fa] [(0, [Demo.vx]), (1, [Demo.vy])]
    let df' : Frame := Frame.ofTable [Demo.fa] [(0, [Demo.vx]), (0, [Demo.vy])]
    let rs : Ruleset := { rules := [{ conds := [⟨Demo.fa, Demo.vx⟩] }] }
    SameRows df df' ∧ rs.predict df = .ok [true, false] ∧ rs.predict df' = .ok [true, true] := by
  refine ⟨⟨rfl, rfl⟩, ?_, ?_⟩ <;> decide +kernel

namespace Demo
theorem R0_positional : Positional R0 := fun _ _ _ => rfl
theorem R1_positional : Positional R1 := by
  intro f (g : Nat) l
  show (if g % 2 = 0 then (l.map f).reverse else l.map f, g + 1) = ((if g % 2 = 0 then l.reverse else l).map f, g + 1)
  split
  · rw [List.map_reverse]
  · rfl
/-- `mixed` under other row labels. -/
def mixedNamed : FitData := { mixedData with X := { mixedData.X with
  rows := mixedData.X.rows.map (fun r => { r with label := 100 - 7 * r.label }) } }
theorem mixed_same : SameFitData mixedData mixedNamed where
  rows := ⟨rfl, by simp [mixedNamed, Function.comp_def]⟩
  kinds := rfl
  unique := by unfold Frame.UniqueIndex; decide +kernel
  unique' := by unfold Frame.UniqueIndex; decide +kernel
  rest := ⟨rfl, rfl, rfl, rfl⟩
  noSeries := by intro n lvs h; cases h
end Demo

/-- The hypotheses of `C87_series_labels_win` hold: a Series of six class labels, and the rows of `X` all carrying one label. -/
example : (({ Demo.mixedData with y := some (.series Demo.fc ((List.range 6).map (fun i => ((i : Int), Demo.vp)))) } : FitData).y =
      some (.series Demo.fc ((List.range 6).map (fun i => ((i : Int), Demo.vp))))) ∧
    ((List.range 6).map (fun i => ((i : Int), Demo.vp))).length = Demo.mixedData.X.rows.length ∧
    SameRows Demo.mixedData.X.toFrame { Demo.mixedData.X.toFrame with
      rows := Demo.mixedData.X.rows.map (fun r => { r with label := 5 }) } :=
  ⟨rfl, by decide +kernel, rfl, by simp [Function.comp_def]⟩

/-- The hypotheses hold of a fit under two different labellings. -/
example : SameFitData Demo.mixedData Demo.mixedNamed ∧ Demo.mixedData.X.index ≠ Demo.mixedNamed.X.index ∧
    Positional Demo.R0 ∧ Positional Demo.R1 ∧ Demo.R0.Lawful ∧
    (∃ c', FittedBy .irep Demo.R0 Demo.F Demo.P Demo.mixedData .nothing Demo.newIrep c') :=
  ⟨Demo.mixed_same, by decide +kernel, Demo.R0_positional, Demo.R1_positional, Demo.R0_lawful, Demo.mixed_fit_irep⟩

end Witt
