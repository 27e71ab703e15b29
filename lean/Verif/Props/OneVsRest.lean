import Verif.Lemmas.OneVsRest
import Verif.Props.IrrelevantApi
import Verif.Props.Recode
import Verif.Props.ProbaApi
/-
C104: of the class labels only this counts: which rows are positive.
-/
namespace Witt
open Spec

namespace Spec
/-- The two sets of labels name the same rows as positive: `ys` with the positive class `pc`, `ys'` with `pc'`. -/
def SameLabels (pc pc' : Val) (ys ys' : List Val) : Prop := List.Forall₂ (fun v v' => Same v pc ↔ Same v' pc') ys ys'

/-- The two calls of `fit` pose the same problem: the same data, the same name of the class column, positive classes given as `pc` and
`pc'`, and the same rows positive. The labels may be a list, a Series, or a column of the data. -/
inductive SameProblem (pc pc' : Val) (X : TFrame) (cl : Option Feat) (names : Option (List Feat)) : FitData → FitData → Prop
  | list {ys ys' : List Val} (h : SameLabels pc pc' ys ys') :
      SameProblem pc pc' X cl names ⟨X, some (.list ys), cl, some pc, names⟩ ⟨X, some (.list ys'), cl, some pc', names⟩
  | series {n : Feat} {labels : List Label} {ys ys' : List Val} (h : SameLabels pc pc' ys ys') (hl : labels.length = ys.length) :
      SameProblem pc pc' X cl names ⟨X, some (.series n (labels.zip ys)), cl, some pc, names⟩
        ⟨X, some (.series n (labels.zip ys')), cl, some pc', names⟩
  | column {X' : TFrame} {cf : Feat} (hcl : cl = some cf) (hn : names = none) (hk : ∀ f, f ≠ cf → X'.kind f = X.kind f)
      (hc : X.cols = X'.cols)
      (hr : List.Forall₂ (fun r r' : Row => r.label = r'.label ∧ (∀ f, f ≠ cf → r.cell f = r'.cell f) ∧
        (Same (r.cell cf) pc ↔ Same (r'.cell cf) pc')) X.rows X'.rows) :
      SameProblem pc pc' X cl names ⟨X, none, cl, some pc, names⟩ ⟨X', none, cl, some pc', names⟩
end Spec

/-- The frames hold the same examples, and columns other than the class column are of the same kind. -/
structure SameTrain (cf : Feat) (pc pc' : Val) (X X' : TFrame) : Prop where
  same : SameExamples cf pc pc' X.toFrame X'.toFrame
  kind : ∀ f, f ≠ cf → X.kind f = X'.kind f

variable {cf : Feat} {pc pc' : Val}

theorem same_bool {v v' : Val} (h : Same v pc ↔ Same v' pc') : v.pyEq pc = v'.pyEq pc' := by
  rw [Bool.eq_iff_iff, Val.pyEq_iff, Val.pyEq_iff]
  exact h

theorem setCol_same {X : TFrame} {ys ys' : List Val} (h : List.Forall₂ (fun v v' : Val => v.pyEq pc = v'.pyEq pc') ys ys') :
    SameTrain cf pc pc' (X.setCol cf ys) (X.setCol cf ys') := by
  refine ⟨⟨rfl, ?_⟩, fun f hf => ?_⟩
  · unfold TFrame.setCol
    dsimp only
    have : ∀ l : List Row, List.Forall₂ (SameExample cf pc pc')
        ((l.zip ys).map (fun rv => { rv.1 with cell := fun f' => if f' = cf then rv.2 else rv.1.cell f' }))
        ((l.zip ys').map (fun rv => { rv.1 with cell := fun f' => if f' = cf then rv.2 else rv.1.cell f' })) := by
      intro l
      induction h generalizing l with
      | nil => simp only [List.zip_nil_right, List.map_nil]; exact .nil
      | cons hv _ ih =>
        cases l with
        | nil => exact .nil
        | cons r l =>
          rw [List.zip_cons_cons, List.zip_cons_cons, List.map_cons, List.map_cons]
          refine .cons ⟨rfl, fun f hf => ?_, ?_⟩ (ih l)
          · simp [hf]
          · simpa using hv
    exact this X.rows
  · unfold TFrame.setCol
    simp [hf]

theorem lookup_same {labels : List Label} : ∀ {ys ys' : List Val}, List.Forall₂ (fun v v' : Val => v.pyEq pc = v'.pyEq pc') ys ys' → ∀ l : Label,
    (((labels.zip ys).lookup l).getD .nan).pyEq pc = (((labels.zip ys').lookup l).getD .nan).pyEq pc' := by
  induction labels with
  | nil => intro _ _ _ l; rfl
  | cons a labels ih =>
    intro ys ys' h l
    cases h with
    | nil => rfl
    | @cons v v' ys ys' hv hr =>
      rw [List.zip_cons_cons, List.zip_cons_cons, List.lookup_cons, List.lookup_cons]
      split
      · exact hv
      · exact ih hr l

theorem attachY_same {X : TFrame} {cl : Option Feat} {names : Option (List Feat)} {d d' : FitData}
    (h : SameProblem pc pc' X cl names d d') :
    OutRel (SameTrain (classFeatName d.classFeat d.y) pc pc')
      (toTraining d.X d.y (classFeatName d.classFeat d.y) d.names) (toTraining d'.X d'.y (classFeatName d'.classFeat d'.y) d'.names) := by
  have hl : ∀ {ys ys' : List Val}, SameLabels pc pc' ys ys' → List.Forall₂ (fun v v' : Val => v.pyEq pc = v'.pyEq pc') ys ys' :=
    fun h => h.imp fun _ _ h => same_bool h
  cases h with
  | @list ys ys' h =>
    have hn : classFeatName cl (some (.list ys')) = classFeatName cl (some (.list ys)) := by cases cl <;> rfl
    dsimp only
    rw [hn]
    unfold toTraining
    refine bind_same rfl fun X1 => ?_
    · unfold attachY
      dsimp only
      rw [← (hl h).length_eq]
      split
      · exact .err _
      · exact .ok (setCol_same (hl h))
  | @series n labels ys ys' h hlen =>
    have hn : classFeatName cl (some (.series n (labels.zip ys'))) = classFeatName cl (some (.series n (labels.zip ys))) := by cases cl <;> rfl
    dsimp only
    rw [hn]
    have h1 := (hl h).length_eq
    have f1 : (labels.zip ys).map Prod.fst = labels := List.map_fst_zip (by omega)
    have f2 : (labels.zip ys').map Prod.fst = labels := List.map_fst_zip (by omega)
    have s1 : (labels.zip ys).map Prod.snd = ys := List.map_snd_zip (by omega)
    have s2 : (labels.zip ys').map Prod.snd = ys' := List.map_snd_zip (by omega)
    have l1 : (labels.zip ys).length = (labels.zip ys').length := by simp; omega
    unfold toTraining
    refine bind_same rfl fun X1 => ?_
    · unfold attachY
      dsimp only
      rw [f1, f2, s1, s2, l1]
      split
      · have : (X1.rows.zip (labels.zip ys)).map (fun rl : Row × (Label × Val) => ({ rl.1 with label := rl.2.1 } : Row)) =
            (X1.rows.zip (labels.zip ys')).map (fun rl : Row × (Label × Val) => ({ rl.1 with label := rl.2.1 } : Row)) := by
          have key : ∀ (l : List Row) (lvs : List (Label × Val)), (l.zip lvs).map (fun rl : Row × (Label × Val) => ({ rl.1 with label := rl.2.1 } : Row)) =
              (l.zip (lvs.map Prod.fst)).map (fun rl : Row × Label => ({ rl.1 with label := rl.2 } : Row)) := by
            intro l lvs
            rw [List.zip_map_right, List.map_map]
            rfl
          rw [key, key, f1, f2]
        rw [this]
        exact .ok (setCol_same (hl h))
      · split
        · exact .err _
        · refine .ok (setCol_same ?_)
          rw [List.forall₂_map_left_iff, List.forall₂_map_right_iff, List.forall₂_same]
          intro r _
          exact lookup_same (hl h) r.label
  | @column X' cf hcl hn hk hc hr =>
    subst hcl
    subst hn
    exact .ok ⟨⟨hc, hr.imp fun _ _ h => ⟨h.1, h.2.1, same_bool h.2.2⟩⟩, fun f hf => (hk f hf).symm⟩

theorem SameTrain.mapCol {X X' : TFrame} {f : Feat} (hf : f ≠ cf) (G : Val → Val) (h : SameTrain cf pc pc' X X') :
    SameTrain cf pc pc' (X.mapCol f G) (X'.mapCol f G) := by
  refine ⟨⟨h.same.cols, ?_⟩, fun f' hf' => ?_⟩
  · unfold TFrame.mapCol
    rw [List.forall₂_map_left_iff, List.forall₂_map_right_iff]
    refine h.same.rows.imp fun r r' hr => ⟨hr.label, fun f' hf' => ?_, ?_⟩
    · dsimp only
      rw [hr.cell f hf, hr.cell f' hf']
    · have : cf ≠ f := fun e => hf e.symm
      simp only [this, if_false]
      exact hr.positive
  · unfold TFrame.mapCol
    dsimp only
    rw [h.kind f' hf']

theorem SameTrain.cells {X X' : TFrame} (h : SameTrain cf pc pc' X X') {f : Feat} (hf : f ≠ cf) :
    X.rows.map (·.cell f) = X'.rows.map (·.cell f) := by
  have := h.same.rows
  revert this
  generalize X.rows = l
  generalize X'.rows = l'
  intro h
  induction h with
  | nil => rfl
  | cons hab _ ih => rw [List.map_cons, List.map_cons, hab.cell f hf, ih]

theorem transformLoop_same {F : PyFloat} {b : Binner} {done : List Feat} : ∀ (l : List (Feat × List PStr)), (∀ p ∈ l, p.1 ≠ cf) →
    ∀ {X X' : TFrame}, SameTrain cf pc pc' X X' →
      OutRel (SameTrain cf pc pc') (transformLoop F b done l X) (transformLoop F b done l X')
  | [], _, _, _, h => .ok h
  | (f, labels) :: rest, hl, X, X', h => by
    unfold transformLoop
    rw [show X.cols = X'.cols from h.same.cols]
    have ih := fun {X X'} => transformLoop_same (F := F) (b := b) (done := done) (X := X) (X' := X') rest
      fun p hp => hl p (List.mem_cons_of_mem _ hp)
    split
    · cases featTransform F b f labels with
      | error e => exact .err e
      | ok G => exact ih (h.mapCol (hl _ List.mem_cons_self) G)
    · exact ih h

theorem transform_alike {F : PyFloat} {b : Binner} (hbins : ∀ p ∈ b.bins, p.1 ≠ cf) {X X' : TFrame} (h : SameTrain cf pc pc' X X') :
    OutRel (SameTrain cf pc pc') (b.transform F X) (b.transform F X') := by
  unfold Binner.transform
  have : findTransformed b X = findTransformed b X' := by
    unfold findTransformed transformedFeats
    rw [show X.cols = X'.cols from h.same.cols]
    have a1 : (b.bins.any fun p => X'.cols.contains p.1 && X.kind p.1 == .text &&
        X.rows.any (fun row => !(p.2.any (fun l => (row.cell p.1).pyEq (.str l))))) =
      (b.bins.any fun p => X'.cols.contains p.1 && X'.kind p.1 == .text &&
        X'.rows.any (fun row => !(p.2.any (fun l => (row.cell p.1).pyEq (.str l))))) := by
      rw [Bool.eq_iff_iff, List.any_eq_true, List.any_eq_true]
      refine exists_congr fun p => and_congr_right fun hp => ?_
      have hc : ∀ X : TFrame, (X.rows.any (fun row => !(p.2.any (fun l => (row.cell p.1).pyEq (.str l))))) =
          ((X.rows.map (·.cell p.1)).any (fun v => !(p.2.any (fun l => v.pyEq (.str l))))) := by
        intro X
        rw [List.any_map]
        rfl
      rw [hc, hc, h.kind _ (hbins p hp), h.cells (hbins p hp)]
    have a2 : ((b.bins.map Prod.fst).filter fun f => X'.cols.contains f && X.kind f == .text) =
        ((b.bins.map Prod.fst).filter fun f => X'.cols.contains f && X'.kind f == .text) := by
      refine List.filter_congr fun f hf => ?_
      obtain ⟨p, hp, rfl⟩ := List.mem_map.mp hf
      rw [h.kind _ (hbins p hp)]
    rw [a1, a2]
  rw [this]
  cases findTransformed b X' with
  | error e => exact .err e
  | ok done => exact transformLoop_same _ hbins h

theorem fitTransform_same {F : PyFloat} {P : PandasCut} {n : Option Nat} {X X' : TFrame} (h : SameTrain cf pc pc' X X') :
    OutRel (fun x x' => x'.1 = x.1 ∧ SameTrain cf pc pc' x.2 x'.2) (Binner.fitTransform F P n X [cf]) (Binner.fitTransform F P n X' [cf]) := by
  have hun : ∀ f, f ≠ cf → X.unique f = X'.unique f := fun f hf => by unfold Frame.unique; rw [h.cells hf]
  have hcont : continuousFeats n X [cf] = continuousFeats n X' [cf] := by
    unfold continuousFeats
    rcases n with - | - | n
    · rfl
    · rfl
    · show X.cols.filter (fun f => X.kind f == .number && decide (n + 1 < (X.unique f).length) && !([cf] : List Feat).contains f) =
        X'.cols.filter (fun f => X'.kind f == .number && decide (n + 1 < (X'.unique f).length) && !([cf] : List Feat).contains f)
      rw [show X.cols = X'.cols from h.same.cols]
      refine List.filter_congr fun f _ => ?_
      by_cases hf : f = cf
      · subst hf; simp
      · rw [h.kind f hf, hun f hf]
  have hno : cf ∉ continuousFeats n X' [cf] := by
    unfold continuousFeats
    rcases n with - | - | n
    · exact List.not_mem_nil
    · exact List.not_mem_nil
    · intro hm
      have := (List.mem_filter.mp hm).2
      simp at this
  have hfit : Binner.fit F P n X [cf] = Binner.fit F P n X' [cf] := by
    unfold Binner.fit
    rw [hcont]
    congr 1
    refine List.filterMap_congr fun f hf => ?_
    have hfc : f ≠ cf := by rintro rfl; exact hno hf
    rw [h.cells hfc]
  have hbins : ∀ p ∈ (Binner.fit F P n X' [cf]).bins, p.1 ≠ cf := by
    intro p hp e
    unfold Binner.fit at hp
    obtain ⟨f, hf, hp⟩ := List.mem_filterMap.mp hp
    dsimp only at hp
    split at hp
    · cases hp
      exact hno (e ▸ hf)
    · cases hp
  unfold Binner.fitTransform
  dsimp only
  rw [hfit]
  generalize Binner.fit F P n X' [cf] = b at hbins
  have htr : OutRel (SameTrain cf pc pc') (b.transform F X) (b.transform F X') := transform_alike hbins h
  revert htr
  generalize b.transform F X = o
  generalize b.transform F X' = o'
  intro ho
  cases ho with
  | err e => exact .err e
  | ok ho => exact .ok ⟨rfl, ho⟩

theorem checkInput_same {X : TFrame} {cl : Option Feat} {names : Option (List Feat)} {d d' : FitData}
    (h : SameProblem pc pc' X cl names d d') : checkInput d.X d.y d.classFeat d.names = checkInput d'.X d'.y d'.classFeat d'.names := by
  cases h with
  | list h => unfold checkInput; cases cl <;> rfl
  | series h hl => unfold checkInput; cases cl <;> rfl
  | column hcl hn hk hc hr =>
    subst hcl
    unfold checkInput
    dsimp only
    rw [hc]
    have := hr.length_eq
    simp only [← List.length_eq_zero_iff, this]

theorem preprocess_same {F : PyFloat} {P : PandasCut} {n : Option Nat} {X : TFrame} {cl : Option Feat} {names : Option (List Feat)}
    {d d' : FitData} (h : SameProblem pc pc' X cl names d d') :
    OutRel (fun q q' => q.2.1 = classFeatName d.classFeat d.y ∧ q'.2.1 = q.2.1 ∧ q.2.2.1 = pc ∧ q'.2.2.1 = pc' ∧ q'.2.2.2 = q.2.2.2 ∧
      SameTrain q.2.1 pc pc' q.1 q'.1) (preprocessTraining F P n d) (preprocessTraining F P n d') := by
  unfold preprocessTraining
  rw [checkInput_same h]
  cases checkInput d'.X d'.y d'.classFeat d'.names with
  | error e => exact .err e
  | ok u =>
    simp only [ok_bind]
    have ht := attachY_same h
    have hcf : classFeatName d'.classFeat d'.y = classFeatName d.classFeat d.y := by
      cases h with
      | list => cases cl <;> rfl
      | series => cases cl <;> rfl
      | column => rfl
    have hp : d.posClass = some pc ∧ d'.posClass = some pc' := by cases h <;> exact ⟨rfl, rfl⟩
    rw [hp.1, hp.2]
    rw [hcf] at ht ⊢
    revert ht
    generalize toTraining d.X d.y (classFeatName d.classFeat d.y) d.names = o
    generalize toTraining d'.X d'.y (classFeatName d.classFeat d.y) d'.names = o'
    intro ht
    cases ht with
    | err e => exact .err e
    | ok ht =>
      simp only [ok_bind, posClassOf]
      have hf := fitTransform_same (F := F) (P := P) (n := n) ht
      revert hf
      generalize Binner.fitTransform F P n _ [classFeatName d.classFeat d.y] = o
      generalize Binner.fitTransform F P n _ [classFeatName d.classFeat d.y] = o'
      intro hf
      cases hf with
      | err e => exact .err e
      | ok hf => exact .ok ⟨rfl, rfl, rfl, rfl, hf.1, hf.2⟩

/-! ### the property -/

/-- Training on the same examples. -/
theorem train_same [Arith] (a : Method) (hS : ∀ S, a.sets = some S → S.Lawful) (fuel : Nat) (R : PyRandom) (hp : Hyper)
    {old : Option (List Cond)} (ho : ∀ l, old = some l → ∀ c ∈ l, c.feature ≠ cf) {init : List (List Cond)}
    (hi : ∀ r ∈ init, ∀ c ∈ r, c.feature ≠ cf) {df df' : Frame} (h : SameExamples cf pc pc' df df') (g : R.G) :
    a.train fuel R hp old init df cf pc g = a.train fuel R hp old init df' cf pc' g := by
  cases a with
  | irep => exact irepFit_sameExamples fuel R hp hi h g
  | ripper => exact ripperFit_sameExamples fuel R hp hi h g
  | irepPlain S => exact irepFitPlain_sameExamples fuel R (hS S rfl) hp ho hi h g
  | ripperPlain S => exact ripperFitPlain_sameExamples fuel R (hS S rfl) hp ho hi h g

/-- C104. Two calls of `fit` (of any of the four methods) on the same data whose labels and positive class name the same rows as positive
— however many classes the other rows are divided into, and however the classes are written — have the same outcome: the same
exception, or the same draws and objects that differ only in the positive class they record. An initial model must not test the class
column. -/
theorem C104_fit_one_vs_rest [Arith] (a : Method) (hS : ∀ S, a.sets = some S → S.Lawful) (fuel : Nat) (R : PyRandom) (F : PyFloat)
    (P : PandasCut) (X : TFrame) (cl : Option Feat) (names : Option (List Feat)) (d d' : FitData) (h : SameProblem pc pc' X cl names d d')
    (init : ModelArg) (hi : init.Without (classFeatName d.classFeat d.y)) (g : R.G) (c : Clf) :
    completed (a.fit fuel R F P d' init g c) =
      (completed (a.fit fuel R F P d init g c)).map (fun o => (o.1, { o.2 with posClass := some pc' })) := by
  rw [Method.fit_completed, Method.fit_completed]
  cases a.early init with
  | error x => rfl
  | ok rs0 =>
    simp only [ok_bind]
    have hq := preprocess_same (F := F) (P := P) (n := c.nBins) h
    revert hq
    generalize preprocessTraining F P c.nBins d = o
    generalize preprocessTraining F P c.nBins d' = o'
    intro hq
    cases hq with
    | err e => rfl
    | @ok q q' hq =>
      obtain ⟨df, cf, pc1, b⟩ := q
      obtain ⟨df', cf', pc2, b'⟩ := q'
      dsimp only at hq
      obtain ⟨rfl, rfl, rfl, rfl, rfl, hq⟩ := hq
      simp only [ok_bind]
      cases hst : init.toRuleset with
      | error x => rfl
      | ok start =>
        simp only [ok_bind]
        obtain ⟨h1, h2⟩ := hi start hst
        rw [← train_same (R := R) a hS fuel c.hyper (old := start.possible) (init := start.rules.map Rule.conds) h2
          (by intro r hr; obtain ⟨r0, hr0, rfl⟩ := List.mem_map.mp hr; exact h1 r0 hr0) hq.same g]
        generalize a.train fuel R c.hyper start.possible (start.rules.map Rule.conds) df.toFrame _ _ g = o
        cases o <;> rfl

theorem query_posClass {α : Type} (F : PyFloat) (act : Ruleset → Frame → Except PyErr α) (X : TFrame) (names : Option (List Feat)) {c : Clf}
    (hp : c.posClass = some pc) : returned (query F act X names { c with posClass := some pc' }) = returned (query F act X names c) := by
  have key : ∀ c : Clf, c.posClass = some pc → answer F act X names { c with posClass := some pc' } = answer F act X names c := by
    intro c hp
    unfold answer
    rw [hp]
    rfl
  have k1 := key c hp
  have k2 := key c.withEmptyBinner hp
  obtain ⟨c2, hc2⟩ : ∃ c2 : Clf, c2 = { c with posClass := some pc' } := ⟨_, rfl⟩
  have e : ({ c.withEmptyBinner with posClass := some pc' } : Clf) = c2.withEmptyBinner := by rw [hc2]; rfl
  have r2 : c2.ruleset = c.ruleset := by rw [hc2]
  have b2 : c2.binner = c.binner := by rw [hc2]
  rw [e] at k2
  rw [← hc2] at k1 ⊢
  clear hc2 e
  cases hr : c.ruleset with
  | none =>
    rw [query_unfit hr, query_unfit (r2.trans hr)]
    rfl
  | some rs =>
    cases hb : c.binner with
    | some b =>
      rw [query_some hr hb, query_some (r2.trans hr) (b2.trans hb), returned_outcome, returned_outcome, k1]
    | none =>
      rw [query_none hr hb, query_none (r2.trans hr) (b2.trans hb)]
      cases constructFromRuleset F rs with
      | error e => rfl
      | ok u =>
        dsimp only
        rw [returned_outcome, returned_outcome]
        exact k2

theorem probaQuery_posClass {α : Type} (F : PyFloat) (act : Ruleset → Frame → Except PyErr α) (X : TFrame) (names : Option (List Feat))
    {c : Clf} (hp : c.posClass = some pc) :
    returned (probaQuery F act X names { c with posClass := some pc' }) = returned (probaQuery F act X names c) := by
  have key : prepOf F X names { c with posClass := some pc' } = prepOf F X names c := by
    unfold prepOf
    rw [hp]
    rfl
  rw [probaQuery_run, probaQuery_run, key]
  dsimp only
  cases c.ruleset with
  | none => rfl
  | some rs =>
    cases c.binner with
    | none => rfl
    | some b =>
      dsimp only
      cases prepOf F X names c with
      | error e => rfl
      | ok df => rw [returned_outcome, returned_outcome]

/-- C104, what the two objects answer: the same predictions, reasons and probabilities on any data, and the same score on labels that
name the same rows as positive. -/
theorem C104_same_answers (F : PyFloat) (X : TFrame) (names : Option (List Feat)) (c : Clf) (hp : c.posClass = some pc) (ys ys' : List Val)
    (hy : SameLabels pc pc' ys ys') (scoreFn : List Bool → List Bool → Except PyErr Rat) :
    let c' : Clf := { c with posClass := some pc' }
    returned (Clf.predict F X names c') = returned (Clf.predict F X names c) ∧
    returned (Clf.predictReasons F X names c') = returned (Clf.predictReasons F X names c) ∧
    returned (Clf.predictProba F X names c') = returned (Clf.predictProba F X names c) ∧
    returned (Clf.predictProbaReasons F X names c') = returned (Clf.predictProbaReasons F X names c) ∧
    returned (Clf.score F X ys' scoreFn c') = returned (Clf.score F X ys scoreFn c) ∧
    returned (Clf.ruleStats F X (some ys') names c') = returned (Clf.ruleStats F X (some ys) names c) := by
  have hys : ys'.map (fun yi => yi.pyEq pc') = ys.map (fun yi => yi.pyEq pc) := by
    induction hy with
    | nil => rfl
    | cons h _ ih => rw [List.map_cons, List.map_cons, ih, same_bool h]
  refine ⟨?_, ?_, probaQuery_posClass F _ X names hp, probaQuery_posClass F _ X names hp, ?_, ?_⟩
  · rw [predict_eq_query]; exact query_posClass F _ X names hp
  · rw [predictReasons_eq_query]; exact query_posClass F _ X names hp
  · rw [score_eq_query, score_eq_query, query_posClass F _ X none hp]
    simp only [hp, attr, ok_bind, hys]
  · rw [ruleStats_eq_query, ruleStats_eq_query, query_posClass F _ X names hp]
    have hl : ys.length = ys'.length := by simpa using (congrArg List.length hys).symm
    have ht : ruleTable pc' (some ys') = ruleTable pc (some ys) := by
      funext rs df
      unfold ruleTable
      simp only [Option.map_some, hys, Option.any_some, hl]
    simp only [hp, attr, ok_bind, ht]

/-- C104, `recalibrate_proba`: on the same data and labels that name the same rows as positive it raises the same exception or none, and
leaves objects that still differ only in the positive class they record. -/
theorem C104_recalibrate {F : PyFloat} {X : TFrame} {names : Option (List Feat)} {c : Clf} {rs : Ruleset} {b : Binner} {sel : List Feat}
    (hr : Ready c rs cf b sel) (hp : c.posClass = some pc) (hcl : ∀ r ∈ rs.rules, ∀ k ∈ r.conds, k.feature ≠ cf)
    (hb : ∀ p ∈ b.bins, p.1 ≠ cf) (d d' : FitData) (h : SameProblem pc pc' X (some cf) names d d') (ms : Option Int) (req disc : Bool) :
    let o := Clf.recalibrate F d.X d.y d.names ms req disc c
    let o' := Clf.recalibrate F d'.X d'.y d'.names ms req disc { c with posClass := some pc' }
    returned o' = returned o ∧ after o' = { after o with posClass := some pc' } := by
  have hr' : Ready { c with posClass := some pc' } rs cf b sel :=
    ⟨hr.rules, hr.classFeat, ⟨pc', rfl⟩, hr.bins, hr.selected, hr.trainFeats⟩
  dsimp only
  rw [Clf.recalibrate_ready hr hp, Clf.recalibrate_ready hr' rfl]
  have key : OutRel (SameTrain cf pc pc') (preprocessRecalibrate F d.X d.y cf (if disc then some b else none) d.names)
      (preprocessRecalibrate F d'.X d'.y cf (if disc then some b else none) d'.names) := by
    have hc : d.classFeat = some cf ∧ d'.classFeat = some cf := by cases h <;> exact ⟨rfl, rfl⟩
    have hi := checkInput_same h
    have ht := attachY_same h
    rw [hc.1, hc.2] at hi ht
    rw [show classFeatName (some cf) d.y = cf from rfl, show classFeatName (some cf) d'.y = cf from rfl] at ht
    unfold preprocessRecalibrate
    rw [hi]
    cases checkInput d'.X d'.y (some cf) d'.names with
    | error e => exact .err e
    | ok u =>
      simp only [ok_bind]
      revert ht
      generalize toTraining d.X d.y cf d.names = o
      generalize toTraining d'.X d'.y cf d'.names = o'
      intro ht
      cases ht with
      | err e => exact .err e
      | ok ht =>
        simp only [ok_bind]
        cases disc with
        | false => exact .ok ht
        | true =>
          simp only [if_true]
          unfold applyBins
          split
          · exact .ok ht
          · exact transform_alike hb ht
  revert key
  generalize preprocessRecalibrate F d.X d.y cf (if disc then some b else none) d.names = o
  generalize preprocessRecalibrate F d'.X d'.y cf (if disc then some b else none) d'.names = o'
  intro key
  cases key with
  | err e => exact ⟨rfl, rfl⟩
  | @ok q q' hq =>
    have : recalibrateProba rs q'.toFrame cf pc' ms req c.hyper.alpha = recalibrateProba rs q.toFrame cf pc ms req c.hyper.alpha :=
      (recalibrate_sameExamples hq.same c.hyper.alpha hcl).symm
    dsimp only
    rw [this]
    rcases recalibrateProba rs q.toFrame cf pc ms req c.hyper.alpha with ⟨rs', _ | e⟩
    · exact ⟨rfl, rfl⟩
    · exact ⟨rfl, rfl⟩

namespace Demo
/-- Three classes, of which `p` is the positive one, and the other two merged into `rest`. -/
def threeClasses : List Val := [vp, vp, .str p!"b", .str p!"c", .str p!"b", .nan]
def oneOfThree : FitData := { X := mixed, y := some (.list threeClasses), posClass := some vp }
/-- The same problem with the labels 1 and 0. -/
def zeroOne : FitData :=
  { X := mixed, y := some (.list (threeClasses.map fun v => if v = vp then numCell 1 else numCell 0)), posClass := some (numCell 1) }
theorem zeroOne_same : SameProblem vp (numCell 1) mixed none none oneOfThree zeroOne := by
  refine .list ?_
  unfold SameLabels
  have : ∀ (l : List Val), (∀ v ∈ l, v.pyEq vp = (if v = vp then numCell 1 else numCell 0 : Val).pyEq (numCell 1)) →
      List.Forall₂ (fun v v' => Same v vp ↔ Same v' (numCell 1)) l (l.map fun v => if v = vp then numCell 1 else numCell 0) := by
    intro l hl
    rw [List.forall₂_map_right_iff, List.forall₂_same]
    intro v hv
    rw [← Val.pyEq_iff, ← Val.pyEq_iff, hl v hv]
  exact this threeClasses (by decide +kernel)
end Demo

/-- A concrete case of C104: one class against two others and a row without a label, and the same with the labels 1 and 0. -/
example : SameProblem Demo.vp (Demo.numCell 1) Demo.mixed none none Demo.oneOfThree Demo.zeroOne ∧
    (Demo.seen (Method.irep.fit 7 Demo.R0 Demo.F Demo.P Demo.oneOfThree .nothing () Demo.newIrep)).1 =
      some [[⟨Demo.fn, .str p!"<9.0"⟩, ⟨Demo.fa, Demo.vx⟩]] ∧
    (Demo.seen (Method.irep.fit 7 Demo.R0 Demo.F Demo.P Demo.zeroOne .nothing () Demo.newIrep)).1 =
      some [[⟨Demo.fn, .str p!"<9.0"⟩, ⟨Demo.fa, Demo.vx⟩]] :=
  ⟨Demo.zeroOne_same, by decide +kernel, by decide +kernel⟩

/-- C104 needs its hypothesis on the initial model: the rule `Class=b` covers rows under the one labelling and none under the other, so
that it gets other probabilities. -/
theorem C104_refuted_initial_model_on_class : ∃ init : ModelArg,
    (after (Method.irep.fit 7 Demo.R0 Demo.F Demo.P Demo.oneOfThree init () Demo.newIrep)).ruleset.map (fun rs => rs.rules.map (·.cal.ns)) ≠
    (after (Method.irep.fit 7 Demo.R0 Demo.F Demo.P Demo.zeroOne init () Demo.newIrep)).ruleset.map (fun rs => rs.rules.map (·.cal.ns)) :=
  ⟨.ruleset { rules := [{ conds := [⟨.name p!"Class", .str p!"b"⟩] }] }, by decide +kernel⟩

/-- A concrete case of C104 for `recalibrate_proba`: rows with three classes, and the same with the labels 1, 0. -/
example : Ready Demo.calClf Demo.calRules (.name p!"c") {} [Demo.fa, Demo.fb] ∧ Demo.calClf.posClass = some Demo.vp ∧
    (∀ r ∈ Demo.calRules.rules, ∀ k ∈ r.conds, k.feature ≠ .name p!"c") ∧
    SameProblem Demo.vp (Demo.numCell 1) Demo.tdf (some (.name p!"c")) none
      { X := Demo.tdf, y := some (.list [Demo.vp, Demo.vn, .str p!"other"]), classFeat := some (.name p!"c"), posClass := some Demo.vp }
      { X := Demo.tdf, y := some (.list [Demo.numCell 1, Demo.numCell 0, Demo.numCell 0]), classFeat := some (.name p!"c"),
        posClass := some (Demo.numCell 1) } := by
  refine ⟨⟨rfl, rfl, ⟨_, rfl⟩, rfl, rfl, ⟨_, rfl⟩⟩, rfl, by decide +kernel, .list (.cons ?_ (.cons ?_ (.cons ?_ .nil)))⟩ <;>
    rw [← Val.pyEq_iff, ← Val.pyEq_iff] <;> decide +kernel

end Witt
