import Verif.Lemmas.RelabelRip
import Verif.Props.FitApi
/-
Renaming the row labels of the data: preprocessing and the methods of a classifier.
-/
namespace Witt
open Spec
variable {f : Label ≃ Label}

/-- The data with every row label renamed. -/
def TFrame.relabel (f : Label ≃ Label) (df : TFrame) : TFrame := { df.toFrame.relabel f with kind := df.kind }
/-- Class labels with their own row labels, if any, renamed. -/
def YArg.relabel (f : Label ≃ Label) : YArg → YArg
  | .list vs => .list vs
  | .series n lvs => .series n (lvs.map (fun lv => (f lv.1, lv.2)))
/-- The arguments of `fit` with every row label renamed. -/
def FitData.relabel (f : Label ≃ Label) (d : FitData) : FitData :=
  { d with X := d.X.relabel f, y := d.y.map (YArg.relabel f) }

theorem toFrame_relabel (df : TFrame) : (df.relabel f).toFrame = df.toFrame.relabel f := rfl

theorem tdropCol_relabel (df : TFrame) (x : Feat) : (df.relabel f).dropCol x = (df.dropCol x).relabel f := rfl

theorem rename_relabel (df : TFrame) (ns : List Feat) : (df.relabel f).rename ns = (df.rename ns).map (TFrame.relabel f) := by
  unfold TFrame.rename
  have hc : (df.relabel f).cols = df.cols := rfl
  rw [hc]
  split
  · rfl
  · simp only [Except.map, TFrame.relabel, Frame.relabel, List.map_map]
    rfl

theorem setCol_relabel (df : TFrame) (x : Feat) (vs : List Val) : (df.relabel f).setCol x vs = (df.setCol x vs).relabel f := by
  unfold TFrame.setCol
  have hz : (df.relabel f).rows.zip vs = (df.rows.zip vs).map (fun rv => (rv.1.relabel f, rv.2)) := by
    show (df.rows.map (Row.relabel f)).zip vs = _
    rw [List.zip_map_left]
    rfl
  rw [hz]
  simp only [TFrame.relabel, Frame.relabel, List.map_map]
  rfl

theorem lookup_map (l : List (Label × Val)) (x : Label) : (l.map (fun lv => (f lv.1, lv.2))).lookup (f x) = l.lookup x := by
  induction l with
  | nil => rfl
  | cons a l ih =>
    rw [List.map_cons, List.lookup_cons, List.lookup_cons, ih]
    have : (f x == f a.1) = (x == a.1) := by rw [Bool.eq_iff_iff]; simp
    simp only [this]

theorem attachY_relabel (df : TFrame) (cf : Feat) (y : YArg) :
    attachY (df.relabel f) cf (y.relabel f) = (attachY df cf y).map (TFrame.relabel f) := by
  have hl : (df.relabel f).rows.length = df.rows.length := rows_length_relabel df.toFrame
  cases y with
  | list vs =>
    show attachY (df.relabel f) cf (.list vs) = _
    unfold attachY
    simp only [hl, setCol_relabel]
    split <;> rfl
  | series n lvs =>
    show attachY (df.relabel f) cf (.series n (lvs.map (fun lv => (f lv.1, lv.2)))) = _
    unfold attachY
    simp only [hl, List.length_map]
    split
    · have h1 : ((df.relabel f).rows.zip (lvs.map (fun lv => (f lv.1, lv.2)))).map (fun rl => { rl.1 with label := rl.2.1 }) =
          ((df.rows.zip lvs).map (fun rl => ({ rl.1 with label := rl.2.1 } : Row))).map (Row.relabel f) := by
        show ((df.rows.map (Row.relabel f)).zip (lvs.map (fun lv => (f lv.1, lv.2)))).map _ = _
        rw [List.zip_map, List.map_map, List.map_map]
        rfl
      have h2 : (lvs.map (fun lv => (f lv.1, lv.2))).map Prod.snd = lvs.map Prod.snd := by
        rw [List.map_map]; rfl
      rw [h1, h2]
      exact congrArg Except.ok (setCol_relabel
        ({ cols := df.cols, kind := df.kind, rows := (df.rows.zip lvs).map (fun rl => ({ rl.1 with label := rl.2.1 } : Row)) } : TFrame)
        cf (lvs.map Prod.snd))
    · have h1 : (lvs.map (fun lv => (f lv.1, lv.2))).map Prod.fst = (lvs.map Prod.fst).map f := by
        rw [List.map_map, List.map_map]; rfl
      have h2 : ((lvs.map Prod.fst).map f).Nodup ↔ (lvs.map Prod.fst).Nodup := List.nodup_map_iff f.injective
      have h3 : (df.relabel f).rows.map (fun row => ((lvs.map (fun lv => (f lv.1, lv.2))).lookup row.label).getD .nan) =
          df.rows.map (fun row => (lvs.lookup row.label).getD .nan) := by
        show (df.rows.map (Row.relabel f)).map _ = _
        rw [List.map_map]
        refine List.map_congr_left fun row _ => ?_
        simp only [Function.comp, Row.relabel, lookup_map]
      rw [h1, h3]
      simp only [h2, setCol_relabel]
      split <;> rfl

theorem checkInput_relabel (df : TFrame) (y : Option YArg) (cf : Option Feat) (names : Option (List Feat)) :
    checkInput (df.relabel f) (y.map (YArg.relabel f)) cf names = checkInput df y cf names := by
  unfold checkInput
  have hr : (df.relabel f).rows = [] ↔ df.rows = [] := rows_nil_relabel df.toFrame
  have hc : (df.relabel f).cols = df.cols := rfl
  simp only [hr, hc]
  cases y with
  | none => rfl
  | some y => cases y <;> cases cf <;> rfl

theorem toTraining_relabel (df : TFrame) (y : Option YArg) (cf : Feat) (names : Option (List Feat)) :
    toTraining (df.relabel f) (y.map (YArg.relabel f)) cf names = (toTraining df y cf names).map (TFrame.relabel f) := by
  unfold toTraining
  have h : (match names with | none => .ok (df.relabel f) | some ns => (df.relabel f).rename ns : Except PyErr TFrame) =
      (match names with | none => .ok df | some ns => df.rename ns : Except PyErr TFrame).map (TFrame.relabel f) := by
    cases names with
    | none => rfl
    | some ns => exact rename_relabel df ns
  have h' : ∀ o o' : Except PyErr TFrame, o' = o.map (TFrame.relabel f) →
      (do let df ← o'
          match y.map (YArg.relabel f) with
          | none => return df
          | some y => attachY df cf y : Except PyErr TFrame) =
        (do let df ← o
            match y with
            | none => return df
            | some y => attachY df cf y : Except PyErr TFrame).map (TFrame.relabel f) := by
    rintro o _ rfl
    cases o with
    | error e => rfl
    | ok d =>
      cases y with
      | none => rfl
      | some y => exact attachY_relabel d cf y
  exact h' _ _ h

theorem mapCol_relabel (df : TFrame) (x : Feat) (g : Val → Val) : (df.relabel f).mapCol x g = (df.mapCol x g).relabel f := by
  unfold TFrame.mapCol
  simp only [TFrame.relabel, Frame.relabel, List.map_map]
  rfl

theorem transformLoop_relabel (F : PyFloat) (b : Binner) (done : List Feat) (l : List (Feat × List PStr)) : ∀ df : TFrame,
    transformLoop F b done l (df.relabel f) = (transformLoop F b done l df).map (TFrame.relabel f) := by
  induction l with
  | nil => intro df; rfl
  | cons a l ih =>
    intro df
    obtain ⟨x, labels⟩ := a
    unfold transformLoop
    have hc : (df.relabel f).cols = df.cols := rfl
    rw [hc]
    split
    · cases featTransform F b x labels with
      | error e => rfl
      | ok g =>
        simp only [ok_bind, mapCol_relabel]
        exact ih _
    · exact ih _

theorem findTransformed_relabel (b : Binner) (df : TFrame) : findTransformed b (df.relabel f) = findTransformed b df := by
  unfold findTransformed
  have : (b.bins.any fun p => (df.relabel f).cols.contains p.1 && (df.relabel f).kind p.1 == .text &&
        (df.relabel f).rows.any (fun row => !(p.2.any (fun l => (row.cell p.1).pyEq (.str l))))) =
      (b.bins.any fun p => df.cols.contains p.1 && df.kind p.1 == .text &&
        df.rows.any (fun row => !(p.2.any (fun l => (row.cell p.1).pyEq (.str l))))) := by
    congr 1
    funext p
    show (_ && _ && (df.rows.map (Row.relabel f)).any _) = _
    rw [List.any_map]
    rfl
  rw [this]
  rfl

theorem transform_relabel (F : PyFloat) (b : Binner) (df : TFrame) :
    b.transform F (df.relabel f) = (b.transform F df).map (TFrame.relabel f) := by
  unfold Binner.transform
  rw [findTransformed_relabel]
  cases findTransformed b df with
  | error e => rfl
  | ok done => exact transformLoop_relabel F b done b.bins df

theorem binnerFit_relabel (F : PyFloat) (P : PandasCut) (n : Option Nat) (df : TFrame) (ignore : List Feat) :
    Binner.fit F P n (df.relabel f) ignore = Binner.fit F P n df ignore := by
  unfold Binner.fit
  have h1 : continuousFeats n (df.relabel f) ignore = continuousFeats n df ignore := by
    unfold continuousFeats
    have hu : ∀ x, (df.relabel f).unique x = df.unique x := fun x => unique_relabel df.toFrame x
    cases n with
    | none => rfl
    | some n =>
      cases n with
      | zero => rfl
      | succ n =>
        simp only [hu]
        rfl
  have h2 : ∀ x, (df.relabel f).rows.map (fun r => r.cell x) = df.rows.map (fun r => r.cell x) := by
    intro x
    show (df.rows.map (Row.relabel f)).map _ = _
    rw [List.map_map]
    rfl
  simp only [h1, h2]

theorem preprocessTraining_relabel (F : PyFloat) (P : PandasCut) (nBins : Option Nat) (d : FitData) :
    preprocessTraining F P nBins (d.relabel f) =
      (preprocessTraining F P nBins d).map (fun q => (q.1.relabel f, q.2)) := by
  unfold preprocessTraining FitData.relabel
  simp only [checkInput_relabel, toTraining_relabel]
  have hcf : classFeatName d.classFeat (d.y.map (YArg.relabel f)) = classFeatName d.classFeat d.y := by
    rcases d with ⟨_, y, cf, _, _⟩
    cases cf with
    | some c => rfl
    | none =>
      cases y with
      | none => rfl
      | some y => cases y <;> rfl
  rw [hcf]
  generalize classFeatName d.classFeat d.y = cf
  cases checkInput d.X d.y d.classFeat d.names with
  | error e => rfl
  | ok u =>
    simp only [ok_bind]
    cases toTraining d.X d.y cf d.names with
    | error e => rfl
    | ok df =>
      simp only [Except.map, ok_bind]
      have hu : (df.relabel f).unique cf = df.unique cf := unique_relabel df.toFrame cf
      rw [hu]
      cases posClassOf (df.unique cf) d.posClass with
      | error e => rfl
      | ok pc =>
        simp only [ok_bind, Binner.fitTransform, binnerFit_relabel, transform_relabel]
        cases (Binner.fit F P nBins df [cf]).transform F df with
        | error e => rfl
        | ok d' => rfl

theorem preprocessPrediction_relabel (F : PyFloat) (X : TFrame) (cf : Feat) (b : Binner) (names : Option (List Feat))
    (selected : List Feat) : preprocessPrediction F (X.relabel f) cf b names selected =
      (preprocessPrediction F X cf b names selected).map (TFrame.relabel f) := by
  unfold preprocessPrediction
  have hr : (X.relabel f).rows = [] ↔ X.rows = [] := rows_nil_relabel X.toFrame
  simp only [hr]
  split
  · rfl
  have h : toPrediction (X.relabel f) cf names = (toPrediction X cf names).map (TFrame.relabel f) := by
    unfold toPrediction
    have hc : (if (X.relabel f).cols.contains cf then (X.relabel f).dropCol cf else X.relabel f) =
        (if X.cols.contains cf then X.dropCol cf else X).relabel f := by
      have : (X.relabel f).cols = X.cols := rfl
      rw [this, tdropCol_relabel]
      split <;> rfl
    simp only [hc]
    cases names with
    | none => rfl
    | some ns => exact rename_relabel _ _
  rw [h]
  cases toPrediction X cf names with
  | error e => rfl
  | ok df =>
    simp only [Except.map, ok_bind]
    have hc : (df.relabel f).cols = df.cols := rfl
    rw [hc]
    split
    · rfl
    unfold applyBins
    split
    · rfl
    · rw [transform_relabel]
      cases b.transform F df <;> rfl

theorem prepared_relabel (F : PyFloat) (X : TFrame) (names : Option (List Feat)) :
    prepared F (X.relabel f) names = (do return (← prepared F X names).relabel f) := by
  unfold prepared
  simp only [preprocessPrediction_relabel, bind_assoc, pure_bind]
  congr 1; funext cf
  congr 1; funext pc
  congr 1; funext b
  congr 1; funext sel
  congr 1; funext tf
  cases preprocessPrediction F X cf b names sel with
  | error e => rfl
  | ok d => rfl

end Witt
