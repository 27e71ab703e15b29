import Verif.Props.FitApi
/-
C76: exactly which training data `fit` refuses, and with which exception; labels for `recalibrate_proba`.
-/
namespace Witt
open Spec

namespace Spec
/-- It is known where the class labels are: there are rows; there is a `y`, or `class_feat` is among the columns (as renamed by
`feature_names`); and a Series `y` is named as `class_feat`, if both are given. -/
def LabelsLocated (d : FitData) : Prop :=
  d.X.rows ≠ [] ∧ (d.y ≠ none ∨ ∃ cf, d.classFeat = some cf ∧ cf ∈ d.names.getD d.X.cols) ∧
    ∀ name lvs cf, d.y = some (.series name lvs) → d.classFeat = some cf → name = cf
/-- As many names as columns, if names are given. -/
def NamesFit (d : FitData) : Prop := ∀ ns, d.names = some ns → ns.length = d.X.cols.length

/-- What `fit` objects to in training data whose positive class is named, and the exception it raises. -/
inductive Complaint (d : FitData) : PyErr → Prop
  | noRows (h : d.X.rows = []) : Complaint d .valueError
  | noLabels (h : d.X.rows ≠ []) (hy : d.y = none) (hc : d.classFeat = none) : Complaint d .valueError
  | noSuchColumn (cf : Feat) (h : d.X.rows ≠ []) (hy : d.y = none) (hc : d.classFeat = some cf)
      (hm : cf ∉ d.names.getD d.X.cols) : Complaint d .indexError
  | nameClash (name : Feat) (lvs : List (Label × Val)) (cf : Feat) (h : d.X.rows ≠ []) (hy : d.y = some (.series name lvs))
      (hc : d.classFeat = some cf) (hn : name ≠ cf) : Complaint d .nameError
  | namesCount (ns : List Feat) (h : LabelsLocated d) (hn : d.names = some ns) (hl : ns.length ≠ d.X.cols.length) :
      Complaint d .valueError
  | labelsCount (vs : List Val) (h : LabelsLocated d) (hn : NamesFit d) (hy : d.y = some (.list vs))
      (hl : vs.length ≠ d.X.rows.length) : Complaint d .valueError
  | labelsAmbiguous (name : Feat) (lvs : List (Label × Val)) (h : LabelsLocated d) (hn : NamesFit d)
      (hy : d.y = some (.series name lvs)) (hl : lvs.length ≠ d.X.rows.length) (hd : ¬ (lvs.map Prod.fst).Nodup) :
      Complaint d .valueError

/-- The name of the class column: `class_feat` if given, else the name of the Series `y`, else "Class". -/
def ClassName (d : FitData) (cf : Feat) : Prop :=
  d.classFeat = some cf ∨
    (d.classFeat = none ∧ ((∃ lvs, d.y = some (.series cf lvs)) ∨
      ((∀ name lvs, d.y ≠ some (.series name lvs)) ∧ cf = .name p!"Class")))
end Spec

theorem checkInput_located {d : FitData} : checkInput d.X d.y d.classFeat d.names = .ok () ↔ LabelsLocated d := by
  unfold checkInput LabelsLocated
  by_cases hr : d.X.rows = []
  · simp [hr]
  · rw [if_neg hr]
    rcases hy : d.y with _ | (vs | ⟨name, lvs⟩) <;> rcases hc : d.classFeat with _ | cf
    · simp [hr]
    · by_cases hm : cf ∈ d.names.getD d.X.cols <;> simp [hr, hm]
    · simp [hr]
    · simp [hr]
    · simp [hr]
    · by_cases hm : name = cf <;> simp [hr, hm]

theorem rename_fits {d : FitData} (h : NamesFit d) : ∃ X1 : TFrame, X1.rows.length = d.X.rows.length ∧
    ∀ cf, toTraining d.X none cf d.names = .ok X1 ∧ ∀ y, toTraining d.X (some y) cf d.names = attachY X1 cf y := by
  rcases hn : d.names with _ | ns
  · exact ⟨d.X, rfl, fun cf => ⟨rfl, fun y => rfl⟩⟩
  · have hr : ∃ X1 : TFrame, d.X.rename ns = .ok X1 ∧ X1.rows.length = d.X.rows.length := by
      unfold TFrame.rename
      simp only [h ns hn, ne_eq, not_true_eq_false, if_false]
      exact ⟨_, rfl, by simp⟩
    obtain ⟨X1, h1, h2⟩ := hr
    refine ⟨X1, h2, fun cf => ⟨?_, fun y => ?_⟩⟩ <;>
    · unfold toTraining
      simp only [h1]
      rfl

theorem complaint_labelled {d : FitData} {e : PyErr} (h : Complaint d e) :
    checkInput d.X d.y d.classFeat d.names = .error e ∨
      (checkInput d.X d.y d.classFeat d.names = .ok () ∧ ∀ cf, toTraining d.X d.y cf d.names = .error e) := by
  cases h with
  | noRows h => exact Or.inl (by simp [checkInput, h])
  | noLabels h hy hc => exact Or.inl (by simp [checkInput, h, hy, hc])
  | noSuchColumn cf h hy hc hm => exact Or.inl (by simp only [checkInput, h, if_false, hy, hc, hm])
  | nameClash name lvs cf h hy hc hn => exact Or.inl (by simp [checkInput, h, hy, hc, hn])
  | namesCount ns h hn hl =>
    refine Or.inr ⟨checkInput_located.mpr h, fun cf => ?_⟩
    unfold toTraining
    simp only [hn, TFrame.rename, ne_eq, hl, not_false_eq_true, if_true]
    rfl
  | labelsCount vs h hn hy hl =>
    refine Or.inr ⟨checkInput_located.mpr h, fun cf => ?_⟩
    obtain ⟨X1, h2, h1⟩ := rename_fits hn
    rw [hy, (h1 cf).2]
    simp only [attachY, h2]
    rw [if_pos hl]
  | labelsAmbiguous name lvs h hn hy hl hd =>
    refine Or.inr ⟨checkInput_located.mpr h, fun cf => ?_⟩
    obtain ⟨X1, h2, h1⟩ := rename_fits hn
    rw [hy, (h1 cf).2]
    simp only [attachY, h2]
    rw [if_neg hl, if_pos hd]

theorem complaint_raises {d : FitData} {e : PyErr} (h : Complaint d e) (F : PyFloat) (P : PandasCut) (n : Option Nat) :
    preprocessTraining F P n d = .error e := by
  unfold preprocessTraining
  rcases complaint_labelled h with h | ⟨h, h'⟩
  · rw [h]; rfl
  · simp only [h, ok_bind, h']; rfl

theorem located_of_noComplaint {d : FitData} (h : ∀ e, ¬ Complaint d e) : LabelsLocated d ∧ NamesFit d ∧
    ∃ df0, toTraining d.X d.y (classFeatName d.classFeat d.y) d.names = .ok df0 := by
  have hr : d.X.rows ≠ [] := fun hr => h _ (.noRows hr)
  have hl : LabelsLocated d := by
    refine ⟨hr, ?_, fun name lvs cf hy hc => ?_⟩
    · by_contra hn
      simp only [not_or, not_not, not_exists, not_and] at hn
      rcases hc : d.classFeat with _ | cf
      · exact h _ (.noLabels hr hn.1 hc)
      · exact h _ (.noSuchColumn cf hr hn.1 hc (hn.2 cf hc))
    · by_contra hn
      exact h _ (.nameClash name lvs cf hr hy hc hn)
  have hn : NamesFit d := by
    intro ns hns
    by_contra hne
    exact h _ (.namesCount ns hl hns hne)
  refine ⟨hl, hn, ?_⟩
  obtain ⟨X1, h2, h1⟩ := rename_fits hn
  generalize classFeatName d.classFeat d.y = cf
  rcases hy : d.y with _ | (vs | ⟨name, lvs⟩)
  · exact ⟨_, (h1 cf).1⟩
  · rw [(h1 cf).2]
    simp only [attachY]
    rw [if_neg (by
      rw [h2]
      intro hne
      exact h _ (.labelsCount vs hl hn hy hne))]
    exact ⟨_, rfl⟩
  · rw [(h1 cf).2]
    simp only [attachY]
    split
    · exact ⟨_, rfl⟩
    · rename_i hne
      rw [if_neg (by
        intro hd
        exact h _ (.labelsAmbiguous name lvs hl hn hy (h2 ▸ hne) hd))]
      exact ⟨_, rfl⟩

theorem className_classFeatName (d : FitData) : ClassName d (classFeatName d.classFeat d.y) := by
  unfold ClassName classFeatName
  rcases hc : d.classFeat with _ | cf <;> rcases hy : d.y with _ | (vs | ⟨name, lvs⟩) <;> simp

theorem noComplaint_preprocess {F : PyFloat} (hF : F.Lawful) {P : PandasCut} (hP : P.Lawful F) (n : Option Nat) {d : FitData}
    (h : ∀ e, ¬ Complaint d e) {pc : Val} (hpc : d.posClass = some pc) :
    ∃ df b, preprocessTraining F P n d = .ok (df, classFeatName d.classFeat d.y, pc, b) := by
  obtain ⟨h1, _, df0, h2⟩ := located_of_noComplaint h
  obtain ⟨X', hX'⟩ := fit_transform_total hF hP (n := n) (not_badText_fit (F := F) (P := P) (df := df0)
          (ignore := [classFeatName d.classFeat d.y]))
  refine ⟨X', Binner.fit F P n df0 [classFeatName d.classFeat d.y], ?_⟩
  unfold preprocessTraining
  simp only [checkInput_located.mpr h1, ok_bind, h2, hpc, posClassOf, Binner.fitTransform, hX', pure_eq_ok]

/-- C76. Data with one of the listed defects is refused by `fit` of either class, whatever `cn_optimize`, with the exception
listed, whatever the object, the other arguments and the rest of the data (an unreadable initial model is reported first by IREP). -/
theorem C76_fit_refuses [Arith] (a : Method) (fuel : Nat) (R : PyRandom) (F : PyFloat) (P : PandasCut) (d : FitData) (init : ModelArg)
    (start : Ruleset) (hinit : init.toRuleset = .ok start) (g : R.G) (c : Clf) (e : PyErr) (h : Complaint d e) :
    returned (a.fit fuel R F P d init g c) = .error e := by
  have hc := Method.fit_completed a fuel R F P d init g c
  obtain ⟨rs', he⟩ := Method.early_of (a := a) hinit
  rw [he, ok_bind, complaint_raises h] at hc
  cases hf : a.fit fuel R F P d init g c with
  | ok g' c' => rw [hf] at hc; cases hc
  | error e' c' => rw [hf] at hc; cases hc; rfl

/-- C76. For IREP (`prune_size` None, 0 or leaving something to prune on (C35_prune_sizes), `alpha > 0`, no initial model, positive class named) the list is
complete: `fit` raises exactly the listed exceptions, in exactly the listed cases, and otherwise returns, having set
the class column to `class_feat`, or the name of the Series `y`, or "Class", and the positive class to the one named. -/
theorem C76_irep_fit_raises_iff [Arith] [Arith.Lawful] (R : PyRandom) (hR : R.Lawful) (F : PyFloat) (hF : F.Lawful) (P : PandasCut) (hP : P.Lawful F)
    (d : FitData) (pc : Val) (hpc : d.posClass = some pc) (c : Clf)
    (hl : c.hyper.irepPrune = 0 ∨ Arith.LeavesSome c.hyper.irepPrune) (ha : 0 < c.hyper.alpha) (fuel : Nat) (hfuel : d.X.rows.length < fuel) (g : R.G) :
    (∀ e, returned (Clf.irepFit fuel R F P d .nothing g c) = .error e ↔ Complaint d e) ∧
    ((∀ e, ¬ Complaint d e) → ∃ g' c' cf, Clf.irepFit fuel R F P d .nothing g c = .ok g' c' ∧
      c'.classFeat = some cf ∧ ClassName d cf ∧ c'.posClass = some pc) := by
  have key : (∀ e, ¬ Complaint d e) → ∃ g' c' cf, Clf.irepFit fuel R F P d .nothing g c = .ok g' c' ∧
      c'.classFeat = some cf ∧ ClassName d cf ∧ c'.posClass = some pc := by
    intro hno
    obtain ⟨df, b, hpre⟩ := noComplaint_preprocess hF hP c.nBins hno hpc
    obtain ⟨hne, hcf⟩ := preprocessTraining_frame hpre
    have hlen := preprocessTraining_length hpre
    obtain ⟨m, g', hm⟩ := C35_irep_never_raises R hR c.hyper hl ha [] df.toFrame
      (classFeatName d.classFeat d.y) pc hne hcf (by simp) fuel (by omega) g
    refine ⟨g', c.fitted m b (classFeatName d.classFeat d.y) pc, _, completed_ok ?_, rfl, className_classFeatName d, rfl⟩
    have := Method.fit_completed .irep fuel R F P d .nothing g c
    simp only [Method.early, ModelArg.early, ModelArg.toRuleset, hpre, ok_bind, Method.train, List.map_nil, hm,
      pure_eq_ok] at this
    exact this
  refine ⟨fun e => ⟨fun h => ?_, fun h => C76_fit_refuses .irep fuel R F P d .nothing _ rfl g c e h⟩, key⟩
  by_cases hno : ∀ e, ¬ Complaint d e
  · obtain ⟨g', c', cf, hok, _⟩ := key hno
    rw [hok] at h
    cases h
  · push Not at hno
    obtain ⟨e', he'⟩ := hno
    have h' := C76_fit_refuses .irep fuel R F P d .nothing _ rfl g c e' he'
    have h'' : returned (Clf.irepFit fuel R F P d .nothing g c) = .error e' := h'
    rw [h] at h''
    cases h''
    exact he'

/-- C76, recalibration. `recalibrate_proba` refuses a Series of labels whose name is not that of the class column the
classifier was fitted with (NameError), and data whose labels cannot be located; the object is left as it was. -/
theorem C76_recalibrate_refuses (F : PyFloat) (c : Clf) (cf : Feat) (pc : Val) (b : Binner) (hcf : c.classFeat = some cf)
    (hpc : c.posClass = some pc) (hb : c.binner = some b) (X : TFrame) (y : Option YArg) (names : Option (List Feat))
    (ms : Option Int) (req disc : Bool) (e : PyErr) (h : Complaint { X := X, y := y, classFeat := some cf, names := names } e) :
    Clf.recalibrate F X y names ms req disc c = .error e c := by
  have hpre : ∀ bb, preprocessRecalibrate F X y cf bb names = .error e := by
    intro bb
    unfold preprocessRecalibrate
    rcases complaint_labelled h with h | ⟨h, h'⟩
    · have h1 : checkInput X y (some cf) names = .error e := h
      rw [h1]; rfl
    · have h1 : checkInput X y (some cf) names = .ok () := h
      have h2 : toTraining X y cf names = .error e := h' cf
      rw [h1, ok_bind, h2]; rfl
  unfold Clf.recalibrate
  rw [bind_ok (a := cf) (c' := c) (by rw [self_run]; simp [hcf, attr]),
    bind_ok (a := pc) (c' := c) (by rw [self_run]; simp [hpc, attr])]
  cases disc with
  | false =>
    rw [bind_ok (a := none) (c' := c) (by rfl), bind_pureCode, hpre]
  | true =>
    rw [bind_ok (a := some b) (c' := c) (by
      simp only [if_true]
      rw [bind_ok (a := b) (c' := c) (by rw [self_run]; simp [hb, attr])]; rfl), bind_pureCode, hpre]

/-- C76. So labels of the kind `fit` accepts can be refused by `recalibrate_proba`: a classifier fitted with a list of labels (and
no `class_feat`) refuses every Series of labels not named "Class", on any data. -/
theorem C76_refuted_recalibrate_series (a : Method) (R : PyRandom) (F : PyFloat) (P : PandasCut) (d : FitData) (init : ModelArg)
    (c c' : Clf) (h : FittedBy a R F P d init c c') (vs : List Val) (hy : d.y = some (.list vs)) (hc : d.classFeat = none)
    (X : TFrame) (hX : X.rows ≠ []) (name : Feat) (hname : name ≠ .name p!"Class") (lvs : List (Label × Val))
    (names : Option (List Feat)) (ms : Option Int) (req disc : Bool) :
    Clf.recalibrate F X (some (.series name lvs)) names ms req disc c' = .error .nameError c' := by
  obtain ⟨fuel, g, g', h⟩ := h
  obtain ⟨df, cf, pc, b, start, m, h1, _, h3, rfl⟩ := Method.fit_ok h
  obtain ⟨_, hcf, _⟩ := preprocessTraining_ok h1
  have hcl : cf = .name p!"Class" := by rw [hcf, hc, hy]; rfl
  subst hcl
  exact C76_recalibrate_refuses F _ _ pc b rfl rfl rfl X _ names ms req disc _
    (.nameClash name lvs _ hX rfl rfl hname)

/-! ### concrete cases -/

example : Complaint { Demo.mixedData with X := { Demo.mixedData.X with rows := [] } } .valueError := .noRows rfl

example : Complaint { Demo.mixedData with y := none, classFeat := some (.name p!"absent") } .indexError :=
  .noSuchColumn _ (by decide) rfl rfl (by decide)

example : Complaint { Demo.mixedData with y := some (.series (.name p!"s") []), classFeat := some Demo.fc } .nameError :=
  .nameClash _ _ _ (by decide) rfl rfl (by decide)

example : Complaint { X := Demo.mixedData.X, y := some (.list []), names := none } .valueError :=
  .labelsCount [] ⟨by decide, Or.inl (by simp), fun _ _ _ h => (by cases h)⟩ (fun _ h => by cases h) rfl (by decide)

/-- The hypotheses of `C76_irep_fit_raises_iff` and of `C76_refuted_recalibrate_series` hold of concrete objects. -/
example : Demo.mixedData.posClass = some Demo.vp ∧ Demo.newIrep.hyper.irepPrune = 0 ∧
    0 < Demo.newIrep.hyper.alpha ∧ Demo.mixedData.X.rows.length < 7 ∧ Demo.mixedData.classFeat = none ∧
    (∃ vs, Demo.mixedData.y = some (.list vs)) ∧
    ∃ c', FittedBy .irep Demo.R0 Demo.F Demo.P Demo.mixedData .nothing Demo.newIrep c' :=
  ⟨rfl, by decide +kernel, by decide +kernel, by decide +kernel, rfl, ⟨_, rfl⟩, Demo.mixed_fit_irep⟩

end Witt
