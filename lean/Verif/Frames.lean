import Verif.Props.Fit
import Verif.Examples
/-
DataFrame objects and what is done to them in place. The other modules model data as values; here the frames live at addresses, so
that it can be said which of them a call changes: `preprocess.py` and `discretize.py` assign to columns, names and parts of frames in
place, after copying the caller's frame. The rest of the package only reads frames (its `drop`s are not in place, and a frame it
assigns a column to, in `rule_stats`, is a copy made there), so it is taken from the value model. Labels `y` are only read.
-/
namespace Witt
variable [Arith]

/-- The frames that exist, by address; addresses from `next` on are free. -/
structure Frames where
  at_ : Nat → TFrame
  next : Nat

/-- Code working on frames. -/
abbrev OnFrames := EStateM PyErr Frames

/-- The data of a caller: a DataFrame, or something else to make one of (a list, an array). -/
inductive DataArg
  | frame (a : Nat)
  | other (rows : TFrame)

/-- The data as a value. -/
def DataArg.value (X : DataArg) (H : Frames) : TFrame :=
  match X with
  | .frame a => H.at_ a
  | .other df => df

/-- A new frame. -/
def newFrame (df : TFrame) : OnFrames Nat := fun H =>
  .ok H.next { at_ := fun a => if a = H.next then df else H.at_ a, next := H.next + 1 }

/-- Read a frame. -/
def look (a : Nat) : OnFrames TFrame := fun H => .ok (H.at_ a) H

/-- Change a frame in place. -/
def overwrite (a : Nat) (df : TFrame) : OnFrames Unit := fun H =>
  .ok () { H with at_ := fun x => if x = a then df else H.at_ x }

/-- Code that touches no frame. -/
def noFrames {α : Type} : Except PyErr α → OnFrames α
  | .ok a => pure a
  | .error e => throw e

/-- `df.copy()`, and `df.infer_objects()` (the kinds of columns are those after it). -/
def copyFrame (a : Nat) : OnFrames Nat := do newFrame (← look a)

/-- preprocess.py 219-223, 246-250: `X.copy()` of a DataFrame, `pd.DataFrame(X)` of anything else. -/
def asFrame (X : DataArg) : OnFrames Nat :=
  match X with
  | .frame a => copyFrame a
  | .other df => newFrame df

/-- preprocess.py 227-229, 258: `df.columns = names`, in place. -/
def setNames (a : Nat) (names : List Feat) : OnFrames Unit := do
  overwrite a (← noFrames ((← look a).rename names))

/-- preprocess.py 235: `df.set_index(labels)`, a new frame; another number of labels is a ValueError. -/
def setIndex (a : Nat) (labels : List Label) : OnFrames Nat := do
  let df ← look a
  if labels.length ≠ df.rows.length then throw .valueError
  else newFrame { df with rows := (df.rows.zip labels).map (fun rl => { rl.1 with label := rl.2 }) }

/-- preprocess.py 239: `df[feature] = values` for a list, in place. -/
def assignList (a : Nat) (cf : Feat) (vs : List Val) : OnFrames Unit := do
  let df ← look a
  if vs.length ≠ df.rows.length then throw .valueError else overwrite a (df.setCol cf vs)

/-- preprocess.py 236, 239: `df[feature] = series`, in place: value by value if the row labels are the same, otherwise by row label
(a ValueError if the series repeats one). -/
def assignSeries (a : Nat) (cf : Feat) (lvs : List (Label × Val)) : OnFrames Unit := do
  let df ← look a
  if df.index = lvs.map Prod.fst then overwrite a (df.setCol cf (lvs.map Prod.snd))
  else if ¬ (lvs.map Prod.fst).Nodup then throw .valueError
  else overwrite a (df.setCol cf (df.rows.map (fun row => (lvs.lookup row.label).getD .nan)))

/-- preprocess.py 231-239: merging `y` (a list has no row labels to set: the exception leads to the second way). -/
def attachAt (a : Nat) (cf : Feat) : YArg → OnFrames Nat
  | .list vs => do assignList a cf vs; return a
  | .series _ lvs =>
    tryCatch (do
        let a' ← setIndex a (lvs.map Prod.fst)
        assignSeries a' cf lvs
        return a')
      (fun _ => do assignSeries a cf lvs; return a)

/-- preprocess.py 216-240: `_convert_to_training_df`. -/
def toTrainingAt (X : DataArg) (y : Option YArg) (cf : Feat) (names : Option (List Feat)) : OnFrames Nat := do
  let a ← asFrame X
  match names with
  | none => pure ()
  | some ns => setNames a ns
  match y with
  | none => return a
  | some y => attachAt a cf y

/-- preprocess.py 243-259: `_convert_to_prediction_df`; `drop(inplace=True)`. -/
def toPredictionAt (X : DataArg) (cf : Feat) (names : Option (List Feat)) : OnFrames Nat := do
  let a ← asFrame X
  let df ← look a
  if df.cols.contains cf then overwrite a (df.dropCol cf) else pure ()
  match names with
  | none => return a
  | some ns => do
    setNames a (ns.filter (fun f => f ≠ cf))
    return a

/-- The loop of discretize.py 200-204, on the copy `a`, in place. -/
def transformLoopAt (F : PyFloat) (b : Binner) (done : List Feat) (a : Nat) : List (Feat × List PStr) → OnFrames Unit
  | [] => pure ()
  | (f, labels) :: rest => do
    let df ← look a
    if df.cols.contains f && !done.contains f then
      overwrite a (df.mapCol f (← noFrames (featTransform F b f labels)))
    else pure ()
    transformLoopAt F b done a rest

/-- discretize.py 177-204: `transform`. -/
def Binner.transformAt (F : PyFloat) (b : Binner) (a : Nat) : OnFrames Nat := do
  let done ← noFrames (findTransformed b (← look a))
  let res ← copyFrame a
  transformLoopAt F b done res b.bins
  return res

/-- `if bin_transformer_: df = bin_transformer_.transform(df)`. -/
def applyBinsAt (F : PyFloat) (b : Binner) (a : Nat) : OnFrames Nat :=
  if b.bins = [] then return a else b.transformAt F a

/-- preprocess.py 17-60: `preprocess_training_data`. -/
def preprocessTrainingAt (F : PyFloat) (P : PandasCut) (nBins : Option Nat) (X : DataArg) (d : FitData) :
    OnFrames (Nat × Feat × Val × Binner) := do
  let X0 ← (match X with
    | .frame a => look a
    | .other df => pure df)
  noFrames (checkInput X0 d.y d.classFeat d.names)
  let cf := classFeatName d.classFeat d.y
  let a ← toTrainingAt X d.y cf d.names
  let pc ← noFrames (posClassOf ((← look a).unique cf) d.posClass)
  let a ← copyFrame a
  let b := Binner.fit F P nBins (← look a) [cf]
  let a ← b.transformAt F a
  return (a, cf, pc, b)

/-- preprocess.py 63-101: `preprocess_prediction_data`. -/
def preprocessPredictionAt (F : PyFloat) (X : DataArg) (cf : Feat) (b : Binner) (names : Option (List Feat))
    (selected : List Feat) : OnFrames Nat := do
  let X0 ← (match X with
    | .frame a => look a
    | .other df => pure df)
  if X0.rows = [] then throw .valueError
  else
    let a ← toPredictionAt X cf names
    let df ← look a
    if selected.any (fun f => !df.cols.contains f) then throw .indexError
    else
      let a ← copyFrame a
      applyBinsAt F b a

/-- preprocess.py 104-139: `_preprocess_recalibrate_proba_data`. -/
def preprocessRecalibrateAt (F : PyFloat) (X : DataArg) (y : Option YArg) (cf : Feat) (b : Option Binner)
    (names : Option (List Feat)) : OnFrames Nat := do
  let X0 ← (match X with
    | .frame a => look a
    | .other df => pure df)
  noFrames (checkInput X0 y (some cf) names)
  let a ← toTrainingAt X y cf names
  let a ← copyFrame a
  match b with
  | none => return a
  | some b => applyBinsAt F b a

/-! ### the methods of a classifier -/

/-- Code running on a classifier and on frames. -/
abbrev OnData := EStateM PyErr (Clf × Frames)

/-- Code that touches the classifier only. -/
def onClf {α : Type} (m : OnClf α) : OnData α := fun s =>
  match m s.1 with
  | .ok a c => .ok a (c, s.2)
  | .error e c => .error e (c, s.2)

/-- Code that touches frames only. -/
def onFrames {α : Type} (m : OnFrames α) : OnData α := fun s =>
  match m s.2 with
  | .ok a H => .ok a (s.1, H)
  | .error e H => .error e (s.1, H)

/-- abstract_ruleset_classifier.py 121-135, 190-203, 283-296 (cf. `prepared`). -/
def preparedAt (F : PyFloat) (X : DataArg) (names : Option (List Feat)) : OnData Frame := do
  let cf ← onClf (self Clf.classFeat)
  let _ ← onClf (self Clf.posClass)
  let b ← onClf (self Clf.binner)
  let sel ← onClf (self Clf.selected)
  let _ ← onClf (self Clf.trainFeats)
  let a ← onFrames (preprocessPredictionAt F X cf b names sel)
  return (← onFrames (look a)).toFrame

/-- abstract_ruleset_classifier.py 92-137 (cf. `Clf.predict`, `Clf.predictReasons`; `act` is what is done with the prepared frame). -/
def predictAt {α : Type} (F : PyFloat) (act : Ruleset → Frame → Except PyErr α) (X : DataArg) (names : Option (List Feat)) :
    OnData α := do
  let _ ← onClf (self Clf.ruleset)
  onClf (ensureBinner F)
  let df ← preparedAt F X names
  onClf (do pureCode (act (← self Clf.ruleset) df))

/-- abstract_ruleset_classifier.py 163-210 (cf. `probaQuery`). -/
def probaAt {α : Type} (F : PyFloat) (act : Ruleset → Frame → Except PyErr α) (X : DataArg) (names : Option (List Feat)) :
    OnData α := do
  let _ ← onClf (self Clf.ruleset)
  let _ ← onClf (self Clf.binner)
  let df ← preparedAt F X names
  onClf (do
    let pc ← self Clf.posClass
    modify (fun c => { c with classes := some (.named pc) })
    pureCode (act (← self Clf.ruleset) df))

/-- abstract_ruleset_classifier.py 139-161 (cf. `Clf.score`). -/
def scoreAt {α : Type} (F : PyFloat) (X : DataArg) (y : List Val) (scoreFn : List Bool → List Bool → Except PyErr α) : OnData α := do
  let _ ← onClf (self Clf.ruleset)
  let preds ← predictAt F (fun rs df => rs.predict df) X none
  onClf (do
    let pc ← self Clf.posClass
    pureCode (scoreFn (y.map (fun yi => yi.pyEq pc)) preds))

/-- abstract_ruleset_classifier.py 267-355 (cf. `Clf.ruleStats`). -/
def ruleStatsAt (F : PyFloat) (X : DataArg) (y : Option (List Val)) (names : Option (List Feat)) : OnData (List RuleStat) := do
  let _ ← onClf (self Clf.ruleset)
  onClf (ensureBinner F)
  let df ← preparedAt F X names
  onClf (do
    let pc ← self Clf.posClass
    let rs ← self Clf.ruleset
    pureCode (ruleTable pc y rs df))

/-- abstract_ruleset_classifier.py 267-355 (cf. `Clf.ruleStatsExamples`; the example frames it returns are made there). -/
def ruleStatsExamplesAt (F : PyFloat) (S : PySample) (X : DataArg) (y : Option (List Val)) (n : Int) (names : Option (List Feat))
    (seed : Option Int) (g : S.G) : OnData (List RuleStat × List Frame × S.G) := do
  let _ ← onClf (self Clf.ruleset)
  onClf (ensureBinner F)
  let df ← preparedAt F X names
  onClf (do
    let pc ← self Clf.posClass
    let cf ← self Clf.classFeat
    let rs ← self Clf.ruleset
    pureCode (examplesTable S cf pc y n seed g rs df))

/-- abstract_ruleset_classifier.py 212-265 (cf. `Clf.recalibrate`). -/
def recalibrateOn (F : PyFloat) (X : DataArg) (y : Option YArg) (names : Option (List Feat)) (minSamples : Option Int)
    (require discretize : Bool) : OnData Unit := do
  let cf ← onClf (self Clf.classFeat)
  let pc ← onClf (self Clf.posClass)
  let b ← onClf (if discretize then do return some (← self Clf.binner) else pure none)
  let a ← onFrames (preprocessRecalibrateAt F X y cf b names)
  let df ← onFrames (look a)
  onClf (do
    let rs ← self Clf.ruleset
    let alpha := (← EStateM.get).hyper.alpha
    match recalibrateProba rs df.toFrame cf pc minSamples require alpha with
    | (rs', none) => modify (fun c => { c with ruleset := some rs' })
    | (rs', some e) =>
      modify (fun c => { c with ruleset := some rs' })
      throw e)

/-- irep.py 182-235: the part of `IREP.fit` after preprocessing, with `cn_optimize=True` (cf. `Clf.irepFit`). -/
def Clf.irepRest (fuel : Nat) (R : PyRandom) (init : ModelArg) (g : R.G) (df : TFrame) (cf : Feat) (pc : Val) (b : Binner) :
    OnClf R.G := do
  modify (fun c => { c with classFeat := some cf, posClass := some pc, binner := some b })
  let hp := (← EStateM.get).hyper
  let cn ← pureCode (CatNap.build df.toFrame cf)
  let start ← pureCode init.toRuleset
  let st ← pureCode (irepGrowCn fuel R cn hp (start.rules.map Rule.conds)
    (labelSet (posRows df.toFrame cf pc).index) (labelSet (negRows df.toFrame cf pc).index) g)
  let rs : Ruleset := { rules := st.rules.map (fun c => { conds := c }), possible := some cn.conds }
  modify (fun c => { c with
    ruleset := some rs
    selected := some rs.selectedFeatures
    trainFeats := some (df.toFrame.dropCol cf).cols })
  Clf.fitProbas df.toFrame cf pc
  modify (fun c => { c with classes := some .codes })
  Clf.tidy
  return st.g

/-- irep.py 182-235 with `cn_optimize=False` (cf. `Clf.irepFitPlain`). -/
def Clf.irepPlainRest (fuel : Nat) (R : PyRandom) (S : SetOps) (init : ModelArg) (g : R.G) (df : TFrame) (cf : Feat) (pc : Val)
    (b : Binner) : OnClf R.G := do
  modify (fun c => { c with classFeat := some cf, posClass := some pc, binner := some b })
  let hp := (← EStateM.get).hyper
  let start ← pureCode init.toRuleset
  let pos := posExamples df.toFrame cf pc
  let neg := negExamples df.toFrame cf pc
  let cands := updatedConds S start.possible pos neg
  let st ← pureCode (irepGrow fuel R cands hp (start.rules.map Rule.conds) pos neg g)
  let rs : Ruleset := { rules := st.rules.map (fun c => { conds := c }), possible := some cands }
  modify (fun c => { c with
    ruleset := some rs
    selected := some rs.selectedFeatures
    trainFeats := some (df.toFrame.dropCol cf).cols })
  Clf.fitProbas df.toFrame cf pc
  modify (fun c => { c with classes := some .codes })
  Clf.tidy
  return st.g

/-- ripper.py 206-390: the part of `RIPPER.fit` after preprocessing, with `cn_optimize=True` (cf. `Clf.ripperFit`). -/
def Clf.ripperRest (fuel : Nat) (R : PyRandom) (init : ModelArg) (g : R.G) (df : TFrame) (cf : Feat) (pc : Val) (b : Binner) :
    OnClf R.G := do
  modify (fun c => { c with classFeat := some cf, posClass := some pc, binner := some b })
  let hp := (← EStateM.get).hyper
  let cn ← pureCode (CatNap.build df.toFrame cf)
  let start ← pureCode init.toRuleset
  let pos := labelSet (posRows df.toFrame cf pc).index
  let neg := labelSet (negRows df.toFrame cf pc).index
  let st ← pureCode (ripperGrowCn fuel R cn hp (start.rules.map Rule.conds) pos neg g)
  Clf.setRules cn.conds st.rules
  let (rules, g) ← Clf.stage2 fuel R cn pos neg hp.k.toNat st.rules st.g
  let (rules, g) ← pureCode (coverRemainingCn fuel R cn hp rules pos neg g)
  Clf.setRules cn.conds rules
  let (rules, _) ← pureCode (bestSubsetCn cn rules pos neg)
  let rs : Ruleset := { rules := rules.map (fun c => { conds := c }) }
  modify (fun c => { c with
    ruleset := some rs
    selected := some rs.selectedFeatures
    trainFeats := some (df.toFrame.dropCol cf).cols })
  Clf.tidy
  Clf.fitProbas df.toFrame cf pc
  modify (fun c => { c with classes := some .codes })
  return g

/-- ripper.py 206-390 with `cn_optimize=False` (cf. `Clf.ripperFitPlain`). -/
def Clf.ripperPlainRest (fuel : Nat) (R : PyRandom) (S : SetOps) (init : ModelArg) (g : R.G) (df : TFrame) (cf : Feat) (pc : Val)
    (b : Binner) : OnClf R.G := do
  modify (fun c => { c with classFeat := some cf, posClass := some pc, binner := some b })
  let hp := (← EStateM.get).hyper
  let start ← pureCode init.toRuleset
  let pos := posExamples df.toFrame cf pc
  let neg := negExamples df.toFrame cf pc
  let cands := updatedConds S start.possible pos neg
  let st ← pureCode (ripperGrow fuel R cands hp (start.rules.map Rule.conds) pos neg g)
  Clf.setRules cands st.rules
  let (rules, g) ← Clf.stage2Df fuel R cands pos neg hp.k.toNat st.rules st.g
  let (rules, cands, g) ← pureCode (coverRemainingDf fuel R S cands hp rules pos neg g)
  Clf.setRules cands rules
  let (rules, _) ← pureCode (bestSubsetDf cands.length rules pos neg)
  let rs : Ruleset := { rules := rules.map (fun c => { conds := c }) }
  modify (fun c => { c with
    ruleset := some rs
    selected := some rs.selectedFeatures
    trainFeats := some (df.toFrame.dropCol cf).cols })
  Clf.tidy
  Clf.fitProbas df.toFrame cf pc
  modify (fun c => { c with classes := some .codes })
  return g

/-- irep.py 153: what `IREP.fit` does before preprocessing; `RIPPER.fit` does nothing. -/
def Method.begin (a : Method) (init : ModelArg) : OnClf Unit :=
  match a with
  | .irep | .irepPlain _ => do
    let first ← pureCode init.early
    modify (fun c => { c with ruleset := some first })
  | .ripper | .ripperPlain _ => pure ()

/-- What `fit` does after preprocessing. -/
def Method.rest (a : Method) (fuel : Nat) (R : PyRandom) (init : ModelArg) (g : R.G) (df : TFrame) (cf : Feat) (pc : Val) (b : Binner) :
    OnClf R.G :=
  match a with
  | .irep => Clf.irepRest fuel R init g df cf pc b
  | .ripper => Clf.ripperRest fuel R init g df cf pc b
  | .irepPlain S => Clf.irepPlainRest fuel R S init g df cf pc b
  | .ripperPlain S => Clf.ripperPlainRest fuel R S init g df cf pc b

/-- irep.py 94-235, ripper.py 115-390: `fit` (cf. `Method.fit`; the data of `d` is not used). -/
def Method.fitAt (a : Method) (fuel : Nat) (R : PyRandom) (F : PyFloat) (P : PandasCut) (X : DataArg) (d : FitData) (init : ModelArg)
    (g : R.G) : OnData R.G := do
  onClf (a.begin init)
  let c ← onClf EStateM.get
  let (fr, cf, pc, b) ← onFrames (preprocessTrainingAt F P c.nBins X d)
  let df ← onFrames (look fr)
  onClf (a.rest fuel R init g df cf pc b)

end Witt
