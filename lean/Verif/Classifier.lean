import Verif.Discretize
import Verif.Edit
import Verif.Irep
import Verif.Ripper
import Verif.Scores
/-
The classifier objects (wittgenstein/abstract_ruleset_classifier.py, preprocess.py, and the outer part of
IREP.fit and RIPPER.fit): attributes, preprocessing, and every public method that reads or writes them.
-/
namespace Witt
variable [Arith]

/-! ### preprocessing (wittgenstein/preprocess.py) -/

/-- `df.drop(feature, axis=1)`. -/
def TFrame.dropCol (df : TFrame) (f : Feat) : TFrame := { df.toFrame.dropCol f with kind := df.kind }

/-- The old name of a renamed column. -/
def oldName (names cols : List Feat) (f : Feat) : Option Feat := List.lookup f (names.zip cols)

/-- `df.columns = names`: a wrong number of names is a ValueError. -/
def TFrame.rename (df : TFrame) (names : List Feat) : Except PyErr TFrame :=
  if names.length ≠ df.cols.length then .error .valueError
  else .ok
    { cols := names,
      rows := df.rows.map (fun row =>
        { row with cell := fun f => ((oldName names df.cols f).map row.cell).getD .nan }),
      kind := fun f => ((oldName names df.cols f).map df.kind).getD .other }

/-- `isinstance(v, bool)`. -/
def Val.isBool : Val → Bool
  | .num _ t => t == p!"True" || t == p!"False"
  | _ => false

/-- The dtype pandas gives a column of these values. -/
def kindOf (vs : List Val) : Kind :=
  if vs.any (fun v => match v with | .str _ => true | _ => false) then .text
  else if vs ≠ [] && vs.all Val.isBool then .other
  else .number

/-- `df[feature] = values`, one value per row. -/
def TFrame.setCol (df : TFrame) (f : Feat) (vs : List Val) : TFrame :=
  { cols := if df.cols.contains f then df.cols else df.cols ++ [f],
    rows := (df.rows.zip vs).map (fun rv => { rv.1 with cell := fun f' => if f' = f then rv.2 else rv.1.cell f' }),
    kind := fun f' => if f' = f then kindOf vs else df.kind f' }

/-- Class labels as a caller passes them: a list or array, or a pandas Series with its name and its own row
labels. (A Series without a name is not modelled.) -/
inductive YArg
  | list (vs : List Val)
  | series (name : Feat) (lvs : List (Label × Val))

/-- preprocess.py 231-240: merging `y` into the frame. A Series of the right length brings its own row labels
along; a Series of another length is aligned by row label (missing labels give missing values). -/
def attachY (df : TFrame) (cf : Feat) : YArg → Except PyErr TFrame
  | .list vs => if vs.length ≠ df.rows.length then .error .valueError else .ok (df.setCol cf vs)
  | .series _ lvs =>
    if lvs.length = df.rows.length then
      let df' : TFrame := { df with rows := (df.rows.zip lvs).map (fun rl => { rl.1 with label := rl.2.1 }) }
      .ok (df'.setCol cf (lvs.map Prod.snd))
    else if ¬ (lvs.map Prod.fst).Nodup then .error .valueError
    else .ok (df.setCol cf (df.rows.map (fun row => (lvs.lookup row.label).getD .nan)))

/-- preprocess.py 170-213: `_check_valid_input_data` with `requires_label=True`. -/
def checkInput (df : TFrame) (y : Option YArg) (cf : Option Feat) (names : Option (List Feat)) :
    Except PyErr Unit :=
  if df.rows = [] then .error .valueError
  else match y, cf with
    | none, none => .error .valueError
    | none, some cf => if cf ∈ names.getD df.cols then .ok () else .error .indexError
    | some (.series name _), some cf => if name ≠ cf then .error .nameError else .ok ()
    | some _, _ => .ok ()

/-- preprocess.py 216-240: `_convert_to_training_df`. -/
def toTraining (df : TFrame) (y : Option YArg) (cf : Feat) (names : Option (List Feat)) : Except PyErr TFrame := do
  let df ← (match names with
    | none => .ok df
    | some ns => df.rename ns)
  match y with
  | none => return df
  | some y => attachY df cf y

/-- preprocess.py 312-324: `_get_class_feat_name`. -/
def classFeatName (cf : Option Feat) (y : Option YArg) : Feat :=
  match cf, y with
  | some cf, _ => cf
  | none, some (.series name _) => name
  | none, _ => .name p!"Class"

/-- preprocess.py 262-309: `_get_pos_class`, `vs` the different values of the class column. Sorting text
with anything else is a TypeError. Simplification: `None` is treated as NaN when sorting. -/
def posClassOf (vs : List Val) : Option Val → Except PyErr Val
  | some pc => .ok pc
  | none =>
    match vs with
    | [v] => match v with
      | .num q t => if q = 0 then .ok (if (Val.num q t).isBool then .num 1 p!"True" else .num 1 p!"1")
                    else .ok v
      | _ => .ok v
    | [v, w] =>
      match v, w with
      | .num a s, .num b t =>
        let (lo, hi, los) := if a < b then (a, b, s) else (b, a, t)
        if lo = 0 ∧ hi = 1 then
          .ok (if (Val.num lo los).isBool then .num 1 p!"True" else .num 1 p!"1")
        else .error .nameError
      | .str _, .str _ => .error .nameError
      | .str _, _ => .error .typeError
      | _, .str _ => .error .typeError
      | _, _ => .error .nameError
    | _ => .error .nameError

/-- What the caller passes to `fit`, apart from `initial_model`. The kinds of the frame's columns are those
after `infer_objects`. -/
structure FitData where
  X : TFrame
  y : Option YArg := none
  classFeat : Option Feat := none
  posClass : Option Val := none
  names : Option (List Feat) := none

/-- preprocess.py 17-60: `preprocess_training_data`: labelled and discretised frame, class column, positive
class, bins. -/
def preprocessTraining (F : PyFloat) (P : PandasCut) (nBins : Option Nat) (d : FitData) :
    Except PyErr (TFrame × Feat × Val × Binner) := do
  checkInput d.X d.y d.classFeat d.names
  let cf := classFeatName d.classFeat d.y
  let df ← toTraining d.X d.y cf d.names
  let pc ← posClassOf (df.unique cf) d.posClass
  let (b, df) ← Binner.fitTransform F P nBins df [cf]
  return (df, cf, pc, b)

/-- preprocess.py 243-259: `_convert_to_prediction_df`: drop the class column, then rename; the class name is
left out of the requested names too. -/
def toPrediction (df : TFrame) (cf : Feat) (names : Option (List Feat)) : Except PyErr TFrame :=
  let df := if df.cols.contains cf then df.dropCol cf else df
  match names with
  | none => .ok df
  | some ns => df.rename (ns.filter (fun f => f ≠ cf))

/-- `if bin_transformer_: df = bin_transformer_.transform(df)` (a transformer without bins is falsy). -/
def applyBins (F : PyFloat) (b : Binner) (df : TFrame) : Except PyErr TFrame :=
  if b.bins = [] then .ok df else b.transform F df

/-- preprocess.py 63-101: `preprocess_prediction_data`. -/
def preprocessPrediction (F : PyFloat) (X : TFrame) (cf : Feat) (b : Binner) (names : Option (List Feat))
    (selected : List Feat) : Except PyErr TFrame := do
  if X.rows = [] then .error .valueError
  else
    let df ← toPrediction X cf names
    if selected.any (fun f => !df.cols.contains f) then .error .indexError
    else applyBins F b df

/-! ### the classifier object -/

/-- The attribute `classes_`: `[0, 1]` (irep.py 229, ripper.py 386), or `["not p", "p"]` for the positive class p
(abstract_ruleset_classifier.py 209). -/
inductive Classes
  | codes
  | named (pc : Val)
  deriving DecidableEq, Repr

/-- Attributes of an IREP or RIPPER object; `none`: the attribute does not exist. `nBins` is
`n_discretize_bins`. (`cn`, `base_model`, `verbosity` are not modelled; a `bin_transformer_` of an older
version, a dict, is modelled by the Binner with `thresholds := none` it is converted to.) -/
structure Clf where
  hyper : Hyper := {}
  nBins : Option Nat := some 10
  ruleset : Option Ruleset := none
  binner : Option Binner := none
  classFeat : Option Feat := none
  posClass : Option Val := none
  selected : Option (List Feat) := none
  trainFeats : Option (List Feat) := none
  classes : Option Classes := none

/-- A method call on a classifier: it may change attributes and may raise, keeping the changes made so far. -/
abbrev OnClf := EStateM PyErr Clf

/-- Code that does not touch the object. -/
def pureCode {α : Type} : Except PyErr α → OnClf α
  | .ok a => pure a
  | .error e => throw e

/-- Read an attribute (AttributeError if it does not exist). -/
def self {α : Type} (get : Clf → Option α) : OnClf α := do
  pureCode (attr (get (← EStateM.get)))

/-- discretize.py 296-304 for one condition: `find_floor_ceil(cond.val)`; a value that is not text has no
`split` (AttributeError). -/
def condRange (F : PyFloat) (c : Cond) : Except PyErr (Option (PStr × PStr)) :=
  match c.val with
  | .str s => findFloorCeil F s
  | _ => .error .attributeError

/-- discretize.py 281-304: `construct_from_ruleset`, as far as its caller notices: the exception it raises,
if any. The ranges are sorted by `float(floor)` (ValueError if that is not a number). -/
def constructFromRuleset (F : PyFloat) (rs : Ruleset) : Except PyErr Unit := do
  let ranges ← rs.getConds.mapM (condRange F)
  if ranges.any (fun r => match r with | some fc => (F.parse fc.1).isNone | none => false) then .error .valueError
  else return ()

/-- abstract_ruleset_classifier.py 414-419: `_ensure_has_bin_transformer`: the attribute is set to an unfitted
BinTransformer first; the one constructed from the rules is thrown away. -/
def ensureBinner (F : PyFloat) : OnClf Unit := do
  match (← EStateM.get).binner with
  | some _ => pure ()
  | none =>
    modify (fun c => { c with binner := some {} })
    pureCode (constructFromRuleset F (← self Clf.ruleset))

/-- Prediction data as the attributes require it (abstract_ruleset_classifier.py 121-135, 190-203, 283-296). -/
def prepared (F : PyFloat) (X : TFrame) (names : Option (List Feat)) : OnClf Frame := do
  let cf ← self Clf.classFeat
  let _ ← self Clf.posClass
  let b ← self Clf.binner
  let sel ← self Clf.selected
  let _ ← self Clf.trainFeats
  return (← pureCode (preprocessPrediction F X cf b names sel)).toFrame

/-- abstract_ruleset_classifier.py 92-137: `predict`. -/
def Clf.predict (F : PyFloat) (X : TFrame) (names : Option (List Feat)) : OnClf (List Bool) := do
  let _ ← self Clf.ruleset
  ensureBinner F
  let df ← prepared F X names
  pureCode ((← self Clf.ruleset).predict df)

/-- abstract_ruleset_classifier.py 92-137: `predict(give_reasons=True)`. -/
def Clf.predictReasons (F : PyFloat) (X : TFrame) (names : Option (List Feat)) :
    OnClf (List Bool × List (List Rule)) := do
  let _ ← self Clf.ruleset
  ensureBinner F
  let df ← prepared F X names
  pureCode ((← self Clf.ruleset).predictReasons df)

/-- The shape of `predict_proba` (abstract_ruleset_classifier.py 163-210): it does not ensure a BinTransformer, and
it writes `classes_` once the data is prepared. -/
def probaQuery {α : Type} (F : PyFloat) (act : Ruleset → Frame → Except PyErr α) (X : TFrame)
    (names : Option (List Feat)) : OnClf α := do
  let _ ← self Clf.ruleset
  let _ ← self Clf.binner
  let df ← prepared F X names
  let pc ← self Clf.posClass
  modify (fun c => { c with classes := some (.named pc) })
  pureCode (act (← self Clf.ruleset) df)

/-- abstract_ruleset_classifier.py 163-210: `predict_proba`. -/
def Clf.predictProba (F : PyFloat) (X : TFrame) (names : Option (List Feat)) : OnClf (List (Rat × Rat)) :=
  probaQuery F (fun rs df => rs.predictProba df) X names

/-- abstract_ruleset_classifier.py 163-210: `predict_proba(give_reasons=True)`. -/
def Clf.predictProbaReasons (F : PyFloat) (X : TFrame) (names : Option (List Feat)) :
    OnClf (List (Rat × Rat) × List (List Rule)) :=
  probaQuery F (fun rs df => rs.predictProbaReasons df) X names

/-- abstract_ruleset_classifier.py 139-161 and ripper.py 392-409: `score`, `y` a list of labels. -/
def Clf.score {α : Type} (F : PyFloat) (X : TFrame) (y : List Val)
    (scoreFn : List Bool → List Bool → Except PyErr α) : OnClf α := do
  let _ ← self Clf.ruleset
  let preds ← Clf.predict F X none
  let pc ← self Clf.posClass
  pureCode (scoreFn (y.map (fun yi => yi.pyEq pc)) preds)

/-- One row of the table `rule_stats` returns; the metrics exist when `y` is given. -/
structure RuleStat where
  idx : Nat
  text : PStr
  coverage : Rat
  nCovered : Nat
  metrics : Option (Option Rat × Option Rat × Option Rat) := none
  deriving DecidableEq, Repr

/-- abstract_ruleset_classifier.py 312-338: the statistics of one rule. -/
def ruleStat (df : Frame) (actuals : Option (List Bool)) (i : Nat) (r : Rule) : Except PyErr RuleStat := do
  let covered ← r.covers df
  let preds := df.index.map (fun l => covered.index.contains l)
  let n := countTrue preds
  let metrics ← (match actuals with
    | none => .ok none
    | some ac => do
      let p ← scorePrecision ac preds
      let rc ← scoreRecall ac preds
      return some (p, rc, f1 p rc))
  return { idx := i, text := r.text, coverage := (n : Rat) / df.rows.length, nCovered := n, metrics := metrics }

/-- abstract_ruleset_classifier.py 306-350: the table, `y` a list of labels (a `y` of the wrong length is a
ValueError, from `pd.Series(y, index=X_df.index)`). -/
def ruleTable (pc : Val) (y : Option (List Val)) (rs : Ruleset) (df : Frame) : Except PyErr (List RuleStat) :=
  let actuals := y.map (fun ys => ys.map (fun yi => yi.pyEq pc))
  if y.any (fun ys => ys.length != df.rows.length) then .error .valueError
  else rs.rules.zipIdx.mapM (fun ri => ruleStat df actuals ri.2 ri.1)

/-- abstract_ruleset_classifier.py 267-355: `rule_stats` with `n_examples=None`. -/
def Clf.ruleStats (F : PyFloat) (X : TFrame) (y : Option (List Val)) (names : Option (List Feat)) :
    OnClf (List RuleStat) := do
  let _ ← self Clf.ruleset
  ensureBinner F
  let df ← prepared F X names
  let pc ← self Clf.posClass
  let rs ← self Clf.ruleset
  pureCode (ruleTable pc y rs df)

/-- preprocess.py 104-139: `_preprocess_recalibrate_proba_data`. -/
def preprocessRecalibrate (F : PyFloat) (X : TFrame) (y : Option YArg) (cf : Feat) (b : Option Binner)
    (names : Option (List Feat)) : Except PyErr TFrame := do
  checkInput X y (some cf) names
  let df ← toTraining X y cf names
  match b with
  | none => return df
  | some b => applyBins F b df

/-- abstract_ruleset_classifier.py 212-265: `recalibrate_proba`; the two sample-size parameters have no
effect (see `recalibrateProba`). -/
def Clf.recalibrate (F : PyFloat) (X : TFrame) (y : Option YArg) (names : Option (List Feat))
    (minSamples : Option Int) (require discretize : Bool) : OnClf Unit := do
  let cf ← self Clf.classFeat
  let pc ← self Clf.posClass
  let b ← (if discretize then do return some (← self Clf.binner) else pure none)
  let df ← pureCode (preprocessRecalibrate F X y cf b names)
  let rs ← self Clf.ruleset
  let alpha := (← EStateM.get).hyper.alpha
  match recalibrateProba rs df.toFrame cf pc minSamples require alpha with
  | (rs', none) => modify (fun c => { c with ruleset := some rs' })
  | (rs', some e) =>
    modify (fun c => { c with ruleset := some rs' })
    throw e

/-- What a caller may pass as a model (abstract_ruleset_classifier.py 399-412; base.py 533-555). -/
inductive ModelArg
  | nothing
  | ruleset (rs : Ruleset)
  | text (s : PStr)
  | clf (c : Clf)

/-- abstract_ruleset_classifier.py 399-412: `_ruleset_frommodel` (empty models are falsy). -/
def ModelArg.toRuleset : ModelArg → Except PyErr Ruleset
  | .nothing => .ok { rules := [] }
  | .ruleset rs => if rs.rules = [] then .ok { rules := [] } else .ok rs
  | .text s => if s = [] then .ok { rules := [] } else rulesetFromStr s
  | .clf c => attr c.ruleset

/-- base.py 533-555 after `Ruleset() if not initial_model else ...`, irep.py 153: `asruleset`; an unfitted
classifier gives an empty Ruleset. -/
def ModelArg.early : ModelArg → Except PyErr Ruleset
  | .clf c => .ok (c.ruleset.getD { rules := [] })
  | m => m.toRuleset

/-- abstract_ruleset_classifier.py 362-367: `init_ruleset` (the bin transformer is left as it was). -/
def Clf.initRuleset (m : ModelArg) (cf : Feat) (pc : Val) : OnClf Unit := do
  let rs ← pureCode m.toRuleset
  modify (fun c => { c with
    ruleset := some rs
    classFeat := some cf
    posClass := some pc
    selected := some rs.selectedFeatures
    trainFeats := some rs.selectedFeatures })

/-- abstract_ruleset_classifier.py 369-388: the editing methods, forwarded to `ruleset_`. -/
def Clf.edit (op : EditOp) : OnClf Unit := do
  let rs ← self Clf.ruleset
  match op.run rs with
  | (rs', none) => modify (fun c => { c with ruleset := some rs' })
  | (rs', some e) =>
    modify (fun c => { c with ruleset := some rs' })
    throw e

/-- The last lines of both `fit` methods: `recalibrate_proba` on the training frame. -/
def Clf.fitProbas (df : Frame) (cf : Feat) (pc : Val) : OnClf Unit := do
  let rs ← self Clf.ruleset
  let alpha := (← EStateM.get).hyper.alpha
  match Witt.recalibrate rs df cf pc alpha with
  | (rs', none) => modify (fun c => { c with ruleset := some rs' })
  | (rs', some e) =>
    modify (fun c => { c with ruleset := some rs' })
    throw e

/-- `utils.remove_duplicates` and `trim_conds` on the model, irep.py 231-232, ripper.py 379-380. -/
def Clf.tidy : OnClf Unit := do
  let rs ← self Clf.ruleset
  let m := (← EStateM.get).hyper.lim.maxTotalConds
  let rs : Ruleset := { rs with rules := removeDups Rule.sameKey rs.rules }
  modify (fun c => { c with ruleset := some (rs.trimConds m) })

/-- irep.py 94-235: `IREP.fit` with `cn_optimize=True`; `g` is the state of the random generator, and its
new state is returned. The old model is replaced before anything is checked (irep.py 153). Simplification:
calibration attributes of the initial model's rules are dropped. -/
def Clf.irepFit (fuel : Nat) (R : PyRandom) (F : PyFloat) (P : PandasCut) (d : FitData) (init : ModelArg) (g : R.G) :
    OnClf R.G := do
  let first ← pureCode init.early
  modify (fun c => { c with ruleset := some first })
  let (df, cf, pc, b) ← pureCode (preprocessTraining F P (← EStateM.get).nBins d)
  modify (fun c => { c with classFeat := some cf, posClass := some pc, binner := some b })
  let hp := (← EStateM.get).hyper
  let cn ← pureCode (CatNap.build df.toFrame cf)
  let start ← pureCode init.toRuleset
  let st ← pureCode (irepGrowCn fuel R cn hp (start.rules.map Rule.conds)
    (labelSet (posRows df.toFrame cf pc).index) (labelSet (negRows df.toFrame cf pc).index) g)
  let rs : Ruleset := { rules := st.rules.map (fun c => { conds := c }), possible := some cn.conds }
  modify (fun c => { c with
    ruleset := some rs
    selected := some rs.selectedFeatures
    trainFeats := some (df.toFrame.dropCol cf).cols })
  Clf.fitProbas df.toFrame cf pc
  modify (fun c => { c with classes := some .codes })
  Clf.tidy
  return st.g

/-- `self.ruleset_ = ...` with freshly learned rules and their `possible_conds`. -/
def Clf.setRules (cands : List Cond) (rules : List (List Cond)) : OnClf Unit :=
  modify (fun c => { c with
    ruleset := some { rules := rules.map (fun r => { conds := r }), possible := some cands } })

/-- ripper.py 265-311: stage 2, `n` more iterations to go, storing each new ruleset. -/
def Clf.stage2 (fuel : Nat) (R : PyRandom) (cn : CatNap) (pos neg : List Label) :
    Nat → List (List Cond) → R.G → OnClf (List (List Cond) × R.G)
  | 0, rules, g => return (rules, g)
  | n + 1, rules, g => do
    let hp := (← EStateM.get).hyper
    let (new, g') ← pureCode (optimizeCn fuel R cn hp (hp.randomState.map (· + 100)) rules pos neg g)
    if n ≠ 0 && condsRulesetEq rules new then return (rules, g')
    else
      Clf.setRules cn.conds new
      Clf.stage2 fuel R cn pos neg n new g'

/-- ripper.py 115-390: `RIPPER.fit` with `cn_optimize=True`. -/
def Clf.ripperFit (fuel : Nat) (R : PyRandom) (F : PyFloat) (P : PandasCut) (d : FitData) (init : ModelArg) (g : R.G) :
    OnClf R.G := do
  let (df, cf, pc, b) ← pureCode (preprocessTraining F P (← EStateM.get).nBins d)
  modify (fun c => { c with classFeat := some cf, posClass := some pc, binner := some b })
  let hp := (← EStateM.get).hyper
  let cn ← pureCode (CatNap.build df.toFrame cf)
  let start ← pureCode init.toRuleset
  let pos := labelSet (posRows df.toFrame cf pc).index
  let neg := labelSet (negRows df.toFrame cf pc).index
  let st ← pureCode (ripperGrowCn fuel R cn hp (start.rules.map Rule.conds) pos neg g)
  Clf.setRules cn.conds st.rules
  let (rules, g) ← Clf.stage2 fuel R cn pos neg hp.k.toNat st.rules st.g
  let (rules, g) ← pureCode (coverRemainingCn fuel R cn hp rules pos neg g)
  Clf.setRules cn.conds rules
  let (rules, _) ← pureCode (bestSubsetCn cn rules pos neg)
  let rs : Ruleset := { rules := rules.map (fun c => { conds := c }) }
  modify (fun c => { c with
    ruleset := some rs
    selected := some rs.selectedFeatures
    trainFeats := some (df.toFrame.dropCol cf).cols })
  Clf.tidy
  Clf.fitProbas df.toFrame cf pc
  modify (fun c => { c with classes := some .codes })
  return g

end Witt
