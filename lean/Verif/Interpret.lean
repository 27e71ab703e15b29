import Verif.Classifier
/-
Rulesets as global surrogates of other models (wittgenstein/interpret.py).
-/
namespace Witt
variable [Arith]

/-- What another model's prediction function returns: a one-dimensional numpy array (or tensor), or a Python list.
Simplification: of a two-dimensional array only the values are kept, in row order (which is all that `_keras_predict`
keeps; elsewhere answers are assumed one-dimensional). -/
inductive Reply
  | array (vs : List Val)
  | list (vs : List Val)
  deriving DecidableEq, Repr

/-- The values of an answer, in order. -/
def Reply.values : Reply → List Val
  | .array vs => vs
  | .list vs => vs

/-- Another model, as interpret.py sees it: `str(type(model))`, `model.predict(X)` and `model(X)`, each a function of `X`
that may raise. -/
structure Foreign where
  typeText : PStr
  predict : TFrame → Except PyErr Reply
  call : TFrame → Except PyErr Reply

/-- `s in text`, for strings. -/
def pyIn (s : PStr) : PStr → Bool
  | [] => s.isEmpty
  | c :: text => s.isPrefixOf (c :: text) || pyIn s text

/-- interpret.py 120-121: `_inpackage`. -/
def Foreign.inPackage (m : Foreign) (s : PStr) : Bool := pyIn s m.typeText

/-- Python's `True` and `False` as cell values. -/
def Val.ofBool (b : Bool) : Val := if b then .num 1 p!"True" else .num 0 p!"False"

/-- `value > 0.5`: text cannot be compared with a number. -/
def Val.overHalf : Val → Except PyErr Val
  | .num q _ => .ok (Val.ofBool (decide (1 / 2 < q)))
  | .nan => .ok (Val.ofBool false)
  | .str _ => .error .typeError

/-- interpret.py 108-109: `_keras_predict`; a list is not comparable with 0.5. -/
def kerasPredict (X : TFrame) (m : Foreign) : Except PyErr Reply := do
  match ← m.predict X with
  | .list _ => .error .typeError
  | .array vs => return .array (← vs.mapM Val.overHalf)

/-- interpret.py 86-102: `model_predict`; `fn` is `model_predict_function`. -/
def modelPredict (X : TFrame) (m : Foreign) (fn : Option (TFrame → Foreign → Except PyErr Reply)) : Except PyErr Reply :=
  match fn with
  | some fn => fn X m
  | none =>
    if m.inPackage p!"sklearn" then m.predict X
    else if m.inPackage p!"tensorflow" || m.inPackage p!"keras" then kerasPredict X m
    else if m.inPackage p!"torch" then m.call X
    else if m.inPackage p!"wittgenstein" then m.predict X
    else m.predict X

/-- Labels that may be a single value. -/
inductive Labels
  | many (vs : List Val)
  | one (v : Val)
  deriving DecidableEq, Repr

/-- utils.py 35-39: `try_np_tonum`: an array of one value becomes that value. -/
def Reply.toNum : Reply → Labels
  | .array [v] => .one v
  | .array vs => .many vs
  | .list vs => .many vs

/-- preprocess.py 231-240 with `y` a single value: `df[class_feat] = y` gives every row that value. -/
def Labels.forRows (n : Nat) : Labels → List Val
  | .many vs => vs
  | .one v => List.replicate n v

/-- interpret.py 9-43: `interpret_model`; `fit` is the `fit` method of the interpreter, on which this acts. The attribute
`base_model` is not modelled, nor is the unused `score_function`. -/
def interpretModel {G : Type} (fit : FitData → OnClf G) (X : TFrame) (m : Foreign)
    (fn : Option (TFrame → Foreign → Except PyErr Reply)) : OnClf (G × Ruleset) := do
  let preds := (← pureCode (modelPredict X m fn)).toNum
  let g ← fit { X := X, y := some (.list (preds.forRows X.rows.length)) }
  return (g, ← self Clf.ruleset)

/-- What `score` iterates over (preprocess.py 142-167, ripper.py 408): the characters of a text, a TypeError for a number. -/
def Labels.iterate : Labels → Except PyErr (List Val)
  | .many vs => .ok vs
  | .one (.str s) => .ok (s.map (fun ch => .str [ch]))
  | .one _ => .error .typeError

/-- `interpreter.score(X, y, score_function)` where `y` may be a single value: predict comes first
(abstract_ruleset_classifier.py 139-161, ripper.py 392-409). -/
def scoreLabels {α : Type} (F : PyFloat) (X : TFrame) (y : Labels)
    (fn : List Bool → List Bool → Except PyErr α) : OnClf α :=
  match y.iterate with
  | .ok vs => Clf.score F X vs fn
  | .error e => do
    let _ ← self Clf.ruleset
    let _ ← Clf.predict F X none
    pureCode (.error e)

/-- interpret.py 74-80: the predictions `score_fidelity` compares with. -/
def fidelityLabels (X : TFrame) (model : Option Foreign) (preds : Option (List Val))
    (fn : Option (TFrame → Foreign → Except PyErr Reply)) : Except PyErr Labels :=
  match preds, model with
  | some vs, _ => .ok (.many vs)
  | none, some m => (modelPredict X m fn).map Reply.toNum
  | none, none => .error .valueError

/-- interpret.py 46-81: `score_fidelity` with one score function; `preds`, if given, is a list or array. -/
def scoreFidelity {α : Type} (F : PyFloat) (X : TFrame) (model : Option Foreign) (preds : Option (List Val))
    (fn : Option (TFrame → Foreign → Except PyErr Reply)) (score : List Bool → List Bool → Except PyErr α) : OnClf α := do
  let y ← pureCode (fidelityLabels X model preds fn)
  scoreLabels F X y score

/-- interpret.py 83: one score after the other. -/
def scoreEach {α : Type} (F : PyFloat) (X : TFrame) (y : Labels) :
    List (List Bool → List Bool → Except PyErr α) → OnClf (List α)
  | [] => return []
  | score :: scores => do
    let s ← scoreLabels F X y score
    return s :: (← scoreEach F X y scores)

/-- interpret.py 46-83: `score_fidelity` with an iterable of score functions. -/
def scoreFidelityAll {α : Type} (F : PyFloat) (X : TFrame) (model : Option Foreign) (preds : Option (List Val))
    (fn : Option (TFrame → Foreign → Except PyErr Reply)) (scores : List (List Bool → List Bool → Except PyErr α)) :
    OnClf (List α) := do
  let y ← pureCode (fidelityLabels X model preds fn)
  scoreEach F X y scores

/-- A fitted IREP or RIPPER object as the model to be interpreted: `predict` answers a list of booleans. -/
def Foreign.ofClf (F : PyFloat) (c : Clf) (typeText : PStr) : Foreign where
  typeText := typeText
  predict := fun X => match Clf.predict F X none c with
    | .ok ps _ => .ok (.list (ps.map Val.ofBool))
    | .error e _ => .error e
  call := fun _ => .error .typeError

end Witt
