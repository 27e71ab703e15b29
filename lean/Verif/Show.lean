import Verif.Text
import Verif.Classifier
/-
What the library prints of a model: `out_model`, `out_pretty`, `truncstr`.
-/
namespace Witt

/-- base.py 83-92: the text `out_pretty` prints (`print` adds a line break at the end, left out here). -/
def Ruleset.pretty (rs : Ruleset) : PStr :=
  replChar '^' p!" ^ " (dropChar '\'' (replChar ',' p!" V\n" (dropChar ' ' (pyReprList (rs.rules.map Rule.text)))))

/-- base.py 43-59: `truncstr(limit, direction)`. -/
def Ruleset.truncstr (rs : Ruleset) (limit : Int) (direction : PStr) : Except PyErr PStr :=
  if limit < rs.rules.length then
    if direction = p!"left" then .ok (Ruleset.text { rules := sliceTo rs.rules limit } ++ p!"...")
    else if direction = p!"right" then .ok (p!"..." ++ Ruleset.text { rules := sliceFrom rs.rules (-limit) })
    else .error .valueError
  else .ok rs.text

/-- abstract_ruleset_classifier.py 85-90: the text `out_model` prints. -/
def Clf.outModel (c : Clf) : PStr :=
  match c.ruleset with
  | some rs => rs.pretty
  | none => p!"no model fitted"

end Witt
