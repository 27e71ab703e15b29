import Verif.Classifier
/-
Hyperparameters as attributes: constructors, `get_params`, `set_params` and deprecated `fit` keywords
(wittgenstein/abstract_ruleset_classifier.py 25-65, 390-397, 421-434; irep.py 26-84; ripper.py 30-98, 1187-1194).
-/
namespace Witt

/-- The two learning algorithms. -/
inductive Algo
  | irep
  | ripper
  deriving DecidableEq

/-- A hyperparameter value. -/
inductive PyVal
  | none
  | num (q : Rat)
  | text (s : PStr)
  deriving DecidableEq, Repr

/-- Truth value of an object: None, 0 and the empty text are false. -/
def PyVal.truthy : PyVal → Bool
  | .none => false
  | .num q => decide (q ≠ 0)
  | .text s => decide (s ≠ [])

/-- Keyword arguments. (That Python's keywords are pairwise distinct is not needed: a later one would win.) -/
abbrev Kwargs := List (PStr × PyVal)

/-- irep.py 26-37: the parameters of `IREP.__init__` with their defaults. -/
def commonSignature : Kwargs :=
  [(p!"prune_size", .num (33 / 100)), (p!"n_discretize_bins", .num 10), (p!"max_rules", .none),
   (p!"min_rule_samples", .none), (p!"min_ruleset_samples", .none), (p!"max_rule_conds", .none),
   (p!"max_total_conds", .none), (p!"alpha", .num 1), (p!"random_state", .none), (p!"verbosity", .num 0)]

/-- irep.py 26-37, ripper.py 30-46: the parameters of `__init__` with their defaults. -/
def signature : Algo → Kwargs
  | .irep => commonSignature
  | .ripper => (p!"k", .num 2) :: (p!"dl_allowance", .num 64) :: commonSignature

/-- `VALID_HYPERPARAMETERS`: abstract_ruleset_classifier.py 41-51. -/
def commonValid : List PStr :=
  [p!"prune_size", p!"n_discretize_bins", p!"max_rules", p!"min_ruleset_samples", p!"max_rule_conds",
   p!"max_total_conds", p!"alpha", p!"random_state", p!"verbosity"]

/-- `VALID_HYPERPARAMETERS`: abstract_ruleset_classifier.py 41-51, ripper.py 96. -/
def validHyperparameters : Algo → List PStr
  | .irep => commonValid
  | .ripper => commonValid ++ [p!"k", p!"dl_allowance"]

/-- The `__dict__` of an IREP or RIPPER object, restricted to attributes holding hyperparameter-like values.
Simplification: `VALID_HYPERPARAMETERS` is itself an attribute, which nobody reassigns. -/
structure Est where
  algo : Algo
  attrs : PStr → Option PyVal

/-- `setattr(self, p, v)`. -/
def Est.setattr (e : Est) (p : PStr) (v : PyVal) : Est := { e with attrs := fun q => if q = p then some v else e.attrs q }

/-- The value of a parameter of a call: the last keyword of that name, otherwise the default. -/
def argument (kw : Kwargs) (p : PStr) (default : PyVal) : PyVal := (List.lookup p kw.reverse).getD default

/-- `prune_size if prune_size else 0` for that parameter, the value itself for the others
(abstract_ruleset_classifier.py 53-62). -/
def stored (p : PStr) (v : PyVal) : PyVal := if p = p!"prune_size" ∧ v.truthy = false then .num 0 else v

/-- `IREP(**kw)`, `RIPPER(**kw)`: abstract_ruleset_classifier.py 25-65, irep.py 26-84, ripper.py 30-98. An unexpected
keyword is a TypeError. -/
def Est.new (a : Algo) (kw : Kwargs) : Except PyErr Est :=
  if kw.all (fun x => (signature a).any (fun y => y.1 = x.1)) then
    .ok { algo := a, attrs := fun p => (List.lookup p (signature a)).map (fun d => stored p (argument kw p d)) }
  else .error .typeError

/-- `get_params`: abstract_ruleset_classifier.py 390-392, ripper.py 1187-1188. -/
def Est.getParams (e : Est) : Kwargs := (validHyperparameters e.algo).map (fun p => (p, (e.attrs p).getD .none))

/-- `set_params`: abstract_ruleset_classifier.py 394-397, ripper.py 1190-1194. -/
def Est.setParams (e : Est) (kw : Kwargs) : Est := kw.foldl (fun e x => e.setattr x.1 x.2) e

/-- `_set_deprecated_fit_params`, called by both `fit` methods with their extra keywords:
abstract_ruleset_classifier.py 421-434. -/
def Est.fitKwargs (e : Est) (kw : Kwargs) : Est :=
  kw.foldl (fun e x => if x.1 ∈ validHyperparameters e.algo then e.setattr x.1 x.2 else e) e

end Witt
