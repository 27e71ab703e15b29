import Verif.Text
/-
The editing API of Ruleset (base.py 181-210), which the classifier methods of
abstract_ruleset_classifier.py 369-388 forward to.
-/
namespace Witt

/-- What a caller may pass as a condition to `ascond` (base.py 498-513). -/
inductive CondArg
  | cond (c : Cond)
  | text (s : PStr)
  | pair (a b : PStr)
  deriving DecidableEq, Repr

/-- base.py 498-513: `ascond`. -/
def asCond : CondArg → Except PyErr Cond
  | .cond c => .ok c
  | .text s => condFromStr s
  | .pair a b => .ok { feature := .name a, val := .str b }

/-- What a caller may pass as a rule to `asrule` (base.py 516-530). -/
inductive RuleArg
  | rule (r : Rule)
  | text (s : PStr)
  | nothing
  | conds (cs : List CondArg)
  deriving DecidableEq, Repr

/-- base.py 516-530: `asrule`; `None` and `[]` give the empty rule, an unusable iterable TypeError. -/
def asRule : RuleArg → Except PyErr Rule
  | .rule r => .ok r
  | .text s => ruleFromStr s
  | .nothing => .ok { conds := [] }
  | .conds cs =>
    if cs.isEmpty then .ok { conds := [] }
    else match cs.mapM asCond with
      | .ok cs => .ok { conds := cs }
      | .error _ => .error .typeError

/-- A method call on a ruleset object: it may mutate the object and may raise; on an exception the
object keeps whatever mutation was already done (`EStateM` keeps the state of a raise). -/
abbrev OnRuleset := EStateM PyErr Ruleset

/-- Run a helper that does not touch the object. -/
def lift {α : Type} : Except PyErr α → OnRuleset α
  | .ok a => pure a
  | .error e => throw e

/-- check.py 87-91: `_check_valid_index`. -/
def checkIndex (i : Int) : OnRuleset Unit := do
  let rs ← get
  if i < 0 ∨ i ≥ rs.rules.length then throw .indexError

/-- check.py 93-99: `_check_rule_exists`. -/
def checkRule (r : Rule) : OnRuleset Unit := do
  let rs ← get
  if rs.rules.any (fun s => s.pyEq r) then pure () else throw .valueError

/-- `self.rules.index(rule)`: the position of the first equal rule (ValueError if absent). -/
def ruleIndex (r : Rule) : OnRuleset Int := do
  let rs ← get
  match rs.rules.findIdx? (fun s => s.pyEq r) with
  | some i => pure (i : Int)
  | none => throw .valueError

/-- base.py 181-183: `add`. -/
def rsAdd (r : RuleArg) : OnRuleset Unit := do
  let r ← lift (asRule r)
  modify fun rs => { rs with rules := rs.rules ++ [r] }

/-- base.py 185-187: `remove(index)`. -/
def rsRemove (i : Int) : OnRuleset Unit := do
  checkIndex i
  modify fun rs => { rs with rules := rs.rules.eraseIdx i.toNat }

/-- base.py 189-192: `remove_rule`. -/
def rsRemoveRule (old : RuleArg) : OnRuleset Unit := do
  checkRule (← lift (asRule old))
  let i ← ruleIndex (← lift (asRule old))
  rsRemove i

/-- base.py 194-196: `insert(index, rule)`: the index is checked first, then the rule is parsed. -/
def rsInsert (i : Int) (new : RuleArg) : OnRuleset Unit := do
  checkIndex i
  let r ← lift (asRule new)
  modify fun rs => { rs with rules := rs.rules.insertIdx i.toNat r }

/-- base.py 198-201: `insert_rule`. -/
def rsInsertRule (before new : RuleArg) : OnRuleset Unit := do
  checkRule (← lift (asRule before))
  let i ← ruleIndex (← lift (asRule before))
  let r ← lift (asRule new)
  rsInsert i (.rule r)

/-- base.py 203-205: `replace(index, rule)`. -/
def rsReplace (i : Int) (new : RuleArg) : OnRuleset Unit := do
  checkIndex i
  let r ← lift (asRule new)
  modify fun rs => { rs with rules := rs.rules.set i.toNat r }

/-- base.py 207-210: `replace_rule`. -/
def rsReplaceRule (old new : RuleArg) : OnRuleset Unit := do
  checkRule (← lift (asRule old))
  let i ← ruleIndex (← lift (asRule old))
  let r ← lift (asRule new)
  rsReplace i (.rule r)

/-- One call of the editing API (abstract_ruleset_classifier.py 369-388). -/
inductive EditOp
  | add (r : RuleArg)
  | replaceAt (i : Int) (r : RuleArg)
  | replace (old new : RuleArg)
  | removeAt (i : Int)
  | remove (old : RuleArg)
  | insertAt (i : Int) (r : RuleArg)
  | insert (before new : RuleArg)
  deriving DecidableEq, Repr

/-- abstract_ruleset_classifier.py 369-388: the ruleset method each classifier method calls. -/
def EditOp.call : EditOp → OnRuleset Unit
  | .add r => rsAdd r
  | .replaceAt i r => rsReplace i r
  | .replace o n => rsReplaceRule o n
  | .removeAt i => rsRemove i
  | .remove o => rsRemoveRule o
  | .insertAt i r => rsInsert i r
  | .insert b n => rsInsertRule b n

/-- A call and what the caller observes: the object afterwards and the exception, if any. -/
def EditOp.run (rs : Ruleset) (op : EditOp) : Ruleset × Option PyErr :=
  match op.call rs with
  | .ok _ rs' => (rs', none)
  | .error e rs' => (rs', some e)

/-- A history of calls, the caller catching every exception. -/
def runEdits (rs : Ruleset) : List EditOp → Ruleset × List (Option PyErr)
  | [] => (rs, [])
  | op :: ops =>
    let r := op.run rs
    let rest := runEdits r.1 ops
    (rest.1, r.2 :: rest.2)

end Witt
