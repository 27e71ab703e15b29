import Verif.Rules
/-
Printing and parsing of rules (wittgenstein/base.py).
-/
namespace Witt

/-- utils.py 8-12: `drop_chars(s, "[]")`. -/
def dropBrackets (s : PStr) : PStr := dropChar ']' (dropChar '[' s)

/-- base.py 338-348: `str(rule)`: the list of condition texts as Python prints it, with `,` replaced by
`^`, then quotes and spaces removed. -/
def condsText (cs : List Cond) : PStr :=
  if cs.isEmpty then p!"[True]"
  else dropChar ' ' (dropChar '\'' (replChar ',' ['^'] (pyReprList (cs.map Cond.text))))

/-- base.py 338-348. -/
def Rule.text (r : Rule) : PStr := condsText r.conds

/-- base.py 30-31: `str(ruleset)`. -/
def Ruleset.text (rs : Ruleset) : PStr :=
  ['['] ++ pyJoin p!" V " (rs.rules.map Rule.text) ++ [']']

/-- base.py 458-465: `cond_fromstr`. -/
def condFromStr (s : PStr) : Except PyErr Cond :=
  match (splitChar '=' s).map pyStrip with
  | [a, b] => .ok { feature := .name a, val := .str b }
  | _ => .error .valueError

/-- base.py 468-479: `rule_fromstr` (`not str` tests the builtin type, so it is always False; any
exception of a condition becomes ValueError). -/
def ruleFromStr (s : PStr) : Except PyErr Rule :=
  if s = p!"True" ∨ s = p!"[True]" ∨ s = p!"[]" then .ok { conds := [] }
  else match (splitChar '^' (dropBrackets s)).mapM condFromStr with
    | .ok cs => .ok { conds := cs }
    | .error _ => .error .valueError

/-- base.py 482-495: `ruleset_fromstr`. -/
def rulesetFromStr (s : PStr) : Except PyErr Ruleset :=
  if s = [] ∨ s = p!"[]" ∨ s = p!"[[]]" then .ok { rules := [] }
  else match (splitChar 'V' s).mapM ruleFromStr with
    | .ok rs => .ok { rules := rs }
    | .error _ => .error .valueError

end Witt
