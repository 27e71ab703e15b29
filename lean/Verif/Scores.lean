import Mathlib.Algebra.Order.Field.Rat
import Verif.Rules
/-
Scores, binomial coefficient, argmin and list replacement (wittgenstein/base_functions.py).
Arithmetic is exact: Python's `/` on counts is modelled by rational division.
-/
namespace Witt

/-- `sum(bools)`. -/
def countTrue (l : List Bool) : Nat := l.countP id

/-- base_functions.py 487-502: `score_accuracy`. -/
def scoreAccuracy (actuals predictions : List Bool) : Except PyErr (Option Rat) :=
  if actuals.length ≠ predictions.length then .error .valueError
  else
    let n := actuals.length
    if n = 0 then .ok none
    else
      let t := (predictions.zip actuals).filter (fun pa => pa.1 == pa.2)
      .ok (some ((t.length : Rat) / n))

/-- base_functions.py 535-548: `score_precision`. -/
def scorePrecision (actuals predictions : List Bool) : Except PyErr (Option Rat) :=
  if actuals.length ≠ predictions.length then .error .valueError
  else
    let total := countTrue predictions
    if total = 0 then .ok none
    else
      let tp := countTrue ((predictions.zip actuals).map (fun pa => pa.1 && pa.2))
      .ok (some ((tp : Rat) / total))

/-- base_functions.py 551-564: `score_recall`. -/
def scoreRecall (actuals predictions : List Bool) : Except PyErr (Option Rat) :=
  if actuals.length ≠ predictions.length then .error .valueError
  else
    let total := countTrue actuals
    if total = 0 then .ok none
    else
      let tp := countTrue ((predictions.zip actuals).map (fun pa => pa.1 && pa.2))
      .ok (some ((tp : Rat) / total))

/-- base_functions.py 581-588: `_f1`. -/
def f1 (p r : Option Rat) : Option Rat :=
  match p, r with
  | some p, some r => if p + r = 0 then none else some (2 * p * r / (p + r))
  | _, _ => none

/-- base_functions.py 567-578: `score_f1`. -/
def scoreF1 (actuals predictions : List Bool) : Except PyErr (Option Rat) :=
  if actuals.length ≠ predictions.length then .error .valueError
  else do
    let p ← scorePrecision actuals predictions
    let r ← scoreRecall actuals predictions
    return f1 p r

/-- base_functions.py 717-718: `reduce(op.mul, numbers, 1)`. -/
def pyProduct (l : List Int) : Int := l.foldl (· * ·) 1

/-- base_functions.py 714-722: `nCr`: `range(n, n - r, -1)` over `range(1, r + 1)`, floor division. -/
def nCr (n r : Int) : Int :=
  (pyProduct ((List.range r.toNat).map (fun (i : Nat) => n - (i : Int)))).fdiv
    (pyProduct ((List.range r.toNat).map (fun (i : Nat) => (i : Int) + 1)))

/-- The loop of base_functions.py 729-732: `best` is `(lowest_val, lowest_i)`, `i` the position. -/
def argminAux {α : Type} (lt : α → α → Bool) : α × Nat → Nat → List α → Nat
  | best, _, [] => best.2
  | best, i, v :: vs => argminAux lt (if lt v best.1 then (v, i) else best) (i + 1) vs

/-- base_functions.py 725-733: `argmin` (an empty list raises IndexError at `iterable[0]`). -/
def argmin {α : Type} (lt : α → α → Bool) : List α → Except PyErr Nat
  | [] => .error .indexError
  | v :: vs => .ok (argminAux lt (v, 0) 0 (v :: vs))

/-- base_functions.py 736-747: `i_replaced` (non-negative index, as everywhere it is called). -/
def iReplaced {α : Type} (l : List α) (i : Nat) (value : Option α) : List α :=
  match value with
  | some v => l.take i ++ [v] ++ l.drop (i + 1)
  | none => l.take i ++ l.drop (i + 1)

end Witt
