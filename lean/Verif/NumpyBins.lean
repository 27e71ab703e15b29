import Verif.Discretize
/-
Discretisation with the numpy engine (wittgenstein/discretize.py, `BinTransformer(engine="numpy")`).
-/
namespace Witt

/-- The numbers of a column (`data.dropna()`), as used by `np.quantile`, `data.min()`, `data.max()`. -/
def numbersOf (vs : List Val) : List Rat :=
  vs.filterMap (fun v => match v with
    | .num q _ => some q
    | _ => none)

/-- `data.min()` (0 stands for NaN when there is no number; no such column is fitted). -/
def lowestOf (qs : List Rat) : Rat := qs.min?.getD 0

/-- `data.max()`, likewise. -/
def highestOf (qs : List Rat) : Rat := qs.max?.getD 0

/-- The numpy functions of `_numpy_cut` (discretize.py 109-139): `quantile qs n k` is
`np.quantile(qs, np.linspace(0, 1, n + 1))[k]`; `spaced lo hi n k` is `np.linspace(lo, hi, n + 1)[k]`;
`round x` is `np.round(x * 10 ** names_precision) / 10 ** names_precision`. -/
structure NumpyCalc where
  quantile : List Rat → Nat → Nat → Rat
  spaced : Rat → Rat → Nat → Nat → Rat
  round : Rat → Rat

/-- What is assumed of numpy: quantiles of data go up from its least to its greatest number, evenly spaced
points go up from the first to the last, and rounding keeps the order and gives a float. -/
structure NumpyCalc.Lawful (F : PyFloat) (N : NumpyCalc) : Prop where
  quantile_mono : ∀ qs n j k, qs ≠ [] → j ≤ k → k ≤ n → N.quantile qs n j ≤ N.quantile qs n k
  quantile_first : ∀ qs n, qs ≠ [] → 0 < n → N.quantile qs n 0 = lowestOf qs
  quantile_last : ∀ qs n, qs ≠ [] → 0 < n → N.quantile qs n n = highestOf qs
  spaced_mono : ∀ lo hi n j k, lo ≤ hi → j ≤ k → k ≤ n → N.spaced lo hi n j ≤ N.spaced lo hi n k
  spaced_first : ∀ lo hi n, lo ≤ hi → 0 < n → N.spaced lo hi n 0 = lo
  spaced_last : ∀ lo hi n, lo ≤ hi → 0 < n → N.spaced lo hi n n = hi
  round_mono : ∀ x y, x ≤ y → N.round x ≤ N.round y
  round_rep : ∀ x, F.Rep (N.round x)

/-- Put a number in its place in an increasing list, if it is not there. -/
def insertUnique (x : Rat) : List Rat → List Rat
  | [] => [x]
  | y :: ys => if x < y then x :: y :: ys else if x = y then y :: ys else y :: insertUnique x ys

/-- `np.unique`: the different numbers of a list, sorted. -/
def npUnique (l : List Rat) : List Rat := l.foldr insertUnique []

/-- discretize.py 111-116: the rounded quantiles. -/
def roundedQuantiles (N : NumpyCalc) (n : Nat) (qs : List Rat) : List Rat :=
  (List.range (n + 1)).map (fun k => N.round (N.quantile qs n k))

/-- discretize.py 128-132: the rounded evenly spaced points. -/
def roundedSpaced (N : NumpyCalc) (n : Nat) (lo hi : Rat) : List Rat :=
  (List.range (n + 1)).map (fun k => N.round (N.spaced lo hi n k))

/-- discretize.py 109-139: the thresholds of `_numpy_cut`; `none` when it returns `['no variation']` instead
of intervals. -/
def numpyCut (N : NumpyCalc) (n : Nat) (vs : List Val) : Option (List Rat) :=
  let qs := numbersOf vs
  let ts := roundedQuantiles N n qs
  let us := npUnique ts
  if us.length < 2 then
    if lowestOf qs = highestOf qs then none else some [lowestOf qs, highestOf qs]
  else if us.length < ts.length then some (roundedSpaced N n (lowestOf qs) (highestOf qs))
  else some us

/-- discretize.py 64-89 with the numpy engine: labels and thresholds of one column. For the text
`'no variation'` the attribute `.right` does not exist (AttributeError, line 81). -/
def fitColNumpy (F : PyFloat) (N : NumpyCalc) (n : Nat) (vs : List Val) :
    Except PyErr (List PStr × List Rat) :=
  match numpyCut N n vs with
  | none => .error .attributeError
  | some ts => .ok (fitFeatNumpy F ts)

/-- The loop of discretize.py 101-106: columns with fewer than two labels are left out. -/
def fitLoopNumpy (F : PyFloat) (N : NumpyCalc) (n : Nat) (df : TFrame) :
    List Feat → Except PyErr (List (Feat × List PStr × List Rat))
  | [] => .ok []
  | f :: fs => do
    let (labels, ts) ← fitColNumpy F N n (df.rows.map (·.cell f))
    let rest ← fitLoopNumpy F N n df fs
    return if labels.length ≥ 2 then (f, labels, ts) :: rest else rest

/-- discretize.py 55-107: `fit` with the numpy engine. -/
def Binner.fitNumpy (F : PyFloat) (N : NumpyCalc) (n : Option Nat) (df : TFrame) (ignore : List Feat) :
    Except PyErr Binner := do
  let fitted ← fitLoopNumpy F N (n.getD 0) df (continuousFeats n df ignore)
  return { bins := fitted.map (fun p => (p.1, p.2.1)), thresholds := some (fitted.map (fun p => (p.1, p.2.2))) }

/-- discretize.py 51-53: `fit_transform`. -/
def Binner.fitTransformNumpy (F : PyFloat) (N : NumpyCalc) (n : Option Nat) (df : TFrame) (ignore : List Feat) :
    Except PyErr (Binner × TFrame) := do
  let b ← Binner.fitNumpy F N n df ignore
  return (b, ← b.transform F df)

end Witt
