import Mathlib.Algebra.Order.Field.Rat
import Verif.Text
/-
Discretisation (wittgenstein/discretize.py).
-/
namespace Witt

/-- A float that may be infinite. -/
inductive Ext
  | ninf
  | fin (q : Rat)
  | pinf
  deriving DecidableEq, Repr

/-- Python's `str(float)` and `float(text)` (`parse`; `none`: ValueError) on finite floats. `Rep` are the
numbers that are floats. Simplification: `float("nan")` counts as unreadable. -/
structure PyFloat where
  Rep : Rat → Prop
  shown : Rat → PStr
  parse : PStr → Option Ext

/-- What Python guarantees: `float(str(x)) == x`; the text of a float has no space, `<` or `>`; and the
texts `inf`, `-inf` are read as the infinities. -/
structure PyFloat.Lawful (F : PyFloat) : Prop where
  round_trip : ∀ q, F.Rep q → F.parse (F.shown q) = some (.fin q)
  plain : ∀ q, F.Rep q → ' ' ∉ F.shown q ∧ '<' ∉ F.shown q ∧ '>' ∉ F.shown q
  pos_inf : F.parse p!"inf" = some .pinf
  neg_inf : F.parse p!"-inf" = some .ninf

/-- `str(x)` for a possibly infinite float. -/
def PyFloat.text (F : PyFloat) : Ext → PStr
  | .ninf => p!"-inf"
  | .fin q => F.shown q
  | .pinf => p!"inf"

/-- `pd.Interval(left, right)`, open on the left and closed on the right. -/
structure Interval where
  left : Ext
  right : Ext
  deriving DecidableEq, Repr

/-- `left < q`. -/
def Ext.below : Ext → Rat → Bool
  | .ninf, _ => true
  | .fin a, q => a < q
  | .pinf, _ => false

/-- `q <= right`. -/
def Ext.notBelow : Ext → Rat → Bool
  | .ninf, _ => false
  | .fin a, q => q ≤ a
  | .pinf, _ => true

/-- `q in interval`. -/
def Interval.has (iv : Interval) (q : Rat) : Bool := iv.left.below q && iv.right.notBelow q

/-- discretize.py 236-242: `_interval_to_str`. -/
def intervalText (F : PyFloat) (iv : Interval) : PStr :=
  if iv.left = .ninf then ['<'] ++ F.text iv.right
  else if iv.right = .pinf then ['>'] ++ F.text iv.left
  else F.text iv.left ++ p!" - " ++ F.text iv.right

/-- Positions (from `i`) of the dashes other than one at position 0, discretize.py 261-265. -/
def dashesFrom : Nat → PStr → List Nat
  | _, [] => []
  | i, c :: cs => if c = '-' ∧ i ≠ 0 then i :: dashesFrom (i + 1) cs else dashesFrom (i + 1) cs

/-- discretize.py 254-279: `find_floor_ceil` on a text: `None` if it is not a range. With two or more dashes
the names `floor` and `ceil` are read before they are assigned (UnboundLocalError). -/
def findFloorCeil (F : PyFloat) (value : PStr) : Except PyErr (Option (PStr × PStr)) :=
  match splitSub p!" - " value with
  | [a, b] => .ok (some (a, b))
  | _ =>
    match dashesFrom 0 value with
    | [] => .ok none
    | [i] =>
      let floor := value.take i
      let ceil := value.drop (i + 1)
      if (F.parse floor).isSome && (F.parse ceil).isSome then .ok (some (floor, ceil)) else .ok none
    | _ => .error .unboundLocal

/-- `float(text)`. -/
def PyFloat.read (F : PyFloat) (s : PStr) : Except PyErr Ext :=
  match F.parse s with
  | some e => .ok e
  | none => .error .valueError

/-- discretize.py 244-252 and 228-230: `_str_to_floor_ceil`, `_str_to_interval`. Unpacking `None` is a
TypeError. -/
def textInterval (F : PyFloat) (value : PStr) : Except PyErr Interval := do
  let (floor, ceil) ←
    (if value.contains '<' then .ok (p!"-inf", dropChar '<' value)
     else if value.contains '>' then .ok (dropChar '>' value, p!"inf")
     else do
       match ← findFloorCeil F value with
       | some fc => .ok fc
       | none => .error .typeError)
  return { left := ← F.read floor, right := ← F.read ceil }

/-- The dtype of a DataFrame column, as far as the code looks at it: numeric, text/category, or other. -/
inductive Kind
  | number | text | other
  deriving DecidableEq, Repr

/-- A DataFrame with the dtypes of its columns (after `infer_objects`). -/
structure TFrame extends Frame where
  kind : Feat → Kind

/-- A numeric column holds numbers and missing values only. -/
def TFrame.WF (df : TFrame) : Prop :=
  ∀ f ∈ df.cols, df.kind f = .number → ∀ row ∈ df.rows, ∀ s, row.cell f ≠ .str s

/-- A BinTransformer: `bins_` (`None` and `{}` are alike for everything modelled) and `thresholds_`
(`none`: the attribute is None). -/
structure Binner where
  bins : List (Feat × List PStr) := []
  thresholds : Option (List (Feat × List Rat)) := none
  deriving DecidableEq, Repr

/-- `pd.cut` of one cell and the mapping back to labels (discretize.py 192-195): the label of the interval
the number lies in, missing if there is none or the cell is missing. -/
def cutCell (ivs : List (Interval × PStr)) : Val → Val
  | .num q _ =>
    match ivs.find? (fun p => p.1.has q) with
    | some p => .str p.2
    | none => .nan
  | _ => .nan

/-- `np.digitize(x, bins=thresholds)` for increasing thresholds: how many thresholds are `<= x`; a missing
value sorts after all thresholds. -/
def digitize (ts : List Rat) : Val → Nat
  | .num q _ => ts.countP (fun t => t ≤ q)
  | _ => ts.length

/-- discretize.py 185-189: the label of one cell, numpy engine. -/
def digitizeCell (ts : List Rat) (labels : List PStr) (v : Val) : Val :=
  match labels[min (max (digitize ts v) 1) labels.length - 1]? with
  | some s => .str s
  | none => .nan

/-- discretize.py 180-195: `_transform_feat`: how one column's cells are mapped. With `thresholds_` None the
test `feat in self.thresholds_` is a TypeError. Simplification: overlapping intervals, which `pd.cut`
rejects, are not rejected here (fitted bins never overlap). -/
def featTransform (F : PyFloat) (b : Binner) (f : Feat) (labels : List PStr) :
    Except PyErr (Val → Val) :=
  match b.thresholds with
  | none => .error .typeError
  | some tss =>
    match tss.lookup f with
    | some ts => .ok (digitizeCell ts labels)
    | none => do
      let ivs ← labels.mapM (textInterval F)
      return cutCell (ivs.zip labels)

/-- Apply a map to one column, which then holds text. -/
def TFrame.mapCol (df : TFrame) (f : Feat) (g : Val → Val) : TFrame :=
  { cols := df.cols,
    rows := df.rows.map (fun row => { row with cell := fun f' => if f' = f then g (row.cell f) else row.cell f' }),
    kind := fun f' => if f' = f then .text else df.kind f' }

/-- The loop of discretize.py 200-204 over the fitted columns; `done` are the columns already transformed. -/
def transformLoop (F : PyFloat) (b : Binner) (done : List Feat) :
    List (Feat × List PStr) → TFrame → Except PyErr TFrame
  | [], df => .ok df
  | (f, labels) :: rest, df =>
    if df.cols.contains f && !done.contains f then do
      transformLoop F b done rest (df.mapCol f (← featTransform F b f labels))
    else transformLoop F b done rest df

/-- The text or category columns among the fitted ones, discretize.py 325-330. -/
def transformedFeats (b : Binner) (df : TFrame) : List Feat :=
  (b.bins.map Prod.fst).filter (fun f => df.cols.contains f && df.kind f == .text)

/-- discretize.py 322-338: `_find_transformed`: fitted columns that hold text; a value that is not one of
the labels is a ValueError. -/
def findTransformed (b : Binner) (df : TFrame) : Except PyErr (List Feat) :=
  if b.bins.any (fun p => df.cols.contains p.1 && df.kind p.1 == .text &&
      df.rows.any (fun row => !(p.2.any (fun l => (row.cell p.1).pyEq (.str l))))) then .error .valueError
  else .ok (transformedFeats b df)

/-- discretize.py 177-204: `transform`. -/
def Binner.transform (F : PyFloat) (b : Binner) (df : TFrame) : Except PyErr TFrame := do
  transformLoop F b (← findTransformed b df) b.bins df

/-- The consecutive pairs of a list of break points, discretize.py 165-174. -/
def pairsOf : List Rat → List (Rat × Rat)
  | a :: b :: rest => (a, b) :: pairsOf (b :: rest)
  | _ => []

/-- discretize.py 81-82: the first interval is extended to minus infinity, the last to infinity. (With no
interval at all the code raises IndexError; a column with data always has one.) -/
def extendEnds (l : List (Rat × Rat)) : List Interval :=
  let ivs : List Interval := l.map (fun p => { left := .fin p.1, right := .fin p.2 })
  let ivs := match ivs with
    | [] => []
    | iv :: rest => { iv with left := .ninf } :: rest
  match ivs.getLast? with
  | none => []
  | some iv => ivs.dropLast ++ [{ iv with right := .pinf }]

/-- What pandas computes in `_pandas_cut` (discretize.py 141-163) for the values of a column: the rounded
break points of `pd.qcut` (or `pd.cut`), and which of the bins between them have rows; bins without rows
are dropped. -/
structure PandasCut where
  breaks : List Val → Nat → List Rat
  occupied : List Val → Nat → Nat → Bool

/-- What is assumed of pandas: break points increase and are floats. -/
structure PandasCut.Lawful (F : PyFloat) (P : PandasCut) : Prop where
  increasing : ∀ vs n, (P.breaks vs n).Pairwise (· < ·)
  rep : ∀ vs n, ∀ q ∈ P.breaks vs n, F.Rep q

/-- The bins with rows, in order. -/
def keepOccupied (occ : Nat → Bool) (l : List (Rat × Rat)) : List (Rat × Rat) :=
  (l.zipIdx.filter (fun p => occ p.2)).map Prod.fst

/-- discretize.py 64-89 with the pandas engine: the labels of one column. -/
def fitFeat (F : PyFloat) (P : PandasCut) (n : Nat) (vs : List Val) : List PStr :=
  (extendEnds (keepOccupied (P.occupied vs n) (pairsOf (P.breaks vs n)))).map (intervalText F)

/-- discretize.py 206-223: `find_continuous_feats`: numeric columns with more than `n_discretize_bins`
different values (none if that is None or 0), other than the ignored ones. -/
def continuousFeats (n : Option Nat) (df : TFrame) (ignore : List Feat) : List Feat :=
  match n with
  | none => []
  | some 0 => []
  | some n => df.cols.filter (fun f => df.kind f == .number && n < (df.unique f).length && !ignore.contains f)

/-- discretize.py 55-107: `fit` with the pandas engine (the one the classifiers use); columns that get fewer
than two bins are left out. -/
def Binner.fit (F : PyFloat) (P : PandasCut) (n : Option Nat) (df : TFrame) (ignore : List Feat) : Binner :=
  { bins := (continuousFeats n df ignore).filterMap (fun f =>
      let labels := fitFeat F P (n.getD 0) (df.rows.map (·.cell f))
      if labels.length ≥ 2 then some (f, labels) else none),
    thresholds := some [] }

/-- discretize.py 51-53: `fit_transform` (the transform happens on the same frame). -/
def Binner.fitTransform (F : PyFloat) (P : PandasCut) (n : Option Nat) (df : TFrame) (ignore : List Feat) :
    Except PyErr (Binner × TFrame) := do
  let b := Binner.fit F P n df ignore
  return (b, ← b.transform F df)

/-- discretize.py 64-89 with the numpy engine, from the (rounded, increasing) thresholds of `_numpy_cut`
(discretize.py 109-139, 165-174): labels and thresholds of one column. -/
def fitFeatNumpy (F : PyFloat) (ts : List Rat) : List PStr × List Rat :=
  ((extendEnds (pairsOf ts)).map (intervalText F), ts)

end Witt
