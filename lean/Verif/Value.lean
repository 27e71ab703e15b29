import Verif.Py
/-
Data: cell values, feature names, rows and DataFrames.
-/
namespace Witt

/-- A Python value as it occurs in a DataFrame cell or in a condition: text; a number (`int`, `bool`,
`float` or their numpy versions: its exact value and its `str()` text); or missing (NaN/None/NaT). -/
inductive Val
  | str (s : PStr)
  | num (q : Rat) (shown : PStr)
  | nan
  deriving DecidableEq, Repr

/-- Python/pandas `==` on cell values: text with text, numbers by value (`1 == True == 1.0`), and a
missing value equals nothing, itself included. Simplification: `None == None` is also `False`
(as it is elementwise in pandas). -/
def Val.pyEq : Val → Val → Bool
  | .str a, .str b => a == b
  | .num a _, .num b _ => a == b
  | _, _ => false

/-- `str(v)`, as used by the f-string in `Cond.__str__`. -/
def Val.text : Val → PStr
  | .str s => s
  | .num _ t => t
  | .nan => p!"nan"

/-- A column label: a name, or an integer position (data given as an array). -/
inductive Feat
  | name (s : PStr)
  | idx (n : Int)
  deriving DecidableEq, Repr

/-- Decimal text of an integer. -/
def intText : Int → PStr
  | .ofNat n => Nat.toDigits 10 n
  | .negSucc n => '-' :: Nat.toDigits 10 (n + 1)

/-- `str(feature)`. -/
def Feat.text : Feat → PStr
  | .name s => s
  | .idx n => intText n

/-- An index label of a DataFrame. -/
abbrev Label := Int

/-- One row: its index label and its cells (meaningful on the frame's columns). -/
structure Row where
  label : Label
  cell : Feat → Val

/-- A pandas DataFrame: column labels and rows in order. Labels need not be distinct. -/
structure Frame where
  cols : List Feat
  rows : List Row

/-- `df.index.tolist()`. -/
def Frame.index (df : Frame) : List Label := df.rows.map Row.label

/-- The index of `df` has no repeated label (`df.index.is_unique`). -/
def Frame.UniqueIndex (df : Frame) : Prop := df.index.Nodup

/-- `df[mask]`: the rows on which the mask is true, in order. -/
def Frame.keep (df : Frame) (f : Row → Bool) : Frame := { df with rows := df.rows.filter f }

/-- `df.drop(labels, axis=0)`: drop every row whose label is listed. -/
def Frame.dropLabels (df : Frame) (ls : List Label) : Frame :=
  df.keep (fun r => !ls.contains r.label)

/-- `df.drop(feature, axis=1)`. -/
def Frame.dropCol (df : Frame) (f : Feat) : Frame := { df with cols := df.cols.filter (· ≠ f) }

/-- `df.loc[labels, :]` for labels that are all present: the rows of each label, in label order. -/
def Frame.loc (df : Frame) (ls : List Label) : Frame :=
  { df with rows := ls.flatMap (fun l => df.rows.filter (fun r => r.label == l)) }

/-- Order-preserving de-duplication under Python `==`, as `Series.unique()` does; of several missing
values the first is kept (as pandas does). -/
def pyUniqueAux : List Val → List Val → List Val
  | _, [] => []
  | seen, v :: vs =>
    if seen.any (fun w => w.pyEq v || (w == .nan && v == .nan)) then pyUniqueAux seen vs
    else v :: pyUniqueAux (v :: seen) vs

/-- `df[feat].unique()`. -/
def Frame.unique (df : Frame) (f : Feat) : List Val := pyUniqueAux [] (df.rows.map (·.cell f))

/-- `pd.DataFrame(data, columns=cols, index=labels)`: a frame from literal data (one list of cells per row). -/
def Frame.ofTable (cols : List Feat) (rows : List (Label × List Val)) : Frame :=
  { cols := cols,
    rows := rows.map fun r =>
      { label := r.1, cell := fun f => ((cols.zip r.2).lookup f).getD .nan } }

/-- `set(iterable_of_labels)`: duplicate-free. -/
def labelSet (l : List Label) : List Label := l.eraseDups

end Witt
