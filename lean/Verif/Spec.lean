import Verif.Rules
/-
Specification vocabulary: what the properties talk about, written without the model's algorithms.
A row MEETS a condition when its cell in that column equals the value (Python `==`); a rule FIRES on a
row when the row meets every condition; a ruleset fires when some rule does (disjunctive normal form).
-/
namespace Witt.Spec

/-- Python `==` between two cell values: same text, or same number; a missing value equals nothing. -/
def Same (a b : Val) : Prop :=
  (∃ s, a = .str s ∧ b = .str s) ∨ (∃ q t u, a = .num q t ∧ b = .num q u)

/-- The row's cell in the condition's column equals the condition's value. -/
def Meets (row : Row) (c : Cond) : Prop := Same (row.cell c.feature) c.val

/-- The row meets all conditions. -/
def FiresC (row : Row) (cs : List Cond) : Prop := ∀ c ∈ cs, Meets row c

/-- The row meets all conditions of the rule. -/
def Fires (row : Row) (r : Rule) : Prop := FiresC row r.conds

/-- Some rule of the list fires. -/
def FiresAny (row : Row) (rs : List Rule) : Prop := ∃ r ∈ rs, Fires row r

/-- Every column tested by the rules is a column of the frame. -/
def HasFeatures (df : Frame) (rs : List Rule) : Prop :=
  ∀ r ∈ rs, ∀ c ∈ r.conds, c.feature ∈ df.cols

/-- The conditions all test columns of the frame other than the class column. -/
def OverCols (df : Frame) (cf : Feat) (r : List Cond) : Prop :=
  ∀ c ∈ r, c.feature ∈ df.cols ∧ c.feature ≠ cf

/-- The example with label `l` satisfies all the conditions. -/
def Covered (df : Frame) (r : List Cond) (l : Label) : Prop :=
  ∃ row ∈ df.rows, row.label = l ∧ FiresC row r

/-- The condition tests a non-class column of the frame for a value that occurs in that column. -/
def TrainCond (df : Frame) (cf : Feat) (c : Cond) : Prop :=
  c.feature ∈ df.cols ∧ c.feature ≠ cf ∧ ∃ row ∈ df.rows, row.cell c.feature = c.val

/-- The column is a non-class column in which at least two different values occur. -/
def Varied (df : Frame) (cf : Feat) (f : Feat) : Prop :=
  f ∈ df.cols ∧ f ≠ cf ∧ ∃ row ∈ df.rows, ∃ row' ∈ df.rows,
    ¬ Same (row.cell f) (row'.cell f) ∧ ¬ (row.cell f = .nan ∧ row'.cell f = .nan)

/-- The row belongs to the positive class. -/
def Positive (cf : Feat) (pc : Val) (row : Row) : Prop := Same (row.cell cf) pc

/-- The label is that of a positive (negative) row. -/
def PosLabel (df : Frame) (cf : Feat) (pc : Val) (l : Label) : Prop :=
  ∃ row ∈ df.rows, row.label = l ∧ Positive cf pc row
def NegLabel (df : Frame) (cf : Feat) (pc : Val) (l : Label) : Prop :=
  ∃ row ∈ df.rows, row.label = l ∧ ¬ Positive cf pc row

open Classical in
/-- How many of the listed examples satisfy the conditions. -/
noncomputable def nCovered (df : Frame) (r : List Cond) (ls : List Label) : Nat :=
  ls.countP (fun l => decide (Covered df r l))

/-- Conditions that print alike mean the same. -/
def PrintsApart (cs : Cond → Prop) : Prop :=
  ∀ c d, cs c → cs d → c.text = d.text → ∀ row, Meets row c ↔ Meets row d

end Witt.Spec
