import Verif.Classifier
/-
`rule_stats` with `n_examples` (wittgenstein/abstract_ruleset_classifier.py): the statistics together with example rows.
-/
namespace Witt
variable [Arith]

/-- numpy's random number generators as `DataFrame.sample` uses them: `choose seed g k n` are the positions of a sample of `k` out
of `n` rows without replacement, drawn from `RandomState(seed)`, or from the global generator if `seed` is None. -/
structure PySample where
  G : Type
  choose : Option Int → G → Nat → Nat → List Nat × G

/-- What is assumed of sampling without replacement: as many different positions as asked for, all in range. -/
structure PySample.Lawful (S : PySample) : Prop where
  size : ∀ s g k n, k ≤ n → (S.choose s g k n).1.length = k
  distinct : ∀ s g k n, k ≤ n → (S.choose s g k n).1.Nodup
  range : ∀ s g k n, k ≤ n → ∀ i ∈ (S.choose s g k n).1, i < n

/-- A sample drawn with a seed does not depend on the past (used for reproducibility only). -/
def PySample.Seeded (S : PySample) : Prop := ∀ (s : Int) g g' k n, (S.choose (some s) g k n).1 = (S.choose (some s) g' k n).1

/-- abstract_ruleset_classifier.py 323-327: add the class column to the covered rows, by row label. A label that `X_df` repeats
makes `y_aligned.loc[covered.index]` longer than `covered`, and the assignment a ValueError. -/
def withLabels (df : Frame) (cf : Feat) (y : Option (List Val)) (covered : Frame) : Except PyErr Frame :=
  match y with
  | none => .ok covered
  | some ys =>
    if covered.index.any (fun l => decide (1 < df.index.count l)) then .error .valueError
    else .ok
      { cols := if covered.cols.contains cf then covered.cols else covered.cols ++ [cf],
        rows := covered.rows.map (fun r => { r with cell := fun f =>
          if f = cf then ((df.index.zip ys).lookup r.label).getD .nan else r.cell f }) }

/-- abstract_ruleset_classifier.py 329-337: all covered rows, or a sample of them. -/
def pickExamples (S : PySample) (n : Int) (seed : Option Int) (covered : Frame) (g : S.G) : Except PyErr (Frame × S.G) :=
  if n = -1 then .ok (covered, g)
  else if 0 < n then
    let (ps, g') := S.choose seed g (min n.toNat covered.rows.length) covered.rows.length
    .ok ({ covered with rows := ps.filterMap (fun i => covered.rows[i]?) }, g')
  else .error .valueError

/-- abstract_ruleset_classifier.py 301-337: the loop over the rules. -/
def examplesLoop (S : PySample) (df : Frame) (cf : Feat) (actuals : Option (List Bool)) (y : Option (List Val)) (n : Int)
    (seed : Option Int) : List (Rule × Nat) → S.G → Except PyErr (List (RuleStat × Frame) × S.G)
  | [], g => .ok ([], g)
  | (r, i) :: rest, g => do
    let st ← ruleStat df actuals i r
    let covered ← r.covers df
    let labelled ← withLabels df cf y covered
    let (ex, g) ← pickExamples S n seed labelled g
    let (t, g) ← examplesLoop S df cf actuals y n seed rest g
    return ((st, ex) :: t, g)

/-- abstract_ruleset_classifier.py 297-355: the table and the examples (a `y` of the wrong length is a ValueError, from
`pd.Series(y, index=X_df.index)`). -/
def examplesTable (S : PySample) (cf : Feat) (pc : Val) (y : Option (List Val)) (n : Int) (seed : Option Int) (g : S.G)
    (rs : Ruleset) (df : Frame) : Except PyErr (List RuleStat × List Frame × S.G) :=
  if y.any (fun ys => ys.length != df.rows.length) then .error .valueError
  else do
    let (t, g) ← examplesLoop S df cf (y.map (fun ys => ys.map (fun yi => yi.pyEq pc))) y n seed rs.rules.zipIdx g
    return (t.map Prod.fst, t.map Prod.snd, g)

/-- abstract_ruleset_classifier.py 267-355: `rule_stats(X, y, n_examples=n, random_state=seed)`; `g` is the state of numpy's global
generator. Simplification: the state of the generator after a failed call is not modelled. -/
def Clf.ruleStatsExamples (F : PyFloat) (S : PySample) (X : TFrame) (y : Option (List Val)) (n : Int) (names : Option (List Feat))
    (seed : Option Int) (g : S.G) : OnClf (List RuleStat × List Frame × S.G) := do
  let _ ← self Clf.ruleset
  ensureBinner F
  let df ← prepared F X names
  let pc ← self Clf.posClass
  let cf ← self Clf.classFeat
  let rs ← self Clf.ruleset
  pureCode (examplesTable S cf pc y n seed g rs df)

end Witt
