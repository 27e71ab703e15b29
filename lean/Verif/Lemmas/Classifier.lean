import Verif.Classifier
import Verif.Lemmas.Fit
import Verif.Lemmas.RipperFit
import Verif.Lemmas.Transform
/-
How the classifier methods run, as equations.
-/
namespace Witt

/-- The result of code that does not touch the object. -/
def outcome {α : Type} (x : Except PyErr α) (c : Clf) : EStateM.Result PyErr Clf α :=
  match x with
  | .ok a => .ok a c
  | .error e => .error e c

@[simp] theorem pureCode_run {α : Type} (x : Except PyErr α) (c : Clf) : pureCode x c = outcome x c := by
  cases x <;> rfl

@[simp] theorem outcome_ok {α : Type} (a : α) (c : Clf) : outcome (.ok a) c = .ok a c := rfl
@[simp] theorem outcome_error {α : Type} (e : PyErr) (c : Clf) : outcome (.error e : Except PyErr α) c = .error e c := rfl

theorem bind_run {α β : Type} (m : OnClf α) (f : α → OnClf β) (c : Clf) :
    (m >>= f) c = match m c with
      | .ok a c' => f a c'
      | .error e c' => .error e c' := by
  show EStateM.bind m f c = _
  unfold EStateM.bind
  cases m c <;> rfl

theorem bind_ok {α β : Type} {m : OnClf α} {f : α → OnClf β} {c c' : Clf} {a : α} (h : m c = .ok a c') :
    (m >>= f) c = f a c' := by rw [bind_run, h]

theorem bind_error {α β : Type} {m : OnClf α} {f : α → OnClf β} {c c' : Clf} {e : PyErr} (h : m c = .error e c') :
    (m >>= f) c = .error e c' := by rw [bind_run, h]

/-- Code that does not touch the object, followed by something. -/
theorem bind_pureCode {α β : Type} (x : Except PyErr α) (f : α → OnClf β) (c : Clf) :
    (pureCode x >>= f) c = match x with
      | .ok a => f a c
      | .error e => .error e c := by
  cases x <;> rfl

@[simp] theorem pure_run {α : Type} (a : α) (c : Clf) : (pure a : OnClf α) c = .ok a c := rfl
@[simp] theorem throw_run {α : Type} (e : PyErr) (c : Clf) : (throw e : OnClf α) c = .error e c := rfl
@[simp] theorem modify_run (f : Clf → Clf) (c : Clf) : (modify f : OnClf PUnit) c = .ok ⟨⟩ (f c) := rfl
@[simp] theorem get_run (c : Clf) : (EStateM.get : OnClf Clf) c = .ok c c := rfl

@[simp] theorem self_run {α : Type} (get : Clf → Option α) (c : Clf) : self get c = outcome (attr (get c)) c := by
  unfold self
  rw [bind_ok (get_run c), pureCode_run]

/-- Answering a query from the current attributes. -/
def answer {α : Type} (F : PyFloat) (act : Ruleset → Frame → Except PyErr α) (X : TFrame)
    (names : Option (List Feat)) (c : Clf) : Except PyErr α := do
  let cf ← attr c.classFeat
  let _ ← attr c.posClass
  let b ← attr c.binner
  let sel ← attr c.selected
  let _ ← attr c.trainFeats
  let df ← preprocessPrediction F X cf b names sel
  let rs ← attr c.ruleset
  act rs df.toFrame

theorem prepared_run (F : PyFloat) (X : TFrame) (names : Option (List Feat)) (c : Clf) :
    prepared F X names c = outcome (do
      let cf ← attr c.classFeat
      let _ ← attr c.posClass
      let b ← attr c.binner
      let sel ← attr c.selected
      let _ ← attr c.trainFeats
      return (← preprocessPrediction F X cf b names sel).toFrame) c := by
  unfold prepared
  cases h1 : attr c.classFeat with
  | error e => rw [bind_error (e := e) (c' := c) (by simp [h1])]; rfl
  | ok cf =>
    rw [bind_ok (a := cf) (c' := c) (by simp [h1])]
    cases h2 : attr c.posClass with
    | error e => rw [bind_error (e := e) (c' := c) (by simp [h2])]; rfl
    | ok pc =>
      rw [bind_ok (a := pc) (c' := c) (by simp [h2])]
      cases h3 : attr c.binner with
      | error e => rw [bind_error (e := e) (c' := c) (by simp [h3])]; rfl
      | ok b =>
        rw [bind_ok (a := b) (c' := c) (by simp [h3])]
        cases h4 : attr c.selected with
        | error e => rw [bind_error (e := e) (c' := c) (by simp [h4])]; rfl
        | ok sel =>
          rw [bind_ok (a := sel) (c' := c) (by simp [h4])]
          cases h5 : attr c.trainFeats with
          | error e => rw [bind_error (e := e) (c' := c) (by simp [h5])]; rfl
          | ok tf =>
            rw [bind_ok (a := tf) (c' := c) (by simp [h5])]
            cases h6 : preprocessPrediction F X cf b names sel with
            | error e => rw [bind_error (e := e) (c' := c) (by rw [pureCode_run]; rfl)]; simp only [ok_bind, h6]; rfl
            | ok df => rw [bind_ok (a := df) (c' := c) (by rw [pureCode_run]; rfl)]; simp only [ok_bind, h6]; rfl

/-- Preparation followed by an action on the rules. -/
theorem answer_run {α : Type} (F : PyFloat) (act : Ruleset → Frame → Except PyErr α) (X : TFrame)
    (names : Option (List Feat)) (c : Clf) :
    (prepared F X names >>= fun df => self Clf.ruleset >>= fun rs => pureCode (act rs df)) c
      = outcome (answer F act X names c) c := by
  rw [bind_run, prepared_run]
  unfold answer
  cases h1 : attr c.classFeat with
  | error e => simp [error_bind]
  | ok cf =>
    cases h2 : attr c.posClass with
    | error e => simp [error_bind]
    | ok pc =>
      cases h3 : attr c.binner with
      | error e => simp [error_bind]
      | ok b =>
        cases h4 : attr c.selected with
        | error e => simp [error_bind]
        | ok sel =>
          cases h5 : attr c.trainFeats with
          | error e => simp [error_bind]
          | ok tf =>
            simp only [ok_bind]
            cases h6 : preprocessPrediction F X cf b names sel with
            | error e => simp [error_bind]
            | ok df =>
              simp only [ok_bind, pure_eq_ok, outcome_ok]
              rw [bind_run, self_run]
              cases h7 : attr c.ruleset with
              | error e => simp [error_bind]
              | ok rs => simp

/-- The object with an unfitted BinTransformer. -/
def Clf.withEmptyBinner (c : Clf) : Clf := { c with binner := some {} }

theorem ensureBinner_some {F : PyFloat} {c : Clf} {b : Binner} (h : c.binner = some b) :
    ensureBinner F c = .ok () c := by
  unfold ensureBinner
  rw [bind_ok (get_run c)]
  simp only [h]
  rfl

theorem ensureBinner_none {F : PyFloat} {c : Clf} {rs : Ruleset} (h : c.binner = none) (hr : c.ruleset = some rs) :
    ensureBinner F c = outcome (constructFromRuleset F rs) c.withEmptyBinner := by
  unfold ensureBinner
  rw [bind_ok (get_run c)]
  simp only [h]
  rw [bind_ok (modify_run _ _), bind_run, self_run]
  simp only [hr, attr, outcome_ok, pureCode_run, Clf.withEmptyBinner]

/-- The shape of `predict`, `predict(give_reasons=True)` and the like. -/
def query {α : Type} (F : PyFloat) (act : Ruleset → Frame → Except PyErr α) (X : TFrame)
    (names : Option (List Feat)) : OnClf α := do
  let _ ← self Clf.ruleset
  ensureBinner F
  let df ← prepared F X names
  pureCode (act (← self Clf.ruleset) df)

theorem predict_eq_query (F : PyFloat) (X : TFrame) (names : Option (List Feat)) :
    Clf.predict F X names = query F (fun rs df => rs.predict df) X names := rfl

theorem predictReasons_eq_query (F : PyFloat) (X : TFrame) (names : Option (List Feat)) :
    Clf.predictReasons F X names = query F (fun rs df => rs.predictReasons df) X names := rfl

theorem query_unfit {α : Type} {F : PyFloat} {act : Ruleset → Frame → Except PyErr α} {X : TFrame}
    {names : Option (List Feat)} {c : Clf} (h : c.ruleset = none) :
    query F act X names c = .error .attributeError c := by
  unfold query
  rw [bind_error (e := .attributeError) (c' := c) (by rw [self_run]; simp [h, attr])]

theorem query_some {α : Type} {F : PyFloat} {act : Ruleset → Frame → Except PyErr α} {X : TFrame}
    {names : Option (List Feat)} {c : Clf} {rs : Ruleset} {b : Binner} (hr : c.ruleset = some rs)
    (hb : c.binner = some b) : query F act X names c = outcome (answer F act X names c) c := by
  unfold query
  rw [bind_ok (a := rs) (c' := c) (by rw [self_run]; simp [hr, attr]), bind_ok (ensureBinner_some hb)]
  exact answer_run F act X names c

theorem query_none {α : Type} {F : PyFloat} {act : Ruleset → Frame → Except PyErr α} {X : TFrame}
    {names : Option (List Feat)} {c : Clf} {rs : Ruleset} (hr : c.ruleset = some rs) (hb : c.binner = none) :
    query F act X names c = match constructFromRuleset F rs with
      | .error e => .error e c.withEmptyBinner
      | .ok () => outcome (answer F act X names c.withEmptyBinner) c.withEmptyBinner := by
  unfold query
  rw [bind_ok (a := rs) (c' := c) (by rw [self_run]; simp [hr, attr])]
  cases h : constructFromRuleset F rs with
  | error e => rw [bind_error (e := e) (c' := c.withEmptyBinner) (by rw [ensureBinner_none hb hr, h]; rfl)]
  | ok u =>
    rw [bind_ok (a := ()) (c' := c.withEmptyBinner) (by rw [ensureBinner_none hb hr, h]; rfl)]
    exact answer_run F act X names c.withEmptyBinner

/-- Prepared data as a function of the object. -/
def prepOf (F : PyFloat) (X : TFrame) (names : Option (List Feat)) (c : Clf) : Except PyErr Frame := do
  let cf ← attr c.classFeat
  let _ ← attr c.posClass
  let b ← attr c.binner
  let sel ← attr c.selected
  let _ ← attr c.trainFeats
  return (← preprocessPrediction F X cf b names sel).toFrame

/-- The object after `predict_proba` has prepared its data. -/
def Clf.asked (c : Clf) : Clf := { c with classes := c.posClass.map .named }

theorem prepOf_posClass {F : PyFloat} {X : TFrame} {names : Option (List Feat)} {c : Clf} {df : Frame}
    (h : prepOf F X names c = .ok df) : ∃ pc, c.posClass = some pc := by
  unfold prepOf at h
  cases h1 : attr c.classFeat with
  | error e => rw [h1] at h; cases h
  | ok cf =>
    rw [h1, ok_bind] at h
    cases h2 : c.posClass with
    | none => rw [h2] at h; cases h
    | some pc => exact ⟨pc, rfl⟩

theorem prepOf_answer {α : Type} {F : PyFloat} {act : Ruleset → Frame → Except PyErr α} {X : TFrame}
    {names : Option (List Feat)} {c : Clf} :
    answer F act X names c = (do let df ← prepOf F X names c; let rs ← attr c.ruleset; act rs df) := by
  unfold answer prepOf
  cases attr c.classFeat with
  | error e => rfl
  | ok cf =>
    cases attr c.posClass with
    | error e => rfl
    | ok pc =>
      cases attr c.binner with
      | error e => rfl
      | ok b =>
        cases attr c.selected with
        | error e => rfl
        | ok sel =>
          cases attr c.trainFeats with
          | error e => rfl
          | ok tf =>
            simp only [ok_bind]
            cases preprocessPrediction F X cf b names sel <;> rfl

/-- `predict_proba` in the same terms. -/
theorem probaQuery_run {α : Type} {F : PyFloat} {act : Ruleset → Frame → Except PyErr α} {X : TFrame}
    {names : Option (List Feat)} {c : Clf} :
    probaQuery F act X names c = match c.ruleset, c.binner with
      | some rs, some _ => match prepOf F X names c with
        | .error e => .error e c
        | .ok df => outcome (act rs df) c.asked
      | _, _ => .error .attributeError c := by
  unfold probaQuery
  cases hr : c.ruleset with
  | none => rw [bind_error (e := .attributeError) (c' := c) (by rw [self_run]; simp [hr, attr])]
  | some rs =>
    rw [bind_ok (a := rs) (c' := c) (by rw [self_run]; simp [hr, attr])]
    cases hb : c.binner with
    | none => rw [bind_error (e := .attributeError) (c' := c) (by rw [self_run]; simp [hb, attr])]
    | some b =>
      rw [bind_ok (a := b) (c' := c) (by rw [self_run]; simp [hb, attr])]
      have hp : prepared F X names c = outcome (prepOf F X names c) c := prepared_run F X names c
      cases h : prepOf F X names c with
      | error e => rw [bind_error (e := e) (c' := c) (by rw [hp, h]; rfl)]
      | ok df =>
        obtain ⟨pc, hpc⟩ := prepOf_posClass h
        rw [bind_ok (a := df) (c' := c) (by rw [hp, h]; rfl),
          bind_ok (a := pc) (c' := c) (by rw [self_run]; simp [hpc, attr]), bind_ok (modify_run _ _),
          bind_ok (a := rs) (c' := c.asked) (by rw [self_run]; simp [Clf.asked, hpc, hr, attr]), pureCode_run]

theorem outcome_bind {α β : Type} (x : Except PyErr α) (f : α → OnClf β) (c : Clf) :
    (match outcome x c with
      | .ok a c' => f a c'
      | .error e c' => .error e c') = match x with
      | .ok a => f a c
      | .error e => .error e c := by
  cases x <;> rfl

/-- Preparation, then reading the positive class, then an action. -/
theorem prepared_posClass {α : Type} (F : PyFloat) (X : TFrame) (names : Option (List Feat)) (c : Clf)
    (k : Frame → Val → OnClf α) :
    (prepared F X names >>= fun df => self Clf.posClass >>= fun pc => k df pc) c =
      (prepared F X names >>= fun df => match attr c.posClass with | .ok pc => k df pc | .error e => throw e) c := by
  rw [bind_run, bind_run, prepared_run, outcome_bind, outcome_bind]
  split
  · rw [bind_run, self_run, outcome_bind]
    cases attr c.posClass <;> rfl
  · rfl

theorem ruleStats_eq_query (F : PyFloat) (X : TFrame) (y : Option (List Val)) (names : Option (List Feat)) (c : Clf) :
    Clf.ruleStats F X y names c =
      query F (fun rs df => do ruleTable (← attr c.posClass) y rs df) X names c := by
  have key : ∀ c' : Clf, c'.posClass = c.posClass →
      (prepared F X names >>= fun df => self Clf.posClass >>= fun pc => (do
        let rs ← self Clf.ruleset
        pureCode (ruleTable pc y rs df) : OnClf (List RuleStat))) c'
      = (prepared F X names >>= fun df => self Clf.ruleset >>= fun rs =>
          pureCode (do ruleTable (← attr c.posClass) y rs df)) c' := by
    intro c' hpc
    rw [prepared_posClass, hpc]
    cases h : attr c.posClass with
    | ok pc => rfl
    | error e =>
      rw [bind_run, bind_run, prepared_run, hpc, h]
      cases attr c'.classFeat <;> rfl
  unfold Clf.ruleStats query
  cases hr : c.ruleset with
  | none =>
    rw [bind_error (e := .attributeError) (c' := c) (by rw [self_run]; simp [hr, attr]),
      bind_error (e := .attributeError) (c' := c) (by rw [self_run]; simp [hr, attr])]
  | some rs =>
    rw [bind_ok (a := rs) (c' := c) (by rw [self_run]; simp [hr, attr]),
      bind_ok (a := rs) (c' := c) (by rw [self_run]; simp [hr, attr])]
    cases hb : c.binner with
    | some b =>
      rw [bind_ok (ensureBinner_some hb), bind_ok (ensureBinner_some hb)]
      exact key c rfl
    | none =>
      rw [bind_run, bind_run, ensureBinner_none hb hr]
      cases constructFromRuleset F rs with
      | error e => rfl
      | ok u => exact key c.withEmptyBinner rfl

theorem score_eq_query {α : Type} (F : PyFloat) (X : TFrame) (y : List Val)
    (scoreFn : List Bool → List Bool → Except PyErr α) (c : Clf) :
    Clf.score F X y scoreFn c = query F (fun rs df => do
      let preds ← rs.predict df
      let pc ← attr c.posClass
      scoreFn (y.map (fun yi => yi.pyEq pc)) preds) X none c := by
  unfold Clf.score
  cases hr : c.ruleset with
  | none =>
    rw [bind_error (e := .attributeError) (c' := c) (by rw [self_run]; simp [hr, attr]), query_unfit hr]
  | some rs =>
    rw [bind_ok (a := rs) (c' := c) (by rw [self_run]; simp [hr, attr]), predict_eq_query, bind_run]
    have key : ∀ c' : Clf, c'.posClass = c.posClass →
        (match answer F (fun rs df => rs.predict df) X none c' with
          | .ok a => (self Clf.posClass >>= fun pc => pureCode (scoreFn (y.map (fun yi => yi.pyEq pc)) a)) c'
          | .error e => .error e c') =
        outcome (answer F (fun rs df => do
          let preds ← rs.predict df
          let pc ← attr c.posClass
          scoreFn (y.map (fun yi => yi.pyEq pc)) preds) X none c') c' := by
      intro c' hpc
      unfold answer
      cases attr c'.classFeat with
      | error e => rfl
      | ok cf =>
        cases hp : attr c'.posClass with
        | error e => rfl
        | ok pc =>
          cases attr c'.binner with
          | error e => rfl
          | ok b =>
            cases attr c'.selected with
            | error e => rfl
            | ok sel =>
              cases attr c'.trainFeats with
              | error e => rfl
              | ok tf =>
                simp only [ok_bind]
                cases preprocessPrediction F X cf b none sel with
                | error e => rfl
                | ok df =>
                  simp only [ok_bind]
                  cases attr c'.ruleset with
                  | error e => rfl
                  | ok rs' =>
                    simp only [ok_bind]
                    cases rs'.predict df.toFrame with
                    | error e => rfl
                    | ok ps =>
                      simp only [ok_bind]
                      rw [bind_run, self_run, outcome_bind, hp, ← hpc, hp]
                      simp only [ok_bind, pureCode_run]
    cases hb : c.binner with
    | some b => rw [query_some hr hb, query_some hr hb, outcome_bind]; exact Eq.trans (by cases answer F (fun rs df => rs.predict df) X none _ <;> rfl) (key c rfl)
    | none =>
      rw [query_none hr hb, query_none hr hb]
      cases constructFromRuleset F rs with
      | error e => rfl
      | ok u =>
        simp only []
        rw [outcome_bind]
        exact Eq.trans (by cases answer F (fun rs df => rs.predict df) X none _ <;> rfl) (key c.withEmptyBinner rfl)

end Witt
