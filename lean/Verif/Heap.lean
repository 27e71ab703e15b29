import Verif.Props.Classifier
import Verif.Props.Fit
/-
Objects and references: Rule, Ruleset and classifier objects in one Python heap, which of them the methods of
wittgenstein/abstract_ruleset_classifier.py, irep.py, ripper.py and base.py share, and which they copy.

The other modules model a classifier as a value. Here a classifier holds a reference to a Ruleset object and that object a
list of references to Rule objects, so that two of them may share parts. Conditions are values: no code changes a Cond, and
a Rule that exists outside a training run never gets other conditions. A `rules` list belongs to its Ruleset (the caller
of `Ruleset(rules)` is taken not to keep the list).
-/
namespace Witt
variable [Arith]

/-- A Ruleset object, base.py 21-28: references to its Rule objects, and its other attributes. -/
structure SetObj where
  rules : List Nat := []
  uncov : Calib := {}
  possible : Option (List Cond) := none

/-- An IREP or RIPPER object: a reference `ruleset_`, and its other attributes (the `ruleset` of `attrs` is not used). -/
structure ClfObj where
  attrs : Clf := {}
  ruleset : Option Nat := none

/-- The objects that exist, by address; addresses from `rules`, `sets`, `clfs` on are free. -/
structure Heap where
  rule : Nat → Rule := fun _ => { conds := [] }
  set : Nat → SetObj := fun _ => {}
  clf : Nat → ClfObj := fun _ => {}
  rules : Nat := 0
  sets : Nat := 0
  clfs : Nat := 0

/-- The Ruleset object at an address, as a value. -/
def Heap.readSet (h : Heap) (a : Nat) : Ruleset :=
  { rules := (h.set a).rules.map h.rule, uncov := (h.set a).uncov, possible := (h.set a).possible }

/-- The classifier at an address, as a value. -/
def Heap.readClf (h : Heap) (c : Nat) : Clf := { (h.clf c).attrs with ruleset := (h.clf c).ruleset.map h.readSet }

/-- Assign to the attributes of a Rule object. -/
def Heap.putRule (h : Heap) (a : Nat) (r : Rule) : Heap := { h with rule := fun x => if x = a then r else h.rule x }

/-- Assign to the attributes of a Ruleset object. -/
def Heap.putSet (h : Heap) (a : Nat) (s : SetObj) : Heap := { h with set := fun x => if x = a then s else h.set x }

/-- Assign to the attributes of a classifier. -/
def Heap.putClf (h : Heap) (c : Nat) (o : ClfObj) : Heap := { h with clf := fun x => if x = c then o else h.clf x }

/-- Assign to the attributes of a classifier other than `ruleset_`. -/
def Heap.putAttrs (h : Heap) (c : Nat) (v : Clf) : Heap :=
  h.putClf c { attrs := { v with ruleset := none }, ruleset := (h.clf c).ruleset }

/-- `self.ruleset_ = ...`, and the other attributes. -/
def Heap.putRef (h : Heap) (c : Nat) (v : Clf) (a : Nat) : Heap :=
  h.putClf c { attrs := { v with ruleset := none }, ruleset := some a }

/-- A new Rule object. -/
def Heap.newRule (h : Heap) (r : Rule) : Nat × Heap := (h.rules, { h.putRule h.rules r with rules := h.rules + 1 })

/-- A new Ruleset object, over existing Rule objects. -/
def Heap.newSet (h : Heap) (s : SetObj) : Nat × Heap := (h.sets, { h.putSet h.sets s with sets := h.sets + 1 })

/-- A new Ruleset object with new Rule objects. -/
def Heap.newRuleset (h : Heap) (rs : Ruleset) : Nat × Heap :=
  Heap.newSet
    { h with
      rule := fun x => if x < h.rules then h.rule x else rs.rules.getD (x - h.rules) (h.rule x)
      rules := h.rules + rs.rules.length }
    { rules := (List.range rs.rules.length).map (h.rules + ·), uncov := rs.uncov, possible := rs.possible }

/-- `deepcopy(ruleset)` (abstract_ruleset_classifier.py 358-360, 404-408): every Rule object is copied once, so that a
Rule listed twice is one object in the copy as well. The copy of the object at `x` is put at `h.rules + x`. -/
def Heap.deepcopy (h : Heap) (a : Nat) : Nat × Heap :=
  Heap.newSet
    { h with
      rule := fun x => if x < h.rules then h.rule x else h.rule (x - h.rules)
      rules := h.rules + h.rules }
    { h.set a with rules := (h.set a).rules.map (h.rules + ·) }

/-- A method call: it may change objects and may raise, keeping the changes made so far. -/
abbrev OnHeap := EStateM PyErr Heap

/-- Code that touches no object. -/
def noEffect {α : Type} : Except PyErr α → OnHeap α
  | .ok a => pure a
  | .error e => throw e

/-- A new object. -/
def alloc (f : Heap → Nat × Heap) : OnHeap Nat := modifyGet f

/-- What a caller may pass as a rule: a Rule object, or something `asrule` makes a Rule of. -/
inductive RuleObj
  | obj (a : Nat)
  | text (s : PStr)
  | nothing
  | conds (cs : List CondArg)

/-- The argument as a value. -/
def RuleObj.value (h : Heap) : RuleObj → RuleArg
  | .obj a => .rule (h.rule a)
  | .text s => .text s
  | .nothing => .nothing
  | .conds cs => .conds cs

/-- base.py 516-530: `asrule` returns a Rule object as it is; anything else becomes a new one. -/
def RuleObj.asRule (r : RuleObj) : OnHeap Nat := do
  match r with
  | .obj a => return a
  | r =>
    let v ← noEffect (Witt.asRule (r.value (← get)))
    alloc (·.newRule v)

/-- `asrule(rule)` where only the value matters. -/
def RuleObj.read (r : RuleObj) : OnHeap Rule := do
  noEffect (Witt.asRule (r.value (← get)))

/-- check.py 87-91: `_check_valid_index`. -/
def checkIndexAt (a : Nat) (i : Int) : OnHeap Unit := do
  if i < 0 ∨ i ≥ ((← get).set a).rules.length then throw .indexError

/-- check.py 93-99 and `self.rules.index(rule)`: the position of the first equal rule, ValueError if there is none. -/
def findRule (a : Nat) (r : Rule) : OnHeap Int := do
  match ((← get).readSet a).rules.findIdx? (fun s => s.pyEq r) with
  | some i => pure (i : Int)
  | none => throw .valueError

/-- Assign to the list `rules` of a Ruleset object. -/
def setRules (a : Nat) (f : List Nat → List Nat) : OnHeap Unit :=
  modify (fun h => h.putSet a { h.set a with rules := f (h.set a).rules })

/-- One call of the editing API; see `EditOp`. -/
inductive EditCall
  | add (r : RuleObj)
  | replaceAt (i : Int) (r : RuleObj)
  | replace (old new : RuleObj)
  | removeAt (i : Int)
  | remove (old : RuleObj)
  | insertAt (i : Int) (r : RuleObj)
  | insert (before new : RuleObj)

/-- The same call on values. -/
def EditCall.value (h : Heap) : EditCall → EditOp
  | .add r => .add (r.value h)
  | .replaceAt i r => .replaceAt i (r.value h)
  | .replace o n => .replace (o.value h) (n.value h)
  | .removeAt i => .removeAt i
  | .remove o => .remove (o.value h)
  | .insertAt i r => .insertAt i (r.value h)
  | .insert b n => .insert (b.value h) (n.value h)

/-- base.py 181-210: the editing methods of the Ruleset object at `a`; the rule passed, or the Rule made of it, itself
goes into the list. (Rules made only to be compared are not kept.) -/
def EditCall.at (a : Nat) : EditCall → OnHeap Unit
  | .add r => do
    let x ← r.asRule
    setRules a (· ++ [x])
  | .replaceAt i r => do
    checkIndexAt a i
    let x ← r.asRule
    setRules a (·.set i.toNat x)
  | .replace old new => do
    let i ← findRule a (← old.read)
    let x ← new.asRule
    checkIndexAt a i
    setRules a (·.set i.toNat x)
  | .removeAt i => do
    checkIndexAt a i
    setRules a (·.eraseIdx i.toNat)
  | .remove old => do
    let i ← findRule a (← old.read)
    checkIndexAt a i
    setRules a (·.eraseIdx i.toNat)
  | .insertAt i r => do
    checkIndexAt a i
    let x ← r.asRule
    setRules a (·.insertIdx i.toNat x)
  | .insert before new => do
    let i ← findRule a (← before.read)
    let x ← new.asRule
    checkIndexAt a i
    setRules a (·.insertIdx i.toNat x)

/-- Read an attribute of the classifier at `c` (AttributeError if it does not exist). -/
def selfAt {α : Type} (c : Nat) (get : Clf → Option α) : OnHeap α := do
  noEffect (attr (get ((← EStateM.get).readClf c)))

/-- The address in the attribute `ruleset_` (AttributeError if it does not exist). -/
def rulesetAt (c : Nat) : OnHeap Nat := do
  noEffect (attr ((← EStateM.get).clf c).ruleset)

/-- Raise the exception, if there is one. -/
def raised (e : Option PyErr) : OnHeap Unit :=
  match e with
  | some e => throw e
  | none => pure ()

/-- The loop of base_functions.py 330-351 over the Rule objects: each is changed in place. -/
def recalAt (df : Frame) (cf : Feat) (pc : Val) (alpha : Rat) : List Nat → OnHeap Unit
  | [] => pure ()
  | a :: as => do
    let out := recalRule df cf pc alpha ((← get).rule a)
    modify (·.putRule a out.1)
    raised out.2
    recalAt df cf pc alpha as

/-- base_functions.py 288-361: `recalibrate_proba` of the Ruleset object at `a`; it and its Rule objects are changed in
place. -/
def recalibrateAt (a : Nat) (df : Frame) (cf : Feat) (pc : Val) (alpha : Rat) : OnHeap Unit := do
  if ((← get).readSet a).selectedFeatures.any (fun f => !df.cols.contains f) then throw .indexError
  recalAt df cf pc alpha ((← get).set a).rules
  let covered ← noEffect (((← get).readSet a).covers df)
  let uncovered := df.dropLabels covered.index
  let tn ← noEffect (numNeg uncovered cf pc)
  let out := calibrate alpha ((tn : Int), (uncovered.rows.length : Int) - tn) ((← get).set a).uncov
  modify (fun h => h.putSet a { h.set a with uncov := out.1 })
  raised out.2

/-- abstract_ruleset_classifier.py 212-265: `recalibrate_proba` of the classifier at `c`. -/
def recalibrateClf (F : PyFloat) (c : Nat) (X : TFrame) (y : Option YArg) (names : Option (List Feat))
    (discretize : Bool) : OnHeap Unit := do
  let cf ← selfAt c Clf.classFeat
  let pc ← selfAt c Clf.posClass
  let b ← (if discretize then do return some (← selfAt c Clf.binner) else pure none)
  let df ← noEffect (preprocessRecalibrate F X y cf b names)
  let a ← rulesetAt c
  recalibrateAt a df.toFrame cf pc ((← get).clf c).attrs.hyper.alpha

/-- abstract_ruleset_classifier.py 92-210, 267-355: a query of the classifier at `c` may set attributes of the classifier
itself; it changes no Rule and no Ruleset object. -/
def queryClf (F : PyFloat) (c : Nat) (q : Call) : OnHeap Answer := fun h =>
  match q.run F (h.readClf c) with
  | .ok x v => .ok x (h.putAttrs c v)
  | .error e v => .error e (h.putAttrs c v)

/-- What a caller may pass as a model: a Ruleset object, a text, a classifier, or nothing. -/
inductive ModelObj
  | nothing
  | ruleset (a : Nat)
  | text (s : PStr)
  | clf (c : Nat)

/-- The argument as a value. -/
def ModelObj.value (h : Heap) : ModelObj → ModelArg
  | .nothing => .nothing
  | .ruleset a => .ruleset (h.readSet a)
  | .text s => .text s
  | .clf c => .clf (h.readClf c)

/-- abstract_ruleset_classifier.py 399-412: `_ruleset_frommodel`: a deep copy. -/
def ModelObj.copied (m : ModelObj) : OnHeap Nat := do
  match m with
  | .nothing => alloc (·.newSet {})
  | .ruleset a =>
    if ((← get).set a).rules = [] then alloc (·.newSet {}) else alloc (·.deepcopy a)
  | .text s =>
    let rs ← noEffect (ModelArg.toRuleset (.text s))
    alloc (·.newRuleset rs)
  | .clf c => alloc (·.deepcopy (← rulesetAt c))

/-- irep.py 153 and base.py 533-555: `Ruleset() if not initial_model else asruleset(initial_model)`: the Ruleset object
passed, or the classifier's own one, not a copy. -/
def ModelObj.shared (m : ModelObj) : OnHeap Nat := do
  match m with
  | .nothing => alloc (·.newSet {})
  | .ruleset a =>
    if ((← get).set a).rules = [] then alloc (·.newSet {}) else return a
  | .text s =>
    let rs ← noEffect (ModelArg.toRuleset (.text s))
    alloc (·.newRuleset rs)
  | .clf c =>
    match ((← get).clf c).ruleset with
    | some a => return a
    | none => alloc (·.newSet {})

/-- abstract_ruleset_classifier.py 362-367: `init_ruleset`. -/
def initRulesetAt (c : Nat) (m : ModelObj) (cf : Feat) (pc : Val) : OnHeap Unit := do
  let a ← m.copied
  modify (fun h =>
    let sel := (h.readSet a).selectedFeatures
    h.putRef c
      { (h.clf c).attrs with
        classFeat := some cf
        posClass := some pc
        selected := some sel
        trainFeats := some sel }
      a)

/-- What `fit` does up to the point where `self.ruleset_` is bound to the rules it has grown (irep.py 155-204, ripper.py
184-248), on an object with settings `hp` and `nBins`: the exception if it does not get there. -/
def Method.grows (a : Method) (fuel : Nat) (R : PyRandom) (F : PyFloat) (P : PandasCut) (nBins : Option Nat) (hp : Hyper)
    (d : FitData) (init : ModelArg) (g : R.G) : Except PyErr Unit := do
  let (df, cf, pc, _) ← preprocessTraining F P nBins d
  match a with
  | .irep =>
    let cn ← CatNap.build df.toFrame cf
    let start ← init.toRuleset
    let _ ← irepGrowCn fuel R cn hp (start.rules.map Rule.conds) (labelSet (posRows df.toFrame cf pc).index)
      (labelSet (negRows df.toFrame cf pc).index) g
    return ()
  | .ripper =>
    let cn ← CatNap.build df.toFrame cf
    let start ← init.toRuleset
    let _ ← ripperGrowCn fuel R cn hp (start.rules.map Rule.conds) (labelSet (posRows df.toFrame cf pc).index)
      (labelSet (negRows df.toFrame cf pc).index) g
    return ()
  | .irepPlain S =>
    let start ← init.toRuleset
    let pos := posExamples df.toFrame cf pc
    let neg := negExamples df.toFrame cf pc
    let _ ← irepGrow fuel R (updatedConds S start.possible pos neg) hp (start.rules.map Rule.conds) pos neg g
    return ()
  | .ripperPlain S =>
    let start ← init.toRuleset
    let pos := posExamples df.toFrame cf pc
    let neg := negExamples df.toFrame cf pc
    let _ ← ripperGrow fuel R (updatedConds S start.possible pos neg) hp (start.rules.map Rule.conds) pos neg g
    return ()

/-- The model the growing code copies: an unfitted IREP object passed to its own `fit` has by then (irep.py 153) been
bound to an empty Ruleset. -/
def ModelObj.seen (first : Bool) (c : Nat) (h : Heap) : ModelObj → ModelArg
  | .clf b => if first ∧ b = c ∧ (h.clf b).ruleset = none then .nothing else .clf (h.readClf b)
  | m => m.value h

/-- IREP objects bind `self.ruleset_` to the initial model first (irep.py 153); RIPPER objects do not. -/
def Method.bindsFirst : Method → Bool
  | .irep => true
  | .irepPlain _ => true
  | .ripper => false
  | .ripperPlain _ => false

/-- irep.py 153: `self.ruleset_ = ...` the initial model (IREP only). -/
def bindInitial (first : Bool) (c : Nat) (v : Clf) (init : ModelObj) : OnHeap Unit :=
  if first then do
    let a ← init.shared
    modify (·.putRef c v a)
  else pure ()

/-- irep.py 196-204, ripper.py 229-365: `self.ruleset_ = ...` what was grown, if `grown`, and the other attributes; `v` is
the object `fit` leaves. -/
def bindGrown (grown : Except PyErr Unit) (c : Nat) (v : Clf) : OnHeap Unit :=
  match grown with
  | .error _ => modify (·.putAttrs c v)
  | .ok _ => do
    let a ← alloc (·.newRuleset (v.ruleset.getD { rules := [] }))
    modify (·.putRef c v a)

/-- irep.py 94-235, ripper.py 115-390: `fit` of the classifier at `c`. What the attributes hold afterwards, and the
outcome, are those of `Method.fit`; this definition adds which objects hold it. IREP binds `ruleset_` to the initial model
itself; when rules have been grown (from a deep copy of the initial model), `ruleset_` is bound to a new Ruleset object
with new Rule objects. -/
def fitAt (m : Method) (fuel : Nat) (R : PyRandom) (F : PyFloat) (P : PandasCut) (c : Nat) (d : FitData) (init : ModelObj)
    (g : R.G) : OnHeap R.G := do
  let h ← EStateM.get
  let v := h.readClf c
  let model := init.seen m.bindsFirst c h
  let out := m.fit fuel R F P d model g v
  bindInitial m.bindsFirst c v init
  bindGrown (m.grows fuel R F P v.nBins v.hyper d model g) c (Spec.after out)
  noEffect (Spec.returned out)

/-- The calls a program may make, on objects given by address. -/
inductive HCall
  /-- `IREP(...)`, `RIPPER(...)` -/
  | newClf (hp : Hyper) (nBins : Option Nat)
  /-- `Rule(conds)` -/
  | newRule (cs : List Cond)
  /-- `Ruleset([...])` -/
  | newSet (rules : List Nat)
  /-- `clf.copy()` -/
  | copyClf (c : Nat)
  /-- `copy.deepcopy(ruleset)` (`ruleset.copy()` raises NameError, see `Ruleset.copy`) -/
  | copySet (a : Nat)
  /-- `clf.init_ruleset(model, class_feat, pos_class)` -/
  | init (c : Nat) (m : ModelObj) (cf : Feat) (pc : Val)
  /-- `clf.add_rule(...)` and the other editing methods -/
  | edit (c : Nat) (e : EditCall)
  /-- `ruleset.add(...)` and the other editing methods -/
  | editSet (a : Nat) (e : EditCall)
  /-- `clf.recalibrate_proba(...)` -/
  | recalibrate (F : PyFloat) (c : Nat) (X : TFrame) (y : Option YArg) (names : Option (List Feat)) (discretize : Bool)
  /-- `clf.fit(..., initial_model=m)` -/
  | fit (m : Method) (fuel : Nat) (R : PyRandom) (F : PyFloat) (P : PandasCut) (c : Nat) (d : FitData) (init : ModelObj)
      (g : R.G)
  /-- `clf.predict(...)` and the other queries -/
  | query (F : PyFloat) (c : Nat) (q : Call)

/-- What a call returns. -/
inductive Returned
  | none
  | obj (a : Nat)
  | answer (x : Answer)

/-- A call on the heap. -/
def HCall.run : HCall → OnHeap Returned
  | .newClf hp nBins => do
    return .obj (← alloc (fun h => (h.clfs, { h.putClf h.clfs { attrs := { hyper := hp, nBins := nBins } } with clfs := h.clfs + 1 })))
  | .newRule cs => do return .obj (← alloc (·.newRule { conds := cs }))
  | .newSet rules => do return .obj (← alloc (·.newSet { rules := rules }))
  | .copyClf c => do
    match ((← get).clf c).ruleset with
    | Option.none => return .obj (← alloc (fun h => (h.clfs, { h.putClf h.clfs (h.clf c) with clfs := h.clfs + 1 })))
    | some a =>
      let b ← alloc (·.deepcopy a)
      return .obj (← alloc (fun h =>
        (h.clfs, { h.putClf h.clfs { attrs := (h.clf c).attrs, ruleset := some b } with clfs := h.clfs + 1 })))
  | .copySet a => do return .obj (← alloc (·.deepcopy a))
  | .init c m cf pc => do initRulesetAt c m cf pc; return .none
  | .edit c e => do e.at (← rulesetAt c); return .none
  | .editSet a e => do e.at a; return .none
  | .recalibrate F c X y names discretize => do recalibrateClf F c X y names discretize; return .none
  | .fit m fuel R F P c d im g => do let _ ← fitAt m fuel R F P c d im g; return .none
  | .query F c q => do return .answer (← queryClf F c q)

end Witt
