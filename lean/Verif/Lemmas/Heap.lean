import Verif.HeapSpec
/-
What the methods may change in a heap, for any discipline the primitive changes keep to.
-/
namespace Witt
open Spec
variable [Arith] [Arith.Lawful]

/-- A discipline the methods keep to: an invariant `I` of heaps, a relation `T` between a heap and a later one, the objects
that may be changed (`okClf`, `okSet`, `okRule`) and those that may be copied. -/
structure Discipline where
  I : Heap → Prop
  T : Heap → Heap → Prop
  okClf : Heap → Nat → Prop
  okSet : Heap → Nat → Prop
  okRule : Heap → Nat → Prop
  copyable : Heap → Nat → Prop
  refl : ∀ h, T h h
  trans : ∀ {a b c}, T a b → T b c → T a c
  clfMono : ∀ {h h' c}, T h h' → okClf h c → okClf h' c
  setMono : ∀ {h h' a}, T h h' → okSet h a → okSet h' a
  ruleMono : ∀ {h h' x}, T h h' → okRule h x → okRule h' x
  ruleset : ∀ {h c a}, I h → okClf h c → (h.clf c).ruleset = some a → okSet h a
  rules : ∀ {h a x}, I h → okSet h a → x ∈ (h.set a).rules → okRule h x
  putRule : ∀ {h a} {r : Rule}, I h → okRule h a → r.conds = (h.rule a).conds → I (h.putRule a r) ∧ T h (h.putRule a r)
  putSet : ∀ {h a} {s : SetObj}, I h → okSet h a → (∀ x ∈ s.rules, okRule h x) → I (h.putSet a s) ∧ T h (h.putSet a s)
  putClf : ∀ {h c} {o : ClfObj}, I h → okClf h c → (∀ a, o.ruleset = some a → okSet h a) →
    I (h.putClf c o) ∧ T h (h.putClf c o)
  newRule : ∀ {h} (r : Rule), I h → I (h.newRule r).2 ∧ T h (h.newRule r).2 ∧ okRule (h.newRule r).2 (h.newRule r).1
  newSet : ∀ {h} {s : SetObj}, I h → (∀ x ∈ s.rules, okRule h x) →
    I (h.newSet s).2 ∧ T h (h.newSet s).2 ∧ okSet (h.newSet s).2 (h.newSet s).1
  newRuleset : ∀ {h} (rs : Ruleset), I h →
    I (h.newRuleset rs).2 ∧ T h (h.newRuleset rs).2 ∧ okSet (h.newRuleset rs).2 (h.newRuleset rs).1
  deepcopy : ∀ {h a}, I h → copyable h a →
    I (h.deepcopy a).2 ∧ T h (h.deepcopy a).2 ∧ okSet (h.deepcopy a).2 (h.deepcopy a).1
  newClf : ∀ {h} {o : ClfObj}, I h → (∀ a, o.ruleset = some a → okSet h a) →
    I { h.putClf h.clfs o with clfs := h.clfs + 1 } ∧ T h { h.putClf h.clfs o with clfs := h.clfs + 1 }

omit [Arith] [Arith.Lawful] in
theorem heap_bind {α β : Type} (m : OnHeap α) (f : α → OnHeap β) (h : Heap) :
    (m >>= f) h = match m h with
      | .ok a h' => f a h'
      | .error e h' => .error e h' := by
  show EStateM.bind m f h = _
  unfold EStateM.bind
  cases m h <;> rfl

/-- A call from heap `h` keeps to the discipline, and a returned value satisfies `Q`. -/
structure Keeps (D : Discipline) {α : Type} (m : OnHeap α) (Q : α → Heap → Prop) (h : Heap) : Prop where
  inv : D.I (afterwards (m h))
  step : D.T h (afterwards (m h))
  post : ∀ a h', m h = .ok a h' → Q a h'

variable {D : Discipline}

omit [Arith] [Arith.Lawful] in
theorem Keeps.pure {α : Type} {a : α} {Q : α → Heap → Prop} {h : Heap} (hc : D.I h) (hq : Q a h) :
    Keeps D (Pure.pure a : OnHeap α) Q h :=
  ⟨hc, D.refl _, fun b h' e => by
    have : (EStateM.Result.ok a h : EStateM.Result PyErr Heap α) = .ok b h' := e
    cases this; exact hq⟩

omit [Arith] [Arith.Lawful] in
theorem Keeps.throw {α : Type} {e : PyErr} {Q : α → Heap → Prop} {h : Heap} (hc : D.I h) :
    Keeps D (MonadExcept.throw e : OnHeap α) Q h :=
  ⟨hc, D.refl _, fun b h' e' => by
    have : (EStateM.Result.error e h : EStateM.Result PyErr Heap α) = .ok b h' := e'
    cases this⟩

omit [Arith] [Arith.Lawful] in
theorem Keeps.bind {α β : Type} {m : OnHeap α} {f : α → OnHeap β} {Q : α → Heap → Prop} {Q' : β → Heap → Prop}
    {h : Heap} (hm : Keeps D m Q h) (hf : ∀ a h', D.I h' → D.T h h' → Q a h' → Keeps D (f a) Q' h') :
    Keeps D (m >>= f) Q' h := by
  obtain ⟨h1, h2, h3⟩ := hm
  cases hr : m h with
  | error e h' =>
    have : (m >>= f) h = .error e h' := by rw [heap_bind, hr]
    rw [hr] at h1 h2
    refine ⟨this ▸ h1, this ▸ h2, fun a h'' e' => ?_⟩
    rw [this] at e'; cases e'
  | ok a h' =>
    have : (m >>= f) h = f a h' := by rw [heap_bind, hr]
    rw [hr] at h1 h2
    obtain ⟨g1, g2, g3⟩ := hf a h' h1 h2 (h3 a h' hr)
    exact ⟨this ▸ g1, this ▸ D.trans h2 g2, fun b h'' e' => g3 b h'' (this ▸ e')⟩

omit [Arith] [Arith.Lawful] in
theorem Keeps.get {h : Heap} (hc : D.I h) : Keeps D (EStateM.get : OnHeap Heap) (fun a h' => a = h ∧ h' = h) h :=
  ⟨hc, D.refl _, fun b h' e => by
    have : (EStateM.Result.ok h h : EStateM.Result PyErr Heap Heap) = .ok b h' := e
    cases this; exact ⟨rfl, rfl⟩⟩

omit [Arith] [Arith.Lawful] in
theorem Keeps.getThe {h : Heap} (hc : D.I h) :
    Keeps D (MonadStateOf.get : OnHeap Heap) (fun a h' => a = h ∧ h' = h) h := Keeps.get hc

omit [Arith] [Arith.Lawful] in
theorem Keeps.noEffect {α : Type} {x : Except PyErr α} {h : Heap} (hc : D.I h) :
    Keeps D (noEffect x) (fun a h' => x = .ok a ∧ h' = h) h := by
  cases x with
  | error e => exact Keeps.throw hc
  | ok a => exact Keeps.pure hc ⟨rfl, rfl⟩

omit [Arith] [Arith.Lawful] in
theorem Keeps.modify {f : Heap → Heap} {Q : Unit → Heap → Prop} {h : Heap} (hc : D.I (f h) ∧ D.T h (f h))
    (hq : Q () (f h)) : Keeps D (modify f : OnHeap Unit) Q h :=
  ⟨hc.1, hc.2, fun b h' e => by
    have : (EStateM.Result.ok () (f h) : EStateM.Result PyErr Heap Unit) = .ok b h' := e
    cases this; exact hq⟩

omit [Arith] [Arith.Lawful] in
theorem Keeps.alloc {f : Heap → Nat × Heap} {Q : Nat → Heap → Prop} {h : Heap}
    (hc : D.I (f h).2 ∧ D.T h (f h).2 ∧ Q (f h).1 (f h).2) : Keeps D (alloc f) Q h :=
  ⟨hc.1, hc.2.1, fun b h' e => by
    have : (EStateM.Result.ok (f h).1 (f h).2 : EStateM.Result PyErr Heap Nat) = .ok b h' := e
    cases this; exact hc.2.2⟩

omit [Arith] [Arith.Lawful] in
theorem Keeps.weaken {α : Type} {m : OnHeap α} {Q Q' : α → Heap → Prop} {h : Heap} (hm : Keeps D m Q h)
    (hq : ∀ a h', Q a h' → Q' a h') : Keeps D m Q' h :=
  ⟨hm.inv, hm.step, fun a h' e => hq a h' (hm.post a h' e)⟩

/-! ### the methods -/

/-- The rule passed may be used. -/
def RuleObj.Ok (D : Discipline) (h : Heap) : RuleObj → Prop
  | .obj x => D.okRule h x
  | _ => True

/-- The rule put into a ruleset may be used. -/
def EditCall.Ok (D : Discipline) (h : Heap) : EditCall → Prop
  | .add r => r.Ok D h
  | .replaceAt _ r => r.Ok D h
  | .replace _ r => r.Ok D h
  | .removeAt _ => True
  | .remove _ => True
  | .insertAt _ r => r.Ok D h
  | .insert _ r => r.Ok D h

/-- The model may be shared. -/
def ModelObj.Ok (D : Discipline) (h : Heap) : ModelObj → Prop
  | .ruleset a => D.okSet h a
  | .clf c => D.okClf h c
  | _ => True

/-- The model may be copied. -/
def ModelObj.Copyable (D : Discipline) (h : Heap) : ModelObj → Prop
  | .ruleset a => D.copyable h a
  | .clf c => ∀ a, (h.clf c).ruleset = some a → D.copyable h a
  | _ => True

/-- The call is made on objects that may be changed, and uses and copies only what it may. -/
def HCall.Ok (D : Discipline) (h : Heap) : HCall → Prop
  | .newClf _ _ => True
  | .newRule _ => True
  | .newSet rules => ∀ x ∈ rules, D.okRule h x
  | .copyClf c => ∀ a, (h.clf c).ruleset = some a → D.copyable h a
  | .copySet a => D.copyable h a
  | .init c m _ _ => D.okClf h c ∧ m.Copyable D h
  | .edit c e => D.okClf h c ∧ e.Ok D h
  | .editSet a e => D.okSet h a ∧ e.Ok D h
  | .recalibrate _ c _ _ _ _ => D.okClf h c
  | .fit m fuel R F P c d im g => D.okClf h c ∧ (m.bindsFirst = true →
      (∃ e, m.grows fuel R F P (h.readClf c).nBins (h.readClf c).hyper d (im.seen m.bindsFirst c h) g = .error e) → im.Ok D h)
  | .query _ c _ => D.okClf h c

omit [Arith] [Arith.Lawful] in
theorem RuleObj.Ok.mono {h h' : Heap} {r : RuleObj} (ht : D.T h h') (hr : r.Ok D h) : r.Ok D h' := by
  cases r with
  | obj x => exact D.ruleMono ht hr
  | text s => trivial
  | nothing => trivial
  | conds cs => trivial

omit [Arith] [Arith.Lawful] in
theorem asRule_in {h : Heap} (hc : D.I h) {r : RuleObj} (hr : r.Ok D h) : Keeps D r.asRule (fun x h' => D.okRule h' x) h := by
  have made : ∀ r : RuleObj, Keeps D (do
      let v ← Witt.noEffect (Witt.asRule (r.value (← MonadStateOf.get)))
      alloc (·.newRule v) : OnHeap Nat) (fun x h' => D.okRule h' x) h := by
    intro r
    refine Keeps.bind (Keeps.getThe hc) (fun s' h' hc' _ e => ?_)
    refine Keeps.bind (Keeps.noEffect hc') (fun v h'' hc'' _ e' => ?_)
    exact Keeps.alloc (D.newRule v hc'')
  cases r with
  | obj a => exact Keeps.pure hc hr
  | text s => exact made _
  | nothing => exact made _
  | conds cs => exact made _

omit [Arith] [Arith.Lawful] in
theorem read_in {h : Heap} (hc : D.I h) (r : RuleObj) : Keeps D r.read (fun _ _ => True) h :=
  Keeps.bind (Keeps.getThe hc) (fun _ _ hc' _ _ => (Keeps.noEffect hc').weaken (fun _ _ _ => trivial))

omit [Arith] [Arith.Lawful] in
theorem checkIndexAt_in {h : Heap} (hc : D.I h) (a : Nat) (i : Int) :
    Keeps D (checkIndexAt a i) (fun _ _ => True) h := by
  refine Keeps.bind (Keeps.getThe hc) (fun s h' hc' _ _ => ?_)
  split
  · exact Keeps.throw hc'
  · exact Keeps.pure hc' trivial

omit [Arith] [Arith.Lawful] in
theorem findRule_in {h : Heap} (hc : D.I h) (a : Nat) (r : Rule) :
    Keeps D (findRule a r) (fun _ _ => True) h := by
  refine Keeps.bind (Keeps.getThe hc) (fun s h' hc' _ _ => ?_)
  split
  · exact Keeps.pure hc' trivial
  · exact Keeps.throw hc'

omit [Arith] [Arith.Lawful] in
theorem setRules_in {h : Heap} (hc : D.I h) {a : Nat} (ha : D.okSet h a) {f : List Nat → List Nat}
    (hf : ∀ l : List Nat, (∀ x ∈ l, D.okRule h x) → ∀ x ∈ f l, D.okRule h x) :
    Keeps D (setRules a f) (fun _ _ => True) h :=
  Keeps.modify (D.putSet (s := { h.set a with rules := f (h.set a).rules }) hc ha (hf _ (fun _ hx => D.rules hc ha hx))) trivial

omit [Arith] [Arith.Lawful] in
theorem edit_in {h : Heap} (hc : D.I h) {a : Nat} (ha : D.okSet h a) {e : EditCall} (he : e.Ok D h) :
    Keeps D (e.at a) (fun _ _ => True) h := by
  have hset : ∀ h' (i : Nat) (x : Nat), D.okRule h' x → ∀ l : List Nat, (∀ x ∈ l, D.okRule h' x) →
      ∀ y ∈ l.set i x, D.okRule h' y := by
    intro h' i x hx l hl y hy
    rcases List.mem_or_eq_of_mem_set hy with h | h
    · exact hl y h
    · exact h ▸ hx
  have hdel : ∀ h' (i : Nat), ∀ l : List Nat, (∀ x ∈ l, D.okRule h' x) → ∀ y ∈ l.eraseIdx i, D.okRule h' y :=
    fun h' i l hl y hy => hl y ((List.eraseIdx_sublist l i).subset hy)
  have hins : ∀ h' (i : Nat) (x : Nat), D.okRule h' x → ∀ l : List Nat, (∀ x ∈ l, D.okRule h' x) →
      ∀ y ∈ l.insertIdx i x, D.okRule h' y := by
    intro h' i x hx l hl y hy
    rcases List.eq_or_mem_of_mem_insertIdx hy with h | h
    · exact h ▸ hx
    · exact hl y h
  cases e with
  | add r =>
    refine Keeps.bind (asRule_in hc he) (fun x h' hc' ht hx => setRules_in hc' (D.setMono ht ha) (fun l hl y hy => ?_))
    rcases List.mem_append.mp hy with h | h
    · exact hl y h
    · rw [List.mem_singleton.mp h]; exact hx
  | replaceAt i r =>
    refine Keeps.bind (checkIndexAt_in hc a i) (fun _ h1 hc1 t1 _ => ?_)
    refine Keeps.bind (asRule_in hc1 (RuleObj.Ok.mono t1 he)) (fun x h2 hc2 t2 hx => ?_)
    exact setRules_in hc2 (D.setMono (D.trans t1 t2) ha) (hset _ _ _ hx)
  | replace o n =>
    refine Keeps.bind (read_in hc o) (fun r h1 hc1 t1 _ => ?_)
    refine Keeps.bind (findRule_in hc1 a r) (fun i h2 hc2 t2 _ => ?_)
    refine Keeps.bind (asRule_in hc2 (RuleObj.Ok.mono (D.trans t1 t2) he)) (fun x h3 hc3 t3 hx => ?_)
    refine Keeps.bind (checkIndexAt_in hc3 a i) (fun _ h4 hc4 t4 _ => ?_)
    exact setRules_in hc4 (D.setMono (D.trans (D.trans t1 t2) (D.trans t3 t4)) ha) (hset _ _ _ (D.ruleMono t4 hx))
  | removeAt i =>
    exact Keeps.bind (checkIndexAt_in hc a i) (fun _ h1 hc1 t1 _ => setRules_in hc1 (D.setMono t1 ha) (hdel _ _))
  | remove o =>
    refine Keeps.bind (read_in hc o) (fun r h1 hc1 t1 _ => ?_)
    refine Keeps.bind (findRule_in hc1 a r) (fun i h2 hc2 t2 _ => ?_)
    exact Keeps.bind (checkIndexAt_in hc2 a i) (fun _ h4 hc4 t4 _ =>
      setRules_in hc4 (D.setMono (D.trans (D.trans t1 t2) t4) ha) (hdel _ _))
  | insertAt i r =>
    refine Keeps.bind (checkIndexAt_in hc a i) (fun _ h1 hc1 t1 _ => ?_)
    refine Keeps.bind (asRule_in hc1 (RuleObj.Ok.mono t1 he)) (fun x h2 hc2 t2 hx => ?_)
    exact setRules_in hc2 (D.setMono (D.trans t1 t2) ha) (hins _ _ _ hx)
  | insert b n =>
    refine Keeps.bind (read_in hc b) (fun r h1 hc1 t1 _ => ?_)
    refine Keeps.bind (findRule_in hc1 a r) (fun i h2 hc2 t2 _ => ?_)
    refine Keeps.bind (asRule_in hc2 (RuleObj.Ok.mono (D.trans t1 t2) he)) (fun x h3 hc3 t3 hx => ?_)
    refine Keeps.bind (checkIndexAt_in hc3 a i) (fun _ h4 hc4 t4 _ => ?_)
    exact setRules_in hc4 (D.setMono (D.trans (D.trans t1 t2) (D.trans t3 t4)) ha) (hins _ _ _ (D.ruleMono t4 hx))

omit [Arith] [Arith.Lawful] in
theorem selfAt_in {h : Heap} (hc : D.I h) {α : Type} (c : Nat) (f : Clf → Option α) :
    Keeps D (selfAt c f) (fun _ _ => True) h :=
  Keeps.bind (Keeps.get hc) (fun _ _ hc' _ _ => (Keeps.noEffect hc').weaken (fun _ _ _ => trivial))

omit [Arith] [Arith.Lawful] in
theorem rulesetAt_post {h : Heap} (hc : D.I h) (c : Nat) :
    Keeps D (rulesetAt c) (fun a h' => (h.clf c).ruleset = some a ∧ h' = h) h := by
  refine Keeps.bind (Keeps.get hc) (fun s h' hc' _ e => ?_)
  refine (Keeps.noEffect hc').weaken (fun a h2 hx => ?_)
  obtain ⟨rfl, rfl⟩ := e
  refine ⟨?_, hx.2⟩
  cases hr : (h'.clf c).ruleset with
  | none => rw [hr] at hx; cases hx.1
  | some b => rw [hr] at hx; cases hx.1; rfl

omit [Arith] [Arith.Lawful] in
theorem rulesetAt_in {h : Heap} (hc : D.I h) {c : Nat} (hz : D.okClf h c) :
    Keeps D (rulesetAt c) (fun a h' => D.okSet h' a) h := by
  refine (rulesetAt_post hc c).weaken (fun a h' e => ?_)
  obtain ⟨e1, rfl⟩ := e
  exact D.ruleset hc hz e1

omit [Arith] [Arith.Lawful] in
theorem raised_in {h : Heap} (hc : D.I h) (e : Option PyErr) : Keeps D (raised e) (fun _ _ => True) h := by
  cases e with
  | some e => exact Keeps.throw hc
  | none => exact Keeps.pure hc trivial

omit [Arith] [Arith.Lawful] in
theorem recalAt_in (df : Frame) (cf : Feat) (pc : Val) (alpha : Rat) :
    ∀ (as : List Nat) {h : Heap}, D.I h → (∀ x ∈ as, D.okRule h x) →
      Keeps D (recalAt df cf pc alpha as) (fun _ _ => True) h := by
  intro as
  induction as with
  | nil => intro h hc _; exact Keeps.pure hc trivial
  | cons a as ih =>
    intro h hc hz
    refine Keeps.bind (Keeps.getThe hc) (fun s h' hc' _ e => ?_)
    obtain ⟨rfl, rfl⟩ := e
    refine Keeps.bind (Keeps.modify (Q := fun _ _ => True)
      (D.putRule (r := (recalRule df cf pc alpha (Heap.rule _ a)).1) hc' (hz a List.mem_cons_self)
        (recalRule_conds df cf pc alpha _)) trivial) (fun _ h2 hc2 t2 _ => ?_)
    exact Keeps.bind (raised_in hc2 _) (fun _ h3 hc3 t3 _ =>
      ih hc3 (fun x hx => D.ruleMono (D.trans t2 t3) (hz x (List.mem_cons_of_mem _ hx))))

omit [Arith] [Arith.Lawful] in
theorem recalibrateAt_in {h : Heap} (hc : D.I h) {a : Nat} (ha : D.okSet h a) (df : Frame) (cf : Feat)
    (pc : Val) (alpha : Rat) : Keeps D (recalibrateAt a df cf pc alpha) (fun _ _ => True) h := by
  refine Keeps.bind (Keeps.getThe hc) (fun s h1 hc1 t1 _ => ?_)
  have rest : ∀ h2, D.I h2 → D.okSet h2 a → Keeps D (do
      recalAt df cf pc alpha ((← MonadStateOf.get : Heap).set a).rules
      let covered ← noEffect (((← MonadStateOf.get : Heap).readSet a).covers df)
      let uncovered := df.dropLabels covered.index
      let tn ← noEffect (numNeg uncovered cf pc)
      let out := calibrate alpha ((tn : Int), (uncovered.rows.length : Int) - tn) ((← MonadStateOf.get : Heap).set a).uncov
      modify (fun h => h.putSet a { h.set a with uncov := out.1 })
      raised out.2 : OnHeap Unit) (fun _ _ => True) h2 := by
    intro h2 hc2 ha2
    refine Keeps.bind (Keeps.getThe hc2) (fun s h3 hc3 t3 e => ?_)
    obtain ⟨rfl, rfl⟩ := e
    refine Keeps.bind (recalAt_in df cf pc alpha _ hc3 (fun x hx => D.rules hc3 ha2 hx)) (fun _ h4 hc4 t4 _ => ?_)
    refine Keeps.bind (Keeps.getThe hc4) (fun s5 h5 hc5 t5 _ => ?_)
    refine Keeps.bind (Keeps.noEffect hc5) (fun cov h6 hc6 t6 _ => ?_)
    refine Keeps.bind (Keeps.noEffect hc6) (fun tn h7 hc7 t7 _ => ?_)
    refine Keeps.bind (Keeps.getThe hc7) (fun s8 h8 hc8 t8 _ => ?_)
    have ha8 := D.setMono (D.trans (D.trans t4 t5) (D.trans (D.trans t6 t7) t8)) ha2
    exact Keeps.bind (Keeps.modify (Q := fun _ _ => True) (D.putSet (s := { h8.set a with uncov := (calibrate alpha ((tn : Int),
      ((df.dropLabels cov.index).rows.length : Int) - tn) (s8.set a).uncov).1 }) hc8 ha8 (fun x hx => D.rules hc8 ha8 hx)) trivial)
      (fun _ h9 hc9 _ _ => raised_in hc9 _)
  split
  · exact Keeps.bind (Q := fun _ _ => True) (Keeps.throw hc1) (fun _ h2 hc2 t2 _ =>
      rest h2 hc2 (D.setMono (D.trans t1 t2) ha))
  · exact rest h1 hc1 (D.setMono t1 ha)

omit [Arith] [Arith.Lawful] in
theorem recalibrateClf_in {h : Heap} (hc : D.I h) {c : Nat} (hz : D.okClf h c) (F : PyFloat) (X : TFrame)
    (y : Option YArg) (names : Option (List Feat)) (disc : Bool) :
    Keeps D (recalibrateClf F c X y names disc) (fun _ _ => True) h := by
  refine Keeps.bind (selfAt_in hc c Clf.classFeat) (fun cf h1 hc1 t1 _ => ?_)
  refine Keeps.bind (selfAt_in hc1 c Clf.posClass) (fun pc h2 hc2 t2 _ => ?_)
  refine Keeps.bind (Q := fun _ _ => True) ?_ (fun b h3 hc3 t3 _ => ?_)
  · split
    · exact Keeps.bind (selfAt_in hc2 c Clf.binner) (fun _ h' hc' _ _ => Keeps.pure hc' trivial)
    · exact Keeps.pure hc2 trivial
  refine Keeps.bind (Keeps.noEffect hc3) (fun df h4 hc4 t4 _ => ?_)
  refine Keeps.bind (rulesetAt_in hc4 (D.clfMono (D.trans (D.trans t1 t2) (D.trans t3 t4)) hz)) (fun a h5 hc5 t5 ha => ?_)
  refine Keeps.bind (Keeps.getThe hc5) (fun s h6 hc6 t6 _ => ?_)
  exact recalibrateAt_in hc6 (D.setMono t6 ha) _ _ _ _

omit [Arith] [Arith.Lawful] in
theorem putAttrs_in {h : Heap} (hc : D.I h) {c : Nat} (hz : D.okClf h c) (v : Clf) :
    D.I (h.putAttrs c v) ∧ D.T h (h.putAttrs c v) :=
  D.putClf hc hz (fun _ e => D.ruleset hc hz e)

omit [Arith] [Arith.Lawful] in
theorem putRef_in {h : Heap} (hc : D.I h) {c : Nat} (hz : D.okClf h c) (v : Clf) {a : Nat} (ha : D.okSet h a) :
    D.I (h.putRef c v a) ∧ D.T h (h.putRef c v a) :=
  D.putClf hc hz (fun b e => by cases e; exact ha)

omit [Arith] [Arith.Lawful] in
theorem queryClf_in {h : Heap} (hc : D.I h) {c : Nat} (hz : D.okClf h c) (F : PyFloat) (q : Call) :
    Keeps D (queryClf F c q) (fun _ _ => True) h := by
  have key : ∀ v, D.I (h.putAttrs c v) ∧ D.T h (h.putAttrs c v) := fun v => putAttrs_in hc hz v
  cases hr : q.run F (h.readClf c) with
  | ok x v =>
    have : queryClf F c q h = .ok x (h.putAttrs c v) := by simp only [queryClf, hr]
    exact ⟨this ▸ (key v).1, this ▸ (key v).2, fun _ _ _ => trivial⟩
  | error e v =>
    have : queryClf F c q h = .error e (h.putAttrs c v) := by simp only [queryClf, hr]
    exact ⟨this ▸ (key v).1, this ▸ (key v).2, fun _ _ _ => trivial⟩

omit [Arith] [Arith.Lawful] in
theorem newEmpty_in {h : Heap} (hc : D.I h) : Keeps D (alloc (·.newSet {})) (fun a h' => D.okSet h' a) h :=
  Keeps.alloc (D.newSet (s := {}) hc (by intro x hx; cases hx))

omit [Arith] [Arith.Lawful] in
theorem copied_in {h : Heap} (hc : D.I h) {m : ModelObj} (hm : m.Copyable D h) :
    Keeps D m.copied (fun a h' => D.okSet h' a) h := by
  cases m with
  | nothing => exact newEmpty_in hc
  | ruleset a =>
    refine Keeps.bind (Keeps.getThe hc) (fun s h' hc' _ e => ?_)
    obtain ⟨rfl, rfl⟩ := e
    split
    · exact newEmpty_in hc'
    · exact Keeps.alloc (D.deepcopy hc' hm)
  | text s => exact Keeps.bind (Keeps.noEffect hc) (fun rs h' hc' _ _ => Keeps.alloc (D.newRuleset rs hc'))
  | clf c =>
    refine Keeps.bind (rulesetAt_post hc c) (fun a h' hc' _ e => ?_)
    obtain ⟨e1, rfl⟩ := e
    exact Keeps.alloc (D.deepcopy hc' (hm a e1))

omit [Arith] [Arith.Lawful] in
theorem initRulesetAt_in {h : Heap} (hc : D.I h) {c : Nat} (hz : D.okClf h c) {m : ModelObj} (hm : m.Copyable D h) (cf : Feat)
    (pc : Val) : Keeps D (initRulesetAt c m cf pc) (fun _ _ => True) h :=
  Keeps.bind (copied_in hc hm) (fun _ _ hc' t ha => Keeps.modify (putRef_in hc' (D.clfMono t hz) _ ha) trivial)

omit [Arith] [Arith.Lawful] in
theorem shared_in {h : Heap} (hc : D.I h) {m : ModelObj} (hm : m.Ok D h) :
    Keeps D m.shared (fun a h' => D.okSet h' a) h := by
  cases m with
  | nothing => exact newEmpty_in hc
  | ruleset a =>
    refine Keeps.bind (Keeps.getThe hc) (fun s h' hc' t _ => ?_)
    split
    · exact newEmpty_in hc'
    · exact Keeps.pure hc' (D.setMono t hm)
  | text s => exact Keeps.bind (Keeps.noEffect hc) (fun rs h' hc' _ _ => Keeps.alloc (D.newRuleset rs hc'))
  | clf c =>
    refine Keeps.bind (Keeps.getThe hc) (fun s h' hc' _ e => ?_)
    obtain ⟨rfl, rfl⟩ := e
    split
    · next a ha => exact Keeps.pure hc' (D.ruleset hc' hm ha)
    · exact newEmpty_in hc'

omit [Arith] [Arith.Lawful] in
theorem shared_allocs {h : Heap} (hc : D.I h) (m : ModelObj) : Keeps D m.shared (fun _ _ => True) h := by
  cases m with
  | nothing => exact (newEmpty_in hc).weaken (fun _ _ _ => trivial)
  | ruleset a =>
    refine Keeps.bind (Keeps.getThe hc) (fun s h' hc' _ _ => ?_)
    split
    · exact (newEmpty_in hc').weaken (fun _ _ _ => trivial)
    · exact Keeps.pure hc' trivial
  | text s =>
    exact Keeps.bind (Keeps.noEffect hc) (fun rs h' hc' _ _ =>
      (Keeps.alloc (Q := fun a h' => D.okSet h' a) (D.newRuleset rs hc')).weaken (fun _ _ _ => trivial))
  | clf c =>
    refine Keeps.bind (Keeps.getThe hc) (fun s h' hc' _ e => ?_)
    split
    · exact Keeps.pure hc' trivial
    · exact (newEmpty_in hc').weaken (fun _ _ _ => trivial)

omit [Arith] [Arith.Lawful] in
/-- Binding `ruleset_` twice is binding it once. -/
theorem putRef_newRuleset (h : Heap) (c : Nat) (v w : Clf) (a : Nat) (rs : Ruleset) :
    ((h.putRef c v a).newRuleset rs).1 = (h.newRuleset rs).1 ∧
    ((h.putRef c v a).newRuleset rs).2.putRef c w ((h.putRef c v a).newRuleset rs).1 =
      (h.newRuleset rs).2.putRef c w (h.newRuleset rs).1 := by
  refine ⟨rfl, ?_⟩
  simp only [Heap.newRuleset, Heap.newSet, Heap.putSet, Heap.putRef, Heap.putClf, Heap.mk.injEq, and_true]
  refine ⟨rfl, rfl, ?_⟩
  funext x
  by_cases hx : x = c
  · simp [hx]
  · simp [hx]


omit [Arith] [Arith.Lawful] in
theorem bindGrown_ok (u : Unit) (c : Nat) (v : Clf) (h : Heap) :
    bindGrown (.ok u) c v h = .ok () ((h.newRuleset (v.ruleset.getD { rules := [] })).2.putRef c v
      (h.newRuleset (v.ruleset.getD { rules := [] })).1) := rfl


omit [Arith] [Arith.Lawful] in
/-- Running the initial binding. -/
theorem bindInitial_run (first : Bool) (c : Nat) (v : Clf) (im : ModelObj) (h : Heap) :
    bindInitial first c v im h = if first then (match im.shared h with
      | .ok a h1 => .ok () (h1.putRef c v a)
      | .error e h1 => .error e h1) else .ok () h := by
  cases first with
  | false => rfl
  | true =>
    show (im.shared >>= fun a => modify (·.putRef c v a)) h = _
    rw [heap_bind]
    cases im.shared h <;> rfl

omit [Arith.Lawful] in
theorem fitAt_run (m : Method) (fuel : Nat) (R : PyRandom) (F : PyFloat) (P : PandasCut) (c : Nat) (d : FitData)
    (im : ModelObj) (g : R.G) (h : Heap) :
    fitAt m fuel R F P c d im g h =
      match bindInitial m.bindsFirst c (h.readClf c) im h with
      | .error e h1 => .error e h1
      | .ok _ h1 =>
        match bindGrown (m.grows fuel R F P (h.readClf c).nBins (h.readClf c).hyper d (im.seen m.bindsFirst c h) g) c
          (after (m.fit fuel R F P d (im.seen m.bindsFirst c h) g (h.readClf c))) h1 with
        | .error e h2 => .error e h2
        | .ok _ h2 => noEffect (returned (m.fit fuel R F P d (im.seen m.bindsFirst c h) g (h.readClf c))) h2 := by
  show (bindInitial m.bindsFirst c (h.readClf c) im >>= fun _ =>
    bindGrown (m.grows fuel R F P (h.readClf c).nBins (h.readClf c).hyper d (im.seen m.bindsFirst c h) g) c
          (after (m.fit fuel R F P d (im.seen m.bindsFirst c h) g (h.readClf c))) >>= fun _ =>
    noEffect (returned (m.fit fuel R F P d (im.seen m.bindsFirst c h) g (h.readClf c)))) h = _
  rw [heap_bind]
  cases bindInitial m.bindsFirst c (h.readClf c) im h with
  | error e h1 => rfl
  | ok u h1 =>
    simp only [heap_bind]
    cases bindGrown (m.grows fuel R F P (h.readClf c).nBins (h.readClf c).hyper d (im.seen m.bindsFirst c h) g) c
        (after (m.fit fuel R F P d (im.seen m.bindsFirst c h) g (h.readClf c))) h1 <;> rfl

omit [Arith] [Arith.Lawful] in
theorem noEffect_run {α : Type} (x : Except PyErr α) (h : Heap) :
    afterwards (noEffect x h) = h ∧ answered (noEffect x h) = x := by
  cases x <;> exact ⟨rfl, rfl⟩

omit [Arith.Lawful] in
/-- When rules have been grown, the first binding leaves no trace. -/
theorem fitAt_grown {m : Method} {fuel : Nat} {R : PyRandom} {F : PyFloat} {P : PandasCut} {c : Nat} {d : FitData}
    {im : ModelObj} {g : R.G} {h : Heap} {u : Unit}
    (hg : m.grows fuel R F P (h.readClf c).nBins (h.readClf c).hyper d (im.seen m.bindsFirst c h) g = .ok u) :
    fitAt m fuel R F P c d im g h =
      match (if m.bindsFirst then im.shared h else .ok 0 h) with
      | .error e h1 => .error e h1
      | .ok _ h1 =>
        noEffect (returned (m.fit fuel R F P d (im.seen m.bindsFirst c h) g (h.readClf c)))
          ((h1.newRuleset ((after (m.fit fuel R F P d (im.seen m.bindsFirst c h) g (h.readClf c))).ruleset.getD { rules := [] })).2.putRef c
            (after (m.fit fuel R F P d (im.seen m.bindsFirst c h) g (h.readClf c)))
            (h1.newRuleset ((after (m.fit fuel R F P d (im.seen m.bindsFirst c h) g (h.readClf c))).ruleset.getD { rules := [] })).1) := by
  rw [fitAt_run, hg, bindInitial_run]
  cases m.bindsFirst with
  | false => rfl
  | true =>
    simp only [if_true]
    cases im.shared h with
    | error e h1 => rfl
    | ok a h1 =>
      simp only [bindGrown_ok]
      rw [(putRef_newRuleset h1 c (h.readClf c) _ a _).2]

omit [Arith.Lawful] in
theorem fitAt_in {h : Heap} (hc : D.I h) (m : Method) (fuel : Nat) (R : PyRandom) (F : PyFloat)
    (P : PandasCut) {c : Nat} (hz : D.okClf h c) (d : FitData) (im : ModelObj) (g : R.G)
    (hm : m.bindsFirst = true → (∃ e, m.grows fuel R F P (h.readClf c).nBins (h.readClf c).hyper d (im.seen m.bindsFirst c h) g = .error e) →
      im.Ok D h) : Keeps D (fitAt m fuel R F P c d im g) (fun _ _ => True) h := by
  cases hg : m.grows fuel R F P (h.readClf c).nBins (h.readClf c).hyper d (im.seen m.bindsFirst c h) g with
  | error e =>
    refine Keeps.bind (Keeps.get hc) (fun s h' hc' _ e' => ?_)
    obtain ⟨rfl, rfl⟩ := e'
    rw [hg] at hm
    refine Keeps.bind (Q := fun _ _ => True) ?_ (fun _ h1 hc1 t1 _ => ?_)
    · unfold bindInitial
      split
      · next hb =>
        exact Keeps.bind (shared_in hc' (hm hb ⟨e, rfl⟩)) (fun a h1 hc1 t1 ha =>
          Keeps.modify (putRef_in hc1 (D.clfMono t1 hz) _ ha) trivial)
      · exact Keeps.pure hc' trivial
    · refine Keeps.bind (Q := fun _ _ => True) ?_ (fun _ h2 hc2 _ _ => (Keeps.noEffect hc2).weaken (fun _ _ _ => trivial))
      simp only [hg]
      exact Keeps.modify (putAttrs_in hc1 (D.clfMono t1 hz) _) trivial
  | ok u =>
    have key : ∀ h1, D.I h1 → D.T h h1 → ∀ (x : Except PyErr R.G) v rs,
        D.I (afterwards (noEffect x ((h1.newRuleset rs).2.putRef c v (h1.newRuleset rs).1))) ∧
        D.T h (afterwards (noEffect x ((h1.newRuleset rs).2.putRef c v (h1.newRuleset rs).1))) := by
      intro h1 hc1 hu1 x v rs
      obtain ⟨g1, g2, g3⟩ := D.newRuleset rs hc1
      obtain ⟨k1, k2⟩ := putRef_in g1 (D.clfMono (D.trans hu1 g2) hz) v g3
      rw [(noEffect_run x _).1]
      exact ⟨k1, D.trans (D.trans hu1 g2) k2⟩
    have hrun := fitAt_grown hg
    cases hb : m.bindsFirst with
    | false =>
      rw [hb] at hrun
      simp only [Bool.false_eq_true, if_false] at hrun
      have := key h hc (D.refl _)
      exact ⟨hrun ▸ (this _ _ _).1, hrun ▸ (this _ _ _).2, fun _ _ _ => trivial⟩
    | true =>
      rw [hb] at hrun
      simp only [if_true] at hrun
      have hs := shared_allocs hc im
      cases hsh : im.shared h with
      | error e h1 =>
        rw [hsh] at hrun
        have h1c := hs.inv
        have h1u := hs.step
        rw [hsh] at h1c h1u
        exact ⟨hrun ▸ h1c, hrun ▸ h1u, fun _ _ _ => trivial⟩
      | ok a h1 =>
        rw [hsh] at hrun
        have h1c := hs.inv
        have h1u := hs.step
        rw [hsh] at h1c h1u
        have := key h1 h1c h1u
        exact ⟨hrun ▸ (this _ _ _).1, hrun ▸ (this _ _ _).2, fun _ _ _ => trivial⟩

omit [Arith.Lawful] in
/-- Every call keeps to the discipline. -/
theorem call_in {h : Heap} (hc : D.I h) {k : HCall} (hk : k.Ok D h) : Keeps D k.run (fun _ _ => True) h := by
  have done : ∀ {α : Type} {m : OnHeap α} {Q : α → Heap → Prop} {f : α → Returned}, Keeps D m Q h →
      Keeps D (m >>= fun x => (Pure.pure (f x) : OnHeap Returned)) (fun _ _ => True) h :=
    fun hm => Keeps.bind hm (fun _ _ hc' _ _ => Keeps.pure hc' trivial)
  cases k with
  | newClf hp n =>
    obtain ⟨g1, g2⟩ := D.newClf (o := { attrs := { hyper := hp, nBins := n } }) hc (by intro a e; cases e)
    exact done (Keeps.alloc (Q := fun _ _ => True) ⟨g1, g2, trivial⟩)
  | newRule cs => exact done (Keeps.alloc (Q := fun x h' => D.okRule h' x) (D.newRule { conds := cs } hc))
  | newSet rules => exact done (Keeps.alloc (Q := fun a h' => D.okSet h' a) (D.newSet (s := { rules := rules }) hc hk))
  | copyClf c =>
    refine Keeps.bind (Keeps.getThe hc) (fun s h' hc' _ e => ?_)
    obtain ⟨rfl, rfl⟩ := e
    split
    · next hr =>
      obtain ⟨g1, g2⟩ := D.newClf (o := Heap.clf _ c) hc' (by intro a e; rw [hr] at e; cases e)
      exact Keeps.bind (Keeps.alloc (Q := fun _ _ => True) ⟨g1, g2, trivial⟩) (fun _ _ hc' _ _ => Keeps.pure hc' trivial)
    · next a hr =>
      refine Keeps.bind (Keeps.alloc (Q := fun a h' => D.okSet h' a) (D.deepcopy hc' (hk a hr))) (fun b h1 hc1 _ hb => ?_)
      obtain ⟨k1, k2⟩ := D.newClf (o := { attrs := (h1.clf c).attrs, ruleset := some b }) hc1 (by intro a e; cases e; exact hb)
      exact Keeps.bind (Keeps.alloc (Q := fun _ _ => True) ⟨k1, k2, trivial⟩) (fun _ _ hc' _ _ => Keeps.pure hc' trivial)
  | copySet a => exact done (Keeps.alloc (Q := fun a h' => D.okSet h' a) (D.deepcopy hc hk))
  | init c m cf pc => exact done (initRulesetAt_in hc hk.1 hk.2 cf pc)
  | edit c e =>
    refine Keeps.bind (rulesetAt_post hc c) (fun a h1 hc1 _ ha => ?_)
    obtain ⟨ha, rfl⟩ := ha
    exact Keeps.bind (edit_in hc1 (D.ruleset hc1 hk.1 ha) hk.2) (fun _ _ hc' _ _ => Keeps.pure hc' trivial)
  | editSet a e => exact done (edit_in hc hk.1 hk.2)
  | recalibrate F c X y names disc => exact done (recalibrateClf_in hc hk F X y names disc)
  | fit m fuel R F P c d im g => exact done (fitAt_in hc m fuel R F P hk.1 d im g hk.2)
  | query F c q => exact done (queryClf_in hc hk F q)

end Witt
