import Verif.Heap
/-
What is said about objects and references in Props/Heap.lean: histories of calls, regions of objects, ownership.
-/
namespace Witt
namespace Spec
variable [Arith]

/-- The heap after a call, whether it returned or raised. -/
def afterwards {α : Type} : EStateM.Result PyErr Heap α → Heap
  | .ok _ h => h
  | .error _ h => h
/-- What a call returned, or the exception it raised. -/
def answered {α : Type} : EStateM.Result PyErr Heap α → Except PyErr α
  | .ok a _ => .ok a
  | .error e _ => .error e

/-- A history of calls, each of them allowed by `P` in the heap it is made in; the caller catches every exception. -/
inductive Run (P : Heap → HCall → Prop) : Heap → Heap → Prop
  | refl (h : Heap) : Run P h h
  | call {h h' : Heap} (k : HCall) : P h k → Run P (afterwards (k.run h)) h' → Run P h h'

/-! ### existing objects -/

/-- The rule passed is no Rule object, or one that exists. -/
def RuleExists (h : Heap) : RuleObj → Prop
  | .obj x => x < h.rules
  | _ => True
/-- The rules passed exist. -/
def EditExists (h : Heap) : EditCall → Prop
  | .add r => RuleExists h r
  | .replaceAt _ r => RuleExists h r
  | .replace o r => RuleExists h o ∧ RuleExists h r
  | .removeAt _ => True
  | .remove o => RuleExists h o
  | .insertAt _ r => RuleExists h r
  | .insert o r => RuleExists h o ∧ RuleExists h r
/-- The model passed exists. -/
def ModelExists (h : Heap) : ModelObj → Prop
  | .ruleset a => a < h.sets
  | .clf c => c < h.clfs
  | _ => True
/-- The call is made on, and with, objects that exist. -/
def Exists (h : Heap) : HCall → Prop
  | .newClf _ _ => True
  | .newRule _ => True
  | .newSet rules => ∀ x ∈ rules, x < h.rules
  | .copyClf c => c < h.clfs
  | .copySet a => a < h.sets
  | .init c m _ _ => c < h.clfs ∧ ModelExists h m
  | .edit c e => c < h.clfs ∧ EditExists h e
  | .editSet a e => a < h.sets ∧ EditExists h e
  | .recalibrate _ c _ _ _ _ => c < h.clfs
  | .fit _ _ _ _ _ c _ im _ => c < h.clfs ∧ ModelExists h im
  | .query _ c _ => c < h.clfs
/-- A heap some program leads to. -/
def Reachable (h : Heap) : Prop := Run Exists {} h

/-! ### regions -/

/-- Some of the objects. -/
structure Region where
  clf : Nat → Prop
  set : Nat → Prop
  rule : Nat → Prop
/-- No object of the region refers to one outside; free addresses belong to the region. -/
structure Closed (Z : Region) (h : Heap) : Prop where
  ruleset : ∀ c, Z.clf c → ∀ a, (h.clf c).ruleset = some a → Z.set a
  rules : ∀ a, Z.set a → ∀ x ∈ (h.set a).rules, Z.rule x
  freeClf : ∀ c, h.clfs ≤ c → Z.clf c
  freeSet : ∀ a, h.sets ≤ a → Z.set a
  freeRule : ∀ x, h.rules ≤ x → Z.rule x
/-- The rule passed is no Rule object outside the region. -/
def RuleIn (Z : Region) : RuleObj → Prop
  | .obj x => Z.rule x
  | _ => True
/-- The rule the call puts into the ruleset is no Rule object outside the region. -/
def EditIn (Z : Region) : EditCall → Prop
  | .add r => RuleIn Z r
  | .replaceAt _ r => RuleIn Z r
  | .replace _ r => RuleIn Z r
  | .removeAt _ => True
  | .remove _ => True
  | .insertAt _ r => RuleIn Z r
  | .insert _ r => RuleIn Z r
/-- The model passed is no object outside the region. -/
def ModelIn (Z : Region) : ModelObj → Prop
  | .ruleset a => Z.set a
  | .clf c => Z.clf c
  | _ => True
/-- The call is made on an object of the region, and puts no Rule object from outside into it. Anything may be copied, and
anything may be passed to `fit` or `init_ruleset` as a model, except to an IREP `fit` that raises. -/
def Within (Z : Region) (h : Heap) : HCall → Prop
  | .newClf _ _ => True
  | .newRule _ => True
  | .newSet rules => ∀ x ∈ rules, Z.rule x
  | .copyClf _ => True
  | .copySet _ => True
  | .init c _ _ _ => Z.clf c
  | .edit c e => Z.clf c ∧ EditIn Z e
  | .editSet a e => Z.set a ∧ EditIn Z e
  | .recalibrate _ c _ _ _ _ => Z.clf c
  | .fit m fuel R F P c d im g => Z.clf c ∧ (m.bindsFirst = true →
      (∃ e, answered (fitAt m fuel R F P c d im g h) = .error e) → ModelIn Z im)
  | .query _ c _ => Z.clf c

/-- The classifier `c`, and everything made after `h`. -/
def sinceAnd (c : Nat) (h : Heap) : Region :=
  ⟨fun d => d = c ∨ h.clfs ≤ d, fun a => h.sets ≤ a, fun x => h.rules ≤ x⟩
/-- Everything but the classifier `c` and the Ruleset and Rule objects made between `h` and `h1`. -/
def elsewhere (c : Nat) (h h1 : Heap) : Region :=
  ⟨fun d => d ≠ c, fun a => a < h.sets ∨ h1.sets ≤ a, fun x => x < h.rules ∨ h1.rules ≤ x⟩
/-- The call from `h` to `h1` left the classifier `c` with rules of its own: no later calls on `c` and on new objects
change any other classifier or Ruleset object there was before, and no later calls on other objects change `c`. -/
structure OwnRules (h h1 : Heap) (c : Nat) : Prop where
  others : ∀ h2, Run (Within (sinceAnd c h)) h1 h2 →
    (∀ d < h.clfs, d ≠ c → h2.readClf d = h.readClf d) ∧ ∀ a < h.sets, h2.readSet a = h.readSet a
  self : ∀ h2, Run (Within (elsewhere c h h1)) h1 h2 → h2.readClf c = h1.readClf c

/-! ### ownership -/

/-- Every Ruleset object belongs to at most one classifier and every Rule object is listed at most once. -/
structure OneOwner (h : Heap) : Prop where
  ruleset : ∀ c d a, (h.clf c).ruleset = some a → (h.clf d).ruleset = some a → c = d
  rules : ∀ a b x, x ∈ (h.set a).rules → x ∈ (h.set b).rules → a = b
  once : ∀ a, (h.set a).rules.Nodup
/-- No Ruleset object lists this Rule object. -/
def Unlisted (h : Heap) (x : Nat) : Prop := ∀ a, x ∉ (h.set a).rules
/-- The rule passed is no Rule object, or one that no Ruleset object lists. -/
def RuleFree (h : Heap) : RuleObj → Prop
  | .obj x => Unlisted h x
  | _ => True
/-- The rule the call puts into the ruleset is no Rule object that is listed already. -/
def EditFree (h : Heap) : EditCall → Prop
  | .add r => RuleFree h r
  | .replaceAt _ r => RuleFree h r
  | .replace _ r => RuleFree h r
  | .removeAt _ => True
  | .remove _ => True
  | .insertAt _ r => RuleFree h r
  | .insert _ r => RuleFree h r
/-- The model passed to the `fit` of `c` is no Ruleset object of another classifier. -/
def ModelFree (h : Heap) (c : Nat) : ModelObj → Prop
  | .ruleset a => ∀ d, (h.clf d).ruleset = some a → d = c
  | .clf d => d = c
  | _ => True
/-- The call is made on, and with, objects that exist; it lists no Rule object a second time, and passes no other object's
rules to an IREP `fit` that raises. -/
def Unshared (h : Heap) (k : HCall) : Prop :=
  Exists h k ∧ match k with
    | .newSet rules => rules.Nodup ∧ ∀ x ∈ rules, Unlisted h x
    | .edit _ e => EditFree h e
    | .editSet _ e => EditFree h e
    | .fit m fuel R F P c d im g => m.bindsFirst = true →
        (∃ e, answered (fitAt m fuel R F P c d im g h) = .error e) → ModelFree h c im
    | _ => True
/-- A heap led to by a program that shares nothing. -/
def Orderly (h : Heap) : Prop := Run Unshared {} h
/-- A call on the classifier `c` does what the method does with the classifier as a value (`out`): it leaves that value,
raises that exception or none, and changes no other classifier and no other Ruleset object. -/
structure ActsAs {α : Type} (h : Heap) (c : Nat) (out : EStateM.Result PyErr Clf α)
    (res : EStateM.Result PyErr Heap Returned) : Prop where
  value : (afterwards res).readClf c = after out
  raises : ∀ e, answered res = .error e ↔ returned out = .error e
  others : ∀ d < h.clfs, d ≠ c → (afterwards res).readClf d = h.readClf d
  rulesets : ∀ a < h.sets, (h.clf c).ruleset ≠ some a → (afterwards res).readSet a = h.readSet a


/-- A query about which examples the rules cover (no probabilities, no Rule objects in the answer). -/
def OfCoverage : Call → Prop
  | .predict _ _ => True
  | .score _ _ _ => True
  | .ruleStats _ _ _ => True
  | _ => False

end Spec
end Witt
