import Verif.Props.Equality
/-
Properties of the editing API: C13, C14.
-/
namespace Witt

/-! ### Specification: a plain list of rules -/
namespace Spec

/-- Replace / remove / insert before the first rule equal to `o`; `none` if there is none. -/
def atFirst (o : Rule) (f : Rule → List Rule) : List Rule → Option (List Rule)
  | [] => none
  | r :: l => if r.pyEq o then some (f r ++ l) else (atFirst o f l).map (r :: ·)

/-- What an editing call does to a plain list of rules: the new list, or the exception. -/
def edit (l : List Rule) : EditOp → Except PyErr (List Rule)
  | .add r => do return l ++ [← asRule r]
  | .replaceAt i r =>
    if 0 ≤ i ∧ i < l.length then do return l.set i.toNat (← asRule r) else .error .indexError
  | .removeAt i => if 0 ≤ i ∧ i < l.length then .ok (l.eraseIdx i.toNat) else .error .indexError
  | .insertAt i r =>
    if 0 ≤ i ∧ i < l.length then do return l.take i.toNat ++ (← asRule r) :: l.drop i.toNat
    else .error .indexError
  | .remove o => do
    match atFirst (← asRule o) (fun _ => []) l with
    | some l' => .ok l'
    | none => .error .valueError
  | .replace o n => do
    let o ← asRule o
    if l.any (fun r => r.pyEq o) then do
      let n ← asRule n
      .ok ((atFirst o (fun _ => [n]) l).getD l)
    else .error .valueError
  | .insert o n => do
    let o ← asRule o
    if l.any (fun r => r.pyEq o) then do
      let n ← asRule n
      .ok ((atFirst o (fun r => [n, r]) l).getD l)
    else .error .valueError

/-- A history on a plain list, exceptions leaving it unchanged. -/
def runEdits (l : List Rule) : List EditOp → List Rule × List (Option PyErr)
  | [] => (l, [])
  | op :: ops =>
    match edit l op with
    | .ok l' => let r := runEdits l' ops; (r.1, none :: r.2)
    | .error e => let r := runEdits l ops; (r.1, some e :: r.2)

end Spec

/-! ### the methods, evaluated -/

theorem checkIndex_eq (i : Int) (rs : Ruleset) : checkIndex i rs =
    if 0 ≤ i ∧ i < rs.rules.length then .ok () rs else .error .indexError rs := by
  by_cases h : 0 ≤ i ∧ i < rs.rules.length
  · have : ¬ (i < 0 ∨ i ≥ rs.rules.length) := by omega
    simp only [checkIndex, bind, EStateM.bind, get, getThe, MonadStateOf.get, EStateM.get, this, h,
      if_false, and_self, if_true]; rfl
  · have : (i < 0 ∨ i ≥ rs.rules.length) := by omega
    simp only [checkIndex, bind, EStateM.bind, get, getThe, MonadStateOf.get, EStateM.get, this, h,
      if_false, if_true]; rfl

theorem rsAdd_eq (r : RuleArg) (rs : Ruleset) : rsAdd r rs = match asRule r with
    | .ok r => .ok () { rs with rules := rs.rules ++ [r] }
    | .error e => .error e rs := by
  unfold rsAdd; cases h : asRule r <;> rfl

theorem rsRemove_eq (i : Int) (rs : Ruleset) : rsRemove i rs =
    if 0 ≤ i ∧ i < rs.rules.length then .ok () { rs with rules := rs.rules.eraseIdx i.toNat }
    else .error .indexError rs := by
  unfold rsRemove
  simp only [bind, EStateM.bind, checkIndex_eq]
  by_cases h : 0 ≤ i ∧ i < rs.rules.length
  · simp only [h, and_self, if_true]; rfl
  · simp only [h, if_false]

theorem rsReplace_eq (i : Int) (a : RuleArg) (rs : Ruleset) : rsReplace i a rs =
    if 0 ≤ i ∧ i < rs.rules.length then
      match asRule a with
      | .ok r => .ok () { rs with rules := rs.rules.set i.toNat r }
      | .error e => .error e rs
    else .error .indexError rs := by
  unfold rsReplace
  simp only [bind, EStateM.bind, checkIndex_eq]
  by_cases h : 0 ≤ i ∧ i < rs.rules.length
  · simp only [h, and_self, if_true]; cases asRule a <;> rfl
  · simp only [h, if_false]

theorem rsInsert_eq (i : Int) (a : RuleArg) (rs : Ruleset) : rsInsert i a rs =
    if 0 ≤ i ∧ i < rs.rules.length then
      match asRule a with
      | .ok r => .ok () { rs with rules := rs.rules.insertIdx i.toNat r }
      | .error e => .error e rs
    else .error .indexError rs := by
  unfold rsInsert
  simp only [bind, EStateM.bind, checkIndex_eq]
  by_cases h : 0 ≤ i ∧ i < rs.rules.length
  · simp only [h, and_self, if_true]; cases asRule a <;> rfl
  · simp only [h, if_false]

theorem checkRule_eq (r : Rule) (rs : Ruleset) : checkRule r rs =
    if rs.rules.any (fun s => s.pyEq r) then .ok () rs else .error .valueError rs := by
  unfold checkRule
  simp only [bind, EStateM.bind, get, getThe, MonadStateOf.get, EStateM.get]
  cases rs.rules.any (fun s => s.pyEq r) <;> rfl

theorem ruleIndex_eq (r : Rule) (rs : Ruleset) : ruleIndex r rs =
    match rs.rules.findIdx? (fun s => s.pyEq r) with
    | some i => .ok (i : Int) rs
    | none => .error .valueError rs := by
  unfold ruleIndex
  simp only [bind, EStateM.bind, get, getThe, MonadStateOf.get, EStateM.get]
  cases rs.rules.findIdx? (fun s => s.pyEq r) <;> rfl

theorem lift_eq {α : Type} (x : Except PyErr α) (rs : Ruleset) : lift x rs =
    match x with | .ok a => .ok a rs | .error e => .error e rs := by
  cases x <;> rfl

theorem atFirst_spec (o : Rule) (f : Rule → List Rule) (l : List Rule) :
    Spec.atFirst o f l = match l.findIdx? (fun s => s.pyEq o) with
      | some i => (l[i]?).map (fun r => l.take i ++ (f r ++ l.drop (i + 1)))
      | none => none := by
  induction l with
  | nil => rfl
  | cons r l ih =>
    unfold Spec.atFirst
    rw [List.findIdx?_cons]
    by_cases h : r.pyEq o = true
    · simp [h]
    · simp only [h, Bool.false_eq_true, if_false, ih]
      cases l.findIdx? (fun s => s.pyEq o) with
      | none => rfl
      | some i => simp [Option.map_map, Function.comp_def]

theorem findIdx?_of_any {o : Rule} {l : List Rule} (h : l.any (fun s => s.pyEq o) = true) :
    ∃ i, ∃ hi : i < l.length, l.findIdx? (fun s => s.pyEq o) = some i ∧ l[i].pyEq o = true := by
  rcases hf : l.findIdx? (fun s => s.pyEq o) with _ | i
  · rw [List.findIdx?_eq_none_iff] at hf
    obtain ⟨x, hx, hx'⟩ := List.any_eq_true.1 h
    exact absurd (hf x hx) (by simp [hx'])
  · obtain ⟨hi, hp, _⟩ := List.findIdx?_eq_some_iff_getElem.1 hf
    exact ⟨i, hi, hf, hp⟩

theorem findIdx?_of_not_any {o : Rule} {l : List Rule} (h : ¬ l.any (fun s => s.pyEq o) = true) :
    l.findIdx? (fun s => s.pyEq o) = none := by
  rw [List.findIdx?_eq_none_iff]
  intro x hx
  cases hx' : x.pyEq o
  · rfl
  · exact absurd (List.any_eq_true.2 ⟨x, hx, hx'⟩) h

theorem insertIdx_take_drop {α : Type} (a : α) : ∀ (l : List α) (i : Nat), i ≤ l.length →
    l.insertIdx i a = l.take i ++ a :: l.drop i
  | l, 0, _ => by simp
  | [], i + 1, h => by simp at h
  | x :: l, i + 1, h => by
    simp [insertIdx_take_drop a l i (by simpa using h)]

theorem set_take_drop {α : Type} (a : α) : ∀ (l : List α) (i : Nat), i < l.length →
    l.set i a = l.take i ++ a :: l.drop (i + 1)
  | [], i, h => by simp at h
  | x :: l, 0, _ => by simp
  | x :: l, i + 1, h => by
    simp [set_take_drop a l i (by simpa using h)]

/-- One call refines one list operation, other attributes untouched. -/
theorem call_refines (op : EditOp) (rs : Ruleset) :
    op.call rs = match Spec.edit rs.rules op with
      | .ok l => .ok () { rs with rules := l }
      | .error e => .error e rs := by
  cases op with
  | add r =>
    simp only [EditOp.call, rsAdd_eq, Spec.edit]; cases asRule r <;> rfl
  | replaceAt i r =>
    simp only [EditOp.call, rsReplace_eq, Spec.edit]
    split
    · cases asRule r <;> rfl
    · rfl
  | removeAt i =>
    simp only [EditOp.call, rsRemove_eq, Spec.edit]
    split <;> rfl
  | insertAt i r =>
    simp only [EditOp.call, rsInsert_eq, Spec.edit]
    split
    · rename_i h
      cases asRule r with
      | error e => rfl
      | ok r =>
        have : rs.rules.insertIdx i.toNat r
            = rs.rules.take i.toNat ++ r :: rs.rules.drop i.toNat := by
          rw [insertIdx_take_drop]; omega
        simp only [this]; rfl
    · rfl
  | remove o =>
    simp only [EditOp.call, rsRemoveRule, Spec.edit, bind, EStateM.bind, lift_eq]
    cases asRule o with
    | error e => rfl
    | ok o =>
      simp only [checkRule_eq, Except.bind, atFirst_spec]
      by_cases h : rs.rules.any (fun s => s.pyEq o) = true
      · obtain ⟨i, hi, hf, _⟩ := findIdx?_of_any h
        have h2 : (0 : Int) ≤ (i : Int) ∧ (i : Int) < rs.rules.length := by omega
        simp only [h, if_true, ruleIndex_eq, hf, rsRemove_eq, h2, and_self, List.getElem?_eq_getElem hi,
          Option.map_some, Int.toNat_natCast, List.nil_append, List.eraseIdx_eq_take_drop_succ]
      · simp only [h, Bool.false_eq_true, if_false, findIdx?_of_not_any h]
  | replace o n =>
    simp only [EditOp.call, rsReplaceRule, Spec.edit, bind, EStateM.bind, lift_eq]
    cases asRule o with
    | error e => rfl
    | ok o =>
      simp only [checkRule_eq, Except.bind, atFirst_spec]
      by_cases h : rs.rules.any (fun s => s.pyEq o) = true
      · obtain ⟨i, hi, hf, _⟩ := findIdx?_of_any h
        have h2 : (0 : Int) ≤ (i : Int) ∧ (i : Int) < rs.rules.length := by omega
        simp only [h, if_true, ruleIndex_eq, hf]
        cases asRule n with
        | error e => rfl
        | ok n =>
          simp only [rsReplace_eq, h2, and_self, if_true, asRule, List.getElem?_eq_getElem hi,
            Option.map_some, Int.toNat_natCast, List.singleton_append, Option.getD_some,
            set_take_drop n _ _ hi]
      · simp only [h, Bool.false_eq_true, if_false]
  | insert o n =>
    simp only [EditOp.call, rsInsertRule, Spec.edit, bind, EStateM.bind, lift_eq]
    cases asRule o with
    | error e => rfl
    | ok o =>
      simp only [checkRule_eq, Except.bind, atFirst_spec]
      by_cases h : rs.rules.any (fun s => s.pyEq o) = true
      · obtain ⟨i, hi, hf, _⟩ := findIdx?_of_any h
        have h2 : (0 : Int) ≤ (i : Int) ∧ (i : Int) < rs.rules.length := by omega
        simp only [h, if_true, ruleIndex_eq, hf]
        cases asRule n with
        | error e => rfl
        | ok n =>
          have h3 : rs.rules.insertIdx i n
              = rs.rules.take i ++ n :: (rs.rules[i] :: rs.rules.drop (i + 1)) := by
            rw [insertIdx_take_drop _ _ _ (by omega), ← List.drop_eq_getElem_cons hi]
          simp only [rsInsert_eq, h2, and_self, if_true, asRule, List.getElem?_eq_getElem hi,
            Option.map_some, Int.toNat_natCast, Option.getD_some, h3, List.cons_append,
            List.nil_append]
      · simp only [h, Bool.false_eq_true, if_false]

/-- C13. Any history of add / insert / replace / remove calls, by index or by rule, successful or failing,
leaves the rules exactly as the plain-list machine does, raises the same exceptions at the same points,
and touches no other attribute of the ruleset. -/
theorem C13_editing_is_a_list (rs : Ruleset) (ops : List EditOp) :
    (runEdits rs ops).1 = { rs with rules := (Spec.runEdits rs.rules ops).1 } ∧
    (runEdits rs ops).2 = (Spec.runEdits rs.rules ops).2 := by
  induction ops generalizing rs with
  | nil => simp [runEdits, Spec.runEdits]
  | cons op ops ih =>
    simp only [runEdits, Spec.runEdits, EditOp.run, call_refines]
    cases h : Spec.edit rs.rules op with
    | ok l =>
      have := ih { rs with rules := l }
      exact ⟨this.1, by simp only [this.2]⟩
    | error e =>
      have := ih rs
      exact ⟨this.1, by simp only [this.2]⟩

/-- C13, reading of the by-rule calls: they act on the first rule that compares equal, all others keep
their place. -/
theorem C13_by_rule_acts_on_first (l pre post : List Rule) (x o n : Rule)
    (hl : l = pre ++ x :: post) (hx : x.pyEq o = true) (hpre : ∀ r ∈ pre, r.pyEq o = false)
    (rs : Ruleset) (hrs : rs.rules = l) :
    (EditOp.run rs (.replace (.rule o) (.rule n))).1.rules = pre ++ n :: post ∧
    (EditOp.run rs (.remove (.rule o))).1.rules = pre ++ post ∧
    (EditOp.run rs (.insert (.rule o) (.rule n))).1.rules = pre ++ n :: x :: post := by
  have key : ∀ f, Spec.atFirst o f l = some (pre ++ (f x ++ post)) := by
    intro f
    subst hl
    clear hrs
    induction pre with
    | nil => simp [Spec.atFirst, hx]
    | cons r pre ih =>
      simp only [List.cons_append, Spec.atFirst, hpre r (by simp), Bool.false_eq_true, if_false]
      rw [ih (fun r hr => hpre r (by simp [hr]))]; rfl
  have hany : l.any (fun r => r.pyEq o) = true := by
    rw [List.any_eq_true]; exact ⟨x, by simp [hl], hx⟩
  simp only [EditOp.run, call_refines, hrs, Spec.edit, asRule, bind, Except.bind, key, hany, if_true,
    Option.getD_some, List.nil_append, List.cons_append]
  exact ⟨trivial, trivial, trivial⟩

example : (runEdits Demo.rs [.add (.text p!"[a=y]"), .removeAt 9, .replace (.text p!"a=x") (.text p!"b=y"),
      .remove (.text p!"zzz")]).2 = [none, some .indexError, none, some .valueError] := by decide +kernel

/-- When a call is accepted: the index is in `0..len-1`, the named rule parses and is present, the new
rule parses. -/
def EditOp.Valid (l : List Rule) : EditOp → Prop
  | .add r => ∃ x, asRule r = .ok x
  | .replaceAt i r => (0 ≤ i ∧ i < l.length) ∧ ∃ x, asRule r = .ok x
  | .removeAt i => 0 ≤ i ∧ i < l.length
  | .insertAt i r => (0 ≤ i ∧ i < l.length) ∧ ∃ x, asRule r = .ok x
  | .remove o => ∃ x, asRule o = .ok x ∧ ∃ r ∈ l, r.pyEq x = true
  | .replace o n => (∃ x, asRule o = .ok x ∧ ∃ r ∈ l, r.pyEq x = true) ∧ ∃ y, asRule n = .ok y
  | .insert o n => (∃ x, asRule o = .ok x ∧ ∃ r ∈ l, r.pyEq x = true) ∧ ∃ y, asRule n = .ok y

/-- C14. A call that raises leaves the ruleset object exactly as it was. -/
theorem C14_failed_edits_atomic (rs : Ruleset) (op : EditOp) (e : PyErr) (h : (op.run rs).2 = some e) :
    (op.run rs).1 = rs := by
  simp only [EditOp.run, call_refines] at *
  cases hs : Spec.edit rs.rules op with
  | ok l => rw [hs] at h; simp at h
  | error e => rfl

/-- C14. A call raises exactly when it is not valid. -/
theorem C14_raises_iff (rs : Ruleset) (op : EditOp) :
    (op.run rs).2 = none ↔ op.Valid rs.rules := by
  have hrun : (op.run rs).2 = none ↔ ∃ l, Spec.edit rs.rules op = .ok l := by
    simp only [EditOp.run, call_refines]
    cases hs : Spec.edit rs.rules op <;> simp
  rw [hrun]
  have hany : ∀ (o : Rule), (rs.rules.any (fun r => r.pyEq o) = true) ↔
      ∃ r ∈ rs.rules, r.pyEq o = true := fun o => List.any_eq_true
  cases op with
  | add r => simp only [Spec.edit, EditOp.Valid]; cases asRule r <;> simp [bind, Except.bind]
  | replaceAt i r =>
    simp only [Spec.edit, EditOp.Valid]
    split
    · rename_i h; simp only [h, true_and, and_self]; cases asRule r <;> simp [bind, Except.bind]
    · rename_i h; simp [h]
  | removeAt i =>
    simp only [Spec.edit, EditOp.Valid]
    split
    · rename_i h; simp [h]
    · rename_i h; simp [h]
  | insertAt i r =>
    simp only [Spec.edit, EditOp.Valid]
    split
    · rename_i h; simp only [h, true_and, and_self]; cases asRule r <;> simp [bind, Except.bind]
    · rename_i h; simp [h]
  | remove o =>
    simp only [Spec.edit, EditOp.Valid]
    cases asRule o with
    | error e => simp [bind, Except.bind]
    | ok o =>
      simp only [bind, Except.bind, atFirst_spec]
      by_cases h : rs.rules.any (fun s => s.pyEq o) = true
      · obtain ⟨i, hi, hf, _⟩ := findIdx?_of_any h
        simp only [hf, List.getElem?_eq_getElem hi, Option.map_some]
        simp [(hany o).1 h]
      · simp only [findIdx?_of_not_any h]
        rw [hany] at h; simp [h]
  | replace o n =>
    simp only [Spec.edit, EditOp.Valid]
    cases asRule o with
    | error e => simp [bind, Except.bind]
    | ok o =>
      simp only [bind, Except.bind]
      by_cases h : rs.rules.any (fun s => s.pyEq o) = true
      · simp only [h, if_true]
        cases asRule n <;> simp [(hany o).1 h]
      · simp only [h, Bool.false_eq_true, if_false]
        rw [hany] at h; simp [h]
  | insert o n =>
    simp only [Spec.edit, EditOp.Valid]
    cases asRule o with
    | error e => simp [bind, Except.bind]
    | ok o =>
      simp only [bind, Except.bind]
      by_cases h : rs.rules.any (fun s => s.pyEq o) = true
      · simp only [h, if_true]
        cases asRule n <;> simp [(hany o).1 h]
      · simp only [h, Bool.false_eq_true, if_false]
        rw [hany] at h; simp [h]

example : EditOp.Valid Demo.rs.rules (.replace (.text p!"a=x") (.text p!"b=y")) ∧
    ¬ EditOp.Valid Demo.rs.rules (.insertAt 2 (.text p!"b=y")) := by
  constructor
  · refine ⟨⟨Demo.rx, by rfl, Demo.rx, by simp [Demo.rs], by decide +kernel⟩, ?_⟩
    exact ⟨{ conds := [⟨.name p!"b", .str p!"y"⟩] }, by rfl⟩
  · simp [EditOp.Valid, Demo.rs]

end Witt
