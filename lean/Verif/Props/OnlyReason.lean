import Verif.Props.Predict
/-
C111: what editing one rule changes. Removing a rule changes the prediction of exactly the rows of which it is the only reason;
adding one, of exactly the rows without a reason on which it fires.
-/
namespace Witt
open Spec

theorem rulesMet_filter (l : List Rule) (row : Row) :
    rulesMet l row = !(l.filter (fun r => condsMet r.conds row)).isEmpty := by
  rw [Bool.eq_iff_iff]
  simp [rulesMet, List.filter_eq_nil_iff]

theorem split_at (l : List Rule) {k : Nat} (hk : k < l.length) : l = l.take k ++ l[k] :: l.drop (k + 1) := by
  rw [List.getElem_cons_drop, List.take_append_drop]

/-- C111, removing. With distinct row labels and the tested columns present, removing the rule at position `k` changes the answers
for exactly the rows of which it is the only reason, from True to False; the other reasons of a row stay. -/
theorem C111_remove (rs : Ruleset) (df : Frame) (hu : df.UniqueIndex) (hf : HasFeatures df rs.rules) (k : Nat) (hk : k < rs.rules.length) :
    ∃ ps reasons ps' reasons', rs.predictReasons df = .ok (ps, reasons) ∧
      ((EditOp.run rs (.removeAt k)).1).predictReasons df = .ok (ps', reasons') ∧
      ∀ (i : Nat) (h : i < df.rows.length),
        (ps'[i]? ≠ ps[i]? ↔ reasons[i]? = some [rs.rules[k]]) ∧
        (reasons[i]? = some [rs.rules[k]] → ps[i]? = some true ∧ ps'[i]? = some false) ∧
        (¬ Fires df.rows[i] rs.rules[k] → reasons'[i]? = reasons[i]?) ∧
        (Fires df.rows[i] rs.rules[k] → ∃ a b, reasons[i]? = some (a ++ rs.rules[k] :: b) ∧ reasons'[i]? = some (a ++ b)) := by
  have hrun : (EditOp.run rs (.removeAt k)).1 = { rs with rules := rs.rules.eraseIdx k } := by
    have : ¬ (((k : Nat) : Int) < 0 ∨ ((k : Nat) : Int) ≥ rs.rules.length) := by omega
    simp only [EditOp.run, EditOp.call, rsRemove, checkIndex, bind, EStateM.bind, get, getThe,
      MonadStateOf.get, EStateM.get, this, if_false]
    rfl
  have hf' : HasFeatures df ({ rs with rules := rs.rules.eraseIdx k } : Ruleset).rules :=
    fun r hr => hf r ((List.eraseIdx_sublist _ _).subset hr)
  rw [hrun]
  refine ⟨_, _, _, _, Ruleset.predictReasons_unique hu hf, Ruleset.predictReasons_unique hu hf', ?_⟩
  intro i h
  simp only [List.getElem?_map, List.getElem?_eq_getElem h, Option.map_some, ne_eq, Option.some.injEq]
  generalize df.rows[i] = row
  generalize hr : rs.rules[k] = r
  have hs := split_at rs.rules hk
  have he : rs.rules.eraseIdx k = rs.rules.take k ++ rs.rules.drop (k + 1) := List.eraseIdx_eq_take_drop_succ _ _
  rw [hr] at hs
  rw [rulesMet_filter, rulesMet_filter, he]
  generalize rs.rules.take k = a at *
  generalize rs.rules.drop (k + 1) = b at *
  rw [hs]
  have hfire : Fires row r ↔ condsMet r.conds row = true := by rw [condsMet_iff]; rfl
  rw [hfire]
  generalize hp : (fun r : Rule => condsMet r.conds row) = p
  have hpr : condsMet r.conds row = p r := by rw [← hp]
  rw [hpr, List.filter_append, List.filter_append, List.filter_cons]
  cases hb : p r with
  | false =>
    have hno : ¬ (a.filter p ++ b.filter p = [r]) := by
      intro h
      have : r ∈ a.filter p ++ b.filter p := by rw [h]; simp
      rw [← List.filter_append] at this
      rw [(List.mem_filter.mp this).2] at hb
      cases hb
    simp [hno]
  | true =>
    generalize a.filter p = a'
    generalize b.filter p = b'
    simp only [if_true]
    refine ⟨?_, ?_, by simp, fun _ => ⟨a', b', rfl, rfl⟩⟩
    · cases a' <;> cases b' <;> simp
    · cases a' <;> cases b' <;> simp

/-- C111: removing a rule leaves the answers for a table as they are if and only if every row it fires on has another reason. -/
theorem C111_redundant (rs : Ruleset) (df : Frame) (hu : df.UniqueIndex) (hf : HasFeatures df rs.rules) (k : Nat) (hk : k < rs.rules.length) :
    ((EditOp.run rs (.removeAt k)).1).predict df = rs.predict df ↔
      ∀ row ∈ df.rows, Fires row rs.rules[k] → ∃ (j : Nat) (hj : j < rs.rules.length), j ≠ k ∧ Fires row rs.rules[j] := by
  have hrun : (EditOp.run rs (.removeAt k)).1 = { rs with rules := rs.rules.eraseIdx k } := by
    have : ¬ (((k : Nat) : Int) < 0 ∨ ((k : Nat) : Int) ≥ rs.rules.length) := by omega
    simp only [EditOp.run, EditOp.call, rsRemove, checkIndex, bind, EStateM.bind, get, getThe,
      MonadStateOf.get, EStateM.get, this, if_false]
    rfl
  have hf' : HasFeatures df ({ rs with rules := rs.rules.eraseIdx k } : Ruleset).rules :=
    fun r hr => hf r ((List.eraseIdx_sublist _ _).subset hr)
  rw [hrun, Ruleset.predict_unique hu (.inr hf), Ruleset.predict_unique hu (.inr hf'), Except.ok.injEq, List.map_inj_left]
  refine forall_congr' fun row => forall_congr' fun _ => ?_
  have hfire : ∀ r : Rule, Fires row r ↔ condsMet r.conds row = true := by intro r; rw [condsMet_iff]; rfl
  simp only [hfire]
  rw [Bool.eq_iff_iff]
  simp only [rulesMet, List.any_eq_true]
  constructor
  · intro h hk'
    obtain ⟨r, hr, hm⟩ := h.mpr ⟨_, List.getElem_mem hk, hk'⟩
    obtain ⟨j, hj, hne, rfl⟩ := List.mem_eraseIdx_iff_getElem.mp hr
    exact ⟨j, hj, hne, hm⟩
  · intro h
    constructor
    · rintro ⟨r, hr, hm⟩; exact ⟨r, (List.eraseIdx_sublist _ _).subset hr, hm⟩
    · rintro ⟨r, hr, hm⟩
      obtain ⟨j, hj, rfl⟩ := List.mem_iff_getElem.mp hr
      by_cases hjk : j = k
      · subst hjk
        obtain ⟨j', hj', hne, hm'⟩ := h hm
        exact ⟨_, List.mem_eraseIdx_iff_getElem.mpr ⟨j', hj', hne, rfl⟩, hm'⟩
      · exact ⟨_, List.mem_eraseIdx_iff_getElem.mpr ⟨j, hj, hjk, rfl⟩, hm⟩

/-- C111, adding. Adding a rule changes the answers for exactly the rows without a reason on which it fires, from False to True; it
becomes the last reason of the rows it fires on. -/
theorem C111_add (rs : Ruleset) (df : Frame) (hu : df.UniqueIndex) (hf : HasFeatures df rs.rules) (new : Rule)
    (hnew : ∀ c ∈ new.conds, c.feature ∈ df.cols) :
    ∃ ps reasons ps' reasons', rs.predictReasons df = .ok (ps, reasons) ∧
      ((EditOp.run rs (.add (.rule new))).1).predictReasons df = .ok (ps', reasons') ∧
      ∀ (i : Nat) (h : i < df.rows.length),
        (ps'[i]? ≠ ps[i]? ↔ reasons[i]? = some [] ∧ Fires df.rows[i] new) ∧
        (reasons[i]? = some [] ∧ Fires df.rows[i] new → ps[i]? = some false ∧ ps'[i]? = some true) ∧
        (¬ Fires df.rows[i] new → reasons'[i]? = reasons[i]?) ∧
        (Fires df.rows[i] new → reasons'[i]? = (reasons[i]?).map (fun l => l ++ [new])) := by
  have hrun : (EditOp.run rs (.add (.rule new))).1 = { rs with rules := rs.rules ++ [new] } := rfl
  have hf' : HasFeatures df ({ rs with rules := rs.rules ++ [new] } : Ruleset).rules := by
    intro r hr; rcases List.mem_append.1 hr with h | h
    · exact hf r h
    · simp at h; subst h; exact hnew
  rw [hrun]
  refine ⟨_, _, _, _, Ruleset.predictReasons_unique hu hf, Ruleset.predictReasons_unique hu hf', ?_⟩
  intro i h
  simp only [List.getElem?_map, List.getElem?_eq_getElem h, Option.map_some, ne_eq, Option.some.injEq]
  generalize df.rows[i] = row
  have hfire : Fires row new ↔ condsMet new.conds row = true := by rw [condsMet_iff]; rfl
  rw [hfire, rulesMet_filter, rulesMet_filter, List.filter_append, List.filter_cons]
  generalize rs.rules.filter (fun r => condsMet r.conds row) = a
  cases condsMet new.conds row <;> cases a <;> simp

/-- With repeated row labels a rule can be needed without being a reason: removing it changes both answers, and neither row lists it. -/
theorem C111_refuted_duplicate_labels :
    ∃ (rs : Ruleset) (df : Frame), HasFeatures df rs.rules ∧ rs.predictReasons df = .ok ([true, true], [[], []]) ∧
      ((EditOp.run rs (.removeAt 0)).1).predict df = .ok [false, false] :=
  ⟨{ rules := [Demo.rb] }, Demo.dup, by unfold HasFeatures; decide +kernel, by decide +kernel, by decide +kernel⟩

/-- The hypotheses are met by the two rules of `Demo.rs` on `Demo.df`. The second is the only reason of the second row: without it the
answer there is False. The first is the only reason of no row: without it the answers are the same. -/
example : Demo.df.UniqueIndex ∧ HasFeatures Demo.df Demo.rs.rules ∧
    Demo.rs.predictReasons Demo.df = .ok ([true, true, false], [[Demo.rx, Demo.rb], [Demo.rb], []]) ∧
    ((EditOp.run Demo.rs (.removeAt 1)).1).predict Demo.df = .ok [true, false, false] ∧
    ((EditOp.run Demo.rs (.removeAt 0)).1).predict Demo.df = .ok [true, true, false] := by
  unfold Frame.UniqueIndex HasFeatures
  decide +kernel

end Witt
