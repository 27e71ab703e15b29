import Mathlib.Data.List.Perm.Subperm
import Verif.Lemmas.Irep
import Verif.Lemmas.Proba
/-
What a successful `fit` returns, in terms of the rules learned by its training loop.
-/
namespace Witt
open Spec
variable [Arith] [Arith.Lawful]

omit [Arith] [Arith.Lawful] in
theorem removeDupsAux_map {α β : Type} (f : α → β) (sa : α → α → Bool) (sb : β → β → Bool)
    (h : ∀ a b, sa a b = sb (f a) (f b)) : ∀ (l seen : List α),
    (removeDupsAux sa seen l).map f = removeDupsAux sb (seen.map f) (l.map f)
  | [], seen => rfl
  | a :: l, seen => by
    have hs : seen.any (fun s => sa s a) = (seen.map f).any (fun s => sb s (f a)) := by
      rw [List.any_map]; congr 1; funext s; exact h s a
    simp only [removeDupsAux, List.map_cons, hs]
    split
    · exact removeDupsAux_map f sa sb h l seen
    · rw [List.map_cons, removeDupsAux_map f sa sb h l (a :: seen)]; rfl

omit [Arith] [Arith.Lawful] in
theorem removeDups_conds (l : List Rule) :
    (removeDups Rule.sameKey l).map Rule.conds = removeDups condsSameKey (l.map Rule.conds) :=
  removeDupsAux_map Rule.conds Rule.sameKey condsSameKey (fun _ _ => rfl) l []

omit [Arith] [Arith.Lawful] in
theorem trimAux_map {α β : Type} (f : α → β) (sa : α → Nat) (sb : β → Nat) (h : ∀ a, sa a = sb (f a))
    (m : Int) (l : List α) : ∀ n, (trimAux sa m l n).map f = trimAux sb m (l.map f) n
  | 0 => rfl
  | n + 1 => by
    have : (((l.take (n + 1)).map sa).sum : Nat) = ((((l.map f).take (n + 1)).map sb).sum : Nat) := by
      rw [← List.map_take, List.map_map]; congr 1; apply List.map_congr_left; intro a _; exact h a
    simp only [trimAux, this]
    split
    · exact trimAux_map f sa sb h m l n
    · rw [List.map_take]

omit [Arith] [Arith.Lawful] in
theorem trimRules_conds (m : Option Int) (l : List Rule) :
    (trimRules (fun r => r.conds.length) m l).map Rule.conds = trimRules List.length m (l.map Rule.conds) := by
  cases m with
  | none => rfl
  | some m => simp only [trimRules]; rw [trimAux_map Rule.conds _ List.length (fun _ => rfl), List.length_map]

/-- What the two classifiers do to the learned rules at the end of `fit`: drop duplicates, then trim. -/
def finish (m : Option Int) (rules : List (List Cond)) : List (List Cond) :=
  trimRules List.length m (removeDups condsSameKey rules)

omit [Arith] [Arith.Lawful] in
theorem finish_sublist (m : Option Int) (rules : List (List Cond)) : (finish m rules).Sublist rules :=
  (trimRules_prefix (size := List.length) m _).sublist.trans (removeDups_sublist rules)

omit [Arith] [Arith.Lawful] in
theorem finish_pairwise (m : Option Int) (rules : List (List Cond)) :
    (finish m rules).Pairwise (fun a b => condsSameKey a b = false) :=
  (removeDups_pairwise (same := condsSameKey) rules).sublist
    (trimRules_prefix (size := List.length) m _).sublist

omit [Arith.Lawful] in
theorem irepFit_ok {fuel : Nat} {R : PyRandom} {hp : Hyper} {init : List (List Cond)} {df : Frame}
    {cf : Feat} {pc : Val} {g g' : R.G} {m : Fitted} (h : irepFit fuel R hp init df cf pc g = .ok (m, g')) :
    df.rows ≠ [] ∧ ∃ cn st, CatNap.build df cf = .ok cn ∧
      irepGrowCn fuel R cn hp init (labelSet (posRows df cf pc).index) (labelSet (negRows df cf pc).index) g
        = .ok st ∧
      m.ruleset.rules.map Rule.conds = finish hp.lim.maxTotalConds st.rules ∧
      m.selected = Ruleset.selectedFeatures { rules := st.rules.map (fun c => { conds := c }) } ∧
      m.trainFeats = (df.dropCol cf).cols ∧
      (∃ rs1, recalibrate { rules := st.rules.map (fun c => { conds := c }), possible := some cn.conds }
          df cf pc hp.alpha = (rs1, none) ∧ (∀ r ∈ m.ruleset.rules, r ∈ rs1.rules) ∧
          m.ruleset.uncov = rs1.uncov) ∧ g' = st.g := by
  unfold irepFit at h
  split at h
  · simp at h
  rename_i hne
  split at h
  · simp at h
  cases hb : CatNap.build df cf with
  | error e => rw [hb] at h; simp at h
  | ok cn =>
    rw [hb] at h
    simp only [ok_bind] at h
    cases hg : irepGrowCn fuel R cn hp init (labelSet (posRows df cf pc).index)
        (labelSet (negRows df cf pc).index) g with
    | error e => rw [hg] at h; simp at h
    | ok st =>
      rw [hg] at h
      simp only [ok_bind] at h
      have hc := recalibrate_conds { rules := st.rules.map (fun c => ({ conds := c } : Rule)), possible := some cn.conds }
        df cf pc hp.alpha
      rcases hr : recalibrate { rules := st.rules.map (fun c => ({ conds := c } : Rule)), possible := some cn.conds }
        df cf pc hp.alpha with ⟨rs1, o⟩
      rw [hr] at h hc
      cases o with
      | some e => simp [raiseIf] at h
      | none =>
        simp only [raiseIf, ok_bind, pure_eq_ok, Except.ok.injEq, Prod.mk.injEq] at h
        obtain ⟨hm, hg'⟩ := h
        subst hm
        have hid : List.map (Rule.conds ∘ fun c => ({ conds := c } : Rule)) st.rules = st.rules := by
          simp [Function.comp_def]
        refine ⟨hne, cn, st, rfl, hg, ?_, rfl, rfl, ⟨rs1, hr, ?_, rfl⟩, hg'.symm⟩
        · simp only [Ruleset.trimConds, trimRules_conds, removeDups_conds]
          simp only [List.map_map, hid] at hc
          rw [hc]; rfl
        · intro r hmem
          exact (removeDups_sublist (same := Rule.sameKey) rs1.rules).subset
            ((trimRules_prefix (size := fun r : Rule => r.conds.length) hp.lim.maxTotalConds _).subset hmem)

omit [Arith] [Arith.Lawful] in
theorem recalRule_err {df : Frame} {cf : Feat} {pc : Val} {alpha : Rat} {r : Rule} {e : PyErr}
    (h : (recalRule df cf pc alpha r).2 = some e) : e ≠ .diverged := by
  unfold recalRule at h
  split at h
  · rename_i e' he
    simp only [Option.some.injEq] at h
    subst h
    unfold Rule.covers at he
    rcases condsCover_cases r.conds df with ⟨h1, _⟩ | ⟨h1, _⟩
    · rw [h1] at he
      simp only [ok_bind, numPos] at he
      split at he
      · simp at he
      · simp at he; subst he; decide
    · rw [h1] at he
      simp at he; subst he; decide
  · rename_i ns _
    simp only [calibrate] at h
    split at h
    · rename_i e' he
      simp only [Option.some.injEq] at h
      subst h
      unfold smoothedRates at he
      simp only at he
      split at he
      · simp at he; subst he; decide
      · simp at he
    · simp at h

omit [Arith] [Arith.Lawful] in
theorem recalRules_err {df : Frame} {cf : Feat} {pc : Val} {alpha : Rat} {e : PyErr} : ∀ {rs : List Rule},
    (recalRules df cf pc alpha rs).2 = some e → e ≠ .diverged
  | [], h => by simp [recalRules] at h
  | r :: rs, h => by
    unfold recalRules at h
    rcases hr : recalRule df cf pc alpha r with ⟨r', o⟩
    rw [hr] at h
    cases o with
    | some e' =>
      simp only [Option.some.injEq] at h
      subst h
      exact recalRule_err (by rw [hr])
    | none => exact recalRules_err h

omit [Arith] [Arith.Lawful] in
/-- Calibration raises Python exceptions only. -/
theorem recalibrate_err {rs : Ruleset} {df : Frame} {cf : Feat} {pc : Val} {alpha : Rat} {e : PyErr}
    (h : (recalibrate rs df cf pc alpha).2 = some e) : e ≠ .diverged := by
  unfold recalibrate at h
  split at h
  · simp only [Option.some.injEq] at h; subst h; decide
  · rcases hr : recalRules df cf pc alpha rs.rules with ⟨rules, o⟩
    rw [hr] at h
    cases o with
    | some e' =>
      simp only [Option.some.injEq] at h
      subst h
      exact recalRules_err (by rw [hr])
    | none =>
      simp only at h
      split at h
      · rename_i e' he
        simp only [Option.some.injEq] at h
        subst h
        by_cases hc : (∃ r ∈ rules, r.conds = []) ∨ HasFeatures df rules
        · obtain ⟨d, hd, _⟩ := Ruleset.covers_ok (rs := { rs with rules := rules }) hc
          rw [hd] at he
          simp only [ok_bind, numNeg] at he
          split at he
          · simp at he
          · simp at he; subst he; decide
        · rw [Ruleset.covers_err (rs := { rs with rules := rules }) hc] at he
          simp at he; subst he; decide
      · simp only [calibrate] at h
        split at h
        · rename_i e' he
          simp only [Option.some.injEq] at h
          subst h
          unfold smoothedRates at he
          simp only at he
          split at he
          · simp at he; subst he; decide
          · simp at he
        · simp at h

omit [Arith] [Arith.Lawful] in
theorem eraseDups_length_le (l : List Label) : (labelSet l).length ≤ l.length := by
  exact (List.subperm_of_subset (labelSet_nodup l) (fun x hx => mem_labelSet.mp hx)).length_le

end Witt
