import Verif.Lemmas.Equal
import Verif.Props.Predict
/-
Properties of == and hash: C08, C09, C10.
-/
namespace Witt
open Spec

/-- C08 (plain conditions: text names without `=`, text values). Rulesets that compare equal predict
alike on every frame. -/
theorem C08_plain_text (a b : Ruleset) (h : a.pyEq b = true)
    (ha : ∀ r ∈ a.rules, ∀ c ∈ r.conds, PlainCond c) (hb : ∀ r ∈ b.rules, ∀ c ∈ r.conds, PlainCond c)
    (df : Frame) : a.predict df = b.predict df := by
  rw [Ruleset.pyEq_iff] at h
  apply C07_order_and_repetition
  constructor
  · intro r hr
    obtain ⟨s, hs, he⟩ := h.1 r hr
    exact ⟨s, hs, sameConds_of_condsEq (ha r hr) (hb s hs) he⟩
  · intro r hr
    obtain ⟨s, hs, he⟩ := h.2 r hr
    exact ⟨s, hs, sameConds_of_condsEq (hb r hr) (ha s hs) he⟩

example : ({ rules := [Demo.rx, Demo.rb] } : Ruleset).pyEq { rules := [Demo.rb, Demo.rx, Demo.rb] } = true ∧
    ∀ r ∈ [Demo.rx, Demo.rb], ∀ c ∈ r.conds, PlainCond c := by
  refine ⟨by decide +kernel, ?_⟩
  simp [Demo.rx, Demo.rb, PlainCond, Demo.fa, Demo.fb, Demo.vx]

/-- C08 is false in general: `a=1` (number) and `a=1` (text) print alike, so the rulesets are equal, but
they answer differently on a numeric column. -/
theorem C08_refuted_number_vs_text :
    ∃ (a b : Ruleset) (df : Frame), a.pyEq b = true ∧ df.UniqueIndex ∧ HasFeatures df a.rules ∧
      a.predict df = .ok [true] ∧ b.predict df = .ok [false] := by
  refine ⟨{ rules := [{ conds := [⟨Demo.fa, .num 1 p!"1"⟩] }] },
    { rules := [{ conds := [⟨Demo.fa, .str p!"1"⟩] }] },
    Frame.ofTable [Demo.fa] [(0, [.num 1 p!"1"])], by decide +kernel, ?_, ?_, by decide +kernel,
    by decide +kernel⟩
  · unfold Frame.UniqueIndex; decide +kernel
  · unfold HasFeatures; decide +kernel

/-- C08 is false even for text, when a name contains `=`: ("a=b", "c") and ("a", "b=c") print alike. -/
theorem C08_refuted_equals_sign :
    ∃ (a b : Ruleset) (df : Frame), a.pyEq b = true ∧ df.UniqueIndex ∧
      HasFeatures df a.rules ∧ HasFeatures df b.rules ∧
      a.predict df = .ok [true] ∧ b.predict df = .ok [false] := by
  refine ⟨{ rules := [{ conds := [⟨.name p!"a=b", .str p!"c"⟩] }] },
    { rules := [{ conds := [⟨.name p!"a", .str p!"b=c"⟩] }] },
    Frame.ofTable [.name p!"a=b", .name p!"a"] [(0, [.str p!"c", .str p!"z"])],
    by decide +kernel, ?_, ?_, ?_, by decide +kernel, by decide +kernel⟩
  · unfold Frame.UniqueIndex; decide +kernel
  · unfold HasFeatures; decide +kernel
  · unfold HasFeatures; decide +kernel

/-- C09 (no repeated conditions). Rules that compare equal have the same hash key, when one of them has no
two conditions with the same text. -/
theorem C09_equal_rules_hash_equal (a b : Rule) (h : a.pyEq b = true)
    (hnd : (a.conds.map Cond.text).Nodup) : a.sameKey b = true := by
  unfold Rule.pyEq at h
  unfold Rule.sameKey
  rw [condsEq_iff] at h
  rw [condsSameKey_iff]
  exact perm_of_nodup_subset hnd (by simpa [condTexts] using h.1) (fun t ht => (h.2 t).1 ht)

/-- The converse holds always: the same hash key means equal. -/
theorem C09_same_key_equal (a b : Rule) (h : a.sameKey b = true) : a.pyEq b = true :=
  condsEq_of_sameKey h

/-- C09 is false in general: [a, a, b] == [a, b, b] but the hashed keys differ. -/
theorem C09_refuted_repeated_conditions :
    ∃ a b : Rule, a.pyEq b = true ∧ a.sameKey b = false := by
  refine ⟨{ conds := [⟨Demo.fa, Demo.vx⟩, ⟨Demo.fa, Demo.vx⟩, ⟨Demo.fb, Demo.vx⟩] },
    { conds := [⟨Demo.fa, Demo.vx⟩, ⟨Demo.fb, Demo.vx⟩, ⟨Demo.fb, Demo.vx⟩] }, ?_, ?_⟩ <;> decide +kernel

example : Rule.pyEq { conds := [⟨Demo.fa, Demo.vx⟩, ⟨Demo.fb, Demo.vy⟩] }
    { conds := [⟨Demo.fb, Demo.vy⟩, ⟨Demo.fa, Demo.vx⟩] } = true ∧
    (([⟨Demo.fa, Demo.vx⟩, ⟨Demo.fb, Demo.vy⟩] : List Cond).map Cond.text).Nodup := by decide +kernel

/-- C10. `==` is reflexive, symmetric and transitive on Rules and on Rulesets; on Conds it is symmetric and
transitive, and `c == c` fails exactly when the value is missing (NaN). -/
theorem C10_equality_is_equivalence :
    (∀ r : Rule, r.pyEq r = true) ∧ (∀ r s : Rule, r.pyEq s = true → s.pyEq r = true) ∧
    (∀ r s t : Rule, r.pyEq s = true → s.pyEq t = true → r.pyEq t = true) ∧
    (∀ a : Ruleset, a.pyEq a = true) ∧ (∀ a b : Ruleset, a.pyEq b = true → b.pyEq a = true) ∧
    (∀ a b c : Ruleset, a.pyEq b = true → b.pyEq c = true → a.pyEq c = true) ∧
    (∀ c d : Cond, c.pyEq d = true → d.pyEq c = true) ∧
    (∀ c d e : Cond, c.pyEq d = true → d.pyEq e = true → c.pyEq e = true) ∧
    (∀ c : Cond, c.pyEq c = false ↔ c.val = .nan) := by
  refine ⟨fun r => condsEq_refl _, fun r s => condsEq_symm, fun r s t => condsEq_trans, ?_, ?_, ?_, ?_, ?_, ?_⟩
  · intro a; rw [Ruleset.pyEq_iff]
    exact ⟨fun r hr => ⟨r, hr, condsEq_refl _⟩, fun r hr => ⟨r, hr, condsEq_refl _⟩⟩
  · intro a b; rw [Ruleset.pyEq_iff, Ruleset.pyEq_iff]; exact And.symm
  · intro a b c; rw [Ruleset.pyEq_iff, Ruleset.pyEq_iff, Ruleset.pyEq_iff]
    rintro ⟨h1, h2⟩ ⟨h3, h4⟩
    constructor
    · intro r hr
      obtain ⟨s, hs, he⟩ := h1 r hr
      obtain ⟨t, ht, he'⟩ := h3 s hs
      exact ⟨t, ht, condsEq_trans he he'⟩
    · intro r hr
      obtain ⟨s, hs, he⟩ := h4 r hr
      obtain ⟨t, ht, he'⟩ := h2 s hs
      exact ⟨t, ht, condsEq_trans he he'⟩
  · intro c d h
    simp only [Cond.pyEq, Bool.and_eq_true, beq_iff_eq] at *
    exact ⟨h.1.symm, by rw [Val.pyEq_symm]; exact h.2⟩
  · intro c d e h h'
    simp only [Cond.pyEq, Bool.and_eq_true, beq_iff_eq] at *
    exact ⟨h.1.trans h'.1, Val.pyEq_trans h.2 h'.2⟩
  · intro c
    rcases c with ⟨f, v⟩
    cases v <;> simp [Cond.pyEq, Val.pyEq]

end Witt
