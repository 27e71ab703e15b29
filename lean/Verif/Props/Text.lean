import Mathlib.Data.List.Forall2
import Verif.Lemmas.Roundtrip
import Verif.Props.Predict
/-
Properties of printing and parsing: C15, C16.
-/
namespace Witt
namespace Spec

/-- `ps` are the pieces of `s` between occurrences of `c`. -/
def IsSplit (c : Char) (s : PStr) (ps : List PStr) : Prop :=
  ps ≠ [] ∧ (∀ p ∈ ps, c ∉ p) ∧ pyJoin [c] ps = s

/-- `s` reads `name = value`, with exactly one `=`. -/
def CondText (s : PStr) (c : Cond) : Prop :=
  ∃ a b, s = a ++ '=' :: b ∧ '=' ∉ a ∧ '=' ∉ b ∧ c = ⟨.name (pyStrip a), .str (pyStrip b)⟩

/-- `s` reads as a rule: a literal for the empty rule, or conditions between `^`, brackets ignored. -/
def RuleText (s : PStr) (r : Rule) : Prop :=
  (s ∈ [p!"True", p!"[True]", p!"[]"] ∧ r = { conds := [] }) ∨
  (s ∉ [p!"True", p!"[True]", p!"[]"] ∧
    ∃ ps, IsSplit '^' (s.filter (fun x => x ≠ '[' ∧ x ≠ ']')) ps ∧ List.Forall₂ CondText ps r.conds ∧
      r.cal = {})

/-- `s` reads as a ruleset: a literal for no rules, or rules between `V`. -/
def RulesetText (s : PStr) (rs : Ruleset) : Prop :=
  (s ∈ [[], p!"[]", p!"[[]]"] ∧ rs = { rules := [] }) ∨
  (s ∉ [[], p!"[]", p!"[[]]"] ∧
    ∃ ps, IsSplit 'V' s ps ∧ List.Forall₂ RuleText ps rs.rules ∧ rs.uncov = {} ∧ rs.possible = none)

end Spec
open Spec

theorem isSplit_iff (c : Char) (s : PStr) (ps : List PStr) : IsSplit c s ps ↔ splitChar c s = ps := by
  constructor
  · rintro ⟨h1, h2, rfl⟩; exact splitChar_of_join c ps h1 h2
  · rintro rfl; exact ⟨splitChar_ne_nil c s, splitChar_notin c s, splitChar_join c s⟩

theorem condFromStr_iff (s : PStr) (c : Cond) : condFromStr s = .ok c ↔ CondText s c := by
  unfold condFromStr
  have hs := (isSplit_iff '=' s _).2 rfl
  rcases h : splitChar '=' s with _ | ⟨a, _ | ⟨b, _ | ⟨d, l⟩⟩⟩
  · exact absurd h (splitChar_ne_nil _ _)
  · simp only [List.map_cons, List.map_nil]
    refine ⟨fun h => (by cases h), ?_⟩
    rintro ⟨a', b', rfl, ha, hb, _⟩
    rw [splitChar_append _ _ _ ha, splitChar_single _ _ hb] at h; cases h
  · rw [h] at hs
    obtain ⟨_, h2, h3⟩ := hs
    simp only [List.map_cons, List.map_nil, Except.ok.injEq]
    constructor
    · rintro rfl
      exact ⟨a, b, by rw [← h3]; simp [pyJoin], h2 a (by simp), h2 b (by simp), rfl⟩
    · rintro ⟨a', b', rfl, ha, hb, rfl⟩
      rw [splitChar_append _ _ _ ha, splitChar_single _ _ hb] at h
      simp only [List.cons.injEq, and_true] at h
      rw [h.1, h.2]
  · simp only [List.map_cons]
    refine ⟨fun h => (by cases h), ?_⟩
    rintro ⟨a', b', rfl, ha, hb, _⟩
    rw [splitChar_append _ _ _ ha, splitChar_single _ _ hb] at h; cases h

/-- `mapM` succeeds exactly with pairwise successes, and otherwise raises. -/
theorem mapM_iff {α β : Type} (f : α → Except PyErr β) (l : List α) (r : List β) :
    l.mapM f = .ok r ↔ List.Forall₂ (fun a b => f a = .ok b) l r := by
  induction l generalizing r with
  | nil =>
    rw [List.mapM_nil]
    constructor
    · intro h; cases h; exact .nil
    · intro h; cases h; rfl
  | cons a l ih =>
    rw [List.mapM_cons]
    constructor
    · intro h
      cases hf : f a with
      | error e => rw [hf] at h; cases h
      | ok b =>
        rw [hf] at h
        cases hl : l.mapM f with
        | error e => rw [hl] at h; cases h
        | ok bs => rw [hl] at h; cases h; exact .cons hf ((ih bs).1 hl)
    · intro h
      cases h with
      | cons h1 h2 => rw [h1, (ih _).2 h2]; rfl

theorem forall₂_congr {α β : Type} {R S : α → β → Prop} (h : ∀ a b, R a b ↔ S a b) (l : List α) (r : List β) :
    List.Forall₂ R l r ↔ List.Forall₂ S l r := by
  constructor
  · intro h'; induction h' with
    | nil => exact .nil
    | cons h1 _ ih => exact .cons ((h _ _).1 h1) ih
  · intro h'; induction h' with
    | nil => exact .nil
    | cons h1 _ ih => exact .cons ((h _ _).2 h1) ih

theorem dropBrackets_eq (s : PStr) : dropBrackets s = s.filter (fun x => x ≠ '[' ∧ x ≠ ']') := by
  simp only [dropBrackets, dropChar, List.filter_filter]
  apply List.filter_congr
  intro x _
  by_cases h1 : x = '[' <;> by_cases h2 : x = ']' <;> simp [h1, h2]

theorem ruleFromStr_iff (s : PStr) (r : Rule) : ruleFromStr s = .ok r ↔ RuleText s r := by
  unfold ruleFromStr RuleText
  have hl : (s = p!"True" ∨ s = p!"[True]" ∨ s = p!"[]") ↔ s ∈ [p!"True", p!"[True]", p!"[]"] := by
    simp
  by_cases h : s ∈ [p!"True", p!"[True]", p!"[]"]
  · rw [if_pos (hl.2 h)]
    simp only [h, true_and, not_true_eq_false, false_and, or_false, Except.ok.injEq, eq_comm]
  · rw [if_neg (fun h' => h (hl.1 h'))]
    simp only [h, false_and, not_false_eq_true, true_and, false_or, isSplit_iff, exists_eq_left',
      ← dropBrackets_eq]
    rw [← forall₂_congr condFromStr_iff, ← mapM_iff]
    cases hm : (splitChar '^' (dropBrackets s)).mapM condFromStr with
    | error e => simp
    | ok cs =>
      rcases r with ⟨conds, cal⟩
      simp only [Except.ok.injEq, Rule.mk.injEq]
      constructor
      · rintro ⟨h1, h2⟩; exact ⟨h1, h2.symm⟩
      · rintro ⟨h1, h2⟩; exact ⟨h1, h2.symm⟩

/-- C16. `ruleset_fromstr` accepts exactly the texts of the grammar (rules between `V`, conditions between
`^`, one `=` per condition, brackets ignored) and returns what they read; every other text raises
ValueError. -/
theorem C16_parser_total_and_exact (s : PStr) :
    (∀ rs, rulesetFromStr s = .ok rs ↔ RulesetText s rs) ∧
    (rulesetFromStr s = .error .valueError ↔ ∀ rs, ¬ RulesetText s rs) := by
  have main : ∀ rs, rulesetFromStr s = .ok rs ↔ RulesetText s rs := by
    intro rs
    unfold rulesetFromStr RulesetText
    have hl : (s = [] ∨ s = p!"[]" ∨ s = p!"[[]]") ↔ s ∈ [[], p!"[]", p!"[[]]"] := by simp
    by_cases h : s ∈ [[], p!"[]", p!"[[]]"]
    · rw [if_pos (hl.2 h)]
      simp only [h, true_and, not_true_eq_false, false_and, or_false, Except.ok.injEq, eq_comm]
    · rw [if_neg (fun h' => h (hl.1 h'))]
      simp only [h, false_and, not_false_eq_true, true_and, false_or, isSplit_iff, exists_eq_left']
      rw [← forall₂_congr ruleFromStr_iff, ← mapM_iff]
      cases hm : (splitChar 'V' s).mapM ruleFromStr with
      | error e => simp
      | ok cs =>
        rcases rs with ⟨rules, unc, pc⟩
        simp only [Except.ok.injEq, Ruleset.mk.injEq]
        constructor
        · rintro ⟨h1, h2, h3⟩; exact ⟨h1, h2.symm, h3.symm⟩
        · rintro ⟨h1, h2, h3⟩; exact ⟨h1, h2.symm, h3.symm⟩
  refine ⟨main, ?_⟩
  constructor
  · intro h rs hr
    rw [(main rs).2 hr] at h; cases h
  · intro h
    cases hr : rulesetFromStr s with
    | ok rs => exact absurd ((main rs).1 hr) (h rs)
    | error e =>
      unfold rulesetFromStr at hr
      split at hr
      · cases hr
      · split at hr
        · cases hr
        · cases hr; rfl

/-- C16, the counting consequence: a parsed ruleset has one rule per `V`-piece and, for each piece that is
not a literal of the empty rule, one condition per `^`-piece; so every such piece has exactly one `=`. -/
theorem C16_one_rule_per_piece (s : PStr) (rs : Ruleset) (h : rulesetFromStr s = .ok rs)
    (hs : s ∉ [[], p!"[]", p!"[[]]"]) (ps : List PStr) (hps : IsSplit 'V' s ps) :
    rs.rules.length = ps.length ∧
    ∀ (i : Nat) (p : PStr) (r : Rule), ps[i]? = some p → rs.rules[i]? = some r →
      p ∉ [p!"True", p!"[True]", p!"[]"] →
      ∀ qs, IsSplit '^' (p.filter (fun x => x ≠ '[' ∧ x ≠ ']')) qs →
        r.conds.length = qs.length ∧ ∀ q ∈ qs, q.count '=' = 1 := by
  have hr := ((C16_parser_total_and_exact s).1 rs).1 h
  rcases hr with ⟨hr, _⟩ | ⟨_, ps', hps', hf, _⟩
  · exact absurd hr hs
  · rw [isSplit_iff] at hps hps'
    obtain rfl : ps' = ps := by rw [← hps', hps]
    have hlen : ∀ {α β : Type} {R : α → β → Prop} {l : List α} {r : List β}, List.Forall₂ R l r →
        l.length = r.length := by
      intro α β R l r h
      induction h with
      | nil => rfl
      | cons _ _ ih => simp [ih]
    refine ⟨(hlen hf).symm, ?_⟩
    have hget : ∀ {l : List PStr} {r : List Rule}, List.Forall₂ RuleText l r →
        ∀ (i : Nat) p x, l[i]? = some p → r[i]? = some x → RuleText p x := by
      intro l r h
      induction h with
      | nil => intro i p x h; simp at h
      | cons h1 _ ih =>
        intro i p x hp hx
        cases i with
        | zero => simp at hp hx; subst hp hx; exact h1
        | succ i => simp at hp hx; exact ih i p x hp hx
    intro i p r hp hr hlit qs hqs
    rcases hget hf i p r hp hr with ⟨h1, _⟩ | ⟨_, qs', hqs', hc, _⟩
    · exact absurd h1 hlit
    · rw [isSplit_iff] at hqs hqs'
      obtain rfl : qs' = qs := by rw [← hqs', hqs]
      refine ⟨(hlen hc).symm, ?_⟩
      have hmem : ∀ {l : List PStr} {r : List Cond}, List.Forall₂ CondText l r →
          ∀ q ∈ l, ∃ c, CondText q c := by
        intro l r h
        induction h with
        | nil => simp
        | cons h1 _ ih =>
          intro q hq
          rcases List.mem_cons.1 hq with rfl | hq
          · exact ⟨_, h1⟩
          · exact ih q hq
      intro q hq
      obtain ⟨c, a, b, rfl, ha, hb, _⟩ := hmem hc q hq
      simp [List.count_append, List.count_eq_zero.2 ha, List.count_eq_zero.2 hb]

example : rulesetFromStr p!"[[a=x^b=y] V [c = z]]" = .ok { rules := [
      { conds := [⟨.name p!"a", .str p!"x"⟩, ⟨.name p!"b", .str p!"y"⟩] },
      { conds := [⟨.name p!"c", .str p!"z"⟩] }] } ∧
    rulesetFromStr p!"a=b=c" = .error .valueError := by decide +kernel

/-- C15 (safe texts). Printing a ruleset and parsing the text gives the same rules with the same conditions
in the same order, when no rule is empty and names and values are safe text (no white space, `'`, `,`,
brackets, backslash, `^`, `=`, `V` or control character). -/
theorem C15_roundtrip_safe (rs : Ruleset)
    (h : ∀ r ∈ rs.rules, r.conds ≠ [] ∧ ∀ c ∈ r.conds, SafeCond c) :
    ∃ rs', rulesetFromStr rs.text = .ok rs' ∧ rs'.rules.map Rule.conds = rs.rules.map Rule.conds := by
  refine ⟨{ rules := rs.rules.map (fun r => { conds := r.conds }) }, ?_, by simp [Function.comp_def]⟩
  rcases rs with ⟨rules, u, p⟩
  simp only at h
  cases rules with
  | nil => rfl
  | cons r rest =>
    have hrep : (r :: rest).map Rule.text = ((r :: rest).map Rule.conds).map condsText := by
      simp [Rule.text]
    have hparse := rulesParse_safe ((r :: rest).map Rule.conds) (by simp) (by
        intro x hx
        obtain ⟨y, hy, rfl⟩ := List.mem_map.1 hx
        exact h y hy) ['['] [']'] (by intro c hc; simp at hc; exact .inl hc)
        (by intro c hc; simp at hc; exact .inr (.inl hc))
    have heq : '=' ∈ (Ruleset.text ⟨r :: rest, u, p⟩) := by
      have : '=' ∈ r.text := by
        rw [Rule.text, condsText_safe (h r (by simp)).1 (h r (by simp)).2]
        obtain ⟨hne, hs⟩ := h r (by simp)
        cases hc : r.conds with
        | nil => exact absurd hc hne
        | cons c cs =>
          have : '=' ∈ c.text := by simp [Cond.text]
          cases cs <;> simp [pyJoin, this]
      simp only [Ruleset.text, List.map_cons]
      cases rest <;> simp [pyJoin, this]
    unfold rulesetFromStr
    have hl : ¬ (Ruleset.text ⟨r :: rest, u, p⟩ = [] ∨ Ruleset.text ⟨r :: rest, u, p⟩ = p!"[]" ∨
        Ruleset.text ⟨r :: rest, u, p⟩ = p!"[[]]") := by
      rintro (e | e | e) <;> (rw [e] at heq; revert heq; decide)
    rw [if_neg hl]
    simp only [Ruleset.text, hrep]
    rw [hparse]
    simp [Function.comp_def]

example : ∀ r ∈ Demo.rs.rules, r.conds ≠ [] ∧ ∀ c ∈ r.conds, SafeCond c := by
  have hs : ∀ x, safeChar x = true → SafeText [x] := by
    intro x hx c hc; simp at hc; subst hc; exact hx
  intro r hr
  simp only [Demo.rs, List.mem_cons, List.not_mem_nil, or_false] at hr
  rcases hr with rfl | rfl
  · refine ⟨by simp [Demo.rx], fun c hc => ?_⟩
    simp only [Demo.rx, List.mem_singleton] at hc
    exact ⟨p!"a", p!"x", hc, hs _ (by decide), hs _ (by decide)⟩
  · refine ⟨by simp [Demo.rb], fun c hc => ?_⟩
    simp only [Demo.rb, List.mem_singleton] at hc
    exact ⟨p!"b", p!"x", hc, hs _ (by decide), hs _ (by decide)⟩

/-- C15, exactly: a ruleset comes back from its own text, rule by rule and condition by condition, iff it has no
empty rule and all names and values are safe text. In every other case parsing raises ValueError or gives something
else. -/
theorem C15_roundtrip_iff (rs : Ruleset) :
    (∃ rs', rulesetFromStr rs.text = .ok rs' ∧ rs'.rules.map Rule.conds = rs.rules.map Rule.conds) ↔
      ∀ r ∈ rs.rules, r.conds ≠ [] ∧ ∀ c ∈ r.conds, SafeCond c :=
  ⟨fun ⟨_, h, he⟩ => safeRuleset_of_back h he, C15_roundtrip_safe rs⟩

/-- C15 fails outside safe text, five ways: a `V` in a value cuts the rule in two (here the parse raises), a
number comes back as text, the spaces inside a value are lost, an empty rule does not parse, and a comma in
a value splits the condition. -/
theorem C15_refuted :
    rulesetFromStr (Ruleset.text { rules := [{ conds := [⟨.name p!"a", .str p!"V"⟩] }] })
      = .error .valueError ∧
    rulesetFromStr (Ruleset.text { rules := [{ conds := [⟨.name p!"a", .num 1 p!"1"⟩] }] })
      = .ok { rules := [{ conds := [⟨.name p!"a", .str p!"1"⟩] }] } ∧
    rulesetFromStr (Ruleset.text { rules := [{ conds := [⟨.name p!"a", .str p!"b c"⟩] }] })
      = .ok { rules := [{ conds := [⟨.name p!"a", .str p!"bc"⟩] }] } ∧
    rulesetFromStr (Ruleset.text { rules := [{ conds := [] }] }) = .error .valueError ∧
    rulesetFromStr (Ruleset.text { rules := [{ conds := [⟨.name p!"a", .str p!"b,c"⟩] }] })
      = .error .valueError := by decide +kernel

/-! ### rules as arguments of the editing methods -/

/-- What a condition given as an object, a text or a pair of texts stands for. -/
def Spec.CondGiven : CondArg → Cond → Prop
  | .cond c, d => d = c
  | .text s, d => CondText s d
  | .pair a b, d => d = ⟨.name a, .str b⟩

/-- What a rule given as an object, a text, None or a list of conditions stands for. -/
def Spec.RuleGiven : RuleArg → Rule → Prop
  | .rule r, s => s = r
  | .text t, s => RuleText t s
  | .nothing, s => s = { conds := [] }
  | .conds cs, s => s.cal = {} ∧ List.Forall₂ CondGiven cs s.conds

/-- The exception for an argument that stands for no rule. -/
def Spec.badArgument : RuleArg → PyErr
  | .text _ => .valueError
  | _ => .typeError

theorem asCond_iff (a : CondArg) (c : Cond) : asCond a = .ok c ↔ CondGiven a c := by
  cases a with
  | cond d => simp [asCond, CondGiven, eq_comm]
  | text s => exact condFromStr_iff s c
  | pair x y => simp [asCond, CondGiven, eq_comm]

/-- C16, arguments. `add_rule` and the other editing methods take a Rule, a text, None or a list of conditions (each a Cond, a
text or a pair of texts) for exactly the rule it stands for: None and the empty list stand for the rule without conditions.
Anything that stands for no rule raises ValueError if it is a text, TypeError if it is a list. -/
theorem C16_rule_argument (a : RuleArg) :
    (∀ r, asRule a = .ok r ↔ RuleGiven a r) ∧
    (∀ e, asRule a = .error e ↔ (∀ r, ¬ RuleGiven a r) ∧ e = badArgument a) := by
  have h1 : ∀ r, asRule a = .ok r ↔ RuleGiven a r := by
    intro r
    cases a with
    | rule s => simp [asRule, RuleGiven, eq_comm]
    | text s => exact ruleFromStr_iff s r
    | nothing => simp [asRule, RuleGiven, eq_comm]
    | conds cs =>
      rcases r with ⟨conds, cal⟩
      simp only [asRule, RuleGiven]
      by_cases hc : cs = []
      · subst hc
        simp only [List.isEmpty_nil, if_true, Except.ok.injEq, Rule.mk.injEq, List.forall₂_nil_left_iff]
        constructor
        · rintro ⟨h1, h2⟩; exact ⟨h2.symm, h1.symm⟩
        · rintro ⟨h1, h2⟩; exact ⟨h2.symm, h1.symm⟩
      · rw [if_neg (by simpa using hc), ← forall₂_congr asCond_iff, ← mapM_iff]
        cases hm : cs.mapM asCond with
        | error e => simp
        | ok l =>
          simp only [Except.ok.injEq, Rule.mk.injEq]
          constructor
          · rintro ⟨h1, h2⟩; exact ⟨h2.symm, h1⟩
          · rintro ⟨h1, h2⟩; exact ⟨h2, h1.symm⟩
  refine ⟨h1, fun e => ?_⟩
  have hno : (∀ r, ¬ RuleGiven a r) ↔ ∃ e, asRule a = .error e := by
    constructor
    · intro h
      cases ha : asRule a with
      | error e => exact ⟨e, rfl⟩
      | ok r => exact absurd ((h1 r).mp ha) (h r)
    · rintro ⟨e, he⟩ r hr
      rw [(h1 r).mpr hr] at he; cases he
  have hk : ∀ e, asRule a = .error e → e = badArgument a := by
    intro e he
    cases a with
    | rule s => cases he
    | nothing => cases he
    | text s =>
      simp only [asRule] at he
      unfold ruleFromStr at he
      split at he
      · cases he
      · split at he
        · cases he
        · cases he; rfl
    | conds cs =>
      simp only [asRule] at he
      split at he
      · cases he
      · split at he
        · cases he
        · cases he; rfl
  constructor
  · intro h; exact ⟨hno.mpr ⟨e, h⟩, hk e h⟩
  · rintro ⟨h, rfl⟩
    obtain ⟨e', he'⟩ := hno.mp h
    rw [he', hk e' he']

/-- C16, the dangerous argument: `add_rule(None)`, like `add_rule([])`, succeeds and makes the model answer True on every row
of every table. -/
theorem C16_none_predicts_all (rs : Ruleset) (df : Frame) (a : RuleArg) (ha : a = .nothing ∨ a = .conds []) :
    ((EditOp.add a).run rs).2 = none ∧
    ((EditOp.add a).run rs).1.predict df = .ok (List.replicate df.rows.length true) := by
  have h : (EditOp.add a).run rs = ({ rs with rules := rs.rules ++ [{ conds := [] }] }, none) := by
    rcases ha with rfl | rfl <;> rfl
  rw [h]
  exact ⟨rfl, (C05_universal_and_null _ df).1 ⟨{ conds := [] }, by simp, rfl⟩⟩

example : asRule (.conds [.pair p!"a" p!"x", .text p!" b = y "]) =
      .ok { conds := [⟨.name p!"a", .str p!"x"⟩, ⟨.name p!"b", .str p!"y"⟩] } ∧
    asRule (.conds [.text p!"a"]) = .error .typeError ∧ asRule (.text p!"a") = .error .valueError ∧
    ((EditOp.add .nothing).run Demo.rs).1.predict Demo.df = .ok [true, true, true] := by decide +kernel

end Witt
