import Verif.Lemmas.Show
import Verif.Props.Text
import Verif.Props.FitApi
/-
Properties of the printed model: C83.
-/
namespace Witt
namespace Spec

/-- A rule as one line of `out_model`: `str(rule)` with each backslash doubled and a space on both sides of each `^`. -/
def shown (r : Rule) : PStr :=
  r.text.flatMap (fun x => if x = '^' then p!" ^ " else if x = '\\' then p!"\\\\" else [x])

/-- Rule `i` of `n` as `out_model` sets it on its line. -/
def line (n i : Nat) (r : Rule) : PStr :=
  (if i = 0 then ['['] else []) ++ shown r ++ (if i + 1 = n then [']'] else p!" V")

end Spec
open Spec

theorem shown_noBreak (r : Rule) : '\n' ∉ shown r := by
  refine shown_notin (t := r.text) (by decide) (fun h => ?_)
  have := (ruleText_chars r.conds _ h).1
  revert this; decide

theorem split_lines (b : PStr) (hb : '\n' ∉ b) (ts : List PStr) (hne : ts ≠ []) (ht : ∀ t ∈ ts, '\n' ∉ t) :
    ∀ a : PStr, '\n' ∉ a → ∀ (i : Nat) (t : PStr), ts[i]? = some t →
      (splitChar '\n' (a ++ pyJoin p!" V\n" ts ++ b))[i]? =
        some ((if i = 0 then a else []) ++ t ++ (if i + 1 = ts.length then b else p!" V")) := by
  induction ts with
  | nil => exact absurd rfl hne
  | cons u us ih =>
    intro a ha i t hi
    have hu := ht u (by simp)
    cases us with
    | nil =>
      rw [splitChar_single _ _ (by simp [pyJoin, ha, hu, hb])]
      cases i with
      | zero => simp at hi; subst hi; simp [pyJoin]
      | succ i => simp at hi
    | cons v vs =>
      have e : a ++ pyJoin p!" V\n" (u :: v :: vs) ++ b
          = (a ++ u ++ p!" V") ++ '\n' :: ([] ++ pyJoin p!" V\n" (v :: vs) ++ b) := by simp [pyJoin]
      rw [e, splitChar_append _ _ _ (by simp [ha, hu])]
      cases i with
      | zero => simp at hi; subst hi; simp
      | succ i =>
        have := ih (by simp) (fun x hx => ht x (by simp [hx])) [] (by simp) i t (by simpa using hi)
        rw [List.getElem?_cons_succ, this]
        simp

/-- C83. `out_model` prints one line per rule, in order, whatever the names and values of the model are (line breaks,
commas or quotes in them included); an empty ruleset prints one line, `[]`. -/
theorem C83_one_line_per_rule (rs : Ruleset) (lines : List PStr) (h : IsSplit '\n' rs.pretty lines) :
    lines.length = max 1 rs.rules.length ∧
    (rs.rules = [] → lines = [p!"[]"]) ∧
    ∀ (i : Nat) (r : Rule), rs.rules[i]? = some r → lines[i]? = some (line rs.rules.length i r) := by
  rw [isSplit_iff] at h
  rw [pretty_eq] at h
  by_cases hne : rs.rules = []
  · rw [hne] at h ⊢
    subst h
    refine ⟨by decide, fun _ => by decide, ?_⟩
    intro i r hi
    simp at hi
  · have hb : '\n' ∉ [']'] := by decide
    have ha : '\n' ∉ ['['] := by decide
    have ht : ∀ t ∈ rs.rules.map (fun r => shownText r.text), '\n' ∉ t := by
      intro t ht
      obtain ⟨r, _, rfl⟩ := List.mem_map.1 ht
      exact shown_noBreak r
    refine ⟨?_, fun e => absurd e hne, ?_⟩
    · rw [← h, splitChar_length, List.count_append, List.count_append, List.count_eq_zero.2 ha, List.count_eq_zero.2 hb]
      have hc := count_pyJoin '\n' p!" V\n" (by decide) (rs.rules.map (fun r => shownText r.text)) (by simp [hne])
      have hz : ((rs.rules.map (fun r => shownText r.text)).map (List.count '\n')).sum = 0 := by
        rw [List.sum_eq_zero_iff_forall_eq_nat]
        intro x hx
        obtain ⟨t, ht', rfl⟩ := List.mem_map.1 hx
        exact List.count_eq_zero.2 (ht t ht')
      rw [hz, List.length_map] at hc
      have : 1 ≤ rs.rules.length := by
        rcases hr : rs.rules with _ | ⟨r, l⟩
        · exact absurd hr hne
        · simp
      omega
    · intro i r hi
      have := split_lines [']'] hb (rs.rules.map (fun r => shownText r.text)) (by simp [hne]) ht ['['] ha i (shownText r.text)
        (by rw [List.getElem?_map, hi]; rfl)
      rw [h] at this
      rw [this, List.length_map]
      rfl

/-- Texts for which the printed model is unambiguous, and one with a line break and a comma in a value. -/
example : Ruleset.pretty { rules := [
      { conds := [⟨.name p!"a", .str p!"x"⟩, ⟨.name p!"b", .str p!"y"⟩] }, { conds := [⟨.name p!"c", .num 1 p!"1"⟩] }] }
    = p!"[[a=x ^ b=y] V\n[c=1]]" ∧
    Ruleset.pretty { rules := [{ conds := [⟨.name p!"a", .str p!"u\nv,w"⟩] }] } = p!"[[a=u\\\\nv ^ w]]" := by decide +kernel

/-- C83. The line of a rule with ordinary names and values: its conditions between ` ^ `, in brackets. -/
theorem C83_line_of_conditions (r : Rule) (hne : r.conds ≠ []) (h : ∀ c ∈ r.conds, SafeCond c) :
    shown r = ['['] ++ pyJoin p!" ^ " (r.conds.map Cond.text) ++ [']'] := by
  have e : shown r = shownText (condsText r.conds) := rfl
  have hq : ∀ c ∈ r.conds, '^' ∉ c.text ∧ '\\' ∉ c.text := by
    intro c hc
    refine ⟨fun hm => ?_, fun hm => ?_⟩
    · exact (quiet_char (safeCond_quiet (h c hc) _ hm)).2.2.2.2.2.2.2.2.2.2.1 rfl
    · exact (quiet_char (safeCond_quiet (h c hc) _ hm)).2.2.2.1 rfl
  rw [e, condsText_safe hne h, shown_eq, doubled_id]
  · rw [spaced_append, spaced_append, spaced_join]
    · rfl
    · intro p hp
      obtain ⟨c, hc, rfl⟩ := List.mem_map.1 hp
      exact (hq c hc).1
  · simp only [List.mem_append, not_or]
    refine ⟨⟨by decide, fun hm => ?_⟩, by decide⟩
    rcases mem_pyJoin hm with hx | ⟨t, ht, hx⟩
    · revert hx; decide
    · obtain ⟨c, hc, rfl⟩ := List.mem_map.1 ht
      exact (hq c hc).2 hx

theorem pad_noHat {a : PStr} (h : Padding a) : '^' ∉ a := by
  intro hm
  rcases h _ hm with e | e | e
  · exact absurd e (by decide)
  · exact absurd e (by decide)
  · revert e; decide

theorem shownPad (a' b' : PStr) (ha : a' = ['['] ∨ a' = ['\n']) (hb : b' = [']'] ∨ b' = [' ']) :
    Padding a' ∧ Padding b' ∧ a' ≠ [] := by
  refine ⟨?_, ?_, ?_⟩
  · rcases ha with rfl | rfl
    · intro c hc; simp at hc; exact .inl hc
    · intro c hc; simp at hc; subst hc; exact .inr (.inr (by decide))
  · rcases hb with rfl | rfl
    · intro c hc; simp at hc; exact .inr (.inl hc)
    · intro c hc; simp at hc; subst hc; exact .inr (.inr (by decide))
  · rcases ha with rfl | rfl <;> simp

theorem forall₂_mem {α β : Type} {R : α → β → Prop} {l : List α} {r : List β} (h : List.Forall₂ R l r) :
    List.Forall₂ (fun a b => R a b ∧ b ∈ r) l r := by
  induction h with
  | nil => exact .nil
  | cons h1 _ ih => exact .cons ⟨h1, by simp⟩ (ih.imp (fun _ _ h => ⟨h.1, by simp [h.2]⟩))

theorem prettySplit (rs : Ruleset) (hne : rs.rules ≠ []) (hV : ∀ r ∈ rs.rules, 'V' ∉ condsText r.conds) :
    List.Forall₂ (fun p r => ∃ a' b', (a' = ['['] ∨ a' = ['\n']) ∧ (b' = [']'] ∨ b' = [' ']) ∧
      p = a' ++ shownText (condsText r.conds) ++ b') (splitChar 'V' rs.pretty) rs.rules := by
  have hs := splitChar_padded 'V' [' '] ['\n'] (by decide) (by decide) [']'] (by decide)
    (rs.rules.map (fun r => shownText r.text)) (by simp [hne])
    (by
      intro t ht
      obtain ⟨r, hr, rfl⟩ := List.mem_map.1 ht
      exact shown_notin (by decide) (hV r hr)) ['['] (by decide)
  rw [List.forall₂_map_right_iff] at hs
  rw [pretty_eq]
  exact hs

/-- C83. The printed model can be read back (`init_ruleset`, `initial_model`) as the same rules with the same conditions in
the same order, iff no rule is empty and all names and values are text without white space, `'`, `,`, brackets, backslash,
`^`, `=`, `V` or control character. -/
theorem C83_reads_back_iff (rs : Ruleset) :
    (∃ rs', rulesetFromStr rs.pretty = .ok rs' ∧ rs'.rules.map Rule.conds = rs.rules.map Rule.conds) ↔
      ∀ r ∈ rs.rules, r.conds ≠ [] ∧ ∀ c ∈ r.conds, SafeCond c := by
  have hback : '[' ∈ rs.pretty := by rw [pretty_eq]; simp
  by_cases hnil : rs.rules = []
  · constructor
    · intro _; rw [hnil]; simp
    · intro _
      refine ⟨{ rules := [] }, ?_, by simp [hnil]⟩
      rw [pretty_eq, hnil]; rfl
  constructor
  · rintro ⟨rs', h, he⟩
    have hlen0 : rs'.rules.length = rs.rules.length := by
      have := congrArg List.length he
      simpa using this
    unfold rulesetFromStr at h
    split_ifs at h with hlit
    · cases h
      exact absurd (List.length_eq_zero_iff.1 hlen0.symm) hnil
    · cases hm : (splitChar 'V' rs.pretty).mapM ruleFromStr with
      | error e => rw [hm] at h; cases h
      | ok rules =>
        rw [hm] at h
        cases h
        simp only at he hlen0
        have hf := forall₂_ok hm
        have hlen := forall₂_length hf
        rw [splitChar_length, pretty_eq, List.count_append, List.count_append] at hlen
        have e1 : List.count 'V' ['['] = 0 := by decide
        have e2 : List.count 'V' [']'] = 0 := by decide
        have hcount := count_pyJoin 'V' p!" V\n" (by decide) (rs.rules.map (fun r => shownText r.text)) (by simp [hnil])
        rw [List.length_map] at hcount
        have hz : ((rs.rules.map (fun r => shownText r.text)).map (List.count 'V')).sum = 0 := by omega
        have hV : ∀ r ∈ rs.rules, 'V' ∉ condsText r.conds := by
          intro r hr hm
          have := List.sum_eq_zero_iff_forall_eq_nat.mp hz _ (List.mem_map.2 ⟨_, List.mem_map.2 ⟨r, hr, rfl⟩, rfl⟩)
          refine List.count_eq_zero.1 this (List.mem_flatMap.2 ⟨'V', hm, by simp⟩)
        have hsplit := prettySplit rs hnil hV
        have hg : List.Forall₂ (fun p cs => ∃ r : Rule, ruleFromStr p = .ok r ∧ r.conds = cs)
            (splitChar 'V' rs.pretty) (rules.map Rule.conds) := by
          rw [List.forall₂_map_right_iff]
          exact hf.imp (fun p r h => (⟨r, h, rfl⟩ : ∃ r' : Rule, ruleFromStr p = .ok r' ∧ r'.conds = r.conds))
        rw [he, List.forall₂_map_right_iff] at hg
        have := forall₂_self (forall₂_compose hsplit hg)
        intro r hr
        obtain ⟨p, ⟨a, b, ha, hb, rfl⟩, r', hp, hcs⟩ := this r hr
        obtain ⟨hpa, hpb, hane⟩ := shownPad a b ha hb
        exact safeRule_of_back hane hpa hpb (hV r hr) (noSlash_of_back hp hcs (pad_noHat hpa) (pad_noHat hpb)) hcs
  · intro h
    refine ⟨{ rules := rs.rules.map (fun r => { conds := r.conds }) }, ?_, by simp [Function.comp_def]⟩
    have hV : ∀ r ∈ rs.rules, 'V' ∉ condsText r.conds := fun r hr => V_notin_condsText (h r hr).1 (h r hr).2
    have hsplit := prettySplit rs hnil hV
    have hparse : (splitChar 'V' rs.pretty).mapM ruleFromStr = .ok (rs.rules.map (fun r => { conds := r.conds })) := by
      rw [mapM_iff, List.forall₂_map_right_iff]
      refine (forall₂_mem hsplit).imp ?_
      rintro p r ⟨⟨a, b, ha, hb, rfl⟩, hr⟩
      obtain ⟨hpa, hpb, _⟩ := shownPad a b ha hb
      obtain ⟨hne, hs⟩ := h r hr
      have hsl : '\\' ∉ condsText r.conds := by
        rw [condsText_safe hne hs]
        simp only [List.mem_append, not_or]
        refine ⟨⟨by decide, fun hm => ?_⟩, by decide⟩
        rcases mem_pyJoin hm with hx | ⟨t, ht, hx⟩
        · revert hx; decide
        · obtain ⟨c, hc, rfl⟩ := List.mem_map.1 ht
          exact (quiet_char (safeCond_quiet (hs c hc) _ hx)).2.2.2.1 rfl
      have e : a ++ shownText (condsText r.conds) ++ b = spaced (a ++ condsText r.conds ++ b) := by
        rw [spaced_append, spaced_append, spaced_id (pad_noHat hpa), spaced_id (pad_noHat hpb), shown_eq, doubled_id hsl]
      rw [e, ruleFromStr_spaced]
      exact ruleFromStr_safe hne hs hpa hpb
    have heq : '=' ∈ rs.pretty := by
      rcases hr : rs.rules with _ | ⟨r, rest⟩
      · exact absurd hr hnil
      · have hrm : r ∈ rs.rules := by rw [hr]; simp
        obtain ⟨hne, hs⟩ := h r hrm
        have h1 : '=' ∈ r.text := by
          rw [Rule.text, condsText_safe hne hs]
          rcases hc : r.conds with _ | ⟨c, cs⟩
          · exact absurd hc hne
          · have : '=' ∈ c.text := by simp [Cond.text]
            cases cs <;> simp [pyJoin, this]
        have h2 : '=' ∈ shownText r.text := List.mem_flatMap.2 ⟨'=', h1, by simp⟩
        rw [pretty_eq]
        have := mem_pyJoin_of (sep := p!" V\n") (List.mem_map.2 ⟨r, hrm, rfl⟩ : shownText r.text ∈ rs.rules.map (fun r => shownText r.text)) h2
        simp [this]
    unfold rulesetFromStr
    rw [if_neg (by rintro (e | e | e) <;> (rw [e] at heq; revert heq; decide)), hparse]

example : rulesetFromStr Demo.rs.pretty = .ok Demo.rs ∧ Demo.rs.pretty = p!"[[a=x] V\n[b=x]]" ∧
    (splitChar '\n' Demo.rs.pretty) = [p!"[[a=x] V", p!"[b=x]]"] := by decide +kernel

/-- C83. What one classifier prints makes another one with the same conditions: `init_ruleset(text)` with the text
`out_model()` printed, iff the model's names and values are ordinary. -/
theorem C83_copy_by_text (c other : Clf) (rs : Ruleset) (hc : c.ruleset = some rs) (cf : Feat) (pc : Val) :
    (∃ other' rs', Clf.initRuleset (.text c.outModel) cf pc other = .ok () other' ∧ other'.ruleset = some rs' ∧
        rs'.rules.map Rule.conds = rs.rules.map Rule.conds) ↔
      ∀ r ∈ rs.rules, r.conds ≠ [] ∧ ∀ c ∈ r.conds, SafeCond c := by
  rw [← C83_reads_back_iff]
  have hne : rs.pretty ≠ [] := by rw [pretty_eq]; simp
  have ho : c.outModel = rs.pretty := by unfold Clf.outModel; rw [hc]
  have ht : ModelArg.toRuleset (.text c.outModel) = rulesetFromStr rs.pretty := by
    rw [ho]; simp only [ModelArg.toRuleset, hne, if_false]
  constructor
  · rintro ⟨other', rs', h, h1, h2⟩
    refine ⟨rs', ?_, h2⟩
    unfold Clf.initRuleset at h
    rw [ht] at h
    cases hp : rulesetFromStr rs.pretty with
    | error e => rw [hp] at h; cases h
    | ok x =>
      rw [hp] at h
      cases h
      simp only [Option.some.injEq] at h1
      rw [h1]
  · rintro ⟨rs', h, h2⟩
    have hi : ∃ o, Clf.initRuleset (.text c.outModel) cf pc other = .ok () o ∧ o.ruleset = some rs' := by
      unfold Clf.initRuleset
      rw [ht, h]
      exact ⟨_, rfl, rfl⟩
    obtain ⟨o, h3, h4⟩ := hi
    exact ⟨o, rs', h3, h4, h2⟩

/-- C83. After a `fit` that returned, `out_model` prints as many lines as the model has rules (one if it has none), the
i-th showing rule i; on a new object it prints "no model fitted". -/
theorem C83_out_model [Arith] (a : Method) (fuel : Nat) (R : PyRandom) (F : PyFloat) (P : PandasCut) (d : FitData) (init : ModelArg)
    (g g' : R.G) (c c' : Clf) (h : a.fit fuel R F P d init g c = .ok g' c') (lines : List PStr)
    (hl : IsSplit '\n' c'.outModel lines) :
    ∃ rs, c'.ruleset = some rs ∧ lines.length = max 1 rs.rules.length ∧
      ∀ (i : Nat) (r : Rule), rs.rules[i]? = some r → lines[i]? = some (line rs.rules.length i r) := by
  obtain ⟨df, cf, pc, b, start, m, _, _, _, rfl⟩ := Method.fit_ok h
  have hr : (c.fitted m b cf pc).ruleset = some m.ruleset := rfl
  refine ⟨m.ruleset, hr, ?_⟩
  have ho : (c.fitted m b cf pc).outModel = m.ruleset.pretty := rfl
  rw [ho] at hl
  obtain ⟨h1, _, h2⟩ := C83_one_line_per_rule _ _ hl
  exact ⟨h1, h2⟩

example : Clf.outModel {} = p!"no model fitted" ∧ Clf.outModel { ruleset := some Demo.rs } = p!"[[a=x] V\n[b=x]]" := by
  decide +kernel

/-! ### truncated texts -/

/-- C83. `truncstr(limit, direction)` for a positive limit: the whole text if there are at most `limit` rules; otherwise the
first (last) `limit` rules and an ellipsis, or ValueError for an unknown direction. -/
theorem C83_truncstr (rs : Ruleset) (limit : Nat) (hl : 0 < limit) (direction : PStr) :
    (rs.rules.length ≤ limit → rs.truncstr limit direction = .ok rs.text) ∧
    (limit < rs.rules.length →
      rs.truncstr limit p!"left" = .ok (Ruleset.text { rules := rs.rules.take limit } ++ p!"...") ∧
      rs.truncstr limit p!"right" = .ok (p!"..." ++ Ruleset.text { rules := rs.rules.drop (rs.rules.length - limit) }) ∧
      (direction ≠ p!"left" → direction ≠ p!"right" → rs.truncstr limit direction = .error .valueError)) := by
  constructor
  · intro h
    unfold Ruleset.truncstr
    rw [if_neg (by omega)]
  · intro h
    have h' : (limit : Int) < rs.rules.length := by omega
    refine ⟨?_, ?_, ?_⟩
    · unfold Ruleset.truncstr
      rw [if_pos h', if_pos rfl]
      have : sliceTo rs.rules (limit : Int) = rs.rules.take limit := by
        unfold sliceTo sliceBound
        rw [if_neg (by omega)]; simp
      rw [this]
    · unfold Ruleset.truncstr
      rw [if_pos h', if_neg (by decide), if_pos rfl]
      have : sliceFrom rs.rules (-(limit : Int)) = rs.rules.drop (rs.rules.length - limit) := by
        unfold sliceFrom sliceBound
        rw [if_pos (by omega)]
        congr 1
        omega
      rw [this]
    · intro h1 h2
      unfold Ruleset.truncstr
      rw [if_pos h', if_neg h1, if_neg h2]

example : Ruleset.truncstr Demo.rs 1 p!"right" = .ok p!"...[[b=x]]" ∧
    Ruleset.truncstr Demo.rs 2 p!"sideways" = .ok p!"[[a=x] V [b=x]]" := by decide +kernel

/-- C83 fails for `truncstr(0, "right")`: every rule is printed (`rules[-0:]` is the whole list). -/
theorem C83_refuted_no_rules_from_the_right (rs : Ruleset) (h : rs.rules ≠ []) :
    rs.truncstr 0 p!"right" = .ok (p!"..." ++ rs.text) := by
  unfold Ruleset.truncstr
  have h' : (0 : Int) < rs.rules.length := by
    rcases hr : rs.rules with _ | ⟨r, l⟩
    · exact absurd hr h
    · simp only [List.length_cons]; omega
  rw [if_pos h', if_neg (by decide), if_pos rfl]
  have : sliceFrom rs.rules (-0) = rs.rules := by simp [sliceFrom, sliceBound]
  rw [this]
  rfl

end Witt
