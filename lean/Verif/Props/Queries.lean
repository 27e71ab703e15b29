import Verif.Lemmas.Dedup
import Verif.Props.Predict
/-
Properties of ruleset queries and list utilities: C32 (list level), C55, C56.
-/
namespace Witt
open Spec

/-- C55. `trim_conds(m)` keeps the longest prefix of the rules with at most `m` conditions in total (no
rule at all if none fits), nothing else changes; `trim_conds(None)` changes nothing. -/
theorem C55_trim_conds (rs : Ruleset) :
    rs.trimConds none = rs ∧
    ∀ m : Int, ∃ k, k ≤ rs.rules.length ∧ rs.trimConds (some m) = { rs with rules := rs.rules.take k } ∧
      (k = 0 ∨ ((((rs.rules.take k).map (fun r => r.conds.length)).sum : Nat) : Int) ≤ m) ∧
      ∀ j, k < j → j ≤ rs.rules.length →
        m < ((((rs.rules.take j).map (fun r => r.conds.length)).sum : Nat) : Int) := by
  refine ⟨rfl, fun m => ?_⟩
  obtain ⟨k, hk, he, h1, h2⟩ :=
    trimAux_spec (size := fun r : Rule => r.conds.length) m rs.rules rs.rules.length (Nat.le_refl _)
  exact ⟨k, hk, by simp only [Ruleset.trimConds, trimRules, he], h1, h2⟩

example : (Demo.rs.trimConds (some 1)).rules = [Demo.rx] ∧ (Demo.rs.trimConds (some 0)).rules = [] ∧
    (Demo.rs.trimConds (some 2)).rules = [Demo.rx, Demo.rb] := by decide +kernel

theorem selectedAux_spec (seen fs : List Feat) :
    (selectedAux seen fs).Nodup ∧ (∀ f ∈ selectedAux seen fs, f ∉ seen) ∧
    (∀ f, f ∈ selectedAux seen fs ↔ f ∈ fs ∧ f ∉ seen) ∧
    (selectedAux seen fs).Pairwise (fun f g => fs.idxOf f < fs.idxOf g) := by
  induction fs generalizing seen with
  | nil => simp [selectedAux]
  | cons x fs ih =>
    unfold selectedAux
    by_cases h : x ∈ seen
    · simp only [List.contains_iff_mem.2 h, if_true]
      obtain ⟨h1, h2, h3, h4⟩ := ih seen
      refine ⟨h1, h2, ?_, ?_⟩
      · intro f; rw [h3]
        constructor
        · rintro ⟨a, b⟩; exact ⟨by simp [a], b⟩
        · rintro ⟨a, b⟩
          rcases List.mem_cons.1 a with rfl | a
          · exact absurd h b
          · exact ⟨a, b⟩
      · refine h4.imp_of_mem ?_
        intro f g hf hg hlt
        have hfx : x ≠ f := by rintro rfl; exact h2 _ hf h
        have hgx : x ≠ g := by rintro rfl; exact h2 _ hg h
        simp only [List.idxOf_cons, cond_false, beq_eq_false_iff_ne.2 hfx, beq_eq_false_iff_ne.2 hgx]
        omega
    · have hc : seen.contains x = false := by
        cases hcx : seen.contains x
        · rfl
        · exact absurd (List.contains_iff_mem.1 hcx) h
      simp only [hc, Bool.false_eq_true, if_false]
      obtain ⟨h1, h2, h3, h4⟩ := ih (x :: seen)
      refine ⟨?_, ?_, ?_, ?_⟩
      · rw [List.nodup_cons]
        exact ⟨fun hx => h2 x hx (by simp), h1⟩
      · intro f hf
        rcases List.mem_cons.1 hf with rfl | hf
        · exact h
        · exact fun hfs => h2 f hf (by simp [hfs])
      · intro f
        simp only [List.mem_cons, h3, not_or]
        constructor
        · rintro (rfl | ⟨a, b, c⟩)
          · exact ⟨.inl rfl, h⟩
          · exact ⟨.inr a, c⟩
        · rintro ⟨a, b⟩
          by_cases hfx : f = x
          · exact .inl hfx
          · rcases a with a | a
            · exact .inl a
            · exact .inr ⟨a, hfx, b⟩
      · rw [List.pairwise_cons]
        constructor
        · intro g hg
          have hgx : x ≠ g := by rintro rfl; exact h2 _ hg (by simp)
          simp only [List.idxOf_cons, beq_self_eq_true, cond_true, beq_eq_false_iff_ne.2 hgx, cond_false]
          omega
        · refine h4.imp_of_mem ?_
          intro f g hf hg hlt
          have hfx : x ≠ f := by rintro rfl; exact h2 _ hf (by simp)
          have hgx : x ≠ g := by rintro rfl; exact h2 _ hg (by simp)
          simp only [List.idxOf_cons, beq_eq_false_iff_ne.2 hfx, beq_eq_false_iff_ne.2 hgx, cond_false]
          omega

/-- C56. `get_selected_features` lists each feature tested by some condition of some rule, exactly once, in
the order in which the features first appear when the conditions are read rule by rule. -/
theorem C56_selected_features (rs : Ruleset) :
    rs.selectedFeatures.Nodup ∧
    (∀ f, f ∈ rs.selectedFeatures ↔ ∃ r ∈ rs.rules, ∃ c ∈ r.conds, c.feature = f) ∧
    rs.selectedFeatures.Pairwise (fun f g =>
      (rs.rules.flatMap (fun r => r.conds.map Cond.feature)).idxOf f <
      (rs.rules.flatMap (fun r => r.conds.map Cond.feature)).idxOf g) := by
  obtain ⟨h1, _, h3, h4⟩ := selectedAux_spec [] (rs.rules.flatMap (fun r => r.conds.map Cond.feature))
  refine ⟨h1, ?_, h4⟩
  intro f
  unfold Ruleset.selectedFeatures
  rw [h3]; simp

example : ({ rules := [{ conds := [⟨Demo.fb, Demo.vx⟩] }, Demo.rx, Demo.rb] } : Ruleset).selectedFeatures
    = [Demo.fb, Demo.fa] := by decide +kernel

theorem getCondsAux_spec (rules : List Rule) : ∀ seen : List Cond,
    (∀ c ∈ getCondsAux seen rules, ∃ r ∈ rules, c ∈ r.conds) ∧
    (∀ r ∈ rules, ∀ c ∈ r.conds, condIn c seen = true ∨ c ∈ getCondsAux seen rules ∨
      condIn c (getCondsAux seen rules) = true) ∧
    (∀ c ∈ getCondsAux seen rules, condIn c seen = false) ∧
    ((∀ r ∈ rules, r.conds.Pairwise (fun c d => c.pyEq d = false)) →
      (getCondsAux seen rules).Pairwise (fun c d => c.pyEq d = false)) := by
  induction rules with
  | nil => intro seen; simp [getCondsAux]
  | cons r rules ih =>
    intro seen
    unfold getCondsAux
    obtain ⟨h1, h2, h3, h4⟩ := ih (seen ++ r.conds.filter (fun c => !condIn c seen))
    have hin : ∀ (c : Cond) (a b : List Cond), condIn c (a ++ b) = (condIn c a || condIn c b) := by
      intro c a b; simp [condIn, List.any_append]
    refine ⟨?_, ?_, ?_, ?_⟩
    · intro c hc
      rcases List.mem_append.1 hc with hc | hc
      · exact ⟨r, by simp, (List.mem_filter.1 hc).1⟩
      · obtain ⟨s, hs, hcs⟩ := h1 c hc; exact ⟨s, by simp [hs], hcs⟩
    · intro s hs c hc
      rcases List.mem_cons.1 hs with rfl | hs
      · cases hcs : condIn c seen
        · exact .inr (.inl (List.mem_append.2 (.inl (List.mem_filter.2 ⟨hc, by simp [hcs]⟩))))
        · exact .inl rfl
      · rcases h2 s hs c hc with h | h | h
        · rw [hin] at h
          rcases Bool.or_eq_true_iff.1 h with h | h
          · exact .inl h
          · exact .inr (.inr (by rw [hin, h]; rfl))
        · exact .inr (.inl (List.mem_append.2 (.inr h)))
        · exact .inr (.inr (by rw [hin, h]; simp))
    · intro c hc
      rcases List.mem_append.1 hc with hc | hc
      · simpa using (List.mem_filter.1 hc).2
      · have := h3 c hc
        rw [hin] at this
        exact (Bool.or_eq_false_iff.1 this).1
    · intro hp
      rw [List.pairwise_append]
      refine ⟨(hp r (by simp)).filter _, h4 (fun s hs => hp s (by simp [hs])), ?_⟩
      intro c hc d hd
      have := h3 d hd
      rw [hin] at this
      have := (Bool.or_eq_false_iff.1 this).2
      cases hcd : c.pyEq d
      · rfl
      · rw [condIn, List.any_eq_false] at this
        exact absurd hcd (this c hc)

/-- C56, `get_conds`: it lists conditions of the model only, every condition of every rule is listed (itself
or an equal one), and if no rule repeats a condition no two listed conditions are equal. -/
theorem C56_get_conds (rs : Ruleset) :
    (∀ c ∈ rs.getConds, ∃ r ∈ rs.rules, c ∈ r.conds) ∧
    (∀ r ∈ rs.rules, ∀ c ∈ r.conds, c ∈ rs.getConds ∨ ∃ d ∈ rs.getConds, d.pyEq c = true) ∧
    ((∀ r ∈ rs.rules, r.conds.Pairwise (fun c d => c.pyEq d = false)) →
      rs.getConds.Pairwise (fun c d => c.pyEq d = false)) := by
  obtain ⟨h1, h2, _, h4⟩ := getCondsAux_spec rs.rules []
  refine ⟨h1, ?_, h4⟩
  intro r hr c hc
  rcases h2 r hr c hc with h | h | h
  · simp [condIn] at h
  · exact .inl h
  · exact .inr (by simpa [condIn, Ruleset.getConds] using h)

/-- A rule that repeats a condition makes `get_conds` repeat it. -/
theorem C56_get_conds_repeats :
    ∃ rs : Ruleset, rs.getConds = [⟨Demo.fa, Demo.vx⟩, ⟨Demo.fa, Demo.vx⟩] :=
  ⟨{ rules := [{ conds := [⟨Demo.fa, Demo.vx⟩, ⟨Demo.fa, Demo.vx⟩] }] }, by decide +kernel⟩

example : (Ruleset.getConds { rules := [Demo.rx, Demo.rb, Demo.rx] }).length = 2 := by decide +kernel

theorem removeDupsAux_snoc (l : List Rule) (r : Rule) : ∀ seen,
    removeDupsAux Rule.sameKey seen (l ++ [r]) = removeDupsAux Rule.sameKey seen l ++
      (if (seen ++ l).any (fun s => s.sameKey r) then [] else [r]) := by
  induction l with
  | nil => intro seen; simp only [List.nil_append, removeDupsAux, List.append_nil]
  | cons x l ih =>
    intro seen
    simp only [List.cons_append, removeDupsAux]
    by_cases h : seen.any (fun s => s.sameKey x) = true
    · simp only [h, if_true, ih]
      congr 2
      obtain ⟨s, hs, hsx⟩ := List.any_eq_true.1 h
      simp only [List.any_append, List.any_cons, Bool.or_eq_true, eq_iff_iff]
      constructor
      · rintro (h | h)
        · exact .inl h
        · exact .inr (.inr h)
      · rintro (h | h | h)
        · exact .inl h
        · exact .inl (List.any_eq_true.2 ⟨s, hs, condsSameKey_trans hsx h⟩)
        · exact .inr h
    · simp only [h, Bool.false_eq_true, if_false, ih, List.cons_append]
      congr 3
      simp only [List.any_append, List.any_cons, Bool.or_eq_true, eq_iff_iff]
      constructor
      · rintro (h | h | h)
        · exact .inr (.inl h)
        · exact .inl h
        · exact .inr (.inr h)
      · rintro (h | h | h)
        · exact .inr (.inl h)
        · exact .inl h
        · exact .inr (.inr h)

/-- C32, list level. De-duplicating keeps, in order, exactly the rules that have no earlier rule with the
same condition texts up to order (this equation determines the result on every list); so the result is a
sub-list with no two such rules. -/
theorem C32_remove_duplicates_keeps_first (l : List Rule) (r : Rule) :
    removeDups Rule.sameKey (l ++ [r]) =
      removeDups Rule.sameKey l ++ (if ∃ s ∈ l, (s.conds.map Cond.text).Perm (r.conds.map Cond.text)
        then [] else [r]) ∧
    removeDups Rule.sameKey ([] : List Rule) = [] ∧
    (removeDups Rule.sameKey l).Sublist l ∧
    (removeDups Rule.sameKey l).Pairwise
      (fun a b => ¬ (a.conds.map Cond.text).Perm (b.conds.map Cond.text)) := by
  refine ⟨?_, rfl, removeDups_sublist l, ?_⟩
  · unfold removeDups
    rw [removeDupsAux_snoc]
    congr 1
    have : ([] ++ l).any (fun s => s.sameKey r) = true ↔
        ∃ s ∈ l, (s.conds.map Cond.text).Perm (r.conds.map Cond.text) := by
      simp [Rule.sameKey, condsSameKey_iff, condTexts]
    by_cases h : ∃ s ∈ l, (s.conds.map Cond.text).Perm (r.conds.map Cond.text)
    · rw [if_pos (this.2 h), if_pos h]
    · rw [if_neg (fun h' => h (this.1 h')), if_neg h]
  · refine (removeDups_pairwise l).imp ?_
    intro a b h hp
    have := condsSameKey_iff.2 hp
    rw [Rule.sameKey, this] at h; cases h

/-- C32, predictions. When conditions with the same text are the same condition (as for text names and
values without `=`), de-duplicating changes no prediction. -/
theorem C32_remove_duplicates_plain (rs : Ruleset)
    (hp : ∀ r ∈ rs.rules, ∀ c ∈ r.conds, PlainCond c) (df : Frame) :
    ({ rs with rules := removeDups Rule.sameKey rs.rules } : Ruleset).predict df = rs.predict df := by
  apply C07_order_and_repetition
  have hsub := removeDups_sublist (same := Rule.sameKey) rs.rules
  constructor
  · intro r hr
    exact ⟨r, hsub.subset hr, fun _ => .rfl⟩
  · intro r hr
    rcases removeDups_rep (same := Rule.sameKey) rs.rules hr with h | ⟨s, hs, hsr⟩
    · exact ⟨r, h, fun _ => .rfl⟩
    · exact ⟨s, hs, sameConds_of_condsEq (hp r hr) (hp s (hsub.subset hs))
        (condsEq_symm (condsEq_of_sameKey hsr))⟩

/-- Without that proviso it fails: the rules `a=1` (a number) and `a=1` (text) are merged. -/
theorem C32_refuted_number_vs_text :
    ∃ (rs : Ruleset) (df : Frame), df.UniqueIndex ∧ HasFeatures df rs.rules ∧
      rs.predict df = .ok [true, true] ∧
      ({ rs with rules := removeDups Rule.sameKey rs.rules } : Ruleset).predict df = .ok [true, false] := by
  refine ⟨{ rules := [{ conds := [⟨Demo.fa, .num 1 p!"1"⟩] }, { conds := [⟨Demo.fa, .str p!"1"⟩] }] },
    Frame.ofTable [Demo.fa] [(0, [.num 1 p!"1"]), (1, [.str p!"1"])], ?_, ?_, by decide +kernel,
    by decide +kernel⟩
  · unfold Frame.UniqueIndex; decide +kernel
  · unfold HasFeatures; decide +kernel

example : removeDups Rule.sameKey [Demo.rx, Demo.rb, Demo.rx] = [Demo.rx, Demo.rb] ∧
    ∀ r ∈ [Demo.rx, Demo.rb, Demo.rx], ∀ c ∈ r.conds, PlainCond c := by
  refine ⟨by decide +kernel, ?_⟩
  simp [Demo.rx, Demo.rb, PlainCond, Demo.fa, Demo.fb, Demo.vx]

end Witt
