import Verif.Lemmas.Catnap
import Verif.Props.Predict
/-
C17, C18, C58: the coverage index agrees with the data.
-/
namespace Witt
open Spec

namespace Demo
/-- A labelled frame with class column `cls`. -/
def fc : Feat := .name p!"cls"
def vp : Val := .str p!"p"
def vn : Val := .str p!"n"
def train : Frame := Frame.ofTable [fa, fb, fc]
  [(0, [vx, vx, vp]), (1, [vx, vy, vp]), (2, [vy, vx, vn]), (3, [vy, vy, vn]), (4, [vx, vy, vn])]
def cn : CatNap := match CatNap.build train fc with | .ok c => c | .error _ => ⟨[], [], []⟩
theorem build_train : CatNap.build train fc = .ok cn := by
  rw [CatNap.build_ok (by decide +kernel)]; rfl
theorem train_unique : train.UniqueIndex := by unfold Frame.UniqueIndex; decide +kernel
end Demo

/-- C17. `rule_covers(rule, subset)` is exactly the labels of `subset` whose row satisfies every condition
of the rule: no repetition is added and none is lost. -/
theorem C17_rule_covers (df : Frame) (cf : Feat) (cn : CatNap) (hb : CatNap.build df cf = .ok cn)
    (hu : df.UniqueIndex) (r : List Cond) (hr : OverCols df cf r) (s : List Label) :
    (∀ l, l ∈ cn.ruleCovers r (some s) ↔ l ∈ s ∧ Covered df r l) ∧
    (cn.ruleCovers r (some s)).Sublist s := by
  rw [CatNap.ruleCovers_some]
  refine ⟨?_, List.filter_sublist⟩
  intro l
  rw [List.mem_filter, CatNap.hit_iff hb hu hr]
  rfl

/-- C17. Without a subset, all labels of the data whose row satisfies the rule. -/
theorem C17_rule_covers_all (df : Frame) (cf : Feat) (cn : CatNap) (hb : CatNap.build df cf = .ok cn)
    (hu : df.UniqueIndex) (r : List Cond) (hr : OverCols df cf r) (l : Label) :
    l ∈ cn.ruleCovers r none ↔ Covered df r l := by
  have h := CatNap.hit_iff hb hu hr (l := l)
  unfold Covered
  rw [← h]
  unfold CatNap.ruleCovers CatNap.hit
  by_cases hn : r = []
  · simp [hn]
  · simp only [ne_eq, hn, not_false_eq_true, if_true, if_false]
    rw [mem_setInterAll (by simpa using hn)]
    simp

/-- C17. `cond_covers(cond, subset)` is exactly the labels of `subset` (of all labels, without one) for which some row of that label
meets the condition, a condition on a column of the data other than the class; whatever the row labels. -/
theorem C17_cond_covers (df : Frame) (cf : Feat) (cn : CatNap) (hb : CatNap.build df cf = .ok cn) (c : Cond) :
    (∀ (s : List Label) (l : Label), l ∈ cn.condCovers c (some s) ↔
      l ∈ s ∧ (c.feature ∈ df.cols ∧ c.feature ≠ cf) ∧ ∃ row ∈ df.rows, row.label = l ∧ Meets row c) ∧
    (∀ s : List Label, (cn.condCovers c (some s)).Sublist s) ∧
    (∀ l : Label, l ∈ cn.condCovers c none ↔
      (c.feature ∈ df.cols ∧ c.feature ≠ cf) ∧ ∃ row ∈ df.rows, row.label = l ∧ Meets row c) := by
  have hm : ∀ l : Label, l ∈ cn.lookup c ↔
      (c.feature ∈ df.cols ∧ c.feature ≠ cf) ∧ ∃ row ∈ df.rows, row.label = l ∧ Meets row c := by
    intro l
    rw [CatNap.mem_lookup hb]
    simp only [Cond.met_iff]
  refine ⟨fun s l => ?_, fun s => ?_, hm⟩
  · rw [CatNap.condCovers_some, List.mem_filter, List.contains_iff_mem, hm]
  · rw [CatNap.condCovers_some]; exact List.filter_sublist

/-- C17. A condition about the class column or an unknown column is never met in the index (unlike
`Rule.covers`, which raises KeyError for an unknown column). -/
theorem C17_foreign_condition (df : Frame) (cf : Feat) (cn : CatNap)
    (hb : CatNap.build df cf = .ok cn) (r : List Cond) (c : Cond) (hc : c ∈ r)
    (hf : c.feature ∉ df.cols ∨ c.feature = cf) (s : List Label) : cn.ruleCovers r (some s) = [] := by
  rw [CatNap.ruleCovers_some, List.filter_eq_nil_iff]
  intro l _ hh
  have hn : r ≠ [] := List.ne_nil_of_mem hc
  simp only [CatNap.hit, hn, if_false, List.all_eq_true, List.contains_iff_mem] at hh
  have := ((CatNap.mem_lookup hb).mp (hh c hc)).1
  rcases hf with h | h
  · exact h this.1
  · exact this.2 h

example : CatNap.build Demo.train Demo.fc = .ok Demo.cn ∧ Demo.train.UniqueIndex ∧
    OverCols Demo.train Demo.fc [⟨Demo.fa, Demo.vx⟩, ⟨Demo.fb, Demo.vy⟩] ∧
    Demo.cn.ruleCovers [⟨Demo.fa, Demo.vx⟩, ⟨Demo.fb, Demo.vy⟩] (some [0, 1, 2, 4]) = [1, 4] :=
  ⟨Demo.build_train, Demo.train_unique, by unfold OverCols; decide +kernel, by decide +kernel⟩

/-- C18. `ruleset_covers(ruleset, subset)` is exactly the labels of `subset` covered by some rule, when
the ruleset has no empty rule, or `subset` is not empty. -/
theorem C18_ruleset_covers_usual (df : Frame) (cf : Feat) (cn : CatNap)
    (hb : CatNap.build df cf = .ok cn) (hu : df.UniqueIndex) (rs : List (List Cond))
    (hr : ∀ r ∈ rs, OverCols df cf r) (s : List Label) (hs : ∀ l ∈ s, l ∈ df.index)
    (hne : [] ∉ rs ∨ s ≠ []) :
    (∀ l, l ∈ cn.rulesetCovers rs (some s) ↔ l ∈ s ∧ ∃ r ∈ rs, Covered df r l) ∧
    (cn.rulesetCovers rs (some s)).Sublist s := by
  by_cases hun : rs.any List.isEmpty = true
  · have hmem : [] ∈ rs := by
      obtain ⟨r, h1, h2⟩ := List.any_eq_true.mp hun
      rw [List.isEmpty_iff] at h2; exact h2 ▸ h1
    have hs0 : s ≠ [] := by
      rcases hne with h | h
      · exact absurd hmem h
      · exact h
    rw [CatNap.rulesetCovers_univ hun]
    simp only [hs0, if_false]
    refine ⟨?_, List.Sublist.refl _⟩
    intro l
    constructor
    · intro hl
      obtain ⟨row, hrow, hl'⟩ := List.mem_map.mp (hs l hl)
      exact ⟨hl, [], hmem, row, hrow, hl', by intro c hc; simp at hc⟩
    · exact fun h => h.1
  · rw [CatNap.rulesetCovers_nonuniv (Bool.eq_false_iff.mpr hun)]
    refine ⟨?_, List.filter_sublist⟩
    intro l
    rw [List.mem_filter]
    simp only [CatNap.hitAny, List.any_eq_true]
    constructor
    · rintro ⟨h1, r, h2, h3⟩
      exact ⟨h1, r, h2, (CatNap.hit_iff hb hu (hr r h2)).mp h3⟩
    · rintro ⟨h1, r, h2, h3⟩
      exact ⟨h1, r, h2, (CatNap.hit_iff hb hu (hr r h2)).mpr h3⟩

/-- C18 fails for a universal ruleset and an empty subset: labels outside the subset are returned. -/
theorem C18_refuted_universal_empty_subset :
    ∃ (df : Frame) (cf : Feat) (cn : CatNap), CatNap.build df cf = .ok cn ∧ df.UniqueIndex ∧
      cn.rulesetCovers [[]] (some []) = [0, 1, 2, 3, 4] :=
  ⟨Demo.train, Demo.fc, Demo.cn, Demo.build_train, Demo.train_unique, by decide +kernel⟩

example : ([] : List Cond) ∉ [[(⟨Demo.fa, Demo.vx⟩ : Cond)], [⟨Demo.fb, Demo.vy⟩]] ∧
    Demo.cn.rulesetCovers [[⟨Demo.fa, Demo.vx⟩], [⟨Demo.fb, Demo.vy⟩]] (some [2, 3, 4]) = [3, 4] :=
  ⟨by decide +kernel, by decide +kernel⟩

theorem filter_length_add {α : Type} (l : List α) (f : α → Bool) :
    (l.filter f).length + (l.filter (fun x => !f x)).length = l.length := by
  induction l with
  | nil => rfl
  | cons a l ih => cases h : f a <;> simp [h] <;> omega

/-- C58. `rm_rule_covers_cn` keeps exactly the examples the rule does not cover, each as often as it was
there. -/
theorem C58_rm_rule_covers_cn (df : Frame) (cf : Feat) (cn : CatNap) (hb : CatNap.build df cf = .ok cn)
    (hu : df.UniqueIndex) (r : List Cond) (hr : OverCols df cf r) (pos neg : List Label) :
    let res := rmRuleCoversCn cn r pos neg
    (∀ l, l ∈ res.1 ↔ l ∈ pos ∧ ¬ Covered df r l) ∧ (∀ l, l ∈ res.2 ↔ l ∈ neg ∧ ¬ Covered df r l) ∧
    res.1.Sublist pos ∧ res.2.Sublist neg ∧
    res.1.length + (cn.ruleCovers r (some pos)).length = pos.length ∧
    res.2.length + (cn.ruleCovers r (some neg)).length = neg.length := by
  have key : ∀ s : List Label, setDiff s (cn.ruleCovers r (some s)) = s.filter (fun l => !cn.hit r l) := by
    intro s
    unfold setDiff
    apply List.filter_congr
    intro l hl
    rw [CatNap.ruleCovers_some]
    congr 1
    rw [Bool.eq_iff_iff, List.contains_iff_mem, List.mem_filter]
    exact ⟨fun h => h.2, fun h => ⟨hl, h⟩⟩
  have hm : ∀ s l, l ∈ setDiff s (cn.ruleCovers r (some s)) ↔ l ∈ s ∧ ¬ Covered df r l := by
    intro s l
    rw [mem_setDiff, (C17_rule_covers df cf cn hb hu r hr s).1]
    constructor
    · rintro ⟨h1, h2⟩; exact ⟨h1, fun h => h2 ⟨h1, h⟩⟩
    · rintro ⟨h1, h2⟩; exact ⟨h1, fun h => h2 h.2⟩
  have hl : ∀ s : List Label, (setDiff s (cn.ruleCovers r (some s))).length +
      (cn.ruleCovers r (some s)).length = s.length := by
    intro s
    rw [key, CatNap.ruleCovers_some]
    have := filter_length_add s (cn.hit r)
    omega
  refine ⟨hm pos, hm neg, ?_, ?_, hl pos, hl neg⟩ <;> exact List.filter_sublist

/-- C58. `rm_covered` of a rule on DataFrames: with distinct labels, exactly the rows it does not cover
remain, in order; KeyError exactly when a tested column is missing. -/
theorem C58_rm_covered (r : List Cond) (pos neg : Frame) (hp : pos.UniqueIndex) (hn : neg.UniqueIndex)
    (hc : pos.cols = neg.cols) :
    (∀ p n, rmCoveredRule r pos neg = .ok (p, n) →
      p.rows.Sublist pos.rows ∧ n.rows.Sublist neg.rows ∧
      (∀ row, row ∈ p.rows ↔ row ∈ pos.rows ∧ ¬ FiresC row r) ∧
      (∀ row, row ∈ n.rows ↔ row ∈ neg.rows ∧ ¬ FiresC row r)) ∧
    (rmCoveredRule r pos neg = .error .keyError ↔ ∃ c ∈ r, c.feature ∉ pos.cols) ∧
    ((∀ c ∈ r, c.feature ∈ pos.cols) → ∃ p n, rmCoveredRule r pos neg = .ok (p, n)) := by
  have key : ∀ d : Frame, d.UniqueIndex → ∀ row, row ∈ (d.dropLabels (d.keep (condsMet r)).index).rows ↔
      row ∈ d.rows ∧ ¬ FiresC row r := by
    intro d hd row
    simp only [Frame.dropLabels, Frame.keep_rows, List.mem_filter, Frame.index, Bool.not_eq_true']
    constructor
    · rintro ⟨h1, h2⟩
      refine ⟨h1, ?_⟩
      intro hf
      rw [← condsMet_iff] at hf
      rw [Bool.eq_false_iff] at h2
      exact h2 (by
        rw [List.contains_iff_mem]
        exact List.mem_map.mpr ⟨row, List.mem_filter.mpr ⟨h1, hf⟩, rfl⟩)
    · rintro ⟨h1, h2⟩
      refine ⟨h1, ?_⟩
      rw [Bool.eq_false_iff]
      intro h
      rw [List.contains_iff_mem] at h
      obtain ⟨row', hr', hl'⟩ := List.mem_map.mp h
      obtain ⟨hm, hf⟩ := List.mem_filter.mp hr'
      rw [row_eq_of_label hd hm h1 hl'] at hf
      exact h2 (condsMet_iff.mp hf)
  by_cases hf : ∀ c ∈ r, c.feature ∈ pos.cols
  · have h1 := condsCover_ok hf
    have h2 := condsCover_ok (cs := r) (df := neg) (by rw [← hc]; exact hf)
    have he : rmCoveredRule r pos neg = .ok (pos.dropLabels (pos.keep (condsMet r)).index,
        neg.dropLabels (neg.keep (condsMet r)).index) := by
      unfold rmCoveredRule; rw [h1, h2]; rfl
    rw [he]
    refine ⟨?_, ?_, fun _ => ⟨_, _, rfl⟩⟩
    · intro p n h
      injection h with h
      injection h with h3 h4
      subst h3; subst h4
      exact ⟨List.filter_sublist, List.filter_sublist, key pos hp, key neg hn⟩
    · constructor
      · intro h; cases h
      · rintro ⟨c, hc, hx⟩; exact absurd (hf c hc) hx
  · have h1 := condsCover_err hf
    have he : rmCoveredRule r pos neg = .error .keyError := by
      unfold rmCoveredRule; rw [h1]; rfl
    rw [he]
    refine ⟨fun p n h => (by cases h), ?_, fun h => absurd h hf⟩
    simp only [true_iff]
    push Not at hf
    exact hf

/-- C53. Every example is positive or negative, never both: the class split is a partition. -/
theorem C53_pos_neg_partition (df : Frame) (cf : Feat) (pc : Val) :
    (∀ row ∈ df.rows, (row ∈ (posRows df cf pc).rows ∧ Same (row.cell cf) pc) ∨
      (row ∈ (negRows df cf pc).rows ∧ ¬ Same (row.cell cf) pc)) ∧
    (∀ row, ¬ (row ∈ (posRows df cf pc).rows ∧ row ∈ (negRows df cf pc).rows)) ∧
    (posRows df cf pc).rows.Sublist df.rows ∧ (negRows df cf pc).rows.Sublist df.rows ∧
    (posRows df cf pc).rows.length + (negRows df cf pc).rows.length = df.rows.length := by
  refine ⟨?_, ?_, List.filter_sublist, List.filter_sublist, ?_⟩
  · intro row hr
    by_cases h : (row.cell cf).pyEq pc = true
    · exact Or.inl ⟨List.mem_filter.mpr ⟨hr, h⟩, Val.pyEq_iff.mp h⟩
    · exact Or.inr ⟨List.mem_filter.mpr ⟨hr, by simpa using h⟩, fun h' => h (Val.pyEq_iff.mpr h')⟩
  · rintro row ⟨h1, h2⟩
    have a := (List.mem_filter.mp h1).2
    have b := (List.mem_filter.mp h2).2
    simp [a] at b
  · have := filter_length_add df.rows (fun r => (r.cell cf).pyEq pc)
    unfold posRows negRows
    simp only [Frame.keep_rows]
    omega

end Witt
