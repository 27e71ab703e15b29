import Verif.Lemmas.Cover
/-
Lemmas: rule equality compares printed condition texts.
-/
namespace Witt
open Spec

/-- A condition whose name is text without `=` and whose value is text (a categorical condition). -/
def PlainCond (c : Cond) : Prop :=
  (∃ f, c.feature = .name f ∧ '=' ∉ f) ∧ ∃ v, c.val = .str v

theorem append_eq_split {f f' v v' : PStr} (hf : '=' ∉ f) (hf' : '=' ∉ f')
    (h : f ++ '=' :: v = f' ++ '=' :: v') : f = f' ∧ v = v' := by
  induction f generalizing f' with
  | nil =>
    cases f' with
    | nil => simpa using h
    | cons c f' => simp at h; exact absurd h.1 (by intro e; exact hf' (e ▸ List.mem_cons_self))
  | cons c f ih =>
    cases f' with
    | nil => simp at h; exact absurd h.1 (by intro e; exact hf (by simp [e]))
    | cons c' f' =>
      simp only [List.cons_append, List.cons.injEq] at h
      have := ih (by intro hm; exact hf (by simp [hm])) (by intro hm; exact hf' (by simp [hm])) h.2
      exact ⟨by rw [h.1, this.1], this.2⟩

/-- Plain conditions are determined by their text. -/
theorem Cond.text_inj {c d : Cond} (hc : PlainCond c) (hd : PlainCond d) (h : c.text = d.text) :
    c = d := by
  obtain ⟨⟨f, hf, hf'⟩, v, hv⟩ := hc
  obtain ⟨⟨g, hg, hg'⟩, w, hw⟩ := hd
  cases c; cases d
  simp only at hf hv hg hw
  subst hf hv hg hw
  simp only [Cond.text, Feat.text, Val.text, List.append_assoc, List.singleton_append] at h
  have := append_eq_split hf' hg' h
  simp [this]

theorem condsEq_iff {a b : List Cond} :
    condsEq a b = true ↔ a.length = b.length ∧ ∀ t, t ∈ condTexts a ↔ t ∈ condTexts b := by
  unfold condsEq
  simp only [Bool.and_eq_true, beq_iff_eq, List.all_eq_true, List.contains_iff_mem]
  constructor
  · rintro ⟨h1, h2, h3⟩; exact ⟨h1, fun t => ⟨h2 t, h3 t⟩⟩
  · rintro ⟨h1, h2⟩; exact ⟨h1, fun t => (h2 t).1, fun t => (h2 t).2⟩

theorem condsEq_refl (a : List Cond) : condsEq a a = true := condsEq_iff.2 ⟨rfl, fun _ => .rfl⟩

theorem condsEq_symm {a b : List Cond} (h : condsEq a b = true) : condsEq b a = true := by
  rw [condsEq_iff] at *; exact ⟨h.1.symm, fun t => (h.2 t).symm⟩

theorem condsEq_trans {a b c : List Cond} (h : condsEq a b = true) (h' : condsEq b c = true) :
    condsEq a c = true := by
  rw [condsEq_iff] at *; exact ⟨h.1.trans h'.1, fun t => (h.2 t).trans (h'.2 t)⟩

theorem condsSameKey_iff {a b : List Cond} :
    condsSameKey a b = true ↔ (condTexts a).Perm (condTexts b) := List.isPerm_iff

theorem condsEq_of_sameKey {a b : List Cond} (h : condsSameKey a b = true) : condsEq a b = true := by
  rw [condsSameKey_iff] at h
  rw [condsEq_iff]
  have := h.length_eq
  simp only [condTexts, List.length_map] at this
  exact ⟨this, fun t => h.mem_iff⟩

/-- Equal plain condition lists have the same conditions. -/
theorem sameConds_of_condsEq {a b : List Cond} (ha : ∀ c ∈ a, PlainCond c) (hb : ∀ c ∈ b, PlainCond c)
    (h : condsEq a b = true) : ∀ c, c ∈ a ↔ c ∈ b := by
  rw [condsEq_iff] at h
  have key : ∀ {x y : List Cond}, (∀ c ∈ x, PlainCond c) → (∀ c ∈ y, PlainCond c) →
      (∀ t, t ∈ condTexts x → t ∈ condTexts y) → ∀ c, c ∈ x → c ∈ y := by
    intro x y hx hy h c hc
    have := h c.text (List.mem_map.2 ⟨c, hc, rfl⟩)
    obtain ⟨d, hd, hdt⟩ := List.mem_map.1 this
    rw [← Cond.text_inj (hy d hd) (hx c hc) hdt]; exact hd
  intro c
  exact ⟨key ha hb (fun t => (h.2 t).1) c, key hb ha (fun t => (h.2 t).2) c⟩

theorem ruleIn_iff {r : Rule} {rs : List Rule} :
    ruleIn r rs = true ↔ ∃ s ∈ rs, condsEq r.conds s.conds = true := by
  simp [ruleIn, Rule.pyEq]

theorem Ruleset.pyEq_iff {a b : Ruleset} : a.pyEq b = true ↔
    (∀ r ∈ a.rules, ∃ s ∈ b.rules, condsEq r.conds s.conds = true) ∧
    (∀ r ∈ b.rules, ∃ s ∈ a.rules, condsEq r.conds s.conds = true) := by
  simp only [Ruleset.pyEq, Bool.and_eq_true, List.all_eq_true, ruleIn_iff]

/-- A duplicate-free list included in a list of the same length is a permutation of it. -/
theorem perm_of_nodup_subset {α : Type} [DecidableEq α] {a b : List α} (ha : a.Nodup)
    (hlen : a.length = b.length) (hsub : ∀ t ∈ a, t ∈ b) : a.Perm b := by
  induction a generalizing b with
  | nil => cases b with
    | nil => exact .nil
    | cons _ _ => simp at hlen
  | cons x a ih =>
    have hx : x ∈ b := hsub x (by simp)
    rw [List.nodup_cons] at ha
    have h1 : a.Perm (b.erase x) := by
      apply ih ha.2
      · rw [List.length_erase_of_mem hx]; simp at hlen; omega
      · intro t ht
        have : t ≠ x := by rintro rfl; exact ha.1 ht
        exact (List.mem_erase_of_ne this).2 (hsub t (by simp [ht]))
    exact (List.Perm.cons x h1).trans (List.perm_cons_erase hx).symm

end Witt
