import Verif.Lemmas.Equal
/-
Lemmas: de-duplication and trimming.
-/
namespace Witt

theorem condsSameKey_refl (a : List Cond) : condsSameKey a a = true := condsSameKey_iff.2 (.refl _)
theorem condsSameKey_symm {a b : List Cond} (h : condsSameKey a b = true) : condsSameKey b a = true :=
  condsSameKey_iff.2 (condsSameKey_iff.1 h).symm
theorem condsSameKey_trans {a b c : List Cond} (h : condsSameKey a b = true)
    (h' : condsSameKey b c = true) : condsSameKey a c = true :=
  condsSameKey_iff.2 ((condsSameKey_iff.1 h).trans (condsSameKey_iff.1 h'))

section
variable {α : Type} {same : α → α → Bool}

theorem removeDupsAux_spec (seen l : List α) :
    (removeDupsAux same seen l).Sublist l ∧
    (∀ r ∈ removeDupsAux same seen l, ∀ s ∈ seen, same s r = false) ∧
    (removeDupsAux same seen l).Pairwise (fun a b => same a b = false) ∧
    (∀ r ∈ l, (∃ s ∈ seen, same s r = true) ∨ r ∈ removeDupsAux same seen l ∨
      ∃ s ∈ removeDupsAux same seen l, same s r = true) := by
  induction l generalizing seen with
  | nil => simp [removeDupsAux]
  | cons x l ih =>
    unfold removeDupsAux
    by_cases h : seen.any (fun s => same s x) = true
    · simp only [h, if_true]
      obtain ⟨h1, h2, h3, h4⟩ := ih seen
      refine ⟨h1.cons x, h2, h3, ?_⟩
      intro r hr
      rcases List.mem_cons.1 hr with rfl | hr
      · exact .inl (by simpa using h)
      · exact h4 r hr
    · simp only [h, Bool.false_eq_true, if_false]
      obtain ⟨h1, h2, h3, h4⟩ := ih (x :: seen)
      have hx : ∀ s ∈ seen, same s x = false := by
        intro s hs
        cases hs' : same s x
        · rfl
        · exact absurd (List.any_eq_true.2 ⟨s, hs, hs'⟩) h
      refine ⟨h1.cons_cons x, ?_, ?_, ?_⟩
      · intro r hr s hs
        rcases List.mem_cons.1 hr with rfl | hr
        · exact hx s hs
        · exact h2 r hr s (by simp [hs])
      · rw [List.pairwise_cons]
        exact ⟨fun r hr => h2 r hr x (by simp), h3⟩
      · intro r hr
        rcases List.mem_cons.1 hr with rfl | hr
        · exact .inr (.inl (by simp))
        · rcases h4 r hr with ⟨s, hs, hsr⟩ | h' | ⟨s, hs, hsr⟩
          · rcases List.mem_cons.1 hs with rfl | hs
            · exact .inr (.inr ⟨s, by simp, hsr⟩)
            · exact .inl ⟨s, hs, hsr⟩
          · exact .inr (.inl (by simp [h']))
          · exact .inr (.inr ⟨s, by simp [hs], hsr⟩)

theorem removeDups_sublist (l : List α) : (removeDups same l).Sublist l := (removeDupsAux_spec [] l).1

theorem removeDups_pairwise (l : List α) : (removeDups same l).Pairwise (fun a b => same a b = false) :=
  (removeDupsAux_spec [] l).2.2.1

theorem removeDups_rep (l : List α) {r : α} (hr : r ∈ l) :
    r ∈ removeDups same l ∨ ∃ s ∈ removeDups same l, same s r = true := by
  rcases (removeDupsAux_spec (same := same) [] l).2.2.2 r hr with ⟨s, hs, _⟩ | h
  · simp at hs
  · exact h

/-- A prefix without repetitions is kept. -/
theorem removeDupsAux_prefix (pre l : List α) : ∀ seen,
    (∀ r ∈ pre, ∀ s ∈ seen, same s r = false) → pre.Pairwise (fun a b => same a b = false) →
    removeDupsAux same seen (pre ++ l) = pre ++ removeDupsAux same (pre.reverse ++ seen) l := by
  induction pre with
  | nil => intro seen _ _; rfl
  | cons x pre ih =>
    intro seen h1 h2
    rw [List.pairwise_cons] at h2
    have : ¬ seen.any (fun s => same s x) = true := by
      intro h
      obtain ⟨s, hs, hs'⟩ := List.any_eq_true.1 h
      rw [h1 x (by simp) s hs] at hs'; cases hs'
    simp only [List.cons_append, removeDupsAux, this, Bool.false_eq_true, if_false]
    rw [ih (x :: seen) ?_ h2.2]
    · simp
    · intro r hr s hs
      rcases List.mem_cons.1 hs with rfl | hs
      · exact h2.1 r hr
      · exact h1 r (by simp [hr]) s hs

end

section
variable {α : Type} {size : α → Nat}

theorem trimAux_spec (m : Int) (rules : List α) : ∀ n, n ≤ rules.length →
    ∃ k, k ≤ n ∧ trimAux size m rules n = rules.take k ∧
      (k = 0 ∨ ((((rules.take k).map size).sum : Nat) : Int) ≤ m) ∧
      ∀ j, k < j → j ≤ n → m < ((((rules.take j).map size).sum : Nat) : Int)
  | 0, _ => ⟨0, Nat.le_refl _, by simp [trimAux], .inl rfl, by intro j h1 h2; omega⟩
  | n + 1, h => by
    unfold trimAux
    split
    · rename_i hc
      obtain ⟨k, hk, he, h1, h2⟩ := trimAux_spec m rules n (by omega)
      refine ⟨k, by omega, he, h1, ?_⟩
      intro j hj hj'
      rcases Nat.lt_or_ge n j with h' | h'
      · have : j = n + 1 := by omega
        subst this; exact hc
      · exact h2 j hj h'
    · rename_i hc
      exact ⟨n + 1, Nat.le_refl _, rfl, .inr (by omega), by intro j h1 h2; omega⟩

theorem trimRules_prefix (m : Option Int) (rules : List α) : trimRules size m rules <+: rules := by
  cases m with
  | none => exact List.prefix_refl _
  | some m =>
    obtain ⟨k, _, he, _⟩ := trimAux_spec (size := size) m rules rules.length (Nat.le_refl _)
    simp only [trimRules, he]; exact List.take_prefix _ _

theorem trimRules_count (m : Int) (hm : 0 ≤ m) (rules : List α) :
    ((((trimRules size (some m) rules).map size).sum : Nat) : Int) ≤ m := by
  obtain ⟨k, _, he, h1, _⟩ := trimAux_spec (size := size) m rules rules.length (Nat.le_refl _)
  simp only [trimRules, he]
  rcases h1 with rfl | h1
  · simpa using hm
  · exact h1

/-- Monotone sums: a list of fitting rules is left alone. -/
theorem trimRules_fits (m : Option Int) (rules : List α)
    (h : ∀ x ∈ m, (((rules.map size).sum : Nat) : Int) ≤ x) : trimRules size m rules = rules := by
  cases m with
  | none => rfl
  | some m =>
    have := h m (by simp)
    simp only [trimRules]
    cases hn : rules.length with
    | zero => simp [trimAux, List.length_eq_zero_iff.1 hn]
    | succ n =>
      unfold trimAux
      rw [← hn, List.take_length]
      simp only [Int.not_lt.2 this, if_false]

end
end Witt
