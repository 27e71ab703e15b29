import Mathlib.Algebra.Order.Field.Rat
import Mathlib.Tactic.Linarith
import Verif.Train
import Verif.Lemmas.Cover
/-
Reasoning about `while` loops: invariants, termination measures, independence of fuel.
-/
namespace Witt

variable {S A : Type} {body : S → Except PyErr (Step S A)}

theorem pyWhile_succ (n : Nat) (s : S) :
    pyWhile body (n + 1) s = (match body s with
      | .error e => .error e
      | .ok (.more s') => pyWhile body n s'
      | .ok (.done a) => .ok a) := by
  rw [pyWhile]
  cases h : body s with
  | error e => rfl
  | ok st => cases st <;> rfl

/-- Partial correctness: an invariant of the loop gives the postcondition of every normal exit. -/
theorem pyWhile_inv {I : S → Prop} {Q : A → Prop}
    (hmore : ∀ s s', I s → body s = .ok (.more s') → I s')
    (hdone : ∀ s a, I s → body s = .ok (.done a) → Q a) :
    ∀ n s a, I s → pyWhile body n s = .ok a → Q a := by
  intro n
  induction n with
  | zero => intro s a _ h; simp [pyWhile] at h
  | succ n ih =>
    intro s a hI h
    rw [pyWhile_succ] at h
    cases hb : body s with
    | error e => rw [hb] at h; simp at h
    | ok st =>
      cases st with
      | more s' => rw [hb] at h; exact ih s' a (hmore _ _ hI hb) h
      | done b => rw [hb] at h; simp at h; exact h ▸ hdone _ _ hI hb

/-- If the body never raises `e` under the invariant and the measure decreases, enough fuel never
yields `e`. Used with `e = diverged` for termination. -/
theorem pyWhile_ne_error {I : S → Prop} {m : S → Nat} {e : PyErr}
    (hmore : ∀ s s', I s → body s = .ok (.more s') → I s' ∧ m s' < m s)
    (herr : ∀ s, I s → body s ≠ .error e) :
    ∀ n s, I s → m s < n → pyWhile body n s ≠ .error e := by
  intro n
  induction n with
  | zero => intro s _ h; exact absurd h (Nat.not_lt_zero _)
  | succ n ih =>
    intro s hI hn h
    rw [pyWhile_succ] at h
    cases hb : body s with
    | error e' => rw [hb] at h; simp at h; exact herr _ hI (h ▸ hb)
    | ok st =>
      cases st with
      | more s' =>
        rw [hb] at h
        have := hmore _ _ hI hb
        exact ih s' this.1 (by omega) h
      | done b => rw [hb] at h; simp at h

/-- With a decreasing measure the result does not depend on the fuel, once there is enough; and only the
behaviour of the body on invariant states matters. -/
theorem pyWhile_stable {body' : S → Except PyErr (Step S A)} {I : S → Prop} {m : S → Nat}
    (hmore : ∀ s s', I s → body s = .ok (.more s') → I s' ∧ m s' < m s)
    (heq : ∀ s, I s → body s = body' s) :
    ∀ n n' s, I s → m s < n → m s < n' → pyWhile body n s = pyWhile body' n' s := by
  intro n
  induction n with
  | zero => intro n' s _ h; exact absurd h (Nat.not_lt_zero _)
  | succ n ih =>
    intro n' s hI hn hn'
    obtain ⟨k, rfl⟩ : ∃ k, n' = k + 1 := ⟨n' - 1, by omega⟩
    rw [pyWhile_succ, pyWhile_succ, ← heq s hI]
    cases hb : body s with
    | error e' => rfl
    | ok st =>
      cases st with
      | more s' =>
        have := hmore _ _ hI hb
        exact ih k s' this.1 (by omega) (by omega)
      | done b => rfl

/-- Total correctness. -/
theorem pyWhile_total {I : S → Prop} {Q : A → Prop} {m : S → Nat}
    (hbody : ∀ s, I s → (∃ a, body s = .ok (.done a) ∧ Q a) ∨
      ∃ s', body s = .ok (.more s') ∧ I s' ∧ m s' < m s) :
    ∀ n s, I s → m s < n → ∃ a, pyWhile body n s = .ok a ∧ Q a := by
  intro n
  induction n with
  | zero => intro s _ h; exact absurd h (Nat.not_lt_zero _)
  | succ n ih =>
    intro s hI hn
    rw [pyWhile_succ]
    rcases hbody s hI with ⟨a, ha, hq⟩ | ⟨s', hs, hI', hm⟩
    · exact ⟨a, by rw [ha], hq⟩
    · rw [hs]; exact ih s' hI' (by omega)

end Witt
