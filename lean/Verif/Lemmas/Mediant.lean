import Mathlib.Algebra.Order.BigOperators.Group.Finset
import Mathlib.Algebra.BigOperators.Ring.Finset
import Mathlib.Tactic.Linarith
import Mathlib.Tactic.Ring
/-
A counting argument: some value of a column that tells two rows apart has positive gain.
-/
namespace Witt

section
variable {α V : Type}

/-- Number of elements of `L` with value `v`. -/
def hits (m : V → α → Bool) (v : V) (L : List α) : Nat := (L.filter (m v)).length

theorem le_sum_hits (m : V → α → Bool) (U : Finset V) (L : List α) (h : ∀ x ∈ L, ∃ v ∈ U, m v x = true) :
    L.length ≤ ∑ v ∈ U, hits m v L := by
  induction L with
  | nil => simp
  | cons x L ih =>
    have hl := ih (fun y hy => h y (by simp [hy]))
    obtain ⟨v0, hv0, hm⟩ := h x (by simp)
    have e : ∀ v, hits m v (x :: L) = (if m v x = true then 1 else 0) + hits m v L := by
      intro v
      unfold hits
      rw [List.filter_cons]
      split_ifs <;> simp [Nat.add_comm]
    simp only [e, Finset.sum_add_distrib, List.length_cons]
    have : 1 ≤ ∑ v ∈ U, (if m v x = true then 1 else 0) := by
      calc 1 = (if m v0 x = true then 1 else 0) := by rw [if_pos hm]
        _ ≤ _ := Finset.single_le_sum (f := fun v => if m v x = true then 1 else 0) (fun _ _ => Nat.zero_le _) hv0
    omega

theorem sum_hits_le (m : V → α → Bool) (U : Finset V) (L : List α)
    (h : ∀ x ∈ L, ∀ v ∈ U, ∀ w ∈ U, m v x = true → m w x = true → v = w) :
    ∑ v ∈ U, hits m v L ≤ L.length := by
  induction L with
  | nil => simp [hits]
  | cons x L ih =>
    have hl := ih (fun y hy => h y (by simp [hy]))
    have e : ∀ v, hits m v (x :: L) = (if m v x = true then 1 else 0) + hits m v L := by
      intro v
      unfold hits
      rw [List.filter_cons]
      split_ifs <;> simp [Nat.add_comm]
    simp only [e, Finset.sum_add_distrib, List.length_cons]
    have : ∑ v ∈ U, (if m v x = true then 1 else 0) ≤ 1 := by
      rw [← Finset.card_filter]
      apply Finset.card_le_one.mpr
      intro a ha b hb
      rw [Finset.mem_filter] at ha hb
      exact h x (by simp) a ha.1 b hb.1 ha.2 hb.2
    omega

/-- If every element of `P` has a value, no element of `P` or `N` two, and some value of an element of `P` is not that
of some element of `N`, then some value keeps an element of `P` and a strictly larger smoothed fraction of `P` than of
`N`. -/
theorem exists_gain [DecidableEq V] (m : V → α → Bool) (U : Finset V) (P N : List α)
    (hP : ∀ x ∈ P, ∃ v ∈ U, m v x = true)
    (hu : ∀ x ∈ N, ∀ v ∈ U, ∀ w ∈ U, m v x = true → m w x = true → v = w)
    (u : V) (huU : u ∈ U) (x : α) (hx : x ∈ P) (hux : m u x = true) (y : α) (hy : y ∈ N) (huy : m u y = false) :
    ∃ v ∈ U, 1 ≤ hits m v P ∧ (P.length + 1) * hits m v N < (hits m v P + 1) * N.length := by
  by_contra hno
  push Not at hno
  let w : V → Nat := fun v => if 1 ≤ hits m v P then 1 else 0
  have hall : ∀ v ∈ U, (hits m v P + w v) * N.length ≤ (P.length + 1) * hits m v N := by
    intro v hv
    simp only [w]
    split_ifs with h1
    · exact hno v hv h1
    · have : hits m v P = 0 := by omega
      rw [this]; simp
  have hsum := Finset.sum_le_sum hall
  rw [← Finset.sum_mul, ← Finset.mul_sum, Finset.sum_add_distrib] at hsum
  have h1 := le_sum_hits m U P hP
  have h2 := sum_hits_le m U N hu
  have hn : 1 ≤ N.length := List.length_pos_of_mem hy
  have hk : ∑ v ∈ U, w v ≤ 1 := by
    by_contra hk
    push Not at hk
    have h3 : (P.length + 2) * N.length ≤ (P.length + 1) * N.length :=
      calc (P.length + 2) * N.length ≤ (∑ v ∈ U, hits m v P + ∑ v ∈ U, w v) * N.length :=
            Nat.mul_le_mul_right _ (by omega)
        _ ≤ (P.length + 1) * ∑ v ∈ U, hits m v N := hsum
        _ ≤ (P.length + 1) * N.length := Nat.mul_le_mul_left _ h2
    have := Nat.le_of_mul_le_mul_right h3 (by omega)
    omega
  have hw : ∀ v ∈ U, ∀ z ∈ P, m v z = true → w v = 1 := by
    intro v _ z hz hm
    simp only [w]
    rw [if_pos]
    unfold hits
    exact List.length_pos_of_mem (List.mem_filter.2 ⟨hz, hm⟩)
  have hall' : ∀ z ∈ P, m u z = true := by
    intro z hz
    obtain ⟨v, hv, hm⟩ := hP z hz
    by_cases hvu : v = u
    · rw [← hvu]; exact hm
    · exfalso
      have h4 : ∑ a ∈ ({v, u} : Finset V), w a ≤ ∑ a ∈ U, w a := by
        apply Finset.sum_le_sum_of_subset
        intro a ha
        simp only [Finset.mem_insert, Finset.mem_singleton] at ha
        rcases ha with rfl | rfl
        · exact hv
        · exact huU
      rw [Finset.sum_pair hvu, hw v hv z hz hm, hw u huU x hx hux] at h4
      omega
  have hcp : hits m u P = P.length := by
    unfold hits
    rw [List.filter_eq_self.2 hall']
  have hcn : hits m u N < N.length := by
    unfold hits
    rw [List.length_filter_lt_length_iff_exists]
    exact ⟨y, hy, by simp [huy]⟩
  have := hno u huU (by rw [hcp]; exact List.length_pos_of_mem hx)
  rw [hcp] at this
  have := Nat.le_of_mul_le_mul_left this (by omega)
  omega

end

end Witt
