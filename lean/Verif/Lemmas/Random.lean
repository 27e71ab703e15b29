import Mathlib.Algebra.Order.Field.Rat
import Mathlib.Algebra.Order.Floor.Ring
import Mathlib.Data.Rat.Floor
import Mathlib.Tactic.Linarith
import Mathlib.Tactic.Positivity
import Verif.Random
/-
Grow/prune splits.
-/
namespace Witt
variable [Arith]

omit [Arith] in
theorem slice_append {α : Type} (l : List α) (k : Int) : sliceTo l k ++ sliceFrom l k = l := by
  unfold sliceTo sliceFrom; exact List.take_append_drop _ _

theorem randomSplit_perm {R : PyRandom} (hR : R.Lawful) (g : R.G) (l : List Label) (q : Rat)
    (rs : Option Int) :
    ((randomSplit R g l q rs).1 ++ (randomSplit R g l q rs).2.1).Perm l := by
  unfold randomSplit
  simp only [slice_append]
  exact hR _ _

theorem randomSplit_mem {R : PyRandom} (hR : R.Lawful) (g : R.G) (l : List Label) (q : Rat)
    (rs : Option Int) (x : Label) :
    x ∈ l ↔ x ∈ (randomSplit R g l q rs).1 ∨ x ∈ (randomSplit R g l q rs).2.1 := by
  rw [← (randomSplit_perm hR g l q rs).mem_iff, List.mem_append]

omit [Arith] in
theorem pyTrunc_nonneg_floor {q : Rat} (h : 0 ≤ q) : pyTrunc q = ⌊q⌋ := by
  unfold pyTrunc
  simp only [not_lt.mpr h, if_false]
  rfl

theorem randomSplit_lengths {R : PyRandom} (hR : R.Lawful) (g : R.G) (l : List Label) (q : Rat)
    (rs : Option Int) (h0 : 0 ≤ Arith.cut l.length q) (h1 : Arith.cut l.length q ≤ l.length) :
    (((randomSplit R g l q rs).1.length : Nat) : Int) = Arith.cut l.length q ∧
    (randomSplit R g l q rs).1.length + (randomSplit R g l q rs).2.1.length = l.length := by
  have hp := (randomSplit_perm hR g l q rs).length_eq
  rw [List.length_append] at hp
  refine ⟨?_, hp⟩
  unfold randomSplit
  simp only
  have hl : (R.shuffle (R.seed rs g) l).1.length = l.length := (hR _ _).length_eq
  rw [hl]
  unfold sliceTo sliceBound
  simp only [not_lt.mpr h0, if_false, List.length_take, hl]
  omega

theorem randomSplit_one [Arith.Lawful] {R : PyRandom} (hR : R.Lawful) (g : R.G) (l : List Label) (rs : Option Int) :
    (randomSplit R g l 1 rs).1.Perm l ∧ (randomSplit R g l 1 rs).2.1 = [] := by
  have hc := Arith.Lawful.cut_one l.length
  obtain ⟨h1, h2⟩ := randomSplit_lengths hR g l 1 rs (by omega) (by omega)
  have hl : (randomSplit R g l 1 rs).2.1 = [] := by
    rw [← List.length_eq_zero_iff]
    omega
  refine ⟨?_, hl⟩
  have := randomSplit_perm hR g l 1 rs
  rw [hl, List.append_nil] at this
  exact this

/-- The prune part is non-empty when the cut is before the end. -/
theorem randomSplit_prune_ne_nil {R : PyRandom} (hR : R.Lawful) (g : R.G) {l : List Label} {q : Rat}
    (rs : Option Int) (h0 : 0 ≤ Arith.cut l.length q) (h1 : Arith.cut l.length q < l.length) :
    (randomSplit R g l q rs).2.1 ≠ [] := by
  obtain ⟨h2, h3⟩ := randomSplit_lengths hR g l q rs h0 (le_of_lt h1)
  intro he
  rw [he] at h3
  simp only [List.length_nil, Nat.add_zero] at h3
  omega

omit [Arith] in
/-- Without rounding, a share between 0 and 1 is cut at its floor. -/
theorem exact_cut {n : Nat} {q : Rat} (h0 : 0 ≤ q) : @Arith.cut Arith.exact n q = ⌊(n : Rat) * q⌋ :=
  pyTrunc_nonneg_floor (by positivity)

omit [Arith] in
theorem exact_cut_nonneg {n : Nat} {q : Rat} (h0 : 0 ≤ q) : 0 ≤ @Arith.cut Arith.exact n q := by
  rw [exact_cut h0]; exact Int.floor_nonneg.mpr (by positivity)

omit [Arith] in
theorem exact_cut_le {n : Nat} {q : Rat} (h0 : 0 ≤ q) (h1 : q ≤ 1) : @Arith.cut Arith.exact n q ≤ n := by
  rw [exact_cut h0]
  have : (n : Rat) * q ≤ (n : Rat) := by
    have : (0 : Rat) ≤ (n : Rat) := by positivity
    nlinarith
  calc ⌊(n : Rat) * q⌋ ≤ ⌊(n : Rat)⌋ := Int.floor_le_floor this
    _ = (n : Int) := by simp

omit [Arith] in
theorem exact_cut_lt {n : Nat} {q : Rat} (h0 : 0 ≤ q) (h1 : q < 1) (hn : 0 < n) :
    @Arith.cut Arith.exact n q < n := by
  rw [exact_cut h0]
  have : (n : Rat) * q < (n : Rat) := by
    have : (0 : Rat) < (n : Rat) := by exact_mod_cast hn
    nlinarith
  exact Int.floor_lt.mpr (by exact_mod_cast this)

theorem randomSplit_seeded {R : PyRandom} (hR : R.SeedResets) (g g' : R.G) (l : List Label) (q : Rat)
    (s : Int) : randomSplit R g l q (some s) = randomSplit R g' l q (some s) := by
  unfold randomSplit; rw [hR s g g']

end Witt
