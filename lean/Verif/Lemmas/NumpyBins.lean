import Verif.NumpyBins
import Verif.Lemmas.DemoFloat
import Mathlib.Tactic.Linarith
import Mathlib.Tactic.FieldSimp
import Mathlib.Tactic.Ring
import Mathlib.Data.List.Sort
import Mathlib.Data.List.GetD
/-
Lemmas about the numpy engine of the discretiser, and numpy's functions computed exactly.
-/
namespace Witt

/-! ### sorted, different numbers -/

theorem mem_insertUnique {x y : Rat} : ∀ {l : List Rat}, y ∈ insertUnique x l ↔ y = x ∨ y ∈ l
  | [] => by simp [insertUnique]
  | z :: zs => by
    unfold insertUnique
    split
    · simp
    · split
      · rename_i h; subst h; simp
      · rw [List.mem_cons, mem_insertUnique, List.mem_cons]; tauto

theorem insertUnique_sorted {x : Rat} : ∀ {l : List Rat}, l.Pairwise (· < ·) → (insertUnique x l).Pairwise (· < ·)
  | [], _ => by simp [insertUnique]
  | z :: zs, h => by
    have h' := List.pairwise_cons.mp h
    unfold insertUnique
    split
    · rename_i hx
      refine List.pairwise_cons.mpr ⟨?_, h⟩
      intro w hw
      rcases List.mem_cons.mp hw with rfl | hw
      · exact hx
      · exact hx.trans (h'.1 w hw)
    · split
      · exact h
      · rename_i h1 h2
        refine List.pairwise_cons.mpr ⟨?_, insertUnique_sorted h'.2⟩
        intro w hw
        rcases mem_insertUnique.mp hw with rfl | hw
        · exact lt_of_le_of_ne (not_lt.mp h1) (Ne.symm h2)
        · exact h'.1 w hw

theorem mem_npUnique {y : Rat} : ∀ {l : List Rat}, y ∈ npUnique l ↔ y ∈ l
  | [] => by simp [npUnique]
  | x :: xs => by
    show y ∈ insertUnique x (npUnique xs) ↔ _
    rw [mem_insertUnique, mem_npUnique, List.mem_cons]

theorem npUnique_sorted : ∀ {l : List Rat}, (npUnique l).Pairwise (· < ·)
  | [] => by simp [npUnique]
  | x :: xs => insertUnique_sorted npUnique_sorted

theorem sorted_unique {l l' : List Rat} (h : l.Pairwise (· < ·)) (h' : l'.Pairwise (· < ·))
    (hm : ∀ x, x ∈ l ↔ x ∈ l') : l = l' := by
  have hn : l.Nodup := h.imp (fun {a b} hab => ne_of_lt hab)
  have hn' : l'.Nodup := h'.imp (fun {a b} hab => ne_of_lt hab)
  have hp : l.Perm l' := (List.perm_ext_iff_of_nodup hn hn').mpr hm
  exact hp.eq_of_pairwise (fun a b _ _ hab hba => absurd hab (not_lt.mpr hba.le)) h h'

theorem npUnique_of_sorted {l : List Rat} (h : l.Pairwise (· < ·)) : npUnique l = l :=
  sorted_unique npUnique_sorted h (fun _ => mem_npUnique)

theorem npUnique_length_le : ∀ {l : List Rat}, (npUnique l).length ≤ l.length := by
  intro l
  exact (List.subperm_of_subset (npUnique_sorted.imp (fun {a b} hab => ne_of_lt hab))
    (fun x hx => mem_npUnique.mp hx)).length_le

/-- A nondecreasing list with as many different members as members is increasing. -/
theorem increasing_of_npUnique {l : List Rat} (h : l.Pairwise (· ≤ ·)) (hl : (npUnique l).length = l.length) :
    l.Pairwise (· < ·) := by
  have hsub : (npUnique l).Subperm l := List.subperm_of_subset (npUnique_sorted.imp (fun {a b} hab => ne_of_lt hab))
    (fun x hx => mem_npUnique.mp hx)
  have hp : (npUnique l).Perm l := hsub.perm_of_length_le (by omega)
  have hn : l.Nodup := hp.nodup_iff.mp (npUnique_sorted.imp (fun {a b} hab => ne_of_lt hab))
  exact h.imp₂ (fun a b hab hne => lt_of_le_of_ne hab hne) hn

/-- Fewer than two different members: all members are equal. -/
theorem npUnique_lt_two {l : List Rat} : (npUnique l).length < 2 ↔ ∀ x ∈ l, ∀ y ∈ l, x = y := by
  constructor
  · intro h x hx y hy
    have hx' := mem_npUnique.mpr hx
    have hy' := mem_npUnique.mpr hy
    match hu : npUnique l with
    | [] => rw [hu] at hx'; simp at hx'
    | [z] => rw [hu] at hx' hy'; simp at hx' hy'; rw [hx', hy']
    | a :: b :: r => rw [hu] at h; simp only [List.length_cons] at h; omega
  · intro h
    by_contra hl
    match hu : npUnique l with
    | [] => rw [hu] at hl; simp at hl
    | [z] => rw [hu] at hl; simp at hl
    | a :: b :: r =>
      have hs := npUnique_sorted (l := l)
      rw [hu] at hs
      have hab := (List.pairwise_cons.mp hs).1 b List.mem_cons_self
      exact absurd (h a (mem_npUnique.mp (by rw [hu]; simp)) b (mem_npUnique.mp (by rw [hu]; simp))) (ne_of_lt hab)

/-! ### numbers of a column -/

theorem mem_numbersOf {vs : List Val} {q : Rat} : q ∈ numbersOf vs ↔ ∃ t, Val.num q t ∈ vs := by
  unfold numbersOf
  rw [List.mem_filterMap]
  constructor
  · rintro ⟨v, hv, h⟩
    cases v with
    | num q' t => simp only [Option.some.injEq] at h; subst h; exact ⟨t, hv⟩
    | str s => cases h
    | nan => cases h
  · rintro ⟨t, h⟩
    exact ⟨_, h, rfl⟩

theorem lowestOf_spec {qs : List Rat} (h : qs ≠ []) : lowestOf qs ∈ qs ∧ ∀ q ∈ qs, lowestOf qs ≤ q := by
  cases hm : qs.min? with
  | none => exact absurd (List.min?_eq_none_iff.mp hm) h
  | some a =>
    have := List.min?_eq_some_iff.mp hm
    unfold lowestOf
    rw [hm]
    exact this

theorem highestOf_spec {qs : List Rat} (h : qs ≠ []) : highestOf qs ∈ qs ∧ ∀ q ∈ qs, q ≤ highestOf qs := by
  cases hm : qs.max? with
  | none => exact absurd (List.max?_eq_none_iff.mp hm) h
  | some a =>
    have := List.max?_eq_some_iff.mp hm
    unfold highestOf
    rw [hm]
    exact this

/-! ### numpy computed exactly -/

/-- Rounding to the nearest whole number, halves to the even one (`np.round`). -/
def roundEven (x : Rat) : Int :=
  let d := x - (x.floor : Rat)
  if d < 1 / 2 then x.floor else if 1 / 2 < d then x.floor + 1
  else if x.floor % 2 = 0 then x.floor else x.floor + 1

theorem roundEven_bounds (x : Rat) : x.floor ≤ roundEven x ∧ roundEven x ≤ x.floor + 1 := by
  unfold roundEven
  dsimp only
  split
  · omega
  · split
    · omega
    · split <;> omega

theorem roundEven_mono {x y : Rat} (h : x ≤ y) : roundEven x ≤ roundEven y := by
  have hf : x.floor ≤ y.floor := Rat.floor_monotone h
  rcases lt_or_eq_of_le hf with hlt | heq
  · have h1 := (roundEven_bounds x).2
    have h2 := (roundEven_bounds y).1
    omega
  · unfold roundEven
    dsimp only
    rw [heq]
    have hd : x - (y.floor : Rat) ≤ y - (y.floor : Rat) := by linarith
    split
    · split
      · exact le_refl _
      · split
        · omega
        · split <;> omega
    · rename_i h1
      split
      · rename_i h2
        rw [if_neg (by linarith), if_pos (by linarith)]
      · rename_i h2
        have h3 : ¬ y - (y.floor : Rat) < 1 / 2 := fun h => h1 (lt_of_le_of_lt hd h)
        rw [if_neg h3]
        by_cases h4 : 1 / 2 < y - (y.floor : Rat)
        · rw [if_pos h4]; split <;> omega
        · rw [if_neg h4]

/-- The value at position `x / n` between the members of a list, by linear interpolation. -/
def interpolate (s : List Rat) (n x : Nat) : Rat :=
  s.getD (x / n) 0 + ((x % n : Nat) : Rat) / n * (s.getD (x / n + 1) (s.getD (x / n) 0) - s.getD (x / n) 0)

/-- Insertion of a number in a nondecreasing list. -/
def insertNum (x : Rat) : List Rat → List Rat
  | [] => [x]
  | y :: ys => if x ≤ y then x :: y :: ys else y :: insertNum x ys

/-- The list in nondecreasing order. -/
def sortNums (l : List Rat) : List Rat := l.foldr insertNum []

theorem insertNum_perm {x : Rat} : ∀ {l : List Rat}, (insertNum x l).Perm (x :: l)
  | [] => List.Perm.refl _
  | y :: ys => by
    unfold insertNum
    split
    · exact List.Perm.refl _
    · exact (insertNum_perm.cons y).trans (List.Perm.swap x y ys)

theorem insertNum_sorted {x : Rat} : ∀ {l : List Rat}, l.Pairwise (· ≤ ·) → (insertNum x l).Pairwise (· ≤ ·)
  | [], _ => by simp [insertNum]
  | z :: zs, h => by
    have h' := List.pairwise_cons.mp h
    unfold insertNum
    split
    · rename_i hx
      refine List.pairwise_cons.mpr ⟨?_, h⟩
      intro w hw
      rcases List.mem_cons.mp hw with rfl | hw
      · exact hx
      · exact hx.trans (h'.1 w hw)
    · rename_i h1
      refine List.pairwise_cons.mpr ⟨?_, insertNum_sorted h'.2⟩
      intro w hw
      rcases List.mem_cons.mp (insertNum_perm.mem_iff.mp hw) with rfl | hw
      · exact (not_le.mp h1).le
      · exact h'.1 w hw

theorem sortNums_perm : ∀ {l : List Rat}, (sortNums l).Perm l
  | [] => List.Perm.refl _
  | _ :: _ => insertNum_perm.trans (sortNums_perm.cons _)

theorem sortNums_sorted : ∀ {l : List Rat}, (sortNums l).Pairwise (· ≤ ·)
  | [] => by simp [sortNums]
  | _ :: _ => insertNum_sorted sortNums_sorted

/-- `np.quantile` (linear interpolation between the sorted numbers), `np.linspace` and rounding to `p` decimal
places, computed exactly. -/
def NumpyCalc.exact (p : Nat) : NumpyCalc where
  quantile qs n k := interpolate (sortNums qs) n (k * (qs.length - 1))
  spaced lo hi n k := lo + (k : Rat) / n * (hi - lo)
  round x := (roundEven (x * 10 ^ p) : Rat) / 10 ^ p

theorem sorted_getD {s : List Rat} (h : s.Pairwise (· ≤ ·)) {i j : Nat} (hij : i ≤ j) (hj : j < s.length) (a b : Rat) :
    s.getD i a ≤ s.getD j b := by
  rw [List.getD_eq_getElem _ _ (by omega), List.getD_eq_getElem _ _ hj]
  rcases Nat.lt_or_ge i j with hlt | hge
  · exact List.pairwise_iff_getElem.mp h i j (by omega) hj hlt
  · have : i = j := by omega
    subst this; exact le_refl _

theorem interpolate_between {s : List Rat} (h : s.Pairwise (· ≤ ·)) {n x : Nat} (hn : 0 < n)
    (hx : x ≤ n * (s.length - 1)) (hs : s ≠ []) :
    s.getD (x / n) 0 ≤ interpolate s n x ∧
      (x / n + 1 < s.length → interpolate s n x ≤ s.getD (x / n + 1) 0) := by
  have hlen : 0 < s.length := List.length_pos_of_ne_nil hs
  have hdiv : x / n < s.length := by
    have : x / n ≤ s.length - 1 := Nat.div_le_of_le_mul hx
    omega
  have hfr0 : (0 : Rat) ≤ ((x % n : Nat) : Rat) / n := by positivity
  have hfr1 : ((x % n : Nat) : Rat) / n ≤ 1 := by
    rw [div_le_one (by exact_mod_cast hn)]
    exact_mod_cast (Nat.mod_lt x hn).le
  unfold interpolate
  by_cases hc : x / n + 1 < s.length
  · rw [List.getD_eq_getElem _ (s.getD (x / n) 0) hc, ← List.getD_eq_getElem _ 0 hc]
    have hle := sorted_getD h (Nat.le_succ (x / n)) hc 0 0
    have h1 : 0 ≤ ((x % n : Nat) : Rat) / n * (s.getD (x / n + 1) 0 - s.getD (x / n) 0) :=
      mul_nonneg hfr0 (by linarith)
    have h2 : ((x % n : Nat) : Rat) / n * (s.getD (x / n + 1) 0 - s.getD (x / n) 0) ≤
        1 * (s.getD (x / n + 1) 0 - s.getD (x / n) 0) :=
      mul_le_mul_of_nonneg_right hfr1 (by linarith)
    exact ⟨by linarith, fun _ => by linarith⟩
  · rw [List.getD_eq_default s (s.getD (x / n) 0) (by omega)]
    exact ⟨by simp, fun h => absurd h hc⟩

theorem interpolate_mono {s : List Rat} (h : s.Pairwise (· ≤ ·)) {n x y : Nat} (hn : 0 < n) (hxy : x ≤ y)
    (hy : y ≤ n * (s.length - 1)) (hs : s ≠ []) : interpolate s n x ≤ interpolate s n y := by
  have hlen : 0 < s.length := List.length_pos_of_ne_nil hs
  have hdy : y / n < s.length := by
    have : y / n ≤ s.length - 1 := Nat.div_le_of_le_mul hy
    omega
  have hd : x / n ≤ y / n := Nat.div_le_div_right hxy
  rcases Nat.lt_or_ge (x / n) (y / n) with hlt | hge
  · have h1 := (interpolate_between h hn (hxy.trans hy) hs).2 (by omega)
    have h2 := (interpolate_between h hn hy hs).1
    have h3 := sorted_getD h (i := x / n + 1) (j := y / n) (by omega) hdy 0 0
    linarith
  · have he : x / n = y / n := by omega
    have hm : x % n ≤ y % n := by
      have h1 := Nat.div_add_mod x n
      have h2 := Nat.div_add_mod y n
      rw [he] at h1
      omega
    unfold interpolate
    rw [he]
    have hw : 0 ≤ s.getD (y / n + 1) (s.getD (y / n) 0) - s.getD (y / n) 0 := by
      by_cases hc : y / n + 1 < s.length
      · have := sorted_getD h (Nat.le_succ (y / n)) hc 0 (s.getD (y / n) 0)
        linarith
      · rw [List.getD_eq_default s (s.getD (y / n) 0) (by omega)]; simp
    have hf : ((x % n : Nat) : Rat) / n ≤ ((y % n : Nat) : Rat) / n :=
      div_le_div_of_nonneg_right (by exact_mod_cast hm) (by positivity)
    have := mul_le_mul_of_nonneg_right hf hw
    linarith

/-- Computed exactly, numpy's functions meet what is assumed of them (for floats that include the decimals with
`p` places). -/
theorem NumpyCalc.exact_lawful (F : PyFloat) (p : Nat) (hF : ∀ k : Int, F.Rep ((k : Rat) / 10 ^ p)) :
    (NumpyCalc.exact p).Lawful F where
  quantile_mono qs n j k hq hjk hk := by
    have hs : sortNums qs ≠ [] := fun h => hq (by
      have := sortNums_perm (l := qs)
      rw [h] at this
      exact this.symm.eq_nil)
    have hl : (sortNums qs).length = qs.length := sortNums_perm.length_eq
    rcases Nat.eq_zero_or_pos n with rfl | hn
    · have : j = k := by omega
      subst this; exact le_refl _
    · exact interpolate_mono sortNums_sorted hn (Nat.mul_le_mul_right _ hjk)
        (by rw [hl]; exact Nat.mul_le_mul_right _ hk) hs
  quantile_first qs n hq hn := by
    have hl : (sortNums qs).length = qs.length := sortNums_perm.length_eq
    have hpos : 0 < qs.length := List.length_pos_of_ne_nil hq
    show interpolate (sortNums qs) n (0 * (qs.length - 1)) = _
    have : interpolate (sortNums qs) n (0 * (qs.length - 1)) = (sortNums qs).getD 0 0 := by
      simp [interpolate]
    rw [this]
    obtain ⟨h1, h2⟩ := lowestOf_spec hq
    apply le_antisymm
    · obtain ⟨i, hi, he⟩ := List.mem_iff_getElem.mp (sortNums_perm.mem_iff.mpr h1)
      rw [← he, ← List.getD_eq_getElem _ 0 hi]
      exact sorted_getD sortNums_sorted (Nat.zero_le i) hi 0 0
    · apply h2
      rw [List.getD_eq_getElem _ _ (by omega)]
      exact sortNums_perm.mem_iff.mp (List.getElem_mem _)
  quantile_last qs n hq hn := by
    have hl : (sortNums qs).length = qs.length := sortNums_perm.length_eq
    have hpos : 0 < qs.length := List.length_pos_of_ne_nil hq
    show interpolate (sortNums qs) n (n * (qs.length - 1)) = _
    have : interpolate (sortNums qs) n (n * (qs.length - 1)) = (sortNums qs).getD (qs.length - 1) 0 := by
      unfold interpolate
      rw [Nat.mul_div_cancel_left _ hn, Nat.mul_mod_right]
      simp
    rw [this]
    obtain ⟨h1, h2⟩ := highestOf_spec hq
    apply le_antisymm
    · apply h2
      rw [List.getD_eq_getElem _ _ (by omega)]
      exact sortNums_perm.mem_iff.mp (List.getElem_mem _)
    · obtain ⟨i, hi, he⟩ := List.mem_iff_getElem.mp (sortNums_perm.mem_iff.mpr h1)
      rw [← he, ← List.getD_eq_getElem _ 0 hi]
      exact sorted_getD sortNums_sorted (by omega) (by omega) 0 0
  spaced_mono lo hi n j k hlh hjk hk := by
    show lo + (j : Rat) / n * (hi - lo) ≤ lo + (k : Rat) / n * (hi - lo)
    have hf : (j : Rat) / n ≤ (k : Rat) / n :=
      div_le_div_of_nonneg_right (by exact_mod_cast hjk) (by positivity)
    have := mul_le_mul_of_nonneg_right hf (show 0 ≤ hi - lo by linarith)
    linarith
  spaced_first lo hi n _ hn := by show lo + ((0 : Nat) : Rat) / n * (hi - lo) = lo; simp
  spaced_last lo hi n _ hn := by
    show lo + (n : Rat) / n * (hi - lo) = hi
    rw [div_self (by exact_mod_cast hn.ne')]; ring
  round_mono x y hxy := by
    show (roundEven (x * 10 ^ p) : Rat) / 10 ^ p ≤ (roundEven (y * 10 ^ p) : Rat) / 10 ^ p
    have : roundEven (x * 10 ^ p) ≤ roundEven (y * 10 ^ p) :=
      roundEven_mono (mul_le_mul_of_nonneg_right hxy (by positivity))
    exact div_le_div_of_nonneg_right (by exact_mod_cast this) (by positivity)
  round_rep x := hF _

end Witt
