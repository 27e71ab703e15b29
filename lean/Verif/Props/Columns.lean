import Verif.Props.FitApi
/-
C67: which columns are discretised, into how many bins, and that every other column reaches training untouched.
-/
namespace Witt
open Spec

namespace Spec
/-- The column has more than `n` different values (missing counting as one value). -/
def MoreValuesThan (n : Nat) (df : Frame) (f : Feat) : Prop :=
  ∃ vs : List Val, vs.length = n + 1 ∧ vs.Pairwise (fun a b => ¬ SameLabel a b) ∧
    ∀ v ∈ vs, ∃ row ∈ df.rows, row.cell f = v
/-- The columns to be discretised: numeric, not the class, with more than `n_discretize_bins` different values. -/
def Continuous (n : Option Nat) (df : TFrame) (cf f : Feat) : Prop :=
  ∃ k, n = some k ∧ 0 < k ∧ f ∈ df.cols ∧ f ≠ cf ∧ df.kind f = .number ∧ MoreValuesThan k df.toFrame f
end Spec

/-- A list of pairwise different values is no longer than a list representing them all. -/
theorem length_le_of_reps {α : Type} {R : α → α → Prop} (hs : ∀ {a b}, R a b → R b a)
    (ht : ∀ {a b c}, R a b → R b c → R a c) {l u : List α} (hl : l.Pairwise (fun a b => ¬ R a b))
    (hu : ∀ x ∈ l, ∃ v ∈ u, R v x) : l.length ≤ u.length := by
  classical
  cases l with
  | nil => simp
  | cons x0 l0 =>
    obtain ⟨v0, _, _⟩ := hu x0 List.mem_cons_self
    let g : α → α := fun x => if h : ∃ v ∈ u, R v x then h.choose else v0
    have hg : ∀ x ∈ x0 :: l0, g x ∈ u ∧ R (g x) x := by
      intro x hx
      have h := hu x hx
      simp only [g, dif_pos h]
      exact h.choose_spec
    have hnd : ((x0 :: l0).map g).Nodup := by
      rw [List.Nodup, List.pairwise_map]
      refine List.Pairwise.imp_of_mem (fun {a b} ha hb hab he => hab ?_) hl
      exact ht (hs (hg a ha).2) (he ▸ (hg b hb).2)
    have hsub : (x0 :: l0).map g ⊆ u := by
      intro y hy
      obtain ⟨x, hx, rfl⟩ := List.mem_map.mp hy
      exact (hg x hx).1
    simpa using (List.subperm_of_subset hnd hsub).length_le

theorem unique_length (n : Nat) (df : Frame) (f : Feat) : n < (df.unique f).length ↔ MoreValuesThan n df f := by
  obtain ⟨hpw, hsub, hrep⟩ := unique_spec df f
  constructor
  · intro h
    refine ⟨(df.unique f).take (n + 1), by simp; omega, hpw.sublist (List.take_sublist _ _), ?_⟩
    exact fun v hv => hsub v (List.mem_of_mem_take hv)
  · rintro ⟨vs, hlen, hp, hv⟩
    have := length_le_of_reps (R := SameLabel) (fun h => sameLabel_symm h) (fun h h' => sameLabel_trans h h') (u := df.unique f) hp (by
      intro x hx
      obtain ⟨row, hr, rfl⟩ := hv x hx
      exact hrep row hr)
    omega

theorem continuousFeats_iff (n : Option Nat) (df : TFrame) (cf f : Feat) :
    f ∈ continuousFeats n df [cf] ↔ Continuous n df cf f := by
  unfold continuousFeats Continuous
  rcases n with _ | _ | k
  · simp
  · simp
  · simp only [List.mem_filter, Bool.and_eq_true, beq_iff_eq, decide_eq_true_eq, unique_length, Bool.not_eq_true',
      Option.some.injEq]
    constructor
    · rintro ⟨h1, ⟨h2, h3⟩, h4⟩
      exact ⟨k + 1, rfl, by omega, h1, by simpa using h4, h2, h3⟩
    · rintro ⟨_, rfl, _, h1, h4, h2, h3⟩
      exact ⟨h1, ⟨h2, h3⟩, by simpa using h4⟩

theorem extendEnds_length (l : List (Rat × Rat)) : (extendEnds l).length = l.length := by
  unfold extendEnds
  cases l with
  | nil => rfl
  | cons p rest =>
    simp only [List.map_cons]
    split
    · rename_i h; simp at h
    · simp

theorem keepOccupied_length (occ : Nat → Bool) (l : List (Rat × Rat)) : (keepOccupied occ l).length ≤ l.length := by
  unfold keepOccupied
  rw [List.length_map]
  exact (List.length_filter_le _ _).trans (by simp)

/-- C67: a column gets bins iff it is numeric, not the class, has more than `n_discretize_bins` different values, and
its values fall into at least two bins; a column has at least two bins and at most `n_discretize_bins` (if pandas
returns at most `n + 1` break points for `n` quantiles). No column has two entries. -/
theorem C67_which_columns (F : PyFloat) (P : PandasCut) (n : Option Nat) (df : TFrame) (cf : Feat) :
    (∀ f ∈ (Binner.fit F P n df [cf]).bins.map Prod.fst, Continuous n df cf f) ∧
    (∀ f, Continuous n df cf f → 2 ≤ (fitFeat F P (n.getD 0) (column df f)).length →
      f ∈ (Binner.fit F P n df [cf]).bins.map Prod.fst) ∧
    (∀ f labels, (f, labels) ∈ (Binner.fit F P n df [cf]).bins → 2 ≤ labels.length ∧
      ((∀ vs k, (P.breaks vs k).length ≤ k + 1) → labels.length ≤ n.getD 0)) ∧
    (df.cols.Nodup → ((Binner.fit F P n df [cf]).bins.map Prod.fst).Nodup) := by
  refine ⟨?_, ?_, ?_, ?_⟩
  · intro f hf
    obtain ⟨⟨f', labels⟩, hm, rfl⟩ := List.mem_map.mp hf
    simp only [Binner.fit, List.mem_filterMap] at hm
    obtain ⟨f'', hc, h⟩ := hm
    split at h
    · cases h; exact (continuousFeats_iff n df cf _).mp hc
    · cases h
  · intro f hc hl
    refine List.mem_map.mpr ⟨(f, fitFeat F P (n.getD 0) (column df f)), ?_, rfl⟩
    · simp only [Binner.fit, List.mem_filterMap]
      exact ⟨f, (continuousFeats_iff n df cf f).mpr hc, if_pos hl⟩
  · intro f labels hm
    obtain ⟨_, _, _, h2, hl⟩ := fit_mem hm
    refine ⟨h2, fun hb => ?_⟩
    rw [hl]
    unfold fitFeat
    rw [List.length_map, extendEnds_length]
    refine (keepOccupied_length _ _).trans ?_
    rw [pairsOf_length]
    have := hb (column df f) (n.getD 0)
    omega
  · intro hn
    have hsub : ((Binner.fit F P n df [cf]).bins.map Prod.fst).Sublist df.cols := by
      have h1 : ((Binner.fit F P n df [cf]).bins.map Prod.fst).Sublist (continuousFeats n df [cf]) := by
        simp only [Binner.fit]
        generalize continuousFeats n df [cf] = l
        induction l with
        | nil => simp
        | cons a l ih =>
          rw [List.filterMap_cons]
          split
          · exact ih.cons _
          · rename_i h
            split at h
            · cases h; exact ih.cons_cons _
            · cases h
      refine h1.trans ?_
      unfold continuousFeats
      rcases n with _ | _ | k
      · exact List.nil_sublist _
      · exact List.nil_sublist _
      · exact List.filter_sublist
    exact hn.sublist hsub

/-- C67: in the frame training works on, every column that is not to be discretised (text, few values, the class)
holds the caller's values. -/
theorem C67_other_columns_untouched (F : PyFloat) (P : PandasCut) (n : Option Nat) (d : FitData)
    (hd : (d.names.getD d.X.cols).Nodup) (df : TFrame) (cf : Feat) (pc : Val) (b : Binner)
    (h : preprocessTraining F P n d = .ok (df, cf, pc, b)) :
    ∃ df0, toTraining d.X d.y cf d.names = .ok df0 ∧ df.cols = df0.cols ∧ df.index = df0.index ∧
      ∀ f, ¬ Continuous n df0 cf f → column df f = column df0 f := by
  obtain ⟨_, rfl, df0, ht, hpc, hb, htr, _, hcf, _⟩ := preprocessTraining_ok h
  have hn := (toTraining_ok ht).2.2 hd
  subst hb
  obtain ⟨hwhich, _, _, hnd⟩ := C67_which_columns F P n df0 (classFeatName d.classFeat d.y)
  obtain ⟨h1, h2, h3⟩ := C51_touches_only_fitted F _ (hnd hn) df0 df htr
  exact ⟨df0, ht, h1, h2, fun f hf => (h3 f (Or.inl fun hm => hf (hwhich f hm))).1⟩

/-- Six different numbers, at most three bins: the column is discretised; with `n_discretize_bins = 6` it is not. -/
example : (Binner.fit Demo.F Demo.P (some 3) Demo.mixed [Demo.fc]).bins.map Prod.fst = [Demo.fn] ∧
    (Binner.fit Demo.F Demo.P (some 5) Demo.mixed [Demo.fc]).bins.map Prod.fst = [Demo.fn] ∧
    (Binner.fit Demo.F Demo.P (some 6) Demo.mixed [Demo.fc]).bins.map Prod.fst = [] ∧
    MoreValuesThan 5 Demo.mixed.toFrame Demo.fn ∧ ¬ MoreValuesThan 6 Demo.mixed.toFrame Demo.fn := by
  rw [← unique_length, ← unique_length]
  decide +kernel

end Witt
