import Verif.Props.Discretize
import Verif.Lemmas.Ripper
/-
What BinTransformer.transform does to a frame, as one formula.
-/
namespace Witt
open Spec

/-- Apply to every column its own map. -/
def TFrame.mapAll (df : TFrame) (G : Feat → Val → Val) (K : Feat → Kind) : TFrame :=
  { cols := df.cols, rows := df.rows.map (fun row => { row with cell := fun f => G f (row.cell f) }), kind := K }

theorem TFrame.mapAll_id (df : TFrame) : df.mapAll (fun _ v => v) df.kind = df := by
  obtain ⟨⟨cols, rows⟩, kind⟩ := df
  simp [TFrame.mapAll]

theorem TFrame.mapCol_mapAll (df : TFrame) (f : Feat) (g : Val → Val) (G : Feat → Val → Val) (K : Feat → Kind) :
    (df.mapCol f g).mapAll G K = df.mapAll (fun f' v => if f' = f then G f' (g v) else G f' v) K := by
  unfold TFrame.mapCol TFrame.mapAll
  simp only [TFrame.mk.injEq, Frame.mk.injEq, true_and, and_true, List.map_map]
  apply List.map_congr_left
  intro row _
  simp only [Function.comp, Row.mk.injEq, true_and]
  funext f'
  by_cases h : f' = f
  · subst h; simp
  · simp [h]

theorem transformLoop_ok {F : PyFloat} {b : Binner} {done : List Feat} :
    ∀ {bins : List (Feat × List PStr)} {df df' : TFrame}, (bins.map Prod.fst).Nodup →
      transformLoop F b done bins df = .ok df' →
      ∃ G K, df' = df.mapAll G K ∧
        (∀ f, (f ∉ bins.map Prod.fst ∨ f ∉ df.cols ∨ f ∈ done) → (∀ v, G f v = v) ∧ K f = df.kind f) ∧
        ∀ f labels, (f, labels) ∈ bins → f ∈ df.cols → f ∉ done →
          featTransform F b f labels = .ok (G f) ∧ K f = .text := by
  intro bins
  induction bins with
  | nil =>
    intro df df' _ h
    simp only [transformLoop, Except.ok.injEq] at h
    subst h
    exact ⟨fun _ v => v, df.kind, (TFrame.mapAll_id df).symm, fun f _ => ⟨fun _ => rfl, rfl⟩, by simp⟩
  | cons p rest ih =>
    obtain ⟨f0, labels0⟩ := p
    intro df df' hnd h
    rw [List.map_cons, List.nodup_cons] at hnd
    obtain ⟨hnot, hnd⟩ := hnd
    simp only at hnot
    rw [transformLoop] at h
    by_cases hc : (df.cols.contains f0 && !done.contains f0) = true
    · rw [if_pos hc] at h
      simp only [Bool.and_eq_true, Bool.not_eq_true', List.contains_eq_mem,
        decide_eq_false_iff_not] at hc
      obtain ⟨g, hg, h⟩ := bind_ok_iff.mp h
      obtain ⟨G, K, h1, h2, h3⟩ := ih hnd h
      rw [TFrame.mapCol_mapAll] at h1
      refine ⟨_, K, h1, ?_, ?_⟩
      · intro f hf
        have hne : f ≠ f0 := by
          rintro rfl
          rcases hf with hf | hf | hf
          · exact hf (by simp)
          · exact hf (by simpa using hc.1)
          · exact hc.2 (by simpa using hf)
        obtain ⟨h4, h5⟩ := h2 f (by
          rcases hf with hf | hf | hf
          · left; intro h; exact hf (by simp only [List.map_cons, List.mem_cons]; exact Or.inr h)
          · right; left; exact hf
          · right; right; exact hf)
        exact ⟨fun v => by simp [hne, h4], by simpa [TFrame.mapCol, hne] using h5⟩
      · intro f labels hf hfc hfd
        rcases List.mem_cons.mp hf with hf2 | hf2
        · injection hf2 with e1 e2
          subst e1 e2
          obtain ⟨h4, h5⟩ := h2 f (Or.inl hnot)
          simp only [if_true]
          refine ⟨?_, by simpa [TFrame.mapCol] using h5⟩
          rw [hg]
          congr 1
          funext v
          rw [h4]
        · have hne : f ≠ f0 := by
            rintro rfl
            exact hnot (List.mem_map.mpr ⟨(f, labels), hf2, rfl⟩)
          obtain ⟨h4, h5⟩ := h3 f labels hf2 hfc hfd
          exact ⟨by simpa [hne] using h4, h5⟩
    · rw [if_neg hc] at h
      simp only [Bool.and_eq_true, Bool.not_eq_true', List.contains_eq_mem,
        decide_eq_false_iff_not, not_and, not_not] at hc
      obtain ⟨G, K, h1, h2, h3⟩ := ih hnd h
      refine ⟨G, K, h1, ?_, ?_⟩
      · intro f hf
        by_cases hf0 : f = f0
        · subst hf0; exact h2 f (Or.inl hnot)
        · apply h2 f
          rcases hf with hf | hf | hf
          · left; intro h; exact hf (by simp only [List.map_cons, List.mem_cons]; exact Or.inr h)
          · right; left; exact hf
          · right; right; exact hf
      · intro f labels hf hfc hfd
        rcases List.mem_cons.mp hf with hf | hf
        · injection hf with e1 e2
          subst e1 e2
          exact absurd (hc (by simpa using hfc)) hfd
        · exact h3 f labels hf hfc hfd

theorem transformLoop_total {F : PyFloat} {b : Binner} {done : List Feat} :
    ∀ {bins : List (Feat × List PStr)} {df : TFrame},
      (∀ f labels, (f, labels) ∈ bins → ∃ g, featTransform F b f labels = .ok g) →
      ∃ df', transformLoop F b done bins df = .ok df' := by
  intro bins
  induction bins with
  | nil => exact fun {df} _ => ⟨df, rfl⟩
  | cons p rest ih =>
    obtain ⟨f0, labels0⟩ := p
    intro df h
    rw [transformLoop]
    obtain ⟨g, hg⟩ := h f0 labels0 List.mem_cons_self
    split
    · rw [hg]; exact ih (fun f l hf => h f l (List.mem_cons_of_mem _ hf))
    · exact ih (fun f l hf => h f l (List.mem_cons_of_mem _ hf))

/-- With every fitted column present and already done, the loop does nothing. -/
theorem transformLoop_done {F : PyFloat} {b : Binner} {done : List Feat} :
    ∀ {bins : List (Feat × List PStr)} {df : TFrame},
      (∀ f ∈ bins.map Prod.fst, f ∈ df.cols → f ∈ done) → transformLoop F b done bins df = .ok df := by
  intro bins
  induction bins with
  | nil => intro df _; rfl
  | cons p rest ih =>
    obtain ⟨f0, labels0⟩ := p
    intro df h
    rw [transformLoop]
    have hc : ¬ (df.cols.contains f0 && !done.contains f0) = true := by
      simp only [Bool.and_eq_true, Bool.not_eq_true', List.contains_eq_mem,
        decide_eq_false_iff_not, not_and, not_not]
      exact fun hf => h f0 (by simp) (by simpa using hf)
    rw [if_neg hc]
    exact ih (fun f hf => h f (by simp only [List.map_cons, List.mem_cons]; exact Or.inr hf))

/-- The value is one of the texts. -/
theorem any_label_iff {v : Val} {ls : List PStr} :
    ls.any (fun l => v.pyEq (.str l)) = true ↔ ∃ l ∈ ls, v = .str l := by
  rw [List.any_eq_true]
  constructor
  · rintro ⟨l, hl, h⟩
    cases v with
    | str s => simp only [Val.pyEq, beq_iff_eq] at h; exact ⟨l, hl, by rw [h]⟩
    | num => simp [Val.pyEq] at h
    | nan => simp [Val.pyEq] at h
  · rintro ⟨l, hl, rfl⟩
    exact ⟨l, hl, by simp [Val.pyEq]⟩

namespace Spec
/-- A text column among the fitted ones holds something that is not one of its labels. -/
def BadText (b : Binner) (df : TFrame) : Prop :=
  ∃ f labels, (f, labels) ∈ b.bins ∧ f ∈ df.cols ∧ df.kind f = .text ∧
    ∃ row ∈ df.rows, ∀ l ∈ labels, row.cell f ≠ .str l
end Spec

open Classical in
theorem findTransformed_eq (b : Binner) (df : TFrame) :
    findTransformed b df = if BadText b df then .error .valueError else .ok (transformedFeats b df) := by
  unfold findTransformed
  have : (b.bins.any (fun p => df.cols.contains p.1 && df.kind p.1 == .text &&
      df.rows.any (fun row => !(p.2.any (fun l => (row.cell p.1).pyEq (.str l)))))) = true ↔ BadText b df := by
    rw [List.any_eq_true]
    constructor
    · rintro ⟨⟨f, labels⟩, hp, h⟩
      simp only [Bool.and_eq_true, List.contains_iff_mem, beq_iff_eq] at h
      obtain ⟨⟨h1, h2⟩, h3⟩ := h
      obtain ⟨row, hrow, h4⟩ := List.any_eq_true.mp h3
      refine ⟨f, labels, hp, h1, h2, row, hrow, fun l hl hcell => ?_⟩
      have : labels.any (fun l => (row.cell f).pyEq (.str l)) = true := any_label_iff.mpr ⟨l, hl, hcell⟩
      rw [this] at h4
      simp at h4
    · rintro ⟨f, labels, hp, h1, h2, row, hrow, h3⟩
      refine ⟨(f, labels), hp, ?_⟩
      simp only [Bool.and_eq_true, List.contains_iff_mem, beq_iff_eq]
      refine ⟨⟨h1, h2⟩, List.any_eq_true.mpr ⟨row, hrow, ?_⟩⟩
      rw [Bool.not_eq_true', ← Bool.not_eq_true, any_label_iff]
      rintro ⟨l, hl, h⟩
      exact h3 l hl h
  by_cases h : BadText b df
  · rw [if_pos (this.mpr h), if_pos h]
  · rw [if_neg (fun h' => h (this.mp h')), if_neg h]

theorem mem_transformedFeats {b : Binner} {df : TFrame} {f : Feat} :
    f ∈ transformedFeats b df ↔ f ∈ b.bins.map Prod.fst ∧ f ∈ df.cols ∧ df.kind f = .text := by
  unfold transformedFeats
  simp [List.mem_filter]

end Witt
