import Verif.Props.Classifier
import Verif.Props.Scores
import Verif.Lemmas.Catnap
/-
Properties of the classifier objects: C53 (class inference), C54 (init_ruleset models), C57 (rule_stats),
C65 (labels given separately).
-/
namespace Witt
open Spec

/-! ### C53: inferring the positive class -/

theorem pyUniqueAux_fresh : ∀ (vs seen : List Val) v, v ∈ pyUniqueAux seen vs →
    ∀ w ∈ seen, w.sameKind v = false := by
  intro vs
  induction vs with
  | nil => intro seen v h; simp [pyUniqueAux] at h
  | cons a vs ih =>
    intro seen v h w hw
    rw [pyUniqueAux] at h
    split at h
    · exact ih _ _ h w hw
    · rename_i hs
      rcases List.mem_cons.mp h with h | h
      · subst h
        by_contra hc
        exact hs (List.any_eq_true.mpr ⟨w, hw, by
          rw [Bool.not_eq_false] at hc
          exact hc⟩)
      · exact ih _ _ h w (List.mem_cons_of_mem _ hw)

theorem pyUniqueAux_pairwise : ∀ (vs seen : List Val),
    (pyUniqueAux seen vs).Pairwise (fun w v => w.sameKind v = false) := by
  intro vs
  induction vs with
  | nil => intro seen; simp [pyUniqueAux]
  | cons a vs ih =>
    intro seen
    rw [pyUniqueAux]
    split
    · exact ih _
    · rw [List.pairwise_cons]
      exact ⟨fun v hv => pyUniqueAux_fresh _ _ v hv a List.mem_cons_self, ih _⟩

namespace Spec
/-- Two labels count as the same class value: equal, or both missing. -/
def SameLabel (a b : Val) : Prop := Same a b ∨ (a = .nan ∧ b = .nan)
/-- The label is a text. -/
def IsText (v : Val) : Prop := ∃ s, v = .str s
/-- The label equals 0 (or False), or 1 (or True). -/
def IsZero (v : Val) : Prop := ∃ t, v = .num 0 t
def IsOne (v : Val) : Prop := ∃ t, v = .num 1 t
end Spec

theorem sameKind_iff {a b : Val} : a.sameKind b = true ↔ SameLabel a b := by
  simp [Val.sameKind, SameLabel, Val.pyEq_iff]

theorem sameLabel_symm {a b : Val} (h : SameLabel a b) : SameLabel b a := by
  rcases h with h | ⟨h1, h2⟩
  · left; rw [← Val.pyEq_iff] at *; rw [Val.pyEq_symm]; exact h
  · exact Or.inr ⟨h2, h1⟩

theorem sameLabel_trans {a b c : Val} (h : SameLabel a b) (h' : SameLabel b c) : SameLabel a c := by
  rcases h with h | ⟨h1, h2⟩ <;> rcases h' with h' | ⟨h3, h4⟩
  · left; rw [← Val.pyEq_iff] at *; exact Val.pyEq_trans h h'
  · subst h3; rcases h with ⟨s, _, h⟩ | ⟨q, t, u, _, h⟩ <;> cases h
  · subst h2; rcases h' with ⟨s, h, _⟩ | ⟨q, t, u, h, _⟩ <;> cases h
  · exact Or.inr ⟨h1, h4⟩

theorem isZero_congr {a b : Val} (h : SameLabel a b) (hz : IsZero a) : IsZero b := by
  obtain ⟨t, rfl⟩ := hz
  rcases h with (⟨s, h1, _⟩ | ⟨q, t', u, h1, h2⟩) | ⟨h1, _⟩
  · cases h1
  · cases h1; exact ⟨u, h2⟩
  · cases h1

theorem isOne_congr {a b : Val} (h : SameLabel a b) (hz : IsOne a) : IsOne b := by
  obtain ⟨t, rfl⟩ := hz
  rcases h with (⟨s, h1, _⟩ | ⟨q, t', u, h1, h2⟩) | ⟨h1, _⟩
  · cases h1
  · cases h1; exact ⟨u, h2⟩
  · cases h1

theorem isText_congr {a b : Val} (h : SameLabel a b) (hz : IsText a) : IsText b := by
  obtain ⟨t, rfl⟩ := hz
  rcases h with (⟨s, _, h2⟩ | ⟨q, t', u, h1, _⟩) | ⟨h1, _⟩
  · exact ⟨_, h2⟩
  · cases h1
  · cases h1

/-- The different values of a column. -/
theorem unique_spec (df : Frame) (f : Feat) :
    (df.unique f).Pairwise (fun a b => ¬ SameLabel a b) ∧
    (∀ v ∈ df.unique f, ∃ row ∈ df.rows, row.cell f = v) ∧
    ∀ row ∈ df.rows, ∃ v ∈ df.unique f, SameLabel v (row.cell f) := by
  refine ⟨(pyUniqueAux_pairwise _ _).imp (fun {a b} h hs => ?_), ?_, ?_⟩
  · rw [sameKind_iff.mpr hs] at h; cases h
  · intro v hv
    obtain ⟨row, hr, h⟩ := List.mem_map.mp (pyUniqueAux_subset _ _ _ hv)
    exact ⟨row, hr, h⟩
  · intro row hr
    obtain ⟨w, hw, h⟩ := unique_rep (f := f) hr
    exact ⟨w, hw, sameKind_iff.mp h⟩

theorem not_text_num (q : Rat) (t : PStr) : ¬ IsText (.num q t) := by rintro ⟨_, h⟩; cases h
theorem not_text_nan : ¬ IsText .nan := by rintro ⟨_, h⟩; cases h
theorem isZero_num {q : Rat} {t : PStr} : IsZero (.num q t) ↔ q = 0 :=
  ⟨fun ⟨_, h⟩ => by cases h; rfl, fun h => ⟨t, by rw [h]⟩⟩
theorem isOne_num {q : Rat} {t : PStr} : IsOne (.num q t) ↔ q = 1 :=
  ⟨fun ⟨_, h⟩ => by cases h; rfl, fun h => ⟨t, by rw [h]⟩⟩

theorem posClassOf_two_ok {v w : Val} (h : (IsZero v ∧ IsOne w) ∨ (IsOne v ∧ IsZero w)) :
    ∃ t, posClassOf [v, w] none = .ok (.num 1 t) := by
  rcases h with ⟨⟨s, rfl⟩, ⟨t, rfl⟩⟩ | ⟨⟨s, rfl⟩, ⟨t, rfl⟩⟩ <;>
  · simp only [posClassOf]
    norm_num
    split <;> exact ⟨_, rfl⟩

theorem posClassOf_two_type {v w : Val} (h : (IsText v ∧ ¬ IsText w) ∨ (IsText w ∧ ¬ IsText v)) :
    posClassOf [v, w] none = .error .typeError := by
  rcases h with ⟨⟨s, rfl⟩, h⟩ | ⟨⟨s, rfl⟩, h⟩
  · cases w with
    | str t => exact absurd ⟨t, rfl⟩ h
    | num => rfl
    | nan => rfl
  · cases v with
    | str t => exact absurd ⟨t, rfl⟩ h
    | num => rfl
    | nan => rfl

theorem posClassOf_two_name {v w : Val} (h1 : ¬ ((IsZero v ∧ IsOne w) ∨ (IsOne v ∧ IsZero w)))
    (h2 : ¬ ((IsText v ∧ ¬ IsText w) ∨ (IsText w ∧ ¬ IsText v))) :
    posClassOf [v, w] none = .error .nameError := by
  cases v with
  | str s =>
    cases w with
    | str t => rfl
    | num => exact absurd (Or.inl ⟨⟨s, rfl⟩, not_text_num _ _⟩) h2
    | nan => exact absurd (Or.inl ⟨⟨s, rfl⟩, not_text_nan⟩) h2
  | nan =>
    cases w with
    | str t => exact absurd (Or.inr ⟨⟨t, rfl⟩, not_text_nan⟩) h2
    | num => rfl
    | nan => rfl
  | num a s =>
    cases w with
    | str t => exact absurd (Or.inr ⟨⟨t, rfl⟩, not_text_num _ _⟩) h2
    | nan => rfl
    | num b t =>
      simp only [isZero_num, isOne_num] at h1
      simp only [posClassOf]
      by_cases hlt : a < b
      · simp only [hlt, if_true]
        rw [if_neg (fun h => h1 (Or.inl h))]
      · simp only [hlt, if_false]
        rw [if_neg (fun h => h1 (Or.inr ⟨h.2, h.1⟩))]

/-- C53. Class inference when no positive class is named, on non-empty data:
(1) if every label is 0/False or 1/True, the positive class is 1;
(2) if all labels are alike (and not 0), the positive class is that label;
(3) if there are exactly two classes, one text and one not (a missing label counts as a class), it is a TypeError;
(4) otherwise it is a NameError. A named positive class is taken as it is. -/
theorem C53_class_inference (df : Frame) (cf : Feat) (hne : df.rows ≠ []) :
    ((∀ row ∈ df.rows, IsZero (row.cell cf) ∨ IsOne (row.cell cf)) →
      ∃ v, posClassOf (df.unique cf) none = .ok v ∧ IsOne v) ∧
    ((∀ row ∈ df.rows, ∀ row' ∈ df.rows, SameLabel (row.cell cf) (row'.cell cf)) →
      (∀ row ∈ df.rows, ¬ IsZero (row.cell cf)) →
      ∃ row ∈ df.rows, posClassOf (df.unique cf) none = .ok (row.cell cf)) ∧
    ((∃ a ∈ df.rows, ∃ b ∈ df.rows, IsText (a.cell cf) ∧ ¬ IsText (b.cell cf) ∧
        ∀ row ∈ df.rows, SameLabel (row.cell cf) (a.cell cf) ∨ SameLabel (row.cell cf) (b.cell cf)) →
      posClassOf (df.unique cf) none = .error .typeError) ∧
    (¬ (∀ row ∈ df.rows, IsZero (row.cell cf) ∨ IsOne (row.cell cf)) →
      ¬ (∀ row ∈ df.rows, ∀ row' ∈ df.rows, SameLabel (row.cell cf) (row'.cell cf)) →
      ¬ (∃ a ∈ df.rows, ∃ b ∈ df.rows, IsText (a.cell cf) ∧ ¬ IsText (b.cell cf) ∧
        ∀ row ∈ df.rows, SameLabel (row.cell cf) (a.cell cf) ∨ SameLabel (row.cell cf) (b.cell cf)) →
      posClassOf (df.unique cf) none = .error .nameError) ∧
    ∀ pc, posClassOf (df.unique cf) (some pc) = .ok pc := by
  obtain ⟨hpw, hsub, hrep⟩ := unique_spec df cf
  obtain ⟨row0, hrow0⟩ := List.exists_mem_of_ne_nil _ hne
  have hlen : df.unique cf ≠ [] := by
    intro h; obtain ⟨v, hv, _⟩ := hrep row0 hrow0; rw [h] at hv; simp at hv
  -- one value, two values, or more
  rcases hu : df.unique cf with _ | ⟨v, _ | ⟨w, _ | ⟨x, rest⟩⟩⟩
  · exact absurd hu hlen
  · -- one class
    rw [hu] at hsub hrep
    have hall : ∀ row ∈ df.rows, SameLabel v (row.cell cf) := by
      intro row hr; obtain ⟨v', hv', h⟩ := hrep row hr
      rw [List.mem_singleton.mp hv'] at h; exact h
    obtain ⟨rowv, hrowv, hcell⟩ := hsub v (by simp)
    have hsingle : ¬ IsZero v → posClassOf [v] none = .ok v := by
      intro hz
      cases v with
      | str s => rfl
      | nan => rfl
      | num q t =>
        rw [isZero_num] at hz
        simp only [posClassOf, hz, if_false]
    refine ⟨?_, ?_, ?_, ?_, fun pc => rfl⟩
    · intro h
      rcases h rowv hrowv with hz | ho
      · rw [hcell] at hz
        obtain ⟨t, rfl⟩ := hz
        simp only [posClassOf, if_true]
        split
        · exact ⟨_, rfl, ⟨_, rfl⟩⟩
        · exact ⟨_, rfl, ⟨_, rfl⟩⟩
      · rw [hcell] at ho
        refine ⟨v, hsingle ?_, ho⟩
        rintro ⟨t, rfl⟩
        rw [isOne_num] at ho
        norm_num at ho
    · intro _ hz
      exact ⟨rowv, hrowv, by rw [hcell]; exact hsingle (hcell ▸ hz rowv hrowv)⟩
    · rintro ⟨a, ha, b, hb, hta, htb, _⟩
      exact absurd (isText_congr (sameLabel_trans (sameLabel_symm (hall a ha)) (hall b hb)) hta) htb
    · intro _ h
      exact absurd (fun row hr row' hr' => sameLabel_trans (sameLabel_symm (hall row hr)) (hall row' hr')) h
  · -- two classes
    rw [hu] at hsub hrep hpw
    have hvw : ¬ SameLabel v w := by
      have := List.pairwise_cons.mp hpw
      exact this.1 w (by simp)
    have hall : ∀ row ∈ df.rows, SameLabel v (row.cell cf) ∨ SameLabel w (row.cell cf) := by
      intro row hr; obtain ⟨v', hv', h⟩ := hrep row hr
      simp only [List.mem_cons, List.not_mem_nil, or_false] at hv'
      rcases hv' with rfl | rfl
      · exact Or.inl h
      · exact Or.inr h
    obtain ⟨rowv, hrowv, hv⟩ := hsub v (by simp)
    obtain ⟨roww, hroww, hw⟩ := hsub w (by simp)
    have htext : (∃ a ∈ df.rows, ∃ b ∈ df.rows, IsText (a.cell cf) ∧ ¬ IsText (b.cell cf) ∧
        ∀ row ∈ df.rows, SameLabel (row.cell cf) (a.cell cf) ∨ SameLabel (row.cell cf) (b.cell cf)) ↔
        ((IsText v ∧ ¬ IsText w) ∨ (IsText w ∧ ¬ IsText v)) := by
      constructor
      · rintro ⟨a, ha, b, hb, hta, htb, _⟩
        have t1 : IsText v ∨ IsText w := by
          rcases hall a ha with h | h
          · exact Or.inl (isText_congr (sameLabel_symm h) hta)
          · exact Or.inr (isText_congr (sameLabel_symm h) hta)
        have t2 : ¬ IsText v ∨ ¬ IsText w := by
          rcases hall b hb with h | h
          · exact Or.inl (fun ht => htb (isText_congr h ht))
          · exact Or.inr (fun ht => htb (isText_congr h ht))
        tauto
      · rintro (⟨h1, h2⟩ | ⟨h1, h2⟩)
        · refine ⟨rowv, hrowv, roww, hroww, hv ▸ h1, hw ▸ h2, fun row hr => ?_⟩
          rw [hv, hw]
          rcases hall row hr with h | h
          · exact Or.inl (sameLabel_symm h)
          · exact Or.inr (sameLabel_symm h)
        · refine ⟨roww, hroww, rowv, hrowv, hw ▸ h1, hv ▸ h2, fun row hr => ?_⟩
          rw [hv, hw]
          rcases hall row hr with h | h
          · exact Or.inr (sameLabel_symm h)
          · exact Or.inl (sameLabel_symm h)
    have hbin : (∀ row ∈ df.rows, IsZero (row.cell cf) ∨ IsOne (row.cell cf)) ↔
        ((IsZero v ∧ IsOne w) ∨ (IsOne v ∧ IsZero w)) := by
      constructor
      · intro h
        have h1 := h rowv hrowv
        have h2 := h roww hroww
        rw [hv] at h1
        rw [hw] at h2
        rcases h1 with h1 | h1 <;> rcases h2 with h2 | h2
        · obtain ⟨s, rfl⟩ := h1; obtain ⟨t, rfl⟩ := h2
          exact absurd (Or.inl (Or.inr ⟨0, s, t, rfl, rfl⟩)) hvw
        · exact Or.inl ⟨h1, h2⟩
        · exact Or.inr ⟨h1, h2⟩
        · obtain ⟨s, rfl⟩ := h1; obtain ⟨t, rfl⟩ := h2
          exact absurd (Or.inl (Or.inr ⟨1, s, t, rfl, rfl⟩)) hvw
      · intro h row hr
        rcases h with ⟨h1, h2⟩ | ⟨h1, h2⟩ <;> rcases hall row hr with h | h
        · exact Or.inl (isZero_congr h h1)
        · exact Or.inr (isOne_congr h h2)
        · exact Or.inr (isOne_congr h h1)
        · exact Or.inl (isZero_congr h h2)
    have hnot : ¬ (∀ row ∈ df.rows, ∀ row' ∈ df.rows, SameLabel (row.cell cf) (row'.cell cf)) := by
      intro h
      have := h rowv hrowv roww hroww
      rw [hv, hw] at this
      exact hvw this
    refine ⟨?_, fun h => absurd h hnot, ?_, ?_, fun pc => rfl⟩
    · intro h
      obtain ⟨t, ht⟩ := posClassOf_two_ok (hbin.mp h)
      exact ⟨_, ht, t, rfl⟩
    · intro h; exact posClassOf_two_type (htext.mp h)
    · intro h1 _ h3
      exact posClassOf_two_name (fun h => h1 (hbin.mpr h)) (fun h => h3 (htext.mpr h))
  · -- three or more classes
    rw [hu] at hsub hpw
    rw [List.pairwise_cons, List.pairwise_cons] at hpw
    obtain ⟨h1, h2, _⟩ := hpw
    have hvw := h1 w (by simp)
    have hvx := h1 x (by simp)
    have hwx := h2 x (by simp)
    obtain ⟨rowv, hrowv, hv⟩ := hsub v (by simp)
    obtain ⟨roww, hroww, hw⟩ := hsub w (by simp)
    obtain ⟨rowx, hrowx, hx⟩ := hsub x (by simp)
    have zz : ∀ a b, IsZero a → IsZero b → SameLabel a b := by
      rintro a b ⟨s, rfl⟩ ⟨t, rfl⟩; exact Or.inl (Or.inr ⟨0, s, t, rfl, rfl⟩)
    have oo : ∀ a b, IsOne a → IsOne b → SameLabel a b := by
      rintro a b ⟨s, rfl⟩ ⟨t, rfl⟩; exact Or.inl (Or.inr ⟨1, s, t, rfl, rfl⟩)
    refine ⟨?_, ?_, ?_, fun _ _ _ => rfl, fun pc => rfl⟩
    · intro h
      exfalso
      have a1 := h rowv hrowv; have a2 := h roww hroww; have a3 := h rowx hrowx
      rw [hv] at a1; rw [hw] at a2; rw [hx] at a3
      rcases a1 with a1 | a1 <;> rcases a2 with a2 | a2
      · exact hvw (zz _ _ a1 a2)
      · rcases a3 with a3 | a3
        · exact hvx (zz _ _ a1 a3)
        · exact hwx (oo _ _ a2 a3)
      · rcases a3 with a3 | a3
        · exact hwx (zz _ _ a2 a3)
        · exact hvx (oo _ _ a1 a3)
      · exact hvw (oo _ _ a1 a2)
    · intro h
      have := h rowv hrowv roww hroww
      rw [hv, hw] at this
      exact absurd this hvw
    · rintro ⟨a, ha, b, hb, hta, htb, h⟩
      exfalso
      have a1 := h rowv hrowv; have a2 := h roww hroww; have a3 := h rowx hrowx
      rw [hv] at a1; rw [hw] at a2; rw [hx] at a3
      have j : ∀ {p q r : Val}, SameLabel p r → SameLabel q r → SameLabel p q :=
        fun hp hq => sameLabel_trans hp (sameLabel_symm hq)
      rcases a1 with a1 | a1 <;> rcases a2 with a2 | a2
      · exact hvw (j a1 a2)
      · rcases a3 with a3 | a3
        · exact hvx (j a1 a3)
        · exact hwx (j a2 a3)
      · rcases a3 with a3 | a3
        · exact hwx (j a2 a3)
        · exact hvx (j a1 a3)
      · exact hvw (j a1 a2)

namespace Demo
/-- A labelled column holding the given values. -/
def labelled (vs : List Val) : Frame := Frame.ofTable [fa] (vs.zipIdx.map (fun p => ((p.2 : Int), [p.1])))
end Demo

example : (Demo.labelled [.num 0 p!"False", .num 1 p!"True"]).rows ≠ [] := by decide
example : posClassOf ((Demo.labelled [.num 0 p!"False", .num 1 p!"True"]).unique Demo.fa) none = .ok (.num 1 p!"True") ∧
    posClassOf ((Demo.labelled [.num 0 p!"0", .num 0 p!"0"]).unique Demo.fa) none = .ok (.num 1 p!"1") ∧
    posClassOf ((Demo.labelled [Demo.vx, Demo.vx]).unique Demo.fa) none = .ok Demo.vx ∧
    posClassOf ((Demo.labelled [Demo.vx, .nan]).unique Demo.fa) none = .error .typeError ∧
    posClassOf ((Demo.labelled [Demo.vx, Demo.vy]).unique Demo.fa) none = .error .nameError := by decide +kernel

/-! ### C57: rule_stats -/

namespace Spec
open Classical in
/-- For each row: does the rule fire on it? -/
noncomputable def firesOn (df : Frame) (r : Rule) : List Bool := df.rows.map (fun row => decide (Fires row r))
open Classical in
/-- For each label: is it the positive class? -/
noncomputable def positives (pc : Val) (ys : List Val) : List Bool := ys.map (fun y => decide (Same y pc))
/-- `a / b`, undefined if `b` is zero. -/
def ratio (a b : Nat) : Option Rat := if b = 0 then none else some ((a : Rat) / b)
end Spec

theorem ruleStat_eq {df : Frame} (hu : df.UniqueIndex) {r : Rule} (hf : ∀ c ∈ r.conds, c.feature ∈ df.cols)
    {actuals : Option (List Bool)} (hlen : ∀ as, actuals = some as → as.length = df.rows.length) (i : Nat) :
    ∃ st, ruleStat df actuals i r = .ok st ∧ st.idx = i ∧ st.text = r.text ∧
      st.nCovered = (firesOn df r).countP id ∧ st.coverage = ((firesOn df r).countP id : Rat) / df.rows.length ∧
      (actuals = none → st.metrics = none) ∧
      ∀ as, actuals = some as → st.metrics = some
        (ratio (tp as (firesOn df r)) (tp as (firesOn df r) + fp as (firesOn df r)),
         ratio (tp as (firesOn df r)) (tp as (firesOn df r) + fn as (firesOn df r)),
         if tp as (firesOn df r) = 0 then none else
           some ((2 * tp as (firesOn df r) : Rat) / (2 * tp as (firesOn df r) + fp as (firesOn df r) + fn as (firesOn df r) : Nat))) := by
  have hpreds : df.index.map (fun l => (df.keep (condsMet r.conds)).index.contains l) = firesOn df r := by
    unfold Frame.index firesOn
    rw [List.map_map]
    apply List.map_congr_left
    intro row hrow
    rw [Bool.eq_iff_iff]
    simp only [Function.comp, Frame.keep, List.contains_iff_mem, decide_eq_true_eq]
    rw [show Fires row r ↔ condsMet r.conds row = true from condsMet_iff.symm]
    constructor
    · intro h
      obtain ⟨row', hr', hl⟩ := List.mem_map.mp h
      rw [List.mem_filter] at hr'
      rw [← row_eq_of_label hu hr'.1 hrow hl]
      exact hr'.2
    · intro h
      exact List.mem_map.mpr ⟨row, List.mem_filter.mpr ⟨hrow, h⟩, rfl⟩
  unfold ruleStat Rule.covers
  rw [condsCover_ok hf, ok_bind]
  simp only [hpreds]
  have hfl : (firesOn df r).length = df.rows.length := by simp [firesOn]
  cases actuals with
  | none =>
    simp only [ok_bind]
    exact ⟨_, rfl, rfl, rfl, rfl, rfl, fun _ => rfl, fun as h => by cases h⟩
  | some as =>
    have hl := hlen as rfl
    obtain ⟨_, _, h1, h2, h3⟩ := (C42_scores as (firesOn df r)).2 (by rw [hl, hfl])
    have hf1 : f1 (if tp as (firesOn df r) + fp as (firesOn df r) = 0 then none
          else some ((tp as (firesOn df r) : Rat) / (tp as (firesOn df r) + fp as (firesOn df r) : Nat)))
        (if tp as (firesOn df r) + fn as (firesOn df r) = 0 then none
          else some ((tp as (firesOn df r) : Rat) / (tp as (firesOn df r) + fn as (firesOn df r) : Nat))) =
        if tp as (firesOn df r) = 0 then none
        else some ((2 * tp as (firesOn df r) : Rat) / (2 * tp as (firesOn df r) + fp as (firesOn df r) + fn as (firesOn df r) : Nat)) := by
      unfold scoreF1 at h3
      rw [if_neg (by rw [hl, hfl]; simp), h1, h2] at h3
      simpa only [ok_bind, pure_eq_ok, Except.ok.injEq] using h3
    simp only [h1, h2, ok_bind, pure_eq_ok, hf1]
    refine ⟨_, rfl, rfl, rfl, rfl, rfl, fun h => (by cases h), ?_⟩
    intro as' h
    injection h with h
    subst h
    rfl

theorem mapM_get {α β : Type} {f : α → Except PyErr β} : ∀ {l : List α} {bs : List β}, l.mapM f = .ok bs →
    bs.length = l.length ∧ ∀ (i : Nat) (a : α), l[i]? = some a → ∃ b, f a = .ok b ∧ bs[i]? = some b := by
  intro l
  induction l with
  | nil =>
    intro bs h
    simp only [List.mapM_nil, pure_eq_ok, Except.ok.injEq] at h
    subst h; exact ⟨rfl, fun i a h => by simp at h⟩
  | cons x l ih =>
    intro bs h
    rw [List.mapM_cons] at h
    obtain ⟨b, hb, h⟩ := bind_ok_iff.mp h
    obtain ⟨bs', hbs', h⟩ := bind_ok_iff.mp h
    simp only [pure_eq_ok, Except.ok.injEq] at h
    subst h
    obtain ⟨h1, h2⟩ := ih hbs'
    refine ⟨by simp [h1], ?_⟩
    intro i a hi
    cases i with
    | zero => simp only [List.getElem?_cons_zero, Option.some.injEq] at hi; subst hi; exact ⟨b, hb, rfl⟩
    | succ i => exact h2 i a (by simpa using hi)

/-- C57. On non-empty data with distinct row labels and the features the model needs, rule_stats answers with
one line per rule, in order: its number, its text, how many rows of the (discretised) data it fires on, that
number as a fraction of all rows and, given labels, its precision, recall and F1 as a classifier of its own.
Labels of the wrong length are a ValueError. The object is unchanged. -/
theorem C57_rule_stats (F : PyFloat) (c : Clf) (rs : Ruleset) (cf : Feat) (pc : Val) (b : Binner) (sel : List Feat)
    (hc : Ready c rs cf b sel) (hpc : c.posClass = some pc) (hb : Usable F b) (hsel : ∀ f, Tested rs f → f ∈ sel)
    (X : TFrame) (hX : X.rows ≠ []) (hu : X.UniqueIndex) (hs : ∀ f ∈ sel, f ∈ X.cols ∧ f ≠ cf)
    (hbad : ¬ BadText b (X.dropCol cf)) (y : Option (List Val)) :
    (∀ ys, y = some ys → ys.length ≠ X.rows.length → Clf.ruleStats F X y none c = .error .valueError c) ∧
    ((∀ ys, y = some ys → ys.length = X.rows.length) →
      ∃ X' table, applyBins F b (X.dropCol cf) = .ok X' ∧ Clf.ruleStats F X y none c = .ok table c ∧
        table.length = rs.rules.length ∧ ∀ (i : Nat) (r : Rule), rs.rules[i]? = some r → ∃ st, table[i]? = some st ∧
          st.idx = i ∧ st.text = r.text ∧
          st.nCovered = (firesOn X'.toFrame r).countP id ∧
          st.coverage = ((firesOn X'.toFrame r).countP id : Rat) / X.rows.length ∧
          (y = none → st.metrics = none) ∧
          ∀ ys, y = some ys →
            st.metrics =
              some (ratio (tp (positives pc ys) (firesOn X'.toFrame r))
                      (tp (positives pc ys) (firesOn X'.toFrame r) + fp (positives pc ys) (firesOn X'.toFrame r)),
                    ratio (tp (positives pc ys) (firesOn X'.toFrame r))
                      (tp (positives pc ys) (firesOn X'.toFrame r) + fn (positives pc ys) (firesOn X'.toFrame r)),
                    if tp (positives pc ys) (firesOn X'.toFrame r) = 0 then none else
                      some ((2 * tp (positives pc ys) (firesOn X'.toFrame r) : Rat) /
                        (2 * tp (positives pc ys) (firesOn X'.toFrame r) + fp (positives pc ys) (firesOn X'.toFrame r) +
                          fn (positives pc ys) (firesOn X'.toFrame r) : Nat)))) := by
  obtain ⟨X', hX'⟩ := applyBins_total hb hbad
  obtain ⟨G, K, hG, _⟩ := applyBins_ok hb.1 hX'
  have hrows : X'.rows.length = X.rows.length := by
    rw [hG]; simp [TFrame.mapAll, TFrame.dropCol, Frame.dropCol]
  have hidx : X'.index = X.index := by
    rw [hG]; simp [TFrame.mapAll, TFrame.dropCol, Frame.dropCol, Frame.index]
  have hfeat : HasFeatures X'.toFrame rs.rules := by
    rw [tested_iff]
    intro f hf
    rw [hG]
    exact dropCol_cols.mpr (hs f (hsel f hf))
  rw [ruleStats_eq_query, query_ready hc, preprocessPrediction_none hX hs, hX', ok_bind, hpc]
  simp only [attr, ok_bind]
  have hpos : ∀ ys : List Val, ys.map (fun yi => yi.pyEq pc) = positives pc ys := by
    intro ys
    apply List.map_congr_left
    intro v _
    by_cases h : Same v pc
    · rw [Val.pyEq_iff.mpr h]; simp [h]
    · rw [Bool.eq_false_iff.mpr (fun h' => h (Val.pyEq_iff.mp h'))]; simp [h]
  constructor
  · intro ys hy hne
    subst hy
    unfold ruleTable
    rw [if_pos (by simp [hrows, hne])]
    rfl
  · intro hlen
    have hcond : ¬ y.any (fun ys => ys.length != X'.rows.length) = true := by
      cases y with
      | none => simp
      | some ys => simp [hrows, hlen ys rfl]
    unfold ruleTable
    rw [if_neg hcond]
    have hst : ∀ i r, r ∈ rs.rules → _ := fun i r hr => ruleStat_eq (df := X'.toFrame) (by rw [Frame.UniqueIndex, hidx]; exact hu)
      (r := r) (hfeat r hr) (actuals := y.map (fun ys => ys.map (fun yi => yi.pyEq pc))) (by
        intro as ha
        cases y with
        | none => simp at ha
        | some ys =>
          simp only [Option.map_some, Option.some.injEq] at ha
          rw [← ha, List.length_map, hlen ys rfl, hrows]) i
    obtain ⟨table, ht, _⟩ := mapM_total (f := fun ri : Rule × Nat => ruleStat X'.toFrame (y.map (fun ys => ys.map (fun yi => yi.pyEq pc))) ri.2 ri.1)
      (l := rs.rules.zipIdx) (by
        rintro ⟨r, i⟩ hri
        have hr : r ∈ rs.rules := by
          have := List.mem_zipIdx hri
          simp only [Nat.zero_le, Nat.sub_zero, true_and] at this
          rw [this.2]
          exact List.getElem_mem _
        obtain ⟨st, h, _⟩ := hst i r hr
        exact ⟨st, h⟩)
    refine ⟨X', table, rfl, by rw [ht]; rfl, ?_, ?_⟩
    · rw [(mapM_get ht).1]; simp
    · intro i r hi
      have hr : r ∈ rs.rules := List.mem_of_getElem? hi
      obtain ⟨st, hst1, hst2⟩ := (mapM_get ht).2 i (r, i) (by simp [List.getElem?_zipIdx, hi])
      obtain ⟨st', h0, h1, h2, h3, h4, h5, h6⟩ := hst i r hr
      rw [h0] at hst1
      injection hst1 with hst1
      subst hst1
      refine ⟨st', hst2, h1, h2, h3, by rw [h4, hrows], fun hy => h5 (by rw [hy]; rfl), ?_⟩
      intro ys hy
      subst hy
      have := h6 (positives pc ys) (by rw [← hpos]; rfl)
      exact this

example : Demo.clf.posClass = some (.str p!"p") ∧ Demo.tdf.UniqueIndex ∧
    (∀ f ∈ [Demo.fa, Demo.fb], f ∈ Demo.tdf.cols ∧ f ≠ .name p!"c") := by
  refine ⟨rfl, ?_, by decide⟩
  unfold Frame.UniqueIndex; decide

example : (match Clf.ruleStats Demo.F Demo.tdf (some [.str p!"p", .str p!"n", .str p!"n"]) none Demo.clf with
    | .ok t _ => t
    | .error _ _ => []) =
      [⟨0, p!"[a=x]", 1/3, 1, some (some 1, some 1, some 1)⟩, ⟨1, p!"[b=x]", 2/3, 2, some (some (1/2), some 1, some (2/3))⟩] := by
  decide +kernel

/-! ### C54: models given by init_ruleset -/

namespace Spec
/-- A condition value that `_ensure_has_bin_transformer` can digest: a text which is either `x - y` with `x`
readable as a float, or has at most one dash beyond its first character. -/
def Digestible (F : PyFloat) (v : Val) : Prop :=
  ∃ s, v = .str s ∧ ((∃ a b, splitSub p!" - " s = [a, b] ∧ F.parse a ≠ none) ∨
    ((splitSub p!" - " s).length ≠ 2 ∧ (s.drop 1).count '-' ≤ 1))
end Spec

theorem dashesFrom_length : ∀ (s : PStr) (i : Nat), i ≠ 0 → (dashesFrom i s).length = s.count '-'
  | [], _, _ => rfl
  | c :: cs, i, hi => by
    rw [dashesFrom]
    have ih := dashesFrom_length cs (i + 1) (by omega)
    by_cases hc : c = '-'
    · simp [hc, hi, ih]
    · rw [if_neg (fun h => hc h.1), ih, List.count_cons_of_ne hc]

theorem dashesFrom_zero (s : PStr) : (dashesFrom 0 s).length = (s.drop 1).count '-' := by
  cases s with
  | nil => rfl
  | cons c cs =>
    rw [dashesFrom, if_neg (by simp)]
    exact dashesFrom_length cs 1 (by omega)

/-- What `find_floor_ceil` does with a condition's value. -/
theorem condRange_cases (F : PyFloat) (c : Cond) :
    (Digestible F c.val → ∃ r, condRange F c = .ok r ∧ ∀ fc, r = some fc → F.parse fc.1 ≠ none) ∧
    (¬ Digestible F c.val → (∃ e, condRange F c = .error e ∧ (e = .attributeError ∨ e = .unboundLocal)) ∨
      ∃ fc, condRange F c = .ok (some fc) ∧ F.parse fc.1 = none) := by
  unfold condRange
  cases hv : c.val with
  | num q t =>
    refine ⟨?_, fun _ => Or.inl ⟨_, rfl, Or.inl rfl⟩⟩
    rintro ⟨s, h, _⟩; cases h
  | nan =>
    refine ⟨?_, fun _ => Or.inl ⟨_, rfl, Or.inl rfl⟩⟩
    rintro ⟨s, h, _⟩; cases h
  | str s =>
    simp only []
    by_cases hsp : (splitSub p!" - " s).length = 2
    · obtain ⟨a, b, hab⟩ := List.length_eq_two.mp hsp
      have hff : findFloorCeil F s = .ok (some (a, b)) := by
        unfold findFloorCeil; rw [hab]
      constructor
      · rintro ⟨s', h, h'⟩
        injection h with h; subst h
        rcases h' with ⟨a', b', h1, h2⟩ | ⟨h1, _⟩
        · rw [hab] at h1
          injection h1 with h1 h3
          refine ⟨_, hff, ?_⟩
          intro fc hfc
          injection hfc with hfc
          rw [← hfc, h1]
          exact h2
        · exact absurd hsp h1
      · intro hnd
        right
        refine ⟨_, hff, ?_⟩
        by_contra hp
        exact hnd ⟨s, rfl, Or.inl ⟨a, b, hab, hp⟩⟩
    · have hff : findFloorCeil F s = match dashesFrom 0 s with
          | [] => .ok none
          | [i] =>
            if (F.parse (s.take i)).isSome && (F.parse (s.drop (i + 1))).isSome then .ok (some (s.take i, s.drop (i + 1)))
            else .ok none
          | _ => .error .unboundLocal := by
        unfold findFloorCeil
        split
        · rename_i a b hab; rw [hab] at hsp; simp at hsp
        · rfl
      rw [hff]
      constructor
      · rintro ⟨s', h, h'⟩
        injection h with h; subst h
        have hle : (s.drop 1).count '-' ≤ 1 := by
          rcases h' with ⟨a', b', h1, _⟩ | ⟨_, h1⟩
          · rw [h1] at hsp; simp at hsp
          · exact h1
        rw [← dashesFrom_zero] at hle
        split
        · exact ⟨_, rfl, fun fc h => by cases h⟩
        · split
          · rename_i hcond
            refine ⟨_, rfl, fun fc h => ?_⟩
            injection h with h
            rw [← h]
            simp only [Bool.and_eq_true] at hcond
            exact Option.isSome_iff_ne_none.mp hcond.1
          · exact ⟨_, rfl, fun fc h => by cases h⟩
        · rename_i h1 h2
          rcases hd : dashesFrom 0 s with _ | ⟨x, _ | ⟨y, l⟩⟩
          · exact absurd hd h1
          · exact absurd hd (h2 x)
          · rw [hd] at hle; simp at hle
      · intro hnd
        left
        have hgt : ¬ (dashesFrom 0 s).length ≤ 1 := by
          rw [dashesFrom_zero]
          intro hle
          exact hnd ⟨s, rfl, Or.inr ⟨hsp, hle⟩⟩
        split
        · rename_i h; rw [h] at hgt; simp at hgt
        · rename_i h; rw [h] at hgt; simp at hgt
        · exact ⟨_, rfl, Or.inr rfl⟩

theorem mapM_fails {α β : Type} {f : α → Except PyErr β} {p : PyErr → Prop} : ∀ {l : List α},
    (∀ a ∈ l, (∃ b, f a = .ok b) ∨ ∃ e, f a = .error e ∧ p e) → (∃ a ∈ l, ∃ e, f a = .error e) →
    ∃ e, l.mapM f = .error e ∧ p e := by
  intro l
  induction l with
  | nil => rintro _ ⟨a, ha, _⟩; simp at ha
  | cons x l ih =>
    intro h he
    rw [List.mapM_cons]
    rcases h x List.mem_cons_self with ⟨b, hb⟩ | ⟨e, hb, hp⟩
    · rw [hb, ok_bind]
      obtain ⟨e, h1, h2⟩ := ih (fun a ha => h a (List.mem_cons_of_mem _ ha)) (by
        obtain ⟨a, ha, e, hae⟩ := he
        rcases List.mem_cons.mp ha with rfl | ha
        · rw [hb] at hae; cases hae
        · exact ⟨a, ha, e, hae⟩)
      rw [h1]
      exact ⟨e, rfl, h2⟩
    · rw [hb]; exact ⟨e, rfl, hp⟩

theorem constructFromRuleset_cases (F : PyFloat) (rs : Ruleset) :
    ((∀ r ∈ rs.rules, ∀ c ∈ r.conds, Digestible F c.val) → constructFromRuleset F rs = .ok ()) ∧
    (¬ (∀ r ∈ rs.rules, ∀ c ∈ r.conds, Digestible F c.val) →
      ∃ e, constructFromRuleset F rs = .error e ∧ (e = .attributeError ∨ e = .unboundLocal ∨ e = .valueError)) := by
  obtain ⟨hsub, hrep, _⟩ := C56_get_conds rs
  constructor
  · intro h
    have hall : ∀ c ∈ rs.getConds, ∃ r, condRange F c = .ok r ∧ ∀ fc, r = some fc → F.parse fc.1 ≠ none := by
      intro c hc
      obtain ⟨r, hr, hcr⟩ := hsub c hc
      exact (condRange_cases F c).1 (h r hr c hcr)
    obtain ⟨ranges, hm, hmem⟩ := mapM_total (f := condRange F) (l := rs.getConds)
      (fun c hc => ⟨_, (hall c hc).choose_spec.1⟩)
    unfold constructFromRuleset
    rw [hm, ok_bind, if_neg]
    · rfl
    · rw [List.any_eq_true]
      rintro ⟨r, hr, hbad⟩
      obtain ⟨c, hc, hcr⟩ := hmem r hr
      obtain ⟨r', h1, h2⟩ := hall c hc
      rw [hcr] at h1
      injection h1 with h1
      subst h1
      cases r with
      | none => simp at hbad
      | some fc =>
        simp only [Option.isNone_iff_eq_none] at hbad
        exact h2 fc rfl hbad
  · intro h
    push Not at h
    obtain ⟨r, hr, c, hc, hnd⟩ := h
    obtain ⟨d, hd, hdn⟩ : ∃ d ∈ rs.getConds, ¬ Digestible F d.val := by
      rcases hrep r hr c hc with h | ⟨d, hd, heq⟩
      · exact ⟨c, h, hnd⟩
      · refine ⟨d, hd, ?_⟩
        simp only [Cond.pyEq, Bool.and_eq_true] at heq
        rintro ⟨s, hs, h'⟩
        rw [hs] at heq
        cases hv : c.val with
        | str t =>
          rw [hv] at heq
          simp only [Val.pyEq, beq_iff_eq] at heq
          rw [heq.2] at h'
          exact hnd ⟨t, hv, h'⟩
        | num => rw [hv] at heq; simp [Val.pyEq] at heq
        | nan => rw [hv] at heq; simp [Val.pyEq] at heq
    unfold constructFromRuleset
    by_cases herr : ∃ a ∈ rs.getConds, ∃ e, condRange F a = .error e
    · obtain ⟨e, h1, h2⟩ := mapM_fails (f := condRange F) (p := fun e => e = .attributeError ∨ e = .unboundLocal)
        (l := rs.getConds) (by
          intro a _
          by_cases hda : Digestible F a.val
          · obtain ⟨r, hr, _⟩ := (condRange_cases F a).1 hda; exact Or.inl ⟨r, hr⟩
          · rcases (condRange_cases F a).2 hda with ⟨e, he, hp⟩ | ⟨fc, hfc, _⟩
            · exact Or.inr ⟨e, he, hp⟩
            · exact Or.inl ⟨_, hfc⟩) herr
      rw [h1]
      exact ⟨e, rfl, by tauto⟩
    · have hok : ∀ a ∈ rs.getConds, ∃ b, condRange F a = .ok b := by
        intro a ha
        cases h : condRange F a with
        | ok b => exact ⟨b, rfl⟩
        | error e => exact absurd ⟨a, ha, e, h⟩ herr
      obtain ⟨ranges, hm, _⟩ := mapM_total hok
      rw [hm, ok_bind, if_pos]
      · exact ⟨_, rfl, Or.inr (Or.inr rfl)⟩
      · rcases (condRange_cases F d).2 hdn with ⟨e, he, _⟩ | ⟨fc, hfc, hnone⟩
        · exact absurd ⟨d, hd, e, he⟩ herr
        · obtain ⟨i, hi⟩ := List.mem_iff_getElem?.mp hd
          obtain ⟨b, hb, hbi⟩ := (mapM_get hm).2 i d hi
          rw [hfc] at hb
          injection hb with hb
          subst hb
          rw [List.any_eq_true]
          exact ⟨_, List.mem_of_getElem? hbi, by simp [hnone]⟩

/-- C54. A model given by init_ruleset to a new classifier, on non-empty data that has all its features:
the first predict answers exactly if every condition's value is a text that is either `x - y` with a readable
number x, or has at most one dash beyond its first character; otherwise it raises AttributeError (a value
that is not text), UnboundLocalError or ValueError. -/
theorem C54_init_model_predict (F : PyFloat) (rs : Ruleset) (hne : rs.rules ≠ []) (cf : Feat) (pc : Val) (X : TFrame)
    (hX : X.rows ≠ []) (hfeat : ∀ f, Tested rs f → f ∈ X.cols ∧ f ≠ cf) :
    ((∀ r ∈ rs.rules, ∀ c ∈ r.conds, Digestible F c.val) →
      ∃ ps, returned (Clf.predict F X none (after (Clf.initRuleset (.ruleset rs) cf pc {}))) = .ok ps ∧ ps.length = X.rows.length) ∧
    (¬ (∀ r ∈ rs.rules, ∀ c ∈ r.conds, Digestible F c.val) →
      ∃ e, returned (Clf.predict F X none (after (Clf.initRuleset (.ruleset rs) cf pc {}))) = .error e ∧
        (e = .attributeError ∨ e = .unboundLocal ∨ e = .valueError)) := by
  have h0 : after (Clf.initRuleset (.ruleset rs) cf pc {}) = { ruleset := some rs, classFeat := some cf, posClass := some pc, selected := some rs.selectedFeatures, trainFeats := some rs.selectedFeatures } := by
    unfold Clf.initRuleset
    rw [bind_ok (a := rs) (c' := {}) (by simp [ModelArg.toRuleset, hne])]
    rfl
  rw [h0, predict_eq_query, query_none (rs := rs) rfl rfl]
  constructor
  · intro h
    rw [(constructFromRuleset_cases F rs).1 h]
    simp only [returned_outcome]
    rw [answer_ready (rs := rs) (cf := cf) (b := {}) (sel := rs.selectedFeatures)
      ⟨rfl, rfl, ⟨_, rfl⟩, rfl, rfl, ⟨_, rfl⟩⟩, preprocessPrediction_none hX]
    · have : applyBins F {} (X.dropCol cf) = .ok (X.dropCol cf) := rfl
      rw [this, ok_bind, Ruleset.predict_ok]
      · exact ⟨_, rfl, by simp [TFrame.dropCol, Frame.dropCol]⟩
      · right
        rw [tested_iff]
        exact fun f hf => dropCol_cols.mpr (hfeat f hf)
    · exact fun f hf => hfeat f ((mem_selected rs f).mp hf)
  · intro h
    obtain ⟨e, he, hp⟩ := (constructFromRuleset_cases F rs).2 h
    rw [he]
    exact ⟨e, rfl, hp⟩

instance {F : PyFloat} {s : PStr} : Decidable (∃ a b, splitSub p!" - " s = [a, b] ∧ F.parse a ≠ none) :=
  match h : splitSub p!" - " s with
  | [a, b] => if hp : F.parse a ≠ none then isTrue ⟨a, b, rfl, hp⟩ else isFalse (by
      rintro ⟨a', b', h1, h2⟩; injection h1 with h1; subst h1; exact hp h2)
  | [] => isFalse (by rintro ⟨_, _, h, _⟩; cases h)
  | [_] => isFalse (by rintro ⟨_, _, h, _⟩; cases h)
  | _ :: _ :: _ :: _ => isFalse (by rintro ⟨_, _, h, _⟩; cases h)

example : Demo.rs.rules ≠ [] ∧ (∀ r ∈ Demo.rs.rules, ∀ c ∈ r.conds, Digestible Demo.F c.val) ∧
    ¬ Digestible Demo.F (.str p!"2020-01-31") ∧ ¬ Digestible Demo.F (.str p!"left - right") ∧
    ¬ Digestible Demo.F (.num 3 p!"3") ∧ Digestible Demo.F (.str p!"1.5-3") := by
  have key : ∀ s, ((∃ a b, splitSub p!" - " s = [a, b] ∧ Demo.F.parse a ≠ none) ∨
      ((splitSub p!" - " s).length ≠ 2 ∧ (s.drop 1).count '-' ≤ 1)) ↔ Digestible Demo.F (.str s) :=
    fun s => ⟨fun h => ⟨s, rfl, h⟩, fun ⟨s', h, h'⟩ => by injection h with h; subst h; exact h'⟩
  refine ⟨by decide, ?_, ?_, ?_, ?_, ?_⟩
  · intro r hr c hc
    have hv : c.val = Demo.vx := by
      simp only [Demo.rs, List.mem_cons, List.not_mem_nil, or_false] at hr
      rcases hr with rfl | rfl <;> simp only [Demo.rx, Demo.rb, List.mem_cons, List.not_mem_nil, or_false] at hc <;> subst hc <;> rfl
    rw [hv]
    exact (key _).mp (by decide)
  · rw [← key]; decide
  · rw [← key]; decide
  · rintro ⟨s, h, _⟩; cases h
  · exact (key _).mp (by decide)

/-- C54: the range conditions of an init_ruleset model never match raw numbers. If every rule has a condition
with a text value (such as the range `1-5`) on a column of X that holds numbers, the answer, if there is one,
is False on every row. -/
theorem C54_refuted_ranges_never_match (F : PyFloat) (rs : Ruleset) (hne : rs.rules ≠ []) (cf : Feat) (pc : Val) (X : TFrame)
    (hnum : ∀ r ∈ rs.rules, ∃ c ∈ r.conds, IsText c.val ∧ ∀ row ∈ X.rows, ¬ IsText (row.cell c.feature))
    (ps : List Bool) (h : returned (Clf.predict F X none (after (Clf.initRuleset (.ruleset rs) cf pc {}))) = .ok ps) :
    ∀ p ∈ ps, p = false := by
  have h0 : after (Clf.initRuleset (.ruleset rs) cf pc {}) = { ruleset := some rs, classFeat := some cf, posClass := some pc, selected := some rs.selectedFeatures, trainFeats := some rs.selectedFeatures } := by
    unfold Clf.initRuleset
    rw [bind_ok (a := rs) (c' := {}) (by simp [ModelArg.toRuleset, hne])]
    rfl
  rw [h0, predict_eq_query, query_none (rs := rs) rfl rfl] at h
  cases hcon : constructFromRuleset F rs with
  | error e => rw [hcon] at h; cases h
  | ok u =>
    rw [hcon] at h
    simp only [returned_outcome] at h
    rw [answer_ready (rs := rs) (cf := cf) (b := {}) (sel := rs.selectedFeatures)
      ⟨rfl, rfl, ⟨_, rfl⟩, rfl, rfl, ⟨_, rfl⟩⟩] at h
    obtain ⟨X', hX', h⟩ := bind_ok_iff.mp h
    have hX0 : X.rows ≠ [] := by
      intro h0; unfold preprocessPrediction at hX'; rw [if_pos h0] at hX'; cases hX'
    have hs : ∀ f ∈ rs.selectedFeatures, f ∈ X.cols ∧ f ≠ cf := by
      intro f hf
      by_contra hn
      rw [preprocessPrediction_missing hX0 ⟨f, hf, hn⟩] at hX'
      cases hX'
    rw [preprocessPrediction_none hX0 hs] at hX'
    have : applyBins F {} (X.dropCol cf) = .ok (X.dropCol cf) := rfl
    rw [this] at hX'
    injection hX' with hX'
    subst hX'
    rw [Ruleset.predict_ok] at h
    · injection h with h
      subst h
      intro p hp
      obtain ⟨row, hrow, rfl⟩ := List.mem_map.mp hp
      rw [Bool.eq_false_iff]
      intro hany
      obtain ⟨row', hrow', hm⟩ := List.any_eq_true.mp hany
      simp only [Bool.and_eq_true] at hm
      obtain ⟨r, hr, hfire⟩ := rulesMet_iff.mp hm.2
      obtain ⟨c, hc, ⟨s, hs⟩, hno⟩ := hnum r hr
      have := hfire c hc
      rw [Meets, hs] at this
      rcases this with ⟨t, h1, _⟩ | ⟨q, t, u, _, h2⟩
      · exact hno row' hrow' ⟨t, h1⟩
      · cases h2
    · right
      rw [tested_iff]
      exact fun f hf => dropCol_cols.mpr (hs f ((mem_selected rs f).mpr hf))

namespace Demo
/-- A model with the single range condition `a=1-5`. -/
def ranged : Ruleset := { rules := [{ conds := [⟨fa, .str p!"1-5"⟩] }] }
end Demo

example : (∀ r ∈ Demo.ranged.rules, ∃ c ∈ r.conds, IsText c.val ∧ ∀ row ∈ Demo.fresh.rows, ¬ IsText (row.cell c.feature)) ∧
    returned (Clf.predict Demo.F Demo.skewed none (after (Clf.initRuleset (.ruleset Demo.ranged) (.name p!"c") (.str p!"p") {}))) =
      .ok (List.replicate 9 false) := by
  constructor
  · intro r hr
    simp only [Demo.ranged, List.mem_cons, List.not_mem_nil, or_false] at hr
    subst hr
    refine ⟨_, List.mem_cons_self, ⟨_, rfl⟩, ?_⟩
    intro row hrow
    simp only [Demo.fresh, Frame.ofTable, List.map_cons, List.map_nil, List.mem_cons, List.not_mem_nil, or_false] at hrow
    rcases hrow with rfl | rfl <;> exact not_text_num _ _
  · decide +kernel

/-! ### C65: labels given separately -/

theorem setCol_spec (X : TFrame) (cf : Feat) (vs : List Val) (hlen : vs.length = X.rows.length) :
    column (X.setCol cf vs) cf = vs ∧ (X.setCol cf vs).index = X.index ∧ cf ∈ (X.setCol cf vs).cols ∧
      (∀ f, f ∈ (X.setCol cf vs).cols ↔ f ∈ X.cols ∨ f = cf) ∧
      (∀ f, f ≠ cf → column (X.setCol cf vs) f = column X f) := by
  have hz : ∀ {β : Type} (g : Row → β), ((X.rows.zip vs).map (fun rv => g rv.1)) = X.rows.map g := by
    intro β g
    rw [show (fun rv : Row × Val => g rv.1) = g ∘ Prod.fst from rfl, ← List.map_map, List.map_fst_zip (by omega)]
  have hcols : ∀ f, f ∈ (X.setCol cf vs).cols ↔ f ∈ X.cols ∨ f = cf := by
    intro f
    unfold TFrame.setCol
    dsimp only
    split
    · rename_i h
      constructor
      · exact Or.inl
      · rintro (h' | rfl)
        · exact h'
        · simpa using h
    · simp
  refine ⟨?_, ?_, (hcols cf).mpr (Or.inr rfl), hcols, ?_⟩
  · unfold column TFrame.setCol
    rw [List.map_map]
    simp only [Function.comp_def, if_true]
    rw [show (fun rv : Row × Val => rv.2) = Prod.snd from rfl, List.map_snd_zip (by omega)]
  · unfold Frame.index TFrame.setCol
    rw [List.map_map]
    exact hz Row.label
  · intro f hf
    unfold column TFrame.setCol
    rw [List.map_map]
    simp only [Function.comp_def, hf, if_false]
    exact hz (fun row => row.cell f)

/-- C65. Labels given as a list or array: one per row, in row order, or else a ValueError; nothing else of
the data changes. -/
theorem C65_list_labels (X : TFrame) (cf : Feat) (vs : List Val) :
    (vs.length ≠ X.rows.length → toTraining X (some (.list vs)) cf none = .error .valueError) ∧
    (vs.length = X.rows.length → ∃ df, toTraining X (some (.list vs)) cf none = .ok df ∧ column df cf = vs ∧
      df.index = X.index ∧ (∀ f, f ∈ df.cols ↔ f ∈ X.cols ∨ f = cf) ∧ ∀ f, f ≠ cf → column df f = column X f) := by
  have h0 : toTraining X (some (.list vs)) cf none = attachY X cf (.list vs) := rfl
  rw [h0]
  constructor
  · intro h; unfold attachY; dsimp only; rw [if_pos h]
  · intro h
    unfold attachY
    dsimp only
    rw [if_neg (by simpa using h)]
    obtain ⟨h1, h2, _, h4, h5⟩ := setCol_spec X cf vs h
    exact ⟨_, rfl, h1, h2, h4, h5⟩

/-- C65. Labels given as a pandas Series of the right length: matched to the rows by position, whatever the
row labels of the two; the resulting data carries the Series' row labels. -/
theorem C65_series_by_position (X : TFrame) (cf name : Feat) (lvs : List (Label × Val)) (h : lvs.length = X.rows.length) :
    ∃ df, toTraining X (some (.series name lvs)) cf none = .ok df ∧ column df cf = lvs.map Prod.snd ∧
      df.index = lvs.map Prod.fst ∧ (∀ f, f ∈ df.cols ↔ f ∈ X.cols ∨ f = cf) ∧
      ∀ f, f ≠ cf → column df f = column X f := by
  have h0 : toTraining X (some (.series name lvs)) cf none = attachY X cf (.series name lvs) := rfl
  rw [h0]
  unfold attachY
  dsimp only
  rw [if_pos h]
  have hlen : (lvs.map Prod.snd).length =
      ({ X with rows := (X.rows.zip lvs).map (fun rl => { rl.1 with label := rl.2.1 }) } : TFrame).rows.length := by
    simp [h]
  obtain ⟨h1, h2, _, h4, h5⟩ := setCol_spec _ cf (lvs.map Prod.snd) hlen
  refine ⟨_, rfl, h1, ?_, h4, fun f hf => ?_⟩
  · rw [h2]
    unfold Frame.index
    rw [List.map_map]
    have : (Row.label ∘ fun rl : Row × (Label × Val) => ({ rl.1 with label := rl.2.1 } : Row)) = Prod.fst ∘ Prod.snd := rfl
    rw [this, ← List.map_map, List.map_snd_zip (by omega)]
  · rw [h5 f hf]
    unfold column
    rw [List.map_map]
    have : ((fun row : Row => row.cell f) ∘ fun rl : Row × (Label × Val) => ({ rl.1 with label := rl.2.1 } : Row)) =
        (fun row : Row => row.cell f) ∘ Prod.fst := rfl
    rw [this, ← List.map_map, List.map_fst_zip (by omega)]

/-- C65 fails for a Series of the WRONG length: it is not rejected (unless it has repeated row labels) but
matched by row label, and rows without a label are given a missing class. -/
theorem C65_refuted_series_wrong_length (X : TFrame) (cf name : Feat) (lvs : List (Label × Val))
    (h : lvs.length ≠ X.rows.length) (hn : (lvs.map Prod.fst).Nodup) :
    ∃ df, toTraining X (some (.series name lvs)) cf none = .ok df ∧ df.index = X.index ∧
      column df cf = X.index.map (fun l => (lvs.lookup l).getD .nan) := by
  have h0 : toTraining X (some (.series name lvs)) cf none = attachY X cf (.series name lvs) := rfl
  rw [h0]
  unfold attachY
  dsimp only
  rw [if_neg h, if_neg (by simpa using hn)]
  obtain ⟨h1, h2, _⟩ := setCol_spec X cf (X.rows.map (fun row => (lvs.lookup row.label).getD .nan)) (by simp)
  refine ⟨_, rfl, h2, ?_⟩
  rw [h1]
  simp [Frame.index]

example : [((5 : Label), Demo.vx)].length ≠ Demo.tdf.rows.length ∧ ([((5 : Label), Demo.vx)].map Prod.fst).Nodup := by decide

end Witt
