import Verif.Props.Inputs
import Verif.Props.PlainApi
/-
C76, completed: exactly when `fit` raises, whether or not the positive class is named, for IREP with either `cn_optimize` and for
RIPPER.
-/
namespace Witt
open Spec

namespace Spec
/-- The class labels, one for each row of the data: those passed as `y` (a Series of another length than the data is aligned by
row label, with missing labels where it has none), or the values in the class column of the data. -/
def givenLabels (d : FitData) : List Val :=
  match d.y with
  | some (.list vs) => vs
  | some (.series _ lvs) =>
    if lvs.length = d.X.rows.length then lvs.map Prod.snd
    else d.X.rows.map fun row => (lvs.lookup row.label).getD .nan
  | none => d.X.rows.map fun row =>
    match d.classFeat, d.names with
    | none, _ => .nan
    | some cf, none => row.cell cf
    | some cf, some ns => (((ns.zip d.X.cols).lookup cf).map row.cell).getD .nan

/-- The row labels of the training data: those of a Series `y` as long as the data, else those of the data. -/
def givenIndex (d : FitData) : List Label :=
  match d.y with
  | some (.series _ lvs) => if lvs.length = d.X.rows.length then lvs.map Prod.fst else d.X.index
  | _ => d.X.index

/-- Every label is 0/False or 1/True. -/
def ZeroOneLabels (ls : List Val) : Prop := ∀ l ∈ ls, IsZero l ∨ IsOne l
/-- All labels are alike. -/
def AllAlike (ls : List Val) : Prop := ∀ l ∈ ls, ∀ l' ∈ ls, SameLabel l l'
/-- There are exactly two classes, one text and the other not. -/
def TextAndOther (ls : List Val) : Prop :=
  ∃ a ∈ ls, ∃ b ∈ ls, IsText a ∧ ¬ IsText b ∧ ∀ l ∈ ls, SameLabel l a ∨ SameLabel l b

/-- What `fit` objects to, and the exception it raises: the data (`Complaint`), or, if it is not told the positive class, that
this cannot be inferred from the labels. -/
inductive FitComplaint (d : FitData) : PyErr → Prop
  | data (e : PyErr) (h : Complaint d e) : FitComplaint d e
  | mixedClasses (h : ∀ e, ¬ Complaint d e) (hp : d.posClass = none) (hm : TextAndOther (givenLabels d)) : FitComplaint d .typeError
  | unknownClass (h : ∀ e, ¬ Complaint d e) (hp : d.posClass = none) (hz : ¬ ZeroOneLabels (givenLabels d))
      (hs : ¬ AllAlike (givenLabels d)) (hm : ¬ TextAndOther (givenLabels d)) : FitComplaint d .nameError

/-- The positive class `fit` uses: the one named; else 1 for labels 0 and 1; else the label all rows have. -/
def PositiveClass (d : FitData) (pc : Val) : Prop :=
  d.posClass = some pc ∨
    (d.posClass = none ∧ ((ZeroOneLabels (givenLabels d) ∧ IsOne pc) ∨
      (¬ ZeroOneLabels (givenLabels d) ∧ pc ∈ givenLabels d ∧ ∀ l ∈ givenLabels d, SameLabel l pc)))
end Spec

theorem setCol_column (df : TFrame) (f : Feat) (vs : List Val) (h : df.rows.length = vs.length) :
    (df.setCol f vs).rows.map (fun row : Row => row.cell f) = vs := by
  unfold TFrame.setCol
  simp only [List.map_map, Function.comp_def, if_true]
  exact (zip_map_snd (fun v : Val => v) df.rows vs h).trans (by simp)

/-- The class column and the row labels of the training frame. -/
theorem toTraining_given {d : FitData} {df0 : TFrame} (hl : LabelsLocated d)
    (h : toTraining d.X d.y (classFeatName d.classFeat d.y) d.names = .ok df0) :
    df0.rows.map (fun row : Row => row.cell (classFeatName d.classFeat d.y)) = givenLabels d ∧ df0.index = givenIndex d := by
  unfold toTraining at h
  obtain ⟨X1, h1, h⟩ := bind_ok_iff.mp h
  have hX1 : X1.rows.length = d.X.rows.length ∧ X1.index = d.X.index ∧
      (∀ ns, d.names = some ns → X1.rows = d.X.rows.map fun row =>
        { row with cell := fun f => ((oldName ns d.X.cols f).map row.cell).getD .nan }) ∧
      (d.names = none → X1 = d.X) := by
    rcases hn : d.names with _ | ns
    · rw [hn] at h1; cases h1; exact ⟨rfl, rfl, fun _ h => (by cases h), fun _ => rfl⟩
    · rw [hn] at h1
      simp only [TFrame.rename] at h1
      split at h1
      · cases h1
      · cases h1
        exact ⟨by simp, by simp [Frame.index, Function.comp_def], fun ns' h => (by cases h; rfl), fun h => (by cases h)⟩
  obtain ⟨h2, h3, h4, h5⟩ := hX1
  rcases hy : d.y with _ | (vs | ⟨name, lvs⟩)
  · rw [hy] at h
    cases h
    have hcf : ∃ cf, d.classFeat = some cf ∧ cf ∈ d.names.getD d.X.cols := (hl.2.1).resolve_left (by simp [hy])
    obtain ⟨cf, hcf, hm⟩ := hcf
    refine ⟨?_, by simp only [givenIndex, hy]; exact h3⟩
    simp only [givenLabels, hy, hcf, classFeatName]
    rcases hn : d.names with _ | ns
    · rw [h5 hn]
    · rw [h4 ns hn, List.map_map]
      rfl
  · rw [hy] at h
    simp only [attachY] at h
    split at h
    · cases h
    · rename_i hlen
      rw [ne_eq, not_not] at hlen
      cases h
      exact ⟨by rw [setCol_column _ _ _ hlen.symm]; simp only [givenLabels, hy],
        by rw [setCol_index _ _ _ hlen.symm, h3]; simp only [givenIndex, hy]⟩
  · rw [hy] at h
    simp only [attachY] at h
    split at h
    · rename_i hlen
      cases h
      refine ⟨?_, ?_⟩
      · rw [setCol_column _ _ _ (by simp; omega)]
        simp only [givenLabels, hy]
        rw [if_pos (by omega)]
      · rw [setCol_index _ _ _ (by simp; omega)]
        simp only [givenIndex, hy]
        rw [if_pos (by omega)]
        simp only [Frame.index, List.map_map, Function.comp_def]
        exact zip_map_snd Prod.fst X1.rows lvs (by omega)
    · rename_i hlen
      split at h
      · cases h
      · cases h
        refine ⟨?_, ?_⟩
        · rw [setCol_column _ _ _ (by simp)]
          simp only [givenLabels, hy]
          rw [if_neg (by omega)]
          have := congrArg (List.map fun l => (lvs.lookup l).getD Val.nan) h3
          simpa only [Frame.index, List.map_map, Function.comp_def] using this
        · rw [setCol_index _ _ _ (by simp), h3]
          simp only [givenIndex, hy]
          rw [if_neg (by omega)]

/-- Class inference in terms of the labels given. -/
theorem posClass_given {d : FitData} {df0 : TFrame} (hno : ∀ e, ¬ Complaint d e)
    (h : toTraining d.X d.y (classFeatName d.classFeat d.y) d.names = .ok df0) :
    (∃ pc, posClassOf (df0.unique (classFeatName d.classFeat d.y)) d.posClass = .ok pc ∧ PositiveClass d pc) ∨
      ∃ e, posClassOf (df0.unique (classFeatName d.classFeat d.y)) d.posClass = .error e ∧ FitComplaint d e := by
  obtain ⟨hl, _⟩ := located_of_noComplaint hno
  obtain ⟨hcol, _⟩ := toTraining_given hl h
  have hne : df0.rows ≠ [] := by
    intro he
    have := (toTraining_ok h).1
    rw [he] at this
    exact hl.1 (List.eq_nil_of_length_eq_zero this.symm)
  generalize hcfn : classFeatName d.classFeat d.y = cf at *
  obtain ⟨c1, c2, c3, c4, _⟩ := C53_class_inference df0.toFrame cf hne
  have hall : ∀ Q : Val → Prop, (∀ l ∈ givenLabels d, Q l) ↔ ∀ row ∈ df0.rows, Q (row.cell cf) := by
    intro Q; rw [← hcol]; simp
  have hex : ∀ Q : Val → Prop, (∃ l ∈ givenLabels d, Q l) ↔ ∃ row ∈ df0.rows, Q (row.cell cf) := by
    intro Q; rw [← hcol]; simp
  have hz : ZeroOneLabels (givenLabels d) ↔ ∀ row ∈ df0.rows, IsZero (row.cell cf) ∨ IsOne (row.cell cf) := hall _
  have hs : AllAlike (givenLabels d) ↔ ∀ row ∈ df0.rows, ∀ row' ∈ df0.rows, SameLabel (row.cell cf) (row'.cell cf) := by
    unfold AllAlike
    rw [hall]
    exact forall_congr' fun row => forall_congr' fun _ => hall _
  have hm : TextAndOther (givenLabels d) ↔ ∃ a ∈ df0.rows, ∃ b ∈ df0.rows, IsText (a.cell cf) ∧ ¬ IsText (b.cell cf) ∧
      ∀ row ∈ df0.rows, SameLabel (row.cell cf) (a.cell cf) ∨ SameLabel (row.cell cf) (b.cell cf) := by
    unfold TextAndOther
    rw [hex]
    refine exists_congr fun a => and_congr_right fun _ => ?_
    rw [hex]
    refine exists_congr fun b => and_congr_right fun _ => and_congr_right fun _ => and_congr_right fun _ => hall _
  rcases hp : d.posClass with _ | pc
  · by_cases h01 : ZeroOneLabels (givenLabels d)
    · obtain ⟨v, hv, h1⟩ := c1 (hz.mp h01)
      exact Or.inl ⟨v, hv, Or.inr ⟨hp, Or.inl ⟨h01, h1⟩⟩⟩
    · by_cases hal : AllAlike (givenLabels d)
      · have hnz : ∀ row ∈ df0.rows, ¬ IsZero (row.cell cf) := by
          rintro row hr ⟨t, h0⟩
          apply h01
          rw [hz]
          intro row' hr'
          left
          rcases hs.mp hal row hr row' hr' with (⟨s, h, _⟩ | ⟨q, t', u, h, h'⟩) | ⟨h, _⟩
          · rw [h0] at h; cases h
          · rw [h0] at h; cases h; exact ⟨u, h'⟩
          · rw [h0] at h; cases h
        obtain ⟨row, hr, hv⟩ := c2 (hs.mp hal) hnz
        have hmem : row.cell cf ∈ givenLabels d := hcol ▸ List.mem_map_of_mem hr
        exact Or.inl ⟨_, hv, Or.inr ⟨hp, Or.inr ⟨h01, hmem, fun l hl' => hal l hl' _ hmem⟩⟩⟩
      · by_cases hmx : TextAndOther (givenLabels d)
        · exact Or.inr ⟨_, c3 (hm.mp hmx), .mixedClasses hno hp hmx⟩
        · exact Or.inr ⟨_, c4 (fun h => h01 (hz.mpr h)) (fun h => hal (hs.mpr h)) (fun h => hmx (hm.mpr h)),
            .unknownClass hno hp h01 hal hmx⟩
  · exact Or.inl ⟨pc, rfl, Or.inl hp⟩

/-- Preprocessing raises exactly what is listed. -/
theorem preprocess_given {F : PyFloat} (hF : F.Lawful) {P : PandasCut} (hP : P.Lawful F) (n : Option Nat) (d : FitData) :
    (∃ e, preprocessTraining F P n d = .error e ∧ FitComplaint d e) ∨
      ∃ df pc b, preprocessTraining F P n d = .ok (df, classFeatName d.classFeat d.y, pc, b) ∧ PositiveClass d pc ∧
        df.index = givenIndex d := by
  by_cases hno : ∀ e, ¬ Complaint d e
  · obtain ⟨h1, _, df0, h2⟩ := located_of_noComplaint hno
    rcases posClass_given hno h2 with ⟨pc, hpc, hP'⟩ | ⟨e, he, hc⟩
    · obtain ⟨X', hX'⟩ := fit_transform_total hF hP (n := n) (not_badText_fit (F := F) (P := P) (df := df0)
          (ignore := [classFeatName d.classFeat d.y]))
      have hpre : preprocessTraining F P n d = .ok (X', classFeatName d.classFeat d.y, pc,
          Binner.fit F P n df0 [classFeatName d.classFeat d.y]) := by
        unfold preprocessTraining
        simp only [checkInput_located.mpr h1, ok_bind, h2, hpc, Binner.fitTransform, hX', pure_eq_ok]
      refine Or.inr ⟨X', pc, _, hpre, hP', ?_⟩
      obtain ⟨_, _, df1, h4, _, _, _, _, _, _, h5, _⟩ := preprocessTraining_ok hpre
      rw [h2] at h4; injection h4 with h4
      rw [h5, ← h4]
      exact (toTraining_given h1 h2).2
    · refine Or.inl ⟨e, ?_, hc⟩
      unfold preprocessTraining
      simp only [checkInput_located.mpr h1, ok_bind, h2, he]
      rfl
  · push Not at hno
    obtain ⟨e, he⟩ := hno
    exact Or.inl ⟨e, complaint_raises he F P n, .data e he⟩

/-- If training itself never raises, `fit` raises exactly what is listed. -/
theorem fit_raises_given [Arith] (a : Method) (R : PyRandom) {F : PyFloat} (hF : F.Lawful) {P : PandasCut} (hP : P.Lawful F)
    (d : FitData) (c : Clf) (fuel : Nat) (g : R.G)
    (htrain : ∀ (df : TFrame) pc b, preprocessTraining F P c.nBins d = .ok (df, classFeatName d.classFeat d.y, pc, b) →
      df.index = givenIndex d →
      ∃ m g', a.train fuel R c.hyper none [] df.toFrame (classFeatName d.classFeat d.y) pc g = .ok (m, g')) :
    (∀ e, returned (a.fit fuel R F P d .nothing g c) = .error e ↔ FitComplaint d e) ∧
    ((∀ e, ¬ FitComplaint d e) → ∃ g' c' cf pc, a.fit fuel R F P d .nothing g c = .ok g' c' ∧
      c'.classFeat = some cf ∧ ClassName d cf ∧ c'.posClass = some pc ∧ PositiveClass d pc) := by
  have hearly : ∃ rs, a.early .nothing = .ok rs := Method.early_of (init := .nothing) rfl
  obtain ⟨rs, hearly⟩ := hearly
  have hcomp := Method.fit_completed a fuel R F P d .nothing g c
  rw [hearly, ok_bind] at hcomp
  have hok : ∀ df pc b, preprocessTraining F P c.nBins d = .ok (df, classFeatName d.classFeat d.y, pc, b) →
      df.index = givenIndex d → PositiveClass d pc → ∃ g' c' cf pc, a.fit fuel R F P d .nothing g c = .ok g' c' ∧
      c'.classFeat = some cf ∧ ClassName d cf ∧ c'.posClass = some pc ∧ PositiveClass d pc := by
    intro df pc b hpre hi hpc
    obtain ⟨m, g', hm⟩ := htrain df pc b hpre hi
    refine ⟨g', c.fitted m b (classFeatName d.classFeat d.y) pc, _, pc, completed_ok ?_, rfl, className_classFeatName d, rfl, hpc⟩
    simp only [ModelArg.toRuleset, hpre, ok_bind, List.map_nil, hm, pure_eq_ok] at hcomp
    exact hcomp
  have herr : ∀ e, preprocessTraining F P c.nBins d = .error e → returned (a.fit fuel R F P d .nothing g c) = .error e := by
    intro e he
    rw [he] at hcomp
    cases hf : a.fit fuel R F P d .nothing g c with
    | ok g' c' => rw [hf] at hcomp; cases hcomp
    | error e' c' => rw [hf] at hcomp; cases hcomp; rfl
  have hkey : ∀ e, FitComplaint d e → preprocessTraining F P c.nBins d = .error e := by
    intro e he
    cases he with
    | data _ h => exact complaint_raises h F P _
    | mixedClasses hno hp hm =>
      rcases preprocess_given hF hP c.nBins d with ⟨e', he', hc⟩ | ⟨df, pc, b, hpre, hpc, _⟩
      · cases hc with
        | data _ h => exact absurd h (hno _)
        | mixedClasses => exact he'
        | unknownClass _ _ _ _ h => exact absurd hm h
      · exfalso
        rcases hpc with h | ⟨_, ⟨h, _⟩ | ⟨_, hmem, h⟩⟩
        · rw [hp] at h; cases h
        · obtain ⟨x, hx, _, _, ⟨t, ht⟩, _⟩ := hm
          rcases h x hx with ⟨q, hq⟩ | ⟨q, hq⟩ <;> rw [ht] at hq <;> cases hq
        · obtain ⟨x, hx, y, hy, ⟨t, ht⟩, hnt, _⟩ := hm
          exact hnt (isText_congr (sameLabel_trans (h x hx) (sameLabel_symm (h y hy))) ⟨t, ht⟩)
    | unknownClass hno hp hz hs hm =>
      rcases preprocess_given hF hP c.nBins d with ⟨e', he', hc⟩ | ⟨df, pc, b, hpre, hpc, _⟩
      · cases hc with
        | data _ h => exact absurd h (hno _)
        | mixedClasses _ _ h => exact absurd h hm
        | unknownClass => exact he'
      · exfalso
        rcases hpc with h | ⟨_, ⟨h, _⟩ | ⟨_, hmem, h⟩⟩
        · rw [hp] at h; cases h
        · exact hz h
        · refine hs fun x hx y hy => ?_
          exact sameLabel_trans (h x hx) (sameLabel_symm (h y hy))
  constructor
  · intro e
    refine ⟨fun h => ?_, fun h => herr e (hkey e h)⟩
    rcases preprocess_given hF hP c.nBins d with ⟨e', he', hc⟩ | ⟨df, pc, b, hpre, hpc, hi⟩
    · rw [herr e' he'] at h
      cases h
      exact hc
    · obtain ⟨g', c', cf, pc', hok', _⟩ := hok df pc b hpre hi hpc
      rw [hok'] at h
      cases h
  · intro hno
    rcases preprocess_given hF hP c.nBins d with ⟨e', he', hc⟩ | ⟨df, pc, b, hpre, hpc, hi⟩
    · exact absurd hc (hno _)
    · exact hok df pc b hpre hi hpc

/-- C76. For IREP, with either `cn_optimize` (`prune_size` None, 0 or leaving something to prune on (C35_prune_sizes), `alpha > 0`,
no initial model) the list is complete, whether or not the positive class is named: `fit` raises exactly the listed
exceptions, in exactly the listed cases, and otherwise returns, having set the class column and the positive class as documented. -/
theorem C76_irep_raises_iff [Arith] [Arith.Lawful] (R : PyRandom) (hR : R.Lawful) (F : PyFloat) (hF : F.Lawful) (P : PandasCut)
    (hP : P.Lawful F) (d : FitData) (c : Clf) (hl : c.hyper.irepPrune = 0 ∨ Arith.LeavesSome c.hyper.irepPrune)
    (ha : 0 < c.hyper.alpha) (fuel : Nat) (hfuel : d.X.rows.length < fuel) (g : R.G)
    (a : Method) (hm : a = .irep ∨ ∃ S, a = .irepPlain S) :
    (∀ e, returned (a.fit fuel R F P d .nothing g c) = .error e ↔ FitComplaint d e) ∧
    ((∀ e, ¬ FitComplaint d e) → ∃ g' c' cf pc, a.fit fuel R F P d .nothing g c = .ok g' c' ∧
      c'.classFeat = some cf ∧ ClassName d cf ∧ c'.posClass = some pc ∧ PositiveClass d pc) := by
  refine fit_raises_given a R hF hP d c fuel g fun df pc b hpre _ => ?_
  obtain ⟨hne, hcf⟩ := preprocessTraining_frame hpre
  have hlen := preprocessTraining_length hpre
  rcases hm with rfl | ⟨S, rfl⟩
  · exact C35_irep_never_raises R hR c.hyper hl ha [] df.toFrame _ pc hne hcf (by simp) fuel (by omega) g
  · exact C74_irep_plain_never_raises R hR S c.hyper hl ha none [] df.toFrame _ pc hne hcf (by simp) (by simp) fuel (by omega) g

/-- C76. The same for RIPPER (`cn_optimize=True`) on data with distinct row labels. -/
theorem C76_ripper_raises_iff [Arith] [Arith.Lawful] (R : PyRandom) (hR : R.Lawful) (F : PyFloat) (hF : F.Lawful) (P : PandasCut)
    (hP : P.Lawful F) (d : FitData) (hu : (givenIndex d).Nodup) (c : Clf) (ps : Rat) (hps : c.hyper.pruneSize = some ps)
    (hl : Arith.LeavesSome ps) (ha : 0 < c.hyper.alpha) (fuel : Nat) (hfuel : d.X.rows.length < fuel) (g : R.G) :
    (∀ e, returned (Clf.ripperFit fuel R F P d .nothing g c) = .error e ↔ FitComplaint d e) ∧
    ((∀ e, ¬ FitComplaint d e) → ∃ g' c' cf pc, Clf.ripperFit fuel R F P d .nothing g c = .ok g' c' ∧
      c'.classFeat = some cf ∧ ClassName d cf ∧ c'.posClass = some pc ∧ PositiveClass d pc) := by
  refine fit_raises_given .ripper R hF hP d c fuel g fun df pc b hpre hi => ?_
  obtain ⟨hne, hcf⟩ := preprocessTraining_frame hpre
  have hlen := preprocessTraining_length hpre
  exact C35_ripper_never_raises R hR c.hyper ps hps hl ha [] df.toFrame _ pc hne hcf
    (by unfold Frame.UniqueIndex; rw [hi]; exact hu) (by simp) fuel (by omega) g

/-! ### concrete cases -/

/-- Two text classes and no positive class named: NameError. -/
example : FitComplaint { Demo.mixedData with posClass := none } .nameError := by
  refine .unknownClass (fun e h => ?_) rfl (fun h => ?_) (fun h => ?_) (fun h => ?_)
  · cases h with
    | noRows h => exact absurd h (by decide)
    | noLabels _ h => cases h
    | noSuchColumn _ _ h => cases h
    | nameClash _ _ _ _ h => cases h
    | namesCount _ _ h => cases h
    | labelsCount vs _ _ h hl => cases h; exact absurd hl (by decide)
    | labelsAmbiguous _ _ _ _ h => cases h
  · rcases h Demo.vp (by simp [givenLabels, Demo.mixedData]) with ⟨t, h⟩ | ⟨t, h⟩ <;> cases h
  · rcases h Demo.vp (by simp [givenLabels, Demo.mixedData]) Demo.vn (by simp [givenLabels, Demo.mixedData]) with
      (⟨s, h, h'⟩ | ⟨_, _, _, h, _⟩) | ⟨h, _⟩
    · cases h; cases h'
    · cases h
    · cases h
  · obtain ⟨x, _, y, hy, _, hn, _⟩ := h
    apply hn
    simp only [givenLabels, Demo.mixedData, List.mem_cons, List.not_mem_nil, or_false] at hy
    rcases hy with rfl | rfl | rfl | rfl | rfl | rfl <;> exact ⟨_, rfl⟩

/-- The hypotheses of the theorems hold of concrete objects, and nothing is objected to in `mixedData`. -/
example : (givenIndex Demo.mixedData).Nodup ∧ Demo.newRipper.hyper.pruneSize = some (1 / 3) ∧ Arith.LeavesSome (1 / 3) ∧
    0 < Demo.newRipper.hyper.alpha ∧ Demo.newIrep.hyper.irepPrune = 0 ∧ Demo.mixedData.X.rows.length < 7 ∧
    ∀ e, ¬ FitComplaint Demo.mixedData e := by
  refine ⟨by decide +kernel, rfl, exact_leavesSome (by norm_num) (by norm_num), by decide +kernel, by decide +kernel,
    by decide +kernel, fun e he => ?_⟩
  obtain ⟨g', c', h⟩ := C35_irep_fit_on_valid_data Demo.R0 Demo.R0_lawful Demo.F Demo.F_lawful Demo.P Demo.P_lawful Demo.mixedData
    Demo.mixed_valid .nothing { rules := [] } rfl (by rintro f ⟨r, hr, _⟩; simp at hr) Demo.newIrep (Or.inl (by decide +kernel))
    (by decide +kernel) 7 (by decide +kernel) ()
  have := ((C76_irep_raises_iff Demo.R0 Demo.R0_lawful Demo.F Demo.F_lawful Demo.P Demo.P_lawful Demo.mixedData Demo.newIrep
    (Or.inl (by decide +kernel)) (by decide +kernel) 7 (by decide +kernel) () .irep (Or.inl rfl)).1 e).mpr he
  rw [show Method.irep.fit 7 Demo.R0 Demo.F Demo.P Demo.mixedData .nothing () Demo.newIrep = .ok g' c' from h] at this
  cases this

/-- Labels 0 and 1: the positive class is inferred. Text and numbers as labels: TypeError. -/
example : PositiveClass { Demo.mixedData with y := some (.list [.num 0 p!"0", .num 1 p!"1"]), posClass := none } (.num 1 p!"1") := by
  refine Or.inr ⟨rfl, Or.inl ⟨fun l hl => ?_, _, rfl⟩⟩
  simp only [givenLabels, List.mem_cons, List.not_mem_nil, or_false] at hl
  rcases hl with rfl | rfl
  · exact Or.inl ⟨_, rfl⟩
  · exact Or.inr ⟨_, rfl⟩

example : TextAndOther (givenLabels { Demo.mixedData with y := some (.list [Demo.vp, .num 1 p!"1"]), posClass := none }) := by
  refine ⟨Demo.vp, by simp [givenLabels], .num 1 p!"1", by simp [givenLabels], ⟨_, rfl⟩, fun ⟨_, h⟩ => (by cases h), fun l hl => ?_⟩
  simp only [givenLabels, List.mem_cons, List.not_mem_nil, or_false] at hl
  rcases hl with rfl | rfl
  · exact Or.inl (Or.inl (Or.inl ⟨_, rfl, rfl⟩))
  · exact Or.inr (Or.inl (Or.inr ⟨1, _, _, rfl, rfl⟩))

end Witt
