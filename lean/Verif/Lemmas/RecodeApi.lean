import Verif.Lemmas.RecodePlain
import Verif.Props.FitApi
/-
Renaming columns and recoding values: preprocessing and the methods of a classifier.
-/
namespace Witt
open Spec
variable {φ : Recoding}

namespace Spec
/-- The column of numbers has more different values than bins are wanted, and is not the class column. -/
def ManyNumbers (n : Option Nat) (X : TFrame) (cf f : Feat) : Prop :=
  f ∈ X.cols ∧ f ≠ cf ∧ X.kind f = .number ∧ ∃ k, n = some k ∧ 0 < k ∧ k < (X.unique f).length

/-- A recoding that can be applied to the arguments of `fit`, the class column being `cf`: columns that will be binned keep their values;
so do the class labels if they are given apart from the data or if the positive class is to be inferred; and the default name of the
class column stays if it is used. -/
structure Recoding.Fits (φ : Recoding) (n : Option Nat) (cf : Feat) (d : FitData) : Prop where
  cls : classFeatName d.classFeat d.y = cf
  names : d.names = none
  default : d.classFeat = none → (∀ n lvs, d.y ≠ some (.series n lvs)) → φ.feat (.name p!"Class") = .name p!"Class"
  labels : d.y.isSome = true ∨ d.posClass = none → ∀ v, φ.val cf v = v
  numbers : ∀ f, ManyNumbers n d.X cf f → ∀ v, φ.val f v = v
end Spec

/-- The data in the new names. -/
def TFrame.recode (φ : Recoding) (df : TFrame) : TFrame :=
  { df.toFrame.recode φ with kind := fun f => df.kind (φ.feat.symm f) }
/-- The bins in the new names. -/
def Binner.recode (φ : Recoding) (b : Binner) : Binner :=
  { bins := b.bins.map (fun p => (φ.feat p.1, p.2)), thresholds := b.thresholds.map (fun l => l.map (fun p => (φ.feat p.1, p.2))) }
/-- Class labels under the new name of the class column. -/
def YArg.renamed (φ : Recoding) : YArg → YArg
  | .list vs => .list vs
  | .series n lvs => .series (φ.feat n) lvs
/-- A classifier in the new names. -/
def Clf.recode (φ : Recoding) (c : Clf) : Clf :=
  { c with
    ruleset := c.ruleset.map (Ruleset.recode φ)
    binner := c.binner.map (Binner.recode φ)
    classFeat := c.classFeat.map φ.feat
    posClass := c.classFeat.elim c.posClass (fun cf => c.posClass.map (φ.val cf))
    selected := c.selected.map (List.map φ.feat)
    trainFeats := c.trainFeats.map (List.map φ.feat)
    classes := c.classFeat.elim c.classes (fun cf => c.classes.map (fun k => match k with
      | .codes => .codes
      | .named pc => .named (φ.val cf pc))) }
/-- An initial model in the new names (a text is left as it is). -/
def ModelArg.recode (φ : Recoding) : ModelArg → ModelArg
  | .nothing => .nothing
  | .ruleset rs => .ruleset (rs.recode φ)
  | .text s => .text s
  | .clf c => .clf (c.recode φ)
/-- The arguments of `fit` in the new names, the class column being `cf`. -/
def FitData.recode (φ : Recoding) (cf : Feat) (d : FitData) : FitData :=
  { X := d.X.recode φ, y := d.y.map (YArg.renamed φ), classFeat := d.classFeat.map φ.feat, posClass := d.posClass.map (φ.val cf),
    names := d.names }

theorem trows_nil_recode (df : TFrame) : (df.recode φ).rows = [] ↔ df.rows = [] := rows_nil_recode df.toFrame
theorem trows_length_recode (df : TFrame) : (df.recode φ).rows.length = df.rows.length := rows_length_recode df.toFrame
theorem tkind_recode (df : TFrame) (f : Feat) : (df.recode φ).kind (φ.feat f) = df.kind f := by simp [TFrame.recode]
theorem tunique_recode (df : TFrame) (f : Feat) : (df.recode φ).unique (φ.feat f) = (df.unique f).map (φ.val f) :=
  unique_recode df.toFrame f

theorem tdropCol_recode (df : TFrame) (x : Feat) : (df.recode φ).dropCol (φ.feat x) = (df.dropCol x).recode φ := by
  have h := dropCol_recode (φ := φ) df.toFrame x
  unfold TFrame.dropCol
  show ({ (df.toFrame.recode φ).dropCol (φ.feat x) with kind := (df.recode φ).kind } : TFrame) = _
  rw [h]
  rfl

theorem lookup_feat {β : Type} (l : List (Feat × β)) (x : Feat) : (l.map (fun p => (φ.feat p.1, p.2))).lookup (φ.feat x) = l.lookup x := by
  induction l with
  | nil => rfl
  | cons a l ih =>
    rw [List.map_cons, List.lookup_cons, List.lookup_cons, ih, feat_beq]

/-- Setting a column whose values are not recoded. -/
theorem setCol_recode (df : TFrame) (x : Feat) (vs : List Val) (hx : ∀ v, φ.val x v = v) :
    (df.recode φ).setCol (φ.feat x) vs = (df.setCol x vs).recode φ := by
  unfold TFrame.setCol
  have hz : (df.recode φ).rows.zip vs = (df.rows.zip vs).map (fun rv => (rv.1.recode φ, rv.2)) := by
    show (df.rows.map (Row.recode φ)).zip vs = _
    rw [List.zip_map_left]
    rfl
  have hc : (df.recode φ).cols = df.cols.map φ.feat := rfl
  rw [hz, hc, feat_contains]
  simp only [TFrame.recode, Frame.recode, List.map_map, TFrame.mk.injEq, Frame.mk.injEq]
  refine ⟨⟨?_, ?_⟩, ?_⟩
  · split <;> simp
  · refine List.map_congr_left fun rv _ => ?_
    simp only [Function.comp, Row.recode, Row.mk.injEq, true_and]
    funext f'
    by_cases h : f' = φ.feat x
    · subst h
      simp [hx]
    · rw [if_neg h, if_neg (fun e => h (by rw [← e]; simp))]
  · funext f'
    by_cases h : f' = φ.feat x
    · subst h
      simp
    · rw [if_neg h, if_neg (fun e => h (by rw [← e]; simp))]

/-- The class labels merged in, when they are not recoded. -/
theorem attachY_recode (df : TFrame) (cf : Feat) (y : YArg) (hx : ∀ v, φ.val cf v = v) :
    attachY (df.recode φ) (φ.feat cf) (y.renamed φ) = (attachY df cf y).map (TFrame.recode φ) := by
  cases y with
  | list vs =>
    simp only [YArg.renamed, attachY, trows_length_recode, setCol_recode df cf vs hx]
    split <;> rfl
  | series n lvs =>
    simp only [YArg.renamed, attachY, trows_length_recode]
    split
    · have h1 : ((df.recode φ).rows.zip lvs).map (fun rl => ({ rl.1 with label := rl.2.1 } : Row)) =
          ((df.rows.zip lvs).map (fun rl => ({ rl.1 with label := rl.2.1 } : Row))).map (Row.recode φ) := by
        show ((df.rows.map (Row.recode φ)).zip lvs).map _ = _
        rw [List.zip_map_left, List.map_map, List.map_map]
        rfl
      rw [h1]
      exact congrArg Except.ok (setCol_recode
        ({ cols := df.cols, kind := df.kind, rows := (df.rows.zip lvs).map (fun rl => ({ rl.1 with label := rl.2.1 } : Row)) } : TFrame)
        cf (lvs.map Prod.snd) hx)
    · have h3 : (df.recode φ).rows.map (fun row => (lvs.lookup row.label).getD .nan) =
          df.rows.map (fun row => (lvs.lookup row.label).getD .nan) := by
        show (df.rows.map (Row.recode φ)).map _ = _
        rw [List.map_map]
        rfl
      rw [h3, setCol_recode df cf _ hx]
      split <;> rfl

theorem checkInput_recode (df : TFrame) (y : Option YArg) (cf : Option Feat) :
    checkInput (df.recode φ) (y.map (YArg.renamed φ)) (cf.map φ.feat) none = checkInput df y cf none := by
  unfold checkInput
  simp only [trows_nil_recode]
  cases y with
  | none =>
    cases cf with
    | none => rfl
    | some cf =>
      have : φ.feat cf ∈ (df.recode φ).cols ↔ cf ∈ df.cols := feat_mem _ _
      simp only [Option.map, Option.getD, this]
  | some y =>
    cases y with
    | list vs => cases cf <;> rfl
    | series n lvs =>
      cases cf with
      | none => rfl
      | some cf => simp only [Option.map, YArg.renamed, ne_eq, φ.feat.apply_eq_iff_eq]

theorem toTraining_recode (df : TFrame) (y : Option YArg) (cf : Feat) (hy : y.isSome = true → ∀ v, φ.val cf v = v) :
    toTraining (df.recode φ) (y.map (YArg.renamed φ)) (φ.feat cf) none = (toTraining df y cf none).map (TFrame.recode φ) := by
  cases y with
  | none => rfl
  | some y => exact attachY_recode df cf y (hy rfl)

/-! ### bins -/

theorem mapCol_recode (df : TFrame) (x : Feat) (g : Val → Val) (hx : ∀ v, φ.val x v = v) :
    (df.recode φ).mapCol (φ.feat x) g = (df.mapCol x g).recode φ := by
  unfold TFrame.mapCol
  simp only [TFrame.recode, Frame.recode, List.map_map, TFrame.mk.injEq, Frame.mk.injEq, true_and]
  refine ⟨?_, ?_⟩
  · refine List.map_congr_left fun r _ => ?_
    simp only [Function.comp, Row.recode, Row.mk.injEq, true_and]
    funext f'
    by_cases h : f' = φ.feat x
    · subst h
      simp [hx]
    · rw [if_neg h, if_neg (fun e => h (by rw [← e]; simp))]
  · funext f'
    by_cases h : f' = φ.feat x
    · subst h
      simp
    · rw [if_neg h, if_neg (fun e => h (by rw [← e]; simp))]

theorem featTransform_recode (F : PyFloat) (b : Binner) (x : Feat) (labels : List PStr) :
    featTransform F (b.recode φ) (φ.feat x) labels = featTransform F b x labels := by
  unfold featTransform
  have : (b.recode φ).thresholds = b.thresholds.map (fun l => l.map (fun p => (φ.feat p.1, p.2))) := rfl
  rw [this]
  cases b.thresholds with
  | none => rfl
  | some tss => simp only [Option.map, lookup_feat]

theorem transformLoop_recode (F : PyFloat) (b : Binner) (done : List Feat) (l : List (Feat × List PStr))
    (hl : ∀ p ∈ l, ∀ v, φ.val p.1 v = v) : ∀ df : TFrame,
    transformLoop F (b.recode φ) (done.map φ.feat) (l.map (fun p => (φ.feat p.1, p.2))) (df.recode φ) =
      (transformLoop F b done l df).map (TFrame.recode φ) := by
  induction l with
  | nil => intro df; rfl
  | cons a l ih =>
    intro df
    obtain ⟨x, labels⟩ := a
    have ih := ih fun p hp => hl p (List.mem_cons_of_mem _ hp)
    have hx := hl _ List.mem_cons_self
    rw [List.map_cons]
    unfold transformLoop
    have hc : (df.recode φ).cols = df.cols.map φ.feat := rfl
    rw [hc, feat_contains, feat_contains, featTransform_recode]
    split
    · cases featTransform F b x labels with
      | error e => rfl
      | ok g =>
        simp only [ok_bind]
        rw [mapCol_recode _ _ _ hx]
        exact ih _
    · exact ih _

theorem findTransformed_recode (b : Binner) (df : TFrame) (hb : ∀ p ∈ b.bins, ∀ v, φ.val p.1 v = v) :
    findTransformed (b.recode φ) (df.recode φ) = (findTransformed b df).map (List.map φ.feat) := by
  unfold findTransformed
  have hbins : (b.recode φ).bins = b.bins.map (fun p => (φ.feat p.1, p.2)) := rfl
  have hc : (df.recode φ).cols = df.cols.map φ.feat := rfl
  have h1 : ((b.recode φ).bins.any fun p => (df.recode φ).cols.contains p.1 && (df.recode φ).kind p.1 == .text &&
        (df.recode φ).rows.any (fun row => !(p.2.any (fun l => (row.cell p.1).pyEq (.str l))))) =
      (b.bins.any fun p => df.cols.contains p.1 && df.kind p.1 == .text &&
        df.rows.any (fun row => !(p.2.any (fun l => (row.cell p.1).pyEq (.str l))))) := by
    rw [hbins, List.any_map, Bool.eq_iff_iff, List.any_eq_true, List.any_eq_true]
    refine exists_congr fun p => and_congr_right fun hp => ?_
    simp only [Function.comp, hc, feat_contains, tkind_recode]
    have : (df.recode φ).rows.any (fun row => !(p.2.any (fun l => (row.cell (φ.feat p.1)).pyEq (.str l)))) =
        df.rows.any (fun row => !(p.2.any (fun l => (row.cell p.1).pyEq (.str l)))) := by
      show (df.rows.map (Row.recode φ)).any _ = _
      rw [List.any_map]
      congr 1
      funext row
      simp only [Function.comp, Row.recode, Equiv.symm_apply_apply, hb p hp]
    rw [this]
  rw [h1]
  split
  · rfl
  · unfold transformedFeats
    simp only [Except.map, hbins, List.map_map]
    congr 1
    have : (b.bins.map (Prod.fst ∘ fun p : Feat × List PStr => (φ.feat p.1, p.2))) = (b.bins.map Prod.fst).map φ.feat := by
      rw [List.map_map]
      rfl
    rw [this, List.filter_map]
    congr 1
    refine List.filter_congr fun f _ => ?_
    simp only [Function.comp, hc, feat_contains, tkind_recode]

theorem transform_recode (F : PyFloat) (b : Binner) (df : TFrame) (hb : ∀ p ∈ b.bins, ∀ v, φ.val p.1 v = v) :
    (b.recode φ).transform F (df.recode φ) = (b.transform F df).map (TFrame.recode φ) := by
  unfold Binner.transform
  rw [findTransformed_recode b df hb]
  cases findTransformed b df with
  | error e => rfl
  | ok done => exact transformLoop_recode F b done b.bins hb df

theorem applyBins_recode (F : PyFloat) (b : Binner) (df : TFrame) (hb : ∀ p ∈ b.bins, ∀ v, φ.val p.1 v = v) :
    applyBins F (b.recode φ) (df.recode φ) = (applyBins F b df).map (TFrame.recode φ) := by
  unfold applyBins
  have : (b.recode φ).bins = [] ↔ b.bins = [] := by simp [Binner.recode]
  simp only [this, transform_recode F b df hb]
  split <;> rfl

theorem continuousFeats_recode (n : Option Nat) (df : TFrame) (cf : Feat) :
    continuousFeats n (df.recode φ) [φ.feat cf] = (continuousFeats n df [cf]).map φ.feat := by
  unfold continuousFeats
  cases n with
  | none => rfl
  | some n =>
    cases n with
    | zero => rfl
    | succ n =>
      have hc : (df.recode φ).cols = df.cols.map φ.feat := rfl
      show List.filter _ (df.recode φ).cols = List.map _ (List.filter _ df.cols)
      rw [hc, List.filter_map]
      congr 1
      refine List.filter_congr fun f _ => ?_
      have := feat_contains (φ := φ) f [cf]
      simp only [List.map_cons, List.map_nil] at this
      simp only [Function.comp, tkind_recode, tunique_recode, List.length_map, this]

theorem binnerFit_recode (F : PyFloat) (P : PandasCut) (n : Option Nat) (df : TFrame) (cf : Feat)
    (hb : ∀ f ∈ continuousFeats n df [cf], ∀ v, φ.val f v = v) :
    Binner.fit F P n (df.recode φ) [φ.feat cf] = (Binner.fit F P n df [cf]).recode φ := by
  unfold Binner.fit Binner.recode
  simp only [continuousFeats_recode, Binner.mk.injEq]
  refine ⟨?_, rfl⟩
  rw [List.filterMap_map, List.map_filterMap]
  refine List.filterMap_congr fun f hf => ?_
  have : (df.recode φ).rows.map (fun r => r.cell (φ.feat f)) = df.rows.map (fun r => r.cell f) := by
    have := cells_recode (φ := φ) df.toFrame f
    refine this.trans ?_
    rw [List.map_map]
    exact List.map_congr_left fun r _ => hb f hf _
  simp only [Function.comp, this]
  split <;> rfl

theorem fit_keys {F : PyFloat} {P : PandasCut} {n : Option Nat} {df : TFrame} {ignore : List Feat} :
    ∀ p ∈ (Binner.fit F P n df ignore).bins, p.1 ∈ continuousFeats n df ignore := by
  intro p hp
  unfold Binner.fit at hp
  obtain ⟨f, hf, h⟩ := List.mem_filterMap.mp hp
  dsimp only at h
  split at h
  · injection h with h; subst h; exact hf
  · cases h

/-- The frame with the class labels merged in has the other columns' cells unchanged. -/
theorem toTraining_cells {df df' : TFrame} {y : Option YArg} {cf : Feat} (h : toTraining df y cf none = .ok df') {f : Feat} (hf : f ≠ cf) :
    (f ∈ df'.cols → f ∈ df.cols) ∧ df'.kind f = df.kind f ∧ df'.rows.map (·.cell f) = df.rows.map (·.cell f) := by
  have hset : ∀ (d : TFrame) (vs : List Val), vs.length = d.rows.length → (f ∈ (d.setCol cf vs).cols → f ∈ d.cols) ∧
      (d.setCol cf vs).kind f = d.kind f ∧ (d.setCol cf vs).rows.map (·.cell f) = d.rows.map (·.cell f) := by
    intro d vs hl
    refine ⟨fun hm => ?_, ?_, ?_⟩
    · simp only [TFrame.setCol] at hm
      split at hm
      · exact hm
      · rcases List.mem_append.mp hm with hm | hm
        · exact hm
        · rw [List.mem_singleton] at hm; exact absurd hm hf
    · simp [TFrame.setCol, hf]
    · simp only [TFrame.setCol, List.map_map]
      have : ((fun r : Row => r.cell f) ∘ fun rv : Row × Val => ({ rv.1 with cell := fun f' => if f' = cf then rv.2 else rv.1.cell f' } : Row)) =
          (fun r : Row => r.cell f) ∘ Prod.fst := by
        funext rv
        simp [hf]
      rw [this, ← List.map_map, List.map_fst_zip (by omega)]
  cases y with
  | none => cases h; exact ⟨id, rfl, rfl⟩
  | some y =>
    have h : attachY df cf y = .ok df' := h
    cases y with
    | list vs =>
      simp only [attachY] at h
      split at h
      · cases h
      · rename_i hl
        injection h with h
        subst h
        exact hset df vs (by simpa using hl)
    | series nm lvs =>
      simp only [attachY] at h
      split at h
      · rename_i hl
        injection h with h
        subst h
        obtain ⟨h1, h2, h3⟩ := hset { df with rows := (df.rows.zip lvs).map (fun rl => ({ rl.1 with label := rl.2.1 } : Row)) }
          (lvs.map Prod.snd) (by simp [hl])
        refine ⟨h1, h2, h3.trans ?_⟩
        rw [List.map_map]
        have : ((fun r : Row => r.cell f) ∘ fun rl : Row × (Label × Val) => ({ rl.1 with label := rl.2.1 } : Row)) =
            (fun r : Row => r.cell f) ∘ Prod.fst := rfl
        rw [this, ← List.map_map, List.map_fst_zip (by omega)]
      · split at h
        · cases h
        · injection h with h
          subst h
          exact hset df _ (by simp)

theorem continuous_many {n : Option Nat} {df df' : TFrame} {y : Option YArg} {cf : Feat} (h : toTraining df y cf none = .ok df') {f : Feat}
    (hf : f ∈ continuousFeats n df' [cf]) : ManyNumbers n df cf f := by
  unfold continuousFeats at hf
  cases n with
  | none => cases hf
  | some n =>
    cases n with
    | zero => cases hf
    | succ n =>
      obtain ⟨h1, h2⟩ := List.mem_filter.mp (show f ∈ List.filter _ df'.cols from hf)
      simp only [Bool.and_eq_true, beq_iff_eq, decide_eq_true_eq, Bool.not_eq_true', List.contains_eq_mem, List.mem_singleton,
        decide_eq_false_iff_not] at h2
      obtain ⟨⟨h2, h3⟩, h4⟩ := h2
      obtain ⟨k1, k2, k3⟩ := toTraining_cells h h4
      refine ⟨k1 h1, h4, by rw [← k2]; exact h2, n + 1, rfl, by omega, ?_⟩
      have : df'.unique f = df.unique f := by unfold Frame.unique; rw [k3]
      rw [← this]
      exact h3

theorem classFeatName_recode {n : Option Nat} {cf : Feat} {d : FitData} (h : φ.Fits n cf d) :
    classFeatName (d.classFeat.map φ.feat) (d.y.map (YArg.renamed φ)) = φ.feat cf := by
  rw [← h.cls]
  have hd := h.default
  rcases d with ⟨_, y, cf, _, _⟩
  cases cf with
  | some c => rfl
  | none =>
    cases y with
    | none => exact (hd rfl (by simp)).symm
    | some y =>
      cases y with
      | list vs => exact (hd rfl (by simp)).symm
      | series n lvs => rfl

theorem posClassOf_recode {cf : Feat} (vs : List Val) (pc : Option Val) (h : pc = none → ∀ v, φ.val cf v = v) :
    posClassOf (vs.map (φ.val cf)) (pc.map (φ.val cf)) = (posClassOf vs pc).map (φ.val cf) := by
  cases pc with
  | some pc => rfl
  | none =>
    have h := h rfl
    have : vs.map (φ.val cf) = vs := by
      conv_rhs => rw [← List.map_id vs]
      exact List.map_congr_left fun v _ => h v
    rw [this]
    show posClassOf vs none = _
    cases posClassOf vs none with
    | error e => rfl
    | ok v => simp only [Except.map, h]

theorem preprocessTraining_recode (F : PyFloat) (P : PandasCut) (n : Option Nat) (cf : Feat) (d : FitData) (h : φ.Fits n cf d) :
    preprocessTraining F P n (d.recode φ cf) =
      (preprocessTraining F P n d).map (fun q => (q.1.recode φ, φ.feat q.2.1, φ.val cf q.2.2.1, q.2.2.2.recode φ)) := by
  unfold preprocessTraining FitData.recode
  simp only [classFeatName_recode h, h.cls, h.names, checkInput_recode, toTraining_recode d.X d.y cf (fun hy => h.labels (Or.inl hy))]
  cases checkInput d.X d.y d.classFeat none with
  | error e => rfl
  | ok u =>
    simp only [ok_bind]
    cases ht : toTraining d.X d.y cf none with
    | error e => rfl
    | ok df =>
      simp only [Except.map, ok_bind]
      rw [tunique_recode, posClassOf_recode _ _ (fun hp => h.labels (Or.inr hp))]
      cases posClassOf (df.unique cf) d.posClass with
      | error e => rfl
      | ok pc =>
        have hb : ∀ f ∈ continuousFeats n df [cf], ∀ v, φ.val f v = v := fun f hf => h.numbers f (continuous_many ht hf)
        simp only [Except.map, ok_bind, Binner.fitTransform]
        rw [binnerFit_recode F P n df cf hb, transform_recode F _ df (fun p hp => hb _ (fit_keys p hp))]
        cases (Binner.fit F P n df [cf]).transform F df with
        | error e => rfl
        | ok d' => rfl

theorem preprocessTraining_facts {F : PyFloat} {P : PandasCut} {n : Option Nat} {cf : Feat} {d : FitData} (h : φ.Fits n cf d)
    {q : TFrame × Feat × Val × Binner} (hq : preprocessTraining F P n d = .ok q) :
    q.2.1 = cf ∧ ∀ p ∈ q.2.2.2.bins, ∀ v, φ.val p.1 v = v := by
  unfold preprocessTraining at hq
  rw [h.cls, h.names] at hq
  obtain ⟨_, _, hq⟩ := bind_ok_iff.mp hq
  obtain ⟨df, hdf, hq⟩ := bind_ok_iff.mp hq
  obtain ⟨pc, _, hq⟩ := bind_ok_iff.mp hq
  obtain ⟨⟨b, df'⟩, hbt, hq⟩ := bind_ok_iff.mp hq
  simp only [pure_eq_ok, Except.ok.injEq] at hq
  subst hq
  unfold Binner.fitTransform at hbt
  obtain ⟨df'', _, hbt⟩ := bind_ok_iff.mp hbt
  simp only [pure_eq_ok, Except.ok.injEq, Prod.mk.injEq] at hbt
  obtain ⟨rfl, rfl⟩ := hbt
  exact ⟨rfl, fun p hp => h.numbers _ (continuous_many hdf (fit_keys p hp))⟩

/-! ### prediction -/

theorem preprocessPrediction_recode (F : PyFloat) (X : TFrame) (cf : Feat) (b : Binner) (hb : ∀ p ∈ b.bins, ∀ v, φ.val p.1 v = v)
    (selected : List Feat) : preprocessPrediction F (X.recode φ) (φ.feat cf) (b.recode φ) none (selected.map φ.feat) =
      (preprocessPrediction F X cf b none selected).map (TFrame.recode φ) := by
  unfold preprocessPrediction
  simp only [trows_nil_recode]
  split
  · rfl
  have hc : ∀ X : TFrame, (X.recode φ).cols = X.cols.map φ.feat := fun _ => rfl
  have h : toPrediction (X.recode φ) (φ.feat cf) none = (toPrediction X cf none).map (TFrame.recode φ) := by
    unfold toPrediction
    rw [hc, feat_contains, tdropCol_recode]
    split <;> rfl
  rw [h]
  cases toPrediction X cf none with
  | error e => rfl
  | ok df =>
    simp only [Except.map, ok_bind]
    have : (selected.map φ.feat).any (fun f => !(df.recode φ).cols.contains f) = selected.any (fun f => !df.cols.contains f) := by
      rw [List.any_map, hc]
      congr 1
      funext f
      simp only [Function.comp, feat_contains]
    rw [this]
    split
    · rfl
    · exact applyBins_recode F b df hb

theorem predict_recode (rs : Ruleset) (df : Frame) : (rs.recode φ).predict (df.recode φ) = rs.predict df := by
  unfold Ruleset.predict
  rw [rsCovers_recode]
  cases rs.covers df with
  | error e => rfl
  | ok d => simp only [Except.map, ok_bind, index_recode]

theorem filterM_map_recode {α : Type} (f : α → α) (p p' : α → Except PyErr Bool) (h : ∀ a, p' (f a) = p a) (l : List α) :
    (l.map f).filterM p' = (l.filterM p).map (List.map f) := by
  have : ∀ (l acc : List α), (l.map f).filterAuxM p' (acc.map f) = (l.filterAuxM p acc).map (List.map f) := by
    intro l
    induction l with
    | nil => intro acc; rfl
    | cons a l ih =>
      intro acc
      rw [List.map_cons, List.filterAuxM, List.filterAuxM, h]
      cases p a with
      | error e => rfl
      | ok b =>
        simp only [ok_bind]
        cases b
        · exact ih acc
        · exact ih (a :: acc)
  unfold List.filterM
  have h0 := this l []
  simp only [List.map_nil] at h0
  rw [h0]
  cases l.filterAuxM p [] with
  | error e => rfl
  | ok d =>
    show Except.ok _ = Except.ok _
    rw [List.map_reverse]

theorem numCovered_recode (r : Rule) (df : Frame) : (r.recode φ).numCovered (df.recode φ) = r.numCovered df :=
  numCoveredC_recode r.conds df

theorem reasonsAt_recode (rules : List Rule) (df : Frame) (i : Label) :
    reasonsAt (rules.map (Rule.recode φ)) (df.recode φ) i = (reasonsAt rules df i).map (List.map (Rule.recode φ)) := by
  unfold reasonsAt
  rw [keep_recode df (fun row => row.label == i) (fun row => row.label == i) (fun _ => rfl)]
  refine filterM_map_recode _ _ _ (fun r => ?_) _
  rw [numCovered_recode]

theorem mapM_map_out {α β : Type} (h : β → β) (p p' : α → Except PyErr β) (e : ∀ a, p' a = (p a).map h) (l : List α) :
    l.mapM p' = (l.mapM p).map (List.map h) := by
  induction l with
  | nil => rfl
  | cons a l ih =>
    rw [List.mapM_cons, List.mapM_cons, ih, e]
    cases p a with
    | error e => rfl
    | ok b =>
      simp only [Except.map, ok_bind]
      cases l.mapM p with
      | error e => rfl
      | ok bs => rfl

theorem predictReasons_recode (rs : Ruleset) (df : Frame) :
    (rs.recode φ).predictReasons (df.recode φ) = (rs.predictReasons df).map (fun o => (o.1, o.2.map (List.map (Rule.recode φ)))) := by
  unfold Ruleset.predictReasons
  rw [predict_recode]
  cases rs.predict df with
  | error e => rfl
  | ok ps =>
    simp only [ok_bind, index_recode]
    rw [mapM_map_out (List.map (Rule.recode φ)) (fun ip : Label × Bool => if ip.2 then reasonsAt rs.rules df ip.1 else .ok [])
      (fun ip : Label × Bool => if ip.2 then reasonsAt (rs.recode φ).rules (df.recode φ) ip.1 else .ok [])]
    · cases (df.index.zip ps).mapM (fun ip => if ip.2 then reasonsAt rs.rules df ip.1 else .ok []) with
      | error e => rfl
      | ok l => rfl
    · intro ip
      split
      · exact reasonsAt_recode rs.rules df ip.1
      · rfl

theorem predictProbaReasons_recode (rs : Ruleset) (df : Frame) :
    (rs.recode φ).predictProbaReasons (df.recode φ) =
      (rs.predictProbaReasons df).map (fun o => (o.1, o.2.map (List.map (Rule.recode φ)))) := by
  unfold Ruleset.predictProbaReasons
  rw [predictReasons_recode]
  have hu : (rs.recode φ).uncov = rs.uncov := rfl
  rw [hu]
  cases attr rs.uncov.smoothed with
  | error e => rfl
  | ok u =>
    simp only [ok_bind]
    cases rs.predictReasons df with
    | error e => rfl
    | ok o =>
      obtain ⟨ps, rss⟩ := o
      simp only [Except.map, ok_bind]
      have hz : ps.zip (rss.map (List.map (Rule.recode φ))) = (ps.zip rss).map (fun pr => (pr.1, pr.2.map (Rule.recode φ))) := by
        rw [List.zip_map_right]
        rfl
      rw [hz, List.mapM_map]
      have : ∀ l : List Rule, (l.map (Rule.recode φ)).mapM (m := Except PyErr) (fun r => attr r.cal.smoothed) =
          l.mapM (fun r => attr r.cal.smoothed) := fun l => by rw [List.mapM_map]; rfl
      simp only [Function.comp_def, this]
      cases List.mapM (m := Except PyErr) _ (ps.zip rss) with
      | error e => rfl
      | ok l => rfl

theorem toRuleset_recode {m : ModelArg} (h : ∀ s, m ≠ .text s) : (m.recode φ).toRuleset = m.toRuleset.map (Ruleset.recode φ) := by
  cases m with
  | nothing => rfl
  | text s => exact absurd rfl (h s)
  | ruleset rs =>
    show (if (rs.recode φ).rules = [] then _ else _) = Except.map _ (if rs.rules = [] then _ else _)
    have : (rs.recode φ).rules = [] ↔ rs.rules = [] := by simp [Ruleset.recode]
    simp only [this]
    split <;> rfl
  | clf c =>
    show attr (c.ruleset.map (Ruleset.recode φ)) = _
    show _ = Except.map _ (attr c.ruleset)
    cases c.ruleset <;> rfl

/-- What the prepared data and the ruleset give, in the new names. -/
theorem answer_recode {α : Type} (F : PyFloat) (act act' : Ruleset → Frame → Except PyErr α) (k : α → α) (X : TFrame) (c : Clf)
    (hb : ∀ b, c.binner = some b → ∀ p ∈ b.bins, ∀ v, φ.val p.1 v = v)
    (ha : ∀ rs df, act' (rs.recode φ) (df.recode φ) = (act rs df).map k) :
    answer F act' (X.recode φ) none (c.recode φ) = (answer F act X none c).map k := by
  unfold answer
  show (attr (c.classFeat.map φ.feat) >>= _) = _
  cases h1 : c.classFeat with
  | none => rfl
  | some cf =>
    show (attr (c.recode φ).posClass >>= _) = _
    have hp : (c.recode φ).posClass = c.posClass.map (φ.val cf) := by simp [Clf.recode, h1]
    rw [hp]
    simp only [attr, ok_bind]
    cases c.posClass with
    | none => rfl
    | some pc =>
      simp only [Option.map_some, ok_bind]
      have h2 : (c.recode φ).binner = c.binner.map (Binner.recode φ) := rfl
      have h3 : (c.recode φ).selected = c.selected.map (List.map φ.feat) := rfl
      have h4 : (c.recode φ).trainFeats = c.trainFeats.map (List.map φ.feat) := rfl
      have h5 : (c.recode φ).ruleset = c.ruleset.map (Ruleset.recode φ) := rfl
      rw [h2, h3, h4, h5]
      cases hbb : c.binner with
      | none => rfl
      | some b =>
        simp only [Option.map_some, ok_bind]
        cases c.selected with
        | none => rfl
        | some sel =>
          simp only [Option.map_some, ok_bind]
          cases c.trainFeats with
          | none => rfl
          | some tf =>
            simp only [Option.map_some, ok_bind]
            rw [preprocessPrediction_recode F X cf b (hb b hbb) sel]
            cases preprocessPrediction F X cf b none sel with
            | error e => rfl
            | ok df =>
              simp only [Except.map, ok_bind]
              cases c.ruleset with
              | none => rfl
              | some rs =>
                simp only [Option.map_some, ok_bind]
                exact ha rs df.toFrame

end Witt
