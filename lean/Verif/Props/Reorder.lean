import Verif.Lemmas.Reorder
import Verif.Props.Unpruned
import Verif.Props.ProbaApi
/-
C101: what the order of the rows of the training and calibration data can influence.
-/
namespace Witt
open Spec

namespace Spec
/-- In every column but the class, the different values are first met in the same order. -/
def SameFirsts (df df' : Frame) (cf : Feat) : Prop := ∀ f ∈ df.cols, f ≠ cf → df'.unique f = df.unique f

/-- The same examples (rows of `X` with their labels in `y`) in another order; everything else as before. -/
structure ReorderedData (d d' : FitData) : Prop where
  cols : d'.X.cols = d.X.cols
  kind : d'.X.kind = d.X.kind
  names : d'.names = d.names
  classFeat : d'.classFeat = d.classFeat
  posClass : d'.posClass = d.posClass
  examples : (d.y = none ∧ d'.y = none ∧ d'.X.rows.Perm d.X.rows) ∨
    (∃ vs vs', d.y = some (.list vs) ∧ d'.y = some (.list vs') ∧ vs.length = d.X.rows.length ∧
      vs'.length = d'.X.rows.length ∧ (d'.X.rows.zip vs').Perm (d.X.rows.zip vs)) ∨
    (∃ name lvs lvs', d.y = some (.series name lvs) ∧ d'.y = some (.series name lvs') ∧ lvs.length = d.X.rows.length ∧
      lvs'.length = d'.X.rows.length ∧ (d'.X.rows.zip lvs').Perm (d.X.rows.zip lvs))

/-- pandas chooses the break points of a column by its values, not by their order. -/
def OrderFree (P : PandasCut) : Prop :=
  ∀ vs vs' n, vs'.Perm vs → P.breaks vs' n = P.breaks vs n ∧ P.occupied vs' n = P.occupied vs n
end Spec

/-! ### preprocessing -/

/-- Reordered rows, same columns and dtypes. -/
structure TReordered (df df' : TFrame) : Prop where
  frame : Reordered df.toFrame df'.toFrame
  kind : df'.kind = df.kind

/-- What tells apart the values `unique` tells apart. -/
def valKey : Val → Val
  | .num q _ => .num q []
  | v => v

theorem valKey_eq (w v : Val) : (w.pyEq v || (w == .nan && v == .nan)) = true ↔ valKey w = valKey v := by
  cases w <;> cases v <;> simp [Val.pyEq, valKey]

theorem pyUniqueAux_keys : ∀ (vs seen : List Val), ((pyUniqueAux seen vs).map valKey).Nodup ∧
    ∀ k, k ∈ (pyUniqueAux seen vs).map valKey ↔ k ∈ vs.map valKey ∧ k ∉ seen.map valKey := by
  intro vs
  induction vs with
  | nil => intro seen; simp [pyUniqueAux]
  | cons v vs ih =>
    intro seen
    unfold pyUniqueAux
    have hany : seen.any (fun w => w.pyEq v || (w == .nan && v == .nan)) = true ↔ valKey v ∈ seen.map valKey := by
      simp only [List.any_eq_true, valKey_eq, List.mem_map]
    split
    · rename_i h
      have h' := hany.mp h
      refine ⟨(ih seen).1, fun k => ?_⟩
      rw [(ih seen).2, List.map_cons, List.mem_cons]
      constructor
      · rintro ⟨a, b⟩; exact ⟨Or.inr a, b⟩
      · rintro ⟨rfl | a, b⟩
        · exact absurd h' b
        · exact ⟨a, b⟩
    · rename_i h
      have h' : valKey v ∉ seen.map valKey := fun hc => h (hany.mpr hc)
      obtain ⟨i1, i2⟩ := ih (v :: seen)
      refine ⟨?_, fun k => ?_⟩
      · rw [List.map_cons, List.nodup_cons]
        refine ⟨fun hm => ?_, i1⟩
        have := ((i2 _).mp hm).2
        simp at this
      · rw [List.map_cons, List.mem_cons, i2, List.map_cons, List.map_cons, List.mem_cons, List.mem_cons]
        constructor
        · rintro (rfl | ⟨a, b⟩)
          · exact ⟨Or.inl rfl, h'⟩
          · exact ⟨Or.inr a, fun hc => b (Or.inr hc)⟩
        · rintro ⟨rfl | a, b⟩
          · exact Or.inl rfl
          · by_cases hk : k = valKey v
            · exact Or.inl hk
            · exact Or.inr ⟨a, fun hc => hc.elim hk b⟩

/-- How many different values a column has does not depend on the order of its rows. -/
theorem unique_length_perm {vs vs' : List Val} (h : vs'.Perm vs) : (pyUniqueAux [] vs').length = (pyUniqueAux [] vs).length := by
  have a := pyUniqueAux_keys vs []
  have b := pyUniqueAux_keys vs' []
  have : ((pyUniqueAux [] vs').map valKey).Perm ((pyUniqueAux [] vs).map valKey) :=
    (List.perm_ext_iff_of_nodup b.1 a.1).mpr fun k => by
      rw [a.2, b.2]
      exact and_congr_left fun _ => (h.map _).mem_iff
  simpa using this.length_eq

theorem TReordered.binner {df df' : TFrame} (h : TReordered df df') (F : PyFloat) {P : PandasCut} (hP : OrderFree P) (n : Option Nat)
    (ignore : List Feat) : Binner.fit F P n df' ignore = Binner.fit F P n df ignore := by
  have hc : continuousFeats n df' ignore = continuousFeats n df ignore := by
    unfold continuousFeats
    split
    · rfl
    · rfl
    · rw [h.kind, h.frame.cols]
      refine List.filter_congr fun f _ => ?_
      have : (df'.unique f).length = (df.unique f).length := unique_length_perm (h.frame.rows.map _)
      rw [this]
  unfold Binner.fit
  rw [hc]
  have hf : ∀ f, fitFeat F P (n.getD 0) (df'.rows.map (·.cell f)) = fitFeat F P (n.getD 0) (df.rows.map (·.cell f)) := by
    intro f
    unfold fitFeat
    obtain ⟨h1, h2⟩ := hP _ _ (n.getD 0) (h.frame.rows.map (fun row : Row => row.cell f))
    rw [h1, h2]
  simp only [hf]

theorem transformLoop_reordered (F : PyFloat) (b : Binner) (done : List Feat) :
    ∀ (bins : List (Feat × List PStr)) (df df' : TFrame), TReordered df df' →
      OutRel TReordered (transformLoop F b done bins df) (transformLoop F b done bins df') := by
  intro bins
  induction bins with
  | nil => intro df df' h; exact .ok h
  | cons p bins ih =>
    obtain ⟨f, labels⟩ := p
    intro df df' h
    unfold transformLoop
    rw [h.frame.cols]
    split
    · cases featTransform F b f labels with
      | error e => exact .err e
      | ok g =>
        simp only [ok_bind]
        refine ih _ _ ⟨⟨h.frame.cols, h.frame.rows.map _⟩, ?_⟩
        simp only [TFrame.mapCol, h.kind]
    · exact ih df df' h

theorem transform_reordered (F : PyFloat) (b : Binner) {df df' : TFrame} (h : TReordered df df') :
    OutRel TReordered (b.transform F df) (b.transform F df') := by
  have ht : findTransformed b df' = findTransformed b df := by
    unfold findTransformed transformedFeats
    rw [h.frame.cols, h.kind]
    have hany : ∀ q : Row → Bool, df'.rows.any q = df.rows.any q := by
      intro q
      rw [Bool.eq_iff_iff]
      simp only [List.any_eq_true, h.frame.rows.mem_iff]
    simp only [hany]
  unfold Binner.transform
  rw [ht]
  cases findTransformed b df with
  | error e => exact .err e
  | ok done => exact transformLoop_reordered F b done b.bins df df' h

theorem kindOf_perm {vs vs' : List Val} (h : vs'.Perm vs) : kindOf vs' = kindOf vs := by
  have ha : ∀ q : Val → Bool, vs'.any q = vs.any q := by
    intro q; rw [Bool.eq_iff_iff]; simp only [List.any_eq_true, h.mem_iff]
  have hl : ∀ q : Val → Bool, vs'.all q = vs.all q := by
    intro q; rw [Bool.eq_iff_iff]; simp only [List.all_eq_true, h.mem_iff]
  have hn : vs' ≠ [] ↔ vs ≠ [] := by
    rw [ne_eq, ne_eq, ← List.length_eq_zero_iff, h.length_eq, List.length_eq_zero_iff]
  unfold kindOf
  rw [ha, hl]
  simp only [hn]

theorem setCol_reordered {X X' : TFrame} (hc : X'.cols = X.cols) (hk : X'.kind = X.kind) (f : Feat) {vs vs' : List Val}
    (hl : vs.length = X.rows.length) (hl' : vs'.length = X'.rows.length) (h : (X'.rows.zip vs').Perm (X.rows.zip vs)) :
    TReordered (X.setCol f vs) (X'.setCol f vs') := by
  have hvs : vs'.Perm vs := by
    have := h.map Prod.snd
    rw [List.map_snd_zip (by omega), List.map_snd_zip (by omega)] at this
    exact this
  refine ⟨⟨?_, ?_⟩, ?_⟩
  · simp only [TFrame.setCol, hc]
  · simp only [TFrame.setCol]; exact h.map _
  · simp only [TFrame.setCol, hk, kindOf_perm hvs]

theorem Spec.ReorderedData.length {d d' : FitData} (h : ReorderedData d d') : d'.X.rows.length = d.X.rows.length := by
  rcases h.examples with ⟨_, _, h⟩ | ⟨vs, vs', _, _, h1, h2, h⟩ | ⟨_, lvs, lvs', _, _, h1, h2, h⟩
  · exact h.length_eq
  · have := h.length_eq
    rw [List.length_zip, List.length_zip] at this
    omega
  · have := h.length_eq
    rw [List.length_zip, List.length_zip] at this
    omega

theorem Spec.ReorderedData.checkInput {d d' : FitData} (h : ReorderedData d d') (cf : Option Feat) :
    checkInput d'.X d'.y cf d'.names = checkInput d.X d.y cf d.names := by
  have hn : d'.X.rows = [] ↔ d.X.rows = [] := by
    rw [← List.length_eq_zero_iff, h.length, List.length_eq_zero_iff]
  unfold Witt.checkInput
  rw [h.names, h.cols]
  simp only [hn]
  rcases h.examples with ⟨h1, h2, _⟩ | ⟨vs, vs', h1, h2, _⟩ | ⟨_, lvs, lvs', h1, h2, _⟩
  · rw [h1, h2]
  · rw [h1, h2]
  · rw [h1, h2]; cases cf <;> rfl

theorem Spec.ReorderedData.className {d d' : FitData} (h : ReorderedData d d') (cf : Option Feat) :
    classFeatName cf d'.y = classFeatName cf d.y := by
  rcases h.examples with ⟨h1, h2, _⟩ | ⟨vs, vs', h1, h2, _⟩ | ⟨_, lvs, lvs', h1, h2, _⟩
  · rw [h1, h2]
  · rw [h1, h2]; cases cf <;> rfl
  · rw [h1, h2]; cases cf <;> rfl

/-- The first step of `toTraining`. -/
def renamed (X : TFrame) (names : Option (List Feat)) : Except PyErr TFrame :=
  match names with
  | none => .ok X
  | some ns => X.rename ns

theorem toTraining_renamed (X : TFrame) (y : Option YArg) (cf : Feat) (names : Option (List Feat)) :
    toTraining X y cf names = (renamed X names >>= fun X1 => match y with | none => .ok X1 | some y => attachY X1 cf y) := rfl

theorem Spec.ReorderedData.training {d d' : FitData} (h : ReorderedData d d') (cf : Feat) :
    OutRel TReordered (toTraining d.X d.y cf d.names) (toTraining d'.X d'.y cf d'.names) := by
  -- renaming
  have hren : OutRel (fun X1 X1' : TFrame => X1'.cols = X1.cols ∧ X1'.kind = X1.kind ∧
      ∃ f : Row → Row, X1.rows = d.X.rows.map f ∧ X1'.rows = d'.X.rows.map f)
      (renamed d.X d.names) (renamed d'.X d.names) := by
    cases d.names with
    | none => exact .ok ⟨h.cols, h.kind, id, by simp, by simp⟩
    | some ns =>
      simp only [renamed, TFrame.rename, h.cols, h.kind]
      split
      · exact .err _
      · exact .ok ⟨rfl, rfl, _, rfl, rfl⟩
  rw [toTraining_renamed, toTraining_renamed, h.names]
  revert hren
  generalize renamed d.X d.names = o
  generalize renamed d'.X d.names = o'
  intro hren
  cases hren with
  | err e => exact .err e
  | @ok X1 X1' hX =>
    obtain ⟨hc, hk, f, hr, hr'⟩ := hX
    simp only [ok_bind]
    rcases h.examples with ⟨h1, h2, hp⟩ | ⟨vs, vs', h1, h2, hl, hl', hp⟩ | ⟨name, lvs, lvs', h1, h2, hl, hl', hp⟩
    · rw [h1, h2]
      refine .ok ⟨⟨hc, ?_⟩, hk⟩
      rw [hr, hr']
      exact hp.map f
    · rw [h1, h2]
      simp only [attachY]
      rw [if_neg (by rw [hr]; simp [hl]), if_neg (by rw [hr']; simp [hl'])]
      refine .ok (setCol_reordered hc hk cf (by rw [hr]; simp [hl]) (by rw [hr']; simp [hl']) ?_)
      have := hp.map (Prod.map f id)
      rw [hr, hr', List.zip_map_left, List.zip_map_left]
      exact this
    · rw [h1, h2]
      simp only [attachY]
      rw [if_pos (by rw [hr]; simp [hl]), if_pos (by rw [hr']; simp [hl'])]
      refine OutRel.ok ?_
      apply setCol_reordered
      · exact hc
      · exact hk
      · simp [hr, hl]
      · simp [hr', hl']
      have key : ∀ (rows : List Row) (l : List (Label × Val)),
          List.zip ((rows.map f).zip l |>.map fun rl => ({ rl.1 with label := rl.2.1 } : Row)) (l.map Prod.snd) =
            (rows.zip l).map fun p => (({ f p.1 with label := p.2.1 } : Row), p.2.2) := by
        intro rows
        induction rows with
        | nil => intro l; rfl
        | cons x rows ih =>
          intro l
          cases l with
          | nil => rfl
          | cons q l => simp only [List.map_cons, List.zip_cons_cons, ih]
      dsimp only
      rw [hr, hr', key, key]
      exact hp.map _

/-- Preprocessing reordered data: the same positive class and bins, and the same frame, reordered. -/
theorem preprocess_reordered {d d' : FitData} (h : ReorderedData d d') (hpc : d.posClass ≠ none) (F : PyFloat) {P : PandasCut}
    (hP : OrderFree P) (n : Option Nat) :
    OutRel (fun q q' => TReordered q.1 q'.1 ∧ q'.2 = q.2) (preprocessTraining F P n d) (preprocessTraining F P n d') := by
  unfold preprocessTraining
  rw [h.classFeat, h.checkInput, h.className, h.posClass]
  cases checkInput d.X d.y d.classFeat d.names with
  | error e => exact .err e
  | ok u =>
    simp only [ok_bind]
    have ht := h.training (classFeatName d.classFeat d.y)
    revert ht
    generalize toTraining d.X d.y (classFeatName d.classFeat d.y) d.names = o
    generalize toTraining d'.X d'.y (classFeatName d.classFeat d.y) d'.names = o'
    intro ht
    cases ht with
    | err e => exact .err e
    | @ok df0 df0' ht =>
      obtain ⟨pc, hpc⟩ := Option.ne_none_iff_exists'.mp hpc
      simp only [ok_bind, hpc, posClassOf, Binner.fitTransform]
      rw [ht.binner F hP]
      have htr := transform_reordered F (Binner.fit F P n df0 [classFeatName d.classFeat d.y]) ht
      revert htr
      generalize Binner.transform F _ df0 = t
      generalize Binner.transform F _ df0' = t'
      intro htr
      cases htr with
      | err e => exact .err e
      | ok htr => exact .ok ⟨htr, rfl⟩

/-! ### training -/

theorem irepFit_reordered [Arith] [Arith.Lawful] {R R' : PyRandom} (hR : R.Lawful) (hR' : R'.Lawful) (fuel : Nat) {hp : Hyper}
    (h0 : Unpruned hp) (rs : Option Int) (init : List (List Cond)) {df df' : Frame} (h : Reordered df df') {cf : Feat}
    (hu : SameFirsts df df' cf) (pc : Val) (g : R.G) (g' : R'.G) :
    (irepFit fuel R' { hp with randomState := rs } init df' cf pc g').map Prod.fst =
      (irepFit fuel R hp init df cf pc g).map Prod.fst := by
  have hn : df'.rows = [] ↔ df.rows = [] := by
    rw [← List.length_eq_zero_iff, h.rows.length_eq, List.length_eq_zero_iff]
  unfold irepFit
  simp only [hn, h.cols]
  split
  · rfl
  split
  · rfl
  rename_i hcf
  rw [not_not] at hcf
  obtain ⟨cn, hb⟩ : ∃ cn, CatNap.build df cf = .ok cn := ⟨_, CatNap.build_ok hcf⟩
  obtain ⟨cn', hb', hal⟩ := build_reordered h hu hb
  rw [hb, hb']
  simp only [ok_bind]
  have := irepGrowCn_alike hR hR' fuel hal (hp' := { hp with randomState := rs }) (irepPrune_zero h0) rfl rfl init
    (labelSet_perm (h.keep fun r => (r.cell cf).pyEq pc).index) (labelSet_perm (h.keep fun r => !(r.cell cf).pyEq pc).index) g g'
  change OutRel AlikeGrow (irepGrowCn fuel R cn hp init (labelSet (posRows df cf pc).index) (labelSet (negRows df cf pc).index) g)
    (irepGrowCn fuel R' cn' { hp with randomState := rs } init (labelSet (posRows df' cf pc).index)
      (labelSet (negRows df' cf pc).index) g') at this
  revert this
  generalize irepGrowCn fuel R cn hp init _ _ g = o
  generalize irepGrowCn fuel R' cn' _ init _ _ g' = o'
  intro h'
  cases h' with
  | err e => rfl
  | ok h' =>
    simp only [ok_bind]
    rw [h'.1, hal.conds, recalibrate_reordered h, (h.dropCol cf).cols, map_bind, map_bind]
    rfl

theorem irepFitPlain_reordered [Arith] [Arith.Lawful] {R R' : PyRandom} (hR : R.Lawful) (hR' : R'.Lawful) (fuel : Nat) (S : SetOps)
    {hp : Hyper} (h0 : Unpruned hp) (rs : Option Int) (old : Option (List Cond)) (init : List (List Cond)) {df df' : Frame}
    (h : Reordered df df') {cf : Feat} {pc : Val} (hup : SameFirsts (posRows df cf pc) (posRows df' cf pc) cf)
    (hun : SameFirsts (negRows df cf pc) (negRows df' cf pc) cf) (g : R.G) (g' : R'.G) :
    (irepFitPlain fuel R' S { hp with randomState := rs } old init df' cf pc g').map Prod.fst =
      (irepFitPlain fuel R S hp old init df cf pc g).map Prod.fst := by
  have hn : df'.rows = [] ↔ df.rows = [] := by
    rw [← List.length_eq_zero_iff, h.rows.length_eq, List.length_eq_zero_iff]
  have hpos : Reordered (posExamples df cf pc) (posExamples df' cf pc) := (h.keep _).dropCol cf
  have hneg : Reordered (negExamples df cf pc) (negExamples df' cf pc) := (h.keep _).dropCol cf
  have hcands : updatedConds S old (posExamples df' cf pc) (negExamples df' cf pc) =
      updatedConds S old (posExamples df cf pc) (negExamples df cf pc) := by
    unfold updatedConds sharedConds
    rw [hpos.cols]
    congr 1
    refine List.flatMap_congr fun f hf => ?_
    have hf' : f ∈ df.cols ∧ f ≠ cf := Frame.mem_dropCol.mp hf
    have h1 : (posExamples df' cf pc).unique f = (posExamples df cf pc).unique f := hup f hf'.1 hf'.2
    have h2 : (negExamples df' cf pc).unique f = (negExamples df cf pc).unique f := hun f hf'.1 hf'.2
    rw [h1, h2]
  unfold irepFitPlain
  simp only [hn, h.cols, hcands]
  split
  · rfl
  split
  · rfl
  have := irepGrow_alike hR hR' fuel (updatedConds S old (posExamples df cf pc) (negExamples df cf pc))
    (hp' := { hp with randomState := rs }) (irepPrune_zero h0) rfl rfl init hpos hneg g g'
  revert this
  generalize irepGrow fuel R _ hp init _ _ g = o
  generalize irepGrow fuel R' _ _ init _ _ g' = o'
  intro h'
  cases h' with
  | err e => rfl
  | ok h' =>
    simp only [ok_bind]
    rw [h'.1, recalibrate_reordered h, (h.dropCol cf).cols, map_bind, map_bind]
    rfl

/-- C101. IREP without pruning: if the rows of the preprocessed training data are put in another order in which the different
values of each column are still first met in the same order, the model learned (rules, class frequencies, everything) or the exception
raised is the same, whatever the generators and seeds. -/
theorem C101_irep_row_order [Arith] [Arith.Lawful] (R R' : PyRandom) (hR : R.Lawful) (hR' : R'.Lawful) (fuel : Nat) (hp : Hyper)
    (h0 : Unpruned hp) (rs : Option Int) (old : Option (List Cond)) (init : List (List Cond)) (df df' : Frame) (h : Reordered df df')
    (cf : Feat) (hu : SameFirsts df df' cf) (pc : Val) (g : R.G) (g' : R'.G) :
    (Method.irep.train fuel R' { hp with randomState := rs } old init df' cf pc g').map Prod.fst =
      (Method.irep.train fuel R hp old init df cf pc g).map Prod.fst :=
  irepFit_reordered hR hR' fuel h0 rs init h hu pc g g'

/-- C101, `cn_optimize=False`: the same if this holds of the positive rows and of the negative rows by themselves. -/
theorem C101_irep_plain_row_order [Arith] [Arith.Lawful] (R R' : PyRandom) (hR : R.Lawful) (hR' : R'.Lawful) (fuel : Nat) (S : SetOps)
    (hp : Hyper) (h0 : Unpruned hp) (rs : Option Int) (old : Option (List Cond)) (init : List (List Cond)) (df df' : Frame)
    (h : Reordered df df') (cf : Feat) (pc : Val) (hup : SameFirsts (posRows df cf pc) (posRows df' cf pc) cf)
    (hun : SameFirsts (negRows df cf pc) (negRows df' cf pc) cf) (g : R.G) (g' : R'.G) :
    ((Method.irepPlain S).train fuel R' { hp with randomState := rs } old init df' cf pc g').map Prod.fst =
      ((Method.irepPlain S).train fuel R hp old init df cf pc g).map Prod.fst :=
  irepFitPlain_reordered hR hR' fuel S h0 rs old init h hup hun g g'

theorem fit_reordered [Arith] (a : Method) (R R' : PyRandom) (fuel : Nat) (F : PyFloat)
    (P : PandasCut) (hP : OrderFree P) (d d' : FitData) (h : ReorderedData d d') (hpc : d.posClass ≠ none) (init : ModelArg)
    (c : Clf) (g : R.G) (g' : R'.G)
    (ht : ∀ df df' cf pc b q', preprocessTraining F P c.nBins d = .ok (df, cf, pc, b) → preprocessTraining F P c.nBins d' = .ok (df', cf, q') →
      Reordered df.toFrame df'.toFrame → ∀ old init,
      (a.train fuel R' c.hyper old init df'.toFrame cf pc g').map Prod.fst = (a.train fuel R c.hyper old init df.toFrame cf pc g).map Prod.fst) :
    (completed (a.fit fuel R' F P d' init g' c)).map Prod.snd =
      (completed (a.fit fuel R F P d init g c)).map Prod.snd := by
  rw [Method.fit_completed, Method.fit_completed]
  generalize a.early init = x
  cases x with
  | error e => rfl
  | ok rs' =>
    simp only [ok_bind]
    have hpre := preprocess_reordered h hpc F hP c.nBins
    revert hpre ht
    generalize preprocessTraining F P c.nBins d = o
    generalize preprocessTraining F P c.nBins d' = o'
    intro ht hpre
    cases hpre with
    | err e => rfl
    | @ok q q' hq =>
      obtain ⟨df, cf, pc, b⟩ := q
      obtain ⟨df', q'⟩ := q'
      obtain ⟨hq, rfl⟩ := hq
      simp only [ok_bind]
      cases init.toRuleset with
      | error e => rfl
      | ok start =>
        simp only [ok_bind]
        have := ht df df' cf pc b _ rfl rfl hq.frame start.possible (start.rules.map Rule.conds)
        revert this
        generalize a.train fuel R c.hyper start.possible (start.rules.map Rule.conds) df.toFrame cf pc g = o
        generalize a.train fuel R' c.hyper start.possible (start.rules.map Rule.conds) df'.toFrame cf pc g' = o'
        intro h
        cases o with
        | error e =>
          cases o' with
          | error e' => cases h; rfl
          | ok v => cases h
        | ok u =>
          cases o' with
          | error e' => cases h
          | ok v =>
            have : v.1 = u.1 := by simpa [Except.map] using h
            simp [Except.map, this, ok_bind, pure_eq_ok]

/-- C101 for the API. `IREP(prune_size=None).fit` with the positive class named: passing the examples in another order in which,
after discretisation, the different values of each column are still first met in the same order leaves the object, or the
exception, the same. -/
theorem C101_fit_row_order [Arith] [Arith.Lawful] (R R' : PyRandom) (hR : R.Lawful) (hR' : R'.Lawful) (fuel : Nat) (F : PyFloat)
    (P : PandasCut) (hP : OrderFree P) (d d' : FitData) (h : ReorderedData d d') (hpc : d.posClass ≠ none) (init : ModelArg)
    (c : Clf) (h0 : Unpruned c.hyper)
    (hu : ∀ df df' cf q q', preprocessTraining F P c.nBins d = .ok (df, cf, q) → preprocessTraining F P c.nBins d' = .ok (df', cf, q') →
      SameFirsts df.toFrame df'.toFrame cf)
    (g : R.G) (g' : R'.G) :
    (completed (Clf.irepFit fuel R' F P d' init g' c)).map Prod.snd =
      (completed (Clf.irepFit fuel R F P d init g c)).map Prod.snd :=
  fit_reordered .irep R R' fuel F P hP d d' h hpc init c g g' fun df df' cf pc b q' e e' hr old init' =>
    C101_irep_row_order R R' hR hR' fuel c.hyper h0 c.hyper.randomState old init' df.toFrame df'.toFrame hr cf (hu df df' cf _ _ e e') pc g g'

/-- C101 for the API, `cn_optimize=False`: the same if this holds of the positive rows and of the negative rows by themselves. -/
theorem C101_fit_plain_row_order [Arith] [Arith.Lawful] (R R' : PyRandom) (hR : R.Lawful) (hR' : R'.Lawful) (fuel : Nat) (S : SetOps)
    (F : PyFloat) (P : PandasCut) (hP : OrderFree P) (d d' : FitData) (h : ReorderedData d d') (hpc : d.posClass ≠ none)
    (init : ModelArg) (c : Clf) (h0 : Unpruned c.hyper)
    (hu : ∀ df df' cf pc b q', preprocessTraining F P c.nBins d = .ok (df, cf, pc, b) → preprocessTraining F P c.nBins d' = .ok (df', cf, q') →
      SameFirsts (posRows df.toFrame cf pc) (posRows df'.toFrame cf pc) cf ∧
      SameFirsts (negRows df.toFrame cf pc) (negRows df'.toFrame cf pc) cf)
    (g : R.G) (g' : R'.G) :
    (completed (Clf.irepFitPlain fuel R' S F P d' init g' c)).map Prod.snd =
      (completed (Clf.irepFitPlain fuel R S F P d init g c)).map Prod.snd :=
  fit_reordered (.irepPlain S) R R' fuel F P hP d d' h hpc init c g g' fun df df' cf pc b q' e e' hr old init' =>
    C101_irep_plain_row_order R R' hR hR' fuel S c.hyper h0 c.hyper.randomState old init' df.toFrame df'.toFrame hr cf pc
      (hu df df' cf pc b _ e e').1 (hu df df' cf pc b _ e e').2 g g'

/-- C101, recalibration. `recalibrate_proba` (any object, fitted or not, any parameters) does the same, and raises the same, for its
examples in any other order. -/
theorem C101_recalibrate_row_order (F : PyFloat) (X X' : TFrame) (y y' : Option YArg) (names : Option (List Feat))
    (h : ReorderedData { X := X, y := y, names := names } { X := X', y := y', names := names })
    (ms : Option Int) (req disc : Bool) (c : Clf) :
    Clf.recalibrate F X' y' names ms req disc c = Clf.recalibrate F X y names ms req disc c := by
  have hpre : ∀ cf b, OutRel TReordered (preprocessRecalibrate F X y cf b names) (preprocessRecalibrate F X' y' cf b names) := by
    intro cf b
    unfold preprocessRecalibrate
    have e1 : checkInput X' y' (some cf) names = checkInput X y (some cf) names := h.checkInput (some cf)
    rw [e1]
    cases checkInput X y (some cf) names with
    | error e => exact .err e
    | ok u =>
      simp only [ok_bind]
      have ht : OutRel TReordered (toTraining X y cf names) (toTraining X' y' cf names) := h.training cf
      revert ht
      generalize toTraining X y cf names = o
      generalize toTraining X' y' cf names = o'
      intro ht
      cases ht with
      | err e => exact .err e
      | ok ht =>
        simp only [ok_bind]
        cases b with
        | none => exact .ok ht
        | some b =>
          simp only [applyBins]
          split
          · exact .ok ht
          · exact transform_reordered F b ht
  unfold Clf.recalibrate
  have hrest : ∀ cf pc b, (do
      let df ← pureCode (preprocessRecalibrate F X' y' cf b names)
      let rs ← self Clf.ruleset
      let alpha := (← EStateM.get).hyper.alpha
      match recalibrateProba rs df.toFrame cf pc ms req alpha with
      | (rs', none) => modify (fun c => { c with ruleset := some rs' })
      | (rs', some e) =>
        modify (fun c => { c with ruleset := some rs' })
        throw e : OnClf Unit) = (do
      let df ← pureCode (preprocessRecalibrate F X y cf b names)
      let rs ← self Clf.ruleset
      let alpha := (← EStateM.get).hyper.alpha
      match recalibrateProba rs df.toFrame cf pc ms req alpha with
      | (rs', none) => modify (fun c => { c with ruleset := some rs' })
      | (rs', some e) =>
        modify (fun c => { c with ruleset := some rs' })
        throw e : OnClf Unit) := by
    intro cf pc b
    have := hpre cf b
    revert this
    generalize preprocessRecalibrate F X y cf b names = o
    generalize preprocessRecalibrate F X' y' cf b names = o'
    intro ht
    cases ht with
    | err e => rfl
    | @ok df df' ht =>
      have : ∀ rs alpha, recalibrateProba rs df'.toFrame cf pc ms req alpha = recalibrateProba rs df.toFrame cf pc ms req alpha := by
        intro rs alpha
        unfold recalibrateProba
        exact recalibrate_reordered ht.frame rs cf pc alpha
      simp only [pureCode, pure_bind, this]
  exact congrFun (bind_congr fun cf => bind_congr fun pc => bind_congr fun b => hrest cf pc b) c

/-! ### the hypotheses matter -/

namespace Demo
/-- `train` with its second and last rows exchanged: values are first met in the same order. -/
def trainSwapped : Frame := Frame.ofTable [fa, fb, fc]
  [(0, [vx, vx, vp]), (4, [vx, vy, vn]), (2, [vy, vx, vn]), (3, [vy, vy, vn]), (1, [vx, vy, vp])]
/-- `xor` backwards: values are first met in another order. -/
def xorBack : Frame := Frame.ofTable [fa, fb, fc] [(3, [vy, vx, vn]), (2, [vx, vy, vn]), (1, [vy, vy, vp]), (0, [vx, vx, vp])]
theorem swapped_reordered : Reordered train trainSwapped where
  cols := rfl
  rows := by
    unfold train trainSwapped Frame.ofTable
    refine List.Perm.map _ ?_
    decide +kernel
/-- `train` in another order, negatives included: values are first met in the same order among positives and among negatives. -/
def trainMoved : Frame := Frame.ofTable [fa, fb, fc]
  [(2, [vy, vx, vn]), (0, [vx, vx, vp]), (4, [vx, vy, vn]), (3, [vy, vy, vn]), (1, [vx, vy, vp])]
theorem moved_reordered : Reordered train trainMoved where
  cols := rfl
  rows := by
    unfold train trainMoved Frame.ofTable
    refine List.Perm.map _ ?_
    decide +kernel
theorem back_reordered : Reordered xor xorBack where
  cols := rfl
  rows := by
    unfold xor xorBack Frame.ofTable
    refine List.Perm.map _ ?_
    decide +kernel
def learned {α : Type} (r : Except PyErr (Fitted × α)) : Option (List (List Cond)) :=
  r.toOption.map fun m => m.1.ruleset.rules.map Rule.conds
end Demo

/-- C101 fails if values are first met in another order, even without pruning (the condition met first wins a tie), and with
pruning, for IREP and for RIPPER, even with a seed (the same shuffle then separates other rows). -/
theorem C101_refuted :
    (Reordered Demo.xor Demo.xorBack ∧ ¬ SameFirsts Demo.xor Demo.xorBack Demo.fc ∧
      Demo.learned (irepFit 9 Demo.R0 { pruneSize := none, lim := { maxRules := some 1 } } [] Demo.xorBack Demo.fc Demo.vp ()) ≠
      Demo.learned (irepFit 9 Demo.R0 { pruneSize := none, lim := { maxRules := some 1 } } [] Demo.xor Demo.fc Demo.vp ())) ∧
    (Reordered Demo.train Demo.trainSwapped ∧ SameFirsts Demo.train Demo.trainSwapped Demo.fc ∧
      Demo.learned (irepFit 9 Demo.R1 { pruneSize := some (1 / 2), randomState := some 3 } [] Demo.trainSwapped Demo.fc Demo.vp (0 : Nat)) ≠
      Demo.learned (irepFit 9 Demo.R1 { pruneSize := some (1 / 2), randomState := some 3 } [] Demo.train Demo.fc Demo.vp (0 : Nat)) ∧
      Demo.learned (ripperFit 9 Demo.R1 { pruneSize := some (1 / 2), randomState := some 3 } [] Demo.trainSwapped Demo.fc Demo.vp (0 : Nat)) ≠
      Demo.learned (ripperFit 9 Demo.R1 { pruneSize := some (1 / 2), randomState := some 3 } [] Demo.train Demo.fc Demo.vp (0 : Nat))) := by
  refine ⟨⟨Demo.back_reordered, ?_, by decide +kernel⟩, Demo.swapped_reordered, ?_, by decide +kernel, by decide +kernel⟩
  · unfold SameFirsts; decide +kernel
  · unfold SameFirsts; decide +kernel

/-! ### concrete cases -/

namespace Demo
/-- `mixedData` with the first two and the last two rows exchanged. -/
def mixedOther : FitData :=
  { mixedData with X := { mixed with rows := match mixed.rows with | [a, b, c, d, e, f] => [b, a, c, d, f, e] | l => l } }
theorem mixed_reordered : ReorderedData mixedData mixedOther where
  cols := rfl
  kind := rfl
  names := rfl
  classFeat := rfl
  posClass := rfl
  examples := by
    refine Or.inr (Or.inl ⟨_, _, rfl, rfl, by decide +kernel, by decide +kernel, ?_⟩)
    show List.Perm (List.zip [_, _, _, _, _, _] [_, _, _, _, _, _]) (List.zip [_, _, _, _, _, _] [_, _, _, _, _, _])
    refine (List.Perm.swap _ _ _).trans (.cons _ (.cons _ (.cons _ (.cons _ (List.Perm.swap _ _ _)))))
theorem P_orderFree : OrderFree P := by
  intro vs vs' n h
  refine ⟨rfl, funext fun i => ?_⟩
  show List.any vs' _ = List.any vs _
  rw [Bool.eq_iff_iff]
  simp only [List.any_eq_true, h.mem_iff]
end Demo

/-- The hypotheses hold of concrete data with labels, text and (discretised) numbers; without pruning, the model is the same. -/
example : Reordered Demo.train Demo.trainSwapped ∧ SameFirsts Demo.train Demo.trainSwapped Demo.fc ∧
    Reordered Demo.train Demo.trainMoved ∧
    SameFirsts (posRows Demo.train Demo.fc Demo.vp) (posRows Demo.trainMoved Demo.fc Demo.vp) Demo.fc ∧
    SameFirsts (negRows Demo.train Demo.fc Demo.vp) (negRows Demo.trainMoved Demo.fc Demo.vp) Demo.fc ∧
    ReorderedData Demo.mixedData Demo.mixedOther ∧ OrderFree Demo.P ∧ Unpruned Demo.newIrep.hyper := by
  refine ⟨Demo.swapped_reordered, ?_, Demo.moved_reordered, ?_, ?_, Demo.mixed_reordered, Demo.P_orderFree, Or.inl rfl⟩ <;>
    (unfold SameFirsts; decide +kernel)

/-- The hypothesis of `C101_fit_row_order` on the discretised values, and its conclusion. -/
example : (∀ df df' cf q q', preprocessTraining Demo.F Demo.P (some 3) Demo.mixedData = .ok (df, cf, q) →
      preprocessTraining Demo.F Demo.P (some 3) Demo.mixedOther = .ok (df', cf, q') → SameFirsts df.toFrame df'.toFrame cf) ∧
    (Demo.seen (Clf.irepFit 7 Demo.R0 Demo.F Demo.P Demo.mixedOther .nothing () Demo.newIrep)).1 =
    (Demo.seen (Clf.irepFit 7 Demo.R0 Demo.F Demo.P Demo.mixedData .nothing () Demo.newIrep)).1 := by
  refine ⟨?_, by decide +kernel⟩
  have key : (match preprocessTraining Demo.F Demo.P (some 3) Demo.mixedData, preprocessTraining Demo.F Demo.P (some 3) Demo.mixedOther with
      | .ok (df, cf, _), .ok (df', _, _) => decide (∀ f ∈ df.cols, f ≠ cf → df'.unique f = df.unique f)
      | _, _ => true) = true := by decide +kernel
  intro df df' cf q q' h h'
  rw [h, h'] at key
  have := of_decide_eq_true key
  exact this

end Witt
