import Verif.Props.IrrelevantPlain
import Verif.Props.FitApi
import Verif.Props.Limits
/-
C98 for the methods of the API: `fit` on data with a superfluous column, then `predict` and `predict_proba`.
-/
namespace Witt
open Spec

namespace Spec
/-- Discretisation leaves the column alone: it is not numeric, or there are no bins, or it has no more different values than
`n_discretize_bins`. -/
def LeftAlone (nBins : Option Nat) (X : TFrame) (f : Feat) : Prop :=
  X.kind f ≠ .number ∨ nBins = none ∨ nBins = some 0 ∨ ∃ n, nBins = some n ∧ (X.unique f).length ≤ n
/-- The column `e` of the data passed to `fit` adds nothing: it is constant, or it repeats a column to its left, and
discretisation leaves both alone. -/
def Superfluous (nBins : Option Nat) (X : TFrame) (cf e : Feat) : Prop :=
  LeftAlone nBins X e ∧ (ConstantColumn X.toFrame e ∨
    ∃ f before after, X.cols = before ++ after ∧ f ∈ before ∧ e ∉ before ∧ f ≠ cf ∧ LeftAlone nBins X f ∧
      ∀ row ∈ X.rows, ∀ row' ∈ X.rows, (Same (row.cell e) (row'.cell e) ↔ Same (row.cell f) (row'.cell f)))
/-- The training data without the column. -/
def _root_.Witt.FitData.dropCol (d : FitData) (e : Feat) : FitData := { d with X := d.X.dropCol e }
/-- The rules and candidate conditions of the initial model do not mention the column. -/
def _root_.Witt.ModelArg.Without (init : ModelArg) (e : Feat) : Prop :=
  ∀ start, init.toRuleset = .ok start →
    (∀ r ∈ start.rules, ∀ c ∈ r.conds, c.feature ≠ e) ∧ ∀ l, start.possible = some l → ∀ c ∈ l, c.feature ≠ e
/-- The object, except for the lists of the training data's columns and of the conditions on them. -/
def _root_.Witt.Clf.learned (c : Clf) : Clf :=
  { c with trainFeats := none, ruleset := c.ruleset.map fun rs => { rs with possible := none } }
end Spec

/-! ### preprocessing without the column -/

theorem setCol_dropCol {e cf : Feat} (h : e ≠ cf) (X : TFrame) (vs : List Val) :
    (X.dropCol e).setCol cf vs = (X.setCol cf vs).dropCol e := by
  obtain ⟨⟨cols, rows⟩, kind⟩ := X
  unfold TFrame.setCol TFrame.dropCol Frame.dropCol
  dsimp only
  have : (cols.filter (fun f => decide (f ≠ e))).contains cf = cols.contains cf := by
    rw [Bool.eq_iff_iff, List.contains_iff_mem, List.contains_iff_mem, List.mem_filter]
    exact ⟨fun h => h.1, fun h1 => ⟨h1, decide_eq_true (fun h2 => h h2.symm)⟩⟩
  rw [this]
  split
  · rfl
  · rw [List.filter_append]
    have hc : cf ≠ e := fun h2 => h h2.symm
    simp [hc]

theorem toTraining_dropCol {e cf : Feat} (h : e ≠ cf) (X : TFrame) (y : Option YArg) :
    toTraining (X.dropCol e) y cf none = (toTraining X y cf none).map (·.dropCol e) := by
  unfold toTraining
  simp only [ok_bind]
  cases y with
  | none => rfl
  | some y =>
    cases y with
    | list vs =>
      unfold attachY
      dsimp only
      have : (X.dropCol e).rows = X.rows := rfl
      rw [this]
      split
      · rfl
      · rw [setCol_dropCol h]; rfl
    | series n lvs =>
      unfold attachY
      dsimp only
      have : (X.dropCol e).rows = X.rows := rfl
      rw [this]
      split
      · exact congrArg Except.ok (setCol_dropCol h { X with rows := (X.rows.zip lvs).map (fun rl => { rl.1 with label := rl.2.1 }) } _)
      · split
        · rfl
        · rw [setCol_dropCol h]; rfl

theorem mapCol_dropCol {e f : Feat} (X : TFrame) (G : Val → Val) :
    (X.dropCol e).mapCol f G = (X.mapCol f G).dropCol e := rfl

theorem transformLoop_dropCol {F : PyFloat} {b : Binner} {done : List Feat} {e : Feat} : ∀ (l : List (Feat × List PStr)),
    (∀ p ∈ l, p.1 ≠ e) → ∀ X : TFrame,
    transformLoop F b done l (X.dropCol e) = (transformLoop F b done l X).map (·.dropCol e)
  | [], _, _ => rfl
  | (f, labels) :: rest, h, X => by
    unfold transformLoop
    have hf : f ≠ e := h _ List.mem_cons_self
    have : (X.dropCol e).cols.contains f = X.cols.contains f := by
      rw [Bool.eq_iff_iff, List.contains_iff_mem, List.contains_iff_mem, dropCol_cols]
      exact ⟨fun h => h.1, fun h1 => ⟨h1, hf⟩⟩
    rw [this]
    have ih := fun X => transformLoop_dropCol (F := F) (b := b) (done := done) rest (fun p hp => h p (List.mem_cons_of_mem _ hp)) X
    split
    · cases featTransform F b f labels with
      | error x => rfl
      | ok G => simp only [ok_bind, mapCol_dropCol]; exact ih _
    · exact ih _

theorem contains_dropCol {X : TFrame} {e f : Feat} (hf : f ≠ e) : (X.dropCol e).cols.contains f = X.cols.contains f := by
  rw [Bool.eq_iff_iff, List.contains_iff_mem, List.contains_iff_mem, dropCol_cols]
  exact ⟨fun h => h.1, fun h1 => ⟨h1, hf⟩⟩

theorem transform_dropCol {F : PyFloat} {b : Binner} {e : Feat} (h : ∀ p ∈ b.bins, p.1 ≠ e) (X : TFrame) :
    b.transform F (X.dropCol e) = (b.transform F X).map (·.dropCol e) := by
  unfold Binner.transform
  have h1 : findTransformed b (X.dropCol e) = findTransformed b X := by
    unfold findTransformed transformedFeats
    have e1 : (X.dropCol e).kind = X.kind := rfl
    have e2 : (X.dropCol e).rows = X.rows := rfl
    rw [e1, e2]
    have a1 : (b.bins.any fun p => (X.dropCol e).cols.contains p.1 && X.kind p.1 == .text &&
        X.rows.any (fun row => !(p.2.any (fun l => (row.cell p.1).pyEq (.str l))))) =
      (b.bins.any fun p => X.cols.contains p.1 && X.kind p.1 == .text &&
        X.rows.any (fun row => !(p.2.any (fun l => (row.cell p.1).pyEq (.str l))))) := by
      rw [Bool.eq_iff_iff, List.any_eq_true, List.any_eq_true]
      refine exists_congr fun p => and_congr_right fun hp => ?_
      rw [contains_dropCol (h p hp)]
    have a2 : ((b.bins.map Prod.fst).filter fun f => (X.dropCol e).cols.contains f && X.kind f == .text) =
        ((b.bins.map Prod.fst).filter fun f => X.cols.contains f && X.kind f == .text) := by
      refine List.filter_congr fun f hf => ?_
      obtain ⟨p, hp, rfl⟩ := List.mem_map.mp hf
      rw [contains_dropCol (h p hp)]
    rw [a1, a2]
  rw [h1]
  cases findTransformed b X with
  | error x => rfl
  | ok done => exact transformLoop_dropCol _ h X

theorem continuousFeats_dropCol {n : Option Nat} {X : TFrame} {e : Feat} (ig : List Feat) (h : LeftAlone n X e) :
    continuousFeats n (X.dropCol e) ig = continuousFeats n X ig ∧ e ∉ continuousFeats n X ig := by
  unfold continuousFeats
  rcases n with - | - | n
  · exact ⟨rfl, by simp⟩
  · exact ⟨rfl, by simp⟩
  have he : (X.kind e == Kind.number && decide (n + 1 < (X.unique e).length)) = false := by
    rcases h with h | h | h | ⟨m, h, h'⟩
    · have : (X.kind e == Kind.number) = false := by simpa using h
      rw [this]; rfl
    · cases h
    · cases h
    · cases h
      rw [Bool.and_eq_false_iff]
      exact Or.inr (decide_eq_false (by omega))
  constructor
  · show (List.filter _ (X.cols.filter (fun f => decide (f ≠ e)))) = _
    rw [List.filter_filter]
    refine List.filter_congr fun f _ => ?_
    by_cases hf : f = e
    · subst hf
      rw [he]
      simp
    · simp only [Bool.and_true, ne_eq, not_false_eq_true, decide_true, hf]
      rfl
  · show e ∉ List.filter (fun f => X.kind f == Kind.number && decide (n + 1 < (X.unique f).length) && !ig.contains f) X.cols
    rw [List.mem_filter]
    rintro ⟨_, h⟩
    rw [he] at h
    cases h

theorem binnerFit_dropCol {F : PyFloat} {P : PandasCut} {n : Option Nat} {X : TFrame} {e : Feat} (ig : List Feat) (h : LeftAlone n X e) :
    Binner.fit F P n (X.dropCol e) ig = Binner.fit F P n X ig ∧ ∀ p ∈ (Binner.fit F P n X ig).bins, p.1 ≠ e := by
  have hc := continuousFeats_dropCol ig h
  constructor
  · unfold Binner.fit
    rw [hc.1]
    rfl
  · intro p hp he
    unfold Binner.fit at hp
    obtain ⟨f, hf, hp⟩ := List.mem_filterMap.mp hp
    dsimp only at hp
    split at hp
    · cases hp
      exact hc.2 (he ▸ hf)
    · cases hp

/-- The class column apart, the rows after attaching the labels hold what they held. -/
theorem attach_same {X X' : TFrame} {y : Option YArg} {cf : Feat} (h : toTraining X y cf none = .ok X') :
    (∀ f, f ≠ cf → X'.rows.map (·.cell f) = X.rows.map (·.cell f) ∧ X'.kind f = X.kind f) ∧ ∃ more, X'.cols = X.cols ++ more := by
  have hset : ∀ (X : TFrame) (vs : List Val), vs.length = X.rows.length →
      (∀ f, f ≠ cf → (X.setCol cf vs).rows.map (·.cell f) = X.rows.map (·.cell f) ∧ (X.setCol cf vs).kind f = X.kind f) ∧
      ∃ more, (X.setCol cf vs).cols = X.cols ++ more := by
    intro X vs hl
    refine ⟨fun f hf => ⟨?_, ?_⟩, ?_⟩
    · unfold TFrame.setCol
      dsimp only
      rw [List.map_map]
      have : ((fun row : Row => row.cell f) ∘ fun rv : Row × Val =>
          ({ label := rv.1.label, cell := fun f' => if f' = cf then rv.2 else rv.1.cell f' } : Row)) =
          (fun row : Row => row.cell f) ∘ Prod.fst := by
        funext rv
        simp [hf]
      rw [this, ← List.map_map, List.map_fst_zip (by omega)]
    · unfold TFrame.setCol
      simp [hf]
    · unfold TFrame.setCol
      dsimp only
      split
      · exact ⟨[], by simp⟩
      · exact ⟨_, rfl⟩
  unfold toTraining at h
  simp only [ok_bind] at h
  cases y with
  | none =>
    cases h
    exact ⟨fun f _ => ⟨rfl, rfl⟩, [], by simp⟩
  | some y =>
    cases y with
    | list vs =>
      unfold attachY at h
      dsimp only at h
      split at h
      · cases h
      · cases h
        rename_i hl
        exact hset X vs (not_not.mp hl)
    | series n lvs =>
      unfold attachY at h
      dsimp only at h
      split at h
      · cases h
        rename_i hl
        obtain ⟨k1, k2⟩ := hset { X with rows := (X.rows.zip lvs).map (fun rl => { rl.1 with label := rl.2.1 }) } (lvs.map Prod.snd)
          (by simp [hl])
        refine ⟨fun f hf => ⟨((k1 f hf).1).trans ?_, (k1 f hf).2⟩, k2⟩
        dsimp only
        rw [List.map_map]
        have : ((fun row : Row => row.cell f) ∘ fun rl : Row × (Label × Val) => ({ label := rl.2.1, cell := rl.1.cell } : Row)) =
            (fun row : Row => row.cell f) ∘ Prod.fst := rfl
        rw [this, ← List.map_map, List.map_fst_zip (by omega)]
      · split at h
        · cases h
        · cases h
          exact hset X _ (by simp)

/-- Columns without bins hold what they held. -/
theorem transform_same {F : PyFloat} {b : Binner} {X X' : TFrame} {f : Feat} (hb : ∀ p ∈ b.bins, p.1 ≠ f) (h : b.transform F X = .ok X') :
    X'.rows.map (·.cell f) = X.rows.map (·.cell f) := by
  have key : ∀ done (l : List (Feat × List PStr)), (∀ p ∈ l, p.1 ≠ f) → ∀ X X' : TFrame, transformLoop F b done l X = .ok X' →
      X'.rows.map (·.cell f) = X.rows.map (·.cell f) := by
    intro done l
    induction l with
    | nil => intro _ X X' h; cases h; rfl
    | cons p rest ih =>
      obtain ⟨f0, labels⟩ := p
      intro hl X X' h
      unfold transformLoop at h
      have ih := ih (fun p hp => hl p (List.mem_cons_of_mem _ hp))
      split at h
      · obtain ⟨G, _, h⟩ := bind_ok_iff.mp h
        rw [ih _ _ h]
        have hne : f ≠ f0 := fun h => hl _ List.mem_cons_self h.symm
        simp [TFrame.mapCol, List.map_map, Function.comp_def, hne]
      · exact ih _ _ h
  unfold Binner.transform at h
  obtain ⟨done, _, h⟩ := bind_ok_iff.mp h
  exact key done _ hb X X' h

theorem preprocess_dropCol {F : PyFloat} {P : PandasCut} {n : Option Nat} {d : FitData} {e : Feat} (hn : d.names = none)
    (hcf : e ≠ classFeatName d.classFeat d.y) (he : LeftAlone n d.X e) :
    preprocessTraining F P n (d.dropCol e) = (preprocessTraining F P n d).map (fun q => (q.1.dropCol e, q.2)) := by
  obtain ⟨X, y, cl, pc, names⟩ := d
  dsimp only at hn hcf he
  subst hn
  unfold preprocessTraining FitData.dropCol
  dsimp only
  have hch : checkInput (X.dropCol e) y cl none = checkInput X y cl none := by
    unfold checkInput
    have : (X.dropCol e).rows = X.rows := rfl
    rw [this]
    split
    · rfl
    · cases y with
      | some y => cases y <;> cases cl <;> rfl
      | none =>
        cases cl with
        | none => rfl
        | some cl =>
          have hc : e ≠ cl := hcf
          have : cl ∈ (X.dropCol e).cols ↔ cl ∈ X.cols := by
            rw [dropCol_cols]
            exact ⟨fun h => h.1, fun h => ⟨h, fun h2 => hc h2.symm⟩⟩
          simp only [Option.getD_none, this]
  rw [hch]
  cases checkInput X y cl none with
  | error x => rfl
  | ok u =>
    simp only [ok_bind]
    rw [toTraining_dropCol hcf]
    cases ht : toTraining X y (classFeatName cl y) none with
    | error x => rfl
    | ok df =>
      simp only [Except.map, ok_bind]
      have hu : (df.dropCol e).unique (classFeatName cl y) = df.unique (classFeatName cl y) := rfl
      rw [hu]
      cases posClassOf (df.unique (classFeatName cl y)) pc with
      | error x => rfl
      | ok p =>
        simp only [ok_bind]
        unfold Binner.fitTransform
        have ha : LeftAlone n df e := by
          obtain ⟨h1, h2⟩ := (attach_same ht).1 e hcf
          unfold LeftAlone at he ⊢
          have : df.unique e = X.unique e := by unfold Frame.unique; rw [h1]
          rw [h2, this]
          exact he
        obtain ⟨b1, b2⟩ := binnerFit_dropCol (F := F) (P := P) [classFeatName cl y] ha
        dsimp only
        rw [b1, transform_dropCol b2]
        cases (Binner.fit F P n df [classFeatName cl y]).transform F df with
        | error x => rfl
        | ok df' => rfl

/-- The column still adds nothing after preprocessing. -/
theorem superfluous_trained {F : PyFloat} {P : PandasCut} {n : Option Nat} {d : FitData} {e : Feat} (hn : d.names = none)
    (hcf : e ≠ classFeatName d.classFeat d.y) (hs : Superfluous n d.X (classFeatName d.classFeat d.y) e)
    {df : TFrame} {cf : Feat} {pc : Val} {b : Binner} (h : preprocessTraining F P n d = .ok (df, cf, pc, b)) :
    cf = classFeatName d.classFeat d.y ∧ (∀ p ∈ b.bins, p.1 ≠ e) ∧
      (ConstantColumn df.toFrame e ∨ RepeatedColumn df.toFrame cf e) := by
  obtain ⟨_, rfl, df0, ht, _, rfl, htr, _, _, hcols, _⟩ := preprocessTraining_ok h
  rw [hn] at ht
  obtain ⟨hat, more, hmore⟩ := attach_same ht
  have alone : ∀ f, f ≠ classFeatName d.classFeat d.y → LeftAlone n d.X f →
      (∀ p ∈ (Binner.fit F P n df0 [classFeatName d.classFeat d.y]).bins, p.1 ≠ f) ∧
      df.rows.map (·.cell f) = d.X.rows.map (·.cell f) := by
    intro f hf ha
    obtain ⟨h1, h2⟩ := hat f hf
    have ha0 : LeftAlone n df0 f := by
      unfold LeftAlone at ha ⊢
      have : df0.unique f = d.X.unique f := by unfold Frame.unique; rw [h1]
      rw [h2, this]
      exact ha
    have hb := (binnerFit_dropCol (F := F) (P := P) [classFeatName d.classFeat d.y] ha0).2
    exact ⟨hb, (transform_same hb htr).trans h1⟩
  obtain ⟨he, hs⟩ := hs
  obtain ⟨hb, hce⟩ := alone e hcf he
  refine ⟨rfl, hb, ?_⟩
  have cells : ∀ {f : Feat}, df.rows.map (·.cell f) = d.X.rows.map (·.cell f) → ∀ {i : Nat} {r : Row}, df.rows[i]? = some r →
      ∃ r0, d.X.rows[i]? = some r0 ∧ r.cell f = r0.cell f := by
    intro f hf i r hr
    have := congrArg (fun l => l[i]?) hf
    simp only [List.getElem?_map, hr, Option.map_some] at this
    cases hx : d.X.rows[i]? with
    | none => rw [hx] at this; cases this
    | some r0 => rw [hx] at this; exact ⟨r0, rfl, by simpa using this⟩
  have found : ∀ {r : Row}, r ∈ df.rows → ∃ i : Nat, df.rows[i]? = some r := fun hr => List.mem_iff_getElem?.mp hr
  rcases hs with (hs | hs) | ⟨f, before, after, hc, hf, heb, hfc, hfa, hs⟩
  · left; left
    intro row hr row' hr'
    obtain ⟨i, hi⟩ := found hr
    obtain ⟨j, hj⟩ := found hr'
    obtain ⟨r0, h0, h1⟩ := cells hce hi
    obtain ⟨r0', h0', h1'⟩ := cells hce hj
    rw [h1, h1']
    exact hs r0 (List.mem_iff_getElem?.mpr ⟨i, h0⟩) r0' (List.mem_iff_getElem?.mpr ⟨j, h0'⟩)
  · left; right
    intro row hr
    obtain ⟨i, hi⟩ := found hr
    obtain ⟨r0, h0, h1⟩ := cells hce hi
    rw [h1]
    exact hs r0 (List.mem_iff_getElem?.mpr ⟨i, h0⟩)
  · right
    refine ⟨f, before, after ++ more, ?_, hf, heb, hfc, ?_⟩
    · show df.cols = _
      rw [hcols, hmore, hc, List.append_assoc]
    have hcf' := (alone f hfc hfa).2
    intro row hr row' hr'
    obtain ⟨i, hi⟩ := found hr
    obtain ⟨j, hj⟩ := found hr'
    obtain ⟨r0, h0, h1⟩ := cells hce hi
    obtain ⟨r0', h0', h1'⟩ := cells hce hj
    obtain ⟨q0, g0, g1⟩ := cells hcf' hi
    obtain ⟨q0', g0', g1'⟩ := cells hcf' hj
    rw [h0] at g0
    rw [h0'] at g0'
    cases g0
    cases g0'
    rw [h1, h1', g1, g1']
    exact hs r0 (List.mem_iff_getElem?.mpr ⟨i, h0⟩) r0' (List.mem_iff_getElem?.mpr ⟨j, h0'⟩)

/-! ### fit -/

/-- Training without the column has the same outcome. -/
theorem train_dropCol [Arith] [Arith.Lawful] {a : Method} (ha : a = .irep ∨ ∃ S : SetOps, S.Lawful ∧ a = .irepPlain S) (fuel : Nat) {R : PyRandom}
    (hp : Hyper) {old : Option (List Cond)} {init : List (List Cond)} {df : Frame} {cf e : Feat} (pc : Val) (g : R.G) (hcf : e ≠ cf)
    (hi : ∀ r ∈ init, ∀ c ∈ r, c.feature ≠ e) (ho : ∀ l, old = some l → ∀ c ∈ l, c.feature ≠ e)
    (hs : ConstantColumn df e ∨ RepeatedColumn df cf e) :
    learnt (a.train fuel R hp old init (df.dropCol e) cf pc g) = learnt (a.train fuel R hp old init df cf pc g) := by
  rcases ha with rfl | ⟨S, hS, rfl⟩
  · exact C98_irep_superfluous_column fuel hp pc g hcf hi hs
  · exact C98_irep_plain_superfluous_column fuel S hS hp old pc g hcf hi ho hs

/-- C98 for the API. `IREP.fit`, with or without the coverage index, on data with a superfluous column has the same outcome as
on the data without it: the same exception, or the same object except for the lists of the data's columns and of the
conditions on them, and the same draws. -/
theorem C98_fit_superfluous_column [Arith] [Arith.Lawful] (a : Method) (ha : a = .irep ∨ ∃ S : SetOps, S.Lawful ∧ a = .irepPlain S)
    (fuel : Nat) (R : PyRandom) (F : PyFloat) (P : PandasCut) (d : FitData) (hn : d.names = none) (init : ModelArg) (e : Feat)
    (hcf : e ≠ classFeatName d.classFeat d.y) (hi : init.Without e) (g : R.G) (c : Clf)
    (hs : Superfluous c.nBins d.X (classFeatName d.classFeat d.y) e) :
    (completed (a.fit fuel R F P (d.dropCol e) init g c)).map (fun o => (o.1, o.2.learned)) =
      (completed (a.fit fuel R F P d init g c)).map (fun o => (o.1, o.2.learned)) := by
  rw [Method.fit_completed, Method.fit_completed, preprocess_dropCol hn hcf hs.1]
  cases a.early init with
  | error x => rfl
  | ok rs0 =>
    simp only [ok_bind]
    cases hq : preprocessTraining F P c.nBins d with
    | error x => rfl
    | ok q =>
      obtain ⟨df, cf, pc, b⟩ := q
      obtain ⟨rfl, _, hcol⟩ := superfluous_trained hn hcf hs hq
      simp only [Except.map, ok_bind]
      cases hst : init.toRuleset with
      | error x => rfl
      | ok start =>
        simp only [ok_bind]
        obtain ⟨h1, h2⟩ := hi start hst
        have key := train_dropCol (R := R) ha fuel c.hyper (old := start.possible) (init := start.rules.map Rule.conds) pc g hcf
          (by intro r hr; obtain ⟨r0, hr0, rfl⟩ := List.mem_map.mp hr; exact h1 r0 hr0) h2 hcol
        revert key
        have : (df.dropCol e).toFrame = df.toFrame.dropCol e := rfl
        rw [this]
        generalize a.train fuel R c.hyper start.possible (start.rules.map Rule.conds) df.toFrame _ pc g = o
        generalize a.train fuel R c.hyper start.possible (start.rules.map Rule.conds) (df.toFrame.dropCol e) _ pc g = o'
        intro key
        cases o with
        | error x =>
          cases o' with
          | error x' => cases key; rfl
          | ok u => cases key
        | ok u =>
          obtain ⟨m, g1⟩ := u
          obtain ⟨m', rfl, k1, k2, k3⟩ := learnt_ok key rfl
          obtain ⟨⟨rules, un, poss⟩, sel, tf⟩ := m
          obtain ⟨⟨rules', un', poss'⟩, sel', tf'⟩ := m'
          dsimp only at k1 k2 k3
          subst k1 k2 k3
          rfl

theorem preprocessPrediction_dropCol {F : PyFloat} {X : TFrame} {cf e : Feat} {b : Binner} {sel : List Feat}
    (hb : ∀ p ∈ b.bins, p.1 ≠ e) (hs : e ∉ sel) :
    preprocessPrediction F (X.dropCol e) cf b none sel = (preprocessPrediction F X cf b none sel).map (·.dropCol e) := by
  have comm : (if (X.dropCol e).cols.contains cf then (X.dropCol e).dropCol cf else X.dropCol e) =
      (if X.cols.contains cf then X.dropCol cf else X).dropCol e := by
    have drop : ∀ Y : TFrame, (if Y.cols.contains cf then Y.dropCol cf else Y) = Y.dropCol cf := by
      intro Y
      split
      · rfl
      · rename_i h
        exact (TFrame.dropCol_of_not_mem (by simpa using h)).symm
    rw [drop, drop]
    show TFrame.mk ((X.toFrame.dropCol e).dropCol cf) X.kind = TFrame.mk ((X.toFrame.dropCol cf).dropCol e) X.kind
    rw [dropCol_comm]
  unfold preprocessPrediction toPrediction
  dsimp only
  rw [comm]
  have : (X.dropCol e).rows = X.rows := rfl
  rw [this]
  split
  · rfl
  simp only [ok_bind]
  generalize (if X.cols.contains cf then X.dropCol cf else X) = Y
  have : (sel.any fun f => !(Y.dropCol e).cols.contains f) = sel.any fun f => !Y.cols.contains f := by
    rw [Bool.eq_iff_iff, List.any_eq_true, List.any_eq_true]
    refine exists_congr fun f => and_congr_right fun hf => ?_
    rw [contains_dropCol (f := f) (e := e) (fun h => hs (h ▸ hf))]
  rw [this]
  split
  · rfl
  unfold applyBins
  split
  · rfl
  · exact transform_dropCol hb Y

/-- C98 for the API: the object fitted without the column gives, for the data without it, the predictions, probabilities and
reasons that the object fitted with it gives for the data. -/
theorem C98_fit_then_predict [Arith] [Arith.Lawful] (a : Method) (ha : a = .irep ∨ ∃ S : SetOps, S.Lawful ∧ a = .irepPlain S)
    (fuel : Nat) (R : PyRandom) (F : PyFloat) (P : PandasCut) (d : FitData) (hn : d.names = none) (init : ModelArg) (e : Feat)
    (hcf : e ≠ classFeatName d.classFeat d.y) (hi : init.Without e) (g g' : R.G) (c c' : Clf)
    (hs : Superfluous c.nBins d.X (classFeatName d.classFeat d.y) e) (hf : a.fit fuel R F P d init g c = .ok g' c') :
    ∃ c'', a.fit fuel R F P (d.dropCol e) init g c = .ok g' c'' ∧ c''.learned = c'.learned ∧
      ∀ X, returned (Clf.predict F (X.dropCol e) none c'') = returned (Clf.predict F X none c') ∧
        returned (Clf.predictProbaReasons F (X.dropCol e) none c'') = returned (Clf.predictProbaReasons F X none c') := by
  have key := C98_fit_superfluous_column a ha fuel R F P d hn init e hcf hi g c hs
  rw [hf] at key
  cases hr : a.fit fuel R F P (d.dropCol e) init g c with
  | error x k => rw [hr] at key; cases key
  | ok g2 c'' =>
    rw [hr] at key
    have key2 : (g2, c''.learned) = (g', c'.learned) := by injection key
    clear key
    rw [Prod.mk.injEq] at key2
    obtain ⟨rfl, key2⟩ := key2
    refine ⟨c'', rfl, key2, fun X => ?_⟩
    obtain ⟨df, cf, pc, b, start, m, hq, hst, hm, rfl⟩ := Method.fit_ok hf
    obtain ⟨df', cf', pc', b', start', m', hq', hst', hm', rfl⟩ := Method.fit_ok hr
    obtain ⟨rfl, hb, hcol⟩ := superfluous_trained hn hcf hs hq
    rw [preprocess_dropCol hn hcf hs.1, hq] at hq'
    cases hq'
    rw [hst] at hst'
    cases hst'
    obtain ⟨i1, i2⟩ := hi start hst
    have i1' : ∀ r ∈ start.rules.map Rule.conds, ∀ c ∈ r, c.feature ≠ e := by
      intro r hr
      obtain ⟨r0, hr0, rfl⟩ := List.mem_map.mp hr
      exact i1 r0 hr0
    have k1 := congrArg (fun c : Clf => (c.ruleset.map Ruleset.rules, c.ruleset.map Ruleset.uncov, c.selected)) key2
    simp only [Clf.learned, Clf.fitted, Option.map_some, Prod.mk.injEq, Option.some.injEq] at k1
    obtain ⟨k1, k2, k3⟩ := k1
    have hsel : e ∉ m'.selected := by
      intro he
      rcases Method.train_selected hm' e he with ⟨r, hr, cond, hc, h⟩ | ⟨_, cond, hc, h⟩ | ⟨h, _⟩
      · exact i1' r hr cond hc h
      · cases hp : start.possible with
        | none => rw [hp] at hc; simp at hc
        | some l => rw [hp] at hc; exact i2 l hp cond hc h
      · exact (dropCol_cols.mp h).2 rfl
    have hno : ∀ r ∈ m.ruleset.rules, NotOn e r.conds := by
      rcases ha with rfl | ⟨S, hS, rfl⟩
      · exact C98_irep_unused fuel c.hyper pc g g2 hcf i1' hcol m hm
      · exact C98_irep_plain_unused fuel S hS c.hyper start.possible pc g g2 hcf i1' i2 hcol m hm
    have r1 : Ready (c.fitted m b (classFeatName d.classFeat d.y) pc) m.ruleset (classFeatName d.classFeat d.y) b m.selected :=
      ⟨rfl, rfl, ⟨pc, rfl⟩, rfl, rfl, ⟨_, rfl⟩⟩
    have r2 : Ready (c.fitted m' b (classFeatName d.classFeat d.y) pc) m'.ruleset (classFeatName d.classFeat d.y) b m'.selected :=
      ⟨rfl, rfl, ⟨pc, rfl⟩, rfl, rfl, ⟨_, rfl⟩⟩
    have hpre := preprocessPrediction_dropCol (F := F) (X := X) (cf := classFeatName d.classFeat d.y) hb hsel
    constructor
    · rw [predict_eq_query, predict_eq_query, query_ready r1, query_ready r2, returned_outcome, returned_outcome, hpre, ← k3]
      cases preprocessPrediction F X (classFeatName d.classFeat d.y) b none m'.selected with
      | error x => rfl
      | ok Y => exact (Ruleset.predictProba_dropCol hno k1 k2 Y.toFrame).1
    · unfold Clf.predictProbaReasons
      rw [probaQuery_ready r1, probaQuery_ready r2, hpre, ← k3]
      cases preprocessPrediction F X (classFeatName d.classFeat d.y) b none m'.selected with
      | error x => rfl
      | ok Y => exact (Ruleset.predictProba_dropCol hno k1 k2 Y.toFrame).2

namespace Demo
/-- The data `mixed` with a copy `b` of the column `a`, in other words, and a constant numeric column `d`. -/
def padded : TFrame :=
  { Frame.ofTable [fa, fb, fd, fn]
      [(0, [vx, vy, numCell 7, numCell 1]), (1, [vx, vy, numCell 7, numCell 2]), (2, [vx, vy, numCell 7, numCell 12]),
       (3, [vy, vx, numCell 7, numCell 25]), (4, [vy, vx, numCell 7, numCell 3]), (5, [vx, vy, numCell 7, numCell 20])] with
    kind := fun f => if f = fn ∨ f = fd then .number else .text }
def paddedData : FitData := { X := padded, y := some (.list [vp, vp, vn, vn, vn, vn]), posClass := some vp }
theorem padded_constant : Superfluous (some 3) padded (classFeatName paddedData.classFeat paddedData.y) fd := by
  refine ⟨Or.inr (Or.inr (Or.inr ⟨3, rfl, by decide +kernel⟩)), Or.inl (Or.inl ?_)⟩
  intro row hr row' hr'
  rw [← Val.pyEq_iff]
  revert row row'
  decide +kernel
theorem padded_repeated : Superfluous (some 3) padded (classFeatName paddedData.classFeat paddedData.y) fb := by
  refine ⟨Or.inl (by decide +kernel), Or.inr ⟨fa, [fa], [fb, fd, fn], rfl, by decide +kernel, by decide +kernel, by decide +kernel,
    Or.inl (by decide +kernel), ?_⟩⟩
  intro row hr row' hr'
  rw [← Val.pyEq_iff, ← Val.pyEq_iff]
  revert row row'
  decide +kernel
/-- The rules after a fit. -/
def rulesFitted {α : Type} (r : EStateM.Result PyErr Clf α) : Option (List (List Cond)) :=
  (after r).ruleset.map (fun rs => rs.rules.map Rule.conds)
end Demo

/-- The hypotheses are met by data with a text, a numeric, a repeated and a constant column; the rules learned with and without
the two superfluous columns are the same. -/
example : Superfluous Demo.newIrep.nBins Demo.paddedData.X (classFeatName Demo.paddedData.classFeat Demo.paddedData.y) Demo.fd ∧
    Superfluous Demo.newIrep.nBins Demo.paddedData.X (classFeatName Demo.paddedData.classFeat Demo.paddedData.y) Demo.fb ∧
    ModelArg.nothing.Without Demo.fd ∧
    (Demo.rulesFitted (Method.irep.fit 7 Demo.R0 Demo.F Demo.P Demo.paddedData .nothing () Demo.newIrep)).map List.length = some 1 ∧
    Demo.rulesFitted (Method.irep.fit 7 Demo.R0 Demo.F Demo.P Demo.paddedData .nothing () Demo.newIrep) =
      Demo.rulesFitted (Method.irep.fit 7 Demo.R0 Demo.F Demo.P ((Demo.paddedData.dropCol Demo.fb).dropCol Demo.fd) .nothing ()
        Demo.newIrep) := by
  refine ⟨Demo.padded_constant, Demo.padded_repeated, ?_, ?_, ?_⟩
  · intro start h
    cases h
    exact ⟨by simp, by intro l h; cases h⟩
  · decide +kernel
  · decide +kernel
end Witt
