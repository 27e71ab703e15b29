import Verif.Lemmas.RecodeApi
/-
C95: the names of the columns and the codes of categorical values carry no information.
-/
namespace Witt
open Spec
variable {φ : Recoding}

namespace Spec
/-- The conditions that training may compare by their printed text: those that hold for some cell of the prepared training data, and those of
the initial model. -/
def Compared (F : PyFloat) (P : PandasCut) (n : Option Nat) (d : FitData) (init : ModelArg) (c : Cond) : Prop :=
  (∃ df cf pc b, preprocessTraining F P n d = .ok (df, cf, pc, b) ∧ TrainCond df.toFrame cf c) ∨
    ∃ rs, init.toRuleset = .ok rs ∧ ((∃ r ∈ rs.rules, c ∈ r.conds) ∨ ∃ l, rs.possible = some l ∧ c ∈ l)

/-- With `cn_optimize=False`, the candidate conditions come in the order in which Python enumerates a set of values: that order has to be
recoded as well. -/
def SameOrder (φ : Recoding) (a : Method) : Prop := ∀ S, a.sets = some S → S.Lawful ∧ φ.KeepsOrder S

/-- Renaming the columns and nothing else. -/
def columnsRenamed (e : Feat ≃ Feat) : Recoding := { feat := e, val := fun _ v => v, eq := fun _ _ _ => rfl, nan := fun _ _ => Iff.rfl }

/-- The columns `K` have names without `=` that print differently. -/
structure PlainNames (K : Feat → Prop) : Prop where
  noEq : ∀ f, K f → '=' ∉ f.text
  apart : ∀ f, K f → ∀ f', K f' → f.text = f'.text → f = f'
end Spec

/-- A sufficient condition on names and texts. -/
theorem printsAlike_of {D : Cond → Prop} {K : Feat → Prop} (hK : ∀ c, D c → K c.feature) (h : PlainNames K)
    (h' : PlainNames (fun f => ∃ f0, K f0 ∧ f = φ.feat f0))
    (hv : ∀ c d, D c → D d → c.feature = d.feature → ((φ.val c.feature c.val).text = (φ.val c.feature d.val).text ↔ c.val.text = d.val.text)) :
    φ.PrintsAlike D := by
  rintro ⟨f, v⟩ ⟨f', v'⟩ hc hd
  have k1 := hK _ hc
  have k2 := hK _ hd
  simp only [Cond.text, Recoding.cond, List.append_assoc, List.singleton_append] at k1 k2 ⊢
  constructor
  · intro he
    obtain ⟨e1, e2⟩ := append_eq_split (h'.noEq _ ⟨f, k1, rfl⟩) (h'.noEq _ ⟨f', k2, rfl⟩) he
    have := φ.feat.injective (h'.apart _ ⟨f, k1, rfl⟩ _ ⟨f', k2, rfl⟩ e1)
    subst this
    rw [(hv _ _ hc hd rfl).mp e2]
  · intro he
    obtain ⟨e1, e2⟩ := append_eq_split (h.noEq f k1) (h.noEq f' k2) he
    have := h.apart f k1 f' k2 e1
    subst this
    have := (hv _ _ hc hd rfl).mpr e2
    rw [this]

theorem train_recode [Arith] {D : Cond → Prop} (a : Method) (ha : SameOrder φ a) (fuel : Nat) (R : PyRandom) (hp : Hyper)
    (old : Option (List Cond)) (hold : ∀ l, old = some l → AllIn D l) (init : List (List Cond)) (df : Frame) (cf : Feat) (pc : Val) (g : R.G)
    (h : φ.PrintsAlike D) (hD : ∀ c, TrainCond df cf c → D c) (hi : ∀ r ∈ init, AllIn D r) :
    a.train fuel R hp (old.map φ.conds) (init.map φ.conds) (df.recode φ) (φ.feat cf) (φ.val cf pc) g =
      (a.train fuel R hp old init df cf pc g).map (fun m => (m.1.recode φ, m.2)) := by
  cases a with
  | irep => exact irepFit_recode fuel R hp init df cf pc g h hD hi
  | ripper => exact ripperFit_recode fuel R hp init df cf pc g h hD hi
  | irepPlain S =>
    obtain ⟨hL, hS⟩ := ha S rfl
    exact irepFitPlain_recode fuel R S hS hp old init df cf pc g h
      (updatedConds_in hL hold (examples_in hD).1 (examples_in hD).2) hi
  | ripperPlain S =>
    obtain ⟨hL, hS⟩ := ha S rfl
    exact ripperFitPlain_recode fuel R S hS hL hp old hold init df cf pc g h hD hi

theorem early_recode (a : Method) {init : ModelArg} (ht : ∀ s, init ≠ .text s) :
    (a.early (init.recode φ)).map (fun _ => ()) = (a.early init).map (fun _ => ()) := by
  have he : ((init.recode φ).early).map (fun _ => ()) = init.early.map (fun _ => ()) := by
    cases init with
    | nothing => rfl
    | text s => exact absurd rfl (ht s)
    | clf c => rfl
    | ruleset rs =>
      have := toRuleset_recode (φ := φ) ht
      have h1 : ((ModelArg.ruleset rs).recode φ).early = ((ModelArg.ruleset rs).recode φ).toRuleset := rfl
      have h2 : (ModelArg.ruleset rs).early = (ModelArg.ruleset rs).toRuleset := rfl
      rw [h1, h2, this]
      cases (ModelArg.ruleset rs).toRuleset <;> rfl
  cases a with
  | irep => exact he
  | irepPlain S => exact he
  | ripper => rfl
  | ripperPlain S => rfl

/-- C95. Fitting the same data under other column names and with other codes for categorical values gives the same model in the new
names: the same rules with the same probabilities, the same bins, the same generator state, or the same exception. Columns that are
binned keep their values, and conditions have to print apart under the new names exactly if they do under the old ones. -/
theorem C95_fit_recoded [Arith] (a : Method) (ha : SameOrder φ a) (fuel : Nat) (R : PyRandom) (F : PyFloat) (P : PandasCut) (cf : Feat)
    (d : FitData) (init : ModelArg) (ht : ∀ s, init ≠ .text s) (g : R.G) (c : Clf) (hd : φ.Fits c.nBins cf d)
    (h : φ.PrintsAlike (Compared F P c.nBins d init)) :
    completed (a.fit fuel R F P (d.recode φ cf) (init.recode φ) g c) =
      (completed (a.fit fuel R F P d init g c)).map (fun o => (o.1, o.2.recode φ)) := by
  have he := early_recode (φ := φ) a ht
  simp only [Method.fit_completed, preprocessTraining_recode F P c.nBins cf d hd, toRuleset_recode ht]
  cases h1 : a.early init with
  | error e =>
    rw [h1] at he
    cases h2 : a.early (init.recode φ) with
    | ok _ => rw [h2] at he; cases he
    | error e' => rw [h2] at he; cases he; rfl
  | ok rs =>
    rw [h1] at he
    cases h2 : a.early (init.recode φ) with
    | error _ => rw [h2] at he; cases he
    | ok rs' =>
      simp only [ok_bind]
      cases hq : preprocessTraining F P c.nBins d with
      | error e => rfl
      | ok q =>
        obtain ⟨hcf, _⟩ := preprocessTraining_facts hd hq
        obtain ⟨df, cf', pc, b⟩ := q
        dsimp only at hcf
        subst hcf
        simp only [Except.map, ok_bind]
        cases hr : init.toRuleset with
        | error e => rfl
        | ok start =>
          simp only [ok_bind]
          have key := train_recode (φ := φ) (D := Compared F P c.nBins d init) a ha fuel R c.hyper start.possible
            (fun l hl cd hcd => Or.inr ⟨start, hr, Or.inr ⟨l, hl, hcd⟩⟩) (start.rules.map Rule.conds) df.toFrame cf' pc g h
            (fun cd hcd => Or.inl ⟨df, cf', pc, b, hq, hcd⟩)
            (fun r hrr cd hcd => by
              obtain ⟨r0, h0, rfl⟩ := List.mem_map.mp hrr
              exact Or.inr ⟨start, hr, Or.inl ⟨r0, h0, hcd⟩⟩)
          have e1 : (start.recode φ).possible = start.possible.map φ.conds := rfl
          have e2 : (start.recode φ).rules.map Rule.conds = (start.rules.map Rule.conds).map φ.conds := by
            simp [Ruleset.recode, Rule.recode, Function.comp_def]
          have e3 : (df.recode φ).toFrame = df.toFrame.recode φ := rfl
          rw [e1, e2, e3, key]
          cases a.train fuel R c.hyper start.possible (start.rules.map Rule.conds) df.toFrame cf' pc g with
          | error e => rfl
          | ok m => rfl

/-- C95. Renaming columns (no column name contains `=`, names print differently before and after) renames the columns in the learned
rules, and changes nothing else. -/
theorem C95_columns_renamed [Arith] (a : Method) (hS : ∀ S, a.sets = some S → S.Lawful) (fuel : Nat) (R : PyRandom) (F : PyFloat) (P : PandasCut)
    (d : FitData) (g : R.G) (c : Clf) (e : Feat ≃ Feat) (hn : d.names = none)
    (hdef : d.classFeat = none → (∀ n lvs, d.y ≠ some (.series n lvs)) → e (.name p!"Class") = .name p!"Class")
    (h : PlainNames (· ∈ d.X.cols)) (h' : PlainNames (· ∈ d.X.cols.map e)) :
    completed (a.fit fuel R F P (d.recode (columnsRenamed e) (classFeatName d.classFeat d.y)) .nothing g c) =
      (completed (a.fit fuel R F P d .nothing g c)).map (fun o => (o.1, o.2.recode (columnsRenamed e))) := by
  have hfit : (columnsRenamed e).Fits c.nBins (classFeatName d.classFeat d.y) d := ⟨rfl, hn, hdef, fun _ _ => rfl, fun _ _ _ => rfl⟩
  refine C95_fit_recoded (φ := columnsRenamed e) a (fun S hs => ⟨hS S hs, ?_⟩) fuel R F P _ d .nothing (by intro s hs; cases hs) g c hfit ?_
  · intro f x y
    show S.inter (x.map id) (y.map id) = (S.inter x y).map id
    simp
  · refine printsAlike_of (K := (· ∈ d.X.cols)) ?_ h ?_ (fun _ _ _ _ _ => Iff.rfl)
    · rintro cd (⟨df, cf, pc, b, hq, h1, h2, _⟩ | ⟨rs, hrs, h3⟩)
      · obtain ⟨_, hcf, df0, ht, _, _, _, _, _, hcols, _⟩ := preprocessTraining_ok hq
        rw [hn] at ht
        rw [hcols] at h1
        exact (toTraining_cells ht h2).1 h1
      · cases hrs
        rcases h3 with ⟨r, hr, _⟩ | ⟨l, hl, _⟩
        · cases hr
        · cases hl
    · refine ⟨fun f hf => ?_, fun f hf f' hf' => ?_⟩
      · obtain ⟨f0, h0, rfl⟩ := hf
        exact h'.noEq _ (List.mem_map.mpr ⟨f0, h0, rfl⟩)
      · obtain ⟨f0, h0, rfl⟩ := hf
        obtain ⟨f1, h1, rfl⟩ := hf'
        exact h'.apart _ (List.mem_map.mpr ⟨f0, h0, rfl⟩) _ (List.mem_map.mpr ⟨f1, h1, rfl⟩)

theorem probaQuery_returned {α : Type} {F : PyFloat} {act : Ruleset → Frame → Except PyErr α} {X : TFrame}
    {names : Option (List Feat)} {c : Clf} {b : Binner} {rs : Ruleset} (hb : c.binner = some b) (hr : c.ruleset = some rs) :
    returned (probaQuery F act X names c) = answer F act X names c := by
  rw [probaQuery_run, prepOf_answer, hb, hr]
  cases prepOf F X names c with
  | error e => rfl
  | ok df => exact returned_outcome _ _

theorem query_recode {α : Type} (F : PyFloat) (act act' : Ruleset → Frame → Except PyErr α) (k : α → α) (X : TFrame) (c : Clf) (b : Binner)
    (hb : c.binner = some b) (hv : ∀ p ∈ b.bins, ∀ v, φ.val p.1 v = v)
    (ha : ∀ rs df, act' (rs.recode φ) (df.recode φ) = (act rs df).map k) :
    returned (query F act' (X.recode φ) none (c.recode φ)) = (returned (query F act X none c)).map k := by
  have hb' : (c.recode φ).binner = some (b.recode φ) := by simp [Clf.recode, hb]
  cases hr : c.ruleset with
  | none =>
    rw [query_unfit hr, query_unfit (by simp [Clf.recode, hr])]
    rfl
  | some rs =>
    rw [query_some hr hb, query_some (rs := rs.recode φ) (by simp [Clf.recode, hr]) hb', returned_outcome, returned_outcome]
    exact answer_recode F act act' k X c (fun b' h' => by rw [hb] at h'; cases h'; exact hv) ha

theorem probaQuery_recode {α : Type} (F : PyFloat) (act act' : Ruleset → Frame → Except PyErr α) (k : α → α) (X : TFrame) (c : Clf) (b : Binner)
    (hb : c.binner = some b) (hv : ∀ p ∈ b.bins, ∀ v, φ.val p.1 v = v)
    (ha : ∀ rs df, act' (rs.recode φ) (df.recode φ) = (act rs df).map k) :
    returned (probaQuery F act' (X.recode φ) none (c.recode φ)) = (returned (probaQuery F act X none c)).map k := by
  have hb' : (c.recode φ).binner = some (b.recode φ) := by simp [Clf.recode, hb]
  cases hr : c.ruleset with
  | none =>
    have hr' : (c.recode φ).ruleset = none := by simp [Clf.recode, hr]
    rw [probaQuery_run, probaQuery_run, hr, hr']
    rfl
  | some rs =>
    rw [probaQuery_returned hb hr, probaQuery_returned (rs := rs.recode φ) hb' (by simp [Clf.recode, hr])]
    exact answer_recode F act act' k X c (fun b' h' => by rw [hb] at h'; cases h'; exact hv) ha

/-- C95. A classifier in the new names answers questions about data in the new names as the original one answers them about the original
data; reasons are the same rules in the new names. -/
theorem C95_answers_recoded (F : PyFloat) (X : TFrame) (c : Clf) (b : Binner) (hb : c.binner = some b)
    (hv : ∀ p ∈ b.bins, ∀ v, φ.val p.1 v = v) (cf : Feat) (hc : c.classFeat = some cf) (ys : List Val)
    (scoreFn : List Bool → List Bool → Except PyErr Rat) :
    returned (Clf.predict F (X.recode φ) none (c.recode φ)) = returned (Clf.predict F X none c) ∧
    returned (Clf.predictReasons F (X.recode φ) none (c.recode φ)) =
      (returned (Clf.predictReasons F X none c)).map (fun o => (o.1, o.2.map (List.map (Rule.recode φ)))) ∧
    returned (Clf.predictProba F (X.recode φ) none (c.recode φ)) = returned (Clf.predictProba F X none c) ∧
    returned (Clf.predictProbaReasons F (X.recode φ) none (c.recode φ)) =
      (returned (Clf.predictProbaReasons F X none c)).map (fun o => (o.1, o.2.map (List.map (Rule.recode φ)))) ∧
    returned (Clf.score F (X.recode φ) (ys.map (φ.val cf)) scoreFn (c.recode φ)) = returned (Clf.score F X ys scoreFn c) := by
  have hid : ∀ {α : Type} (x : Except PyErr α), x.map id = x := fun x => by cases x <;> rfl
  refine ⟨?_, ?_, ?_, ?_, ?_⟩
  · rw [predict_eq_query, predict_eq_query]
    refine (query_recode F _ _ id X c b hb hv fun rs df => ?_).trans (hid _)
    rw [predict_recode, hid]
  · rw [predictReasons_eq_query, predictReasons_eq_query]
    exact query_recode F _ _ _ X c b hb hv fun rs df => predictReasons_recode rs df
  · unfold Clf.predictProba
    refine (probaQuery_recode F _ _ id X c b hb hv fun rs df => ?_).trans (hid _)
    unfold Ruleset.predictProba
    rw [predictProbaReasons_recode, hid]
    cases rs.predictProbaReasons df <;> rfl
  · unfold Clf.predictProbaReasons
    exact probaQuery_recode F _ _ _ X c b hb hv fun rs df => predictProbaReasons_recode rs df
  · rw [score_eq_query, score_eq_query]
    refine (query_recode F _ _ id X c b hb hv fun rs df => ?_).trans (hid _)
    rw [predict_recode, hid]
    have hp : (c.recode φ).posClass = c.posClass.map (φ.val cf) := by simp [Clf.recode, hc]
    rw [hp]
    cases c.posClass with
    | none => rfl
    | some pc =>
      simp only [Option.map_some, attr, ok_bind, List.map_map, Function.comp_def, φ.eq]

/-- C95. Fitting and then predicting under other names and codes gives the same predictions. -/
theorem C95_fit_then_predict [Arith] (a : Method) (ha : SameOrder φ a) (fuel : Nat) (R : PyRandom) (F : PyFloat) (P : PandasCut) (cf : Feat)
    (d : FitData) (init : ModelArg) (ht : ∀ s, init ≠ .text s) (g g' : R.G) (c c' : Clf) (hd : φ.Fits c.nBins cf d)
    (h : φ.PrintsAlike (Compared F P c.nBins d init)) (hf : a.fit fuel R F P d init g c = .ok g' c') :
    ∃ c'', a.fit fuel R F P (d.recode φ cf) (init.recode φ) g c = .ok g' c'' ∧
      ∀ X, returned (Clf.predict F (X.recode φ) none c'') = returned (Clf.predict F X none c') ∧
        returned (Clf.predictProba F (X.recode φ) none c'') = returned (Clf.predictProba F X none c') := by
  have key := C95_fit_recoded a ha fuel R F P cf d init ht g c hd h
  rw [hf] at key
  refine ⟨c'.recode φ, ?_, fun X => ?_⟩
  · cases hr : a.fit fuel R F P (d.recode φ cf) (init.recode φ) g c with
    | error e k => rw [hr] at key; cases key
    | ok g2 c2 => rw [hr] at key; cases key; rfl
  · obtain ⟨df, cf', pc, b, start, m, hq, _, _, hc'⟩ := Method.fit_ok hf
    obtain ⟨hcf, hbins⟩ := preprocessTraining_facts hd hq
    have := C95_answers_recoded (φ := φ) F X c' b (by rw [hc']; rfl) hbins cf' (by rw [hc']; rfl) [] (fun _ _ => .ok 0)
    exact ⟨this.1, this.2.2.1⟩

/-- C95 without its condition on printed texts is false: the columns `a` and `a=b` have conditions that print alike, so that one of two
rules is dropped as a duplicate; after renaming the second column to `q` both are kept. -/
theorem C95_refuted_colliding_names :
    let a : Feat := .name p!"a"
    let ab : Feat := .name p!"a=b"
    let q : Feat := .name p!"q"
    let df := Frame.ofTable [a, ab, Demo.fc]
      [(0, [.str p!"b=c", .str p!"z", Demo.vp]), (1, [.str p!"z", .str p!"c", Demo.vp]), (2, [.str p!"z", .str p!"z", Demo.vn])]
    (irepFit 9 Demo.R0 { pruneSize := none } [] df Demo.fc Demo.vp ()).map (fun m => m.1.ruleset.rules.map Rule.conds) =
      .ok [[⟨a, .str p!"b=c"⟩]] ∧
    (irepFit 9 Demo.R0 { pruneSize := none } [] (df.recode (columnsRenamed (Equiv.swap ab q))) Demo.fc Demo.vp ()).map
        (fun m => m.1.ruleset.rules.map Rule.conds) =
      .ok [[⟨a, .str p!"b=c"⟩], [⟨q, .str p!"c"⟩]] := by
  decide +kernel

namespace Demo
/-- The texts `x` and `y` exchanged. -/
def swapped : Val → Val
  | .str s => .str (Equiv.swap p!"x" p!"y" s)
  | v => v
/-- Columns `a` and `n` exchange names, and in the column first called `a` the codes `x` and `y` are exchanged. -/
def coded : Recoding where
  feat := Equiv.swap fa fn
  val f v := if f = fa then swapped v else v
  eq f v w := by
    split
    · cases v <;> cases w <;> simp [Val.pyEq, swapped]
    · rfl
  nan f v := by
    split
    · cases v <;> simp [swapped]
    · rfl

theorem coded_fits : coded.Fits newIrep.nBins (.name p!"Class") mixedData where
  cls := rfl
  names := rfl
  default := fun _ _ => by decide +kernel
  labels := fun _ v => by
    have : (Feat.name p!"Class" = fa) = False := by decide +kernel
    simp [coded, this]
  numbers := fun f h v => by
    obtain ⟨h1, _, h2, _⟩ := h
    have : ∀ f ∈ mixedData.X.cols, mixedData.X.kind f = .number → f ≠ fa := by decide +kernel
    simp [coded, this f h1 h2]

theorem coded_alike : coded.PrintsAlike (Compared F P newIrep.nBins mixedData .nothing) := by
  have hall : (preprocessTraining F P newIrep.nBins mixedData).map (fun q => (q.2.1 == .name p!"Class" &&
      q.1.cols.all (fun f => f == .name p!"Class" || f == fa || f == fn) &&
      q.1.rows.all (fun r => r.cell fa == vx || r.cell fa == vy))) = .ok true := by decide +kernel
  have hD : ∀ c, Compared F P newIrep.nBins mixedData .nothing c → (c.feature = fa ∧ (c.val = vx ∨ c.val = vy)) ∨ c.feature = fn := by
    rintro ⟨f, v⟩ (⟨df, cf, pc, b, hq, h1, h2, row, hrow, hv⟩ | ⟨rs, hrs, h⟩)
    · rw [hq] at hall
      simp only [Except.map, Except.ok.injEq, Bool.and_eq_true, beq_iff_eq, List.all_eq_true, Bool.or_eq_true] at hall
      obtain ⟨⟨e1, e2⟩, e3⟩ := hall
      dsimp only at h1 h2 hv ⊢
      rcases e2 f h1 with (e | e) | e
      · exact absurd (e.trans e1.symm) h2
      · refine Or.inl ⟨e, ?_⟩
        rw [← hv, e]
        exact e3 row hrow
      · exact Or.inr e
    · cases hrs
      rcases h with ⟨r, hr, _⟩ | ⟨l, hl, _⟩
      · cases hr
      · cases hl
  refine printsAlike_of (K := (· ∈ [fa, fn])) ?_ ⟨by decide +kernel, by decide +kernel⟩ ⟨?_, ?_⟩ ?_
  · intro c hc
    rcases hD c hc with ⟨h, _⟩ | h <;> simp [h]
  · rintro f ⟨f0, h0, rfl⟩
    revert f0
    decide +kernel
  · rintro f ⟨f0, h0, rfl⟩ f' ⟨f1, h1, rfl⟩
    have : ∀ f ∈ [fa, fn], ∀ f' ∈ [fa, fn], (coded.feat f).text = (coded.feat f').text → coded.feat f = coded.feat f' := by decide +kernel
    exact this f0 h0 f1 h1
  · rintro c d hc hd he
    rcases hD c hc with ⟨h1, h2⟩ | h1
    · rcases hD d hd with ⟨_, h3⟩ | h3
      · rw [h1]
        rcases h2 with h2 | h2 <;> rcases h3 with h3 | h3 <;> rw [h2, h3] <;> decide +kernel
      · rw [he, h3] at h1
        exact absurd h1 (by decide +kernel)
    · rw [h1]
      have : ∀ v, coded.val fn v = v := fun v => by
        have : (fn = fa) = False := by decide +kernel
        simp [coded, this]
      rw [this, this]
end Demo

/-- A concrete case of C95: a text column whose codes are exchanged, and a column of numbers, which is binned, exchange their names. -/
example : (∃ c', Method.irep.fit 7 Demo.R0 Demo.F Demo.P Demo.mixedData .nothing () Demo.newIrep = .ok () c' ∧
      Method.irep.fit 7 Demo.R0 Demo.F Demo.P (Demo.mixedData.recode Demo.coded (.name p!"Class")) .nothing () Demo.newIrep =
        .ok () (c'.recode Demo.coded)) ∧
    (Demo.seen (Method.irep.fit 7 Demo.R0 Demo.F Demo.P Demo.mixedData .nothing () Demo.newIrep)).1 =
      some [[⟨Demo.fn, .str p!"<9.0"⟩, ⟨Demo.fa, Demo.vx⟩]] ∧
    (Demo.seen (Method.irep.fit 7 Demo.R0 Demo.F Demo.P (Demo.mixedData.recode Demo.coded (.name p!"Class")) .nothing () Demo.newIrep)).1 =
      some [[⟨Demo.fa, .str p!"<9.0"⟩, ⟨Demo.fn, Demo.vy⟩]] := by
  refine ⟨?_, by decide +kernel, by decide +kernel⟩
  obtain ⟨g', c', h⟩ := C35_irep_fit_on_valid_data Demo.R0 Demo.R0_lawful Demo.F Demo.F_lawful Demo.P Demo.P_lawful Demo.mixedData Demo.mixed_valid
    .nothing { rules := [] } rfl (by rintro f ⟨r, hr, _⟩; simp at hr) Demo.newIrep (Or.inl (by decide +kernel)) (by decide +kernel) 7
    (by decide +kernel) ()
  have key := C95_fit_recoded (φ := Demo.coded) .irep (fun S hS => by cases hS) 7 Demo.R0 Demo.F Demo.P (.name p!"Class") Demo.mixedData .nothing
    (by intro s hs; cases hs) () Demo.newIrep Demo.coded_fits Demo.coded_alike
  refine ⟨c', h, ?_⟩
  have h' : completed (Method.irep.fit 7 Demo.R0 Demo.F Demo.P Demo.mixedData .nothing () Demo.newIrep) = .ok (g', c') := by
    rw [show Method.irep.fit 7 Demo.R0 Demo.F Demo.P Demo.mixedData .nothing () Demo.newIrep = .ok g' c' from h]; rfl
  rw [h'] at key
  have e0 : ModelArg.nothing.recode Demo.coded = .nothing := rfl
  rw [e0] at key
  cases hr : Method.irep.fit 7 Demo.R0 Demo.F Demo.P (Demo.mixedData.recode Demo.coded (.name p!"Class")) .nothing () Demo.newIrep with
  | error e k => rw [hr] at key; cases key
  | ok g2 c2 => rw [hr] at key; cases key; rfl

/-- The names of that data are plain before and after. -/
example : PlainNames (· ∈ Demo.mixedData.X.cols) ∧ PlainNames (· ∈ Demo.mixedData.X.cols.map (Equiv.swap Demo.fa Demo.fn)) :=
  ⟨⟨by decide +kernel, by decide +kernel⟩, ⟨by decide +kernel, by decide +kernel⟩⟩

end Witt
