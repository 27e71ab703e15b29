import Verif.Props.ProbaApi
import Verif.Props.Text
/-
C102: a classifier answers row by row.
-/
namespace Witt
open Spec

namespace Spec
/-- The same columns and dtypes, with these rows only (`X.iloc[...]`). -/
def _root_.Witt.TFrame.only (X : TFrame) (rows : List Row) : TFrame := { X with rows := rows }

/-- Asking about a batch is asking about its rows one at a time: on data with distinct row labels, there is an answer for
the batch exactly if there is one for each row alone, and it lists those. -/
def RowByRow {α : Type} (ask : TFrame → Except PyErr (List α)) : Prop :=
  ∀ X : TFrame, X.rows ≠ [] → X.UniqueIndex → ∀ xs, ask X = .ok xs ↔
    List.Forall₂ (fun row x => ask (X.only [row]) = .ok [x]) X.rows xs
end Spec

/-! ### data preparation is row by row -/

/-- What a stage of the preparation does with a batch: each row is mapped on its own, or refused. -/
def StageAt (h : TFrame → Except PyErr TFrame) (X : TFrame) : Prop :=
  ∃ (g : Row → Option Row) (Y : TFrame), (∀ r r', g r = some r' → r'.label = r.label) ∧
    ∀ rows, rows ≠ [] → ∀ Z, h (X.only rows) = .ok Z ↔
      ∃ rows', List.Forall₂ (fun r r' => g r = some r') rows rows' ∧ Z = Y.only rows'

theorem forall₂_some {α β : Type} (f : α → β) : ∀ (l : List α) (l' : List β),
    List.Forall₂ (fun r r' => some (f r) = some r') l l' ↔ l' = l.map f
  | [], l' => by
    constructor
    · intro h; cases h; rfl
    · rintro rfl; exact .nil
  | a :: l, l' => by
    constructor
    · intro h
      cases h with
      | cons h1 h2 =>
        cases h1
        rw [(forall₂_some f l _).mp h2]
        rfl
    · rintro rfl
      exact .cons rfl ((forall₂_some f l _).mpr rfl)

theorem StageAt.of_map {h : TFrame → Except PyErr TFrame} {X Y : TFrame} {f : Row → Row} (hl : ∀ r, (f r).label = r.label)
    (hf : ∀ rows, rows ≠ [] → h (X.only rows) = .ok (Y.only (rows.map f))) : StageAt h X := by
  refine ⟨fun r => some (f r), Y, fun r r' e => by cases e; exact hl r, fun rows hne Z => ?_⟩
  rw [hf rows hne, Except.ok.injEq]
  constructor
  · rintro rfl
    exact ⟨_, (forall₂_some f _ _).mpr rfl, rfl⟩
  · rintro ⟨rows', h1, rfl⟩
    rw [(forall₂_some f _ _).mp h1]

theorem StageAt.of_none {h : TFrame → Except PyErr TFrame} {X : TFrame}
    (hf : ∀ rows, rows ≠ [] → ∀ Z, h (X.only rows) ≠ .ok Z) : StageAt h X := by
  refine ⟨fun _ => none, X, fun r r' e => (by cases e), fun rows hne Z => ⟨fun e => absurd e (hf rows hne Z), ?_⟩⟩
  rintro ⟨rows', h1, _⟩
  cases h1 with
  | nil => exact absurd rfl hne
  | cons h1 _ => cases h1

theorem forall₂_comp {α β γ : Type} {p : α → Option β} {q : β → Option γ} : ∀ (l : List α) (n : List γ),
    List.Forall₂ (fun a c => (p a).bind q = some c) l n ↔
      ∃ m, List.Forall₂ (fun a b => p a = some b) l m ∧ List.Forall₂ (fun b c => q b = some c) m n
  | [], n => by
    constructor
    · intro h; cases h; exact ⟨[], .nil, .nil⟩
    · rintro ⟨m, h1, h2⟩; cases h1; cases h2; exact .nil
  | a :: l, n => by
    constructor
    · intro h
      cases h with
      | cons h1 h2 =>
        obtain ⟨m, h3, h4⟩ := (forall₂_comp l _).mp h2
        obtain ⟨b, h5, h6⟩ := Option.bind_eq_some_iff.mp h1
        exact ⟨b :: m, .cons h5 h3, .cons h6 h4⟩
    · rintro ⟨m, h1, h2⟩
      cases h1 with
      | cons h3 h4 =>
        cases h2 with
        | cons h5 h6 => exact .cons (by rw [h3]; exact h5) ((forall₂_comp l _).mpr ⟨_, h4, h6⟩)

theorem forall₂_ne_nil {α β : Type} {R : α → β → Prop} {l : List α} {m : List β} (h : List.Forall₂ R l m) (hl : l ≠ []) :
    m ≠ [] := by
  cases h with
  | nil => exact absurd rfl hl
  | cons _ _ => simp

theorem StageAt.bind {h1 h2 : TFrame → Except PyErr TFrame} {X : TFrame} (s1 : StageAt h1 X) (s2 : ∀ Y, StageAt h2 Y) :
    StageAt (fun X => do h2 (← h1 X)) X := by
  obtain ⟨g1, Y1, l1, e1⟩ := s1
  obtain ⟨g2, Y2, l2, e2⟩ := s2 Y1
  refine ⟨fun r => (g1 r).bind g2, Y2, fun r r' e => ?_, fun rows hne Z => ?_⟩
  · obtain ⟨b, h3, h4⟩ := Option.bind_eq_some_iff.mp e
    rw [l2 _ _ h4, l1 _ _ h3]
  · dsimp only
    rw [bind_ok_iff]
    constructor
    · rintro ⟨Z1, h3, h4⟩
      obtain ⟨rows1, h5, rfl⟩ := (e1 rows hne Z1).mp h3
      obtain ⟨rows2, h6, rfl⟩ := (e2 rows1 (forall₂_ne_nil h5 hne) Z).mp h4
      exact ⟨rows2, (forall₂_comp _ _).mpr ⟨rows1, h5, h6⟩, rfl⟩
    · rintro ⟨rows2, h3, rfl⟩
      obtain ⟨rows1, h5, h6⟩ := (forall₂_comp _ _).mp h3
      exact ⟨_, (e1 rows hne _).mpr ⟨rows1, h5, rfl⟩, (e2 rows1 (forall₂_ne_nil h5 hne) _).mpr ⟨rows2, h6, rfl⟩⟩

theorem StageAt.congr {h h' : TFrame → Except PyErr TFrame} {X : TFrame}
    (e : ∀ rows, rows ≠ [] → h (X.only rows) = h' (X.only rows)) (s : StageAt h X) : StageAt h' X := by
  obtain ⟨g, Y, l, e1⟩ := s
  exact ⟨g, Y, l, fun rows hne Z => by rw [← e rows hne]; exact e1 rows hne Z⟩

theorem rename_stage (names : List Feat) (X : TFrame) : StageAt (fun X => X.rename names) X := by
  by_cases h : names.length ≠ X.cols.length
  · refine StageAt.of_none fun rows _ Z => ?_
    unfold TFrame.rename
    rw [if_pos (by exact h)]
    simp
  · refine StageAt.of_map (Y := { cols := names, rows := [], kind := fun f => ((oldName names X.cols f).map X.kind).getD .other })
      (f := fun row => { row with cell := fun f => ((oldName names X.cols f).map row.cell).getD .nan }) (fun _ => rfl)
      fun rows _ => ?_
    unfold TFrame.rename
    rw [if_neg (by exact h)]
    rfl

theorem id_stage (X : TFrame) : StageAt (fun X => .ok X) X :=
  StageAt.of_map (Y := X) (f := fun r => r) (fun _ => rfl) fun rows _ => by rw [List.map_id']

theorem toPrediction_stage (cf : Feat) (names : Option (List Feat)) (X : TFrame) :
    StageAt (fun X => toPrediction X cf names) X := by
  have hd : StageAt (fun X => .ok (if X.cols.contains cf then X.dropCol cf else X)) X := by
    by_cases h : X.cols.contains cf = true
    · refine StageAt.of_map (Y := X.dropCol cf) (f := fun r => r) (fun _ => rfl) fun rows _ => ?_
      rw [if_pos (by exact h), List.map_id']
      rfl
    · refine StageAt.of_map (Y := X) (f := fun r => r) (fun _ => rfl) fun rows _ => ?_
      rw [if_neg (by exact h), List.map_id']
  cases names with
  | none => exact hd
  | some ns =>
    exact hd.bind (h2 := fun X => X.rename (ns.filter (fun f => f ≠ cf))) (rename_stage _)

theorem transformLoop_stage (F : PyFloat) (b : Binner) (done : List Feat) : ∀ (bins : List (Feat × List PStr)) (X : TFrame),
    StageAt (transformLoop F b done bins) X
  | [], X => id_stage X
  | (f, labels) :: rest, X => by
    by_cases h : (X.cols.contains f && !done.contains f) = true
    · cases hg : featTransform F b f labels with
      | error e =>
        refine StageAt.of_none fun rows _ Z => ?_
        rw [transformLoop, if_pos (by exact h), hg]
        simp
      | ok g =>
        have hm : StageAt (fun X => .ok (X.mapCol f g)) X :=
          StageAt.of_map (Y := X.mapCol f g)
            (f := fun row => { row with cell := fun f' => if f' = f then g (row.cell f) else row.cell f' }) (fun _ => rfl)
            fun rows _ => rfl
        refine (hm.bind (transformLoop_stage F b done rest)).congr fun rows _ => ?_
        rw [transformLoop, if_pos (by exact h), hg]
        rfl
    · refine (transformLoop_stage F b done rest X).congr fun rows _ => ?_
      rw [transformLoop, if_neg (by exact h)]

theorem forall₂_filter {α : Type} {p : α → Prop} [DecidablePred p] : ∀ (l m : List α),
    List.Forall₂ (fun r r' => (if p r then some r else none) = some r') l m ↔ (∀ r ∈ l, p r) ∧ m = l
  | [], m => by
    constructor
    · intro h; cases h; exact ⟨by simp, rfl⟩
    · rintro ⟨_, rfl⟩; exact .nil
  | a :: l, m => by
    constructor
    · intro h
      cases h with
      | cons h1 h2 =>
        obtain ⟨h3, rfl⟩ := (forall₂_filter l _).mp h2
        by_cases hp : p a
        · rw [if_pos hp] at h1
          cases h1
          exact ⟨fun r hr => by rcases List.mem_cons.mp hr with rfl | hr; exacts [hp, h3 r hr], rfl⟩
        · rw [if_neg hp] at h1; cases h1
    · rintro ⟨h1, rfl⟩
      exact .cons (by rw [if_pos (h1 a List.mem_cons_self)])
        ((forall₂_filter l l).mpr ⟨fun r hr => h1 r (List.mem_cons_of_mem _ hr), rfl⟩)

open Classical in
theorem applyBins_stage (F : PyFloat) (b : Binner) (X : TFrame) : StageAt (applyBins F b) X := by
  by_cases hb : b.bins = []
  · refine (id_stage X).congr fun rows _ => ?_
    rw [applyBins, if_pos hb]
  · have hc : StageAt (fun X => (findTransformed b X).map (fun _ => X)) X := by
      refine ⟨fun r => if ¬ BadText b (X.only [r]) then some r else none, X, fun r r' e => ?_, fun rows _ Z => ?_⟩
      · dsimp only at e
        split at e
        · cases e; rfl
        · cases e
      · have hbad : BadText b (X.only rows) ↔ ∃ r ∈ rows, BadText b (X.only [r]) := by
          constructor
          · rintro ⟨f, labels, h1, h2, h3, row, h4, h5⟩
            exact ⟨row, h4, f, labels, h1, h2, h3, row, List.mem_singleton.mpr rfl, h5⟩
          · rintro ⟨r, hr, f, labels, h1, h2, h3, row, h4, h5⟩
            rw [List.mem_singleton.mp h4] at h5
            exact ⟨f, labels, h1, h2, h3, r, hr, h5⟩
        have key : ((findTransformed b (X.only rows)).map (fun _ => X.only rows) = .ok Z) ↔
            (∀ r ∈ rows, ¬ BadText b (X.only [r])) ∧ X.only rows = Z := by
          rw [findTransformed_eq]
          by_cases h : BadText b (X.only rows)
          · rw [if_pos h]
            obtain ⟨r, hr, h'⟩ := hbad.mp h
            exact ⟨fun e => (by cases e), fun e => absurd h' (e.1 r hr)⟩
          · rw [if_neg h]
            have : ∀ r ∈ rows, ¬ BadText b (X.only [r]) := fun r hr h' => h (hbad.mpr ⟨r, hr, h'⟩)
            constructor
            · intro e; cases e; exact ⟨this, rfl⟩
            · rintro ⟨_, rfl⟩; rfl
        dsimp only
        rw [key]
        constructor
        · rintro ⟨h1, rfl⟩
          exact ⟨rows, (forall₂_filter _ _).mpr ⟨h1, rfl⟩, rfl⟩
        · rintro ⟨rows', h1, rfl⟩
          obtain ⟨h2, rfl⟩ := (forall₂_filter _ _).mp h1
          exact ⟨h2, rfl⟩
    have hd : ∀ Y, StageAt (fun Y => transformLoop F b (transformedFeats b Y) b.bins Y) Y := fun Y =>
      (transformLoop_stage F b (transformedFeats b Y) b.bins Y).congr fun rows _ => rfl
    refine (hc.bind hd).congr fun rows _ => ?_
    rw [applyBins, if_neg hb, Binner.transform, findTransformed_eq]
    split <;> rfl

theorem prediction_stage (F : PyFloat) (cf : Feat) (b : Binner) (names : Option (List Feat)) (sel : List Feat) (X : TFrame) :
    StageAt (fun X => preprocessPrediction F X cf b names sel) X := by
  have hs : ∀ Y : TFrame, StageAt (fun Y =>
      if sel.any (fun f => !Y.cols.contains f) then .error .indexError else applyBins F b Y) Y := by
    intro Y
    by_cases h : (sel.any (fun f => !Y.cols.contains f)) = true
    · refine StageAt.of_none fun rows _ Z => ?_
      rw [if_pos (by exact h)]
      simp
    · refine (applyBins_stage F b Y).congr fun rows _ => ?_
      rw [if_neg (by exact h)]
  refine ((toPrediction_stage cf names X).bind hs).congr fun rows hne => ?_
  unfold preprocessPrediction
  rw [if_neg (by exact hne)]

/-! ### so are the rules -/

/-- What is asked of the rules is asked row by row. -/
def ActAt {α : Type} (act : Frame → Except PyErr (List α)) (Y : TFrame) : Prop :=
  ∃ a : Row → Option α, ∀ rows, rows ≠ [] → (rows.map Row.label).Nodup → ∀ xs,
    act (Y.only rows).toFrame = .ok xs ↔ List.Forall₂ (fun r x => a r = some x) rows xs

theorem ActAt.of_map {α : Type} {act : Frame → Except PyErr (List α)} {Y : TFrame} {f : Row → α}
    (hf : ∀ rows, rows ≠ [] → (rows.map Row.label).Nodup → act (Y.only rows).toFrame = .ok (rows.map f)) : ActAt act Y := by
  refine ⟨fun r => some (f r), fun rows hne hu xs => ?_⟩
  rw [hf rows hne hu, Except.ok.injEq, forall₂_some]
  exact ⟨fun h => h.symm, fun h => h.symm⟩

theorem ActAt.of_none {α : Type} {act : Frame → Except PyErr (List α)} {Y : TFrame}
    (hf : ∀ rows, rows ≠ [] → (rows.map Row.label).Nodup → ∀ xs, act (Y.only rows).toFrame ≠ .ok xs) : ActAt act Y := by
  refine ⟨fun _ => none, fun rows hne hu xs => ⟨fun e => absurd e (hf rows hne hu xs), fun h => ?_⟩⟩
  cases h with
  | nil => exact absurd rfl hne
  | cons h _ => cases h

theorem answer_rowByRow {α β : Type} (F : PyFloat) (act : Ruleset → Frame → Except PyErr β) (k : β → List α)
    (ha : ∀ rs Y, ActAt (fun df => (act rs df).map k) Y) (names : Option (List Feat)) (c : Clf) :
    RowByRow (fun X => (answer F act X names c).map k) := by
  have none_of {e : PyErr} (he : ∀ X, answer F act X names c = .error e) :
      RowByRow (fun X => (answer F act X names c).map k) := by
    intro X hX _ xs
    dsimp only
    rw [he]
    constructor
    · intro h; cases h
    · intro h
      cases hr : X.rows with
      | nil => exact absurd hr hX
      | cons r rows =>
        rw [hr] at h
        cases h with
        | cons h _ => rw [he] at h; cases h
  unfold answer at none_of ⊢
  cases h1 : attr c.classFeat with
  | error e => rw [h1] at none_of; exact none_of fun _ => rfl
  | ok cf =>
    cases h2 : attr c.posClass with
    | error e => rw [h1, h2] at none_of; exact none_of fun _ => rfl
    | ok pc =>
      cases h3 : attr c.binner with
      | error e => rw [h1, h2, h3] at none_of; exact none_of fun _ => rfl
      | ok b =>
        cases h4 : attr c.selected with
        | error e => rw [h1, h2, h3, h4] at none_of; exact none_of fun _ => rfl
        | ok sel =>
          cases h5 : attr c.trainFeats with
          | error e => rw [h1, h2, h3, h4, h5] at none_of; exact none_of fun _ => rfl
          | ok tf =>
            clear none_of
            simp only [ok_bind]
            cases h6 : attr c.ruleset with
            | error e =>
              intro X hX _ xs
              have never : ∀ Y xs, (preprocessPrediction F Y cf b names sel >>= fun df =>
                  (.error e : Except PyErr Ruleset) >>= fun rs => act rs df.toFrame).map k ≠ .ok xs := by
                intro Y xs
                cases preprocessPrediction F Y cf b names sel <;> (intro h; cases h)
              constructor
              · intro h; exact absurd h (never _ _)
              · intro h
                cases hr : X.rows with
                | nil => exact absurd hr hX
                | cons r rows =>
                  rw [hr] at h
                  cases h with
                  | cons h _ => exact absurd h (never _ _)
            | ok rs =>
              intro X hX hu xs
              obtain ⟨g, Y, hl, hp⟩ := prediction_stage F cf b names sel X
              obtain ⟨a, ha⟩ := ha rs Y
              have key : ∀ rows, rows ≠ [] → (rows.map Row.label).Nodup → ∀ xs,
                  (do let df ← preprocessPrediction F (X.only rows) cf b names sel; act rs df.toFrame).map k = .ok xs ↔
                    List.Forall₂ (fun r x => (g r).bind a = some x) rows xs := by
                intro rows hne hnd xs
                have hlabels : ∀ {l m : List Row}, List.Forall₂ (fun r r' => g r = some r') l m →
                    m.map Row.label = l.map Row.label := by
                  intro l m h
                  induction h with
                  | nil => rfl
                  | cons h1 _ ih => rw [List.map_cons, List.map_cons, ih, hl _ _ h1]
                rw [forall₂_comp]
                constructor
                · intro h
                  cases hq : preprocessPrediction F (X.only rows) cf b names sel with
                  | error e => rw [hq] at h; cases h
                  | ok Z =>
                    rw [hq, ok_bind] at h
                    obtain ⟨rows', h7, rfl⟩ := (hp rows hne Z).mp hq
                    exact ⟨rows', h7, (ha rows' (forall₂_ne_nil h7 hne) (by rw [hlabels h7]; exact hnd) xs).mp h⟩
                · rintro ⟨rows', h7, h8⟩
                  have hq := (hp rows hne _).mpr ⟨rows', h7, rfl⟩
                  dsimp only at hq
                  rw [hq, ok_bind]
                  exact (ha rows' (forall₂_ne_nil h7 hne) (by rw [hlabels h7]; exact hnd) xs).mpr h8
              have one : ∀ row x, ((do let df ← preprocessPrediction F (X.only [row]) cf b names sel; act rs df.toFrame).map k
                  = .ok [x]) ↔ (g row).bind a = some x := by
                intro row x
                rw [key [row] (by simp) (by simp)]
                constructor
                · intro h
                  cases h with
                  | cons h _ => exact h
                · intro h; exact .cons h .nil
              have whole := key X.rows hX hu xs
              have : X.only X.rows = X := rfl
              rw [this] at whole
              simp only [ok_bind]
              rw [whole]
              simp only [one]

theorem rowByRow_congr {α : Type} {p q : TFrame → Except PyErr (List α)} (e : ∀ X, p X = q X) (h : RowByRow p) : RowByRow q := by
  have : p = q := funext e
  rwa [← this]

theorem rowByRow_none {α : Type} {p : TFrame → Except PyErr (List α)} (h : ∀ X xs, p X ≠ .ok xs) : RowByRow p := by
  intro X hX _ xs
  refine ⟨fun e => absurd e (h _ _), fun e => ?_⟩
  cases hr : X.rows with
  | nil => exact absurd hr hX
  | cons r rows =>
    rw [hr] at e
    cases e with
    | cons e _ => exact absurd e (h _ _)

theorem query_rowByRow {α β : Type} (F : PyFloat) (act : Ruleset → Frame → Except PyErr β) (k : β → List α)
    (ha : ∀ rs Y, ActAt (fun df => (act rs df).map k) Y) (names : Option (List Feat)) (c : Clf) :
    RowByRow (fun X => (returned (query F act X names c)).map k) := by
  cases hr : c.ruleset with
  | none =>
    refine rowByRow_none fun X xs => ?_
    rw [query_unfit hr]
    exact fun h => by cases h
  | some rs =>
    cases hb : c.binner with
    | some b =>
      refine rowByRow_congr (h := answer_rowByRow F act k ha names c) fun X => ?_
      rw [query_some hr hb, returned_outcome]
    | none =>
      cases hc : constructFromRuleset F rs with
      | error e =>
        refine rowByRow_none fun X xs => ?_
        rw [query_none hr hb, hc]
        exact fun h => by cases h
      | ok u =>
        refine rowByRow_congr (h := answer_rowByRow F act k ha names c.withEmptyBinner) fun X => ?_
        rw [query_none hr hb, hc]
        dsimp only
        rw [returned_outcome]

theorem probaQuery_rowByRow {α β : Type} (F : PyFloat) (act : Ruleset → Frame → Except PyErr β) (k : β → List α)
    (ha : ∀ rs Y, ActAt (fun df => (act rs df).map k) Y) (names : Option (List Feat)) (c : Clf) :
    RowByRow (fun X => (returned (probaQuery F act X names c)).map k) := by
  cases hr : c.ruleset with
  | none =>
    refine rowByRow_none fun X xs => ?_
    rw [probaQuery_run, hr]
    exact fun h => by cases h
  | some rs =>
    cases hb : c.binner with
    | none =>
      refine rowByRow_none fun X xs => ?_
      rw [probaQuery_run, hr, hb]
      exact fun h => by cases h
    | some b =>
      refine rowByRow_congr (h := answer_rowByRow F act k ha names c) fun X => ?_
      rw [probaQuery_run, prepOf_answer, hr, hb]
      dsimp only
      cases prepOf F X names c with
      | error e => rfl
      | ok df =>
        dsimp only
        rw [returned_outcome]
        rfl

theorem predict_act (rs : Ruleset) (Y : TFrame) : ActAt (fun df => rs.predict df) Y := by
  by_cases h : (∃ r ∈ rs.rules, r.conds = []) ∨ HasFeatures Y.toFrame rs.rules
  · exact ActAt.of_map (f := rulesMet rs.rules) fun rows _ hu => Ruleset.predict_unique hu h
  · refine ActAt.of_none fun rows _ _ xs => ?_
    rw [Ruleset.predict, Ruleset.covers_err (by exact h)]
    exact fun e => by cases e

theorem filterM_all {α : Type} {f : α → Except PyErr Bool} {l r : List α} (h : l.filterM f = .ok r) :
    ∀ a ∈ l, ∃ b, f a = .ok b := by
  have : ∀ (l acc r : List α), l.filterAuxM f acc = .ok r → ∀ a ∈ l, ∃ b, f a = .ok b := by
    intro l
    induction l with
    | nil => intro _ _ _ a ha; cases ha
    | cons x l ih =>
      intro acc r h a ha
      rw [List.filterAuxM] at h
      obtain ⟨b, h1, h2⟩ := bind_ok_iff.mp h
      rcases List.mem_cons.mp ha with rfl | ha
      · exact ⟨b, h1⟩
      · exact ih _ _ h2 a ha
  unfold List.filterM at h
  obtain ⟨b, h1, _⟩ := bind_ok_iff.mp h
  exact this _ _ _ h1

/-- With reasons asked for, every tested column must be there. -/
theorem predictReasons_features {rs : Ruleset} {df : Frame} (hne : df.rows ≠ []) {a : List Bool × List (List Rule)}
    (h : rs.predictReasons df = .ok a) : HasFeatures df rs.rules := by
  by_cases hf : HasFeatures df rs.rules
  · exact hf
  exfalso
  unfold Ruleset.predictReasons at h
  by_cases hu : ∃ r ∈ rs.rules, r.conds = []
  · rw [Ruleset.predict_ok (.inl hu), ok_bind] at h
    obtain ⟨rss, h1, _⟩ := bind_ok_iff.mp h
    rw [mapM_iff] at h1
    cases hr : df.rows with
    | nil => exact hne hr
    | cons row rows =>
      have hmet : rulesMet rs.rules row = true := by
        obtain ⟨r, hr1, hr2⟩ := hu
        exact List.any_eq_true.mpr ⟨r, hr1, by simp [hr2]⟩
      have hz : df.index.zip (df.rows.map (fun row => df.rows.any (fun row' => row'.label == row.label && rulesMet rs.rules row')))
          = (row.label, true) :: (df.index.zip (df.rows.map (fun row => df.rows.any (fun row' => row'.label == row.label && rulesMet rs.rules row')))).tail := by
        simp [Frame.index, hr, hmet]
      rw [hz] at h1
      cases h1 with
      | cons h1 _ =>
        simp only [if_true] at h1
        apply hf
        intro r hr1 c hc
        obtain ⟨b, hb⟩ := filterM_all h1 r hr1
        obtain ⟨n, hn, _⟩ := bind_ok_iff.mp hb
        unfold Rule.numCovered Rule.covers at hn
        rcases condsCover_cases r.conds (df.keep (fun row' => row'.label == row.label)) with ⟨_, h3⟩ | ⟨h3, _⟩
        · exact h3 c hc
        · rw [h3] at hn; cases hn
  · rw [Ruleset.predict, Ruleset.covers_err (by rintro (h' | h'); exacts [hu h', hf h'])] at h
    cases h

theorem reasons_act (rs : Ruleset) (Y : TFrame) : ActAt (fun df => (rs.predictReasons df).map (fun a => a.1.zip a.2)) Y := by
  by_cases h : HasFeatures Y.toFrame rs.rules
  · refine ActAt.of_map (f := fun row => (rulesMet rs.rules row, rs.rules.filter (fun r => condsMet r.conds row)))
      fun rows _ hu => ?_
    rw [Ruleset.predictReasons_unique (df := (Y.only rows).toFrame) hu h]
    show Except.ok _ = _
    dsimp only
    rw [List.zip_map']
    rfl
  · refine ActAt.of_none fun rows hne _ xs e => h ?_
    cases hp : rs.predictReasons (Y.only rows).toFrame with
    | error e' => rw [hp] at e; cases e
    | ok a => exact predictReasons_features (df := (Y.only rows).toFrame) hne hp

/-- The probabilities of one row, from whether it is covered and by which rules (base.py 281-288). -/
def rowProba (unc : Rat × Rat) (pr : Bool × List Rule) : Except PyErr (Rat × Rat) :=
  if !pr.1 then .ok unc else do return weightedAvg (← pr.2.mapM (fun r => attr r.cal.smoothed))

theorem forall₂_toOption {α β : Type} {f : α → Except PyErr β} : ∀ (l : List α) (m : List β),
    List.Forall₂ (fun a b => f a = .ok b) l m ↔ List.Forall₂ (fun a b => (f a).toOption = some b) l m := by
  intro l m
  have : (fun a b => f a = .ok b) = fun a b => (f a).toOption = some b := by
    funext a b
    cases f a <;> simp [Except.toOption]
  rw [this]

theorem forall₂_zip {α β γ : Type} {p : α → Option β} (s : α → γ) : ∀ (l : List α) (n : List (β × γ)),
    List.Forall₂ (fun a x => (p a).map (fun b => (b, s a)) = some x) l n ↔
      ∃ m, List.Forall₂ (fun a b => p a = some b) l m ∧ n = m.zip (l.map s)
  | [], n => by
    constructor
    · intro h; cases h; exact ⟨[], .nil, rfl⟩
    · rintro ⟨m, h, rfl⟩; cases h; exact .nil
  | a :: l, n => by
    constructor
    · intro h
      cases h with
      | cons h1 h2 =>
        obtain ⟨m, h3, rfl⟩ := (forall₂_zip s l _).mp h2
        obtain ⟨b, h4, rfl⟩ := Option.map_eq_some_iff.mp h1
        exact ⟨b :: m, .cons h4 h3, rfl⟩
    · rintro ⟨m, h, rfl⟩
      cases h with
      | cons h1 h2 => exact .cons (by rw [h1]; rfl) ((forall₂_zip s l _).mpr ⟨_, h2, rfl⟩)

theorem probaReasons_eq {rs : Ruleset} {df : Frame} {s : Rat × Rat} (hs : rs.uncov.smoothed = some s) (hu : df.UniqueIndex)
    (h : HasFeatures df rs.rules) :
    rs.predictProbaReasons df =
      (df.rows.mapM (fun row => rowProba (weightedAvg [s]) (rulesMet rs.rules row, rs.rules.filter (fun r => condsMet r.conds row)))).map
        (fun probas => (probas, df.rows.map (fun row => rs.rules.filter (fun r => condsMet r.conds row)))) := by
  unfold Ruleset.predictProbaReasons
  rw [Ruleset.predictReasons_unique hu h, hs]
  simp only [attr, ok_bind, pure_eq_ok]
  rw [List.zip_map', List.mapM_map]
  rfl

theorem probaReasons_none {rs : Ruleset} {df : Frame} (hs : rs.uncov.smoothed = none) :
    rs.predictProbaReasons df = .error .attributeError := by
  unfold Ruleset.predictProbaReasons
  rw [hs]
  rfl

theorem probaReasons_features {rs : Ruleset} {df : Frame} (hne : df.rows ≠ []) {a : List (Rat × Rat) × List (List Rule)}
    (h : rs.predictProbaReasons df = .ok a) : HasFeatures df rs.rules := by
  unfold Ruleset.predictProbaReasons at h
  obtain ⟨_, _, h⟩ := bind_ok_iff.mp h
  obtain ⟨b, h1, _⟩ := bind_ok_iff.mp h
  exact predictReasons_features hne h1

theorem proba_act (rs : Ruleset) (Y : TFrame) : ActAt (fun df => rs.predictProba df) Y := by
  cases hs : rs.uncov.smoothed with
  | none =>
    refine ActAt.of_none fun rows _ _ xs e => ?_
    rw [Ruleset.predictProba, probaReasons_none hs] at e
    cases e
  | some s =>
    by_cases h : HasFeatures Y.toFrame rs.rules
    · refine ⟨fun row => (rowProba (weightedAvg [s]) (rulesMet rs.rules row, rs.rules.filter (fun r => condsMet r.conds row))).toOption,
        fun rows _ hu xs => ?_⟩
      rw [← forall₂_toOption, ← mapM_iff]
      unfold Ruleset.predictProba
      dsimp only
      rw [probaReasons_eq (df := (Y.only rows).toFrame) hs hu h]
      show (Except.map _ (List.mapM _ rows) >>= _) = _ ↔ _
      cases List.mapM (fun row => rowProba (weightedAvg [s]) (rulesMet rs.rules row,
        rs.rules.filter (fun r => condsMet r.conds row))) rows <;> rfl
    · refine ActAt.of_none fun rows hne _ xs e => h ?_
      obtain ⟨a, ha, _⟩ := bind_ok_iff.mp e
      exact probaReasons_features (df := (Y.only rows).toFrame) hne ha

theorem probaReasons_act (rs : Ruleset) (Y : TFrame) :
    ActAt (fun df => (rs.predictProbaReasons df).map (fun a => a.1.zip a.2)) Y := by
  cases hs : rs.uncov.smoothed with
  | none =>
    refine ActAt.of_none fun rows _ _ xs e => ?_
    rw [probaReasons_none hs] at e
    cases e
  | some s =>
    by_cases h : HasFeatures Y.toFrame rs.rules
    · refine ⟨fun row => ((rowProba (weightedAvg [s]) (rulesMet rs.rules row,
          rs.rules.filter (fun r => condsMet r.conds row))).toOption).map
            (fun b => (b, rs.rules.filter (fun r => condsMet r.conds row))), fun rows _ hu xs => ?_⟩
      rw [forall₂_zip]
      simp only [← forall₂_toOption]
      rw [probaReasons_eq (df := (Y.only rows).toFrame) hs hu h]
      simp only [← mapM_iff]
      show Except.map _ (Except.map _ (List.mapM _ rows)) = _ ↔ _
      cases List.mapM (fun row => rowProba (weightedAvg [s]) (rulesMet rs.rules row,
        rs.rules.filter (fun r => condsMet r.conds row))) rows with
      | error e => exact ⟨fun h => (by cases h), fun ⟨m, h, _⟩ => (by cases h)⟩
      | ok m =>
        constructor
        · intro h; cases h; exact ⟨m, rfl, rfl⟩
        · rintro ⟨m', h, rfl⟩; cases h; rfl
    · refine ActAt.of_none fun rows hne _ xs e => h ?_
      cases hp : rs.predictProbaReasons (Y.only rows).toFrame with
      | error e' => rw [hp] at e; cases e
      | ok a => exact probaReasons_features (df := (Y.only rows).toFrame) hne hp

theorem map_self {α : Type} (x : Except PyErr α) : x.map (fun a => a) = x := by cases x <;> rfl

/-! ### C102 -/

/-- C102, `predict`: on any classifier, fitted or given its rules, usable or not. -/
theorem C102_predict (F : PyFloat) (names : Option (List Feat)) (c : Clf) :
    RowByRow (fun X => returned (Clf.predict F X names c)) := by
  refine rowByRow_congr (h := query_rowByRow F (fun rs df => rs.predict df) (fun a => a)
    (fun rs Y => by simpa only [map_self] using predict_act rs Y) names c) fun X => ?_
  rw [map_self, predict_eq_query]

/-- C102, `predict(give_reasons=True)`: predictions and reasons, side by side. -/
theorem C102_predict_reasons (F : PyFloat) (names : Option (List Feat)) (c : Clf) :
    RowByRow (fun X => (returned (Clf.predictReasons F X names c)).map (fun a => a.1.zip a.2)) :=
  query_rowByRow F (fun rs df => rs.predictReasons df) (fun a => a.1.zip a.2) reasons_act names c

/-- C102, `predict_proba`. -/
theorem C102_predict_proba (F : PyFloat) (names : Option (List Feat)) (c : Clf) :
    RowByRow (fun X => returned (Clf.predictProba F X names c)) := by
  refine rowByRow_congr (h := probaQuery_rowByRow F (fun rs df => rs.predictProba df) (fun a => a)
    (fun rs Y => by simpa only [map_self] using proba_act rs Y) names c) fun X => ?_
  rw [map_self]
  rfl

/-- C102, `predict_proba(give_reasons=True)`: probabilities and reasons, side by side. -/
theorem C102_predict_proba_reasons (F : PyFloat) (names : Option (List Feat)) (c : Clf) :
    RowByRow (fun X => (returned (Clf.predictProbaReasons F X names c)).map (fun a => a.1.zip a.2)) :=
  probaQuery_rowByRow F (fun rs df => rs.predictProbaReasons df) (fun a => a.1.zip a.2) probaReasons_act names c

theorem forall₂_split {α β : Type} {R : α → β → Prop} : ∀ (l l' : List α) (m : List β),
    List.Forall₂ R (l ++ l') m ↔ ∃ m1 m2, List.Forall₂ R l m1 ∧ List.Forall₂ R l' m2 ∧ m = m1 ++ m2
  | [], l', m => by
    constructor
    · intro h; exact ⟨[], m, .nil, h, rfl⟩
    · rintro ⟨m1, m2, h1, h2, rfl⟩; cases h1; exact h2
  | a :: l, l', m => by
    rw [List.cons_append]
    constructor
    · intro h
      cases h with
      | cons h1 h2 =>
        obtain ⟨m1, m2, h3, h4, rfl⟩ := (forall₂_split l l' _).mp h2
        exact ⟨_ :: m1, m2, .cons h1 h3, h4, rfl⟩
    · rintro ⟨m1, m2, h1, h2, rfl⟩
      cases h1 with
      | cons h3 h4 => exact .cons h3 ((forall₂_split l l' _).mpr ⟨_, _, h4, h2, rfl⟩)

theorem forall₂_flatten {α β : Type} {R : α → β → Prop} : ∀ (ls : List (List α)) (m : List β),
    List.Forall₂ R ls.flatten m ↔ ∃ ms, List.Forall₂ (List.Forall₂ R) ls ms ∧ m = ms.flatten
  | [], m => by
    constructor
    · intro h; cases h; exact ⟨[], .nil, rfl⟩
    · rintro ⟨ms, h, rfl⟩; cases h; exact .nil
  | l :: ls, m => by
    rw [List.flatten_cons, forall₂_split]
    constructor
    · rintro ⟨m1, m2, h1, h2, rfl⟩
      obtain ⟨ms, h3, rfl⟩ := (forall₂_flatten ls _).mp h2
      exact ⟨m1 :: ms, .cons h1 h3, rfl⟩
    · rintro ⟨ms, h, rfl⟩
      cases h with
      | cons h1 h2 => exact ⟨_, _, h1, (forall₂_flatten ls _).mpr ⟨_, h2, rfl⟩, rfl⟩

theorem forall₂_both {α β : Type} {R : α → β → Prop} {S : α → β → Prop} : ∀ {l : List α} {m : List β},
    (∀ a ∈ l, ∀ b, R a b ↔ S a b) → (List.Forall₂ R l m ↔ List.Forall₂ S l m)
  | [], m, _ => by constructor <;> (intro h; cases h; exact .nil)
  | a :: l, m, e => by
    have ih := fun m => forall₂_both (R := R) (S := S) (l := l) (m := m) fun a ha => e a (List.mem_cons_of_mem _ ha)
    constructor
    · intro h
      cases h with
      | cons h1 h2 => exact .cons ((e a List.mem_cons_self _).mp h1) ((ih _).mp h2)
    · intro h
      cases h with
      | cons h1 h2 => exact .cons ((e a List.mem_cons_self _).mpr h1) ((ih _).mpr h2)

/-- C102: a batch may be cut into any smaller ones: the answer is what the parts give, one after the other (and there is
one exactly if every part has one). -/
theorem C102_batches {α : Type} {ask : TFrame → Except PyErr (List α)} (h : RowByRow ask) (X : TFrame) (hu : X.UniqueIndex)
    (batches : List (List Row)) (hb : batches ≠ []) (hne : ∀ b ∈ batches, b ≠ []) (hX : X.rows = batches.flatten)
    (xs : List α) :
    ask X = .ok xs ↔ ∃ xss, List.Forall₂ (fun rows ys => ask (X.only rows) = .ok ys) batches xss ∧ xs = xss.flatten := by
  have hX' : X.rows ≠ [] := by
    rw [hX]
    cases batches with
    | nil => exact absurd rfl hb
    | cons b bs =>
      intro e
      exact hne b List.mem_cons_self (by rw [List.flatten_cons, List.append_eq_nil_iff] at e; exact e.1)
  rw [h X hX' hu, hX, forall₂_flatten]
  have part : ∀ b ∈ batches, ∀ ys, List.Forall₂ (fun row x => ask (X.only [row]) = .ok [x]) b ys ↔
      ask (X.only b) = .ok ys := by
    intro b hb ys
    refine (h (X.only b) (hne b hb) ?_ ys).symm
    have hs : b.Sublist X.rows := by
      rw [hX]
      exact List.sublist_flatten_of_mem hb
    exact (hs.map Row.label).nodup hu
  constructor
  · rintro ⟨ms, h1, h2⟩
    exact ⟨ms, (forall₂_both part).mp h1, h2⟩
  · rintro ⟨ms, h1, h2⟩
    exact ⟨ms, (forall₂_both part).mpr h1, h2⟩

theorem forall₂_perm {α β : Type} {R : α → β → Prop} {l l' : List α} (hp : l.Perm l') : ∀ {m : List β}, List.Forall₂ R l m →
    ∃ m', List.Forall₂ R l' m' ∧ (l'.zip m').Perm (l.zip m) := by
  induction hp with
  | nil => intro m h; exact ⟨m, h, .refl _⟩
  | cons a _ ih =>
    intro m h
    cases h with
    | cons h1 h2 =>
      obtain ⟨m', h3, h4⟩ := ih h2
      exact ⟨_ :: m', .cons h1 h3, h4.cons _⟩
  | swap a b l =>
    intro m h
    cases h with
    | cons h1 h2 =>
      cases h2 with
      | cons h3 h4 => exact ⟨_ :: _ :: _, .cons h3 (.cons h1 h4), .swap _ _ _⟩
  | trans _ _ ih1 ih2 =>
    intro m h
    obtain ⟨m1, h1, h2⟩ := ih1 h
    obtain ⟨m2, h3, h4⟩ := ih2 h1
    exact ⟨m2, h3, h4.trans h2⟩

/-- C102: rows asked about in another order get the same answers, each its own. -/
theorem C102_reordered {α : Type} {ask : TFrame → Except PyErr (List α)} (h : RowByRow ask) (X : TFrame) (hX : X.rows ≠ [])
    (hu : X.UniqueIndex) (rows : List Row) (hp : X.rows.Perm rows) (xs : List α) (hx : ask X = .ok xs) :
    ∃ ys, ask (X.only rows) = .ok ys ∧ (rows.zip ys).Perm (X.rows.zip xs) := by
  obtain ⟨ys, h1, h2⟩ := forall₂_perm hp ((h X hX hu xs).mp hx)
  refine ⟨ys, (h (X.only rows) ?_ ?_ ys).mpr h1, h2⟩
  · intro e
    have e' : rows = [] := e
    rw [e'] at hp
    exact hX hp.eq_nil
  · exact ((hp.map Row.label).nodup_iff).mp hu

/-! ### the counts of rule_stats -/

theorem answer_parts {β : Type} {F : PyFloat} {act : Ruleset → Frame → Except PyErr β} {names : Option (List Feat)} {c : Clf}
    {X : TFrame} (hu : X.UniqueIndex) {r1 r2 : List Row} (n1 : r1 ≠ []) (n2 : r2 ≠ []) (hX : X.rows = r1 ++ r2) {t : β}
    (ht : answer F act X names c = .ok t) :
    ∃ rs Y s1 s2, act rs (TFrame.only Y (s1 ++ s2)).toFrame = .ok t ∧ ((s1 ++ s2).map Row.label).Nodup ∧
      answer F act (X.only r1) names c = act rs (TFrame.only Y s1).toFrame ∧
      answer F act (X.only r2) names c = act rs (TFrame.only Y s2).toFrame := by
  unfold answer at ht ⊢
  obtain ⟨cf, h1, ht⟩ := bind_ok_iff.mp ht
  obtain ⟨pc, h2, ht⟩ := bind_ok_iff.mp ht
  obtain ⟨b, h3, ht⟩ := bind_ok_iff.mp ht
  obtain ⟨sel, h4, ht⟩ := bind_ok_iff.mp ht
  obtain ⟨tf, h5, ht⟩ := bind_ok_iff.mp ht
  obtain ⟨df, h6, ht⟩ := bind_ok_iff.mp ht
  obtain ⟨rs, h7, ht⟩ := bind_ok_iff.mp ht
  obtain ⟨g, Y, hl, hp⟩ := prediction_stage F cf b names sel X
  have hlabels : ∀ {l m : List Row}, List.Forall₂ (fun r r' => g r = some r') l m → m.map Row.label = l.map Row.label := by
    intro l m h
    induction h with
    | nil => rfl
    | cons h1 _ ih => rw [List.map_cons, List.map_cons, ih, hl _ _ h1]
  have h6' : preprocessPrediction F (X.only (r1 ++ r2)) cf b names sel = .ok df := by rw [← hX]; exact h6
  obtain ⟨s, h8, rfl⟩ := (hp (r1 ++ r2) (by simp [n1]) df).mp h6'
  obtain ⟨s1, s2, h9, h10, rfl⟩ := (forall₂_split _ _ _).mp h8
  have e1 := (hp r1 n1 _).mpr ⟨s1, h9, rfl⟩
  have e2 := (hp r2 n2 _).mpr ⟨s2, h10, rfl⟩
  dsimp only at e1 e2
  refine ⟨rs, Y, s1, s2, ht, ?_, ?_, ?_⟩
  · rw [hlabels h8, ← hX]; exact hu
  · rw [h1, h2, h3, h4, h5, h7]; simp only [ok_bind]; rw [e1, ok_bind]
  · rw [h1, h2, h3, h4, h5, h7]; simp only [ok_bind]; rw [e2, ok_bind]

theorem query_parts {β : Type} {F : PyFloat} {act : Ruleset → Frame → Except PyErr β} {names : Option (List Feat)} {c : Clf}
    {X : TFrame} (hu : X.UniqueIndex) {r1 r2 : List Row} (n1 : r1 ≠ []) (n2 : r2 ≠ []) (hX : X.rows = r1 ++ r2) {t : β}
    (ht : returned (query F act X names c) = .ok t) :
    ∃ rs Y s1 s2, act rs (TFrame.only Y (s1 ++ s2)).toFrame = .ok t ∧ ((s1 ++ s2).map Row.label).Nodup ∧
      returned (query F act (X.only r1) names c) = act rs (TFrame.only Y s1).toFrame ∧
      returned (query F act (X.only r2) names c) = act rs (TFrame.only Y s2).toFrame := by
  cases hr : c.ruleset with
  | none => rw [query_unfit hr] at ht; cases ht
  | some rs =>
    cases hb : c.binner with
    | some b =>
      simp only [query_some hr hb, returned_outcome] at ht ⊢
      exact answer_parts hu n1 n2 hX ht
    | none =>
      simp only [query_none hr hb] at ht ⊢
      cases hc : constructFromRuleset F rs with
      | error e => rw [hc] at ht; cases ht
      | ok u =>
        rw [hc] at ht
        simp only [returned_outcome] at ht ⊢
        exact answer_parts hu n1 n2 hX ht

theorem ruleStat_counts {df : Frame} (hu : df.UniqueIndex) {i : Nat} {r : Rule} {st : RuleStat}
    (h : ruleStat df none i r = .ok st) : (∀ c ∈ r.conds, c.feature ∈ df.cols) ∧ st.idx = i ∧ st.text = r.text ∧
      st.nCovered = df.rows.countP (condsMet r.conds) := by
  rcases condsCover_cases r.conds df with ⟨_, hf⟩ | ⟨he, _⟩
  · obtain ⟨st', h1, h2, h3, h4, _⟩ := ruleStat_eq hu hf (actuals := none) (fun _ h => by cases h) i
    rw [h1] at h
    cases h
    refine ⟨hf, h2, h3, ?_⟩
    rw [h4, firesOn, List.countP_map]
    apply List.countP_congr
    intro row _
    rw [condsMet_iff]
    exact decide_eq_true_iff
  · unfold ruleStat Rule.covers at h
    rw [he] at h
    cases h

/-- C102: `rule_stats` of a batch counts what it counts of its parts: the same rules, and covered rows add up. -/
theorem C102_rule_stats_add (F : PyFloat) (names : Option (List Feat)) (c : Clf) (X : TFrame) (hu : X.UniqueIndex)
    (r1 r2 : List Row) (n1 : r1 ≠ []) (n2 : r2 ≠ []) (hX : X.rows = r1 ++ r2) (t : List RuleStat)
    (ht : returned (Clf.ruleStats F X none names c) = .ok t) :
    ∃ t1 t2, returned (Clf.ruleStats F (X.only r1) none names c) = .ok t1 ∧
      returned (Clf.ruleStats F (X.only r2) none names c) = .ok t2 ∧ t1.length = t.length ∧ t2.length = t.length ∧
      ∀ (i : Nat) (a a1 a2 : RuleStat), t[i]? = some a → t1[i]? = some a1 → t2[i]? = some a2 →
        a1.text = a.text ∧ a2.text = a.text ∧ a.nCovered = a1.nCovered + a2.nCovered := by
  rw [ruleStats_eq_query] at ht
  simp only [ruleStats_eq_query]
  obtain ⟨rs, Y, s1, s2, h1, h2, h3, h4⟩ := query_parts hu n1 n2 hX ht
  rw [h3, h4]
  obtain ⟨pc, h5, h1⟩ := bind_ok_iff.mp h1
  rw [h5, ok_bind, ok_bind]
  unfold ruleTable at h1 ⊢
  simp only [Option.map_none, Option.any_none, Bool.false_eq_true, if_false] at h1 ⊢
  have hu1 : (s1.map Row.label).Nodup := by rw [List.map_append] at h2; exact h2.of_append_left
  have hu2 : (s2.map Row.label).Nodup := by rw [List.map_append] at h2; exact h2.of_append_right
  have hf : ∀ r ∈ rs.rules, ∀ c ∈ r.conds, c.feature ∈ Y.cols := by
    intro r hr
    obtain ⟨i, hi, rfl⟩ := List.mem_iff_getElem.mp hr
    obtain ⟨_, hg⟩ := mapM_get h1
    obtain ⟨st, h6, _⟩ := hg i (rs.rules[i], i) (by simp [hi])
    exact (ruleStat_counts (df := (Y.only (s1 ++ s2)).toFrame) h2 h6).1
  have total : ∀ s, (s.map Row.label).Nodup → ∃ t', rs.rules.zipIdx.mapM (fun ri => ruleStat (Y.only s).toFrame none ri.2 ri.1)
      = .ok t' := by
    intro s hs
    obtain ⟨t', h, _⟩ := mapM_total (f := fun ri : Rule × Nat => ruleStat (Y.only s).toFrame none ri.2 ri.1)
      (l := rs.rules.zipIdx) fun ri hri => by
        obtain ⟨st, h, _⟩ := ruleStat_eq (df := (Y.only s).toFrame) hs (r := ri.1)
          (hf ri.1 (by have := List.fst_mem_of_mem_zipIdx hri; exact this)) (actuals := none) (fun _ h => by cases h) ri.2
        exact ⟨st, h⟩
    exact ⟨t', h⟩
  obtain ⟨t1, e1⟩ := total s1 hu1
  obtain ⟨t2, e2⟩ := total s2 hu2
  obtain ⟨l, g⟩ := mapM_get h1
  obtain ⟨l1, g1⟩ := mapM_get e1
  obtain ⟨l2, g2⟩ := mapM_get e2
  refine ⟨t1, t2, e1, e2, l1.trans l.symm, l2.trans l.symm, fun i a a1 a2 ha ha1 ha2 => ?_⟩
  have hi : i < rs.rules.length := by
    have := (List.getElem?_eq_some_iff.mp ha).1
    rw [l, List.length_zipIdx] at this
    exact this
  have hz : rs.rules.zipIdx[i]? = some (rs.rules[i], i) := by simp [hi]
  obtain ⟨b, k, k'⟩ := g i _ hz
  obtain ⟨b1, k1, k1'⟩ := g1 i _ hz
  obtain ⟨b2, k2, k2'⟩ := g2 i _ hz
  rw [ha] at k'; rw [ha1] at k1'; rw [ha2] at k2'
  cases k'; cases k1'; cases k2'
  obtain ⟨_, _, x3, x4⟩ := ruleStat_counts (df := (Y.only (s1 ++ s2)).toFrame) h2 k
  obtain ⟨_, _, y3, y4⟩ := ruleStat_counts (df := (Y.only s1).toFrame) hu1 k1
  obtain ⟨_, _, z3, z4⟩ := ruleStat_counts (df := (Y.only s2).toFrame) hu2 k2
  refine ⟨y3.trans x3.symm, z3.trans x3.symm, ?_⟩
  rw [x4, y4, z4]
  exact List.countP_append

/-- The hypotheses of C102 are met, by a batch of three rows with answers of both kinds; it is asked about in one batch, in
two batches, and row by row. -/
example : Demo.tdf.UniqueIndex ∧ Demo.tdf.rows.length = 3 ∧
    returned (Clf.predict Demo.F Demo.tdf none Demo.clf) = .ok [true, true, false] ∧
    returned (Clf.predict Demo.F (Demo.tdf.only (Demo.tdf.rows.take 2)) none Demo.clf) = .ok [true, true] ∧
    returned (Clf.predict Demo.F (Demo.tdf.only (Demo.tdf.rows.drop 2)) none Demo.clf) = .ok [false] ∧
    Demo.tdf.rows.map (fun row => returned (Clf.predict Demo.F (Demo.tdf.only [row]) none Demo.clf)) =
      [.ok [true], .ok [true], .ok [false]] := by
  refine ⟨by unfold Frame.UniqueIndex; decide +kernel, ?_, ?_, ?_, ?_, ?_⟩ <;> decide +kernel

/-- C102 for `rule_stats`: the counts of the parts add up. -/
example : ((returned (Clf.ruleStats Demo.F Demo.tdf none none Demo.clf)).map (fun t => t.map RuleStat.nCovered)).toOption =
      some [1, 2] ∧
    ((returned (Clf.ruleStats Demo.F (Demo.tdf.only (Demo.tdf.rows.take 2)) none none Demo.clf)).map
      (fun t => t.map RuleStat.nCovered)).toOption = some [1, 2] ∧
    ((returned (Clf.ruleStats Demo.F (Demo.tdf.only (Demo.tdf.rows.drop 2)) none none Demo.clf)).map
      (fun t => t.map RuleStat.nCovered)).toOption = some [0, 0] := by
  refine ⟨?_, ?_, ?_⟩ <;> decide +kernel

/-- C102 for `predict_proba`, on a calibrated classifier. -/
example : ((returned (Clf.predictProba Demo.F Demo.tdf none Demo.calClf)).map List.length).toOption = some 3 ∧
    (Demo.tdf.rows.map (fun row => (returned (Clf.predictProba Demo.F (Demo.tdf.only [row]) none Demo.calClf)).toOption)) =
      ((returned (Clf.predictProba Demo.F Demo.tdf none Demo.calClf)).toOption.getD []).map (fun p => some [p]) := by
  refine ⟨?_, ?_⟩ <;> decide +kernel

namespace Demo
/-- Two batches put together with `pd.concat` without `ignore_index`: both rows have the label 0. -/
def glued : TFrame := { Frame.ofTable [fa, fb] [(0, [vx, vx]), (0, [vy, vy])] with kind := fun _ => .text }
end Demo

/-- C102 needs distinct row labels: batches put together with their old labels are not answered like the batches. -/
theorem C102_refuted_repeated_labels :
    returned (Clf.predict Demo.F Demo.glued none Demo.clf) = .ok [true, true] ∧
    returned (Clf.predict Demo.F (Demo.glued.only (Demo.glued.rows.take 1)) none Demo.clf) = .ok [true] ∧
    returned (Clf.predict Demo.F (Demo.glued.only (Demo.glued.rows.drop 1)) none Demo.clf) = .ok [false] := by
  refine ⟨?_, ?_, ?_⟩ <;> decide +kernel

end Witt
