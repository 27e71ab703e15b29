import Verif.Spec
/-
Lemmas: frame coverage and prediction.
-/
namespace Witt
open Spec

theorem Val.pyEq_iff {a b : Val} : a.pyEq b = true ↔ Same a b := by
  cases a <;> cases b <;> simp [Val.pyEq, Same] <;> constructor <;> exact Eq.symm

theorem Val.pyEq_symm {a b : Val} : a.pyEq b = b.pyEq a := by
  cases a <;> cases b <;> simp [Val.pyEq, Bool.beq_comm]

theorem Val.pyEq_trans {a b c : Val} (h : a.pyEq b = true) (h' : b.pyEq c = true) :
    a.pyEq c = true := by
  cases a <;> cases b <;> cases c <;> simp_all [Val.pyEq]

/-- On a value equal to something, `==` is reflexive. -/
theorem Val.pyEq_refl_of {a b : Val} (h : a.pyEq b = true) : a.pyEq a = true := by
  cases a <;> cases b <;> simp_all [Val.pyEq]

theorem Cond.met_iff {c : Cond} {r : Row} : c.met r = true ↔ Meets r c := by
  simp [Cond.met, Meets, Val.pyEq_iff]

/-- All conditions met (Boolean form of `FiresC`). -/
def condsMet (cs : List Cond) (r : Row) : Bool := cs.all (fun c => c.met r)

theorem condsMet_iff {cs : List Cond} {r : Row} : condsMet cs r = true ↔ FiresC r cs := by
  simp [condsMet, FiresC, Cond.met_iff]

@[simp] theorem condsMet_nil {r : Row} : condsMet [] r = true := rfl

/-- Some rule fires (Boolean form of `FiresAny`). -/
def rulesMet (rs : List Rule) (r : Row) : Bool := rs.any (fun ru => condsMet ru.conds r)

theorem rulesMet_iff {rs : List Rule} {r : Row} : rulesMet rs r = true ↔ FiresAny r rs := by
  simp [rulesMet, FiresAny, Fires, condsMet_iff]

instance {row : Row} {c : Cond} : Decidable (Meets row c) := decidable_of_iff _ Cond.met_iff
instance {row : Row} {cs : List Cond} : Decidable (FiresC row cs) := decidable_of_iff _ condsMet_iff
instance {row : Row} {r : Rule} : Decidable (Fires row r) :=
  inferInstanceAs (Decidable (FiresC row r.conds))
instance {row : Row} {rs : List Rule} : Decidable (FiresAny row rs) := decidable_of_iff _ rulesMet_iff

@[simp] theorem Frame.keep_cols (df : Frame) (f) : (df.keep f).cols = df.cols := rfl
@[simp] theorem Frame.keep_rows (df : Frame) (f) : (df.keep f).rows = df.rows.filter f := rfl

theorem condsCover_ok {cs : List Cond} {df : Frame} (h : ∀ c ∈ cs, c.feature ∈ df.cols) :
    condsCover cs df = .ok (df.keep (condsMet cs)) := by
  induction cs generalizing df with
  | nil =>
    have : condsMet [] = fun _ => true := rfl
    simp only [condsCover, Frame.keep, this, List.filter_eq_self.2 (fun _ _ => rfl)]
  | cons c cs ih =>
    have hc := h c (by simp)
    simp only [condsCover, Cond.covers, hc, if_true]
    show condsCover cs (df.keep c.met) = _
    rw [ih (by intro d hd; exact h d (by simp [hd]))]
    have : condsMet (c :: cs) = fun a => c.met a && cs.all fun c => c.met a := by
      funext a; simp [condsMet]
    simp [Frame.keep, this, condsMet, List.filter_filter, Bool.and_comm]

theorem condsCover_err {cs : List Cond} {df : Frame} (h : ¬ ∀ c ∈ cs, c.feature ∈ df.cols) :
    condsCover cs df = .error .keyError := by
  induction cs generalizing df with
  | nil => simp at h
  | cons c cs ih =>
    by_cases hc : c.feature ∈ df.cols
    · simp only [condsCover, Cond.covers, hc, if_true]
      show condsCover cs (df.keep c.met) = _
      apply ih
      intro h'
      exact h (by intro d hd; rcases List.mem_cons.1 hd with rfl | hd; exact hc; exact h' d hd)
    · simp only [condsCover, Cond.covers, hc, if_false]; rfl

theorem condsCover_cases (cs : List Cond) (df : Frame) :
    (condsCover cs df = .ok (df.keep (condsMet cs)) ∧ ∀ c ∈ cs, c.feature ∈ df.cols) ∨
    (condsCover cs df = .error .keyError ∧ ¬ ∀ c ∈ cs, c.feature ∈ df.cols) := by
  by_cases h : ∀ c ∈ cs, c.feature ∈ df.cols
  · exact .inl ⟨condsCover_ok h, h⟩
  · exact .inr ⟨condsCover_err h, h⟩

/-! ### monad plumbing for `Except` -/

@[simp] theorem ok_bind {α β : Type} (a : α) (f : α → Except PyErr β) : (Except.ok a >>= f) = f a := rfl
@[simp] theorem error_bind {α β : Type} (e : PyErr) (f : α → Except PyErr β) :
    (Except.error e >>= f) = .error e := rfl
@[simp] theorem pure_eq_ok {α : Type} (a : α) : (pure a : Except PyErr α) = .ok a := rfl

theorem mapM_ok {α β : Type} {f : α → Except PyErr β} {g : α → β} {l : List α}
    (h : ∀ a ∈ l, f a = .ok (g a)) : l.mapM f = .ok (l.map g) := by
  induction l with
  | nil => rfl
  | cons a l ih =>
    rw [List.mapM_cons, h a (by simp), ih (fun b hb => h b (by simp [hb]))]
    rfl

/-- If every element gives `ok` or the same error, and one gives the error, so does `mapM`. -/
theorem mapM_err {α β : Type} {f : α → Except PyErr β} {e : PyErr} {l : List α}
    (h : ∀ a ∈ l, (∃ b, f a = .ok b) ∨ f a = .error e) (he : ∃ a ∈ l, f a = .error e) :
    l.mapM f = .error e := by
  induction l with
  | nil => simp at he
  | cons a l ih =>
    rw [List.mapM_cons]
    rcases h a (by simp) with ⟨b, hb⟩ | hb
    · rw [hb]
      have : ∃ a ∈ l, f a = .error e := by
        obtain ⟨x, hx, hx'⟩ := he
        rcases List.mem_cons.1 hx with rfl | hx
        · rw [hb] at hx'; cases hx'
        · exact ⟨x, hx, hx'⟩
      show ((l.mapM f) >>= fun bs => pure (b :: bs)) = _
      rw [ih (fun b hb => h b (by simp [hb])) this]; rfl
    · rw [hb]; rfl

theorem filterM_ok {α : Type} {f : α → Except PyErr Bool} {g : α → Bool} {l : List α}
    (h : ∀ a ∈ l, f a = .ok (g a)) : l.filterM f = .ok (l.filter g) := by
  have : ∀ (acc : List α), l.filterAuxM f acc = .ok ((l.filter g).reverse ++ acc) := by
    induction l with
    | nil => intro acc; simp [List.filterAuxM]
    | cons a l ih =>
      intro acc
      rw [List.filterAuxM, h a (by simp)]
      show l.filterAuxM f (bif g a then a :: acc else acc) = _
      rw [ih (fun b hb => h b (by simp [hb]))]
      cases hg : g a <;> simp [hg]
  unfold List.filterM
  rw [this]
  show Except.ok _ = _
  simp

/-! ### rulesets -/

theorem Ruleset.isUniversal_iff {rs : Ruleset} :
    rs.isUniversal = true ↔ ∃ r ∈ rs.rules, r.conds = [] := by
  unfold Ruleset.isUniversal
  rcases rs with ⟨rules, u, p⟩
  cases rules <;> simp [Rule.isEmpty]

theorem Ruleset.isNull_iff {rs : Ruleset} : rs.isNull = true ↔ rs.rules = [] := by
  simp [Ruleset.isNull]

/-- Labels covered by a ruleset that does not fail. -/
theorem Ruleset.covers_ok {rs : Ruleset} {df : Frame}
    (h : (∃ r ∈ rs.rules, r.conds = []) ∨ HasFeatures df rs.rules) :
    ∃ d, rs.covers df = .ok d ∧ d.cols = df.cols ∧
      ∀ row, row ∈ d.rows ↔ row ∈ df.rows ∧ rulesMet rs.rules row = true := by
  unfold Ruleset.covers
  by_cases hu : rs.isUniversal = true
  · refine ⟨df, by simp [hu], rfl, ?_⟩
    obtain ⟨r, hr, hr'⟩ := Ruleset.isUniversal_iff.1 hu
    intro row
    have : rulesMet rs.rules row = true := by
      simp only [rulesMet, List.any_eq_true]; exact ⟨r, hr, by simp [hr']⟩
    simp [this]
  · have hf : HasFeatures df rs.rules := by
      rcases h with h | h
      · exact absurd (Ruleset.isUniversal_iff.2 h) hu
      · exact h
    by_cases hn : rs.isNull = true
    · refine ⟨{ df with rows := [] }, by simp [hu, hn], rfl, ?_⟩
      rw [Ruleset.isNull_iff] at hn
      simp [hn, rulesMet]
    · have hm : rs.rules.mapM (fun r => r.covers df)
          = .ok (rs.rules.map (fun r => df.keep (condsMet r.conds))) :=
        mapM_ok (fun r hr => condsCover_ok (hf r hr))
      refine ⟨{ df with rows := (((rs.rules.map (fun r => df.keep (condsMet r.conds)))).map Frame.rows).flatten }, ?_, rfl, ?_⟩
      · simp only [hu, hn, Bool.false_eq_true, if_false]; rw [hm]; rfl
      · intro row
        simp only [rulesMet, List.map_map, List.mem_flatten, List.mem_map, List.any_eq_true,
          Function.comp, Frame.keep_rows]
        constructor
        · rintro ⟨l, ⟨r, hr, rfl⟩, hm⟩
          rw [List.mem_filter] at hm; exact ⟨hm.1, r, hr, hm.2⟩
        · rintro ⟨h1, r, hr, h2⟩; exact ⟨_, ⟨r, hr, rfl⟩, List.mem_filter.2 ⟨h1, h2⟩⟩

theorem Ruleset.covers_err {rs : Ruleset} {df : Frame}
    (h : ¬ ((∃ r ∈ rs.rules, r.conds = []) ∨ HasFeatures df rs.rules)) :
    rs.covers df = .error .keyError := by
  rw [not_or] at h
  unfold Ruleset.covers
  have hu : ¬ rs.isUniversal = true := fun hu => h.1 (Ruleset.isUniversal_iff.1 hu)
  have hn : ¬ rs.isNull = true := by
    intro hn; rw [Ruleset.isNull_iff] at hn
    exact h.2 (by simp [HasFeatures, hn])
  simp only [hu, hn, Bool.false_eq_true, if_false]
  have hm : rs.rules.mapM (fun r => r.covers df) = .error .keyError := by
    apply mapM_err
    · intro r _
      rcases condsCover_cases r.conds df with h' | h'
      · exact .inl ⟨_, h'.1⟩
      · exact .inr h'.1
    · have := h.2
      simp only [HasFeatures, Classical.not_forall] at this
      obtain ⟨r, hr, c, hc, hcf⟩ := this
      exact ⟨r, hr, condsCover_err (fun hh => hcf (hh c hc))⟩
  rw [hm]; rfl

theorem mem_labelSet {l : List Label} {x : Label} : x ∈ labelSet l ↔ x ∈ l := by
  simp [labelSet]

theorem row_eq_of_label {rows : List Row} (h : (rows.map Row.label).Nodup) {a b : Row}
    (ha : a ∈ rows) (hb : b ∈ rows) (hl : a.label = b.label) : a = b := by
  induction rows with
  | nil => simp at ha
  | cons r rows ih =>
    simp only [List.map_cons, List.nodup_cons] at h
    rcases List.mem_cons.1 ha with rfl | ha' <;> rcases List.mem_cons.1 hb with rfl | hb'
    · rfl
    · exact absurd (List.mem_map.2 ⟨b, hb', hl.symm⟩) h.1
    · exact absurd (List.mem_map.2 ⟨a, ha', hl⟩) h.1
    · exact ih h.2 ha' hb'

/-- Prediction on any frame where coverage succeeds: label-based. -/
theorem Ruleset.predict_ok {rs : Ruleset} {df : Frame}
    (h : (∃ r ∈ rs.rules, r.conds = []) ∨ HasFeatures df rs.rules) :
    rs.predict df = .ok (df.rows.map (fun row =>
      df.rows.any (fun row' => row'.label == row.label && rulesMet rs.rules row'))) := by
  obtain ⟨d, hd, _, hrows⟩ := Ruleset.covers_ok h
  unfold Ruleset.predict
  rw [hd]
  show Except.ok _ = _
  simp only [Frame.index, List.map_map, Except.ok.injEq]
  apply List.map_congr_left
  intro row hrow
  rw [Bool.eq_iff_iff]
  simp only [Function.comp, List.contains_iff_mem, mem_labelSet, List.mem_map, hrows,
    List.any_eq_true, Bool.and_eq_true, beq_iff_eq]
  constructor
  · rintro ⟨a, ⟨h1, h2⟩, h3⟩; exact ⟨a, h1, h3, h2⟩
  · rintro ⟨a, h1, h3, h2⟩; exact ⟨a, ⟨h1, h2⟩, h3⟩

theorem Ruleset.predict_err {rs : Ruleset} {df : Frame}
    (h : ¬ ((∃ r ∈ rs.rules, r.conds = []) ∨ HasFeatures df rs.rules)) :
    rs.predict df = .error .keyError := by
  unfold Ruleset.predict; rw [Ruleset.covers_err h]; rfl

/-- With distinct labels, prediction is row-wise. -/
theorem Ruleset.predict_unique {rs : Ruleset} {df : Frame} (hu : df.UniqueIndex)
    (h : (∃ r ∈ rs.rules, r.conds = []) ∨ HasFeatures df rs.rules) :
    rs.predict df = .ok (df.rows.map (rulesMet rs.rules)) := by
  rw [Ruleset.predict_ok h, Except.ok.injEq]
  apply List.map_congr_left
  intro row hrow
  rw [Bool.eq_iff_iff]
  simp only [List.any_eq_true, Bool.and_eq_true, beq_iff_eq]
  constructor
  · rintro ⟨a, h1, h2, h3⟩
    rwa [row_eq_of_label hu h1 hrow h2] at h3
  · intro h; exact ⟨row, hrow, rfl, h⟩

/-! ### reasons -/

theorem filter_label_singleton {rows : List Row} (hu : (rows.map Row.label).Nodup) {row : Row}
    (hrow : row ∈ rows) : rows.filter (fun r => r.label == row.label) = [row] := by
  induction rows with
  | nil => simp at hrow
  | cons r rows ih =>
    simp only [List.map_cons, List.nodup_cons] at hu
    rcases List.mem_cons.1 hrow with rfl | h'
    · have : rows.filter (fun r => r.label == row.label) = [] := by
        rw [List.filter_eq_nil_iff]
        intro a ha hl
        exact hu.1 (List.mem_map.2 ⟨a, ha, by simpa using hl⟩)
      simp [this]
    · have hne : ¬ r.label = row.label := fun hl => hu.1 (List.mem_map.2 ⟨row, h', hl.symm⟩)
      simp [hne, ih hu.2 h']

theorem Rule.numCovered_ok {r : Rule} {df : Frame} (h : ∀ c ∈ r.conds, c.feature ∈ df.cols) :
    r.numCovered df = .ok (df.rows.filter (condsMet r.conds)).length := by
  unfold Rule.numCovered Rule.covers
  rw [condsCover_ok h]; rfl

theorem reasonsAt_unique {rules : List Rule} {df : Frame} (hu : df.UniqueIndex)
    (hf : HasFeatures df rules) {row : Row} (hrow : row ∈ df.rows) :
    reasonsAt rules df row.label = .ok (rules.filter (fun r => condsMet r.conds row)) := by
  unfold reasonsAt
  apply filterM_ok
  intro r hr
  rw [Rule.numCovered_ok (by simpa using hf r hr)]
  show Except.ok _ = _
  rw [Except.ok.injEq, Frame.keep_rows, filter_label_singleton hu hrow]
  cases h : condsMet r.conds row <;> simp [h]

theorem Ruleset.predictReasons_unique {rs : Ruleset} {df : Frame} (hu : df.UniqueIndex)
    (hf : HasFeatures df rs.rules) :
    rs.predictReasons df = .ok (df.rows.map (rulesMet rs.rules),
      df.rows.map (fun row => rs.rules.filter (fun r => condsMet r.conds row))) := by
  unfold Ruleset.predictReasons
  rw [Ruleset.predict_unique hu (.inr hf)]
  have hz : df.index.zip (df.rows.map (rulesMet rs.rules))
      = df.rows.map (fun row => (row.label, rulesMet rs.rules row)) := by
    simp [Frame.index, List.zip_map']
  have hm : (df.index.zip (df.rows.map (rulesMet rs.rules))).mapM (fun ip =>
      if ip.2 then reasonsAt rs.rules df ip.1 else .ok [])
      = .ok (df.rows.map (fun row => rs.rules.filter (fun r => condsMet r.conds row))) := by
    rw [hz, List.mapM_map]
    apply mapM_ok
    intro row hrow
    simp only [Function.comp]
    cases hp : rulesMet rs.rules row
    · simp only [Bool.false_eq_true, if_false]
      congr 1
      symm; rw [List.filter_eq_nil_iff]
      intro r hr hc
      have : rulesMet rs.rules row = true := List.any_eq_true.2 ⟨r, hr, hc⟩
      rw [hp] at this; cases this
    · simpa using reasonsAt_unique hu hf hrow
  simp only [ok_bind, hm, pure_eq_ok]

end Witt
