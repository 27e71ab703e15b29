import Verif.Lemmas.Fit
import Verif.Lemmas.Unpruned
import Verif.Lemmas.Recode
import Verif.Props.Irep
/-
C98: a column that adds nothing (constant, or a copy of an earlier one) leaves IREP's model as it is.
-/
namespace Witt
open Spec

namespace Spec
/-- The column `e` distinguishes no two rows: everywhere the same value, or everywhere missing. -/
def ConstantColumn (df : Frame) (e : Feat) : Prop :=
  (∀ row ∈ df.rows, ∀ row' ∈ df.rows, Same (row.cell e) (row'.cell e)) ∨ ∀ row ∈ df.rows, row.cell e = .nan

/-- The column `e` repeats another non-class column `f` that stands before it, possibly in other words: two rows agree in
`e` exactly when they agree in `f`. -/
def RepeatedColumn (df : Frame) (cf e : Feat) : Prop :=
  ∃ f before after, df.cols = before ++ after ∧ f ∈ before ∧ e ∉ before ∧ f ≠ cf ∧
    ∀ row ∈ df.rows, ∀ row' ∈ df.rows, (Same (row.cell e) (row'.cell e) ↔ Same (row.cell f) (row'.cell f))
end Spec

/-! ### dropping a column that the rules do not mention -/

/-- The conditions do not mention the column. -/
def NotOn (e : Feat) (r : List Cond) : Prop := ∀ c ∈ r, c.feature ≠ e

theorem Cond.covers_dropCol {e : Feat} {c : Cond} (h : c.feature ≠ e) (df : Frame) :
    c.covers (df.dropCol e) = (c.covers df).map (·.dropCol e) := by
  unfold Cond.covers
  by_cases hc : c.feature ∈ df.cols
  · rw [if_pos hc, if_pos (Frame.mem_dropCol.mpr ⟨hc, h⟩)]
    rfl
  · rw [if_neg hc, if_neg (fun hc' => hc (Frame.mem_dropCol.mp hc').1)]
    rfl

theorem condsCover_dropCol {e : Feat} : ∀ {r : List Cond}, NotOn e r → ∀ (df : Frame),
    condsCover r (df.dropCol e) = (condsCover r df).map (·.dropCol e)
  | [], _, df => rfl
  | c :: cs, h, df => by
    unfold condsCover
    rw [Cond.covers_dropCol (h c List.mem_cons_self)]
    cases c.covers df with
    | error x => rfl
    | ok d => exact condsCover_dropCol (fun c' hc' => h c' (List.mem_cons_of_mem _ hc')) d

theorem numPos_dropCol {e cf : Feat} (h : cf ≠ e) (df : Frame) (pc : Val) : numPos (df.dropCol e) cf pc = numPos df cf pc := by
  unfold numPos
  by_cases hc : cf ∈ df.cols
  · rw [if_pos hc, if_pos (Frame.mem_dropCol.mpr ⟨hc, h⟩)]; rfl
  · rw [if_neg hc, if_neg (fun hc' => hc (Frame.mem_dropCol.mp hc').1)]

theorem numNeg_dropCol {e cf : Feat} (h : cf ≠ e) (df : Frame) (pc : Val) : numNeg (df.dropCol e) cf pc = numNeg df cf pc := by
  unfold numNeg
  by_cases hc : cf ∈ df.cols
  · rw [if_pos hc, if_pos (Frame.mem_dropCol.mpr ⟨hc, h⟩)]; rfl
  · rw [if_neg hc, if_neg (fun hc' => hc (Frame.mem_dropCol.mp hc').1)]

theorem recalRule_dropCol {e cf : Feat} (h : cf ≠ e) (df : Frame) (pc : Val) (alpha : Rat) {r : Rule} (hr : NotOn e r.conds) :
    recalRule (df.dropCol e) cf pc alpha r = recalRule df cf pc alpha r := by
  unfold recalRule Rule.covers
  rw [condsCover_dropCol hr]
  cases condsCover r.conds df with
  | error x => rfl
  | ok d =>
    show (match (do
      let tp ← numPos (d.dropCol e) cf pc
      return (((d.rows.length : Int) - tp, (tp : Int)) : Int × Int)) with | .error e => (r, some e) | .ok ns => _) = _
    rw [numPos_dropCol h]
    rfl

theorem recalRules_dropCol {e cf : Feat} (h : cf ≠ e) (df : Frame) (pc : Val) (alpha : Rat) : ∀ {rs : List Rule},
    (∀ r ∈ rs, NotOn e r.conds) → recalRules (df.dropCol e) cf pc alpha rs = recalRules df cf pc alpha rs
  | [], _ => rfl
  | r :: rs, hr => by
    unfold recalRules
    rw [recalRule_dropCol h df pc alpha (hr r List.mem_cons_self),
      recalRules_dropCol h df pc alpha (fun r' hr' => hr r' (List.mem_cons_of_mem _ hr'))]

theorem mapM_covers_dropCol {e : Feat} (df : Frame) : ∀ {rs : List Rule}, (∀ r ∈ rs, NotOn e r.conds) →
    rs.mapM (fun r : Rule => r.covers (df.dropCol e)) =
      (rs.mapM (fun r : Rule => r.covers df)).map (fun ds : List Frame => ds.map (·.dropCol e))
  | [], _ => rfl
  | r :: rs, hr => by
    rw [List.mapM_cons, List.mapM_cons]
    have : r.covers (df.dropCol e) = (r.covers df).map (·.dropCol e) := condsCover_dropCol (hr r List.mem_cons_self) df
    rw [this, mapM_covers_dropCol df (fun r' hr' => hr r' (List.mem_cons_of_mem _ hr'))]
    cases r.covers df with
    | error x => rfl
    | ok d =>
      cases List.mapM (fun r : Rule => r.covers df) rs with
      | error x => rfl
      | ok ds => rfl

theorem Ruleset.covers_dropCol {e : Feat} {rs : Ruleset} (hr : ∀ r ∈ rs.rules, NotOn e r.conds) (df : Frame) :
    rs.covers (df.dropCol e) = (rs.covers df).map (·.dropCol e) := by
  unfold Ruleset.covers
  split
  · rfl
  split
  · rfl
  rw [mapM_covers_dropCol df hr]
  cases List.mapM (fun r : Rule => r.covers df) rs.rules with
  | error x => rfl
  | ok ds =>
    show Except.ok _ = Except.ok _
    have : List.map Frame.rows (List.map (fun x : Frame => x.dropCol e) ds) = List.map Frame.rows ds := by
      rw [List.map_map]; rfl
    rw [this]
    rfl

theorem recalRules_notOn {e : Feat} {df : Frame} {cf : Feat} {pc : Val} {alpha : Rat} {rs : List Rule}
    (hr : ∀ r ∈ rs, NotOn e r.conds) : ∀ r ∈ (recalRules df cf pc alpha rs).1, NotOn e r.conds := by
  intro r h
  have hm : r.conds ∈ (recalRules df cf pc alpha rs).1.map Rule.conds := List.mem_map_of_mem h
  rw [recalRules_conds] at hm
  obtain ⟨r', hr', he⟩ := List.mem_map.mp hm
  rw [← he]
  exact hr r' hr'

theorem recalibrate_dropCol {e cf : Feat} (h : cf ≠ e) (df : Frame) (pc : Val) (alpha : Rat) {rs rs' : Ruleset}
    (hr : ∀ r ∈ rs.rules, NotOn e r.conds) (h1 : rs'.rules = rs.rules) (h2 : rs'.uncov = rs.uncov) :
    (recalibrate rs' (df.dropCol e) cf pc alpha).1.rules = (recalibrate rs df cf pc alpha).1.rules ∧
    (recalibrate rs' (df.dropCol e) cf pc alpha).1.uncov = (recalibrate rs df cf pc alpha).1.uncov ∧
    (recalibrate rs' (df.dropCol e) cf pc alpha).2 = (recalibrate rs df cf pc alpha).2 := by
  obtain ⟨rules, un, poss⟩ := rs
  obtain ⟨rules', un', poss'⟩ := rs'
  dsimp only at h1 h2 hr
  subst h1 h2
  have hs' : Ruleset.selectedFeatures ⟨rules', un', poss'⟩ = Ruleset.selectedFeatures ⟨rules', un', poss⟩ := rfl
  have hany : (Ruleset.selectedFeatures ⟨rules', un', poss⟩).any (fun f => !(df.dropCol e).cols.contains f) =
      (Ruleset.selectedFeatures ⟨rules', un', poss⟩).any (fun f => !df.cols.contains f) := by
    rw [Bool.eq_iff_iff, List.any_eq_true, List.any_eq_true]
    refine exists_congr fun f => and_congr_right fun hf => ?_
    obtain ⟨r, hr', c, hc, he⟩ := mem_selectedFeatures.mp hf
    have : f ≠ e := he ▸ hr r hr' c hc
    rw [Bool.not_eq_true', Bool.not_eq_true', Bool.eq_false_iff, Bool.eq_false_iff, Ne, Ne, List.contains_iff_mem,
      List.contains_iff_mem, Frame.mem_dropCol]
    simp [this]
  have hn := recalRules_notOn (df := df) (cf := cf) (pc := pc) (alpha := alpha) hr
  unfold recalibrate
  rw [hs', hany]
  by_cases hsel : (Ruleset.selectedFeatures ⟨rules', un', poss⟩).any (fun f => !df.cols.contains f)
  · rw [if_pos hsel, if_pos hsel]; exact ⟨rfl, rfl, rfl⟩
  rw [if_neg hsel, if_neg hsel, recalRules_dropCol h df pc alpha hr]
  generalize recalRules df cf pc alpha rules' = q at hn ⊢
  obtain ⟨rules, o⟩ := q
  cases o with
  | some x => exact ⟨rfl, rfl, rfl⟩
  | none =>
    have hc : Ruleset.covers ⟨rules, un', poss'⟩ (df.dropCol e) = (Ruleset.covers ⟨rules, un', poss⟩ df).map (·.dropCol e) :=
      Ruleset.covers_dropCol (rs := ⟨rules, un', poss'⟩) hn df
    dsimp only
    rw [hc]
    cases Ruleset.covers ⟨rules, un', poss⟩ df with
    | error x => exact ⟨rfl, rfl, rfl⟩
    | ok d =>
      have hd : numNeg ((df.dropCol e).dropLabels (d.dropCol e).index) cf pc = numNeg (df.dropLabels d.index) cf pc :=
        numNeg_dropCol h (df.dropLabels d.index) pc
      have hmap : Except.map (fun x : Frame => x.dropCol e) (Except.ok d : Except PyErr Frame) = .ok (d.dropCol e) := rfl
      rw [hmap]
      simp only [ok_bind, hd]
      cases numNeg (df.dropLabels d.index) cf pc with
      | error x => exact ⟨rfl, rfl, rfl⟩
      | ok tn => exact ⟨rfl, rfl, rfl⟩

/-! ### the index without the column -/

theorem dropCol_comm (df : Frame) (e f : Feat) : (df.dropCol e).dropCol f = (df.dropCol f).dropCol e := by
  unfold Frame.dropCol
  simp only [List.filter_filter, Bool.and_comm]

theorem possibleConds_dropCol (df : Frame) (e : Feat) :
    possibleConds (df.dropCol e) = (possibleConds df).filter (fun c => decide (c.feature ≠ e)) := by
  unfold possibleConds
  show List.flatMap (fun f => (df.unique f).map fun v => ({ feature := f, val := v } : Cond)) (df.dropCol e).cols = _
  unfold Frame.dropCol
  dsimp only
  induction df.cols with
  | nil => rfl
  | cons f l ih =>
    rw [List.filter_cons, List.flatMap_cons, List.filter_append, ← ih]
    by_cases hf : f = e
    · subst hf
      rw [if_neg (by simp)]
      have : ((df.unique f).map fun v => ({ feature := f, val := v } : Cond)).filter (fun c => decide (c.feature ≠ f)) = [] := by
        rw [List.filter_eq_nil_iff]
        intro c hc
        obtain ⟨v, -, rfl⟩ := List.mem_map.mp hc
        simp
      rw [this]; rfl
    · rw [if_pos (by simp [hf]), List.flatMap_cons]
      have : ((df.unique f).map fun v => ({ feature := f, val := v } : Cond)).filter (fun c => decide (c.feature ≠ e)) =
          (df.unique f).map fun v => ({ feature := f, val := v } : Cond) := by
        rw [List.filter_eq_self]
        intro c hc
        obtain ⟨v, -, rfl⟩ := List.mem_map.mp hc
        simp [hf]
      rw [this]

section index
variable {df : Frame} {cf e : Feat} {cn cn' : CatNap}

theorem build_all_eq (h : CatNap.build df cf = .ok cn) (h' : CatNap.build (df.dropCol e) cf = .ok cn') : cn'.all = cn.all := by
  rw [CatNap.build_ok (CatNap.build_cols h)] at h
  rw [CatNap.build_ok (CatNap.build_cols h')] at h'
  injection h with h; injection h' with h'
  rw [← h, ← h']
  rfl

theorem lookup_dropCol (h : CatNap.build df cf = .ok cn) (h' : CatNap.build (df.dropCol e) cf = .ok cn') {c : Cond}
    (hc : c.feature ≠ e) (l : Label) : (cn'.lookup c).contains l = (cn.lookup c).contains l := by
  rw [Bool.eq_iff_iff, List.contains_iff_mem, List.contains_iff_mem, CatNap.mem_lookup h, CatNap.mem_lookup h',
    Frame.mem_dropCol]
  simp [hc]

theorem ruleCovers_dropCol (h : CatNap.build df cf = .ok cn) (h' : CatNap.build (df.dropCol e) cf = .ok cn') {r : List Cond}
    (hr : NotOn e r) (s : List Label) : cn'.ruleCovers r (some s) = cn.ruleCovers r (some s) := by
  rw [CatNap.ruleCovers_some, CatNap.ruleCovers_some]
  refine List.filter_congr fun l _ => ?_
  unfold CatNap.hit
  rw [build_all_eq h h']
  split
  · rfl
  · rw [Bool.eq_iff_iff, List.all_eq_true, List.all_eq_true]
    refine forall_congr' fun c => forall_congr' fun hc => ?_
    rw [lookup_dropCol h h' (hr c hc)]

theorem build_conds_dropCol (h : CatNap.build df cf = .ok cn) (h' : CatNap.build (df.dropCol e) cf = .ok cn') :
    cn'.conds = cn.conds.filter (fun c => decide (c.feature ≠ e)) := by
  rw [CatNap.build_conds h, CatNap.build_conds h', dropCol_comm, possibleConds_dropCol]
end index

/-! ### the choice of the next condition -/

theorem bestLoop_atLeast {α : Type} (score : α → Rat) (l : List α) (b : Option α × Rat) :
    b.2 ≤ (bestLoop score b l).2 ∧ ∀ c ∈ l, score c ≤ (bestLoop score b l).2 := by
  induction l generalizing b with
  | nil => exact ⟨le_refl _, by simp⟩
  | cons a l ih =>
    rw [bestLoop]
    by_cases h : b.2 < score a
    · rw [if_pos h]
      refine ⟨le_trans h.le (ih _).1, ?_⟩
      intro c hc
      rcases List.mem_cons.mp hc with rfl | hc
      · exact (ih (some c, score c)).1
      · exact (ih _).2 c hc
    · rw [if_neg h]
      refine ⟨(ih _).1, ?_⟩
      intro c hc
      rcases List.mem_cons.mp hc with rfl | hc
      · exact le_trans (not_lt.mp h) (ih b).1
      · exact (ih _).2 c hc

theorem bestLoop_append {α : Type} (score : α → Rat) (l l' : List α) : ∀ b : Option α × Rat,
    bestLoop score b (l ++ l') = bestLoop score (bestLoop score b l) l' := by
  induction l with
  | nil => intro b; rfl
  | cons a l ih => intro b; rw [List.cons_append, bestLoop, bestLoop]; exact ih _

/-- Leaving out candidates that cannot be chosen changes at most which of the useless candidates is the best. -/
theorem bestLoop_without {α : Type} (score : α → Rat) (keep : α → Bool) (l : List α) : ∀ b b' : Option α × Rat,
    (b = b' ∨ (b.2 ≤ 1 ∧ b'.2 ≤ 1)) → (∀ c ∈ l, keep c = false → score c ≤ 1 ∨ score c ≤ b.2) →
    bestLoop score b l = bestLoop score b' (l.filter keep) ∨
      ((bestLoop score b l).2 ≤ 1 ∧ (bestLoop score b' (l.filter keep)).2 ≤ 1) := by
  induction l with
  | nil => intro b b' h _; exact h
  | cons a l ih =>
    intro b b' h hd
    have hd' : ∀ b1 : Option α × Rat, b.2 ≤ b1.2 → ∀ c ∈ l, keep c = false → score c ≤ 1 ∨ score c ≤ b1.2 := fun b1 hb c hc hk =>
      (hd c (List.mem_cons_of_mem _ hc) hk).imp_right (fun h => le_trans h hb)
    rw [bestLoop, List.filter_cons]
    cases hk : keep a with
    | true =>
      rw [if_pos rfl, bestLoop]
      rcases h with rfl | ⟨h1, h2⟩
      · refine ih _ _ (Or.inl rfl) (hd' _ ?_)
        split
        · rename_i hl; exact hl.le
        · exact le_refl _
      · by_cases hs : 1 < score a
        · rw [if_pos (lt_of_le_of_lt h1 hs), if_pos (lt_of_le_of_lt h2 hs)]
          exact ih _ _ (Or.inl rfl) (hd' _ (le_trans h1 hs.le))
        · refine ih _ _ (Or.inr ⟨?_, ?_⟩) (hd' _ ?_)
          · split
            · exact not_lt.mp hs
            · exact h1
          · split
            · exact not_lt.mp hs
            · exact h2
          · split
            · rename_i hl; exact hl.le
            · exact le_refl _
    | false =>
      have hft : (if false = true then a :: l.filter keep else l.filter keep) = l.filter keep := if_neg Bool.false_ne_true
      rw [hft]
      by_cases hl : b.2 < score a
      · rw [if_pos hl]
        have h1 : score a ≤ 1 := (hd a List.mem_cons_self hk).resolve_right (not_le.mpr hl)
        refine ih _ _ (Or.inr ⟨h1, ?_⟩) (hd' _ hl.le)
        rcases h with rfl | ⟨_, h2⟩
        · exact le_trans hl.le h1
        · exact h2
      · rw [if_neg hl]
        exact ih _ _ h (hd' _ (le_refl _))

theorem bestLoop_congr {α : Type} {score score' : α → Rat} {l : List α} (h : ∀ c ∈ l, score c = score' c) :
    ∀ b : Option α × Rat, bestLoop score b l = bestLoop score' b l := by
  induction l with
  | nil => intro b; rfl
  | cons a l ih =>
    intro b
    rw [bestLoop, bestLoop, h a List.mem_cons_self]
    exact ih (fun c hc => h c (List.mem_cons_of_mem _ hc)) _

/-- The two ways a column can be superfluous. -/
def AddsNothing (df : Frame) (cf e : Feat) : Prop := ConstantColumn df e ∨ RepeatedColumn df cf e

section grow
variable [Arith] [Arith.Lawful] {df : Frame} {cf e : Feat} {cn cn' : CatNap}

theorem gain_le_one_of_none (p n n1 : Nat) : Arith.gain p n 0 n1 ≤ 1 := by
  by_contra h
  have := (Arith.Lawful.gain_loses p n 0 n1 (Nat.zero_le _) (not_le.mp h)).1
  omega

/-- A condition on a constant column, or one that no row meets, has no gain. -/
theorem gainCn_constant (h : CatNap.build df cf = .ok cn) (hc : ConstantColumn df e) {c : Cond} (hm : c ∈ cn.conds)
    (he : c.feature = e) (r : List Cond) (pos neg : List Label) :
    gainCn cn c (cn.ruleCovers r (some pos)) (cn.ruleCovers r (some neg)) ≤ 1 := by
  have hm' := hm
  rw [CatNap.build_conds h, mem_possibleConds, Frame.mem_dropCol] at hm'
  obtain ⟨⟨h1, h2⟩, h3⟩ := hm'
  obtain ⟨row0, hr0, hv⟩ := mem_unique h3
  unfold gainCn
  rw [CatNap.condCovers_some, CatNap.condCovers_some]
  rcases hc with hc | hc
  · have hall : ∀ l, cn.hit r l = true → (cn.lookup c).contains l = true := by
      intro l hl
      have hl := CatNap.hit_all (CatNap.build_WF h) hl
      rw [CatNap.mem_all h] at hl
      obtain ⟨row, hrow, rfl⟩ := List.mem_map.mp hl
      rw [List.contains_iff_mem, CatNap.mem_lookup h]
      refine ⟨⟨h1, h2⟩, row, hrow, rfl, ?_⟩
      rw [Cond.met_iff]
      unfold Meets
      rw [← hv, he]
      exact hc row hrow row0 hr0
    have hf : ∀ s, (cn.ruleCovers r (some s)).filter (fun l => (cn.lookup c).contains l) = cn.ruleCovers r (some s) := by
      intro s
      rw [List.filter_eq_self]
      intro l hl
      rw [CatNap.ruleCovers_some] at hl
      exact hall l (List.mem_filter.mp hl).2
    rw [hf, hf, Arith.Lawful.gain_same]
  · have hf : ∀ s : List Label, s.filter (fun l => (cn.lookup c).contains l) = [] := by
      intro s
      rw [List.filter_eq_nil_iff]
      intro l _ hl
      rw [List.contains_iff_mem, CatNap.mem_lookup h] at hl
      obtain ⟨_, row, hrow, _, hm⟩ := hl
      rw [Cond.met_iff] at hm
      unfold Meets Same at hm
      rw [he, hc row hrow] at hm
      rcases hm with ⟨s, hs, _⟩ | ⟨q, t, u, hs, _⟩ <;> cases hs
    rw [hf, hf]
    exact gain_le_one_of_none _ _ _

omit [Arith.Lawful] in
/-- A condition on a repeated column has the gain of one on the column it repeats. -/
theorem gainCn_repeated (h : CatNap.build df cf = .ok cn) {f : Feat} (hf : f ∈ df.cols) (hfc : f ≠ cf)
    (hrep : ∀ row ∈ df.rows, ∀ row' ∈ df.rows, (Same (row.cell e) (row'.cell e) ↔ Same (row.cell f) (row'.cell f))) {c : Cond}
    (hm : c ∈ cn.conds) (he : c.feature = e) (pos neg : List Label) :
    ∃ w ∈ df.unique f, gainCn cn c pos neg = gainCn cn ⟨f, w⟩ pos neg := by
  rw [CatNap.build_conds h, mem_possibleConds, Frame.mem_dropCol] at hm
  obtain ⟨⟨h1, h2⟩, h3⟩ := hm
  obtain ⟨row0, hr0, hv⟩ := mem_unique h3
  obtain ⟨w, hw, hk⟩ := unique_rep (df := df) (f := f) hr0
  refine ⟨w, hw, ?_⟩
  have hl : ∀ l, (cn.lookup c).contains l = (cn.lookup ⟨f, w⟩).contains l := by
    intro l
    rw [Bool.eq_iff_iff, List.contains_iff_mem, List.contains_iff_mem, CatNap.mem_lookup h, CatNap.mem_lookup h]
    refine and_congr ⟨fun _ => ⟨hf, hfc⟩, fun _ => ⟨h1, h2⟩⟩ ?_
    refine exists_congr fun row => and_congr_right fun hrow => and_congr_right fun _ => ?_
    rw [Cond.met_iff, Cond.met_iff]
    unfold Meets
    dsimp only
    rw [← hv, he, hrep row hrow row0 hr0, ← Val.pyEq_iff, ← Val.pyEq_iff]
    unfold Val.sameKind at hk
    simp only [Bool.or_eq_true, Bool.and_eq_true, beq_iff_eq] at hk
    rcases hk with hk | ⟨hk1, hk2⟩
    · constructor
      · intro hh; exact Val.pyEq_trans hh (by rw [Val.pyEq_symm]; exact hk)
      · intro hh; exact Val.pyEq_trans hh hk
    · rw [hk1, hk2]
  unfold gainCn
  simp only [CatNap.condCovers_some, hl]

theorem bestRuleSuccessorCn_dropCol (h : CatNap.build df cf = .ok cn) (h' : CatNap.build (df.dropCol e) cf = .ok cn')
    (ha : AddsNothing df cf e) {r : List Cond} (hr : NotOn e r) (pos neg : List Label) :
    bestRuleSuccessorCn cn' r pos neg = bestRuleSuccessorCn cn r pos neg := by
  unfold bestRuleSuccessorCn
  rw [ruleCovers_dropCol h h' hr, ruleCovers_dropCol h h' hr]
  dsimp only
  generalize hP : cn.ruleCovers r (some pos) = P
  generalize hN : cn.ruleCovers r (some neg) = N
  have hs : ∀ b, bestLoop (fun c => gainCn cn' c P N) b cn'.conds = bestLoop (fun c => gainCn cn c P N) b cn'.conds := by
    refine bestLoop_congr fun c hc => ?_
    rw [build_conds_dropCol h h'] at hc
    have hc := of_decide_eq_true (List.mem_filter.mp hc).2
    unfold gainCn
    simp only [CatNap.condCovers_some, lookup_dropCol h h' hc]
  have key : bestLoop (fun c => gainCn cn c P N) (none, 0) cn.conds = bestLoop (fun c => gainCn cn c P N) (none, 0) cn'.conds ∨
      ((bestLoop (fun c => gainCn cn c P N) (none, 0) cn.conds).2 ≤ 1 ∧
        (bestLoop (fun c => gainCn cn c P N) (none, 0) cn'.conds).2 ≤ 1) := by
    rw [build_conds_dropCol h h']
    rcases ha with ha | ⟨f, before, after, hcols, hf, heb, hfc, hrep⟩
    · refine bestLoop_without _ _ _ _ _ (Or.inl rfl) fun c hc hk => Or.inl ?_
      rw [← hP, ← hN]
      exact gainCn_constant h ha hc (by simpa using hk) r pos neg
    · have hsplit : ∃ l1 l2, cn.conds = l1 ++ l2 ∧ (∀ c ∈ l1, c.feature ≠ e) ∧ ∀ w ∈ df.unique f, (⟨f, w⟩ : Cond) ∈ l1 := by
        refine ⟨possibleConds (Frame.dropCol { df with cols := before } cf),
          possibleConds (Frame.dropCol { df with cols := after } cf), ?_, ?_, ?_⟩
        · rw [CatNap.build_conds h]
          unfold possibleConds Frame.dropCol
          rw [hcols, List.filter_append, List.flatMap_append]
          rfl
        · intro c hc hce
          rw [mem_possibleConds, Frame.mem_dropCol] at hc
          exact heb (hce ▸ hc.1.1)
        · intro w hw
          rw [mem_possibleConds, Frame.mem_dropCol]
          exact ⟨⟨hf, hfc⟩, hw⟩
      obtain ⟨l1, l2, hl, hk1, hw1⟩ := hsplit
      rw [hl, List.filter_append, List.filter_eq_self.mpr (fun c hc => decide_eq_true (hk1 c hc)), bestLoop_append, bestLoop_append]
      refine bestLoop_without _ _ _ _ _ (Or.inl rfl) fun c hc hk => Or.inr ?_
      have hfc' : f ∈ df.cols := hcols ▸ List.mem_append_left _ hf
      obtain ⟨w, hw, hg⟩ := gainCn_repeated h hfc' hfc hrep (hl ▸ List.mem_append_right _ hc) (by simpa using hk) P N
      rw [hg]
      exact (bestLoop_atLeast (fun c => gainCn cn c P N) l1 (none, 0)).2 _ (hw1 w hw)
  rw [hs]
  rcases key with key | ⟨k1, k2⟩
  · rw [key]
  · revert k1 k2
    generalize bestLoop (fun c => gainCn cn c P N) (none, 0) cn.conds = b
    generalize bestLoop (fun c => gainCn cn c P N) (none, 0) cn'.conds = b'
    rintro k1 k2
    obtain ⟨o, g⟩ := b
    obtain ⟨o', g'⟩ := b'
    dsimp only at k1 k2
    cases o <;> cases o' <;> simp [not_lt.mpr k1, not_lt.mpr k2]

theorem growStepCn_dropCol (h : CatNap.build df cf = .ok cn) (h' : CatNap.build (df.dropCol e) cf = .ok cn')
    (ha : AddsNothing df cf e) {r : List Cond} (hr : NotOn e r) (lim : Limits) (pos neg : List Label) :
    growStepCn cn' lim pos neg r = growStepCn cn lim pos neg r := by
  unfold growStepCn
  rw [ruleCovers_dropCol h h' hr, ruleCovers_dropCol h h' hr, bestRuleSuccessorCn_dropCol h h' ha hr]

omit [Arith.Lawful] in
theorem bestRuleSuccessorCn_notOn (hcn : NotOn e cn.conds) {r r' : List Cond} (hr : NotOn e r) {pos neg : List Label}
    (h : bestRuleSuccessorCn cn r pos neg = some r') : NotOn e r' := by
  unfold bestRuleSuccessorCn at h
  dsimp only at h
  split at h
  · rename_i c g he
    split at h
    · injection h with h
      subst h
      intro x hx
      rcases List.mem_append.mp hx with hx | hx
      · exact hr x hx
      · rw [List.mem_singleton] at hx
        subst hx
        rcases bestLoop_from _ _ _ x (by rw [he]) with h | h
        · exact hcn x h
        · cases h
    · cases h
  · cases h

omit [Arith] [Arith.Lawful] in
theorem haltRule_notOn {r : List Cond} (hr : NotOn e r) (lim : Limits) : NotOn e (haltRule lim r) := by
  intro c hc
  unfold haltRule at hc
  split at hc
  · exact hr c (List.dropLast_subset _ hc)
  · exact hr c hc

/-- Growing a rule with and without the superfluous column gives the same rule, which does not mention the column. -/
theorem growRuleCn_dropCol (h : CatNap.build df cf = .ok cn) (h' : CatNap.build (df.dropCol e) cf = .ok cn')
    (ha : AddsNothing df cf e) (fuel : Nat) (lim : Limits) (pos neg : List Label) {r : List Cond} (hr : NotOn e r) :
    OutRel (fun a a' => a = a' ∧ NotOn e a) (growRuleCn fuel cn lim pos neg r) (growRuleCn fuel cn' lim pos neg r) := by
  have hcn : NotOn e cn'.conds := by
    intro c hc
    rw [build_conds_dropCol h h'] at hc
    exact of_decide_eq_true (List.mem_filter.mp hc).2
  unfold growRuleCn
  refine pyWhile_rel (rs := fun s s' => s = s' ∧ NotOn e s) ?_ fuel r r ⟨rfl, hr⟩
  rintro s _ ⟨rfl, hs⟩
  rw [growStepCn_dropCol h h' ha hs, ← growStepCn_dropCol h h' ha hs]
  unfold growStepCn
  dsimp only
  split
  · exact .done ⟨rfl, hs⟩
  split
  · exact .done ⟨rfl, haltRule_notOn hs lim⟩
  cases hb : bestRuleSuccessorCn cn' s pos neg with
  | none => exact .done ⟨rfl, hs⟩
  | some t => exact .more ⟨rfl, bestRuleSuccessorCn_notOn hcn hs hb⟩

omit [Arith] [Arith.Lawful] in
theorem pruneLoop_congr {m m' : List Cond → Except PyErr (Option Rat)} {rule : List Cond}
    (hm : ∀ n, m (rule.take n) = m' (rule.take n)) : ∀ n best, pruneLoop m rule n best = pruneLoop m' rule n best
  | 0, _ => rfl
  | n + 1, best => by
    unfold pruneLoop
    rw [hm (n + 1)]
    cases m' (rule.take (n + 1)) with
    | error x => rfl
    | ok o =>
      cases o with
      | none => rfl
      | some v => exact pruneLoop_congr hm n _

omit [Arith.Lawful] in
theorem irepMetricCn_dropCol (h : CatNap.build df cf = .ok cn) (h' : CatNap.build (df.dropCol e) cf = .ok cn') {r : List Cond}
    (hr : NotOn e r) (pos neg : List Label) : irepMetricCn cn' pos neg r = irepMetricCn cn pos neg r := by
  unfold irepMetricCn
  rw [ruleCovers_dropCol h h' hr, ruleCovers_dropCol h h' hr]

/-- The same state, in which no rule mentions the column. -/
def SameWithout {R : PyRandom} (e : Feat) (s s' : GrowSt R) : Prop := s = s' ∧ ∀ r ∈ s.rules, NotOn e r

theorem irepStepCn_dropCol {R : PyRandom} (h : CatNap.build df cf = .ok cn) (h' : CatNap.build (df.dropCol e) cf = .ok cn')
    (ha : AddsNothing df cf e) (fuel : Nat) (hp : Hyper) (s s' : GrowSt R) (hs : SameWithout e s s') :
    StepRel (SameWithout e) (SameWithout e) (irepStepCn fuel R cn hp s) (irepStepCn fuel R cn' hp s') := by
  obtain ⟨rfl, hs⟩ := hs
  unfold irepStepCn
  split
  · exact .done ⟨rfl, hs⟩
  split
  · exact .done ⟨rfl, hs⟩
  dsimp only
  generalize randomSplit R s.g s.pos (Arith.complement hp.irepPrune) hp.randomState = q
  obtain ⟨posGrow, posPrune, g1⟩ := q
  dsimp only
  generalize randomSplit R g1 s.neg (Arith.complement hp.irepPrune) hp.randomState = q2
  obtain ⟨negGrow, negPrune, g2⟩ := q2
  dsimp only
  have hg := growRuleCn_dropCol h h' ha fuel hp.lim posGrow negGrow (r := []) (by intro c hc; simp at hc)
  revert hg
  generalize growRuleCn fuel cn hp.lim posGrow negGrow [] = o
  generalize growRuleCn fuel cn' hp.lim posGrow negGrow [] = o'
  intro hg
  have happ : ∀ r, NotOn e r → ∀ r' ∈ s.rules ++ [r], NotOn e r' := by
    intro r hr r' hr'
    rcases List.mem_append.mp hr' with hr' | hr'
    · exact hs r' hr'
    · rw [List.mem_singleton] at hr'; exact hr' ▸ hr
  cases hg with
  | err x => exact .err x
  | ok hg =>
    rename_i grown _
    obtain ⟨rfl, hn⟩ := hg
    simp only [ok_bind]
    by_cases h0 : hp.irepPrune = 0
    · rw [if_pos h0, if_pos h0, ruleCovers_dropCol h h' hn]
      exact .more ⟨rfl, happ _ hn⟩
    rw [if_neg h0, if_neg h0]
    have hpr : pruneRule (irepMetricCn cn posPrune negPrune) grown = pruneRule (irepMetricCn cn' posPrune negPrune) grown := by
      unfold pruneRule
      split
      · rfl
      · exact pruneLoop_congr (fun n => (irepMetricCn_dropCol h h' (fun c hc => hn c (List.mem_of_mem_take hc)) _ _).symm) _ _
    rw [hpr]
    cases hq : pruneRule (irepMetricCn cn' posPrune negPrune) grown with
    | error x => exact .err x
    | ok o =>
      cases o with
      | none => exact .err _
      | some pruned =>
        have hpn : NotOn e pruned := by
          intro c hc
          exact hn c ((pruneRule_prefix hq).1.subset hc)
        have hprec : rulePrecisionCn cn' pruned posPrune negPrune = rulePrecisionCn cn pruned posPrune negPrune := by
          unfold rulePrecisionCn
          rw [ruleCovers_dropCol h h' hpn, ruleCovers_dropCol h h' hpn]
        have hrm : rmRuleCoversCn cn' pruned s.pos s.neg = rmRuleCoversCn cn pruned s.pos s.neg := by
          unfold rmRuleCoversCn
          rw [ruleCovers_dropCol h h' hpn, ruleCovers_dropCol h h' hpn]
        simp only [ok_bind, hprec, hrm]
        cases rulePrecisionCn cn pruned posPrune negPrune with
        | none => exact .done ⟨rfl, hs⟩
        | some q =>
          dsimp only
          split
          · exact .done ⟨rfl, hs⟩
          · exact .more ⟨rfl, happ _ hpn⟩
end grow

/-- The rules with their class counts and probabilities, the counts of uncovered training examples, the selected features
and the generator's state afterwards: everything a fitted model consists of, except for the lists of the training data's
columns and of the conditions on them. -/
def learnt {G : Type} (o : Except PyErr (Fitted × G)) : Except PyErr (List Rule × Calib × List Feat × G) :=
  o.map fun p => (p.1.ruleset.rules, p.1.ruleset.uncov, p.1.selected, p.2)

section fit
variable [Arith] [Arith.Lawful] {R : PyRandom}

/-- C98. Training IREP on data with a column that adds nothing, a constant one or one that repeats a column to its left, has
the same outcome as training it on the data without that column: the same exception, or the same rules in the same order with
the same class counts and probabilities, and the same draws from the generator. -/
theorem C98_irep_superfluous_column (fuel : Nat) (hp : Hyper) {init : List (List Cond)} {df : Frame} {cf e : Feat} (pc : Val)
    (g : R.G) (hcf : e ≠ cf) (hi : ∀ r ∈ init, ∀ c ∈ r, c.feature ≠ e)
    (ha : ConstantColumn df e ∨ RepeatedColumn df cf e) :
    learnt (irepFit fuel R hp init (df.dropCol e) cf pc g) = learnt (irepFit fuel R hp init df cf pc g) := by
  unfold irepFit
  rw [Frame.dropCol_rows]
  by_cases h0 : df.rows = []
  · rw [if_pos h0, if_pos h0]
  rw [if_neg h0, if_neg h0]
  by_cases h1 : cf ∉ df.cols
  · rw [if_pos h1, if_pos (fun h => h1 (Frame.mem_dropCol.mp h).1)]
  push Not at h1
  have h1' : cf ∈ (df.dropCol e).cols := Frame.mem_dropCol.mpr ⟨h1, fun h => hcf h.symm⟩
  rw [if_neg (not_not.mpr h1), if_neg (not_not.mpr h1')]
  obtain ⟨cn, hb⟩ : ∃ cn, CatNap.build df cf = .ok cn := ⟨_, CatNap.build_ok h1⟩
  obtain ⟨cn', hb'⟩ : ∃ cn', CatNap.build (df.dropCol e) cf = .ok cn' := ⟨_, CatNap.build_ok h1'⟩
  have hrun : OutRel (SameWithout e)
      (irepGrowCn fuel R cn hp init (labelSet (posRows df cf pc).index) (labelSet (negRows df cf pc).index) g)
      (irepGrowCn fuel R cn' hp init (labelSet (posRows (df.dropCol e) cf pc).index)
        (labelSet (negRows (df.dropCol e) cf pc).index) g) :=
    pyWhile_rel (irepStepCn_dropCol hb hb' ha fuel hp) fuel _ _ ⟨rfl, hi⟩
  rw [hb, hb']
  simp only [ok_bind]
  revert hrun
  generalize irepGrowCn fuel R cn hp init (labelSet (posRows df cf pc).index) (labelSet (negRows df cf pc).index) g = o
  generalize irepGrowCn fuel R cn' hp init (labelSet (posRows (df.dropCol e) cf pc).index)
    (labelSet (negRows (df.dropCol e) cf pc).index) g = o'
  intro hrun
  cases hrun with
  | err x => rfl
  | ok hst =>
    rename_i st _
    obtain ⟨rfl, hn⟩ := hst
    simp only [ok_bind]
    obtain ⟨k1, k2, k3⟩ := recalibrate_dropCol (e := e) (fun h => hcf h.symm) df pc hp.alpha
      (rs := { rules := st.rules.map (fun c => { conds := c }), possible := some cn.conds })
      (rs' := { rules := st.rules.map (fun c => { conds := c }), possible := some cn'.conds })
      (by intro r hr; obtain ⟨c, hc, rfl⟩ := List.mem_map.mp hr; exact hn c hc) rfl rfl
    revert k1 k2 k3
    generalize recalibrate { rules := st.rules.map (fun c => { conds := c }), possible := some cn.conds } df cf pc hp.alpha = q
    generalize recalibrate { rules := st.rules.map (fun c => { conds := c }), possible := some cn'.conds } (df.dropCol e) cf pc
      hp.alpha = q'
    obtain ⟨⟨rules, un, poss⟩, x⟩ := q
    obtain ⟨⟨rules', un', poss'⟩, x'⟩ := q'
    intro k1 k2 k3
    dsimp only at k1 k2 k3
    subst k1 k2 k3
    cases x' with
    | some x => rfl
    | none => rfl

omit [Arith] [Arith.Lawful] in
theorem learnt_ok {G : Type} {o o' : Except PyErr (Fitted × G)} (h : learnt o' = learnt o) {m : Fitted} {g : G} (ho : o = .ok (m, g)) :
    ∃ m', o' = .ok (m', g) ∧ m'.ruleset.rules = m.ruleset.rules ∧ m'.ruleset.uncov = m.ruleset.uncov ∧ m'.selected = m.selected := by
  subst ho
  cases o' with
  | error x => cases h
  | ok p =>
    obtain ⟨m', g'⟩ := p
    injection h with h
    simp only [Prod.mk.injEq] at h
    exact ⟨m', by rw [h.2.2.2], h.1, h.2.1, h.2.2.1⟩

/-- C98. No rule of the model mentions the column that adds nothing. -/
theorem C98_irep_unused (fuel : Nat) (hp : Hyper) {init : List (List Cond)} {df : Frame} {cf e : Feat} (pc : Val)
    (g g' : R.G) (hcf : e ≠ cf) (hi : ∀ r ∈ init, ∀ c ∈ r, c.feature ≠ e)
    (ha : ConstantColumn df e ∨ RepeatedColumn df cf e) (m : Fitted) (h : irepFit fuel R hp init df cf pc g = .ok (m, g')) :
    ∀ r ∈ m.ruleset.rules, ∀ c ∈ r.conds, c.feature ≠ e := by
  obtain ⟨m', h', hr, _⟩ := learnt_ok (C98_irep_superfluous_column (R := R) fuel hp pc g hcf hi ha) h
  intro r hm c hc
  rw [← hr] at hm
  rcases C29_irep_no_leakage R hp init _ cf pc fuel g g' m' h' r hm with h1 | h1
  · exact hi _ h1 c hc
  · exact (Frame.mem_dropCol.mp (h1 c hc).1.1).2

omit [Arith] [Arith.Lawful] in
theorem Ruleset.predict_dropCol {e : Feat} {rs : Ruleset} (hr : ∀ r ∈ rs.rules, NotOn e r.conds) (X : Frame) :
    rs.predict (X.dropCol e) = rs.predict X := by
  unfold Ruleset.predict
  rw [Ruleset.covers_dropCol hr]
  cases rs.covers X with
  | error x => rfl
  | ok d => rfl

omit [Arith] [Arith.Lawful] in
theorem filterAuxM_congr {α : Type} {p p' : α → Except PyErr Bool} : ∀ {l : List α}, (∀ a ∈ l, p a = p' a) → ∀ acc,
    List.filterAuxM p l acc = List.filterAuxM p' l acc
  | [], _, _ => rfl
  | a :: l, h, acc => by
    unfold List.filterAuxM
    rw [h a List.mem_cons_self]
    cases p' a with
    | error x => rfl
    | ok b => exact filterAuxM_congr (fun b hb => h b (List.mem_cons_of_mem _ hb)) _

omit [Arith] [Arith.Lawful] in
theorem filterM_congr {α : Type} {p p' : α → Except PyErr Bool} {l : List α} (h : ∀ a ∈ l, p a = p' a) :
    l.filterM p = l.filterM p' := by
  unfold List.filterM
  rw [filterAuxM_congr h]

omit [Arith] [Arith.Lawful] in
theorem reasonsAt_dropCol {e : Feat} {rs : List Rule} (hr : ∀ r ∈ rs, NotOn e r.conds) (X : Frame) (i : Label) :
    reasonsAt rs (X.dropCol e) i = reasonsAt rs X i := by
  unfold reasonsAt
  refine filterM_congr fun r hm => ?_
  have : r.numCovered ((X.dropCol e).keep (fun row => row.label == i)) = r.numCovered (X.keep (fun row => row.label == i)) := by
    unfold Rule.numCovered
    have h1 : r.covers ((X.dropCol e).keep (fun row => row.label == i)) =
        (r.covers (X.keep (fun row => row.label == i))).map (·.dropCol e) :=
      condsCover_dropCol (hr r hm) (X.keep (fun row => row.label == i))
    rw [h1]
    cases r.covers (X.keep (fun row => row.label == i)) with
    | error x => rfl
    | ok d => rfl
  rw [this]

omit [Arith] [Arith.Lawful] in
theorem Ruleset.predictProba_dropCol {e : Feat} {rs rs' : Ruleset} (hr : ∀ r ∈ rs.rules, NotOn e r.conds)
    (h1 : rs'.rules = rs.rules) (h2 : rs'.uncov = rs.uncov) (X : Frame) :
    rs'.predict (X.dropCol e) = rs.predict X ∧ rs'.predictProbaReasons (X.dropCol e) = rs.predictProbaReasons X := by
  have hp : rs'.predict (X.dropCol e) = rs.predict X := by
    rw [← Ruleset.predict_dropCol hr X]
    unfold Ruleset.predict Ruleset.covers Ruleset.isUniversal Ruleset.isNull
    rw [h1]
  refine ⟨hp, ?_⟩
  have hre : (fun ip : Label × Bool => if ip.2 = true then reasonsAt rs'.rules (X.dropCol e) ip.1 else Except.ok []) =
      fun ip : Label × Bool => if ip.2 = true then reasonsAt rs.rules X ip.1 else Except.ok [] := by
    funext ip
    rw [h1, reasonsAt_dropCol hr]
  have hpr : rs'.predictReasons (X.dropCol e) = rs.predictReasons X := by
    unfold Ruleset.predictReasons
    rw [hp, hre]
    rfl
  unfold Ruleset.predictProbaReasons
  rw [hpr, h2]

/-- C98. So the two models also answer alike: the predictions, the class probabilities and the reasons they give for data
with the column are those the model trained without it gives for the data without it. -/
theorem C98_irep_same_answers (fuel : Nat) (hp : Hyper) {init : List (List Cond)} {df : Frame} {cf e : Feat} (pc : Val)
    (g g' : R.G) (hcf : e ≠ cf) (hi : ∀ r ∈ init, ∀ c ∈ r, c.feature ≠ e)
    (ha : ConstantColumn df e ∨ RepeatedColumn df cf e) (m : Fitted) (h : irepFit fuel R hp init df cf pc g = .ok (m, g')) :
    ∃ m', irepFit fuel R hp init (df.dropCol e) cf pc g = .ok (m', g') ∧ ∀ X : Frame,
      m'.ruleset.predict (X.dropCol e) = m.ruleset.predict X ∧
      m'.ruleset.predictProbaReasons (X.dropCol e) = m.ruleset.predictProbaReasons X := by
  obtain ⟨m', h', h1, h2, _⟩ := learnt_ok (C98_irep_superfluous_column (R := R) fuel hp pc g hcf hi ha) h
  exact ⟨m', h', fun X => Ruleset.predictProba_dropCol (C98_irep_unused (R := R) fuel hp pc g g' hcf hi ha m h) h1 h2 X⟩
end fit

namespace Demo
/-- A fourth column. -/
def fd : Feat := .name p!"d"
/-- Six examples; the column `d` is constant. -/
def flat : Frame := Frame.ofTable [fa, fb, fd, fc]
  [(0, [vy, vy, vx, vn]), (1, [vy, vx, vx, vp]), (2, [vy, vx, vx, vp]), (3, [vx, vx, vx, vp]), (4, [vy, vy, vx, vn]),
   (5, [vy, vy, vx, vp])]
/-- The same examples; the column `d` repeats the column `a` in other words. -/
def twice : Frame := Frame.ofTable [fa, fb, fd, fc]
  [(0, [vy, vy, vx, vn]), (1, [vy, vx, vx, vp]), (2, [vy, vx, vx, vp]), (3, [vx, vx, vy, vp]), (4, [vy, vy, vx, vn]),
   (5, [vy, vy, vx, vp])]
/-- Two examples told apart by the column `a` and by its copy `d`. -/
def copies (cols : List Feat) : Frame :=
  { Frame.ofTable [fa, fd, fc] [(0, [vx, vx, vp]), (1, [vy, vy, vn])] with cols := cols }
/-- The rules of a model, if training returned one. -/
def rulesLearnt {G : Type} (o : Except PyErr (Fitted × G)) : Option (List (List Cond)) :=
  o.toOption.map fun p => p.1.ruleset.rules.map Rule.conds
theorem flat_constant : ConstantColumn flat fd := by
  left
  intro row hr row' hr'
  rw [← Val.pyEq_iff]
  revert row row'
  decide +kernel
theorem twice_repeated : RepeatedColumn twice fc fd := by
  refine ⟨fa, [fa, fb], [fd, fc], by decide +kernel, by decide +kernel, by decide +kernel, by decide +kernel, ?_⟩
  intro row hr row' hr'
  rw [← Val.pyEq_iff, ← Val.pyEq_iff]
  revert row row'
  decide +kernel
end Demo

/-- The hypotheses are met, and the models learned have rules. -/
example : ConstantColumn Demo.flat Demo.fd ∧ Demo.fd ∈ Demo.flat.cols ∧ Demo.fd ≠ Demo.fc ∧
    Demo.rulesLearnt (irepFit 9 Demo.R1 {} [] Demo.flat Demo.fc Demo.vp (1 : Nat)) = some [[⟨Demo.fb, Demo.vx⟩], []] :=
  ⟨Demo.flat_constant, by decide +kernel, by decide +kernel, by decide +kernel⟩

example : RepeatedColumn Demo.twice Demo.fc Demo.fd ∧
    Demo.rulesLearnt (irepFit 9 Demo.R1 {} [] Demo.twice Demo.fc Demo.vp (1 : Nat)) = some [[⟨Demo.fb, Demo.vx⟩], []] :=
  ⟨Demo.twice_repeated, by decide +kernel⟩

/-- Of two columns that say the same IREP's rules name the first, so without the second they are the same. -/
example :
    Demo.rulesLearnt (irepFit 9 Demo.R0 { pruneSize := none } [] (Demo.copies [Demo.fa, Demo.fd, Demo.fc]) Demo.fc Demo.vp ()) =
      some [[⟨Demo.fa, Demo.vx⟩]] ∧
    Demo.rulesLearnt (irepFit 9 Demo.R0 { pruneSize := none } [] ((Demo.copies [Demo.fa, Demo.fd, Demo.fc]).dropCol Demo.fd) Demo.fc
      Demo.vp ()) = some [[⟨Demo.fa, Demo.vx⟩]] :=
  ⟨by decide +kernel, by decide +kernel⟩

/-- C98 is false of RIPPER: its description lengths count the conditions that the data offer, so even a constant column, and
likewise a repeated one, can change the rules: here it makes RIPPER stop before the second of the two rules found without it. -/
theorem C98_refuted_ripper :
    ∃ hp : Hyper, ∃ df df' : Frame, (ConstantColumn df Demo.fd ∧ RepeatedColumn df' Demo.fc Demo.fd) ∧
      ((Demo.rulesLearnt (ripperFit 9 Demo.R1 hp [] df Demo.fc Demo.vp (0 : Nat))).map List.length = some 1 ∧
        (Demo.rulesLearnt (ripperFit 9 Demo.R1 hp [] (df.dropCol Demo.fd) Demo.fc Demo.vp (0 : Nat))).map List.length = some 2) ∧
      ((Demo.rulesLearnt (ripperFit 9 Demo.R1 hp [] df' Demo.fc Demo.vp (0 : Nat))).map List.length = some 1 ∧
        (Demo.rulesLearnt (ripperFit 9 Demo.R1 hp [] (df'.dropCol Demo.fd) Demo.fc Demo.vp (0 : Nat))).map List.length = some 2) :=
  ⟨{ pruneSize := some (1 / 3), k := 0, dlAllowance := 0 }, Demo.flat, Demo.twice, ⟨Demo.flat_constant, Demo.twice_repeated⟩,
    ⟨by decide +kernel, by decide +kernel⟩, ⟨by decide +kernel, by decide +kernel⟩⟩

/-- C98 needs the repeated column to stand to the right of the one it repeats: when the copy comes first, the rules name it
instead. -/
theorem C98_refuted_copy_first :
    ∃ df : Frame, (∀ row ∈ df.rows, row.cell Demo.fd = row.cell Demo.fa) ∧ df.cols = [Demo.fd, Demo.fa, Demo.fc] ∧
      Demo.rulesLearnt (irepFit 9 Demo.R0 { pruneSize := none } [] df Demo.fc Demo.vp ()) = some [[⟨Demo.fd, Demo.vx⟩]] ∧
      Demo.rulesLearnt (irepFit 9 Demo.R0 { pruneSize := none } [] (df.dropCol Demo.fd) Demo.fc Demo.vp ()) =
        some [[⟨Demo.fa, Demo.vx⟩]] :=
  ⟨Demo.copies [Demo.fd, Demo.fa, Demo.fc], by decide +kernel, rfl, by decide +kernel, by decide +kernel⟩
end Witt
