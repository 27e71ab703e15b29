import Verif.Lemmas.Grow
/-
Growth over an index built from a frame: distinct features, and agreement with growth over DataFrames.
-/
namespace Witt
open Spec
variable [Arith] [Arith.Lawful]

omit [Arith] [Arith.Lawful] in
theorem overCols_conds {df : Frame} {cf : Feat} {cn : CatNap} (hb : CatNap.build df cf = .ok cn)
    {c : Cond} (hc : c ∈ cn.conds) : c.feature ∈ df.cols ∧ c.feature ≠ cf := by
  rw [CatNap.build_conds hb] at hc
  exact Frame.mem_dropCol.mp (mem_possibleConds.mp hc).1

omit [Arith] [Arith.Lawful] in
theorem overCols_append {df : Frame} {cf : Feat} {r s : List Cond} :
    OverCols df cf (r ++ s) ↔ OverCols df cf r ∧ OverCols df cf s := by
  unfold OverCols
  constructor
  · intro h; exact ⟨fun c hc => h c (by simp [hc]), fun c hc => h c (by simp [hc])⟩
  · rintro ⟨h1, h2⟩ c hc
    rcases List.mem_append.mp hc with hc | hc
    · exact h1 c hc
    · exact h2 c hc

omit [Arith] [Arith.Lawful] in
theorem GrowChain.overCols {df : Frame} {cf : Feat} {cn : CatNap} (hb : CatNap.build df cf = .ok cn)
    {pos neg : List Label} {init r : List Cond} (h : GrowChain cn pos neg init r)
    (hi : OverCols df cf init) : OverCols df cf r := by
  intro c hc
  rcases h.mem c hc with h | h
  · exact hi c h
  · exact overCols_conds hb h

omit [Arith] [Arith.Lawful] in
/-- A useful condition is about a feature the rule does not test yet. -/
theorem useful_new_feature {df : Frame} {cf : Feat} {cn : CatNap} (hb : CatNap.build df cf = .ok cn)
    (hu : df.UniqueIndex) {pos neg : List Label} {r : List Cond} {c : Cond} (hr : OverCols df cf r)
    (h : UsefulStep cn pos neg r c) : ∀ d ∈ r, d.feature ≠ c.feature := by
  intro d hd he
  have hrc : OverCols df cf (r ++ [c]) := overCols_append.mpr
    ⟨hr, by intro x hx; simp at hx; subst hx; exact overCols_conds hb h.mem⟩
  obtain ⟨l, _, hl⟩ := h.keeps
  obtain ⟨row, hrow, _, hf⟩ := (CatNap.hit_iff hb hu hrc).mp hl
  have h1 : (row.cell d.feature).pyEq d.val = true := Cond.met_iff.mpr (hf d (by simp [hd]))
  have h2 : (row.cell c.feature).pyEq c.val = true := Cond.met_iff.mpr (hf c (by simp))
  rw [he] at h1
  have h3 : d.val.pyEq c.val = true := Val.pyEq_trans (by rw [Val.pyEq_symm]; exact h1) h2
  obtain ⟨l', _, hl', hl''⟩ := h.loses
  obtain ⟨row', hrow', hlab, hf'⟩ := (CatNap.hit_iff hb hu hr).mp hl'
  have h4 : (row'.cell d.feature).pyEq d.val = true := Cond.met_iff.mpr (hf' d hd)
  have h5 : c.met row' = true := by
    unfold Cond.met; rw [← he]; exact Val.pyEq_trans h4 h3
  have h6 : cn.hit (r ++ [c]) l' = true := by
    rw [CatNap.hit_iff hb hu hrc]
    refine ⟨row', hrow', hlab, ?_⟩
    intro x hx
    rcases List.mem_append.mp hx with hx | hx
    · exact hf' x hx
    · simp at hx; subst hx; exact Cond.met_iff.mp h5
  rw [h6] at hl''; cases hl''

omit [Arith] [Arith.Lawful] in
theorem GrowChain.nodup {df : Frame} {cf : Feat} {cn : CatNap} (hb : CatNap.build df cf = .ok cn)
    (hu : df.UniqueIndex) {pos neg : List Label} {init r : List Cond} (h : GrowChain cn pos neg init r)
    (hi : OverCols df cf init) (hn : (init.map Cond.feature).Nodup) : (r.map Cond.feature).Nodup := by
  induction h with
  | refl => exact hn
  | @snoc r c hc hus ih =>
    rw [List.map_append, List.nodup_append]
    refine ⟨ih, by simp, ?_⟩
    intro a ha b hb'
    obtain ⟨d, hd, rfl⟩ := List.mem_map.mp ha
    simp at hb'
    subst hb'
    exact useful_new_feature hb hu (hc.overCols hb hi) hus d hd

/-! ### DataFrame growth -/

/-- The examples of a DataFrame growth: some rows of the indexed frame, with at least its non-class
columns. -/
structure SameData (df : Frame) (cf : Feat) (d : Frame) : Prop where
  rows : ∀ row ∈ d.rows, row ∈ df.rows
  cols : ∀ f, f ∈ df.cols → f ≠ cf → f ∈ d.cols

omit [Arith] [Arith.Lawful] in
theorem numCoveredC_eq {df : Frame} {cf : Feat} {cn : CatNap} (hb : CatNap.build df cf = .ok cn)
    (hu : df.UniqueIndex) {d : Frame} (hd : SameData df cf d) {r : List Cond} (hr : OverCols df cf r) :
    numCoveredC r d = .ok (cn.ruleCovers r (some d.index)).length := by
  unfold numCoveredC
  rw [condsCover_ok (fun c hc => hd.cols _ (hr c hc).1 (hr c hc).2)]
  simp only [ok_bind, pure_eq_ok, Frame.keep_rows]
  rw [CatNap.ruleCovers_some]
  unfold Frame.index
  rw [List.filter_map, List.length_map]
  congr 2
  apply List.filter_congr
  intro row hrow
  rw [Bool.eq_iff_iff, condsMet_iff]
  simp only [Function.comp]
  rw [CatNap.hit_iff hb hu hr]
  constructor
  · intro h; exact ⟨row, hd.rows row hrow, rfl, h⟩
  · rintro ⟨row', h1, h2, h3⟩
    rwa [row_eq_of_label hu h1 (hd.rows row hrow) h2] at h3

omit [Arith] [Arith.Lawful] in
theorem bestLoopM_ok {score : List Cond → Except PyErr Rat} {s : List Cond → Rat} :
    ∀ (l : List (List Cond)) b, (∀ r ∈ l, score r = .ok (s r)) →
      bestLoopM score b l = .ok (bestLoop s b l) := by
  intro l
  induction l with
  | nil => intro b _; rfl
  | cons a l ih =>
    intro b h
    rw [bestLoopM, h a (by simp)]
    simp only [ok_bind, bestLoop]
    exact ih _ (fun r hr => h r (by simp [hr]))

omit [Arith] [Arith.Lawful] in
theorem bestLoop_map {α β : Type} (f : α → β) (s : β → Rat) : ∀ (l : List α) (b : Option α) v,
    bestLoop s (b.map f, v) (l.map f) =
      ((bestLoop (fun a => s (f a)) (b, v) l).1.map f, (bestLoop (fun a => s (f a)) (b, v) l).2) := by
  intro l
  induction l with
  | nil => intro b v; rfl
  | cons a l ih =>
    intro b v
    simp only [List.map_cons, bestLoop]
    by_cases h : v < s (f a)
    · simp only [h, if_true]
      have := ih (some a) (s (f a))
      simpa using this
    · simp only [h, if_false]; exact ih b v

omit [Arith] [Arith.Lawful] in
theorem bestLoop_filter {α : Type} (s : α → Rat) (p : α → Bool) : ∀ (l : List α) (b : Option α) v,
    1 ≤ v → (∀ c ∈ l, p c = false → s c ≤ 1) → bestLoop s (b, v) (l.filter p) = bestLoop s (b, v) l := by
  intro l
  induction l with
  | nil => intro b v _ _; rfl
  | cons a l ih =>
    intro b v hv h
    cases hp : p a
    · rw [List.filter_cons, hp]
      simp only [Bool.false_eq_true, if_false, bestLoop]
      have h1 := h a (by simp) hp
      have h2 : ¬ v < s a := not_lt.mpr (le_trans h1 hv)
      simp only [h2, if_false]
      exact ih b v hv (fun c hc => h c (by simp [hc]))
    · rw [List.filter_cons, hp]
      simp only [if_true, bestLoop]
      by_cases h2 : v < s a
      · simp only [h2, if_true]
        exact ih _ _ (le_trans hv (le_of_lt h2)) (fun c hc => h c (by simp [hc]))
      · simp only [h2, if_false]
        exact ih b v hv (fun c hc => h c (by simp [hc]))

omit [Arith] [Arith.Lawful] in
theorem bestLoop_ge {α : Type} (s : α → Rat) (l : List α) (b : Option α) (v : Rat) :
    v ≤ (bestLoop s (b, v) l).2 := by
  rcases bestLoop_spec s l b v with ⟨h, _⟩ | ⟨_, c, _, _, h, h2, _⟩
  · rw [h]
  · rw [h]; exact le_of_lt h2

omit [Arith] [Arith.Lawful] in
/-- Starting from "no gain yet" instead of minus infinity only forgets gains that are not positive. -/
theorem bestLoop_start {α : Type} (s : α → Rat) : ∀ (l : List α) (b : Option α) v, v ≤ 1 →
    bestLoop s (none, 1) l =
      if 1 < (bestLoop s (b, v) l).2 then bestLoop s (b, v) l else (none, 1) := by
  intro l
  induction l with
  | nil => intro b v hv; simp [bestLoop, not_lt.mpr hv]
  | cons a l ih =>
    intro b v hv
    simp only [bestLoop]
    by_cases h1 : 1 < s a
    · have h2 : v < s a := lt_of_le_of_lt hv h1
      simp only [h1, h2, if_true]
      rw [if_pos (lt_of_lt_of_le h1 (bestLoop_ge s l (some a) (s a)))]
    · simp only [h1, if_false]
      by_cases h2 : v < s a
      · simp only [h2, if_true]; exact ih _ _ (not_lt.mp h1)
      · simp only [h2, if_false]; exact ih _ _ hv

/-- A condition already in the rule has no gain. -/
theorem stepGain_present {df : Frame} {cf : Feat} {cn : CatNap} (hb : CatNap.build df cf = .ok cn)
    {pos neg : List Label} {r : List Cond} {c : Cond} (h : condIn c r = true) :
    stepGain cn pos neg r c = 1 := by
  have hw := CatNap.build_WF hb
  have hh : ∀ l, cn.hit (r ++ [c]) l = cn.hit r l := by
    intro l
    rw [CatNap.hit_append hw, Bool.eq_iff_iff]
    simp only [Bool.and_eq_true, List.contains_iff_mem]
    refine ⟨fun h => h.1, fun hl => ⟨hl, ?_⟩⟩
    obtain ⟨d, hd, hdc⟩ := List.any_eq_true.mp h
    have hn : r ≠ [] := List.ne_nil_of_mem hd
    simp only [CatNap.hit, hn, if_false, List.all_eq_true, List.contains_iff_mem] at hl
    have := hl d hd
    rw [CatNap.mem_lookup hb] at this ⊢
    have hf : d.feature = c.feature := by
      unfold Cond.pyEq at hdc; simp at hdc; exact hdc.1
    rw [← hf]
    obtain ⟨h1, row, h2, h3, h4⟩ := this
    exact ⟨h1, row, h2, h3, by rw [← Cond.met_congr hdc]; exact h4⟩
  unfold stepGain
  rw [CatNap.ruleCovers_some, CatNap.ruleCovers_some, CatNap.ruleCovers_some, CatNap.ruleCovers_some,
    List.filter_congr (fun l _ => hh l), List.filter_congr (fun l _ => hh l)]
  exact Arith.Lawful.gain_same _ _

theorem bestSuccessor_eq {df : Frame} {cf : Feat} {cn : CatNap} (hb : CatNap.build df cf = .ok cn)
    (hu : df.UniqueIndex) {pos neg : Frame} (hp : SameData df cf pos) (hn : SameData df cf neg)
    {r : List Cond} (hr : OverCols df cf r) :
    bestSuccessor r cn.conds pos neg = .ok (bestRuleSuccessorCn cn r pos.index neg.index) := by
  have hw := CatNap.build_WF hb
  unfold bestSuccessor successors
  have hs : ∀ s ∈ (cn.conds.filter (fun c => !condIn c r)).map (fun c => r ++ [c]),
      gainDf r s pos neg = .ok (Arith.gain (cn.ruleCovers r (some pos.index)).length
        (cn.ruleCovers r (some neg.index)).length (cn.ruleCovers s (some pos.index)).length
        (cn.ruleCovers s (some neg.index)).length) := by
    intro s hs
    obtain ⟨c, hc, rfl⟩ := List.mem_map.mp hs
    have hcm := (List.mem_filter.mp hc).1
    have hrc : OverCols df cf (r ++ [c]) := overCols_append.mpr
      ⟨hr, by intro x hx; simp at hx; subst hx; exact overCols_conds hb hcm⟩
    unfold gainDf
    rw [numCoveredC_eq hb hu hp hr, numCoveredC_eq hb hu hn hr, numCoveredC_eq hb hu hp hrc,
      numCoveredC_eq hb hu hn hrc]
    rfl
  rw [bestLoopM_ok _ _ hs]
  simp only [ok_bind, pure_eq_ok]
  congr 1
  have hm := bestLoop_map (fun c => r ++ [c])
    (fun s => Arith.gain (cn.ruleCovers r (some pos.index)).length
        (cn.ruleCovers r (some neg.index)).length (cn.ruleCovers s (some pos.index)).length
        (cn.ruleCovers s (some neg.index)).length)
    (cn.conds.filter (fun c => !condIn c r)) none 1
  simp only [Option.map_none] at hm
  rw [hm]
  have hg : ∀ c, Arith.gain (cn.ruleCovers r (some pos.index)).length
        (cn.ruleCovers r (some neg.index)).length (cn.ruleCovers (r ++ [c]) (some pos.index)).length
        (cn.ruleCovers (r ++ [c]) (some neg.index)).length = stepGain cn pos.index neg.index r c :=
    fun c => rfl
  simp only [hg]
  rw [bestLoop_filter _ _ _ _ _ (le_refl _) (fun c _ hc => by
    rw [stepGain_present hb (by simpa using hc)]), bestLoop_start _ _ none 0 (by norm_num)]
  unfold bestRuleSuccessorCn
  simp only [gainCn_eq hw]
  rcases bestLoop_spec (fun c => stepGain cn pos.index neg.index r c) cn.conds none 0 with
    ⟨h1, h2⟩ | ⟨pre, c, post, h0, h1, h2, h3, h4⟩
  · rw [h1]
    have : ¬ (1 : Rat) < 0 := by norm_num
    simp [this]
  · rw [h1]
    simp only
    by_cases hg : 1 < stepGain cn pos.index neg.index r c
    · simp [hg]
    · simp [hg]

theorem growStep_eq {df : Frame} {cf : Feat} {cn : CatNap} (hb : CatNap.build df cf = .ok cn)
    (hu : df.UniqueIndex) {pos neg : Frame} (hp : SameData df cf pos) (hn : SameData df cf neg)
    (lim : Limits) {r : List Cond} (hr : OverCols df cf r) :
    growStep cn.conds lim pos neg r = growStepCn cn lim pos.index neg.index r := by
  unfold growStep growStepCn
  rw [numCoveredC_eq hb hu hn hr, numCoveredC_eq hb hu hp hr]
  simp only [ok_bind, pure_eq_ok]
  by_cases h0 : (cn.ruleCovers r (some neg.index)).length = 0
  · simp [h0]
  · simp only [h0, if_false]
    have hpos : ∀ (m : Option Int), (if m.isSome = true then
        (Except.ok (cn.ruleCovers r (some pos.index)).length : Except PyErr Nat) else Except.ok 0) =
        .ok (if m.isSome = true then (cn.ruleCovers r (some pos.index)).length else 0) := by
      intro m; cases m <;> rfl
    rw [hpos]
    simp only [ok_bind]
    have hh : userHalt lim r (cn.ruleCovers r (some neg.index)).length
        (if lim.minRuleSamples.isSome = true then (cn.ruleCovers r (some pos.index)).length else 0) =
        userHalt lim r (cn.ruleCovers r (some neg.index)).length
          (cn.ruleCovers r (some pos.index)).length := by
      unfold userHalt
      cases lim.minRuleSamples <;> simp [below]
    rw [hh]
    split
    · rfl
    · rw [bestSuccessor_eq hb hu hp hn hr]
      simp only [ok_bind]

theorem growRule_eq {df : Frame} {cf : Feat} {cn : CatNap} (hb : CatNap.build df cf = .ok cn)
    (hu : df.UniqueIndex) {pos neg : Frame} (hp : SameData df cf pos) (hn : SameData df cf neg)
    (lim : Limits) (fuel : Nat) {init : List Cond} (hi : OverCols df cf init) :
    growRule fuel cn.conds lim pos neg init = growRuleCn fuel cn lim pos.index neg.index init := by
  have hw := CatNap.build_WF hb
  unfold growRule growRuleCn
  have : ∀ (n : Nat) (r : List Cond), OverCols df cf r →
      pyWhile (growStep cn.conds lim pos neg) n r =
        pyWhile (growStepCn cn lim pos.index neg.index) n r := by
    intro n
    induction n with
    | zero => intro r _; rfl
    | succ n ih =>
      intro r hr
      rw [pyWhile_succ, pyWhile_succ, growStep_eq hb hu hp hn lim hr]
      cases hc : growStepCn cn lim pos.index neg.index r with
      | error e => rfl
      | ok o =>
        cases o with
        | done a => rfl
        | more r' =>
          refine ih r' ?_
          rcases growStepCn_cases hc with ⟨_, h⟩ | ⟨_, _, h⟩ | ⟨_, _, ⟨_, h⟩ | ⟨r'', hs, h⟩⟩
          · cases h
          · cases h
          · cases h
          · injection h with h; subst h
            obtain ⟨c, rfl, hus, _⟩ := bestSucc_useful hw hs
            exact overCols_append.mpr
              ⟨hr, by intro x hx; simp at hx; subst hx; exact overCols_conds hb hus.mem⟩
  exact this fuel init hi

end Witt
