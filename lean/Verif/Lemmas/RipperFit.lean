import Verif.Lemmas.RipperSafe
import Verif.Lemmas.Proba
/-
RIPPER.fit: decomposition, simplification by description length, seeding.
-/
namespace Witt
open Spec
variable [Arith] [Arith.Lawful]

variable {fuel : Nat} {R : PyRandom} {cn : CatNap} {hp : Hyper} {allPos allNeg : List Label}

omit [Arith.Lawful] in
theorem ripperFit_ok {init : List (List Cond)} {df : Frame}
    {cf : Feat} {pc : Val} {g g' : R.G} {m : Fitted} (h : ripperFit fuel R hp init df cf pc g = .ok (m, g')) :
    df.rows ≠ [] ∧ ∃ cn rules, CatNap.build df cf = .ok cn ∧
      ripperStages fuel R cn hp init (labelSet (posRows df cf pc).index) (labelSet (negRows df cf pc).index) g
        = .ok (rules, g') ∧
      m.ruleset.rules.map Rule.conds = finish hp.lim.maxTotalConds rules ∧
      m.selected = Ruleset.selectedFeatures { rules := rules.map (fun c => { conds := c }) } ∧
      m.trainFeats = (df.dropCol cf).cols ∧
      (∃ rs0 : Ruleset, rs0.rules.map Rule.conds = finish hp.lim.maxTotalConds rules ∧
        recalibrate rs0 df cf pc hp.alpha = (m.ruleset, none)) := by
  unfold ripperFit at h
  split at h
  · simp at h
  rename_i hne
  split at h
  · simp at h
  obtain ⟨cn, hb, h⟩ := bind_ok_iff.mp h
  obtain ⟨⟨rules, g1⟩, hs, h⟩ := bind_ok_iff.mp h
  simp only at h
  refine ⟨hne, cn, rules, hb, ?_⟩
  generalize hrs0 : Ruleset.trimConds { rules := removeDups Rule.sameKey (rules.map (fun c => ({ conds := c } : Rule))) }
    hp.lim.maxTotalConds = rs0 at h
  have hc := recalibrate_conds rs0 df cf pc hp.alpha
  rcases hr : recalibrate rs0 df cf pc hp.alpha with ⟨rs1, o⟩
  rw [hr] at h hc
  cases o with
  | some e => simp [raiseIf] at h
  | none =>
    simp only [raiseIf, ok_bind, pure_eq_ok, Except.ok.injEq, Prod.mk.injEq] at h
    obtain ⟨hm, hg'⟩ := h
    subst hm
    have hid : List.map (Rule.conds ∘ fun c => ({ conds := c } : Rule)) rules = rules := by
      simp [Function.comp_def]
    have h0 : rs0.rules.map Rule.conds = finish hp.lim.maxTotalConds rules := by
      rw [← hrs0]
      simp only [Ruleset.trimConds, trimRules_conds, removeDups_conds, List.map_map, hid]
      rfl
    refine ⟨by rw [hs, hg'], ?_, rfl, rfl, rs0, h0, hr⟩
    simp only at hc ⊢
    rw [hc, h0]

/-! ### simplification by description length -/

omit [Arith.Lawful] in
theorem theorySum_append {n : Nat} : ∀ (a b : List (List Cond)) (t : Rat), theorySum n t (a ++ b) =
    (do theorySum n (← theorySum n t a) b)
  | [], b, t => rfl
  | r :: a, b, t => by
    simp only [List.cons_append, theorySum]
    cases ruleTheory n r.length with
    | error e => rfl
    | ok x => exact theorySum_append a b _

omit [Arith.Lawful] in
/-- Adding a rule at the end adds its theory bits to those of the rules before. -/
theorem rsTheory_snoc {n : Nat} {done : List (List Cond)} {r : List Cond} {t x : Rat} (ht : rsTheory n done = .ok t)
    (hx : ruleTheory n r.length = .ok x) : rsTheory n (done ++ [r]) = .ok (Arith.addDl t x) := by
  unfold rsTheory at ht ⊢
  rw [theorySum_append, ht, ok_bind, theorySum, hx]
  rfl

omit [Arith.Lawful] in
/-- The description lengths computed for the prefixes are those of the prefixes. -/
theorem subsetDls_spec {pos neg : List Label} : ∀ (rules : List (List Cond)) (t : Rat)
    (done : List (List Cond)) (dls : List Rat), rsTheory cn.conds.length done = .ok t →
    subsetDls cn pos neg t done rules = .ok dls →
    ∀ i d, dls[i]? = some d → totalBitsCn cn (done ++ rules.take (i + 1)) pos neg = .ok d := by
  intro rules
  induction rules with
  | nil =>
    intro t done dls _ h i d hd
    simp only [subsetDls, Except.ok.injEq] at h; subst h; simp at hd
  | cons r rs ih =>
    intro t done dls ht h i d hd
    rw [subsetDls] at h
    obtain ⟨x, hx, h⟩ := bind_ok_iff.mp h
    obtain ⟨y, hy, h⟩ := bind_ok_iff.mp h
    obtain ⟨z, hz, h⟩ := bind_ok_iff.mp h
    simp only [pure_eq_ok, Except.ok.injEq] at h
    subst h
    have ht' := rsTheory_snoc ht hx
    cases i with
    | zero =>
      simp only [List.getElem?_cons_zero, Option.some.injEq] at hd
      subst hd
      simp only [List.take_succ_cons, List.take_zero]
      unfold totalBitsCn
      rw [ht', ok_bind, hy, ok_bind, pure_eq_ok]
    | succ i =>
      simp only [List.getElem?_cons_succ] at hd
      have := ih _ _ _ ht' hz i d hd
      rw [List.append_assoc] at this
      exact this

omit [Arith] [Arith.Lawful] in
/-- Keep position `i` (counting from `k`) if it is the first or no longer than the position before. -/
theorem mdlFilter_spec : ∀ (xs : List (List Cond × Rat)) (p : Option Rat),
    mdlFilter p xs = ((xs.zip (p :: (xs.map (fun x => some x.2)))).filter (fun y =>
      match y.2 with | none => true | some q => decide (y.1.2 ≤ q))).map (fun y => y.1.1) := by
  intro xs
  induction xs with
  | nil => intro p; cases p <;> rfl
  | cons x xs ih =>
    intro p
    obtain ⟨r, d⟩ := x
    cases p with
    | none =>
      rw [mdlFilter, ih]
      simp only [List.map_cons, List.zip_cons_cons, List.filter_cons, if_true]
    | some q =>
      rw [mdlFilter]
      simp only [List.map_cons, List.zip_cons_cons, List.filter_cons, decide_eq_true_eq]
      split
      · rw [ih]; rfl
      · rw [ih]

/-! ### seeding -/

omit [Arith] [Arith.Lawful] in
theorem map_bind {α β γ : Type} (x : Except PyErr α) (f : α → Except PyErr β) (h : β → γ) :
    (x >>= f).map h = x >>= fun a => (f a).map h := by
  cases x <;> rfl

omit [Arith] [Arith.Lawful] in
/-- Two computations with equal results up to `f` continue alike if the continuation only looks at `f`. -/
theorem bind_map_congr {α β γ : Type} {x y : Except PyErr α} {f : α → β} {k k' : α → Except PyErr γ}
    (h : x.map f = y.map f) (hk : ∀ a b, f a = f b → k a = k' b) : (x >>= k) = (y >>= k') := by
  cases x with
  | error e =>
    cases y with
    | error e' => simp only [Except.map, Except.error.injEq] at h; subst h; rfl
    | ok b => simp [Except.map] at h
  | ok a =>
    cases y with
    | error e' => simp [Except.map] at h
    | ok b => simp only [Except.map, Except.ok.injEq] at h; exact hk a b h

omit [Arith.Lawful] in
theorem ripperGrowCn_seeded (hR : R.SeedResets) {s : Int} (hs : hp.randomState = some s)
    (init : List (List Cond)) (pos neg : List Label) (g g' : R.G) :
    (ripperGrowCn fuel R cn hp init pos neg g).map RipSt.rules =
      (ripperGrowCn fuel R cn hp init pos neg g').map RipSt.rules := by
  unfold ripperGrowCn
  cases hf : fuel with
  | zero => rfl
  | succ n =>
    rw [pyWhile_succ, pyWhile_succ]
    have hb : ∀ g, ripperStepCn (n + 1) R cn hp pos neg ⟨init, pos, neg, none, Arith.zeroDl, g⟩ =
        if pos = [] ∨ (!Arith.within Arith.zeroDl hp.dlAllowance) = true ∨
            stopEarly hp.lim init pos.length neg.length = true then
          .ok (.done ⟨init, pos, neg, none, Arith.zeroDl, g⟩)
        else ripperStepCn (n + 1) R cn hp pos neg ⟨init, pos, neg, none, Arith.zeroDl, g⟩ := by
      intro g
      split
      · rename_i hc
        unfold ripperStepCn
        simp only
        by_cases h1 : pos = [] ∨ (!Arith.within Arith.zeroDl hp.dlAllowance) = true
        · rw [if_pos h1]; rfl
        · rw [if_neg h1]
          have h2 : stopEarly hp.lim init pos.length neg.length = true := by
            rcases hc with h | h | h
            · exact absurd (Or.inl h) h1
            · exact absurd (Or.inr h) h1
            · exact h
          rw [if_pos h2]; rfl
      · rfl
    rw [hb g, hb g']
    by_cases hc : pos = [] ∨ (!Arith.within Arith.zeroDl hp.dlAllowance) = true ∨
        stopEarly hp.lim init pos.length neg.length = true
    · rw [if_pos hc, if_pos hc]; rfl
    · rw [if_neg hc, if_neg hc]
      have : ripperStepCn (n + 1) R cn hp pos neg ⟨init, pos, neg, none, Arith.zeroDl, g⟩ =
          ripperStepCn (n + 1) R cn hp pos neg ⟨init, pos, neg, none, Arith.zeroDl, g'⟩ := by
        have h1 : ¬ (pos = [] ∨ (!Arith.within Arith.zeroDl hp.dlAllowance) = true) := by
          rintro (h | h)
          · exact hc (Or.inl h)
          · exact hc (Or.inr (Or.inl h))
        have h2 : ¬ stopEarly hp.lim init pos.length neg.length = true := fun h => hc (Or.inr (Or.inr h))
        unfold ripperStepCn
        simp only [h1, if_false, h2]
        cases hp.pruneSize with
        | none => rfl
        | some ps =>
          simp only
          rw [hs, randomSplit_seeded hR g g' pos _ s]
          rfl
      rw [this]

omit [Arith.Lawful] in
theorem optimizeLoop_seeded (hR : R.SeedResets) {s : Int} {ps : Rat} {original : List (List Cond)}
    {odl : Rat} (i : Nat) (rest new : List (List Cond)) (pos neg : List Label) (g g' : R.G) :
    (optimizeLoop fuel R cn hp ps (some s) original odl allPos allNeg i rest new pos neg g).map Prod.fst =
    (optimizeLoop fuel R cn hp ps (some s) original odl allPos allNeg i rest new pos neg g').map Prod.fst := by
  cases rest with
  | nil => rfl
  | cons r rest =>
    rw [optimizeLoop, optimizeLoop, randomSplit_seeded hR g g' pos _ s]

omit [Arith.Lawful] in
theorem optimizeCn_seeded (hR : R.SeedResets) {s : Int} (rules : List (List Cond)) (g g' : R.G) :
    (optimizeCn fuel R cn hp (some s) rules allPos allNeg g).map Prod.fst =
    (optimizeCn fuel R cn hp (some s) rules allPos allNeg g').map Prod.fst := by
  unfold optimizeCn
  rw [map_bind, map_bind]
  congr 1
  funext x
  obtain ⟨mdl, odl⟩ := x
  simp only
  cases hp.pruneSize with
  | none => simp only; split <;> rfl
  | some ps => exact optimizeLoop_seeded hR _ _ _ _ _ _ _

omit [Arith.Lawful] in
theorem stage2_seeded (hR : R.SeedResets) {s : Int} (hs : hp.randomState = some s) :
    ∀ (n : Nat) (rules : List (List Cond)) (g g' : R.G),
    (stage2 fuel R cn hp allPos allNeg n rules g).map Prod.fst =
    (stage2 fuel R cn hp allPos allNeg n rules g').map Prod.fst := by
  intro n
  induction n with
  | zero => intros; rfl
  | succ n ih =>
    intro rules g g'
    rw [stage2, stage2, map_bind, map_bind]
    refine bind_map_congr (f := Prod.fst) ?_ ?_
    · rw [hs]
      exact optimizeCn_seeded hR _ _ _
    · rintro ⟨a, ga⟩ ⟨b, gb⟩ hab
      simp only at hab
      subst hab
      simp only
      split
      · rfl
      · exact ih _ _ _

omit [Arith.Lawful] in
theorem coverRemainingCn_seeded (hR : R.SeedResets) {s : Int} (hs : hp.randomState = some s)
    (rules : List (List Cond)) (pos neg : List Label) (g g' : R.G) :
    (coverRemainingCn fuel R cn hp rules pos neg g).map Prod.fst =
    (coverRemainingCn fuel R cn hp rules pos neg g').map Prod.fst := by
  unfold coverRemainingCn
  split
  · rw [map_bind, map_bind]
    refine bind_map_congr (f := RipSt.rules) (ripperGrowCn_seeded hR hs _ _ _ _ _) ?_
    intro a b hab
    simp [Except.map, hab]
  · rfl

omit [Arith.Lawful] in
theorem ripperStages_seeded (hR : R.SeedResets) {s : Int} (hs : hp.randomState = some s)
    (init : List (List Cond)) (pos neg : List Label) (g g' : R.G) :
    (ripperStages fuel R cn hp init pos neg g).map Prod.fst =
    (ripperStages fuel R cn hp init pos neg g').map Prod.fst := by
  unfold ripperStages
  rw [map_bind, map_bind]
  refine bind_map_congr (f := RipSt.rules) (ripperGrowCn_seeded hR hs _ _ _ _ _) ?_
  intro a b hab
  rw [map_bind, map_bind, hab]
  refine bind_map_congr (f := Prod.fst) (stage2_seeded hR hs _ _ _ _) ?_
  rintro ⟨a, ga⟩ ⟨b, gb⟩ hab
  simp only at hab
  subst hab
  simp only
  rw [map_bind, map_bind]
  refine bind_map_congr (f := Prod.fst) (coverRemainingCn_seeded hR hs _ _ _ _ _) ?_
  rintro ⟨a, ga⟩ ⟨b, gb⟩ hab
  simp only at hab
  subst hab
  simp only
  rw [map_bind, map_bind]
  rfl

end Witt
