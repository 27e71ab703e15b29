import Verif.Lemmas.Recode
/-
Renaming columns and recoding their values: RIPPER with the coverage index.
-/
namespace Witt
open Spec
variable [Arith] {φ : Recoding} {D : Cond → Prop}

/-! ### description lengths -/

theorem exceptionsCn_recode (cn : CatNap) (rules : List (List Cond)) (pos neg : List Label) :
    exceptionsCn (cn.recode φ) (rules.map φ.conds) pos neg = exceptionsCn cn rules pos neg := by
  unfold exceptionsCn
  simp only [rulesetCovers_recode]

omit [Arith] in
theorem conds_length_recode (cn : CatNap) : (cn.recode φ).conds.length = cn.conds.length := by simp [CatNap.recode]

theorem theorySum_recode (n : Nat) (rules : List (List Cond)) : ∀ t : Rat, theorySum n t (rules.map φ.conds) = theorySum n t rules := by
  induction rules with
  | nil => intro t; rfl
  | cons r rules ih =>
    intro t
    rw [List.map_cons, theorySum, theorySum, conds_length]
    simp only [ih]

theorem rsTheory_recode (n : Nat) (rules : List (List Cond)) : rsTheory n (rules.map φ.conds) = rsTheory n rules :=
  theorySum_recode n rules _

theorem totalBitsCn_recode (cn : CatNap) (rules : List (List Cond)) (pos neg : List Label) :
    totalBitsCn (cn.recode φ) (rules.map φ.conds) pos neg = totalBitsCn cn rules pos neg := by
  unfold totalBitsCn
  rw [exceptionsCn_recode, conds_length_recode, rsTheory_recode]

theorem subsetDls_recode (cn : CatNap) (pos neg : List Label) (rules : List (List Cond)) : ∀ (theory : Rat) (done : List (List Cond)),
    subsetDls (cn.recode φ) pos neg theory (done.map φ.conds) (rules.map φ.conds) = subsetDls cn pos neg theory done rules := by
  induction rules with
  | nil => intro theory done; rfl
  | cons r rules ih =>
    intro theory done
    have : done.map φ.conds ++ [φ.conds r] = (done ++ [r]).map φ.conds := by simp
    rw [List.map_cons, subsetDls, subsetDls, this, conds_length, conds_length_recode, exceptionsCn_recode]
    simp only [ih]

omit [Arith] in
theorem mdlFilter_recode (l : List (List Cond × Rat)) : ∀ p : Option Rat,
    mdlFilter p (l.map (fun x => (φ.conds x.1, x.2))) = (mdlFilter p l).map φ.conds := by
  induction l with
  | nil => intro p; cases p <;> rfl
  | cons x l ih =>
    intro p
    rw [List.map_cons]
    cases p with
    | none => rw [mdlFilter, mdlFilter, List.map_cons, ih]
    | some q =>
      rw [mdlFilter, mdlFilter]
      split
      · rw [List.map_cons, ih]
      · exact ih _

omit [Arith] in
theorem zip_recode (rules : List (List Cond)) (dls : List Rat) :
    (rules.map φ.conds).zip dls = (rules.zip dls).map (fun x => (φ.conds x.1, x.2)) := by
  rw [List.zip_map_left]
  rfl

/-- Rules with a number, in the new names. -/
def recodeFst (φ : Recoding) {β : Type} (x : List (List Cond) × β) : List (List Cond) × β := (x.1.map φ.conds, x.2)

theorem bestSubsetCn_recode (cn : CatNap) (rules : List (List Cond)) (pos neg : List Label) :
    bestSubsetCn (cn.recode φ) (rules.map φ.conds) pos neg = (bestSubsetCn cn rules pos neg).map (recodeFst φ) := by
  unfold bestSubsetCn
  have := subsetDls_recode (φ := φ) cn pos neg rules Arith.zeroDl []
  rw [List.map_nil] at this
  rw [this]
  cases subsetDls cn pos neg Arith.zeroDl [] rules with
  | error e => rfl
  | ok dls =>
    simp only [ok_bind, zip_recode, mdlFilter_recode, totalBitsCn_recode]
    cases totalBitsCn cn (mdlFilter none (rules.zip dls)) pos neg with
    | error e => rfl
    | ok t => rfl

omit [Arith] in
theorem mdlFilter_sub (l : List (List Cond × Rat)) : ∀ p : Option Rat, ∀ r ∈ mdlFilter p l, r ∈ l.map Prod.fst := by
  induction l with
  | nil => intro p r h; cases p <;> exact absurd h List.not_mem_nil
  | cons x l ih =>
    intro p r h
    cases p with
    | none =>
      rw [mdlFilter] at h
      rcases List.mem_cons.mp h with rfl | h
      · exact List.mem_cons_self
      · exact List.mem_cons_of_mem _ (ih _ r h)
    | some q =>
      rw [mdlFilter] at h
      split at h
      · rcases List.mem_cons.mp h with rfl | h
        · exact List.mem_cons_self
        · exact List.mem_cons_of_mem _ (ih _ r h)
      · exact List.mem_cons_of_mem _ (ih _ r h)

omit [Arith] in
theorem mdlFilter_zip_sub (rules : List (List Cond)) (dls : List Rat) (p : Option Rat) : ∀ r ∈ mdlFilter p (rules.zip dls), r ∈ rules := by
  intro r h
  have := mdlFilter_sub _ _ r h
  obtain ⟨x, hx, rfl⟩ := List.mem_map.mp this
  exact (List.of_mem_zip hx).1

theorem bestSubsetCn_sub {cn : CatNap} {rules : List (List Cond)} {pos neg : List Label} {x : List (List Cond) × Rat}
    (h : bestSubsetCn cn rules pos neg = .ok x) : ∀ r ∈ x.1, r ∈ rules := by
  unfold bestSubsetCn at h
  obtain ⟨dls, _, h⟩ := bind_ok_iff.mp h
  obtain ⟨t, _, h⟩ := bind_ok_iff.mp h
  simp only [pure_eq_ok, Except.ok.injEq] at h
  subst h
  exact mdlFilter_zip_sub _ _ _

/-! ### the growing phase -/

/-- A state of the growing loop in the new names. -/
def RipSt.recode {R : PyRandom} (φ : Recoding) (s : RipSt R) : RipSt R := { s with rules := s.rules.map φ.conds }

theorem ripperGrowCn_recode (fuel : Nat) (R : PyRandom) (cn : CatNap) (hp : Hyper) (init : List (List Cond)) (allPos allNeg : List Label)
    (g : R.G) : ripperGrowCn fuel R (cn.recode φ) hp (init.map φ.conds) allPos allNeg g =
      (ripperGrowCn fuel R cn hp init allPos allNeg g).map (RipSt.recode φ) := by
  unfold ripperGrowCn
  refine pyWhile_map (h := RipSt.recode φ) (k := RipSt.recode φ) (fun s => ?_) fuel
    { rules := init, pos := allPos, neg := allNeg, dl := none, diff := Arith.zeroDl, g := g }
  obtain ⟨rules, pos, neg, dl, diff, g⟩ := s
  unfold ripperStepCn RipSt.recode
  simp only [stopEarly_recode, conds_length_recode]
  split
  · exact .done rfl
  split
  · exact .done rfl
  cases hp.pruneSize with
  | none => exact .err _
  | some ps =>
    simp only
    rcases randomSplit R g pos (Arith.complement ps) hp.randomState with ⟨a, b, g1⟩
    rcases randomSplit R g1 neg (Arith.complement ps) hp.randomState with ⟨c, d, g2⟩
    have hg := growRuleCn_recode (φ := φ) fuel cn hp.lim a c []
    rw [conds_nil] at hg
    simp only [hg]
    split
    · exact .done rfl
    cases growRuleCn fuel cn hp.lim a c [] with
    | error e => exact .err e
    | ok grown =>
      simp only [Except.map, ok_bind, conds_eq_nil]
      split
      · exact .done rfl
      have hpr : (if ps ≠ 0 then pruneRule (ripperGrowMetricCn (cn.recode φ) b d) (φ.conds grown) else .ok (some (φ.conds grown))) =
          (if ps ≠ 0 then pruneRule (ripperGrowMetricCn cn b d) grown else .ok (some grown)).map (Option.map φ.conds) := by
        rw [pruneRule_recode _ _ (ripperGrowMetricCn_recode cn b d)]
        split <;> rfl
      rw [hpr]
      generalize (if ps ≠ 0 then pruneRule (ripperGrowMetricCn cn b d) grown else .ok (some grown)) = o
      cases o with
      | error e => exact .err e
      | ok o =>
        cases o with
        | none => exact .err _
        | some pruned =>
          have happ : rules.map φ.conds ++ [φ.conds pruned] = (rules ++ [pruned]).map φ.conds := by simp
          simp only [Except.map, Option.map, ok_bind, conds_length, happ, exceptionsCn_recode, rmRuleCoversCn_recode]
          cases ruleTheory cn.conds.length pruned.length with
          | error e => exact .err e
          | ok rd =>
            simp only [ok_bind]
            cases exceptionsCn cn (rules ++ [pruned]) allPos allNeg with
            | error e => exact .err e
            | ok dd => exact .more (by simp)

theorem ripperGrowCn_in {fuel : Nat} {R : PyRandom} {cn : CatNap} {hp : Hyper} {init : List (List Cond)} {pos neg : List Label}
    {g : R.G} {st : RipSt R} (hcn : ∀ c ∈ cn.conds, D c) (hi : ∀ r ∈ init, AllIn D r)
    (h : ripperGrowCn fuel R cn hp init pos neg g = .ok st) : ∀ r ∈ st.rules, AllIn D r := by
  obtain ⟨s, hs, h1, _⟩ := ripperGrowCn_reach h
  intro r hr
  rw [h1] at hr
  rcases hs.rule r hr with h | ⟨_, _, _, ha⟩
  · exact hi r h
  · obtain ⟨ps, a, b, c, d, g1, grown, _, _, _, _, h3, _, h4⟩ := ha.how
    have hg : AllIn D grown := growRuleCn_in hcn (fun _ hc => absurd hc List.not_mem_nil) h3
    exact hg.prefix (ripPrune_prefix h4).1

/-! ### the choice for one rule -/

omit [Arith] in
theorem iReplaced_recode (l : List (List Cond)) (i : Nat) (o : Option (List Cond)) :
    iReplaced (l.map φ.conds) i (o.map φ.conds) = (iReplaced l i o).map φ.conds := by
  cases o <;> simp [iReplaced, List.map_take, List.map_drop]

omit [Arith] in
theorem pruneLoopRs_recode (metric metric' : List Cond → Except PyErr (Option Rat)) (hm : ∀ r, metric' (φ.conds r) = metric r)
    (r : List Cond) (n : Nat) : ∀ best : Option (List Cond) × Rat,
    pruneLoopRs metric' (φ.conds r) n (best.1.map φ.conds, best.2) = (pruneLoopRs metric r n best).map (Option.map φ.conds) := by
  induction n with
  | zero =>
    intro best
    rcases best with ⟨o, q⟩
    cases o <;> rfl
  | succ n ih =>
    intro best
    rw [pruneLoopRs, pruneLoopRs, conds_take, hm]
    cases metric (r.take (n + 1)) with
    | error e => rfl
    | ok o =>
      simp only [ok_bind]
      cases o with
      | none => rfl
      | some v =>
        dsimp only
        split
        · exact ih (some (r.take (n + 1)), v)
        · exact ih best

omit [Arith] in
theorem pruneRuleOn_recode (h : φ.PrintsAlike D) (metric metric' : List Cond → Except PyErr (Option Rat))
    (hm : ∀ r, metric' (φ.conds r) = metric r) (r : List Cond) (rules : List (List Cond)) (i : Nat) (hr : AllIn D r)
    (hrs : ∀ r ∈ rules, AllIn D r) :
    pruneRuleOn metric' (φ.conds r) (rules.map φ.conds) i = (pruneRuleOn metric r rules i).map (Option.map φ.conds) := by
  unfold pruneRuleOn
  simp only [conds_eq_nil, List.getElem?_map]
  split
  · rfl
  cases hi : rules[i]? with
  | none => rfl
  | some s =>
    simp only [Option.map]
    rw [condsEq_recode h (hrs s (List.mem_of_getElem? hi)) hr, conds_length]
    split
    · rfl
    · exact pruneLoopRs_recode metric metric' hm s s.length (none, 0)

omit [Arith] in
theorem pruneLoopRs_in {metric : List Cond → Except PyErr (Option Rat)} {r : List Cond} (hr : AllIn D r) (n : Nat) :
    ∀ (best : Option (List Cond) × Rat) (o : List Cond), (∀ b, best.1 = some b → AllIn D b) →
    pruneLoopRs metric r n best = .ok (some o) → AllIn D o := by
  induction n with
  | zero =>
    intro best o hb h
    rcases best with ⟨b, q⟩
    cases b with
    | none => cases h
    | some b => injection h with h; injection h with h; subst h; exact hb _ rfl
  | succ n ih =>
    intro best o hb h
    rw [pruneLoopRs] at h
    obtain ⟨v, _, h⟩ := bind_ok_iff.mp h
    cases v with
    | none => cases h
    | some v =>
      dsimp only at h
      refine ih _ o ?_ h
      intro b hbb
      split at hbb
      · injection hbb with hbb; subst hbb; exact hr.prefix (List.take_prefix _ _)
      · exact hb b hbb

omit [Arith] in
theorem pruneRuleOn_in {metric : List Cond → Except PyErr (Option Rat)} {r o : List Cond} {rules : List (List Cond)} {i : Nat}
    (hr : AllIn D r) (hrs : ∀ r ∈ rules, AllIn D r) (h : pruneRuleOn metric r rules i = .ok (some o)) : AllIn D o := by
  unfold pruneRuleOn at h
  split at h
  · injection h with h; injection h with h; subst h; exact hr
  cases hi : rules[i]? with
  | none => rw [hi] at h; cases h
  | some s =>
    rw [hi] at h
    dsimp only at h
    split at h
    · cases h
    · exact pruneLoopRs_in (hrs s (List.mem_of_getElem? hi)) _ _ o (by intro b hb; cases hb) h

omit [Arith] in
theorem iReplaced_in {l : List (List Cond)} {i : Nat} {o : Option (List Cond)} (hl : ∀ r ∈ l, AllIn D r)
    (ho : ∀ r, o = some r → AllIn D r) : ∀ r ∈ iReplaced l i o, AllIn D r := by
  intro r hr
  cases o with
  | none =>
    rcases List.mem_append.mp hr with hr | hr
    · exact hl r (List.mem_of_mem_take hr)
    · exact hl r (List.mem_of_mem_drop hr)
  | some v =>
    rcases List.mem_append.mp hr with hr | hr
    · rcases List.mem_append.mp hr with hr | hr
      · exact hl r (List.mem_of_mem_take hr)
      · rw [List.mem_singleton] at hr; subst hr; exact ho _ rfl
    · exact hl r (List.mem_of_mem_drop hr)

/-- The choice for one rule, whatever way of growing, whatever metric and whatever description length are used. -/
def choiceOf (grow : List Cond → Except PyErr (List Cond)) (metric : List Cond → Except PyErr (Option Rat))
    (dl : List (List Cond) → Except PyErr Rat) (original : List (List Cond)) (originalDl : Rat) (i : Nat) (rule : List Cond) :
    Except PyErr (List Cond) := do
  let gRep ← grow []
  let prRep ← pruneRuleOn metric gRep (iReplaced original i (some gRep)) i
  let gRev ← grow rule
  let prRev ← pruneRuleOn metric gRev (iReplaced original i (some gRev)) i
  let isRule : Option (List Cond) → Bool := fun o => match o with
    | none => false
    | some r => condsEq r rule
  let repDl ← (if isRule prRep then .ok originalDl else dl (iReplaced original i prRep))
  let revDl ← (if isRule prRev then .ok originalDl else dl (iReplaced original i prRev))
  let best ← argmin (fun a b => decide (a < b)) [originalDl, repDl, revDl]
  match best with
  | 0 => return rule
  | 1 => match prRep with
    | some r => return r
    | none => .error .attributeError
  | _ => match prRev with
    | some r => return r
    | none => .error .attributeError

omit [Arith] in
/-- The same first step, related continuations. -/
theorem bind_same {α A A' : Type} {ra : A → A' → Prop} {o o' : Except PyErr α} (h : o' = o) {k : α → Except PyErr A}
    {k' : α → Except PyErr A'} (hk : ∀ x, OutRel ra (k x) (k' x)) : OutRel ra (o >>= k) (o' >>= k') := by
  subst h
  cases o' with
  | error e => exact .err e
  | ok x => exact hk x

/-- The same rule in the new names, made of conditions in `D`. -/
def RecodedRule (φ : Recoding) (D : Cond → Prop) (r r' : List Cond) : Prop := r' = φ.conds r ∧ AllIn D r

omit [Arith] in
theorem choiceOf_recode (h : φ.PrintsAlike D) {grow grow' : List Cond → Except PyErr (List Cond)}
    {metric metric' : List Cond → Except PyErr (Option Rat)} {dl dl' : List (List Cond) → Except PyErr Rat}
    (hg : ∀ r, AllIn D r → OutRel (RecodedRule φ D) (grow r) (grow' (φ.conds r))) (hm : ∀ r, metric' (φ.conds r) = metric r)
    (hd : ∀ rs, dl' (rs.map φ.conds) = dl rs) (original : List (List Cond)) (originalDl : Rat) (i : Nat) (rule : List Cond)
    (ho : ∀ r ∈ original, AllIn D r) (hr : AllIn D rule) :
    OutRel (RecodedRule φ D) (choiceOf grow metric dl original originalDl i rule)
      (choiceOf grow' metric' dl' (original.map φ.conds) originalDl i (φ.conds rule)) := by
  unfold choiceOf
  have h1 := hg [] (fun _ hc => absurd hc List.not_mem_nil)
  rw [conds_nil] at h1
  revert h1
  generalize grow [] = o1
  generalize grow' [] = o1'
  intro h1
  cases h1 with
  | err e => exact .err e
  | @ok gRep gRep' h1 =>
    obtain ⟨rfl, h1⟩ := h1
    simp only [ok_bind]
    have e1 := iReplaced_recode (φ := φ) original i (some gRep)
    rw [Option.map_some] at e1
    have hin1 : ∀ r ∈ iReplaced original i (some gRep), AllIn D r :=
      iReplaced_in ho (fun r hr => by injection hr with hr; subst hr; exact h1)
    rw [e1, pruneRuleOn_recode h metric metric' hm gRep _ i h1 hin1]
    cases hp1 : pruneRuleOn metric gRep (iReplaced original i (some gRep)) i with
    | error e => exact .err e
    | ok prRep =>
      have hpr1 : ∀ r, prRep = some r → AllIn D r := fun r e => by subst e; exact pruneRuleOn_in h1 hin1 hp1
      simp only [Except.map, ok_bind]
      have h2 := hg rule hr
      revert h2
      generalize grow rule = o2
      generalize grow' (φ.conds rule) = o2'
      intro h2
      cases h2 with
      | err e => exact .err e
      | @ok gRev gRev' h2 =>
        obtain ⟨rfl, h2⟩ := h2
        simp only [ok_bind]
        have e2 := iReplaced_recode (φ := φ) original i (some gRev)
        rw [Option.map_some] at e2
        have hin2 : ∀ r ∈ iReplaced original i (some gRev), AllIn D r :=
          iReplaced_in ho (fun r hr => by injection hr with hr; subst hr; exact h2)
        rw [e2, pruneRuleOn_recode h metric metric' hm gRev _ i h2 hin2]
        cases hp2 : pruneRuleOn metric gRev (iReplaced original i (some gRev)) i with
        | error e => exact .err e
        | ok prRev =>
          have hpr2 : ∀ r, prRev = some r → AllIn D r := fun r e => by subst e; exact pruneRuleOn_in h2 hin2 hp2
          simp only [Except.map, ok_bind]
          refine bind_same ?_ fun repDl => ?_
          · rw [iReplaced_recode, hd]
            cases prRep with
            | none => rfl
            | some r => simp only [Option.map_some, condsEq_recode h (hpr1 r rfl) hr]
          refine bind_same ?_ fun revDl => ?_
          · rw [iReplaced_recode, hd]
            cases prRev with
            | none => rfl
            | some r => simp only [Option.map_some, condsEq_recode h (hpr2 r rfl) hr]
          refine bind_same rfl fun best => ?_
          rcases best with _ | _ | n
          · exact .ok ⟨rfl, hr⟩
          · cases prRep with
            | none => exact .err _
            | some r => exact .ok ⟨rfl, hpr1 r rfl⟩
          · cases prRev with
            | none => exact .err _
            | some r => exact .ok ⟨rfl, hpr2 r rfl⟩

theorem growRuleCn_same {fuel : Nat} {cn : CatNap} (lim : Limits) (pos neg : List Label) (hcn : ∀ c ∈ cn.conds, D c) (r : List Cond)
    (hr : AllIn D r) : OutRel (RecodedRule φ D) (growRuleCn fuel cn lim pos neg r)
      (growRuleCn fuel (cn.recode φ) lim pos neg (φ.conds r)) := by
  rw [growRuleCn_recode]
  cases hg : growRuleCn fuel cn lim pos neg r with
  | error e => exact .err e
  | ok s => exact .ok ⟨rfl, growRuleCn_in hcn hr hg⟩

theorem optimizeChoice_recode (h : φ.PrintsAlike D) (fuel : Nat) (cn : CatNap) (hcn : ∀ c ∈ cn.conds, D c) (hp : Hyper)
    (original : List (List Cond)) (originalDl : Rat) (i : Nat) (rule : List Cond) (allPos allNeg a b c d : List Label)
    (ho : ∀ r ∈ original, AllIn D r) (hr : AllIn D rule) :
    OutRel (RecodedRule φ D) (optimizeChoice fuel cn hp original originalDl i rule allPos allNeg a b c d)
      (optimizeChoice fuel (cn.recode φ) hp (original.map φ.conds) originalDl i (φ.conds rule) allPos allNeg a b c d) :=
  choiceOf_recode h
    (grow := growRuleCn fuel cn { minRuleSamples := hp.lim.minRuleSamples } a c)
    (grow' := growRuleCn fuel (cn.recode φ) { minRuleSamples := hp.lim.minRuleSamples } a c)
    (metric := ripperOptMetricCn cn b d) (metric' := ripperOptMetricCn (cn.recode φ) b d)
    (dl := fun rs => totalBitsCn cn rs allPos allNeg) (dl' := fun rs => totalBitsCn (cn.recode φ) rs allPos allNeg)
    (growRuleCn_same _ a c hcn) (ripperOptMetricCn_recode cn b d) (fun rs => totalBitsCn_recode cn rs allPos allNeg)
    original originalDl i rule ho hr

/-! ### stage 2 -/

/-- The same rules in the new names, with the same generator. -/
def RecodedRules {β : Type} (φ : Recoding) (D : Cond → Prop) (x x' : List (List Cond) × β) : Prop :=
  x' = recodeFst φ x ∧ ∀ r ∈ x.1, AllIn D r

omit [Arith] in
theorem condsIn_recode (h : φ.PrintsAlike D) {r : List Cond} {rs : List (List Cond)} (hr : AllIn D r) (hrs : ∀ s ∈ rs, AllIn D s) :
    condsIn (φ.conds r) (rs.map φ.conds) = condsIn r rs := by
  unfold condsIn
  rw [List.any_map, Bool.eq_iff_iff, List.any_eq_true, List.any_eq_true]
  refine exists_congr fun s => and_congr_right fun hs => ?_
  simp only [Function.comp]
  rw [condsEq_recode h (hrs s hs) hr]

omit [Arith] in
theorem condsRulesetEq_recode (h : φ.PrintsAlike D) {a b : List (List Cond)} (ha : ∀ s ∈ a, AllIn D s) (hb : ∀ s ∈ b, AllIn D s) :
    condsRulesetEq (a.map φ.conds) (b.map φ.conds) = condsRulesetEq a b := by
  have key : ∀ {a b : List (List Cond)}, (∀ s ∈ a, AllIn D s) → (∀ s ∈ b, AllIn D s) →
      (a.map φ.conds).all (fun r => (b.map φ.conds).any (fun s => condsEq r s)) = a.all (fun r => b.any (fun s => condsEq r s)) := by
    intro a b ha hb
    rw [List.all_map, Bool.eq_iff_iff, List.all_eq_true, List.all_eq_true]
    refine forall_congr' fun r => forall_congr' fun hr => ?_
    simp only [Function.comp]
    rw [List.any_map, List.any_eq_true, List.any_eq_true]
    refine exists_congr fun s => and_congr_right fun hs => ?_
    simp only [Function.comp]
    rw [condsEq_recode h (ha r hr) (hb s hs)]
  unfold condsRulesetEq
  rw [key ha hb, key hb ha]

omit [Arith] in
theorem set_in {l : List (List Cond)} {i : Nat} {r : List Cond} (hl : ∀ s ∈ l, AllIn D s) (hr : AllIn D r) : ∀ s ∈ l.set i r, AllIn D s := by
  intro s hs
  rcases List.mem_or_eq_of_mem_set hs with h | rfl
  · exact hl s h
  · exact hr

theorem optimizeLoop_recode (h : φ.PrintsAlike D) (fuel : Nat) (R : PyRandom) (cn : CatNap) (hcn : ∀ c ∈ cn.conds, D c) (hp : Hyper)
    (ps : Rat) (rs : Option Int) (original : List (List Cond)) (ho : ∀ r ∈ original, AllIn D r) (originalDl : Rat)
    (allPos allNeg : List Label) (rest : List (List Cond)) :
    ∀ (i : Nat) (new : List (List Cond)) (pos neg : List Label) (g : R.G), (∀ r ∈ rest, AllIn D r) → (∀ r ∈ new, AllIn D r) →
    OutRel (RecodedRules φ D) (optimizeLoop fuel R cn hp ps rs original originalDl allPos allNeg i rest new pos neg g)
      (optimizeLoop fuel R (cn.recode φ) hp ps rs (original.map φ.conds) originalDl allPos allNeg i (rest.map φ.conds)
        (new.map φ.conds) pos neg g) := by
  induction rest with
  | nil => intro i new pos neg g _ hn; exact .ok ⟨rfl, hn⟩
  | cons rule rest ih =>
    intro i new pos neg g hrest hn
    have hrule := hrest rule List.mem_cons_self
    rw [List.map_cons]
    unfold optimizeLoop
    rcases randomSplit R g pos (Arith.complement ps) rs with ⟨a, b, g1⟩
    simp only [stopEarly_recode, rmRuleCoversCn_recode]
    generalize randomSplit R g1 neg (Arith.complement ps) rs = q2
    obtain ⟨c, d, g2⟩ := q2
    split
    · exact .ok ⟨rfl, hn⟩
    split
    · exact .ok ⟨rfl, hn⟩
    have hc := optimizeChoice_recode h fuel cn hcn hp original originalDl i rule allPos allNeg a b c d ho hrule
    revert hc
    generalize optimizeChoice fuel cn hp original originalDl i rule allPos allNeg a b c d = o
    generalize optimizeChoice fuel (cn.recode φ) hp (original.map φ.conds) originalDl i (φ.conds rule) allPos allNeg a b c d = o'
    intro hc
    cases hc with
    | err e => exact .err e
    | @ok best best' hc =>
      obtain ⟨rfl, hbest⟩ := hc
      simp only [ok_bind]
      have hset : (new.map φ.conds).set i (if (!condsIn (φ.conds best) (new.map φ.conds)) = true then φ.conds best else φ.conds rule) =
          (new.set i (if (!condsIn best new) = true then best else rule)).map φ.conds := by
        rw [condsIn_recode h hbest hn, List.map_set]
        congr 1
        split <;> rfl
      have hin : ∀ s ∈ new.set i (if (!condsIn best new) = true then best else rule), AllIn D s := by
        refine set_in hn ?_
        split
        · exact hbest
        · exact hrule
      rw [hset]
      split
      · exact .ok ⟨rfl, hin⟩
      · exact ih _ _ _ _ _ (fun r hr => hrest r (List.mem_cons_of_mem _ hr)) hin

theorem optimizeCn_recode (h : φ.PrintsAlike D) (fuel : Nat) (R : PyRandom) (cn : CatNap) (hcn : ∀ c ∈ cn.conds, D c) (hp : Hyper)
    (rs : Option Int) (rules : List (List Cond)) (hr : ∀ r ∈ rules, AllIn D r) (pos neg : List Label) (g : R.G) :
    OutRel (RecodedRules φ D) (optimizeCn fuel R cn hp rs rules pos neg g)
      (optimizeCn fuel R (cn.recode φ) hp rs (rules.map φ.conds) pos neg g) := by
  unfold optimizeCn
  rw [bestSubsetCn_recode]
  cases bestSubsetCn cn rules pos neg with
  | error e => exact .err e
  | ok x =>
    simp only [Except.map, ok_bind]
    cases hp.pruneSize with
    | none =>
      simp only [List.map_eq_nil_iff]
      split
      · exact .ok ⟨rfl, hr⟩
      · exact .err _
    | some ps => exact optimizeLoop_recode h fuel R cn hcn hp ps rs rules hr x.2 pos neg rules 0 rules pos neg g hr hr

theorem stage2_recode (h : φ.PrintsAlike D) (fuel : Nat) (R : PyRandom) (cn : CatNap) (hcn : ∀ c ∈ cn.conds, D c) (hp : Hyper)
    (pos neg : List Label) (n : Nat) : ∀ (rules : List (List Cond)) (g : R.G), (∀ r ∈ rules, AllIn D r) →
    OutRel (RecodedRules φ D) (stage2 fuel R cn hp pos neg n rules g) (stage2 fuel R (cn.recode φ) hp pos neg n (rules.map φ.conds) g) := by
  induction n with
  | zero => intro rules g hr; exact .ok ⟨rfl, hr⟩
  | succ n ih =>
    intro rules g hr
    unfold stage2
    have ho := optimizeCn_recode h fuel R cn hcn hp (hp.randomState.map (· + 100)) rules hr pos neg g
    revert ho
    generalize optimizeCn fuel R cn hp (hp.randomState.map (· + 100)) rules pos neg g = o
    generalize optimizeCn fuel R (cn.recode φ) hp (hp.randomState.map (· + 100)) (rules.map φ.conds) pos neg g = o'
    intro ho
    cases ho with
    | err e => exact .err e
    | @ok x x' ho =>
      obtain ⟨rfl, hx⟩ := ho
      obtain ⟨new, g'⟩ := x
      simp only [ok_bind, recodeFst]
      rw [condsRulesetEq_recode h hr hx]
      split
      · exact .ok ⟨rfl, hr⟩
      · exact ih new g' hx

theorem coverRemainingCn_recode (fuel : Nat) (R : PyRandom) (cn : CatNap) (hcn : ∀ c ∈ cn.conds, D c) (hp : Hyper)
    (rules : List (List Cond)) (hr : ∀ r ∈ rules, AllIn D r) (pos neg : List Label) (g : R.G) :
    OutRel (RecodedRules φ D) (coverRemainingCn fuel R cn hp rules pos neg g)
      (coverRemainingCn fuel R (cn.recode φ) hp (rules.map φ.conds) pos neg g) := by
  unfold coverRemainingCn
  rw [ripperGrowCn_recode]
  split
  · cases hg : ripperGrowCn fuel R cn hp rules pos neg g with
    | error e => exact .err e
    | ok st => exact .ok ⟨rfl, ripperGrowCn_in hcn hr hg⟩
  · exact .ok ⟨rfl, hr⟩

theorem ripperStages_recode (h : φ.PrintsAlike D) (fuel : Nat) (R : PyRandom) (cn : CatNap) (hcn : ∀ c ∈ cn.conds, D c) (hp : Hyper)
    (init : List (List Cond)) (hi : ∀ r ∈ init, AllIn D r) (pos neg : List Label) (g : R.G) :
    OutRel (RecodedRules φ D) (ripperStages fuel R cn hp init pos neg g)
      (ripperStages fuel R (cn.recode φ) hp (init.map φ.conds) pos neg g) := by
  unfold ripperStages
  rw [ripperGrowCn_recode]
  cases hg : ripperGrowCn fuel R cn hp init pos neg g with
  | error e => exact .err e
  | ok st =>
    simp only [Except.map, ok_bind]
    have h2 := stage2_recode h fuel R cn hcn hp pos neg hp.k.toNat st.rules st.g (ripperGrowCn_in hcn hi hg)
    have e1 : (RipSt.recode φ st).rules = st.rules.map φ.conds := rfl
    have e2 : (RipSt.recode φ st).g = st.g := rfl
    rw [e1, e2]
    revert h2
    generalize stage2 fuel R cn hp pos neg hp.k.toNat st.rules st.g = o
    generalize stage2 fuel R (cn.recode φ) hp pos neg hp.k.toNat (st.rules.map φ.conds) st.g = o'
    intro h2
    cases h2 with
    | err e => exact .err e
    | @ok x x' h2 =>
      obtain ⟨rfl, hx⟩ := h2
      obtain ⟨r2, g2⟩ := x
      simp only [ok_bind, recodeFst]
      have h3 := coverRemainingCn_recode (φ := φ) fuel R cn hcn hp r2 hx pos neg g2
      revert h3
      generalize coverRemainingCn fuel R cn hp r2 pos neg g2 = o
      generalize coverRemainingCn fuel R (cn.recode φ) hp (r2.map φ.conds) pos neg g2 = o'
      intro h3
      cases h3 with
      | err e => exact .err e
      | @ok x x' h3 =>
        obtain ⟨rfl, hx⟩ := h3
        obtain ⟨r3, g3⟩ := x
        simp only [ok_bind, recodeFst, bestSubsetCn_recode]
        cases hb : bestSubsetCn cn r3 pos neg with
        | error e => exact .err e
        | ok y => exact .ok ⟨rfl, fun r hr => hx r (bestSubsetCn_sub hb r hr)⟩

omit [Arith] in
/-- The last lines of RIPPER's `fit`, in the new names. -/
theorem ripperTail_recode {G : Type} (h : φ.PrintsAlike D) (hp : Hyper) (df : Frame) (cf : Feat) (pc : Val)
    {o o' : Except PyErr (List (List Cond) × G)} (ho : OutRel (RecodedRules φ D) o o') :
    (do
      let (rules, g) ← o'
      let rs : Ruleset := { rules := rules.map (fun c => { conds := c }) }
      let sel := rs.selectedFeatures
      let rs : Ruleset := { rs with rules := removeDups Rule.sameKey rs.rules }
      let rs := rs.trimConds hp.lim.maxTotalConds
      let rs ← (match recalibrate rs (df.recode φ) (φ.feat cf) (φ.val cf pc) hp.alpha with | (rs, e) => raiseIf rs e)
      return (({ ruleset := rs, selected := sel, trainFeats := ((df.recode φ).dropCol (φ.feat cf)).cols } : Fitted), g)) =
    (do
      let (rules, g) ← o
      let rs : Ruleset := { rules := rules.map (fun c => { conds := c }) }
      let sel := rs.selectedFeatures
      let rs : Ruleset := { rs with rules := removeDups Rule.sameKey rs.rules }
      let rs := rs.trimConds hp.lim.maxTotalConds
      let rs ← (match recalibrate rs df cf pc hp.alpha with | (rs, e) => raiseIf rs e)
      return (({ ruleset := rs, selected := sel, trainFeats := (df.dropCol cf).cols } : Fitted), g) : Except PyErr (Fitted × G)).map
        (fun m : Fitted × G => (m.1.recode φ, m.2)) := by
  cases ho with
  | err e => rfl
  | @ok x x' ho =>
    obtain ⟨rfl, hx⟩ := ho
    obtain ⟨rules, g⟩ := x
    simp only [ok_bind, recodeFst]
    have hrs : ({ rules := (rules.map φ.conds).map (fun c => { conds := c }) } : Ruleset) =
        ({ rules := rules.map (fun c => { conds := c }) } : Ruleset).recode φ := by
      simp only [Ruleset.recode, List.map_map, Option.map]
      rfl
    have hin : ∀ r ∈ ({ rules := rules.map (fun c => { conds := c }) } : Ruleset).rules, AllIn D r.conds := by
      intro r hr
      obtain ⟨c, hc, rfl⟩ := List.mem_map.mp hr
      exact hx c hc
    have ht := tidy_recode h ({ rules := rules.map (fun c => { conds := c }) } : Ruleset) hin hp.lim.maxTotalConds
    rw [← hrs] at ht
    have hs := selectedFeatures_recode (φ := φ) ({ rules := rules.map (fun c => { conds := c }) } : Ruleset)
    rw [← hrs] at hs
    rw [hs]
    rw [ht, recalibrate_recode, dropCol_recode]
    generalize recalibrate _ df cf pc hp.alpha = q
    rcases q with ⟨rs, o⟩
    cases o with
    | some e => rfl
    | none => rfl

theorem ripperFit_recode (fuel : Nat) (R : PyRandom) (hp : Hyper) (init : List (List Cond)) (df : Frame) (cf : Feat) (pc : Val)
    (g : R.G) (h : φ.PrintsAlike D) (hD : ∀ c, TrainCond df cf c → D c) (hi : ∀ r ∈ init, AllIn D r) :
    ripperFit fuel R hp (init.map φ.conds) (df.recode φ) (φ.feat cf) (φ.val cf pc) g =
      (ripperFit fuel R hp init df cf pc g).map (fun m => (m.1.recode φ, m.2)) := by
  unfold ripperFit
  have hc : φ.feat cf ∉ (df.recode φ).cols ↔ cf ∉ df.cols := not_congr (feat_mem _ _)
  simp only [rows_nil_recode, hc, posRows_recode, negRows_recode, index_recode, build_recode]
  split
  · rfl
  split
  · rfl
  cases hb : CatNap.build df cf with
  | error e => rfl
  | ok cn =>
    simp only [Except.map, ok_bind]
    exact ripperTail_recode h hp df cf pc (ripperStages_recode h fuel R cn (build_in hb hD) hp init hi _ _ g)

end Witt
