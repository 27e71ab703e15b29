import Verif.Verbose
import Verif.Lemmas.Random
import Verif.Lemmas.Catnap
import Verif.Lemmas.RipperFit
import Verif.Props.Ripper
/-
C97: `verbosity` changes nothing but what is printed.
-/
namespace Witt
open Spec

/-! ### erasing the print calls -/

/-- The talking program does what the quiet one does: it prints only lines that its verbosity `v` shows; whatever it returns, the
quiet one returns; and in the circumstances `C` it raises only what the quiet one raises. -/
def Speaks {α : Type} (v : Nat) (C : Prop) (m : Talk α) (a : Except PyErr α) : Prop :=
  ∀ w, ∃ ws, (∀ l ∈ ws, 1 ≤ l.level ∧ l.level ≤ v) ∧
    match m w with
    | .ok x w' => w' = w ++ ws ∧ a = .ok x
    | .error e w' => w' = w ++ ws ∧ (C → a = .error e)

theorem talk_bind_run {α β : Type} (m : Talk α) (f : α → Talk β) (w : List Line) :
    (m >>= f) w = match m w with
      | .ok a w' => f a w'
      | .error e w' => .error e w' := by
  show EStateM.bind m f w = _
  unfold EStateM.bind
  cases m w <;> rfl

theorem speaks_silently {α : Type} {v : Nat} {C : Prop} (x : Except PyErr α) : Speaks v C (silently x) x := by
  intro w
  refine ⟨[], by simp, ?_⟩
  cases x with
  | ok a => simp [silently]
  | error e => simp [silently]

theorem speaks_pure {α : Type} {v : Nat} {C : Prop} (a : α) : Speaks v C (pure a) (.ok a) := by
  intro w
  refine ⟨[], by simp, ?_⟩
  show (w = w ++ [] ∧ _)
  simp

theorem speaks_bind {α β : Type} {v : Nat} {C : Prop} {m : Talk α} {a : Except PyErr α} {f : α → Talk β}
    {k : α → Except PyErr β} (h : Speaks v C m a) (hf : ∀ x, a = .ok x → Speaks v C (f x) (k x)) :
    Speaks v C (m >>= f) (a >>= k) := by
  intro w
  obtain ⟨ws, hl, h1⟩ := h w
  rw [talk_bind_run]
  cases hm : m w with
  | error e w' =>
    rw [hm] at h1
    exact ⟨ws, hl, h1.1, fun hc => by rw [h1.2 hc]; rfl⟩
  | ok x w' =>
    rw [hm] at h1
    obtain ⟨ws', hl', h2⟩ := hf x h1.2 w'
    refine ⟨ws ++ ws', ?_, ?_⟩
    · intro l hm'
      rcases List.mem_append.mp hm' with h | h
      · exact hl l h
      · exact hl' l h
    dsimp only
    rw [h1.2, h1.1] at *
    show match f x (w ++ ws) with
      | .ok y w' => w' = w ++ (ws ++ ws') ∧ k x = .ok y
      | .error e w' => w' = w ++ (ws ++ ws') ∧ (C → k x = .error e)
    rw [← List.append_assoc]
    exact h2

theorem speaks_bind_pure {α : Type} {v : Nat} {C : Prop} {m : Talk α} {a : Except PyErr α} {f : α → Talk α}
    (h : Speaks v C m a) (hf : ∀ x, Speaks v C (f x) (.ok x)) : Speaks v C (m >>= f) a := by
  have := speaks_bind (k := pure) h fun x _ => hf x
  rwa [bind_pure] at this

theorem speaks_bind_ok {α β : Type} {v : Nat} {C : Prop} {m : Talk α} {x : α} {f : α → Talk β} {b : Except PyErr β}
    (h : Speaks v C m (.ok x)) (hf : Speaks v C (f x) b) : Speaks v C (m >>= f) b :=
  speaks_bind (k := fun _ => b) h fun y hy => by
    cases hy
    exact hf

theorem speaks_say {v : Nat} {C : Prop} {level : Nat} (hl : 1 ≤ level) (what : List Said) :
    Speaks v C (say v level what) (.ok ()) := by
  intro w
  refine ⟨if level ≤ v then what.map (fun s => { level := level, said := s }) else [], ?_, rfl, rfl⟩
  intro l h
  split at h
  · obtain ⟨s, -, rfl⟩ := List.mem_map.mp h
    exact ⟨hl, by assumption⟩
  · cases h

/-- A `print` in front of the rest. -/
theorem speaks_say_bind {β : Type} {v : Nat} {C : Prop} {level : Nat} (hl : 1 ≤ level) (what : List Said) {f : Unit → Talk β}
    {a : Except PyErr β} (h : Speaks v C (f ()) a) : Speaks v C (say v level what >>= f) a :=
  speaks_bind (k := fun _ => a) (speaks_say hl what) fun _ _ => h

theorem speaks_sayRnd {v : Nat} {C : Prop} {level : Nat} (hl : 1 ≤ level) {x : Except PyErr Rat}
    (hx : C → level ≤ v → ∃ y, x = .ok y) (what : List Said) : Speaks v C (sayRnd v level x what) (.ok ()) := by
  unfold sayRnd
  split
  case isFalse => exact speaks_pure ()
  case isTrue hv =>
    intro w
    cases hxe : x with
    | ok y =>
      obtain ⟨ws, h1, h2⟩ := speaks_say (v := v) (C := C) hl (.value y :: what) w
      exact ⟨ws, h1, h2⟩
    | error e =>
      refine ⟨[], by simp, ?_⟩
      show (w = w ++ [] ∧ (C → _))
      refine ⟨by simp, fun hc => ?_⟩
      obtain ⟨y, hy⟩ := hx hc hv
      rw [hxe] at hy
      cases hy

theorem speaks_sayRnd_bind {β : Type} {v : Nat} {C : Prop} {level : Nat} (hl : 1 ≤ level) {x : Except PyErr Rat}
    (hx : C → level ≤ v → ∃ y, x = .ok y) (what : List Said) {f : Unit → Talk β} {a : Except PyErr β} (h : Speaks v C (f ()) a) :
    Speaks v C (sayRnd v level x what >>= f) a :=
  speaks_bind (k := fun _ => a) (speaks_sayRnd hl hx what) fun _ _ => h

theorem speaks_while {S A : Type} {v : Nat} {C : Prop} {body : S → Talk (Step S A)} {quiet : S → Except PyErr (Step S A)}
    (h : ∀ s, Speaks v C (body s) (quiet s)) : ∀ (fuel : Nat) (s : S), Speaks v C (talkWhile body fuel s) (pyWhile quiet fuel s) := by
  intro fuel
  induction fuel with
  | zero => exact fun s => speaks_silently _
  | succ fuel ih =>
    intro s
    unfold talkWhile pyWhile
    refine speaks_bind (h s) fun o _ => ?_
    cases o with
    | more s' => exact ih s'
    | done a => exact speaks_pure a

theorem speaks_weaken {α : Type} {v : Nat} {C D : Prop} {m : Talk α} {a : Except PyErr α} (hcd : D → C) (h : Speaks v C m a) :
    Speaks v D m a := by
  intro w
  obtain ⟨ws, hl, h1⟩ := h w
  refine ⟨ws, hl, ?_⟩
  cases hm : m w with
  | ok x w' => rw [hm] at h1; exact h1
  | error e w' => rw [hm] at h1; exact ⟨h1.1, fun hd => h1.2 (hcd hd)⟩

/-! ### one rule -/
variable [Arith]

/-- The circumstances in which growing a rule raises nothing of its own: verbosity below 5, or candidate conditions to choose from. -/
def Growable (v : Nat) (cn : CatNap) : Prop := v < 5 ∨ ∃ c, c ∈ cn.conds

omit [Arith] in
theorem bestLoop_found {α : Type} (score : α → Rat) (hs : ∀ c, 0 < score c) : ∀ (cs : List α) (b : Option α × Rat),
    (0 < b.2 ∨ (b.2 = 0 ∧ cs ≠ [])) → 0 < (bestLoop score b cs).2 := by
  intro cs
  induction cs with
  | nil =>
    intro b h
    rcases h with h | ⟨-, h⟩
    · exact h
    · exact absurd rfl h
  | cons c cs ih =>
    intro b h
    unfold bestLoop
    refine ih _ (Or.inl ?_)
    split
    · exact hs c
    · rename_i hn
      exact lt_of_lt_of_le (hs c) (not_lt.mp hn)

theorem bestRuleSuccessor_speaks [Arith.Lawful] {v : Nat} {cn : CatNap} (rule : List Cond) (pos neg : List Label) :
    Speaks v (Growable v cn) (bestRuleSuccessorTalk v cn rule pos neg) (.ok (bestRuleSuccessorCn cn rule pos neg)) := by
  unfold bestRuleSuccessorTalk bestRuleSuccessorCn
  dsimp only
  refine speaks_sayRnd_bind (by decide) ?_ _ ?_
  · intro hc hv
    rcases hc with hc | ⟨c, hc⟩
    · omega
    · have := bestLoop_found (fun c => gainCn cn c (cn.ruleCovers rule (some pos)) (cn.ruleCovers rule (some neg)))
        (fun c => Arith.Lawful.gain_pos _ _ _ _) cn.conds (none, 0) (Or.inr ⟨rfl, List.ne_nil_of_mem hc⟩)
      exact ⟨_, by unfold rndGain; rw [if_neg (not_le.mpr this)]⟩
  · generalize bestLoop _ _ _ = b
    obtain ⟨o, g⟩ := b
    cases o with
    | none => exact speaks_pure _
    | some c => exact speaks_pure _

theorem growStep_speaks [Arith.Lawful] {v : Nat} {cn : CatNap} (lim : Limits) (pos neg : List Label) (rule : List Cond) :
    Speaks v (Growable v cn) (growStepTalk v cn lim pos neg rule) (growStepCn cn lim pos neg rule) := by
  unfold growStepTalk growStepCn
  dsimp only
  split
  · exact speaks_pure _
  split
  · exact speaks_pure _
  refine speaks_bind_ok (bestRuleSuccessor_speaks rule pos neg) ?_
  cases bestRuleSuccessorCn cn rule pos neg with
  | none => exact speaks_pure _
  | some r => exact speaks_say_bind (by decide) _ (speaks_pure _)

theorem growRule_speaks [Arith.Lawful] {v : Nat} {cn : CatNap} (fuel : Nat) (lim : Limits) (pos neg : List Label)
    (initial : List Cond) :
    Speaks v (Growable v cn) (growRuleTalk v fuel cn lim pos neg initial) (growRuleCn fuel cn lim pos neg initial) := by
  unfold growRuleTalk growRuleCn
  refine speaks_say_bind (by decide) _ ?_
  rw [← bind_pure (pyWhile (growStepCn cn lim pos neg) fuel initial)]
  refine speaks_bind (speaks_while (growStep_speaks lim pos neg) fuel initial) fun r _ => ?_
  split
  · exact speaks_say_bind (by decide) _ (speaks_say_bind (by decide) _ (speaks_pure _))
  · exact speaks_pure _

omit [Arith] in
theorem pruneLoop_speaks {v : Nat} {C : Prop} {metric : List Cond → Except PyErr (Option Rat)}
    (hm : C → v < 5 ∨ ∀ r, metric r ≠ .ok none) (rule : List Cond) : ∀ (n : Nat) (best : List Cond × Rat),
    Speaks v C (pruneLoopTalk v metric rule n best) (pruneLoop metric rule n best) := by
  intro n
  induction n with
  | zero => exact fun best => speaks_pure _
  | succ n ih =>
    intro best
    unfold pruneLoopTalk pruneLoop
    refine speaks_bind (speaks_silently _) fun x hx => ?_
    refine speaks_sayRnd_bind (by decide) ?_ _ ?_
    · intro hc hv
      rcases hm hc with h | h
      · omega
      · cases x with
        | none => exact absurd hx (h _)
        | some y => exact ⟨y, rfl⟩
    · cases x with
      | none => exact speaks_pure _
      | some y => exact ih _

omit [Arith] in
theorem pruneRule_speaks {v : Nat} {C : Prop} {metric : List Cond → Except PyErr (Option Rat)}
    (hm : C → v < 5 ∨ ∀ r, metric r ≠ .ok none) (rule : List Cond) :
    Speaks v C (pruneRuleTalk v metric rule) (pruneRule metric rule) := by
  unfold pruneRuleTalk pruneRule
  split
  · exact speaks_pure _
  · rw [← bind_pure (pruneLoop metric rule rule.length (rule, 0))]
    refine speaks_bind (pruneLoop_speaks hm rule _ _) fun o _ => ?_
    cases o with
    | none => exact speaks_pure _
    | some r => exact speaks_say_bind (by decide) _ (speaks_pure _)

omit [Arith] in
theorem pruneLoopRs_speaks {v : Nat} {C : Prop} {metric : List Cond → Except PyErr (Option Rat)}
    (hm : C → v < 5 ∨ ∀ r, metric r ≠ .ok none) (rule : List Cond) : ∀ (n : Nat) (best : Option (List Cond) × Rat),
    Speaks v C (pruneLoopRsTalk v metric rule n best) (pruneLoopRs metric rule n best) := by
  intro n
  induction n with
  | zero =>
    intro best
    obtain ⟨o, q⟩ := best
    cases o with
    | none => exact speaks_silently (.error .unboundLocal)
    | some b => exact speaks_pure _
  | succ n ih =>
    intro best
    unfold pruneLoopRsTalk pruneLoopRs
    refine speaks_bind (speaks_silently _) fun x hx => ?_
    refine speaks_sayRnd_bind (by decide) ?_ _ ?_
    · intro hc hv
      rcases hm hc with h | h
      · omega
      · cases x with
        | none => exact absurd hx (h _)
        | some y => exact ⟨y, rfl⟩
    · cases x with
      | none => exact speaks_pure _
      | some y => exact ih _

omit [Arith] in
theorem pruneRuleOn_speaks {v : Nat} {C : Prop} {metric : List Cond → Except PyErr (Option Rat)}
    (hm : C → v < 5 ∨ ∀ r, metric r ≠ .ok none) (rule : List Cond) (rules : List (List Cond)) (i : Nat) :
    Speaks v C (pruneRuleOnTalk v metric rule rules i) (pruneRuleOn metric rule rules i) := by
  unfold pruneRuleOnTalk pruneRuleOn
  split
  · exact speaks_pure _
  · cases rules[i]? with
    | none => exact speaks_silently _
    | some r =>
      dsimp only
      split
      · exact speaks_silently _
      · exact pruneLoopRs_speaks hm r _ _

/-! ### IREP -/

theorem irepStep_speaks [Arith.Lawful] {v : Nat} {cn : CatNap} (fuel : Nat) (R : PyRandom) (hp : Hyper) (st : GrowSt R) :
    Speaks v (Growable v cn) (irepStepTalk v fuel R cn hp st) (irepStepCn fuel R cn hp st) := by
  unfold irepStepTalk irepStepCn
  split
  · exact speaks_pure _
  split
  · exact speaks_pure _
  dsimp only
  generalize randomSplit R st.g st.pos (Arith.complement hp.irepPrune) hp.randomState = q1
  obtain ⟨posGrow, posPrune, g1⟩ := q1
  generalize randomSplit R g1 st.neg (Arith.complement hp.irepPrune) hp.randomState = q2
  obtain ⟨negGrow, negPrune, g2⟩ := q2
  dsimp only
  refine speaks_say_bind (by decide) _ ?_
  refine speaks_bind (growRule_speaks fuel hp.lim posGrow negGrow []) fun grown _ => ?_
  split
  · exact speaks_say_bind (by decide) _ (speaks_say_bind (by decide) _ (speaks_pure _))
  · refine speaks_bind (pruneRule_speaks (fun _ => Or.inr fun r => ?_) grown) fun o _ => ?_
    · unfold irepMetricCn
      dsimp only
      split <;> simp
    cases o with
    | none => exact speaks_silently _
    | some pruned =>
      dsimp only
      cases rulePrecisionCn cn pruned posPrune negPrune with
      | none => exact speaks_pure _
      | some q =>
        dsimp only
        split
        · exact speaks_pure _
        · exact speaks_say_bind (by decide) _ (speaks_say_bind (by decide) _ (speaks_pure _))

theorem irepGrow_speaks [Arith.Lawful] {v : Nat} {cn : CatNap} (fuel : Nat) (R : PyRandom) (hp : Hyper)
    (init : List (List Cond)) (pos neg : List Label) (g : R.G) :
    Speaks v (Growable v cn) (irepGrowTalk v fuel R cn hp init pos neg g) (irepGrowCn fuel R cn hp init pos neg g) :=
  speaks_say_bind (by decide) _ (speaks_while (irepStep_speaks fuel R hp) fuel _)

/-- The circumstances in which a talking run is sure to end like a quiet one: verbosity below 5, or a column to learn from. -/
def HasColumn (v : Nat) (df : Frame) (cf : Feat) : Prop := v < 5 ∨ ∃ f ∈ df.cols, f ≠ cf

omit [Arith] in
theorem growable_of_column {v : Nat} {df : Frame} {cf : Feat} {cn : CatNap} (hr : df.rows ≠ [])
    (hb : CatNap.build df cf = .ok cn) (h : HasColumn v df cf) : Growable v cn := by
  rcases h with h | ⟨f, hf, hne⟩
  · exact Or.inl h
  · obtain ⟨row, hrow⟩ := List.exists_mem_of_ne_nil _ hr
    obtain ⟨w, hw, -⟩ := unique_rep (df := df.dropCol cf) (f := f) hrow
    refine Or.inr ⟨⟨f, w⟩, ?_⟩
    rw [CatNap.build_conds hb]
    exact mem_possibleConds.mpr ⟨Frame.mem_dropCol.mpr ⟨hf, hne⟩, hw⟩

theorem irepFit_speaks [Arith.Lawful] (v fuel : Nat) (R : PyRandom) (hp : Hyper) (init : List (List Cond)) (df : Frame)
    (cf : Feat) (pc : Val) (g : R.G) :
    Speaks v (HasColumn v df cf) (irepFitTalk v fuel R hp init df cf pc g) (irepFit fuel R hp init df cf pc g) := by
  unfold irepFitTalk irepFit
  refine speaks_say_bind (by decide) _ ?_
  split
  · exact speaks_silently _
  rename_i hr
  split
  · exact speaks_silently _
  rename_i hcf
  refine speaks_bind (speaks_silently _) fun cn hb => ?_
  refine speaks_say_bind (by decide) _ ?_
  refine speaks_bind (speaks_weaken (growable_of_column hr hb)
    (irepGrow_speaks fuel R hp init _ _ g)) fun st _ => ?_
  refine speaks_say_bind (by decide) _ ?_
  exact speaks_bind (speaks_silently _) fun rs _ => speaks_pure _

/-! ### RIPPER -/

/-- The circumstances in which RIPPER raises nothing of its own when talking: verbosity below 5, or candidate conditions, and prune
sets that are not empty. -/
def Trainable (v : Nat) (R : PyRandom) (cn : CatNap) (hp : Hyper) : Prop :=
  v < 5 ∨ ((∃ c, c ∈ cn.conds) ∧ R.Lawful ∧ ∀ ps, hp.pruneSize = some ps → Arith.LeavesSome ps)

theorem growable_of_trainable {v : Nat} {R : PyRandom} {cn : CatNap} {hp : Hyper} (h : Trainable v R cn hp) : Growable v cn :=
  h.elim Or.inl fun h => Or.inr h.1

theorem ruleTheory_speaks {v : Nat} {C : Prop} (n : Nat) (r : List Cond) :
    Speaks v C (ruleTheoryTalk v n r) (ruleTheory n r.length) := by
  unfold ruleTheoryTalk
  exact speaks_bind_pure (speaks_silently _) fun x => speaks_say_bind (by decide) _ (speaks_pure _)

theorem exceptions_speaks {v : Nat} {C : Prop} (cn : CatNap) (rules : List (List Cond)) (pos neg : List Label) :
    Speaks v C (exceptionsTalk v cn rules pos neg) (exceptionsCn cn rules pos neg) := by
  unfold exceptionsTalk
  exact speaks_bind_pure (speaks_silently _) fun x => speaks_say_bind (by decide) _ (speaks_pure _)

theorem subsetDls_speaks {v : Nat} {C : Prop} (cn : CatNap) (pos neg : List Label) : ∀ (rules : List (List Cond)) (theory : Rat)
    (done : List (List Cond)), Speaks v C (subsetDlsTalk v cn pos neg theory done rules) (subsetDls cn pos neg theory done rules) := by
  intro rules
  induction rules with
  | nil => exact fun _ _ => speaks_pure _
  | cons r rs ih =>
    intro theory done
    unfold subsetDlsTalk subsetDls
    refine speaks_bind (ruleTheory_speaks _ r) fun t _ => ?_
    refine speaks_bind (exceptions_speaks cn _ pos neg) fun e _ => ?_
    refine speaks_say_bind (by decide) _ ?_
    exact speaks_bind (ih _ _) fun l _ => speaks_pure _

theorem bestSubset_speaks {v : Nat} {C : Prop} (cn : CatNap) (rules : List (List Cond)) (pos neg : List Label) :
    Speaks v C (bestSubsetTalk v cn rules pos neg) (bestSubsetCn cn rules pos neg) := by
  unfold bestSubsetTalk bestSubsetCn
  refine speaks_say_bind (by decide) _ ?_
  refine speaks_bind (subsetDls_speaks cn pos neg rules _ _) fun dls _ => ?_
  refine speaks_say_bind (by decide) _ ?_
  exact speaks_bind (speaks_silently _) fun x _ => speaks_say_bind (by decide) _ (speaks_pure _)

theorem ripperStep_speaks [Arith.Lawful] {v : Nat} {cn : CatNap} (fuel : Nat) (R : PyRandom) (hp : Hyper)
    (allPos allNeg : List Label) (st : RipSt R) :
    Speaks v (Growable v cn) (ripperStepTalk v fuel R cn hp allPos allNeg st) (ripperStepCn fuel R cn hp allPos allNeg st) := by
  unfold ripperStepTalk ripperStepCn
  split
  · exact speaks_pure _
  split
  · exact speaks_pure _
  cases hp.pruneSize with
  | none => exact speaks_silently _
  | some ps =>
    dsimp only
    generalize randomSplit R st.g st.pos (Arith.complement ps) hp.randomState = q1
    obtain ⟨posGrow, posPrune, g1⟩ := q1
    generalize randomSplit R g1 st.neg (Arith.complement ps) hp.randomState = q2
    obtain ⟨negGrow, negPrune, g2⟩ := q2
    dsimp only
    refine speaks_say_bind (by decide) _ ?_
    split
    · exact speaks_pure _
    refine speaks_bind (growRule_speaks fuel hp.lim posGrow negGrow []) fun grown _ => ?_
    split
    · exact speaks_pure _
    refine speaks_bind (a := if ps ≠ 0 then pruneRule (ripperGrowMetricCn cn posPrune negPrune) grown else .ok (some grown))
      ?_ fun o _ => ?_
    · split
      · refine pruneRule_speaks (fun _ => Or.inr fun r => ?_) grown
        unfold ripperGrowMetricCn
        simp
      · exact speaks_pure _
    cases o with
    | none => exact speaks_silently _
    | some pruned =>
      dsimp only
      refine speaks_say_bind (by decide) _ ?_
      refine speaks_bind (ruleTheory_speaks _ pruned) fun ruleDl _ => ?_
      refine speaks_bind (exceptions_speaks cn _ allPos allNeg) fun dataDl _ => ?_
      exact speaks_say_bind (by decide) _ (speaks_say_bind (by decide) _ (speaks_pure _))

theorem ripperGrow_speaks [Arith.Lawful] {v : Nat} {cn : CatNap} (fuel : Nat) (R : PyRandom) (hp : Hyper)
    (init : List (List Cond)) (pos neg : List Label) (g : R.G) :
    Speaks v (Growable v cn) (ripperGrowTalk v fuel R cn hp init pos neg g) (ripperGrowCn fuel R cn hp init pos neg g) :=
  speaks_say_bind (by decide) _ (speaks_while (ripperStep_speaks fuel R hp pos neg) fuel _)

theorem optimizeChoice_speaks [Arith.Lawful] {v : Nat} {cn : CatNap} {C : Prop} (hg : C → Growable v cn) (fuel : Nat) (hp : Hyper)
    (original : List (List Cond)) (originalDl : Rat) (i : Nat) (rule : List Cond) (allPos allNeg : List Label)
    (posGrow posPrune negGrow negPrune : List Label) (hs : C → v < 5 ∨ posPrune ≠ []) :
    Speaks v C
      (optimizeChoiceTalk v fuel cn hp original originalDl i rule allPos allNeg posGrow posPrune negGrow negPrune)
      (optimizeChoice fuel cn hp original originalDl i rule allPos allNeg posGrow posPrune negGrow negPrune) := by
  have hm : C → v < 5 ∨ ∀ r, ripperOptMetricCn cn posPrune negPrune r ≠ .ok none := by
    intro hc
    refine (hs hc).imp_right fun h r => ?_
    have : posPrune.length + negPrune.length ≠ 0 := by
      have := List.length_pos_of_ne_nil h
      omega
    unfold ripperOptMetricCn
    dsimp only
    rw [if_neg this]
    simp
  unfold optimizeChoiceTalk optimizeChoice
  dsimp only
  refine speaks_say_bind (by decide) _ ?_
  refine speaks_bind (speaks_weaken hg (growRule_speaks fuel _ posGrow negGrow [])) fun gRep _ => ?_
  refine speaks_bind (pruneRuleOn_speaks hm gRep _ i) fun prRep _ => ?_
  refine speaks_say_bind (by decide) _ ?_
  refine speaks_bind (speaks_weaken hg (growRule_speaks fuel _ posGrow negGrow rule)) fun gRev _ => ?_
  refine speaks_bind (pruneRuleOn_speaks hm gRev _ i) fun prRev _ => ?_
  refine speaks_say_bind (by decide) _ ?_
  refine speaks_bind (speaks_silently _) fun repDl _ => ?_
  refine speaks_say_bind (by decide) _ ?_
  refine speaks_bind (speaks_silently _) fun revDl _ => ?_
  refine speaks_bind (speaks_silently _) fun best _ => ?_
  refine speaks_say_bind (by decide) _ ?_
  refine speaks_say_bind (by decide) _ ?_
  rcases best with _ | _ | best
  · exact speaks_pure _
  · cases prRep with
    | none => exact speaks_silently _
    | some r => exact speaks_pure _
  · cases prRev with
    | none => exact speaks_silently _
    | some r => exact speaks_pure _

theorem optimizeLoop_speaks [Arith.Lawful] {v : Nat} {cn : CatNap} (fuel : Nat) (R : PyRandom) (hp : Hyper) (ps : Rat)
    (hps : hp.pruneSize = some ps) (rs : Option Int) (original : List (List Cond)) (originalDl : Rat) (allPos allNeg : List Label) :
    ∀ (rules : List (List Cond)) (i : Nat) (new : List (List Cond)) (pos neg : List Label) (g : R.G),
    Speaks v (Trainable v R cn hp)
      (optimizeLoopTalk v fuel R cn hp ps rs original originalDl allPos allNeg i rules new pos neg g)
      (optimizeLoop fuel R cn hp ps rs original originalDl allPos allNeg i rules new pos neg g) := by
  intro rules
  induction rules with
  | nil => exact fun _ _ _ _ _ => speaks_pure _
  | cons rule rest ih =>
    intro i new pos neg g
    unfold optimizeLoopTalk optimizeLoop
    have hne : Trainable v R cn hp → (randomSplit R g pos (Arith.complement ps) rs).1 ≠ [] →
        v < 5 ∨ (randomSplit R g pos (Arith.complement ps) rs).2.1 ≠ [] := by
      intro hc hgrow
      refine hc.imp_right fun ⟨_, hR, hl⟩ => ?_
      have hpos : pos ≠ [] := by
        intro he
        obtain ⟨x, hx⟩ := List.exists_mem_of_ne_nil _ hgrow
        have := (randomSplit_mem hR g pos (Arith.complement ps) rs x).mpr (Or.inl hx)
        rw [he] at this
        cases this
      obtain ⟨h0, h1⟩ := hl ps hps pos.length (List.length_pos_of_ne_nil hpos)
      exact randomSplit_prune_ne_nil hR g rs h0 h1
    generalize randomSplit R g pos (Arith.complement ps) rs = q1 at hne ⊢
    obtain ⟨posGrow, posPrune, g1⟩ := q1
    dsimp only at hne ⊢
    generalize randomSplit R g1 neg (Arith.complement ps) rs = q2
    obtain ⟨negGrow, negPrune, g2⟩ := q2
    dsimp only
    split
    · exact speaks_pure _
    rename_i hgrow
    split
    · exact speaks_pure _
    refine speaks_bind (optimizeChoice_speaks growable_of_trainable fuel hp original originalDl i rule allPos allNeg posGrow posPrune
      negGrow negPrune (fun hc => hne hc hgrow)) fun best _ => ?_
    refine speaks_say_bind (by decide) _ (speaks_say_bind (by decide) _ ?_)
    split
    · exact speaks_pure _
    · exact ih _ _ _ _ _

theorem optimize_speaks [Arith.Lawful] {v : Nat} {cn : CatNap} (fuel : Nat) (R : PyRandom) (hp : Hyper) (rs : Option Int)
    (rules : List (List Cond)) (allPos allNeg : List Label) (g : R.G) :
    Speaks v (Trainable v R cn hp) (optimizeTalk v fuel R cn hp rs rules allPos allNeg g)
      (optimizeCn fuel R cn hp rs rules allPos allNeg g) := by
  unfold optimizeTalk optimizeCn
  refine speaks_say_bind (by decide) _ (speaks_say_bind (by decide) _ ?_)
  refine speaks_bind (bestSubset_speaks cn rules allPos allNeg) fun o _ => ?_
  obtain ⟨best, originalDl⟩ := o
  refine speaks_say_bind (by decide) _ ?_
  cases hps : hp.pruneSize with
  | none =>
    dsimp only
    split
    · exact speaks_pure _
    · exact speaks_silently _
  | some ps => exact optimizeLoop_speaks fuel R hp ps hps rs rules originalDl allPos allNeg rules 0 rules allPos allNeg g

theorem stage2_speaks [Arith.Lawful] {v : Nat} {cn : CatNap} (fuel : Nat) (R : PyRandom) (hp : Hyper) (allPos allNeg : List Label) :
    ∀ (n : Nat) (rules : List (List Cond)) (g : R.G),
    Speaks v (Trainable v R cn hp) (stage2Talk v fuel R cn hp allPos allNeg n rules g)
      (stage2 fuel R cn hp allPos allNeg n rules g) := by
  intro n
  induction n with
  | zero => exact fun _ _ => speaks_pure _
  | succ n ih =>
    intro rules g
    unfold stage2Talk stage2
    refine speaks_say_bind (by decide) _ ?_
    refine speaks_bind (optimize_speaks fuel R hp _ rules allPos allNeg g) fun o _ => ?_
    obtain ⟨new, g'⟩ := o
    refine speaks_say_bind (by decide) _ (speaks_say_bind (by decide) _ (speaks_say_bind (by decide) _ ?_))
    dsimp only
    split
    · exact speaks_say_bind (by decide) _ (speaks_pure _)
    · exact ih _ _

theorem coverRemaining_speaks [Arith.Lawful] {v : Nat} {cn : CatNap} (fuel : Nat) (R : PyRandom) (hp : Hyper)
    (rules : List (List Cond)) (pos neg : List Label) (g : R.G) :
    Speaks v (Growable v cn) (coverRemainingTalk v fuel R cn hp rules pos neg g)
      (coverRemainingCn fuel R cn hp rules pos neg g) := by
  unfold coverRemainingTalk coverRemainingCn
  split
  · refine speaks_say_bind (by decide) _ ?_
    refine speaks_bind (ripperGrow_speaks fuel R hp rules pos neg g) fun st _ => ?_
    exact speaks_say_bind (by decide) _ (speaks_pure _)
  · exact speaks_say_bind (by decide) _ (speaks_pure _)

theorem ripperStages_speaks [Arith.Lawful] {v : Nat} {cn : CatNap} (fuel : Nat) (R : PyRandom) (hp : Hyper)
    (init : List (List Cond)) (pos neg : List Label) (g : R.G) :
    Speaks v (Trainable v R cn hp) (ripperStagesTalk v fuel R cn hp init pos neg g)
      (ripperStages fuel R cn hp init pos neg g) := by
  unfold ripperStagesTalk ripperStages
  refine speaks_bind (speaks_weaken growable_of_trainable (ripperGrow_speaks fuel R hp init pos neg g)) fun st _ => ?_
  refine speaks_say_bind (by decide) _ ?_
  refine speaks_bind (stage2_speaks fuel R hp pos neg _ _ _) fun o _ => ?_
  obtain ⟨rules, g1⟩ := o
  refine speaks_bind (speaks_weaken growable_of_trainable (coverRemaining_speaks fuel R hp rules pos neg g1)) fun o _ => ?_
  obtain ⟨rules, g2⟩ := o
  refine speaks_say_bind (by decide) _ ?_
  refine speaks_bind (bestSubset_speaks cn rules pos neg) fun o _ => ?_
  exact speaks_pure _

theorem ripperFit_speaks [Arith.Lawful] (v fuel : Nat) (R : PyRandom) (hp : Hyper) (init : List (List Cond)) (df : Frame)
    (cf : Feat) (pc : Val) (g : R.G) :
    Speaks v (v < 5 ∨ ((∃ f ∈ df.cols, f ≠ cf) ∧ R.Lawful ∧ ∀ ps, hp.pruneSize = some ps → Arith.LeavesSome ps))
      (ripperFitTalk v fuel R hp init df cf pc g) (ripperFit fuel R hp init df cf pc g) := by
  unfold ripperFitTalk ripperFit
  split
  · exact speaks_silently _
  rename_i hr
  split
  · exact speaks_silently _
  refine speaks_bind (speaks_silently _) fun cn hb => ?_
  refine speaks_bind (speaks_weaken (C := Trainable v R cn hp) ?_ (ripperStages_speaks fuel R hp init _ _ g)) fun o _ => ?_
  · intro hc
    rcases hc with hc | ⟨hc, hrest⟩
    · exact Or.inl hc
    · rcases growable_of_column (v := v) hr hb (Or.inr hc) with h | h
      · exact Or.inl h
      · exact Or.inr ⟨h, hrest⟩
  obtain ⟨rules, g'⟩ := o
  refine speaks_say_bind (by decide) _ ?_
  exact speaks_bind (speaks_silently _) fun rs _ => speaks_pure _

/-! ### C97 -/

omit [Arith] in
theorem talk_ok {α β : Type} {m : Talk α} {f : α → Talk β} {w w' : List Line} {y : β} (h : (m >>= f) w = .ok y w') :
    ∃ x w1, m w = .ok x w1 ∧ f x w1 = .ok y w' := by
  rw [talk_bind_run] at h
  cases hm : m w with
  | error e w1 => rw [hm] at h; cases h
  | ok x w1 => rw [hm] at h; exact ⟨x, w1, rfl, h⟩

omit [Arith] in
theorem say_ok {v level : Nat} {what : List Said} {w w' : List Line} {u : Unit} (h : say v level what w = .ok u w') (hv : level ≤ v) :
    w' = w ++ what.map (fun s => { level := level, said := s }) := by
  unfold say at h
  rw [if_pos hv] at h
  cases h
  rfl

omit [Arith] in
theorem silently_ok {α : Type} {x : Except PyErr α} {w w' : List Line} {y : α} (h : silently x w = .ok y w') :
    x = .ok y ∧ w' = w := by
  cases x with
  | error e => cases h
  | ok a => cases h; exact ⟨rfl, rfl⟩

omit [Arith] in
/-- What the relation says about a run from an empty screen. -/
theorem Speaks.same {α : Type} {v : Nat} {C : Prop} {m : Talk α} {a : Except PyErr α} (h : Speaks v C m a) :
    (∀ x log, m [] = .ok x log → a = .ok x) ∧
    (C → ∀ x, a = .ok x → ∃ log, m [] = .ok x log) ∧
    (C → ∀ e, a = .error e → ∃ log, m [] = .error e log) := by
  obtain ⟨ws, -, h1⟩ := h []
  refine ⟨?_, ?_, ?_⟩
  · intro x log hm
    rw [hm] at h1
    exact h1.2
  · intro hc x ha
    cases hm : m [] with
    | ok y w => rw [hm] at h1; rw [h1.2] at ha; cases ha; exact ⟨w, rfl⟩
    | error e w => rw [hm] at h1; rw [h1.2 hc] at ha; cases ha
  · intro hc e ha
    cases hm : m [] with
    | ok y w => rw [hm] at h1; rw [h1.2] at ha; cases ha
    | error e' w => rw [hm] at h1; rw [h1.2 hc] at ha; cases ha; exact ⟨w, rfl⟩

omit [Arith] in
theorem Speaks.levels {α : Type} {v : Nat} {C : Prop} {m : Talk α} {a : Except PyErr α} (h : Speaks v C m a) :
    ∀ l ∈ screen (m []), 1 ≤ l.level ∧ l.level ≤ v := by
  obtain ⟨ws, hl, h1⟩ := h []
  cases hm : m [] with
  | ok y w => rw [hm] at h1; rw [h1.1]; exact hl
  | error e w => rw [hm] at h1; rw [h1.1]; exact hl

/-- **C97** (IREP): whatever `fit` returns at some verbosity, it returns at verbosity 0; and below verbosity 5, or with a column to
learn from, it returns or raises at that verbosity whatever it returns or raises at verbosity 0. -/
theorem C97_irep_verbosity [Arith.Lawful] (v fuel : Nat) (R : PyRandom) (hp : Hyper) (init : List (List Cond)) (df : Frame)
    (cf : Feat) (pc : Val) (g : R.G) :
    (∀ x log, irepFitTalk v fuel R hp init df cf pc g [] = .ok x log → irepFit fuel R hp init df cf pc g = .ok x) ∧
    ((v < 5 ∨ ∃ f ∈ df.cols, f ≠ cf) →
      (∀ x, irepFit fuel R hp init df cf pc g = .ok x → ∃ log, irepFitTalk v fuel R hp init df cf pc g [] = .ok x log) ∧
      (∀ e, irepFit fuel R hp init df cf pc g = .error e → ∃ log, irepFitTalk v fuel R hp init df cf pc g [] = .error e log)) := by
  obtain ⟨h1, h2, h3⟩ := (irepFit_speaks v fuel R hp init df cf pc g).same
  exact ⟨h1, fun hc => ⟨h2 hc, h3 hc⟩⟩

/-- **C97** (RIPPER): the same, where at verbosity 5 the share `prune_size` must leave prune sets that are not empty. -/
theorem C97_ripper_verbosity [Arith.Lawful] (v fuel : Nat) (R : PyRandom) (hp : Hyper) (init : List (List Cond)) (df : Frame)
    (cf : Feat) (pc : Val) (g : R.G) :
    (∀ x log, ripperFitTalk v fuel R hp init df cf pc g [] = .ok x log → ripperFit fuel R hp init df cf pc g = .ok x) ∧
    ((v < 5 ∨ ((∃ f ∈ df.cols, f ≠ cf) ∧ R.Lawful ∧ ∀ ps, hp.pruneSize = some ps → Arith.LeavesSome ps)) →
      (∀ x, ripperFit fuel R hp init df cf pc g = .ok x → ∃ log, ripperFitTalk v fuel R hp init df cf pc g [] = .ok x log) ∧
      (∀ e, ripperFit fuel R hp init df cf pc g = .error e →
        ∃ log, ripperFitTalk v fuel R hp init df cf pc g [] = .error e log)) := by
  obtain ⟨h1, h2, h3⟩ := (ripperFit_speaks v fuel R hp init df cf pc g).same
  exact ⟨h1, fun hc => ⟨h2 hc, h3 hc⟩⟩

/-- **C97**: only lines that the verbosity asks for are printed, whether `fit` returns or raises; so at verbosity 0 none is. -/
theorem C97_levels [Arith.Lawful] (v fuel : Nat) (R : PyRandom) (hp : Hyper) (init : List (List Cond)) (df : Frame)
    (cf : Feat) (pc : Val) (g : R.G) :
    (∀ l ∈ screen (irepFitTalk v fuel R hp init df cf pc g []),
      1 ≤ l.level ∧ l.level ≤ v) ∧
    (∀ l ∈ screen (ripperFitTalk v fuel R hp init df cf pc g []),
      1 ≤ l.level ∧ l.level ≤ v) :=
  ⟨(irepFit_speaks v fuel R hp init df cf pc g).levels, (ripperFit_speaks v fuel R hp init df cf pc g).levels⟩

omit [Arith] in
theorem finish_none_rep {rules : List (List Cond)} {r : List Cond} (hr : r ∈ rules) :
    ∃ s ∈ finish none rules, (condTexts s).Perm (condTexts r) := by
  rcases removeDups_rep (same := condsSameKey) rules hr with h | ⟨s, hs, h⟩
  · exact ⟨r, h, List.Perm.refl _⟩
  · exact ⟨s, hs, List.isPerm_iff.mp h⟩

/-- **C97** (IREP): the last ruleset printed (from verbosity 1 on) contains the fitted rules in their order, and with no
`max_total_conds` the fitted rules contain every printed one up to the order of its conditions. -/
theorem C97_irep_last_ruleset [Arith.Lawful] {v fuel : Nat} {R : PyRandom} {hp : Hyper} {init : List (List Cond)} {df : Frame}
    {cf : Feat} {pc : Val} {g g' : R.G} {m : Fitted} {log : List Line} (hv : 1 ≤ v)
    (h : irepFitTalk v fuel R hp init df cf pc g [] = .ok (m, g') log) :
    ∃ before printed, log = before ++ [{ level := 1, said := .rules printed }] ∧
      (m.ruleset.rules.map Rule.conds).Sublist printed ∧
      (hp.lim.maxTotalConds = none → ∀ r ∈ printed, ∃ s ∈ m.ruleset.rules.map Rule.conds,
        (condTexts s).Perm (condTexts r)) := by
  have hq := (irepFit_speaks v fuel R hp init df cf pc g).same.1 _ _ h
  obtain ⟨hr, cn, st, hb, hst, hm, -⟩ := irepFit_ok hq
  unfold irepFitTalk at h
  obtain ⟨-, w1, -, h⟩ := talk_ok h
  rw [if_neg hr, if_neg (by rw [not_not]; exact CatNap.build_cols hb)] at h
  obtain ⟨cn1, w2, hb1, h⟩ := talk_ok h
  have hb1 := (silently_ok hb1).1
  rw [hb] at hb1
  cases hb1
  obtain ⟨-, w3, -, h⟩ := talk_ok h
  obtain ⟨st1, w4, hst1, h⟩ := talk_ok h
  obtain ⟨ws, -, h4⟩ := irepGrow_speaks (v := v) (cn := cn) fuel R hp init (labelSet (posRows df cf pc).index)
    (labelSet (negRows df cf pc).index) g w3
  rw [hst1] at h4
  have h4 := h4.2
  rw [hst] at h4
  cases h4
  obtain ⟨u, w5, hsay, h⟩ := talk_ok h
  have hw5 := say_ok hsay hv
  dsimp only at h
  obtain ⟨rs, w6, hrec, h⟩ := talk_ok h
  have hw6 := (silently_ok hrec).2
  cases h
  refine ⟨w4 ++ [{ level := 1, said := .words }], st.rules, ?_, ?_, ?_⟩
  · rw [hw6, hw5]; simp
  · rw [hm]; exact finish_sublist _ _
  · intro hn r hr'
    rw [hm, hn]
    exact finish_none_rep hr'

/-- **C97** (RIPPER): the last ruleset printed (from verbosity 1 on; an empty line follows) contains the fitted rules in their order,
and with no `max_total_conds` the fitted rules contain every printed one up to the order of its conditions. -/
theorem C97_ripper_last_ruleset [Arith.Lawful] {v fuel : Nat} {R : PyRandom} {hp : Hyper} {init : List (List Cond)} {df : Frame}
    {cf : Feat} {pc : Val} {g g' : R.G} {m : Fitted} {log : List Line} (hv : 1 ≤ v)
    (h : ripperFitTalk v fuel R hp init df cf pc g [] = .ok (m, g') log) :
    ∃ before printed, log = before ++ [{ level := 1, said := .rules printed }, { level := 1, said := .words }] ∧
      (m.ruleset.rules.map Rule.conds).Sublist printed ∧
      (hp.lim.maxTotalConds = none → ∀ r ∈ printed, ∃ s ∈ m.ruleset.rules.map Rule.conds,
        (condTexts s).Perm (condTexts r)) := by
  have hq := (ripperFit_speaks v fuel R hp init df cf pc g).same.1 _ _ h
  obtain ⟨hr, cn, rules, hb, hst, hm, -⟩ := ripperFit_ok hq
  unfold ripperFitTalk at h
  rw [if_neg hr, if_neg (by rw [not_not]; exact CatNap.build_cols hb)] at h
  obtain ⟨cn1, w2, hb1, h⟩ := talk_ok h
  have hb1 := (silently_ok hb1).1
  rw [hb] at hb1
  cases hb1
  obtain ⟨o, w4, hst1, h⟩ := talk_ok h
  obtain ⟨ws, -, h4⟩ := ripperStages_speaks (v := v) (cn := cn) fuel R hp init (labelSet (posRows df cf pc).index)
    (labelSet (negRows df cf pc).index) g w2
  rw [hst1] at h4
  have h4 := h4.2
  rw [hst] at h4
  cases h4
  obtain ⟨u, w5, hsay, h⟩ := talk_ok h
  have hw5 := say_ok hsay hv
  dsimp only at h
  obtain ⟨rs, w6, hrec, h⟩ := talk_ok h
  have hw6 := (silently_ok hrec).2
  cases h
  refine ⟨w4 ++ [{ level := 1, said := .words }], rules, ?_, ?_, ?_⟩
  · rw [hw6, hw5]; simp
  · rw [hm]; exact finish_sublist _ _
  · intro hn r hr'
    rw [hm, hn]
    exact finish_none_rep hr'

/-! ### the exceptions at verbosity 5, and examples -/
end Witt

namespace Witt.Demo
/-- A dataset with the class column only. -/
def classOnly : Frame := Frame.ofTable [fc] [(0, [vp]), (1, [vp]), (2, [vn]), (3, [vn])]
/-- The exception a run ends in, if any. -/
def raised {α : Type} : EStateM.Result PyErr (List Line) α → Option PyErr
  | .ok _ _ => none
  | .error e _ => some e
end Witt.Demo

namespace Witt
open Demo

/-- C97 without a column to learn from: IREP fits a model at verbosity 4 and raises OverflowError at verbosity 5
(`rnd(float("-inf"))`). -/
theorem C97_refuted_no_column :
    raised (irepFitTalk 4 9 R0 {} [] classOnly fc vp () []) = none ∧
    raised (irepFitTalk 5 9 R0 {} [] classOnly fc vp () []) = some .overflow := by
  refine ⟨?_, ?_⟩ <;> decide +kernel

/-- C97 for `prune_size=0`: RIPPER fits a model at verbosity 4 and raises TypeError at verbosity 5 (`rnd(None)`). -/
theorem C97_refuted_ripper_prune_zero :
    (ripperFit 19 R0 { pruneSize := some 0 } [] conj fc vp ()).map (fun m => m.1.ruleset.rules.map Rule.conds) =
      .ok [[⟨fa, vx⟩, ⟨fb, vx⟩]] ∧
    raised (ripperFitTalk 4 19 R0 { pruneSize := some 0 } [] conj fc vp () []) = none ∧
    raised (ripperFitTalk 5 19 R0 { pruneSize := some 0 } [] conj fc vp () []) = some .typeError := by
  refine ⟨?_, ?_, ?_⟩ <;> decide +kernel

/-- The hypotheses of `C97_irep_verbosity` and `C97_ripper_verbosity` at verbosity 5, and runs of both kinds. -/
example : (∃ f ∈ conj.cols, f ≠ fc) ∧ R0.Lawful ∧ (∀ ps, ({} : Hyper).pruneSize = some ps → Arith.LeavesSome ps) :=
  ⟨⟨fa, by decide +kernel, by decide +kernel⟩, R0_lawful, fun ps h => by
    cases h
    exact exact_leavesSome (by norm_num) (by norm_num)⟩
example : (ripperFit 19 R0 {} [] conj fc vp ()).toBool = true ∧ raised (ripperFitTalk 5 19 R0 {} [] conj fc vp () []) = none ∧
    (screen (ripperFitTalk 5 19 R0 {} [] conj fc vp () [])).length = 161 ∧
    (screen (ripperFitTalk 1 19 R0 {} [] conj fc vp () [])).length = 14 := by
  refine ⟨?_, ?_, ?_, ?_⟩ <;> decide +kernel
example : (irepFit 19 R0 {} [] fit1 fc vp ()).toBool = true ∧ raised (irepFitTalk 5 19 R0 {} [] fit1 fc vp () []) = none ∧
    (screen (irepFitTalk 5 19 R0 {} [] fit1 fc vp () [])).length = 23 ∧
    screen (irepFitTalk 0 19 R0 {} [] fit1 fc vp () []) = [] := by
  refine ⟨?_, ?_, ?_, ?_⟩
  · decide +kernel
  · decide +kernel
  · decide +kernel
  · rw [← List.length_eq_zero_iff]
    decide +kernel

end Witt
