import Verif.Params
import Verif.Props.FitApi
/-
C52: hyperparameters through constructors, `get_params`, `set_params` and deprecated `fit` keywords.
-/
namespace Witt
open Spec

namespace Spec
/-- The names of the hyperparameters of the two classifiers, as documented. -/
def hyperparameters : Algo → List PStr
  | .irep => [p!"prune_size", p!"n_discretize_bins", p!"max_rules", p!"min_rule_samples", p!"min_ruleset_samples",
      p!"max_rule_conds", p!"max_total_conds", p!"alpha", p!"random_state", p!"verbosity"]
  | .ripper => [p!"k", p!"dl_allowance", p!"prune_size", p!"n_discretize_bins", p!"max_rules", p!"min_rule_samples",
      p!"min_ruleset_samples", p!"max_rule_conds", p!"max_total_conds", p!"alpha", p!"random_state", p!"verbosity"]
/-- The documented defaults. -/
def defaultOf (p : PStr) : PyVal :=
  if p = p!"prune_size" then .num (33 / 100) else if p = p!"n_discretize_bins" then .num 10
  else if p = p!"alpha" then .num 1 else if p = p!"verbosity" then .num 0 else if p = p!"k" then .num 2
  else if p = p!"dl_allowance" then .num 64 else .none
/-- The last value written to `p` by a sequence of assignments, if any. -/
def lastWrite (p : PStr) : Kwargs → Option PyVal
  | [] => none
  | (q, v) :: rest => (lastWrite p rest).or (if p = q then some v else none)
/-- What a constructor makes of an argument: a `prune_size` that counts as false (None, 0) becomes 0. -/
def normalised (p : PStr) (v : PyVal) : PyVal :=
  if p = p!"prune_size" ∧ (v = .none ∨ v = .num 0 ∨ v = .text []) then .num 0 else v
end Spec

/-! ### lemmas -/

theorem stored_eq (p : PStr) (v : PyVal) : stored p v = normalised p v := by
  have h : v.truthy = false ↔ (v = .none ∨ v = .num 0 ∨ v = .text []) := by
    cases v <;> simp [PyVal.truthy]
  unfold stored normalised
  simp only [h]

theorem lookup_reverse (p : PStr) : ∀ kw : Kwargs, List.lookup p kw.reverse = lastWrite p kw
  | [] => rfl
  | (q, v) :: rest => by
    rw [List.reverse_cons, List.lookup_append, lookup_reverse p rest]
    show (lastWrite p rest).or _ = (lastWrite p rest).or _
    congr 1
    by_cases h : p = q
    · subst h; simp
    · simp [h]

theorem setParams_attrs (p : PStr) : ∀ (kw : Kwargs) (e : Est),
    (e.setParams kw).attrs p = (lastWrite p kw).or (e.attrs p) ∧ (e.setParams kw).algo = e.algo
  | [], e => ⟨by simp [Est.setParams, lastWrite], rfl⟩
  | (q, v) :: rest, e => by
    have ih := setParams_attrs p rest (e.setattr q v)
    constructor
    · show ((e.setattr q v).setParams rest).attrs p = _
      rw [ih.1]
      show (lastWrite p rest).or (if p = q then some v else e.attrs p) =
        ((lastWrite p rest).or (if p = q then some v else none)).or (e.attrs p)
      cases lastWrite p rest <;> by_cases h : p = q <;> simp [h]
    · exact ih.2

theorem fitKwargs_attrs (p : PStr) : ∀ (kw : Kwargs) (e : Est),
    (e.fitKwargs kw).attrs p =
      (if p ∈ validHyperparameters e.algo then (lastWrite p kw).or (e.attrs p) else e.attrs p) ∧
    (e.fitKwargs kw).algo = e.algo
  | [], e => ⟨by simp [Est.fitKwargs, lastWrite], rfl⟩
  | (q, v) :: rest, e => by
    by_cases hq : q ∈ validHyperparameters e.algo
    · have ih := fitKwargs_attrs p rest (e.setattr q v)
      have hs : e.fitKwargs ((q, v) :: rest) = (e.setattr q v).fitKwargs rest := by
        simp [Est.fitKwargs, hq]
      rw [hs]
      refine ⟨?_, ih.2⟩
      rw [ih.1]
      show (if p ∈ validHyperparameters e.algo then (lastWrite p rest).or (if p = q then some v else e.attrs p)
        else (if p = q then some v else e.attrs p)) = _
      by_cases hp : p ∈ validHyperparameters e.algo
      · rw [if_pos hp, if_pos hp]
        show _ = ((lastWrite p rest).or (if p = q then some v else none)).or (e.attrs p)
        cases lastWrite p rest <;> by_cases h : p = q <;> simp [h]
      · have hne : p ≠ q := by rintro rfl; exact hp hq
        rw [if_neg hp, if_neg hp, if_neg hne]
    · have ih := fitKwargs_attrs p rest e
      have hs : e.fitKwargs ((q, v) :: rest) = e.fitKwargs rest := by simp [Est.fitKwargs, hq]
      rw [hs]
      refine ⟨?_, ih.2⟩
      rw [ih.1]
      by_cases hp : p ∈ validHyperparameters e.algo
      · rw [if_pos hp, if_pos hp]
        show _ = ((lastWrite p rest).or (if p = q then some v else none)).or (e.attrs p)
        have hne : p ≠ q := by rintro rfl; exact hq hp
        rw [if_neg hne, Option.or_none]
      · rw [if_neg hp, if_neg hp]

theorem signature_lookup (a : Algo) (p : PStr) :
    List.lookup p (signature a) = if p ∈ hyperparameters a then some (defaultOf p) else none := by
  by_cases hp : p ∈ hyperparameters a
  · rw [if_pos hp]
    have hall : ∀ a : Algo, ∀ p ∈ hyperparameters a, List.lookup p (signature a) = some (defaultOf p) := by
      intro a; cases a <;> decide +kernel
    exact hall a p hp
  · rw [if_neg hp, List.lookup_eq_none_iff]
    intro x hx
    have hall : ∀ a : Algo, ∀ x ∈ signature a, x.1 ∈ hyperparameters a := by
      intro a; cases a <;> decide +kernel
    have := hall a x hx
    have hne : p ≠ x.1 := by intro h; rw [h] at hp; exact hp this
    simpa using hne

theorem new_ok {a : Algo} {kw : Kwargs} :
    (∃ e, Est.new a kw = .ok e) ↔ ∀ x ∈ kw, x.1 ∈ hyperparameters a := by
  have hsig : ∀ p : PStr, (signature a).any (fun y => y.1 = p) = true ↔ p ∈ hyperparameters a := by
    intro p
    rw [List.any_eq_true]
    constructor
    · rintro ⟨y, hy, h⟩
      have hall : ∀ a : Algo, ∀ x ∈ signature a, x.1 ∈ hyperparameters a := by
        intro a; cases a <;> decide +kernel
      exact (of_decide_eq_true h) ▸ hall a y hy
    · intro hp
      have hall : ∀ a : Algo, ∀ p ∈ hyperparameters a, ∃ y ∈ signature a, y.1 = p := by
        intro a; cases a <;> decide +kernel
      obtain ⟨y, hy, h⟩ := hall a p hp
      exact ⟨y, hy, decide_eq_true h⟩
  unfold Est.new
  constructor
  · rintro ⟨e, he⟩ x hx
    split at he
    · rename_i h
      exact (hsig _).mp (List.all_eq_true.mp h x hx)
    · cases he
  · intro h
    rw [if_pos (List.all_eq_true.mpr fun x hx => (hsig _).mpr (h x hx))]
    exact ⟨_, rfl⟩

theorem new_attrs {a : Algo} {kw : Kwargs} {e : Est} (h : Est.new a kw = .ok e) (p : PStr) :
    e.algo = a ∧ e.attrs p =
      if p ∈ hyperparameters a then some (normalised p ((lastWrite p kw).getD (defaultOf p))) else none := by
  unfold Est.new at h
  split at h
  · cases h
    refine ⟨rfl, ?_⟩
    show (List.lookup p (signature a)).map _ = _
    rw [signature_lookup]
    split
    · simp only [Option.map_some, stored_eq, argument, lookup_reverse]
    · rfl
  · cases h

theorem lastWrite_map {g : PStr → PyVal} (p : PStr) : ∀ l : List PStr,
    lastWrite p (l.map (fun q => (q, g q))) = if p ∈ l then some (g p) else none
  | [] => rfl
  | q :: l => by
    show (lastWrite p (l.map _)).or _ = _
    rw [lastWrite_map p l]
    by_cases hl : p ∈ l
    · simp [hl]
    · by_cases h : p = q
      · subst h; simp [hl]
      · simp [hl, h]

theorem valid_mem (a : Algo) (p : PStr) :
    p ∈ validHyperparameters a ↔ p ∈ hyperparameters a ∧ p ≠ p!"min_rule_samples" := by
  constructor
  · have hall : ∀ a : Algo, ∀ p ∈ validHyperparameters a, p ∈ hyperparameters a ∧ p ≠ p!"min_rule_samples" := by
      intro a; cases a <;> decide +kernel
    exact hall a p
  · rintro ⟨h, hne⟩
    have hall : ∀ a : Algo, ∀ p ∈ hyperparameters a, p ≠ p!"min_rule_samples" → p ∈ validHyperparameters a := by
      intro a; cases a <;> decide +kernel
    exact hall a p h hne

/-! ### C52 -/

/-- C52: the constructor accepts exactly the documented names, stores each argument (or the default) under its
name, `prune_size` None becoming 0; any other name is a TypeError. -/
theorem C52_constructor (a : Algo) (kw : Kwargs) :
    ((∀ x ∈ kw, x.1 ∈ hyperparameters a) → ∃ e, Est.new a kw = .ok e ∧ e.algo = a ∧
      ∀ p ∈ hyperparameters a, e.attrs p = some (normalised p ((lastWrite p kw).getD (defaultOf p)))) ∧
    ((¬ ∀ x ∈ kw, x.1 ∈ hyperparameters a) → Est.new a kw = .error .typeError) := by
  constructor
  · intro h
    obtain ⟨e, he⟩ := new_ok.mpr h
    refine ⟨e, he, (new_attrs he []).1, fun p hp => ?_⟩
    rw [(new_attrs he p).2, if_pos hp]
  · intro h
    cases hn : Est.new a kw with
    | ok e => exact absurd (new_ok.mp ⟨e, hn⟩) h
    | error x =>
      unfold Est.new at hn
      split at hn
      · cases hn
      · cases hn; rfl

/-- C52: after any history of `set_params` calls a hyperparameter has the value last written to it, by the history
or else by the constructor; `get_params` returns exactly the documented hyperparameters other than
`min_rule_samples`, each with that value. `set_params` never raises and unknown names change no hyperparameter. -/
theorem C52_set_then_get (a : Algo) (kw : Kwargs) (e : Est) (he : Est.new a kw = .ok e) (history : List Kwargs) :
    let e' := history.foldl Est.setParams e
    (∀ p ∈ hyperparameters a, e'.attrs p =
      some ((lastWrite p history.flatten).getD (normalised p ((lastWrite p kw).getD (defaultOf p))))) ∧
    (∀ p v, (p, v) ∈ e'.getParams ↔ p ∈ hyperparameters a ∧ p ≠ p!"min_rule_samples" ∧ e'.attrs p = some v) := by
  have key : ∀ (history : List Kwargs) (e : Est) (p : PStr),
      (history.foldl Est.setParams e).attrs p = (lastWrite p history.flatten).or (e.attrs p) ∧
      (history.foldl Est.setParams e).algo = e.algo := by
    intro history
    induction history with
    | nil => intro e p; exact ⟨by simp [lastWrite], rfl⟩
    | cons kw rest ih =>
      intro e p
      have h1 := ih (e.setParams kw) p
      have h2 := setParams_attrs p kw e
      refine ⟨?_, h1.2.trans h2.2⟩
      show (rest.foldl Est.setParams (e.setParams kw)).attrs p = _
      rw [h1.1, h2.1, List.flatten_cons]
      have happ : ∀ l l' : Kwargs, lastWrite p (l ++ l') = (lastWrite p l').or (lastWrite p l) := by
        intro l l'
        induction l with
        | nil => simp [lastWrite]
        | cons x l ih =>
          show (lastWrite p (l ++ l')).or _ = (lastWrite p l').or ((lastWrite p l).or _)
          rw [ih, Option.or_assoc]
      rw [happ, Option.or_assoc]
  intro e'
  have hattr : ∀ p ∈ hyperparameters a, e'.attrs p =
      some ((lastWrite p history.flatten).getD (normalised p ((lastWrite p kw).getD (defaultOf p)))) := by
    intro p hp
    rw [(key history e p).1, (new_attrs he p).2, if_pos hp]
    cases lastWrite p history.flatten <;> rfl
  have halgo : e'.algo = a := (key history e []).2.trans (new_attrs he []).1
  refine ⟨hattr, fun p v => ?_⟩
  unfold Est.getParams
  rw [List.mem_map, halgo]
  constructor
  · rintro ⟨q, hq, h⟩
    cases h
    have hv := (valid_mem a p).mp hq
    refine ⟨hv.1, hv.2, ?_⟩
    rw [hattr p hv.1]; rfl
  · rintro ⟨hp, hne, hv⟩
    exact ⟨p, (valid_mem a p).mpr ⟨hp, hne⟩, by rw [hv]; rfl⟩

/-- C52: rebuilding an object from its `get_params` (what cloning does) always succeeds; the copy has the same
hyperparameters, except that `min_rule_samples` is always reset to None and a `prune_size` set to None becomes 0.
So the copy equals the original iff `min_rule_samples` is None and `prune_size` was not set to something false
other than 0. -/
theorem C52_clone (a : Algo) (kw : Kwargs) (e : Est) (he : Est.new a kw = .ok e) (history : List Kwargs) :
    let e' := history.foldl Est.setParams e
    ∃ c, Est.new a e'.getParams = .ok c ∧
      (∀ p ∈ hyperparameters a, p ≠ p!"min_rule_samples" → c.attrs p = (e'.attrs p).map (normalised p)) ∧
      c.attrs p!"min_rule_samples" = some .none ∧
      ((∀ p ∈ hyperparameters a, c.attrs p = e'.attrs p) ↔
        e'.attrs p!"min_rule_samples" = some .none ∧
        ¬ (e'.attrs p!"prune_size" = some .none ∨ e'.attrs p!"prune_size" = some (.text []))) := by
  intro e'
  obtain ⟨hattr, hget⟩ := C52_set_then_get a kw e he history
  have hnames : ∀ x ∈ e'.getParams, x.1 ∈ hyperparameters a := fun x hx => ((hget x.1 x.2).mp hx).1
  obtain ⟨c, hc, -, hca⟩ := (C52_constructor a e'.getParams).1 hnames
  have halgo : e'.algo = a := by
    have : ∀ (h : List Kwargs) (e : Est), (h.foldl Est.setParams e).algo = e.algo := by
      intro h
      induction h with
      | nil => intro e; rfl
      | cons k r ih => intro e; exact (ih _).trans (setParams_attrs [] k e).2
    exact (this history e).trans (new_attrs he []).1
  have hlast : ∀ p, lastWrite p e'.getParams =
      if p ∈ hyperparameters a ∧ p ≠ p!"min_rule_samples" then some ((e'.attrs p).getD .none) else none := by
    intro p
    unfold Est.getParams
    rw [lastWrite_map (g := fun p => (e'.attrs p).getD .none), halgo]
    simp only [valid_mem]
  have hmin : p!"min_rule_samples" ∈ hyperparameters a := by cases a <;> decide +kernel
  have hprune : p!"prune_size" ∈ hyperparameters a := by cases a <;> decide +kernel
  have h1 : ∀ p ∈ hyperparameters a, p ≠ p!"min_rule_samples" → c.attrs p = (e'.attrs p).map (normalised p) := by
    intro p hp hne
    rw [hca p hp, hlast, if_pos ⟨hp, hne⟩, hattr p hp]
    rfl
  have h2 : c.attrs p!"min_rule_samples" = some .none := by
    rw [hca _ hmin, hlast, if_neg (fun h => h.2 rfl)]
    decide +kernel
  refine ⟨c, hc, h1, h2, ?_⟩
  have hpc := h1 _ hprune (by decide +kernel)
  constructor
  · intro hall
    refine ⟨by rw [← hall _ hmin, h2], ?_⟩
    have := hall _ hprune
    rw [hpc] at this
    rintro (h | h) <;> rw [h] at this <;> exact absurd this (by decide +kernel)
  · rintro ⟨hm, hpr⟩ p hp
    by_cases hne : p = p!"min_rule_samples"
    · subst hne; rw [h2, hm]
    · rw [h1 p hp hne]
      obtain ⟨v, hap⟩ : ∃ v, e'.attrs p = some v := ⟨_, hattr p hp⟩
      rw [hap]
      by_cases hps : p = p!"prune_size"
      · subst hps
        rw [hap] at hpr
        simp only [Option.map_some, Option.some.injEq, normalised, true_and] at hpr ⊢
        split
        · rename_i h
          rcases h with h | h | h
          · exact absurd (Or.inl h) hpr
          · exact h.symm
          · exact absurd (Or.inr h) hpr
        · rfl
      · simp only [Option.map_some, normalised, hps, false_and, if_false]

/-- C52: writing back what `get_params` returned changes no attribute. -/
theorem C52_restore (a : Algo) (kw : Kwargs) (e : Est) (he : Est.new a kw = .ok e) (p : PStr) :
    (e.setParams e.getParams).attrs p = e.attrs p := by
  rw [(setParams_attrs p _ e).1]
  unfold Est.getParams
  rw [lastWrite_map (g := fun p => (e.attrs p).getD .none), (new_attrs he p).1]
  split
  · rename_i hv
    rw [(new_attrs he p).2, if_pos ((valid_mem a p).mp hv).1]
    rfl
  · rfl

/-- C52: keywords given to `fit` set the hyperparameters of that name for good, except that `min_rule_samples`,
like any unknown name, is silently ignored. -/
theorem C52_fit_keywords (a : Algo) (kw : Kwargs) (e : Est) (he : Est.new a kw = .ok e) (fitKw : Kwargs) (p : PStr) :
    (p ∈ hyperparameters a → p ≠ p!"min_rule_samples" →
      (e.fitKwargs fitKw).attrs p = (lastWrite p fitKw).or (e.attrs p)) ∧
    (p = p!"min_rule_samples" ∨ p ∉ hyperparameters a → (e.fitKwargs fitKw).attrs p = e.attrs p) := by
  have h := (fitKwargs_attrs p fitKw e).1
  rw [(new_attrs he p).1] at h
  constructor
  · intro hp hne
    rw [h, if_pos ((valid_mem a p).mpr ⟨hp, hne⟩)]
  · intro hp
    rw [h, if_neg]
    intro hv
    rcases hp with hp | hp
    · exact ((valid_mem a p).mp hv).2 hp
    · exact hp ((valid_mem a p).mp hv).1

/-! ### the attributes as the settings `fit` uses -/

namespace Spec
/-- Numbers and None as attribute values. -/
def ofRat : Option Rat → PyVal
  | none => .none
  | some q => .num q
def ofInt (n : Option Int) : PyVal := ofRat (n.map (fun z => (z : Rat)))
/-- The attributes of `e` are the settings of the classifier `c`. -/
structure Configures (e : Est) (c : Clf) : Prop where
  prune : e.attrs p!"prune_size" = some (ofRat c.hyper.pruneSize)
  bins : e.attrs p!"n_discretize_bins" = some (ofInt (c.nBins.map (fun n => (n : Int))))
  maxRules : e.attrs p!"max_rules" = some (ofInt c.hyper.lim.maxRules)
  minRule : e.attrs p!"min_rule_samples" = some (ofInt c.hyper.lim.minRuleSamples)
  minRuleset : e.attrs p!"min_ruleset_samples" = some (ofInt c.hyper.lim.minRulesetSamples)
  maxRuleConds : e.attrs p!"max_rule_conds" = some (ofInt c.hyper.lim.maxRuleConds)
  maxTotal : e.attrs p!"max_total_conds" = some (ofInt c.hyper.lim.maxTotalConds)
  alpha : e.attrs p!"alpha" = some (.num c.hyper.alpha)
  seed : e.attrs p!"random_state" = some (ofInt c.hyper.randomState)
  k : e.algo = .ripper → e.attrs p!"k" = some (.num c.hyper.k)
  dl : e.algo = .ripper → e.attrs p!"dl_allowance" = some (.num c.hyper.dlAllowance)
/-- What cloning does to the settings. -/
def cloned (c : Clf) : Clf :=
  { c with hyper := { c.hyper with
      pruneSize := some (c.hyper.pruneSize.getD 0)
      lim := { c.hyper.lim with minRuleSamples := none } } }
end Spec

theorem normalised_ofRat (q : Option Rat) : normalised p!"prune_size" (ofRat q) = ofRat (some (q.getD 0)) := by
  cases q with
  | none => rfl
  | some q =>
    simp only [normalised, ofRat, Option.getD_some]
    split
    · rename_i h; rcases h with ⟨-, h | h | h⟩ <;> cases h; rfl
    · rfl

/-- C52: a classifier rebuilt from `get_params` has the settings `cloned` describes, so it trains exactly like
the original if `min_rule_samples` is None and `prune_size` is a number. -/
theorem C52_clone_settings (a : Algo) (kw : Kwargs) (e : Est) (he : Est.new a kw = .ok e) (history : List Kwargs)
    (c : Clf) (hc : Configures (history.foldl Est.setParams e) c) :
    (∃ e', Est.new a (history.foldl Est.setParams e).getParams = .ok e' ∧ Configures e' (cloned c)) ∧
    (c.hyper.lim.minRuleSamples = none → c.hyper.pruneSize.isSome → cloned c = c) := by
  constructor
  · obtain ⟨e', hn, hsame, hmin, -⟩ := C52_clone a kw e he history
    have halgo : e'.algo = a := (new_attrs hn []).1
    have halgo0 : (history.foldl Est.setParams e).algo = a := by
      have : ∀ (h : List Kwargs) (e : Est), (h.foldl Est.setParams e).algo = e.algo := by
        intro h
        induction h with
        | nil => intro e; rfl
        | cons k r ih => intro e; exact (ih _).trans (setParams_attrs [] k e).2
      exact (this history e).trans (new_attrs he []).1
    have hcommon : ∀ p ∈ commonValid, p ∈ hyperparameters a ∧ p ≠ p!"min_rule_samples" := by
      cases a <;> decide +kernel
    have hplain : ∀ p ∈ commonValid, p ≠ p!"prune_size" → e'.attrs p = (history.foldl Est.setParams e).attrs p := by
      intro p hp hne
      rw [hsame p (hcommon p hp).1 (hcommon p hp).2]
      have : (normalised p : PyVal → PyVal) = id := by
        funext v
        simp [normalised, hne]
      rw [this]; simp
    have hrip : a = .ripper → ∀ p ∈ [p!"k", p!"dl_allowance"], e'.attrs p = (history.foldl Est.setParams e).attrs p := by
      rintro rfl p hp
      have h2 : ∀ p ∈ [p!"k", p!"dl_allowance"], p ∈ hyperparameters .ripper ∧ p ≠ p!"min_rule_samples" ∧
        p ≠ p!"prune_size" := by decide +kernel
      rw [hsame p (h2 p hp).1 (h2 p hp).2.1]
      have : (normalised p : PyVal → PyVal) = id := by
        funext v
        simp [normalised, (h2 p hp).2.2]
      rw [this]; simp
    refine ⟨e', hn, ?_⟩
    exact {
      prune := by
        rw [hsame _ (hcommon _ (by decide +kernel)).1 (hcommon _ (by decide +kernel)).2, hc.prune]
        show some (normalised _ (ofRat _)) = _
        rw [normalised_ofRat]; rfl
      bins := (hplain _ (by decide +kernel) (by decide +kernel)).trans hc.bins
      maxRules := (hplain _ (by decide +kernel) (by decide +kernel)).trans hc.maxRules
      minRule := hmin
      minRuleset := (hplain _ (by decide +kernel) (by decide +kernel)).trans hc.minRuleset
      maxRuleConds := (hplain _ (by decide +kernel) (by decide +kernel)).trans hc.maxRuleConds
      maxTotal := (hplain _ (by decide +kernel) (by decide +kernel)).trans hc.maxTotal
      alpha := (hplain _ (by decide +kernel) (by decide +kernel)).trans hc.alpha
      seed := (hplain _ (by decide +kernel) (by decide +kernel)).trans hc.seed
      k := fun h => (hrip (halgo ▸ h) _ (by decide +kernel)).trans (hc.k (halgo0.trans (halgo ▸ h)))
      dl := fun h => (hrip (halgo ▸ h) _ (by decide +kernel)).trans (hc.dl (halgo0.trans (halgo ▸ h))) }
  · intro hm hp
    obtain ⟨q, hq⟩ := Option.isSome_iff_exists.mp hp
    obtain ⟨hyper, _, _, _, _, _, _, _⟩ := c
    obtain ⟨_, _, _, lim, _, _⟩ := hyper
    obtain ⟨_, _, _, _, _⟩ := lim
    simp only at hm hq
    subst hm hq
    rfl

/-! ### a concrete case: the clone learns something else -/

namespace Demo
def careful : Clf := { newIrep with hyper := { newIrep.hyper with pruneSize := some 0, lim := { minRuleSamples := some 4 } } }
def carefulKw : Kwargs := [(p!"prune_size", .none), (p!"n_discretize_bins", .num 3), (p!"min_rule_samples", .num 2)]
def carefulSet : List Kwargs := [[(p!"min_rule_samples", .num 4), (p!"typo", .num 1)]]
end Demo

/-- C52 is false of `min_rule_samples`: an IREP with `min_rule_samples=4` and its clone learn different rules from
the same data. -/
theorem C52_refuted_min_rule_samples : ∃ e e', Est.new .irep Demo.carefulKw = .ok e ∧
    Configures (Demo.carefulSet.foldl Est.setParams e) Demo.careful ∧
    Est.new .irep (Demo.carefulSet.foldl Est.setParams e).getParams = .ok e' ∧ Configures e' (cloned Demo.careful) ∧
    (Demo.seen (Method.irep.fit 7 Demo.R0 Demo.F Demo.P Demo.mixedData .nothing () Demo.careful)).1 ≠
    (Demo.seen (Method.irep.fit 7 Demo.R0 Demo.F Demo.P Demo.mixedData .nothing () (cloned Demo.careful))).1 := by
  obtain ⟨e, he⟩ : ∃ e, Est.new .irep Demo.carefulKw = .ok e := new_ok.mpr (by decide +kernel)
  have hc : Configures (Demo.carefulSet.foldl Est.setParams e) Demo.careful := by
    have h : ∀ p, p ∈ hyperparameters .irep → (Demo.carefulSet.foldl Est.setParams e).attrs p =
        some ((lastWrite p Demo.carefulSet.flatten).getD (normalised p ((lastWrite p Demo.carefulKw).getD (defaultOf p)))) :=
      (C52_set_then_get .irep _ e he Demo.carefulSet).1
    have ha : (Demo.carefulSet.foldl Est.setParams e).algo = .irep :=
      (setParams_attrs [] _ e).2.trans (new_attrs he []).1
    constructor
    all_goals first
      | (rw [h _ (by decide +kernel)]; decide +kernel)
      | (intro h2; rw [ha] at h2; cases h2)
  obtain ⟨⟨e', hn, hc'⟩, -⟩ := C52_clone_settings .irep _ e he Demo.carefulSet Demo.careful hc
  exact ⟨e, e', he, hc, hn, hc', by decide +kernel⟩

end Witt
