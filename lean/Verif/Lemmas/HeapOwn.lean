import Verif.Lemmas.HeapRegion
/-
Operations that leave a classifier with rules of its own.
-/
namespace Witt
open Spec
variable [Arith] [Arith.Lawful]

omit [Arith] [Arith.Lawful] in
theorem readSet_congr {h h' : Heap} {a : Nat} (hs : h'.set a = h.set a) (hr : ∀ x ∈ (h.set a).rules, h'.rule x = h.rule x) :
    h'.readSet a = h.readSet a := by
  simp only [Heap.readSet, hs, Ruleset.mk.injEq, and_true]
  exact List.map_congr_left hr

omit [Arith] [Arith.Lawful] in
theorem readClf_congr {h h' : Heap} {c : Nat} (hc : h'.clf c = h.clf c)
    (hs : ∀ a, (h.clf c).ruleset = some a → h'.readSet a = h.readSet a) : h'.readClf c = h.readClf c := by
  have : (h.clf c).ruleset.map h'.readSet = (h.clf c).ruleset.map h.readSet := by
    cases e : (h.clf c).ruleset with
    | none => rfl
    | some a => exact congrArg some (hs a e)
  simp only [Heap.readClf, hc, this]

omit [Arith] [Arith.Lawful] in
/-- The objects that exist before a change outside of them. -/
theorem Sound.kept {Z : Region} {h h' : Heap} (hs : Sound h) (hu : Untouched Z h h')
    (hset : ∀ a < h.sets, ¬ Z.set a) (hrule : ∀ x < h.rules, ¬ Z.rule x) :
    (∀ d, ¬ Z.clf d → h'.readClf d = h.readClf d) ∧ ∀ a < h.sets, h'.readSet a = h.readSet a := by
  have sets : ∀ a < h.sets, h'.readSet a = h.readSet a := fun a ha =>
    readSet_congr (hu.set a (hset a ha)) (fun x hx => hu.rule x (hrule x (hs.rules a x hx).2))
  exact ⟨fun d hd => readClf_congr (hu.clf d hd) (fun a e => sets a (hs.ruleset d a e).2), sets⟩

/-- Everything made after `h`. -/
def since (h : Heap) : Region := ⟨fun d => h.clfs ≤ d, fun a => h.sets ≤ a, fun x => h.rules ≤ x⟩

omit [Arith] [Arith.Lawful] in
theorem Sound.closed_since {h : Heap} (hs : Sound h) : Closed (since h) h where
  ruleset c hc a e := absurd (hs.ruleset c a e).1 (Nat.not_lt.mpr hc)
  rules a ha x hx := absurd (hs.rules a x hx).1 (Nat.not_lt.mpr ha)
  freeClf _ h := h
  freeSet _ h := h
  freeRule _ h := h

omit [Arith.Lawful] in
/-- The classifier `c` has got its rules since `h`. -/
theorem ownRules {h h1 : Heap} {c : Nat} (hs : Sound h) (hs1 : Sound h1) (hcl : c < h1.clfs) (hn : ∀ d, h.clfs ≤ d → d < h1.clfs → d = c)
    (hc1 : Closed (sinceAnd c h) h1) (hu : Untouched (sinceAnd c h) h h1) : OwnRules h h1 c := by
  refine ⟨fun h2 hr => ?_, fun h2 hr => ?_⟩
  · obtain ⟨_, hu2⟩ := run_within hr hc1
    obtain ⟨k1, k2⟩ := hs.kept (hu.trans hu2) (fun a ha => Nat.not_le.mpr ha) (fun x hx => Nat.not_le.mpr hx)
    exact ⟨fun d hd hdc => k1 d (fun hz => hz.elim hdc (Nat.not_le.mpr hd)), k2⟩
  · have hc2 : Closed (elsewhere c h h1) h1 := by
      refine ⟨fun d hd a e => ?_, fun a ha x hx => ?_, fun d hd => ?_, fun a ha => Or.inr ha, fun x hx => Or.inr hx⟩
      · left
        have hd1 := (hs1.ruleset d a e).1
        have hdlt : d < h.clfs := by
          by_contra hge
          exact hd (hn d (Nat.not_lt.mp hge) hd1)
        rw [hu.clf d (fun hz => hz.elim hd (Nat.not_le.mpr hdlt))] at e
        exact (hs.ruleset d a e).2
      · rcases ha with ha | ha
        · left
          rw [hu.set a (Nat.not_le.mpr ha)] at hx
          exact (hs.rules a x hx).2
        · exact absurd (hs1.rules a x hx).1 (Nat.not_lt.mpr ha)
      · show d ≠ c
        intro e
        exact absurd hcl (Nat.not_lt.mpr (e ▸ hd))
    obtain ⟨_, hu2⟩ := run_within hr hc2
    refine readClf_congr (hu2.clf c (fun hz => hz rfl)) (fun a e => ?_)
    have ha := hc1.ruleset c (Or.inl rfl) a e
    have ha1 := (hs1.ruleset c a e).2
    refine readSet_congr (hu2.set a ?_) (fun x hx => hu2.rule x ?_)
    · intro hz
      rcases hz with hz | hz
      · exact absurd ha (Nat.not_le.mpr hz)
      · exact absurd ha1 (Nat.not_lt.mpr hz)
    · intro hz
      have hx0 := hc1.rules a ha x hx
      rcases hz with hz | hz
      · exact absurd hx0 (Nat.not_le.mpr hz)
      · exact absurd (hs1.rules a x hx).2 (Nat.not_lt.mpr hz)

omit [Arith] [Arith.Lawful] in
theorem Spec.Untouched.toSinceAnd {h h' : Heap} (hu : Untouched (since h) h h') (c : Nat) : Untouched (sinceAnd c h) h h' :=
  ⟨fun d hd => hu.clf d (fun hz => hd (Or.inr hz)), hu.set, hu.rule⟩

omit [Arith] [Arith.Lawful] in
/-- Binding `ruleset_` of `c` to a Ruleset object made since `h`. -/
theorem bind_since {h h1 : Heap} {c : Nat} (hc1 : Closed (since h) h1) (hu : Untouched (since h) h h1) {a : Nat}
    (ha : h.sets ≤ a) (v : Clf) :
    Closed (sinceAnd c h) (h1.putRef c v a) ∧ Untouched (sinceAnd c h) h (h1.putRef c v a) := by
  constructor
  · refine ⟨fun d hd b e => ?_, hc1.rules, fun d hd => Or.inr (hc1.freeClf d hd), hc1.freeSet, hc1.freeRule⟩
    simp only [Heap.putRef, Heap.putClf] at e
    split at e
    · cases e; exact ha
    · next hdc => exact hc1.ruleset d (hd.resolve_left hdc) b e
  · refine ⟨fun d hd => ?_, hu.set, hu.rule⟩
    have hdc : d ≠ c := fun e => hd (Or.inl e)
    simp only [Heap.putRef, Heap.putClf, if_neg hdc]
    exact hu.clf d (fun hz => hd (Or.inr hz))

omit [Arith] [Arith.Lawful] in
theorem clf_putRef (h : Heap) (c : Nat) (v : Clf) (a : Nat) :
    (h.putRef c v a).clf c = { attrs := { v with ruleset := none }, ruleset := some a } := by
  simp only [Heap.putRef, Heap.putClf, if_true]

omit [Arith] [Arith.Lawful] in
theorem afterwards_bind {α β : Type} (m : OnHeap α) (f : α → OnHeap β) (h : Heap) :
    (m >>= f) h = match m h with
      | .ok a h' => f a h'
      | .error e h' => .error e h' := heap_bind m f h

omit [Arith] [Arith.Lawful] in
/-- What `deepcopy` makes reads as the original. -/
theorem readSet_deepcopy (h : Heap) (a : Nat) : (h.deepcopy a).2.readSet (h.deepcopy a).1 = h.readSet a := by
  simp only [Heap.readSet, Heap.deepcopy, Heap.newSet, Heap.putSet, if_true, Ruleset.mk.injEq, and_true, List.map_map]
  refine List.map_congr_left (fun x hx => ?_)
  simp only [Function.comp]
  rw [if_neg (Nat.not_lt.mpr (Nat.le_add_right _ _)), Nat.add_sub_cancel_left]

omit [Arith] [Arith.Lawful] in
theorem readSet_newRuleset (h : Heap) (rs : Ruleset) : (h.newRuleset rs).2.readSet (h.newRuleset rs).1 = rs := by
  obtain ⟨rules, uncov, possible⟩ := rs
  simp only [Heap.readSet, Heap.newRuleset, Heap.newSet, Heap.putSet, if_true, Ruleset.mk.injEq, and_true, List.map_map]
  apply List.ext_getElem
  · simp
  · intro i h1 h2
    simp only [List.getElem_map, List.getElem_range, Function.comp]
    rw [if_neg (Nat.not_lt.mpr (Nat.le_add_right _ _)), Nat.add_sub_cancel_left, List.getD_eq_getElem?_getD, List.getElem?_eq_getElem h2, Option.getD_some]

omit [Arith] [Arith.Lawful] in
theorem readSet_newSet (h : Heap) (s : SetObj) :
    (h.newSet s).2.readSet (h.newSet s).1 = { rules := s.rules.map h.rule, uncov := s.uncov, possible := s.possible } := by
  simp only [Heap.readSet, Heap.newSet, Heap.putSet, if_true]

/-- A new Ruleset object at `a`, with Rule objects of its own; nothing else has changed. -/
structure Made (h : Heap) (a : Nat) (h' : Heap) : Prop where
  addr : a = h.sets
  sets : h'.sets = h.sets + 1
  clfs : h'.clfs = h.clfs
  clf : h'.clf = h.clf
  set : ∀ b, b ≠ a → h'.set b = h.set b
  rule : ∀ x < h.rules, h'.rule x = h.rule x
  more : h.rules ≤ h'.rules
  own : ∀ x ∈ (h'.set a).rules, h.rules ≤ x
  once : (∀ b, (h.set b).rules.Nodup) → (h'.set a).rules.Nodup

omit [Arith] [Arith.Lawful] in
theorem Made.empty (h : Heap) : Made h (h.newSet {}).1 (h.newSet {}).2 := by
  refine ⟨rfl, rfl, rfl, rfl, fun b hb => ?_, fun _ _ => rfl, le_refl _, fun x hx => ?_, fun _ => ?_⟩
  · exact if_neg hb
  · simp only [Heap.newSet, Heap.putSet, if_true] at hx; cases hx
  · simp only [Heap.newSet, Heap.putSet, if_true]; exact List.nodup_nil

omit [Arith] [Arith.Lawful] in
theorem Made.ruleset (h : Heap) (rs : Ruleset) : Made h (h.newRuleset rs).1 (h.newRuleset rs).2 := by
  refine ⟨rfl, rfl, rfl, rfl, fun b hb => ?_, fun x hx => ?_, Nat.le_add_right _ _, fun x hx => ?_, fun _ => ?_⟩
  · exact if_neg hb
  · exact if_pos hx
  · simp only [Heap.newRuleset, Heap.newSet, Heap.putSet, if_true] at hx
    obtain ⟨i, -, rfl⟩ := List.mem_map.mp hx
    exact Nat.le_add_right _ _
  · simp only [Heap.newRuleset, Heap.newSet, Heap.putSet, if_true]
    exact List.nodup_range.map (fun a b e => by omega)

omit [Arith] [Arith.Lawful] in
theorem Made.copy (h : Heap) (a : Nat) : Made h (h.deepcopy a).1 (h.deepcopy a).2 := by
  refine ⟨rfl, rfl, rfl, rfl, fun b hb => ?_, fun x hx => ?_, Nat.le_add_right _ _, fun x hx => ?_, fun hn => ?_⟩
  · exact if_neg hb
  · exact if_pos hx
  · simp only [Heap.deepcopy, Heap.newSet, Heap.putSet, if_true] at hx
    obtain ⟨i, -, rfl⟩ := List.mem_map.mp hx
    exact Nat.le_add_right _ _
  · simp only [Heap.deepcopy, Heap.newSet, Heap.putSet, if_true]
    exact (hn a).map (fun a b e => by omega)

omit [Arith] [Arith.Lawful] in
theorem rulesetAt_run (c : Nat) (h : Heap) : rulesetAt c h = noEffect (attr (h.clf c).ruleset) h := rfl

omit [Arith] [Arith.Lawful] in
/-- `_ruleset_frommodel` makes a copy of the model. -/
theorem copied_run (m : ModelObj) (h : Heap) :
    match (m.value h).toRuleset with
    | .error e => m.copied h = .error e h
    | .ok rs => ∃ a h', m.copied h = .ok a h' ∧ Made h a h' ∧ h'.readSet a = rs := by
  cases m with
  | nothing => exact ⟨_, _, rfl, Made.empty h, readSet_newSet h {}⟩
  | ruleset a =>
    have hnil : (h.readSet a).rules = [] ↔ (h.set a).rules = [] := List.map_eq_nil_iff
    by_cases he : (h.set a).rules = []
    · simp only [ModelObj.value, ModelArg.toRuleset, if_pos (hnil.mpr he)]
      refine ⟨_, _, ?_, Made.empty h, readSet_newSet h {}⟩
      show (MonadStateOf.get >>= fun s : Heap => if (s.set a).rules = [] then alloc (·.newSet {}) else alloc (·.deepcopy a)) h = _
      rw [heap_bind]
      show (if (h.set a).rules = [] then alloc (·.newSet {}) else alloc (·.deepcopy a)) h = _
      rw [if_pos he]; rfl
    · simp only [ModelObj.value, ModelArg.toRuleset, if_neg (fun e => he (hnil.mp e))]
      refine ⟨_, _, ?_, Made.copy h a, readSet_deepcopy h a⟩
      show (MonadStateOf.get >>= fun s : Heap => if (s.set a).rules = [] then alloc (·.newSet {}) else alloc (·.deepcopy a)) h = _
      rw [heap_bind]
      show (if (h.set a).rules = [] then alloc (·.newSet {}) else alloc (·.deepcopy a)) h = _
      rw [if_neg he]; rfl
  | text s =>
    have hrun : (ModelObj.text s).copied h = match ModelArg.toRuleset (.text s) with
        | .error e => .error e h
        | .ok rs => .ok (h.newRuleset rs).1 (h.newRuleset rs).2 := by
      show (noEffect (ModelArg.toRuleset (.text s)) >>= fun rs => alloc (·.newRuleset rs)) h = _
      rw [heap_bind]
      cases ModelArg.toRuleset (.text s) <;> rfl
    simp only [ModelObj.value]
    cases ht : ModelArg.toRuleset (.text s) with
    | error e => rw [ht] at hrun; exact hrun
    | ok rs =>
      rw [ht] at hrun
      exact ⟨_, _, hrun, Made.ruleset h rs, readSet_newRuleset h rs⟩
  | clf c =>
    have hrun : (ModelObj.clf c).copied h = match (h.clf c).ruleset with
        | none => .error .attributeError h
        | some a => .ok (h.deepcopy a).1 (h.deepcopy a).2 := by
      show (rulesetAt c >>= fun a => alloc (·.deepcopy a)) h = _
      rw [heap_bind, rulesetAt_run]
      cases (h.clf c).ruleset <;> rfl
    simp only [ModelObj.value, ModelArg.toRuleset, Heap.readClf]
    cases hr : (h.clf c).ruleset with
    | none => rw [hr] at hrun; exact hrun
    | some a =>
      rw [hr] at hrun
      exact ⟨_, _, hrun, Made.copy h a, readSet_deepcopy h a⟩

omit [Arith] [Arith.Lawful] in
/-- What IREP binds first: an object of the model, or a new one. -/
theorem shared_run (m : ModelObj) (h : Heap) :
    match (m.value h).early with
    | .error e => m.shared h = .error e h
    | .ok rs => ∃ a h', m.shared h = .ok a h' ∧ h'.readSet a = rs ∧
        (Made h a h' ∨ (h' = h ∧ (m = .ruleset a ∨ ∃ c, m = .clf c ∧ (h.clf c).ruleset = some a))) := by
  cases m with
  | nothing => exact ⟨_, _, rfl, readSet_newSet h {}, Or.inl (Made.empty h)⟩
  | ruleset a =>
    have hnil : (h.readSet a).rules = [] ↔ (h.set a).rules = [] := List.map_eq_nil_iff
    by_cases he : (h.set a).rules = []
    · simp only [ModelObj.value, ModelArg.early, ModelArg.toRuleset, if_pos (hnil.mpr he)]
      refine ⟨_, _, ?_, readSet_newSet h {}, Or.inl (Made.empty h)⟩
      show (MonadStateOf.get >>= fun s : Heap => if (s.set a).rules = [] then alloc (·.newSet {}) else pure a) h = _
      rw [heap_bind]
      show (if (h.set a).rules = [] then alloc (·.newSet {}) else pure a) h = _
      rw [if_pos he]; rfl
    · simp only [ModelObj.value, ModelArg.early, ModelArg.toRuleset, if_neg (fun e => he (hnil.mp e))]
      refine ⟨a, h, ?_, rfl, Or.inr ⟨rfl, Or.inl rfl⟩⟩
      show (MonadStateOf.get >>= fun s : Heap => if (s.set a).rules = [] then alloc (·.newSet {}) else pure a) h = _
      rw [heap_bind]
      show (if (h.set a).rules = [] then alloc (·.newSet {}) else pure a) h = _
      rw [if_neg he]; rfl
  | text s =>
    have hrun : (ModelObj.text s).shared h = match ModelArg.toRuleset (.text s) with
        | .error e => .error e h
        | .ok rs => .ok (h.newRuleset rs).1 (h.newRuleset rs).2 := by
      show (noEffect (ModelArg.toRuleset (.text s)) >>= fun rs => alloc (·.newRuleset rs)) h = _
      rw [heap_bind]
      cases ModelArg.toRuleset (.text s) <;> rfl
    simp only [ModelObj.value, ModelArg.early]
    cases ht : ModelArg.toRuleset (.text s) with
    | error e => rw [ht] at hrun; exact hrun
    | ok rs =>
      rw [ht] at hrun
      exact ⟨_, _, hrun, readSet_newRuleset h rs, Or.inl (Made.ruleset h rs)⟩
  | clf c =>
    have hrun : (ModelObj.clf c).shared h = match (h.clf c).ruleset with
        | none => .ok (h.newSet {}).1 (h.newSet {}).2
        | some a => .ok a h := by
      show (MonadStateOf.get >>= fun s : Heap => match (s.clf c).ruleset with
        | some a => pure a
        | none => alloc (·.newSet {})) h = _
      rw [heap_bind]
      show (match (h.clf c).ruleset with
        | some a => (pure a : OnHeap Nat)
        | none => alloc (·.newSet {})) h = _
      cases (h.clf c).ruleset <;> rfl
    simp only [ModelObj.value, ModelArg.early, Heap.readClf]
    cases hr : (h.clf c).ruleset with
    | none => rw [hr] at hrun; exact ⟨_, _, hrun, readSet_newSet h {}, Or.inl (Made.empty h)⟩
    | some a => rw [hr] at hrun; exact ⟨a, h, hrun, rfl, Or.inr ⟨rfl, Or.inr ⟨c, rfl, hr⟩⟩⟩

omit [Arith] [Arith.Lawful] in
theorem early_seen (m : ModelObj) (first : Bool) (c : Nat) (h : Heap) : (m.seen first c h).early = (m.value h).early := by
  cases m with
  | clf b =>
    simp only [ModelObj.seen, ModelObj.value]
    split
    · next e => simp only [ModelArg.early, ModelArg.toRuleset, Heap.readClf, e.2.2]; rfl
    · rfl
  | _ => rfl

end Witt
