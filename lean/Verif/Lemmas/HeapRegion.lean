import Verif.Lemmas.HeapFit
/-
Two disciplines: calls within a region leave the rest untouched; calls on existing objects leave only references to existing
objects, and no rule gets other conditions.
-/
namespace Witt
open Spec
variable [Arith] [Arith.Lawful]

/-- The objects outside the region are as before. -/
structure Spec.Untouched (Z : Region) (h h' : Heap) : Prop where
  clf : ∀ c, ¬ Z.clf c → h'.clf c = h.clf c
  set : ∀ a, ¬ Z.set a → h'.set a = h.set a
  rule : ∀ x, ¬ Z.rule x → h'.rule x = h.rule x

omit [Arith] [Arith.Lawful] in
theorem Spec.Untouched.refl (Z : Region) (h : Heap) : Untouched Z h h := ⟨fun _ _ => rfl, fun _ _ => rfl, fun _ _ => rfl⟩

omit [Arith] [Arith.Lawful] in
theorem Spec.Untouched.trans {Z : Region} {a b c : Heap} (h1 : Untouched Z a b) (h2 : Untouched Z b c) : Untouched Z a c :=
  ⟨fun x hx => (h2.clf x hx).trans (h1.clf x hx), fun x hx => (h2.set x hx).trans (h1.set x hx),
    fun x hx => (h2.rule x hx).trans (h1.rule x hx)⟩

/-! ### the primitive changes -/

omit [Arith] [Arith.Lawful] in
theorem putRule_within {Z : Region} {h : Heap} (hc : Closed Z h) {a : Nat} (ha : Z.rule a) (r : Rule) :
    Closed Z (h.putRule a r) ∧ Untouched Z h (h.putRule a r) := by
  refine ⟨⟨hc.ruleset, hc.rules, hc.freeClf, hc.freeSet, hc.freeRule⟩, ⟨fun _ _ => rfl, fun _ _ => rfl, fun x hx => ?_⟩⟩
  exact if_neg (fun (e : x = a) => hx (e ▸ ha))

omit [Arith] [Arith.Lawful] in
theorem putSet_within {Z : Region} {h : Heap} (hc : Closed Z h) {a : Nat} (ha : Z.set a) {s : SetObj}
    (hs : ∀ x ∈ s.rules, Z.rule x) : Closed Z (h.putSet a s) ∧ Untouched Z h (h.putSet a s) := by
  refine ⟨⟨hc.ruleset, fun b hb x hx => ?_, hc.freeClf, hc.freeSet, hc.freeRule⟩,
    ⟨fun _ _ => rfl, fun b hb => ?_, fun _ _ => rfl⟩⟩
  · simp only [Heap.putSet] at hx
    split at hx
    · exact hs x hx
    · exact hc.rules b hb x hx
  · exact if_neg (fun (e : b = a) => hb (e ▸ ha))

omit [Arith] [Arith.Lawful] in
theorem putClf_within {Z : Region} {h : Heap} (hc : Closed Z h) {c : Nat} (ha : Z.clf c) {o : ClfObj}
    (hs : ∀ a, o.ruleset = some a → Z.set a) : Closed Z (h.putClf c o) ∧ Untouched Z h (h.putClf c o) := by
  refine ⟨⟨fun b hb a e => ?_, hc.rules, hc.freeClf, hc.freeSet, hc.freeRule⟩,
    ⟨fun b hb => ?_, fun _ _ => rfl, fun _ _ => rfl⟩⟩
  · simp only [Heap.putClf] at e
    split at e
    · exact hs a e
    · exact hc.ruleset b hb a e
  · exact if_neg (fun (e : b = c) => hb (e ▸ ha))

omit [Arith] [Arith.Lawful] in
theorem newRule_within {Z : Region} {h : Heap} (hc : Closed Z h) (r : Rule) :
    Closed Z (h.newRule r).2 ∧ Untouched Z h (h.newRule r).2 ∧ Z.rule (h.newRule r).1 := by
  obtain ⟨h1, h2⟩ := putRule_within hc (hc.freeRule h.rules (le_refl _)) r
  exact ⟨⟨h1.ruleset, h1.rules, h1.freeClf, h1.freeSet, fun x hx => hc.freeRule x (Nat.le_of_succ_le hx)⟩,
    ⟨h2.clf, h2.set, h2.rule⟩, hc.freeRule _ (le_refl _)⟩

omit [Arith] [Arith.Lawful] in
theorem newSet_within {Z : Region} {h : Heap} (hc : Closed Z h) {s : SetObj} (hs : ∀ x ∈ s.rules, Z.rule x) :
    Closed Z (h.newSet s).2 ∧ Untouched Z h (h.newSet s).2 ∧ Z.set (h.newSet s).1 := by
  obtain ⟨h1, h2⟩ := putSet_within hc (hc.freeSet h.sets (le_refl _)) hs
  exact ⟨⟨h1.ruleset, h1.rules, h1.freeClf, fun x hx => hc.freeSet x (Nat.le_of_succ_le hx), h1.freeRule⟩,
    ⟨h2.clf, h2.set, h2.rule⟩, hc.freeSet _ (le_refl _)⟩

omit [Arith] [Arith.Lawful] in
/-- New Rule objects at free addresses. -/
theorem moreRules_within {Z : Region} {h : Heap} (hc : Closed Z h) {f : Nat → Rule} {n : Nat}
    (hf : ∀ x, x < h.rules → f x = h.rule x) :
    Closed Z { h with rule := f, rules := h.rules + n } ∧ Untouched Z h { h with rule := f, rules := h.rules + n } := by
  refine ⟨⟨hc.ruleset, hc.rules, hc.freeClf, hc.freeSet, fun x hx => hc.freeRule x (by simp only at hx; omega)⟩,
    ⟨fun _ _ => rfl, fun _ _ => rfl, fun x hx => ?_⟩⟩
  refine hf x ?_
  by_contra hn
  exact hx (hc.freeRule x (by omega))

omit [Arith] [Arith.Lawful] in
theorem newRuleset_within {Z : Region} {h : Heap} (hc : Closed Z h) (rs : Ruleset) :
    Closed Z (h.newRuleset rs).2 ∧ Untouched Z h (h.newRuleset rs).2 ∧ Z.set (h.newRuleset rs).1 := by
  obtain ⟨h1, h2⟩ := moreRules_within hc (n := rs.rules.length)
    (f := fun x => if x < h.rules then h.rule x else rs.rules.getD (x - h.rules) (h.rule x)) (fun x hx => if_pos hx)
  obtain ⟨g1, g2, g3⟩ := newSet_within h1
    (s := { rules := (List.range rs.rules.length).map (h.rules + ·), uncov := rs.uncov, possible := rs.possible })
    (fun x hx => by
      obtain ⟨i, -, rfl⟩ := List.mem_map.mp hx
      exact hc.freeRule _ (Nat.le_add_right _ _))
  exact ⟨g1, h2.trans g2, g3⟩

omit [Arith] [Arith.Lawful] in
theorem deepcopy_within {Z : Region} {h : Heap} (hc : Closed Z h) (a : Nat) :
    Closed Z (h.deepcopy a).2 ∧ Untouched Z h (h.deepcopy a).2 ∧ Z.set (h.deepcopy a).1 := by
  obtain ⟨h1, h2⟩ := moreRules_within hc (n := h.rules)
    (f := fun x => if x < h.rules then h.rule x else h.rule (x - h.rules)) (fun x hx => if_pos hx)
  obtain ⟨g1, g2, g3⟩ := newSet_within h1 (s := { h.set a with rules := (h.set a).rules.map (h.rules + ·) })
    (fun x hx => by
      obtain ⟨i, -, rfl⟩ := List.mem_map.mp hx
      exact hc.freeRule _ (Nat.le_add_right _ _))
  exact ⟨g1, h2.trans g2, g3⟩

omit [Arith] [Arith.Lawful] in
theorem newClf_within {Z : Region} {h : Heap} (hc : Closed Z h) {o : ClfObj} (ho : ∀ a, o.ruleset = some a → Z.set a) :
    Closed Z { h.putClf h.clfs o with clfs := h.clfs + 1 } ∧
    Untouched Z h { h.putClf h.clfs o with clfs := h.clfs + 1 } := by
  obtain ⟨h1, h2⟩ := putClf_within hc (hc.freeClf h.clfs (le_refl _)) ho
  exact ⟨⟨h1.ruleset, h1.rules, fun x hx => hc.freeClf x (Nat.le_of_succ_le hx), h1.freeSet, h1.freeRule⟩,
    ⟨h2.clf, h2.set, h2.rule⟩⟩


/-- Calls within a region. -/
def regionD (Z : Region) : Discipline where
  I := Closed Z
  T := Untouched Z
  okClf _ c := Z.clf c
  okSet _ a := Z.set a
  okRule _ x := Z.rule x
  copyable _ _ := True
  refl := Untouched.refl Z
  trans := Untouched.trans
  clfMono _ h := h
  setMono _ h := h
  ruleMono _ h := h
  ruleset hc hz e := hc.ruleset _ hz _ e
  rules hc hz e := hc.rules _ hz _ e
  putRule hc ha _ := putRule_within hc ha _
  putSet hc ha hs := putSet_within hc ha hs
  putClf hc ha hs := putClf_within hc ha hs
  newRule r hc := newRule_within hc r
  newSet hc hs := newSet_within hc hs
  newRuleset rs hc := newRuleset_within hc rs
  deepcopy hc _ := deepcopy_within hc _
  newClf hc ho := newClf_within hc ho

omit [Arith.Lawful] in
theorem fitAt_error_of_grows {m : Method} {fuel : Nat} {R : PyRandom} {F : PyFloat} {P : PandasCut} {c : Nat} {d : FitData}
    {im : ModelObj} {g : R.G} {h : Heap} {e : PyErr}
    (hg : m.grows fuel R F P (h.readClf c).nBins (h.readClf c).hyper d (im.seen m.bindsFirst c h) g = .error e) :
    ∃ e, answered (fitAt m fuel R F P c d im g h) = .error e := by
  rw [fitAt_run]
  cases bindInitial m.bindsFirst c (h.readClf c) im h with
  | error e h1 => exact ⟨e, rfl⟩
  | ok u h1 =>
    simp only []
    cases bindGrown (m.grows fuel R F P (h.readClf c).nBins (h.readClf c).hyper d (im.seen m.bindsFirst c h) g) c
      (after (m.fit fuel R F P d (im.seen m.bindsFirst c h) g (h.readClf c))) h1 with
    | error e h2 => exact ⟨e, rfl⟩
    | ok u h2 =>
      simp only []
      rw [(noEffect_run _ _).2]
      cases hf : m.fit fuel R F P d (im.seen m.bindsFirst c h) g (h.readClf c) with
      | error e v => exact ⟨e, rfl⟩
      | ok g' v =>
        obtain ⟨u, hu⟩ := fit_ok_grows hf
        rw [hu] at hg; cases hg

omit [Arith.Lawful] in
theorem within_ok {Z : Region} {h : Heap} {k : HCall} (hk : Within Z h k) : k.Ok (regionD Z) h := by
  have rule : ∀ r : RuleObj, RuleIn Z r → r.Ok (regionD Z) h := by
    intro r hr
    cases r <;> exact hr
  have edit : ∀ e : EditCall, EditIn Z e → e.Ok (regionD Z) h := by
    intro e he
    cases e <;> first | exact rule _ he | trivial
  have model : ∀ m : ModelObj, ModelIn Z m → m.Ok (regionD Z) h := by
    intro m hm
    cases m <;> exact hm
  have copyable : ∀ m : ModelObj, m.Copyable (regionD Z) h := by
    intro m
    cases m with
    | clf c => intro a _; trivial
    | _ => trivial
  cases k with
  | newClf => trivial
  | newRule => trivial
  | newSet => exact hk
  | copyClf => intro a _; trivial
  | copySet => trivial
  | init c m cf pc => exact ⟨hk, copyable m⟩
  | edit c e => exact ⟨hk.1, edit e hk.2⟩
  | editSet a e => exact ⟨hk.1, edit e hk.2⟩
  | recalibrate => exact hk
  | fit m fuel R F P c d im g =>
    refine ⟨hk.1, fun hb hg => model im (hk.2 hb ?_)⟩
    obtain ⟨e, he⟩ := hg
    exact fitAt_error_of_grows he
  | query => exact hk

omit [Arith.Lawful] in
/-- A history within a closed region leaves the rest untouched. -/
theorem run_within {Z : Region} {h h' : Heap} (hr : Run (Within Z) h h') (hc : Closed Z h) :
    Closed Z h' ∧ Untouched Z h h' := by
  induction hr with
  | refl h => exact ⟨hc, Untouched.refl Z h⟩
  | call k hk _ ih =>
    have hs := call_in (D := regionD Z) hc (within_ok hk)
    obtain ⟨h1, h2⟩ := ih hs.inv
    exact ⟨h1, hs.step.trans h2⟩

/-! ### existing objects -/

/-- References lead to existing objects, and free addresses are empty. -/
structure Sound (h : Heap) : Prop where
  ruleset : ∀ c a, (h.clf c).ruleset = some a → c < h.clfs ∧ a < h.sets
  rules : ∀ a x, x ∈ (h.set a).rules → a < h.sets ∧ x < h.rules

/-- Nothing disappears, and no rule gets other conditions. -/
structure Grows (h h' : Heap) : Prop where
  clfs : h.clfs ≤ h'.clfs
  sets : h.sets ≤ h'.sets
  rules : h.rules ≤ h'.rules
  conds : ∀ x < h.rules, (h'.rule x).conds = (h.rule x).conds

omit [Arith] [Arith.Lawful] in
theorem Grows.refl (h : Heap) : Grows h h := ⟨le_refl _, le_refl _, le_refl _, fun _ _ => rfl⟩

omit [Arith] [Arith.Lawful] in
theorem Grows.trans {a b c : Heap} (h1 : Grows a b) (h2 : Grows b c) : Grows a c :=
  ⟨h1.clfs.trans h2.clfs, h1.sets.trans h2.sets, h1.rules.trans h2.rules, fun x hx =>
    (h2.conds x (lt_of_lt_of_le hx h1.rules)).trans (h1.conds x hx)⟩

omit [Arith] [Arith.Lawful] in
theorem Sound.putSet {h : Heap} (hs : Sound h) {a : Nat} {s : SetObj} (ha : a < h.sets) (hr : ∀ x ∈ s.rules, x < h.rules) :
    Sound (h.putSet a s) := by
  refine ⟨hs.ruleset, fun b x hx => ?_⟩
  simp only [Heap.putSet] at hx ⊢
  split at hx
  · next e => exact ⟨e ▸ ha, hr x hx⟩
  · exact hs.rules b x hx

omit [Arith] [Arith.Lawful] in
theorem Sound.newSet {h : Heap} (hs : Sound h) {s : SetObj} (hr : ∀ x ∈ s.rules, x < h.rules) :
    Sound (h.newSet s).2 ∧ Grows h (h.newSet s).2 ∧ (h.newSet s).1 < (h.newSet s).2.sets := by
  refine ⟨⟨fun c a e => ?_, fun b x hx => ?_⟩, ⟨le_refl _, Nat.le_succ _, le_refl _, fun _ _ => rfl⟩, Nat.lt_succ_self _⟩
  · have := hs.ruleset c a e
    exact ⟨this.1, Nat.lt_succ_of_lt this.2⟩
  · simp only [Heap.newSet, Heap.putSet] at hx ⊢
    split at hx
    · next e => exact ⟨by rw [e]; exact Nat.lt_succ_self _, hr x hx⟩
    · have := hs.rules b x hx
      exact ⟨Nat.lt_succ_of_lt this.1, this.2⟩

omit [Arith] [Arith.Lawful] in
theorem Sound.moreRules {h : Heap} (hs : Sound h) {f : Nat → Rule} {n : Nat} (hf : ∀ x, x < h.rules → f x = h.rule x) :
    Sound { h with rule := f, rules := h.rules + n } ∧ Grows h { h with rule := f, rules := h.rules + n } := by
  refine ⟨⟨hs.ruleset, fun a x hx => ?_⟩, ⟨le_refl _, le_refl _, Nat.le_add_right _ _, fun x hx => congrArg Rule.conds (hf x hx)⟩⟩
  have := hs.rules a x hx
  exact ⟨this.1, Nat.lt_add_right _ this.2⟩

/-- Calls on existing objects. -/
def soundD : Discipline where
  I := Sound
  T := Grows
  okClf h c := c < h.clfs
  okSet h a := a < h.sets
  okRule h x := x < h.rules
  copyable h a := a < h.sets
  refl := Grows.refl
  trans := Grows.trans
  clfMono ht h := lt_of_lt_of_le h ht.clfs
  setMono ht h := lt_of_lt_of_le h ht.sets
  ruleMono ht h := lt_of_lt_of_le h ht.rules
  ruleset hs _ e := (hs.ruleset _ _ e).2
  rules hs _ e := (hs.rules _ _ e).2
  putRule {h a r} hs ha e := by
    refine ⟨⟨hs.ruleset, hs.rules⟩, ⟨le_refl _, le_refl _, le_refl _, fun x hx => ?_⟩⟩
    simp only [Heap.putRule]
    split
    · next e' => rw [e', e]
    · rfl
  putSet hs ha hr := ⟨hs.putSet ha hr, ⟨le_refl _, le_refl _, le_refl _, fun _ _ => rfl⟩⟩
  putClf {h c o} hs hz ho := by
    refine ⟨⟨fun b a e => ?_, hs.rules⟩, ⟨le_refl _, le_refl _, le_refl _, fun _ _ => rfl⟩⟩
    simp only [Heap.putClf] at e ⊢
    split at e
    · next e' => exact ⟨e' ▸ hz, ho a e⟩
    · exact hs.ruleset b a e
  newRule {h} r hs := by
    have := hs.moreRules (f := fun x => if x = h.rules then r else h.rule x) (n := 1)
      (fun x hx => if_neg (Nat.ne_of_lt hx))
    exact ⟨this.1, this.2, Nat.lt_succ_self _⟩
  newSet hs hr := hs.newSet hr
  newRuleset {h} rs hs := by
    obtain ⟨h1, h2⟩ := hs.moreRules (n := rs.rules.length)
      (f := fun x => if x < h.rules then h.rule x else rs.rules.getD (x - h.rules) (h.rule x)) (fun x hx => if_pos hx)
    obtain ⟨g1, g2, g3⟩ := h1.newSet
      (s := { rules := (List.range rs.rules.length).map (h.rules + ·), uncov := rs.uncov, possible := rs.possible })
      (fun x hx => by
        obtain ⟨i, hi, rfl⟩ := List.mem_map.mp hx
        exact Nat.add_lt_add_left (List.mem_range.mp hi) _)
    exact ⟨g1, h2.trans g2, g3⟩
  deepcopy {h a} hs ha := by
    obtain ⟨h1, h2⟩ := hs.moreRules (n := h.rules)
      (f := fun x => if x < h.rules then h.rule x else h.rule (x - h.rules)) (fun x hx => if_pos hx)
    obtain ⟨g1, g2, g3⟩ := h1.newSet (s := { h.set a with rules := (h.set a).rules.map (h.rules + ·) })
      (fun x hx => by
        obtain ⟨i, hi, rfl⟩ := List.mem_map.mp hx
        exact Nat.add_lt_add_left (hs.rules a i hi).2 _)
    exact ⟨g1, h2.trans g2, g3⟩
  newClf {h o} hs ho := by
    refine ⟨⟨fun b a e => ?_, hs.rules⟩, ⟨Nat.le_succ _, le_refl _, le_refl _, fun _ _ => rfl⟩⟩
    simp only [Heap.putClf] at e ⊢
    split at e
    · next e' => exact ⟨by rw [e']; exact Nat.lt_succ_self _, ho a e⟩
    · have := hs.ruleset b a e
      exact ⟨Nat.lt_succ_of_lt this.1, this.2⟩

omit [Arith.Lawful] in
theorem exists_ok {h : Heap} (hs : Sound h) {k : HCall} (hk : Spec.Exists h k) : k.Ok soundD h := by
  have rule : ∀ r : RuleObj, RuleExists h r → r.Ok soundD h := by
    intro r hr
    cases r <;> exact hr
  have edit : ∀ e : EditCall, EditExists h e → e.Ok soundD h := by
    intro e he
    cases e with
    | replace o r => exact rule _ he.2
    | insert o r => exact rule _ he.2
    | _ => first | exact rule _ he | trivial
  have model : ∀ m : ModelObj, ModelExists h m → m.Ok soundD h := by
    intro m hm
    cases m <;> exact hm
  have copyable : ∀ m : ModelObj, ModelExists h m → m.Copyable soundD h := by
    intro m hm
    cases m with
    | clf c => intro a e; exact (hs.ruleset c a e).2
    | ruleset a => exact hm
    | _ => trivial
  cases k with
  | newClf => trivial
  | newRule => trivial
  | newSet => exact hk
  | copyClf c => intro a e; exact (hs.ruleset c a e).2
  | copySet => exact hk
  | init c m cf pc => exact ⟨hk.1, copyable m hk.2⟩
  | edit c e => exact ⟨hk.1, edit e hk.2⟩
  | editSet a e => exact ⟨hk.1, edit e hk.2⟩
  | recalibrate => exact hk
  | fit m fuel R F P c d im g => exact ⟨hk.1, fun _ _ => model im hk.2⟩
  | query => exact hk

omit [Arith.Lawful] in
theorem run_grows {h h' : Heap} (hr : Run Spec.Exists h h') (hs : Sound h) : Sound h' ∧ Grows h h' := by
  induction hr with
  | refl h => exact ⟨hs, Grows.refl h⟩
  | call k hk _ ih =>
    have hc := call_in (D := soundD) hs (exists_ok hs hk)
    obtain ⟨h1, h2⟩ := ih hc.inv
    exact ⟨h1, hc.step.trans h2⟩

omit [Arith] [Arith.Lawful] in
theorem Sound.empty : Sound {} := ⟨fun _ _ e => (by cases e), fun _ _ e => (by cases e)⟩

omit [Arith.Lawful] in
theorem Spec.Reachable.sound {h : Heap} (hr : Reachable h) : Sound h := (run_grows hr Sound.empty).1

end Witt
