import Verif.Lemmas.HeapOwner
/-
C78: which objects share rules; C79: what sharing cannot change.
-/
namespace Witt
open Spec

/-- C78: calls on the objects of a closed region (any number of them, in any order, whether they return or raise) change
no classifier and no Ruleset object outside it. -/
theorem C78_apart [Arith] {Z : Region} {h h' : Heap} (hc : Closed Z h) (hr : Run (Within Z) h h') :
    (∀ a, ¬ Z.set a → (∀ x ∈ (h.set a).rules, ¬ Z.rule x) → h'.readSet a = h.readSet a) ∧
    (∀ c, ¬ Z.clf c → (∀ a, (h.clf c).ruleset = some a → ¬ Z.set a ∧ ∀ x ∈ (h.set a).rules, ¬ Z.rule x) →
      h'.readClf c = h.readClf c) := by
  obtain ⟨_, hu⟩ := run_within hr hc
  have sets : ∀ a, ¬ Z.set a → (∀ x ∈ (h.set a).rules, ¬ Z.rule x) → h'.readSet a = h.readSet a :=
    fun a ha hx => readSet_congr (hu.set a ha) (fun x hxm => hu.rule x (hx x hxm))
  exact ⟨sets, fun c hz hs => readClf_congr (hu.clf c hz) (fun a e => sets a (hs a e).1 (hs a e).2)⟩

/-- C78: `copy()` gives an equal classifier with rules of its own: whatever is done later with the copy, the original and
every other object stay as they are, and whatever is done with the others, the copy stays as it is. -/
theorem C78_copy [Arith] {h : Heap} (hr : Reachable h) {c : Nat} (hc : c < h.clfs) :
    ∃ b h1, (HCall.copyClf c).run h = .ok (.obj b) h1 ∧ h.clfs ≤ b ∧ h1.readClf b = h.readClf c ∧
      (∀ d < h.clfs, h1.readClf d = h.readClf d) ∧ (∀ a < h.sets, h1.readSet a = h.readSet a) ∧ OwnRules h h1 b := by
  have hs := hr.sound
  have hsnd := call_in (D := soundD) hs (exists_ok hs (k := .copyClf c) hc)
  have hreg := call_in (D := regionD (since h)) hs.closed_since (within_ok (k := .copyClf c) trivial)
  have hrun := copyClf_run c h
  have key : ∀ h1, (HCall.copyClf c).run h = .ok (.obj h.clfs) h1 → h1.clfs = h.clfs + 1 →
      h1.readClf h.clfs = h.readClf c →
      (∀ d < h.clfs, h1.readClf d = h.readClf d) ∧ (∀ a < h.sets, h1.readSet a = h.readSet a) ∧ OwnRules h h1 h.clfs := by
    intro h1 e1 e2 e3
    have s1 : Sound h1 := by have := hsnd.inv; rw [e1] at this; exact this
    have c1 : Closed (since h) h1 := by have := hreg.inv; rw [e1] at this; exact this
    have u1 : Untouched (since h) h h1 := by have := hreg.step; rw [e1] at this; exact this
    obtain ⟨k1, k2⟩ := hs.kept u1 (fun a ha => Nat.not_le.mpr ha) (fun x hx => Nat.not_le.mpr hx)
    refine ⟨fun d hd => k1 d (Nat.not_le.mpr hd), k2, ?_⟩
    refine ownRules hs s1 (by omega) (fun d h1 h2 => by omega) ?_ (u1.toSinceAnd _)
    refine ⟨fun d hd => c1.ruleset d (hd.elim (fun e => le_of_eq e.symm) id), c1.rules, fun d hd => Or.inr (c1.freeClf d hd),
      c1.freeSet, c1.freeRule⟩
  cases e : (h.clf c).ruleset with
  | none =>
    rw [e] at hrun
    have hread : Heap.readClf { h.putClf h.clfs (h.clf c) with clfs := h.clfs + 1 } h.clfs = h.readClf c := by
      simp only [Heap.readClf, Heap.putClf, if_true, e]; rfl
    exact ⟨_, _, hrun, le_refl _, hread, key _ hrun rfl hread⟩
  | some a =>
    rw [e] at hrun
    have hread : Heap.readClf { (h.deepcopy a).2.putClf h.clfs { attrs := (h.clf c).attrs, ruleset := some (h.deepcopy a).1 }
        with clfs := h.clfs + 1 } h.clfs = h.readClf c := by
      simp only [Heap.readClf, Heap.putClf, if_true, e, Option.map_some]
      rw [← readSet_deepcopy h a]
      rfl
    exact ⟨_, _, hrun, le_refl _, hread, key _ hrun rfl hread⟩

/-- Binding `ruleset_` of `c` to an object made since `h`. -/
theorem own_of_bind [Arith] {h h' : Heap} {c a : Nat} {v : Clf} (hs : Sound h) (hc : c < h.clfs) (c1 : Closed (since h) h')
    (u1 : Untouched (since h) h h') (ha : h.sets ≤ a) (hn : h'.clfs = h.clfs) (s2 : Sound (h'.putRef c v a)) :
    (∀ d < h.clfs, d ≠ c → (h'.putRef c v a).readClf d = h.readClf d) ∧
    (∀ a' < h.sets, (h'.putRef c v a).readSet a' = h.readSet a') ∧ OwnRules h (h'.putRef c v a) c := by
  obtain ⟨c2, u2⟩ := bind_since (c := c) c1 u1 ha v
  obtain ⟨k1, k2⟩ := hs.kept u2 (fun a ha => Nat.not_le.mpr ha) (fun x hx => Nat.not_le.mpr hx)
  have e : (h'.putRef c v a).clfs = h.clfs := hn
  exact ⟨fun d hd hdc => k1 d (fun hz => hz.elim hdc (Nat.not_le.mpr hd)), k2,
    ownRules hs s2 (by omega) (fun d h1 h2 => by omega) c2 u2⟩

/-- C78: `init_ruleset(model, ...)` leaves the classifier with rules of its own, whatever object the model is, and changes
no other object; if it raises, it changes nothing. -/
theorem C78_init_ruleset [Arith] {h : Heap} (hr : Reachable h) {c : Nat} (hc : c < h.clfs) {m : ModelObj} (hm : ModelExists h m)
    (cf : Feat) (pc : Val) :
    match (HCall.init c m cf pc).run h with
    | .error _ h1 => h1 = h
    | .ok _ h1 => (∀ d < h.clfs, d ≠ c → h1.readClf d = h.readClf d) ∧ (∀ a < h.sets, h1.readSet a = h.readSet a) ∧
        OwnRules h h1 c := by
  have hs := hr.sound
  have hsnd := (call_in (D := soundD) hs (exists_ok hs (k := .init c m cf pc) ⟨hc, hm⟩)).inv
  have hcop := copied_run m h
  have hreg : Keeps (regionD (since h)) m.copied (fun a h' => h.sets ≤ a) h := by
    refine copied_in (D := regionD (since h)) hs.closed_since ?_
    cases m with
    | clf c => intro a _; trivial
    | _ => trivial
  have hrun := init_run c m cf pc h
  cases e : (m.value h).toRuleset with
  | error e' =>
    rw [e] at hcop
    rw [hcop] at hrun
    rw [hrun]
  | ok rs =>
    rw [e] at hcop
    obtain ⟨a, h', e1, made, -⟩ := hcop
    have c1 := hreg.inv
    have u1 := hreg.step
    have ha := hreg.post a h' e1
    rw [e1] at c1 u1 hrun
    rw [hrun] at hsnd ⊢
    exact own_of_bind hs hc c1 u1 ha made.clfs hsnd

/-- C78: a deep copy of a Ruleset object reads the same, consists of new objects, and leaves every object there was as it
is. -/
theorem C78_copy_ruleset [Arith] {h : Heap} (hr : Reachable h) (a : Nat) :
    ∃ b h1, (HCall.copySet a).run h = .ok (.obj b) h1 ∧ h.sets ≤ b ∧ (∀ x ∈ (h1.set b).rules, h.rules ≤ x) ∧
      h1.readSet b = h.readSet a ∧
      (∀ d < h.clfs, h1.readClf d = h.readClf d) ∧ (∀ a' < h.sets, h1.readSet a' = h.readSet a') := by
  have hs := hr.sound
  obtain ⟨g1, g2, g3⟩ := deepcopy_within hs.closed_since a
  obtain ⟨k1, k2⟩ := hs.kept g2 (fun a ha => Nat.not_le.mpr ha) (fun x hx => Nat.not_le.mpr hx)
  exact ⟨(h.deepcopy a).1, (h.deepcopy a).2, rfl, g3, g1.rules _ g3, readSet_deepcopy h a,
    fun d hd => k1 d (Nat.not_le.mpr hd), k2⟩

/-- The outcome of `shared`, which changes nothing that exists. -/
theorem shared_since {h : Heap} (hs : Sound h) (m : ModelObj) :
    Closed (since h) (afterwards (m.shared h)) ∧ Untouched (since h) h (afterwards (m.shared h)) ∧
    (afterwards (m.shared h)).clfs = h.clfs := by
  have hk := shared_allocs (D := regionD (since h)) hs.closed_since m
  refine ⟨hk.inv, hk.step, ?_⟩
  have := shared_run m h
  cases e : (m.value h).early with
  | error e' => rw [e] at this; rw [this]; rfl
  | ok rs =>
    rw [e] at this
    obtain ⟨a, h', e1, -, made | ⟨e2, -⟩⟩ := this
    · rw [e1]; exact made.clfs
    · rw [e1, e2]; rfl

/-- C78: a `fit` that returns leaves the classifier with rules of its own, whatever object was passed as `initial_model`,
and changes no other object. -/
theorem C78_fit [Arith] {h : Heap} (hr : Reachable h) {m : Method} {fuel : Nat} {R : PyRandom} {F : PyFloat} {P : PandasCut} {c : Nat}
    (hc : c < h.clfs) {d : FitData} {im : ModelObj} (hm : ModelExists h im) {g : R.G} {r : Returned} {h1 : Heap}
    (ho : (HCall.fit m fuel R F P c d im g).run h = .ok r h1) :
    (∀ d < h.clfs, d ≠ c → h1.readClf d = h.readClf d) ∧ (∀ a < h.sets, h1.readSet a = h.readSet a) ∧ OwnRules h h1 c := by
  have hs := hr.sound
  have hsnd := (call_in (D := soundD) hs (exists_ok hs (k := .fit m fuel R F P c d im g) ⟨hc, hm⟩)).inv
  rw [ho] at hsnd
  rw [fit_run] at ho
  cases hg : m.grows fuel R F P (h.readClf c).nBins (h.readClf c).hyper d (im.seen m.bindsFirst c h) g with
  | error e =>
    obtain ⟨e', he⟩ := fitAt_error_of_grows hg
    cases hf : fitAt m fuel R F P c d im g h with
    | error e2 h2 => rw [hf] at ho; cases ho
    | ok g2 h2 => rw [hf] at he; cases he
  | ok u =>
    have hfit := fitAt_grown hg
    have key : ∀ h', Closed (since h) h' → Untouched (since h) h h' → h'.clfs = h.clfs → ∀ (x : Except PyErr R.G) v rs,
        fitAt m fuel R F P c d im g h = noEffect x ((h'.newRuleset rs).2.putRef c v (h'.newRuleset rs).1) →
        (∀ d < h.clfs, d ≠ c → h1.readClf d = h.readClf d) ∧ (∀ a < h.sets, h1.readSet a = h.readSet a) ∧
          OwnRules h h1 c := by
      intro h' c1 u1 n1 x v rs hx
      rw [hx] at ho
      cases x with
      | error e => cases ho
      | ok g' =>
        cases ho
        obtain ⟨g1, g2, g3⟩ := newRuleset_within c1 rs
        exact own_of_bind hs hc g1 (u1.trans g2) g3 n1 hsnd
    obtain ⟨c1, u1, n1⟩ := shared_since hs im
    by_cases hb : m.bindsFirst = true
    · rw [if_pos hb] at hfit
      cases hsh : im.shared h with
      | error e h2 => rw [hsh] at hfit; rw [hfit] at ho; cases ho
      | ok a h2 =>
        rw [hsh] at hfit c1 u1 n1
        exact key h2 c1 u1 n1 _ _ _ hfit
    · rw [if_neg hb] at hfit
      exact key h hs.closed_since (Untouched.refl _ _) rfl _ _ _ hfit

/-- C78: `fit` never changes its `initial_model`, nor any other object than the classifier it is called on, whether it
returns or raises. -/
theorem C78_fit_leaves_model [Arith] {h : Heap} (hr : Reachable h) {m : Method} {fuel : Nat} {R : PyRandom} {F : PyFloat}
    {P : PandasCut} {c : Nat} {d : FitData} {im : ModelObj} {g : R.G} :
    (∀ b < h.clfs, b ≠ c → (afterwards ((HCall.fit m fuel R F P c d im g).run h)).readClf b = h.readClf b) ∧
    (∀ a < h.sets, (afterwards ((HCall.fit m fuel R F P c d im g).run h)).readSet a = h.readSet a) := by
  have hs := hr.sound
  have hrun : afterwards ((HCall.fit m fuel R F P c d im g).run h) = afterwards (fitAt m fuel R F P c d im g h) := by
    rw [fit_run]; cases fitAt m fuel R F P c d im g h <;> rfl
  rw [hrun, fitAt_run]
  have done : ∀ h', Untouched (sinceAnd c h) h h' →
      (∀ b < h.clfs, b ≠ c → h'.readClf b = h.readClf b) ∧ (∀ a < h.sets, h'.readSet a = h.readSet a) := by
    intro h' u
    obtain ⟨k1, k2⟩ := hs.kept u (fun a ha => Nat.not_le.mpr ha) (fun x hx => Nat.not_le.mpr hx)
    exact ⟨fun b hb hbc => k1 b (fun hz => hz.elim hbc (Nat.not_le.mpr hb)), k2⟩
  obtain ⟨c0, u0, n0⟩ := shared_since hs im
  have put : ∀ h' (o : ClfObj), Untouched (sinceAnd c h) h h' → Untouched (sinceAnd c h) h (h'.putClf c o) := by
    intro h' o u
    refine ⟨fun b hb => ?_, u.set, u.rule⟩
    have hbc : b ≠ c := fun e => hb (Or.inl e)
    simp only [Heap.putClf, if_neg hbc]
    exact u.clf b hb
  have first : Untouched (sinceAnd c h) h (afterwards (bindInitial m.bindsFirst c (h.readClf c) im h)) ∧
      (afterwards (bindInitial m.bindsFirst c (h.readClf c) im h)).sets ≥ h.sets ∧
      (afterwards (bindInitial m.bindsFirst c (h.readClf c) im h)).rules ≥ h.rules := by
    rw [bindInitial_run]
    split
    · cases e : (im.value h).early with
      | error e' =>
        have := shared_run im h
        rw [e] at this
        rw [this]
        exact ⟨Untouched.refl _ _, le_refl _, le_refl _⟩
      | ok rs =>
        have := shared_run im h
        rw [e] at this
        obtain ⟨a, h', e1, -, e2⟩ := this
        rw [e1] at u0 ⊢
        refine ⟨put _ _ (u0.toSinceAnd c), ?_⟩
        rcases e2 with made | ⟨e3, -⟩
        · exact ⟨by show h.sets ≤ h'.sets; rw [made.sets]; exact Nat.le_succ _, made.more⟩
        · rw [e3]; exact ⟨le_refl _, le_refl _⟩
    · exact ⟨Untouched.refl _ _, le_refl _, le_refl _⟩
  cases hb : bindInitial m.bindsFirst c (h.readClf c) im h with
  | error e h1 => rw [hb] at first; exact done _ first.1
  | ok u h1 =>
    rw [hb] at first
    dsimp only
    have second : Untouched (sinceAnd c h) h (afterwards (bindGrown
        (m.grows fuel R F P (h.readClf c).nBins (h.readClf c).hyper d (im.seen m.bindsFirst c h) g) c
        (after (m.fit fuel R F P d (im.seen m.bindsFirst c h) g (h.readClf c))) h1)) := by
      cases m.grows fuel R F P (h.readClf c).nBins (h.readClf c).hyper d (im.seen m.bindsFirst c h) g with
      | error e => exact put _ _ first.1
      | ok u =>
        rw [bindGrown_ok]
        refine put _ _ ?_
        have made := Made.ruleset h1 ((after (m.fit fuel R F P d (im.seen m.bindsFirst c h) g (h.readClf c))).ruleset.getD
          { rules := [] })
        refine ⟨fun b hb => by rw [made.clf]; exact first.1.clf b hb, fun a ha => ?_, fun x hx => ?_⟩
        · have : a < h.sets := Nat.not_le.mp ha
          have h2 := first.2.1
          rw [made.set a (by rw [made.addr]; simp only [afterwards] at h2; omega)]
          exact first.1.set a ha
        · have : x < h.rules := Nat.not_le.mp hx
          have h2 := first.2.2
          rw [made.rule x (by simp only [afterwards] at h2; omega)]
          exact first.1.rule x hx
    cases hg : bindGrown (m.grows fuel R F P (h.readClf c).nBins (h.readClf c).hyper d (im.seen m.bindsFirst c h) g) c
        (after (m.fit fuel R F P d (im.seen m.bindsFirst c h) g (h.readClf c))) h1 with
    | error e h2 => rw [hg] at second; exact done _ second
    | ok u h2 =>
      rw [hg] at second
      dsimp only
      rw [(noEffect_run _ _).1]
      exact done _ second

/-! ### classifiers as values -/

/-- C78: in a program that lists no Rule object twice (and passes no other object's rules to an IREP `fit` that raises),
no two classifiers ever have a Ruleset object in common, and no two Ruleset objects a Rule object. -/
theorem C78_one_owner [Arith] {h : Heap} (hr : Orderly h) : OneOwner h := (orderly_sound hr).2

theorem raises_error {α β : Type} (e e' : PyErr) :
    (Except.error e' : Except PyErr α) = .error e ↔ (Except.error e' : Except PyErr β) = .error e := by simp
theorem raises_ok {α β : Type} {a : α} {b : β} (e : PyErr) :
    (Except.ok a : Except PyErr α) = .error e ↔ (Except.ok b : Except PyErr β) = .error e := by simp

theorem Clf.edit_eq (op : EditOp) (v : Clf) : Clf.edit op v = match v.ruleset with
    | none => .error .attributeError v
    | some rs => match op.call rs with
      | .ok _ rs' => .ok () { v with ruleset := some rs' }
      | .error e rs' => .error e { v with ruleset := some rs' } := by
  unfold Clf.edit
  rw [bind_run, self_run]
  cases v.ruleset with
  | none => rfl
  | some rs =>
    simp only [attr, outcome_ok, EditOp.run]
    cases op.call rs <;> rfl

/-- C78: in such a program `add_rule` and the other editing methods of a classifier do what they do with the classifier
as a value, and change no other object. -/
theorem C78_edit_as_value [Arith] {h : Heap} (hr : Orderly h) {c : Nat} {e : EditCall} :
    ActsAs h c (Clf.edit (e.value h) (h.readClf c)) ((HCall.edit c e).run h) := by
  obtain ⟨hs, ho⟩ := orderly_sound hr
  rw [editClf_run, Clf.edit_eq]
  have hrs : (h.readClf c).ruleset = (h.clf c).ruleset.map h.readSet := rfl
  rw [hrs]
  cases hc : (h.clf c).ruleset with
  | none => exact ⟨rfl, fun _ => raises_error _ _, fun _ _ _ => rfl, fun _ _ _ => rfl⟩
  | some a =>
    have hrun := edit_run hs a e
    unfold EditRuns at hrun
    simp only [Option.map_some]
    have other : ∀ d, d ≠ c → (h.clf d).ruleset ≠ some a := fun d hd e => hd (ho.ruleset d c a e hc)
    cases hv : (e.value h).call (h.readSet a) with
    | error err rs =>
      rw [hv] at hrun
      rw [hrun.1, hrun.2]
      refine ⟨?_, fun _ => raises_error _ _, fun _ _ _ => rfl, fun _ _ _ => rfl⟩
      show h.readClf c = { h.readClf c with ruleset := some (h.readSet a) }
      exact readClf_of rfl hc rfl
    | ok u rs =>
      rw [hv] at hrun
      obtain ⟨h', e1, e2, -⟩ := hrun
      rw [e1]
      obtain ⟨k1, k2⟩ := e2.others hs
      exact ⟨readClf_of e2.clf hc e2.read, fun _ => raises_ok _,
        fun d _ hd => k2 d (other d hd), fun b _ hb => k1 b (fun e => hb (by rw [hc, e]))⟩

/-- C78: in such a program an edit of a Ruleset object does what it does with the ruleset as a value, changes its owner (if
any) accordingly, and changes no other object. -/
theorem C78_edit_ruleset_as_value [Arith] {h : Heap} (hr : Orderly h) {a : Nat} {e : EditCall} :
    (afterwards ((HCall.editSet a e).run h)).readSet a = ((e.value h).run (h.readSet a)).1 ∧
    (∀ err, answered ((HCall.editSet a e).run h) = .error err ↔ ((e.value h).run (h.readSet a)).2 = some err) ∧
    (∀ b, b ≠ a → (afterwards ((HCall.editSet a e).run h)).readSet b = h.readSet b) ∧
    (∀ c, (afterwards ((HCall.editSet a e).run h)).readClf c =
      if (h.clf c).ruleset = some a then { h.readClf c with ruleset := some ((e.value h).run (h.readSet a)).1 }
      else h.readClf c) := by
  obtain ⟨hs, ho⟩ := orderly_sound hr
  rw [editSet_run]
  have hrun := edit_run hs a e
  unfold EditRuns at hrun
  unfold EditOp.run
  cases hv : (e.value h).call (h.readSet a) with
  | error err rs =>
    rw [hv] at hrun
    rw [hrun.1, hrun.2]
    refine ⟨rfl, fun e => by simp [answered], fun _ _ => rfl, fun c => ?_⟩
    by_cases hc : (h.clf c).ruleset = some a
    · rw [if_pos hc]; exact readClf_of rfl hc rfl
    · rw [if_neg hc]; rfl
  | ok u rs =>
    rw [hv] at hrun
    obtain ⟨h', e1, e2, -⟩ := hrun
    rw [e1]
    obtain ⟨k1, k2⟩ := e2.others hs
    refine ⟨e2.read, fun e => by simp [answered], k1, fun c => ?_⟩
    by_cases hc : (h.clf c).ruleset = some a
    · rw [if_pos hc]; exact readClf_of e2.clf hc e2.read
    · rw [if_neg hc]; exact k2 c hc

/-- C78: in such a program `recalibrate_proba` does what it does with the classifier as a value, and changes no other
object. -/
theorem C78_recalibrate_as_value [Arith] {h : Heap} (hr : Orderly h) {F : PyFloat} {c : Nat} {X : TFrame} {y : Option YArg}
    {names : Option (List Feat)} {disc : Bool} (ms : Option Int) (req : Bool) :
    ActsAs h c (Clf.recalibrate F X y names ms req disc (h.readClf c)) ((HCall.recalibrate F c X y names disc).run h) := by
  obtain ⟨hs, ho⟩ := orderly_sound hr
  rw [recalibrateClf_run, recalibrateClf_eq, Clf.recalibrate_eq]
  cases recalInput F (h.readClf c) X y names disc with
  | error e => exact ⟨rfl, fun _ => raises_error _ _, fun _ _ _ => rfl, fun _ _ _ => rfl⟩
  | ok p =>
    obtain ⟨df, cf, pc⟩ := p
    dsimp only
    have hrs : (h.readClf c).ruleset = (h.clf c).ruleset.map h.readSet := rfl
    rw [hrs]
    cases hc : (h.clf c).ruleset with
    | none => exact ⟨rfl, fun _ => raises_error _ _, fun _ _ _ => rfl, fun _ _ _ => rfl⟩
    | some a =>
      have other : ∀ d, d ≠ c → (h.clf d).ruleset ≠ some a := fun d hd e => hd (ho.ruleset d c a e hc)
      obtain ⟨h', e1, e2⟩ := recalibrateAt_run (ho.once a) df cf pc (h.clf c).attrs.hyper.alpha
      obtain ⟨k1, k2⟩ := e2.others ho
      simp only [Option.map_some]
      have halpha : (h.readClf c).hyper.alpha = (h.clf c).attrs.hyper.alpha := rfl
      rw [e1, halpha]
      have hread := readClf_of e2.clf hc e2.read
      cases hrec : recalibrate (h.readSet a) df cf pc (h.clf c).attrs.hyper.alpha with
      | mk rs err =>
        rw [hrec] at hread
        cases err with
        | none =>
          exact ⟨hread, fun _ => raises_ok _, fun d _ hd => k2 d (other d hd),
            fun b _ hb => k1 b (fun e => hb (by rw [hc, e]))⟩
        | some e =>
          exact ⟨hread, fun _ => raises_error _ _, fun d _ hd => k2 d (other d hd),
            fun b _ hb => k1 b (fun e => hb (by rw [hc, e]))⟩

/-- Reading a classifier just bound. -/
theorem readClf_putRef (h : Heap) (c a : Nat) (v : Clf) :
    (h.putRef c v a).readClf c = { v with ruleset := some (h.readSet a) } := by
  simp only [Heap.readClf, clf_putRef, Option.map_some]
  rfl

theorem readClf_putAttrs (h : Heap) (c : Nat) (v : Clf) :
    (h.putAttrs c v).readClf c = { v with ruleset := (h.readClf c).ruleset } := by
  simp only [Heap.readClf, Heap.putAttrs, Heap.putClf, if_true]
  rfl

theorem Clf.withRuleset {v : Clf} {x : Option Ruleset} (e : v.ruleset = x) : { v with ruleset := x } = v := by
  subst e; rfl

theorem readClf_putClf_ne (h : Heap) {c d : Nat} (o : ClfObj) (hd : d ≠ c) : (h.putClf c o).readClf d = h.readClf d := by
  simp only [Heap.readClf, Heap.putClf, if_neg hd]
  rfl

/-- C78: in any program, the queries of a classifier (`predict`, `predict_proba`, `score`, `rule_stats`, ...) do what they do
with the classifier as a value, give that answer, and change no other object. -/
theorem C78_query_as_value [Arith] (h : Heap) (F : PyFloat) (c : Nat) (q : Call) :
    ActsAs h c (q.run F (h.readClf c)) ((HCall.query F c q).run h) ∧
    answered ((HCall.query F c q).run h) = (returned (q.run F (h.readClf c))).map .answer := by
  have hq := (call_facts F q (h.readClf c)).effect.rest
  have hv : (after (q.run F (h.readClf c))).ruleset = (h.readClf c).ruleset := by rw [hq]
  rw [queryClf_run]
  cases e : q.run F (h.readClf c) with
  | ok x v =>
    rw [e] at hv
    refine ⟨⟨?_, fun _ => raises_ok _, fun d _ hd => readClf_putClf_ne h _ hd, fun _ _ _ => rfl⟩, rfl⟩
    show (h.putAttrs c v).readClf c = v
    rw [readClf_putAttrs]
    exact Clf.withRuleset hv
  | error err v =>
    rw [e] at hv
    refine ⟨⟨?_, fun _ => raises_error _ _, fun d _ hd => readClf_putClf_ne h _ hd, fun _ _ _ => rfl⟩, rfl⟩
    show (h.putAttrs c v).readClf c = v
    rw [readClf_putAttrs]
    exact Clf.withRuleset hv

/-- C78: in any program, `init_ruleset` does what it does with classifier and model as values, and changes no other object. -/
theorem C78_init_as_value [Arith] {h : Heap} (hr : Reachable h) {c : Nat} (m : ModelObj) (cf : Feat) (pc : Val) :
    ActsAs h c (Clf.initRuleset (m.value h) cf pc (h.readClf c)) ((HCall.init c m cf pc).run h) := by
  have hs := hr.sound
  have hcop := copied_run m h
  have hv : Clf.initRuleset (m.value h) cf pc (h.readClf c) = match (m.value h).toRuleset with
      | .error e => .error e (h.readClf c)
      | .ok rs => .ok () { h.readClf c with
          ruleset := some rs, classFeat := some cf, posClass := some pc, selected := some rs.selectedFeatures,
          trainFeats := some rs.selectedFeatures } := by
    unfold Clf.initRuleset
    rw [bind_pureCode]
    cases (m.value h).toRuleset <;> rfl
  rw [init_run, hv]
  cases e : (m.value h).toRuleset with
  | error e' =>
    rw [e] at hcop
    rw [hcop]
    exact ⟨rfl, fun _ => raises_error _ _, fun _ _ _ => rfl, fun _ _ _ => rfl⟩
  | ok rs =>
    rw [e] at hcop
    obtain ⟨a, h', e1, made, hread⟩ := hcop
    rw [e1]
    have sets : ∀ b < h.sets, h'.readSet b = h.readSet b := fun b hb =>
      readSet_congr (made.set b (by rw [made.addr]; omega)) (fun x hx => made.rule x (hs.rules b x hx).2)
    refine ⟨?_, fun _ => raises_ok _, fun d _ hd => ?_, fun b hb _ => sets b hb⟩
    · show (h'.putRef c _ a).readClf c = _
      rw [readClf_putRef, hread, made.clf]
      rfl
    · refine (readClf_putClf_ne h' _ hd).trans ?_
      exact readClf_congr (by rw [made.clf]) (fun b hb => sets b (hs.ruleset d b hb).2)

/-- The model an unfitted IREP object finds in itself is an empty one; any other argument is read as it is. -/
theorem seen_value {im : ModelObj} {first : Bool} {c : Nat} {h : Heap}
    (hi : first = true → im = .clf c → (h.clf c).ruleset ≠ none) : im.seen first c h = im.value h := by
  cases im with
  | clf b =>
    simp only [ModelObj.seen, ModelObj.value]
    rw [if_neg]
    rintro ⟨h1, rfl, h2⟩
    exact hi h1 rfl h2
  | _ => rfl

/-- What `fit` leaves at `c`, and how it ends, in terms of values. -/
theorem fitAt_value [Arith] {h : Heap} {m : Method} {fuel : Nat} {R : PyRandom} {F : PyFloat} {P : PandasCut} {c : Nat}
    {d : FitData} {im : ModelObj} {g : R.G} :
    (afterwards (fitAt m fuel R F P c d im g h)).readClf c =
      after (m.fit fuel R F P d (im.seen m.bindsFirst c h) g (h.readClf c)) ∧
    answered (fitAt m fuel R F P c d im g h) =
      returned (m.fit fuel R F P d (im.seen m.bindsFirst c h) g (h.readClf c)) := by
  obtain ⟨v, hv⟩ : ∃ v, v = h.readClf c := ⟨_, rfl⟩
  obtain ⟨model, hmodel⟩ : ∃ x, x = im.seen m.bindsFirst c h := ⟨_, rfl⟩
  rw [fitAt_run, bindInitial_run, ← hmodel, ← hv]
  have hearly := early_seen im m.bindsFirst c h
  rw [← hmodel] at hearly
  have hshared := shared_run im h
  -- from the heap in which the rules are bound
  have key : ∀ (h1 : Heap) (rs : Ruleset), (m.bindsFirst = true → model.early = .ok rs) →
      (h1.readClf c).ruleset = (if m.bindsFirst then some rs else v.ruleset) → ∀ res,
      res = (match bindGrown (m.grows fuel R F P v.nBins v.hyper d model g) c (after (m.fit fuel R F P d model g v)) h1 with
        | .error e h2 => .error e h2
        | .ok _ h2 => noEffect (returned (m.fit fuel R F P d model g v)) h2) →
      (afterwards res).readClf c = after (m.fit fuel R F P d model g v) ∧
        answered res = returned (m.fit fuel R F P d model g v) := by
    intro h1 rs he h1r res hres
    have hl := fit_leaves (fuel := fuel) (R := R) (F := F) (P := P) (d := d) (g := g) (v := v) he
    unfold FitLeaves at hl
    cases hg : m.grows fuel R F P v.nBins v.hyper d model g with
    | error e =>
      rw [hg] at hl hres
      have hb : bindGrown (.error e) c (after (m.fit fuel R F P d model g v)) h1 =
          .ok () (h1.putAttrs c (after (m.fit fuel R F P d model g v))) := rfl
      rw [hb] at hres
      rw [hres]
      dsimp only
      rw [(noEffect_run _ _).1, (noEffect_run _ _).2]
      refine ⟨?_, rfl⟩
      rw [readClf_putAttrs, h1r]
      exact Clf.withRuleset hl.2
    | ok u =>
      rw [hg] at hl hres
      rw [bindGrown_ok] at hres
      rw [hres]
      dsimp only
      rw [(noEffect_run _ _).1, (noEffect_run _ _).2]
      refine ⟨?_, rfl⟩
      rw [readClf_putRef, readSet_newRuleset]
      refine Clf.withRuleset ?_
      obtain ⟨rs', hrs⟩ := Option.isSome_iff_exists.mp hl
      rw [hrs]; rfl
  by_cases hb : m.bindsFirst = true
  · simp only [hb, if_true]
    cases he : (im.value h).early with
    | error e =>
      rw [he] at hshared hearly
      rw [hshared, fit_unread hb hearly]
      exact ⟨hv.symm, rfl⟩
    | ok rs =>
      rw [he] at hshared hearly
      obtain ⟨a, h', e1, e2, -⟩ := hshared
      rw [e1]
      refine key (h'.putRef c v a) rs (fun _ => hearly) ?_ _ rfl
      rw [readClf_putRef, e2, if_pos hb]
  · simp only [hb]
    refine key h { rules := [] } (fun h => absurd h hb) ?_ _ rfl
    rw [← hv, if_neg hb]

/-- C78: in any program, `fit` does what it does with classifier and initial model as values, and changes no other object
(an IREP object without rules passed to itself is the case of the next theorem). -/
theorem C78_fit_as_value [Arith] {h : Heap} (hr : Reachable h) {m : Method} {fuel : Nat} {R : PyRandom} {F : PyFloat}
    {P : PandasCut} {c : Nat} {d : FitData} {im : ModelObj} {g : R.G}
    (hi : m.bindsFirst = true → im = .clf c → (h.readClf c).ruleset ≠ none) :
    ActsAs h c (m.fit fuel R F P d (im.value h) g (h.readClf c)) ((HCall.fit m fuel R F P c d im g).run h) := by
  have hv := fitAt_value (h := h) (m := m) (fuel := fuel) (R := R) (F := F) (P := P) (c := c) (d := d) (im := im) (g := g)
  rw [seen_value (fun h1 h2 h3 => hi h1 h2 (by simp [Heap.readClf, h3]))] at hv
  obtain ⟨k1, k2⟩ := C78_fit_leaves_model hr (m := m) (fuel := fuel) (R := R) (F := F) (P := P) (c := c) (d := d) (im := im)
    (g := g)
  refine ⟨?_, ?_, k1, fun a ha _ => k2 a ha⟩
  · rw [← hv.1, fit_run]; cases fitAt m fuel R F P c d im g h <;> rfl
  · intro e
    rw [← hv.2, fit_run]
    cases fitAt m fuel R F P c d im g h with
    | ok a h' => exact raises_ok _
    | error e' h' => exact raises_error _ _

/-- C78: an IREP object that has no rules yet, passed to its own `fit` as the initial model, is no model at all. -/
theorem C78_fit_self_unfitted [Arith] {h : Heap} (hr : Reachable h) {m : Method} (hm : m.bindsFirst = true) {fuel : Nat}
    {R : PyRandom} {F : PyFloat} {P : PandasCut} {c : Nat} {d : FitData} {g : R.G} (hn : (h.readClf c).ruleset = none) :
    ActsAs h c (m.fit fuel R F P d .nothing g (h.readClf c)) ((HCall.fit m fuel R F P c d (.clf c) g).run h) := by
  have hv := fitAt_value (h := h) (m := m) (fuel := fuel) (R := R) (F := F) (P := P) (c := c) (d := d) (im := .clf c)
    (g := g)
  have hseen : (ModelObj.clf c).seen m.bindsFirst c h = .nothing := by
    have hn' : (h.clf c).ruleset = none := by simpa [Heap.readClf] using hn
    unfold ModelObj.seen
    dsimp only
    rw [if_pos ⟨hm, rfl, hn'⟩]
  rw [hseen] at hv
  obtain ⟨k1, k2⟩ := C78_fit_leaves_model hr (m := m) (fuel := fuel) (R := R) (F := F) (P := P) (c := c) (d := d)
    (im := .clf c) (g := g)
  refine ⟨?_, ?_, k1, fun a ha _ => k2 a ha⟩
  · rw [← hv.1, fit_run]; cases fitAt m fuel R F P c d (.clf c) g h <;> rfl
  · intro e
    rw [← hv.2, fit_run]
    cases fitAt m fuel R F P c d (.clf c) g h with
    | ok a h' => exact raises_ok _
    | error e' h' => exact raises_error _ _

/-! ### what sharing cannot change -/

theorem getConds_conds {rs rs' : List Rule} (hc : rs'.map Rule.conds = rs.map Rule.conds) (acc : List Cond) :
    getCondsAux acc rs' = getCondsAux acc rs := by
  induction rs generalizing rs' acc with
  | nil => cases rs' with
    | nil => rfl
    | cons r rs => cases hc
  | cons r rs ih => cases rs' with
    | nil => cases hc
    | cons r' rs' =>
      simp only [List.map_cons, List.cons.injEq] at hc
      simp only [getCondsAux, hc.1]
      rw [ih hc.2]

theorem ruleTable_conds {rs rs' : Ruleset} (hc : rs'.rules.map Rule.conds = rs.rules.map Rule.conds) (pc : Val)
    (y : Option (List Val)) (df : Frame) : ruleTable pc y rs' df = ruleTable pc y rs df := by
  unfold ruleTable
  dsimp only
  have key : ∀ (ac : Option (List Bool)) (l l' : List Rule) (n : Nat), l'.map Rule.conds = l.map Rule.conds →
      (l'.zipIdx n).mapM (fun ri => ruleStat df ac ri.2 ri.1) = (l.zipIdx n).mapM (fun ri => ruleStat df ac ri.2 ri.1) := by
    intro ac l
    induction l with
    | nil => intro l' n h; cases l' with
      | nil => rfl
      | cons r rs => cases h
    | cons r l ih => intro l' n h; cases l' with
      | nil => cases h
      | cons r' l' =>
        simp only [List.map_cons, List.cons.injEq] at h
        simp only [List.zipIdx_cons, List.mapM_cons, ih l' (n + 1) h.2]
        have : ruleStat df ac n r' = ruleStat df ac n r := by
          unfold ruleStat Rule.covers Rule.text; rw [h.1]
        rw [this]
  rw [key _ _ _ 0 hc]

/-- Queries whose answer depends on the conditions only. -/
theorem query_conds {α : Type} {act act' : Ruleset → Frame → Except PyErr α} {rs rs' : Ruleset}
    (hc : rs'.rules.map Rule.conds = rs.rules.map Rule.conds) (ha : ∀ df, act' rs' df = act rs df) (F : PyFloat) (X : TFrame)
    (names : Option (List Feat)) (c : Clf) :
    returned (query F act' X names { c with ruleset := some rs' }) =
      returned (query F act X names { c with ruleset := some rs }) := by
  have hans : ∀ c : Clf, answer F act' X names { c with ruleset := some rs' } =
      answer F act X names { c with ruleset := some rs } := by
    intro c
    unfold answer
    simp only [attr, ok_bind, ha]
  obtain ⟨c1, hc1⟩ : ∃ x : Clf, x = { c with ruleset := some rs' } := ⟨_, rfl⟩
  obtain ⟨c2, hc2⟩ : ∃ x : Clf, x = { c with ruleset := some rs } := ⟨_, rfl⟩
  have r1 : c1.ruleset = some rs' := by rw [hc1]
  have r2 : c2.ruleset = some rs := by rw [hc2]
  have b1 : c1.binner = c.binner := by rw [hc1]
  have b2 : c2.binner = c.binner := by rw [hc2]
  have a1 : answer F act' X names c1 = answer F act X names c2 := by rw [hc1, hc2]; exact hans c
  have a2 : answer F act' X names c1.withEmptyBinner = answer F act X names c2.withEmptyBinner := by
    rw [hc1, hc2]; exact hans c.withEmptyBinner
  rw [← hc1, ← hc2]
  cases hb : c.binner with
  | some b =>
    rw [query_some r1 (b1.trans hb), query_some r2 (b2.trans hb), returned_outcome, returned_outcome, a1]
  | none =>
    rw [query_none r1 (b1.trans hb), query_none r2 (b2.trans hb)]
    have : constructFromRuleset F rs' = constructFromRuleset F rs := by
      unfold constructFromRuleset Ruleset.getConds; rw [getConds_conds hc]
    rw [this]
    cases constructFromRuleset F rs with
    | error e => rfl
    | ok u =>
      simp only [returned_outcome]
      exact a2

theorem coverage_conds {rs rs' : Ruleset} (hc : rs'.rules.map Rule.conds = rs.rules.map Rule.conds) (F : PyFloat) (q : Call)
    (hq : OfCoverage q) (c : Clf) : returned (q.run F { c with ruleset := some rs' }) =
      returned (q.run F { c with ruleset := some rs }) := by
  cases q with
  | predict X names =>
    simp only [Call.run]
    rw [(wrap_run _ Answer.predictions _).1, (wrap_run _ Answer.predictions _).1, predict_eq_query]
    rw [query_conds hc (fun df => predict_conds hc df)]
  | score X y f =>
    simp only [Call.run]
    rw [(wrap_run _ Answer.score _).1, (wrap_run _ Answer.score _).1, score_eq_query, score_eq_query]
    refine congrArg (Except.map Answer.score) (query_conds hc (fun df => ?_) F X none c)
    simp only [predict_conds hc df]
  | ruleStats X y names =>
    simp only [Call.run]
    rw [(wrap_run _ Answer.stats _).1, (wrap_run _ Answer.stats _).1, ruleStats_eq_query, ruleStats_eq_query]
    refine congrArg (Except.map Answer.stats) (query_conds hc (fun df => ?_) F X names c)
    simp only [ruleTable_conds hc]
  | _ => exact hq.elim

/-- C79: the conditions of a Rule object never change, whatever is called in any order. -/
theorem C79_conditions_permanent [Arith] {h h' : Heap} (hr : Reachable h) (hrun : Run Spec.Exists h h') {x : Nat} (hx : x < h.rules) :
    (h'.rule x).conds = (h.rule x).conds :=
  (run_grows hrun hr.sound).2.conds x hx

/-- C79: classifiers and Ruleset objects may share Rule objects: calls on some of them (`C`, `S` and new ones; any rules,
also those of the others, may be put into them, and be recalibrated there) never change what the others predict, how they
score, or their `rule_stats`. -/
theorem C79_shared_rules [Arith] {h h' : Heap} (hr : Reachable h) {C S : Nat → Prop} (hc : Closed ⟨C, S, fun _ => True⟩ h)
    (hrun : Run (fun h k => Spec.Exists h k ∧ Within ⟨C, S, fun _ => True⟩ h k) h h') :
    (∀ a < h.sets, ¬ S a → ∀ df, (h'.readSet a).predict df = (h.readSet a).predict df) ∧
    (∀ c, ¬ C c → (∀ a, (h.clf c).ruleset = some a → ¬ S a) → ∀ F q, OfCoverage q →
      returned (q.run F (h'.readClf c)) = returned (q.run F (h.readClf c))) := by
  have mono : ∀ {P Q : Heap → HCall → Prop}, (∀ h k, P h k → Q h k) → ∀ {h h'}, Run P h h' → Run Q h h' := by
    intro P Q hpq h h' hr
    induction hr with
    | refl h => exact .refl h
    | call k hk _ ih => exact .call k (hpq _ _ hk) ih
  obtain ⟨_, hg⟩ := run_grows (mono (fun _ _ h => h.1) hrun) hr.sound
  obtain ⟨_, hu⟩ := run_within (mono (fun _ _ h => h.2) hrun) hc
  have hs := hr.sound
  have conds : ∀ a, ¬ S a → (h'.readSet a).rules.map Rule.conds = (h.readSet a).rules.map Rule.conds := by
    intro a ha
    simp only [Heap.readSet, hu.set a ha, List.map_map]
    exact List.map_congr_left (fun x hx => hg.conds x (hs.rules a x hx).2)
  refine ⟨fun a _ ha df => predict_conds (conds a ha) df, fun c hC hS F q hq => ?_⟩
  have hcl := hu.clf c hC
  cases e : (h.clf c).ruleset with
  | none =>
    have : h'.readClf c = h.readClf c := readClf_congr hcl (fun a e' => by rw [e] at e'; cases e')
    rw [this]
  | some a =>
    have e1 : h'.readClf c = { (h.clf c).attrs with ruleset := some (h'.readSet a) } := by
      simp only [Heap.readClf, hcl, e, Option.map_some]
    have e2 : h.readClf c = { (h.clf c).attrs with ruleset := some (h.readSet a) } := by
      simp only [Heap.readClf, e, Option.map_some]
    rw [e1, e2]
    exact coverage_conds (conds a (hS a e)) F q hq _

/-! ### examples -/

namespace Demo
/-- The heap after a series of calls. -/
def played : List HCall → Heap → Heap
  | [], h => h
  | k :: ks, h => played ks (afterwards (k.run h))
/-- Every call is allowed when it is made. -/
def Allowed (P : Heap → HCall → Prop) : List HCall → Heap → Prop
  | [], _ => True
  | k :: ks, h => P h k ∧ Allowed P ks (afterwards (k.run h))
theorem run_played {P : Heap → HCall → Prop} (ks : List HCall) {h : Heap} (ha : Allowed P ks h) : Run P h (played ks h) := by
  induction ks generalizing h with
  | nil => exact .refl h
  | cons k ks ih => exact .call k ha.1 (ih ha.2)
/-- A rule, a Ruleset object with it, two classifiers initialised from that object, one of them edited, and a copy of it. -/
def separate : List HCall :=
  [.newRule [⟨fa, vx⟩], .newSet [0], .newClf {} none, .newClf {} none, .init 0 (.ruleset 0) (.name p!"c") (.str p!"p"),
    .init 1 (.ruleset 0) (.name p!"c") (.str p!"p"), .edit 1 (.add (.text p!"b=x")), .copyClf 1]
/-- One Rule object, put into two classifiers; one of them recalibrated. -/
def sharing : List HCall :=
  [.newClf {} none, .newClf {} none, .newRule [⟨fa, vx⟩], .init 0 .nothing (.name p!"c") (.str p!"p"),
    .init 1 .nothing (.name p!"c") (.str p!"p"), .edit 0 (.add (.obj 0)), .edit 1 (.add (.obj 0)),
    .query F 1 (.predict tdf none),
    .recalibrate F 1 tdf (some (.list [.str p!"p", .str p!"n", .str p!"n"])) none false]
/-- The other one recalibrated, on other labels. -/
def recalibrated : HCall := .recalibrate F 0 tdf (some (.list [.str p!"n", .str p!"n", .str p!"n"])) none false
/-- An IREP object that fails to learn (there are no labels), starting from a Ruleset object. -/
def failing : List HCall :=
  [.newRule [⟨fa, vx⟩], .newSet [0], .newClf {} none, .fit .irep 0 R0 F P 0 { X := tdf } (.ruleset 0) ()]
theorem separate_orderly : Orderly (played separate {}) := by
  refine run_played _ ⟨⟨trivial, trivial⟩, ⟨?_, ?_⟩, ⟨trivial, trivial⟩, ⟨trivial, trivial⟩, ⟨⟨?_, ?_⟩, trivial⟩, ⟨⟨?_, ?_⟩, trivial⟩,
    ⟨⟨?_, trivial⟩, trivial⟩, ⟨?_, trivial⟩, trivial⟩
  · intro x hx; rw [List.mem_singleton.mp hx]; decide
  · exact ⟨by decide, fun x _ a hx => by cases hx⟩
  all_goals (show (_ : Nat) < _; decide)
theorem sharing_reachable : Reachable (played sharing {}) := by
  refine run_played _ ⟨trivial, trivial, trivial, ⟨?_, trivial⟩, ⟨?_, trivial⟩, ⟨?_, ?_⟩, ⟨?_, ?_⟩, ?_, ?_, trivial⟩ <;>
    (show (_ : Nat) < _; decide +kernel)
theorem failing_reachable : Reachable (played failing {}) := by
  refine run_played _ ⟨trivial, ?_, trivial, ⟨?_, ?_⟩, trivial⟩
  · intro x hx; rw [List.mem_singleton.mp hx]; decide
  · decide
  · show (_ : Nat) < _; decide
end Demo

/-- The hypotheses of C78 are met: an orderly program in which four classifiers and Ruleset objects hold equal rules, and all
of them are different objects. -/
example : Orderly (Demo.played Demo.separate {}) ∧
    (let h := Demo.played Demo.separate {}
     (h.clfs, h.sets, (List.range 3).map (fun c => (h.clf c).ruleset), (List.range 4).map (fun a => (h.set a).rules),
        (List.range 4).map (fun a => (h.readSet a).text)) =
      (3, 4, [some 1, some 2, some 3], [[0], [1], [2, 4], [7, 9]],
        [p!"[[a=x]]", p!"[[a=x]]", p!"[[a=x] V [b=x]]", p!"[[a=x] V [b=x]]"])) :=
  ⟨Demo.separate_orderly, by decide +kernel⟩

/-- C78 fails after an IREP `fit` that raised: the classifier is left with the Ruleset object passed as `initial_model`
itself, and `add_rule` on the classifier then adds to the caller's Ruleset. -/
theorem C78_refuted_failed_fit :
    Reachable (Demo.played Demo.failing {}) ∧
    (let h := Demo.played Demo.failing {}
     let h' := afterwards ((HCall.edit 0 (.add (.text p!"b=x"))).run h)
     (h.readSet 0).text = p!"[[a=x]]" ∧ (h'.readSet 0).text = p!"[[a=x] V [b=x]]") :=
  ⟨Demo.failing_reachable, by decide +kernel⟩

/-- C79 is about predictions, not about probabilities: two classifiers given the same Rule object; recalibrating one of them
changes what the other answers to `predict_proba` (and not what it answers to `predict`). -/
theorem C79_refuted_probabilities :
    Reachable (Demo.played Demo.sharing {}) ∧
    (let h := Demo.played Demo.sharing {}
     let h' := afterwards (Demo.recalibrated.run h)
     let probas (h : Heap) := returned (Clf.predictProba Demo.F Demo.tdf none (h.readClf 1))
     let predictions (h : Heap) := returned (Clf.predict Demo.F Demo.tdf none (h.readClf 1))
     probas h = .ok [(1 / 3, 2 / 3), (3 / 4, 1 / 4), (3 / 4, 1 / 4)] ∧
     probas h' = .ok [(2 / 3, 1 / 3), (3 / 4, 1 / 4), (3 / 4, 1 / 4)] ∧
     predictions h = .ok [true, false, false] ∧ predictions h' = .ok [true, false, false]) :=
  ⟨Demo.sharing_reachable, by decide +kernel⟩

/-- The hypotheses of `C79_shared_rules` are met in that program: the region is everything but classifier 1 and its Ruleset
object, whose rule is shared with classifier 0. -/
example :
    let h := Demo.played Demo.sharing {}
    Reachable h ∧ Closed ⟨fun c => c ≠ 1, fun a => a ≠ 1, fun _ => True⟩ h ∧
    Run (fun h k => Spec.Exists h k ∧ Within ⟨fun c => c ≠ 1, fun a => a ≠ 1, fun _ => True⟩ h k) h
      (afterwards (Demo.recalibrated.run h)) ∧ (h.clf 1).ruleset = some 1 ∧ (h.set 0).rules = [0] ∧ (h.set 1).rules = [0] := by
  intro h
  have hs := Demo.sharing_reachable.sound
  have hn : h.clfs = 2 ∧ h.sets = 2 ∧ (h.clf 0).ruleset = some 0 := by decide +kernel
  refine ⟨Demo.sharing_reachable, ⟨fun c hc a e => ?_, fun _ _ _ _ => trivial, fun c hc => ?_, fun a ha => ?_, fun _ _ => trivial⟩,
    .call _ ⟨?_, ?_⟩ (.refl _), by decide +kernel, by decide +kernel, by decide +kernel⟩
  · have h2 := (hs.ruleset c a e).1
    have h3 : c = 0 := by
      have : c < 2 := by rw [← hn.1]; exact h2
      have : c ≠ 1 := hc
      omega
    subst h3
    rw [hn.2.2] at e
    cases e
    exact Nat.zero_ne_one
  · rw [hn.1] at hc; show c ≠ 1; omega
  · rw [hn.2.1] at ha; show a ≠ 1; omega
  · show 0 < h.clfs; rw [hn.1]; decide
  · exact Nat.zero_ne_one

end Witt
