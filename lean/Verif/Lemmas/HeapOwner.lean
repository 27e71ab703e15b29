import Verif.Lemmas.HeapValues
/-
Calls that share nothing keep every Ruleset object with one classifier and every Rule object with one Ruleset object.
-/
namespace Witt
open Spec
variable [Arith] [Arith.Lawful]

omit [Arith.Lawful] in
theorem copyClf_run (c : Nat) (h : Heap) :
    (HCall.copyClf c).run h = match (h.clf c).ruleset with
      | none => .ok (.obj h.clfs) { h.putClf h.clfs (h.clf c) with clfs := h.clfs + 1 }
      | some a => .ok (.obj h.clfs)
        { (h.deepcopy a).2.putClf h.clfs { attrs := (h.clf c).attrs, ruleset := some (h.deepcopy a).1 } with
          clfs := h.clfs + 1 } := by
  show ((MonadStateOf.get >>= fun s : Heap => _) : OnHeap Returned) h = _
  rw [heap_bind]
  show (match (h.clf c).ruleset with
    | none => _
    | some a => _ : OnHeap Returned) h = _
  cases (h.clf c).ruleset with
  | none => rfl
  | some a => rfl

omit [Arith.Lawful] in
theorem init_run (c : Nat) (m : ModelObj) (cf : Feat) (pc : Val) (h : Heap) :
    (HCall.init c m cf pc).run h = match m.copied h with
      | .error e h1 => .error e h1
      | .ok a h1 => .ok .none (h1.putRef c
        { (h1.clf c).attrs with
          classFeat := some cf
          posClass := some pc
          selected := some (h1.readSet a).selectedFeatures
          trainFeats := some (h1.readSet a).selectedFeatures } a) := by
  show (initRulesetAt c m cf pc >>= fun _ => pure Returned.none) h = _
  rw [heap_bind]
  unfold initRulesetAt
  rw [heap_bind]
  cases m.copied h <;> rfl

omit [Arith.Lawful] in
theorem fit_run (m : Method) (fuel : Nat) (R : PyRandom) (F : PyFloat) (P : PandasCut) (c : Nat) (d : FitData)
    (im : ModelObj) (g : R.G) (h : Heap) :
    (HCall.fit m fuel R F P c d im g).run h = match fitAt m fuel R F P c d im g h with
      | .error e h1 => .error e h1
      | .ok _ h1 => .ok .none h1 := by
  show (fitAt m fuel R F P c d im g >>= fun _ => pure Returned.none) h = _
  rw [heap_bind]
  cases fitAt m fuel R F P c d im g h <;> rfl

omit [Arith] [Arith.Lawful] in
theorem Made.oneOwner {h h' : Heap} {a : Nat} (hs : Sound h) (ho : OneOwner h) (hm : Made h a h') : OneOwner h' := by
  have ha : (h.set a).rules = [] := by
    rw [List.eq_nil_iff_forall_not_mem]
    intro x hx
    have := (hs.rules a x hx).1
    rw [hm.addr] at this
    exact Nat.lt_irrefl _ this
  refine ⟨fun c d b => by rw [hm.clf]; exact ho.ruleset c d b, fun b b' x hx hx' => ?_, fun b => ?_⟩
  · by_cases hb : b = a
    · by_cases hb' : b' = a
      · rw [hb, hb']
      · rw [hm.set b' hb'] at hx'
        rw [hb] at hx
        exact absurd (hs.rules b' x hx').2 (Nat.not_lt.mpr (hm.own x hx))
    · rw [hm.set b hb] at hx
      by_cases hb' : b' = a
      · rw [hb'] at hx'
        exact absurd (hs.rules b x hx).2 (Nat.not_lt.mpr (hm.own x hx'))
      · rw [hm.set b' hb'] at hx'
        exact ho.rules b b' x hx hx'
  · by_cases hb : b = a
    · rw [hb]; exact hm.once ho.once
    · rw [hm.set b hb]; exact ho.once b

omit [Arith] [Arith.Lawful] in
theorem Made.unowned {h h' : Heap} {a : Nat} (hs : Sound h) (hm : Made h a h') (d : Nat) : (h'.clf d).ruleset ≠ some a := by
  intro e
  rw [hm.clf, hm.addr] at e
  exact Nat.lt_irrefl _ (hs.ruleset d _ e).2

omit [Arith] [Arith.Lawful] in
theorem Spec.OneOwner.putClf {h : Heap} (ho : OneOwner h) {c : Nat} {o : ClfObj}
    (hc : ∀ a d, o.ruleset = some a → (h.clf d).ruleset = some a → d = c) : OneOwner (h.putClf c o) := by
  refine ⟨fun b d a hb hd => ?_, ho.rules, ho.once⟩
  simp only [Heap.putClf] at hb hd
  split at hb
  · next eb =>
    split at hd
    · next ed => rw [eb, ed]
    · rw [eb]; exact (hc a d hb hd).symm
  · split at hd
    · next ed => rw [ed]; exact hc a b hd hb
    · exact ho.ruleset b d a hb hd

omit [Arith] [Arith.Lawful] in
theorem Spec.OneOwner.putAttrs {h : Heap} (ho : OneOwner h) (c : Nat) (v : Clf) : OneOwner (h.putAttrs c v) :=
  ho.putClf (fun a d e e' => ho.ruleset d c a e' e)

omit [Arith] [Arith.Lawful] in
theorem Spec.OneOwner.edited {h h' : Heap} {a : Nat} {rs : Ruleset} (ho : OneOwner h) (he : Edited h a rs h')
    (hl : Relisted h a h') : OneOwner h' := by
  obtain ⟨hn, hl⟩ := hl (ho.once a)
  refine ⟨fun c d b => by rw [he.clf]; exact ho.ruleset c d b, fun b b' x hx hx' => ?_, fun b => ?_⟩
  · by_cases hb : b = a
    · by_cases hb' : b' = a
      · rw [hb, hb']
      · rw [he.set b' hb'] at hx'
        rw [hb] at hx ⊢
        rcases hl x hx with h1 | h1
        · exact ho.rules a b' x h1 hx'
        · exact absurd hx' (h1 b')
    · rw [he.set b hb] at hx
      by_cases hb' : b' = a
      · rw [hb'] at hx' ⊢
        rcases hl x hx' with h1 | h1
        · exact ho.rules b a x hx h1
        · exact absurd hx (h1 b)
      · rw [he.set b' hb'] at hx'
        exact ho.rules b b' x hx hx'
  · by_cases hb : b = a
    · rw [hb]; exact hn
    · rw [he.set b hb]; exact ho.once b

omit [Arith] [Arith.Lawful] in
theorem Spec.OneOwner.recalibrated {h h' : Heap} {a : Nat} {rs : Ruleset} (ho : OneOwner h) (he : Recalibrated h a rs h') :
    OneOwner h' := by
  have hset : ∀ b, (h'.set b).rules = (h.set b).rules := by
    intro b
    by_cases hb : b = a
    · rw [hb]; exact he.list
    · rw [he.set b hb]
  exact ⟨fun c d b => by rw [he.clf]; exact ho.ruleset c d b, fun b b' x => by rw [hset, hset]; exact ho.rules b b' x,
    fun b => by rw [hset]; exact ho.once b⟩

omit [Arith] [Arith.Lawful] in
/-- What an edit leaves alone. -/
theorem Edited.others {h h' : Heap} {a : Nat} {rs : Ruleset} (hs : Sound h) (he : Edited h a rs h') :
    (∀ b, b ≠ a → h'.readSet b = h.readSet b) ∧
    (∀ c, (h.clf c).ruleset ≠ some a → h'.readClf c = h.readClf c) := by
  have sets : ∀ b, b ≠ a → h'.readSet b = h.readSet b := fun b hb =>
    readSet_congr (he.set b hb) (fun x hx => he.rule x (hs.rules b x hx).2)
  exact ⟨sets, fun c hc => readClf_congr (by rw [he.clf]) (fun b hb => sets b (fun e => hc (e ▸ hb)))⟩

omit [Arith] [Arith.Lawful] in
/-- What a recalibration leaves alone. -/
theorem Recalibrated.others {h h' : Heap} {a : Nat} {rs : Ruleset} (ho : OneOwner h) (he : Recalibrated h a rs h') :
    (∀ b, b ≠ a → h'.readSet b = h.readSet b) ∧
    (∀ c, (h.clf c).ruleset ≠ some a → h'.readClf c = h.readClf c) := by
  have sets : ∀ b, b ≠ a → h'.readSet b = h.readSet b := fun b hb =>
    readSet_congr (he.set b hb) (fun x hx => he.rule x (fun hx' => hb (ho.rules b a x hx hx')))
  exact ⟨sets, fun c hc => readClf_congr (by rw [he.clf]) (fun b hb => sets b (fun e => hc (e ▸ hb)))⟩

omit [Arith] [Arith.Lawful] in
theorem readClf_of {h h' : Heap} {c a : Nat} {rs : Ruleset} (hc : h'.clf = h.clf) (hr : (h.clf c).ruleset = some a)
    (hs : h'.readSet a = rs) : h'.readClf c = { h.readClf c with ruleset := some rs } := by
  simp only [Heap.readClf, hc, hr, Option.map_some, hs]

omit [Arith.Lawful] in
/-- A query's run on the heap. -/
theorem queryClf_run (F : PyFloat) (c : Nat) (q : Call) (h : Heap) :
    (HCall.query F c q).run h = match q.run F (h.readClf c) with
      | .ok x v => .ok (.answer x) (h.putAttrs c v)
      | .error e v => .error e (h.putAttrs c v) := by
  show (queryClf F c q >>= fun x => pure (Returned.answer x)) h = _
  rw [heap_bind]
  unfold queryClf
  cases q.run F (h.readClf c) <;> rfl

omit [Arith.Lawful] in
theorem editClf_run (c : Nat) (e : EditCall) (h : Heap) :
    (HCall.edit c e).run h = match (h.clf c).ruleset with
      | none => .error .attributeError h
      | some a => match e.at a h with
        | .error e h' => .error e h'
        | .ok _ h' => .ok .none h' := by
  show (rulesetAt c >>= fun a => e.at a >>= fun _ => pure Returned.none) h = _
  rw [heap_bind, rulesetAt_run]
  cases (h.clf c).ruleset with
  | none => rfl
  | some a =>
    show (e.at a >>= fun _ => pure Returned.none) h = _
    rw [heap_bind]
    dsimp only
    cases e.at a h <;> rfl

omit [Arith.Lawful] in
theorem editSet_run (a : Nat) (e : EditCall) (h : Heap) :
    (HCall.editSet a e).run h = match e.at a h with
      | .error e h' => .error e h'
      | .ok _ h' => .ok .none h' := by
  show (e.at a >>= fun _ => pure Returned.none) h = _
  rw [heap_bind]
  cases e.at a h <;> rfl

/-- The frame a recalibration works on. -/
def recalInput (F : PyFloat) (v : Clf) (X : TFrame) (y : Option YArg) (names : Option (List Feat)) (disc : Bool) :
    Except PyErr (Frame × Feat × Val) := do
  let cf ← attr v.classFeat
  let pc ← attr v.posClass
  let b ← (if disc then do return some (← attr v.binner) else pure none)
  let df ← preprocessRecalibrate F X y cf b names
  return (df.toFrame, cf, pc)

omit [Arith] [Arith.Lawful] in
theorem noEffect_bind {α β : Type} (x : Except PyErr α) (f : α → OnHeap β) (h : Heap) :
    (noEffect x >>= f) h = match x with
      | .ok a => f a h
      | .error e => .error e h := by
  rw [heap_bind]; cases x <;> rfl

omit [Arith] [Arith.Lawful] in
theorem selfAt_bind {α β : Type} (c : Nat) (f : Clf → Option α) (k : α → OnHeap β) (h : Heap) :
    (selfAt c f >>= k) h = match attr (f (h.readClf c)) with
      | .ok a => k a h
      | .error e => .error e h := by
  rw [heap_bind]
  show (match noEffect (attr (f (h.readClf c))) h with | .ok a h' => k a h' | .error e h' => .error e h') = _
  cases attr (f (h.readClf c)) <;> rfl

omit [Arith] [Arith.Lawful] in
theorem recalibrateClf_eq (F : PyFloat) (c : Nat) (X : TFrame) (y : Option YArg) (names : Option (List Feat)) (disc : Bool)
    (h : Heap) : recalibrateClf F c X y names disc h =
      match recalInput F (h.readClf c) X y names disc with
      | .error e => .error e h
      | .ok (df, cf, pc) => match (h.clf c).ruleset with
        | none => .error .attributeError h
        | some a => recalibrateAt a df cf pc (h.clf c).attrs.hyper.alpha h := by
  unfold recalibrateClf recalInput
  rw [selfAt_bind]
  cases attr (h.readClf c).classFeat with
  | error e => rfl
  | ok cf =>
    simp only [ok_bind]
    rw [selfAt_bind]
    cases attr (h.readClf c).posClass with
    | error e => rfl
    | ok pc =>
      simp only [ok_bind]
      have rest : ∀ b, (noEffect (preprocessRecalibrate F X y cf b names) >>= fun df => do
            let a ← rulesetAt c
            recalibrateAt a df.toFrame cf pc ((← get).clf c).attrs.hyper.alpha : OnHeap Unit) h =
          match (do
            let df ← preprocessRecalibrate F X y cf b names
            return (df.toFrame, cf, pc) : Except PyErr (Frame × Feat × Val)) with
          | .error e => .error e h
          | .ok (df, cf, pc) => match (h.clf c).ruleset with
            | none => .error .attributeError h
            | some a => recalibrateAt a df cf pc (h.clf c).attrs.hyper.alpha h := by
        intro b
        rw [noEffect_bind]
        cases preprocessRecalibrate F X y cf b names with
        | error e => rfl
        | ok df =>
          simp only [ok_bind, pure_eq_ok]
          rw [heap_bind, rulesetAt_run]
          cases (h.clf c).ruleset <;> rfl
      cases disc with
      | false =>
        simp only [Bool.false_eq_true, if_false]
        exact rest none
      | true =>
        simp only [if_true]
        rw [heap_bind, selfAt_bind]
        cases attr (h.readClf c).binner with
        | error e => rfl
        | ok b => exact rest (some b)

omit [Arith.Lawful] in
theorem recalibrateClf_run (F : PyFloat) (c : Nat) (X : TFrame) (y : Option YArg) (names : Option (List Feat)) (disc : Bool)
    (h : Heap) : (HCall.recalibrate F c X y names disc).run h =
      match recalibrateClf F c X y names disc h with
        | .error e h' => .error e h'
        | .ok _ h' => .ok .none h' := by
  show (recalibrateClf F c X y names disc >>= fun _ => pure Returned.none) h = _
  rw [heap_bind]
  cases recalibrateClf F c X y names disc h <;> rfl

omit [Arith] [Arith.Lawful] in
/-- The same on values. -/
theorem Clf.recalibrate_eq (F : PyFloat) (v : Clf) (X : TFrame) (y : Option YArg) (names : Option (List Feat))
    (ms : Option Int) (req disc : Bool) : Clf.recalibrate F X y names ms req disc v =
      match recalInput F v X y names disc with
      | .error e => .error e v
      | .ok (df, cf, pc) => match v.ruleset with
        | none => .error .attributeError v
        | some rs => match Witt.recalibrate rs df cf pc v.hyper.alpha with
          | (rs', none) => .ok () { v with ruleset := some rs' }
          | (rs', some e) => .error e { v with ruleset := some rs' } := by
  unfold Clf.recalibrate recalInput
  rw [bind_run, self_run]
  cases attr v.classFeat with
  | error e => rfl
  | ok cf =>
    simp only [ok_bind, outcome_ok]
    rw [bind_run, self_run]
    cases attr v.posClass with
    | error e => rfl
    | ok pc =>
      simp only [ok_bind, outcome_ok]
      have rest : ∀ b, (pureCode (preprocessRecalibrate F X y cf b names) >>= fun df => do
            let rs ← self Clf.ruleset
            let alpha := (← EStateM.get).hyper.alpha
            match recalibrateProba rs df.toFrame cf pc ms req alpha with
            | (rs', none) => modify (fun c => { c with ruleset := some rs' })
            | (rs', some e) =>
              modify (fun c => { c with ruleset := some rs' })
              throw e : OnClf Unit) v =
          match (do
            let df ← preprocessRecalibrate F X y cf b names
            return (df.toFrame, cf, pc) : Except PyErr (Frame × Feat × Val)) with
          | .error e => .error e v
          | .ok (df, cf, pc) => match v.ruleset with
            | none => .error .attributeError v
            | some rs => match Witt.recalibrate rs df cf pc v.hyper.alpha with
              | (rs', none) => .ok () { v with ruleset := some rs' }
              | (rs', some e) => .error e { v with ruleset := some rs' } := by
        intro b
        rw [bind_pureCode]
        cases preprocessRecalibrate F X y cf b names with
        | error e => rfl
        | ok df =>
          simp only [ok_bind, pure_eq_ok]
          rw [bind_run, self_run]
          cases v.ruleset with
          | none => rfl
          | some rs =>
            simp only [attr, outcome_ok]
            rw [bind_ok (get_run v)]
            simp only [recalibrateProba]
            cases Witt.recalibrate rs df.toFrame cf pc v.hyper.alpha with
            | mk rs' err => cases err <;> rfl
      cases disc with
      | false =>
        simp only [Bool.false_eq_true, if_false]
        exact rest none
      | true =>
        simp only [if_true]
        rw [bind_run, bind_run, self_run]
        cases attr v.binner with
        | error e => rfl
        | ok b => exact rest (some b)

/-! ### calls that share nothing -/

omit [Arith] [Arith.Lawful] in
theorem Sound.unlisted {h : Heap} (hs : Sound h) {x : Nat} (hx : h.rules ≤ x) : Unlisted h x :=
  fun a hm => absurd (hs.rules a x hm).2 (Nat.not_lt.mpr hx)

omit [Arith] [Arith.Lawful] in
theorem newSet_oneOwner {h : Heap} (ho : OneOwner h) {rules : List Nat} (hn : rules.Nodup)
    (hu : ∀ x ∈ rules, Unlisted h x) : OneOwner (h.newSet { rules := rules }).2 := by
  refine ⟨ho.ruleset, fun a b x ha hb => ?_, fun a => ?_⟩
  · simp only [Heap.newSet, Heap.putSet] at ha hb
    split at ha
    · next ea =>
      split at hb
      · next eb => rw [ea, eb]
      · exact absurd hb (hu x ha b)
    · split at hb
      · exact absurd ha (hu x hb a)
      · exact ho.rules a b x ha hb
  · simp only [Heap.newSet, Heap.putSet]
    split
    · exact hn
    · exact ho.once a

omit [Arith.Lawful] in
theorem fitAt_oneOwner {h : Heap} (hs : Sound h) (ho : OneOwner h) {m : Method} {fuel : Nat} {R : PyRandom} {F : PyFloat}
    {P : PandasCut} {c : Nat} {d : FitData} {im : ModelObj} {g : R.G}
    (hm : m.bindsFirst = true → (∃ e, answered (fitAt m fuel R F P c d im g h) = .error e) → ModelFree h c im) :
    OneOwner (afterwards (fitAt m fuel R F P c d im g h)) := by
  have hsh : OneOwner (afterwards (im.shared h)) ∧ Sound (afterwards (im.shared h)) := by
    refine ⟨?_, (shared_allocs (D := soundD) hs im).inv⟩
    have := shared_run im h
    cases e : (im.value h).early with
    | error e' => rw [e] at this; rw [this]; exact ho
    | ok rs =>
      rw [e] at this
      obtain ⟨a, h', e1, -, e2⟩ := this
      rw [e1]
      rcases e2 with made | ⟨e3, -⟩
      · exact made.oneOwner hs ho
      · rw [e3]; exact ho
  have grown : ∀ h1, Sound h1 → OneOwner h1 → ∀ (x : Except PyErr R.G) v rs,
      OneOwner (afterwards (noEffect x ((h1.newRuleset rs).2.putRef c v (h1.newRuleset rs).1))) := by
    intro h1 s1 o1 x v rs
    rw [(noEffect_run x _).1]
    have made := Made.ruleset h1 rs
    refine (made.oneOwner s1 o1).putClf (fun a d e e' => ?_)
    cases e
    exact absurd e' (made.unowned s1 d)
  cases hg : m.grows fuel R F P (h.readClf c).nBins (h.readClf c).hyper d (im.seen m.bindsFirst c h) g with
  | ok u =>
    have hfit := fitAt_grown hg
    rw [hfit]
    by_cases hb : m.bindsFirst = true
    · rw [if_pos hb]
      cases hs1 : im.shared h with
      | error e h1 => rw [hs1] at hsh; exact hsh.1
      | ok a h1 => rw [hs1] at hsh; exact grown h1 hsh.2 hsh.1 _ _ _
    · rw [if_neg hb]
      exact grown h hs ho _ _ _
  | error e =>
    have herr := fitAt_error_of_grows hg
    have first : OneOwner (afterwards (bindInitial m.bindsFirst c (h.readClf c) im h)) := by
      rw [bindInitial_run]
      split
      · next hb =>
        have hfree := hm hb herr
        have := shared_run im h
        cases e : (im.value h).early with
        | error e' => rw [e] at this; rw [this]; exact ho
        | ok rs =>
          rw [e] at this
          obtain ⟨a, h', e1, -, e2⟩ := this
          rw [e1] at hsh ⊢
          refine hsh.1.putClf (fun a' d e e' => ?_)
          cases e
          rcases e2 with made | ⟨e3, e4⟩
          · exact absurd e' (made.unowned hs d)
          · rw [e3] at e'
            rcases e4 with e4 | ⟨b, e4, e5⟩
            · rw [e4] at hfree; exact hfree d e'
            · rw [e4] at hfree
              have hb : b = c := hfree
              rw [hb] at e5
              exact ho.ruleset d c a e' e5
      · exact ho
    rw [fitAt_run]
    cases hb : bindInitial m.bindsFirst c (h.readClf c) im h with
    | error e h1 => rw [hb] at first; exact first
    | ok u h1 =>
      rw [hb] at first
      rw [hg]
      show OneOwner (afterwards (noEffect _ (h1.putAttrs c _)))
      rw [(noEffect_run _ _).1]
      exact Spec.OneOwner.putAttrs first c _

omit [Arith.Lawful] in
theorem call_oneOwner {h : Heap} (hs : Sound h) (ho : OneOwner h) {k : HCall} (hk : Unshared h k) :
    OneOwner (afterwards (k.run h)) := by
  have edit : ∀ (e : EditCall) a, EditFree h e → OneOwner (afterwards (e.at a h)) := by
    intro e a hf
    have := edit_run hs a e
    unfold EditRuns at this
    cases hc : (e.value h).call (h.readSet a) with
    | ok u rs =>
      rw [hc] at this
      obtain ⟨h', e1, e2, e3⟩ := this
      rw [e1]
      exact ho.edited e2 (e3 hf)
    | error err rs =>
      rw [hc] at this
      rw [this.1]
      exact ho
  obtain ⟨hx, hk⟩ := hk
  cases k with
  | newClf hp n => exact ho.putClf (c := h.clfs) (o := { attrs := { hyper := hp, nBins := n } }) (fun a d e => by cases e)
      |> fun o => ⟨o.ruleset, o.rules, o.once⟩
  | newRule cs => exact ⟨ho.ruleset, ho.rules, ho.once⟩
  | newSet rules => exact newSet_oneOwner ho hk.1 hk.2
  | copyClf c =>
    have put : ∀ h1, OneOwner h1 → ∀ o : ClfObj, (∀ a d, o.ruleset = some a → (h1.clf d).ruleset = some a → d = h.clfs) →
        OneOwner { h1.putClf h.clfs o with clfs := h.clfs + 1 } := fun h1 o1 o hh =>
      let r := o1.putClf (c := h.clfs) (o := o) hh
      ⟨r.ruleset, r.rules, r.once⟩
    rw [copyClf_run]
    cases e : (h.clf c).ruleset with
    | none => exact put h ho (h.clf c) (fun a d e' => by rw [e] at e'; cases e')
    | some a =>
      have made := Made.copy h a
      refine put _ (made.oneOwner hs ho) _ (fun a' d e' e'' => ?_)
      cases e'
      exact absurd e'' (made.unowned hs d)
  | copySet a => exact (Made.copy h a).oneOwner hs ho
  | init c m cf pc =>
    have hcop := copied_run m h
    rw [init_run]
    cases e : (m.value h).toRuleset with
    | error e' => rw [e] at hcop; rw [hcop]; exact ho
    | ok rs =>
      rw [e] at hcop
      obtain ⟨a, h', e1, made, -⟩ := hcop
      rw [e1]
      refine (made.oneOwner hs ho).putClf (fun a' d e' e'' => ?_)
      cases e'
      exact absurd e'' (made.unowned hs d)
  | edit c e =>
    rw [editClf_run]
    cases hr : (h.clf c).ruleset with
    | none => exact ho
    | some a =>
      have := edit e a hk
      dsimp only
      cases he : e.at a h with
      | error err h' => rw [he] at this; exact this
      | ok u h' => rw [he] at this; exact this
  | editSet a e =>
    rw [editSet_run]
    have := edit e a hk
    cases he : e.at a h with
    | error err h' => rw [he] at this; exact this
    | ok u h' => rw [he] at this; exact this
  | recalibrate F c X y names disc =>
    rw [recalibrateClf_run, recalibrateClf_eq]
    cases recalInput F (h.readClf c) X y names disc with
    | error e => exact ho
    | ok p =>
      obtain ⟨df, cf, pc⟩ := p
      dsimp only
      cases hr : (h.clf c).ruleset with
      | none => exact ho
      | some a =>
        obtain ⟨h', e1, e2⟩ := recalibrateAt_run (ho.once a) df cf pc (h.clf c).attrs.hyper.alpha
        dsimp only
        rw [e1]
        cases (recalibrate (h.readSet a) df cf pc (h.clf c).attrs.hyper.alpha).2 <;> exact ho.recalibrated e2
  | fit m fuel R F P c d im g =>
    have := fitAt_oneOwner hs ho (m := m) (fuel := fuel) (R := R) (F := F) (P := P) (c := c) (d := d) (im := im) (g := g) hk
    rw [fit_run]
    cases he : fitAt m fuel R F P c d im g h with
    | error err h' => rw [he] at this; exact this
    | ok u h' => rw [he] at this; exact this
  | query F c q =>
    rw [queryClf_run]
    cases q.run F (h.readClf c) <;> exact Spec.OneOwner.putAttrs ho c _

omit [Arith.Lawful] in
theorem orderly_sound {h : Heap} (hr : Orderly h) : Sound h ∧ OneOwner h := by
  have key : ∀ h0 h1, Run Unshared h0 h1 → Sound h0 → OneOwner h0 → Sound h1 ∧ OneOwner h1 := by
    intro h0 h1 hr
    induction hr with
    | refl h => exact fun s o => ⟨s, o⟩
    | call k hk _ ih =>
      intro s o
      exact ih (call_in (D := soundD) s (exists_ok s hk.1)).inv (call_oneOwner s o hk)
  exact key _ _ hr Sound.empty ⟨fun _ _ _ e => (by cases e), fun _ _ _ e => (by cases e), fun _ => List.nodup_nil⟩

end Witt
