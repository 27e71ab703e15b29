import Verif.Lemmas.Heap
/-
What `fit` leaves in `ruleset_`, whether or not it gets as far as growing rules.
-/
namespace Witt
open Spec
variable [Arith] [Arith.Lawful]

/-- A method that leaves `ruleset_` bound. -/
def KeepsBound {α : Type} (m : OnClf α) : Prop := ∀ c : Clf, c.ruleset.isSome → (after (m c)).ruleset.isSome

omit [Arith] [Arith.Lawful] in
theorem KeepsBound.bind {α β : Type} {m : OnClf α} {f : α → OnClf β} (hm : KeepsBound m) (hf : ∀ a, KeepsBound (f a)) :
    KeepsBound (m >>= f) := by
  intro c hc
  have h1 := hm c hc
  rw [bind_run]
  cases hr : m c with
  | ok a c' => rw [hr] at h1; exact hf a c' h1
  | error e c' => rw [hr] at h1; exact h1

omit [Arith] [Arith.Lawful] in
theorem KeepsBound.at {α : Type} {m : OnClf α} {c : Clf} (hm : KeepsBound m) (hc : c.ruleset.isSome) :
    (after (m c)).ruleset.isSome := hm c hc

omit [Arith] [Arith.Lawful] in
theorem KeepsBound.pure {α : Type} (a : α) : KeepsBound (Pure.pure a : OnClf α) := fun _ h => h
omit [Arith] [Arith.Lawful] in
theorem KeepsBound.throw {α : Type} (e : PyErr) : KeepsBound (MonadExcept.throw e : OnClf α) := fun _ h => h
omit [Arith] [Arith.Lawful] in
theorem KeepsBound.pureCode {α : Type} (x : Except PyErr α) : KeepsBound (pureCode x) := by
  intro c h; cases x <;> exact h
omit [Arith] [Arith.Lawful] in
theorem KeepsBound.get : KeepsBound (EStateM.get : OnClf Clf) := fun _ h => h
omit [Arith] [Arith.Lawful] in
theorem KeepsBound.self {α : Type} (f : Clf → Option α) : KeepsBound (self f) :=
  KeepsBound.get.bind (fun _ => KeepsBound.pureCode _)
omit [Arith] [Arith.Lawful] in
theorem KeepsBound.modify {f : Clf → Clf} (hf : ∀ c : Clf, c.ruleset.isSome → (f c).ruleset.isSome) :
    KeepsBound (modify f : OnClf PUnit) := fun c h => hf c h

omit [Arith] [Arith.Lawful] in
theorem KeepsBound.fitProbas (df : Frame) (cf : Feat) (pc : Val) : KeepsBound (Clf.fitProbas df cf pc) := by
  refine (KeepsBound.self _).bind (fun rs => KeepsBound.get.bind (fun v => ?_))
  dsimp only
  split
  · exact KeepsBound.modify (fun _ _ => rfl)
  · exact (KeepsBound.modify (fun _ _ => rfl)).bind (fun _ => KeepsBound.throw _)

omit [Arith] [Arith.Lawful] in
theorem KeepsBound.tidy : KeepsBound Clf.tidy :=
  (KeepsBound.self _).bind (fun _ => KeepsBound.get.bind (fun _ => KeepsBound.modify (fun _ _ => rfl)))

omit [Arith] [Arith.Lawful] in
theorem KeepsBound.setRules (cands : List Cond) (rules : List (List Cond)) : KeepsBound (Clf.setRules cands rules) :=
  KeepsBound.modify (fun _ _ => rfl)

omit [Arith.Lawful] in
theorem KeepsBound.stage2 (fuel : Nat) (R : PyRandom) (cn : CatNap) (pos neg : List Label) :
    ∀ (n : Nat) (rules : List (List Cond)) (g : R.G), KeepsBound (Clf.stage2 fuel R cn pos neg n rules g)
  | 0, _, _ => KeepsBound.pure _
  | n + 1, rules, g => by
    refine KeepsBound.get.bind (fun v => (KeepsBound.pureCode _).bind (fun p => ?_))
    dsimp only
    split
    · exact KeepsBound.pure _
    · exact (KeepsBound.setRules _ _).bind (fun _ => KeepsBound.stage2 fuel R cn pos neg n _ _)

omit [Arith.Lawful] in
theorem KeepsBound.stage2Df (fuel : Nat) (R : PyRandom) (cands : List Cond) (pos neg : Frame) :
    ∀ (n : Nat) (rules : List (List Cond)) (g : R.G), KeepsBound (Clf.stage2Df fuel R cands pos neg n rules g)
  | 0, _, _ => KeepsBound.pure _
  | n + 1, rules, g => by
    refine KeepsBound.get.bind (fun v => (KeepsBound.pureCode _).bind (fun p => ?_))
    dsimp only
    split
    · exact KeepsBound.pure _
    · exact (KeepsBound.setRules _ _).bind (fun _ => KeepsBound.stage2Df fuel R cands pos neg n _ _)

/-- What `fit` leaves, by how far it got: `rs` is the initial model IREP binds first. -/
def FitLeaves (m : Method) (fuel : Nat) (R : PyRandom) (F : PyFloat) (P : PandasCut) (d : FitData) (init : ModelArg)
    (g : R.G) (v : Clf) (rs : Ruleset) : Prop :=
  match m.grows fuel R F P v.nBins v.hyper d init g with
  | .error e => returned (m.fit fuel R F P d init g v) = .error e ∧
      (after (m.fit fuel R F P d init g v)).ruleset = if m.bindsFirst then some rs else v.ruleset
  | .ok _ => (after (m.fit fuel R F P d init g v)).ruleset.isSome

omit [Arith.Lawful] in
theorem fit_leaves_irep {fuel : Nat} {R : PyRandom} {F : PyFloat} {P : PandasCut} {d : FitData} {init : ModelArg}
    {g : R.G} {v : Clf} {rs : Ruleset} (he : init.early = .ok rs) : FitLeaves .irep fuel R F P d init g v rs := by
  unfold FitLeaves
  simp only [Method.grows, Method.fit, Method.bindsFirst, if_true]
  unfold Clf.irepFit
  rw [he, bind_pureCode]
  simp only []
  rw [bind_ok (modify_run _ _), bind_ok (get_run _), bind_pureCode]
  cases h2 : preprocessTraining F P v.nBins d with
  | error e => exact ⟨rfl, rfl⟩
  | ok q =>
    obtain ⟨df, cf, pc, b⟩ := q
    simp only [ok_bind]
    rw [bind_ok (modify_run _ _), bind_ok (get_run _), bind_pureCode]
    cases h3 : CatNap.build df.toFrame cf with
    | error e => exact ⟨rfl, rfl⟩
    | ok cn =>
      simp only [ok_bind]
      rw [bind_pureCode]
      cases h4 : init.toRuleset with
      | error e => exact ⟨rfl, rfl⟩
      | ok start =>
        simp only [ok_bind]
        rw [bind_pureCode]
        cases h5 : irepGrowCn fuel R cn v.hyper (start.rules.map Rule.conds) (labelSet (posRows df.toFrame cf pc).index)
          (labelSet (negRows df.toFrame cf pc).index) g with
        | error e => exact ⟨rfl, rfl⟩
        | ok st =>
          simp only [ok_bind, pure_eq_ok]
          rw [bind_ok (modify_run _ _)]
          refine KeepsBound.at ?_ (by rfl)
          refine KeepsBound.bind (KeepsBound.fitProbas _ _ _) (fun _ => ?_)
          refine KeepsBound.bind (KeepsBound.modify (fun _ h => h)) (fun _ => ?_)
          exact KeepsBound.bind KeepsBound.tidy (fun _ => KeepsBound.pure _)

omit [Arith.Lawful] in
theorem fit_leaves_irepPlain {fuel : Nat} {R : PyRandom} {S : SetOps} {F : PyFloat} {P : PandasCut} {d : FitData}
    {init : ModelArg} {g : R.G} {v : Clf} {rs : Ruleset} (he : init.early = .ok rs) :
    FitLeaves (.irepPlain S) fuel R F P d init g v rs := by
  unfold FitLeaves
  simp only [Method.grows, Method.fit, Method.bindsFirst, if_true]
  unfold Clf.irepFitPlain
  rw [he, bind_pureCode]
  simp only []
  rw [bind_ok (modify_run _ _), bind_ok (get_run _), bind_pureCode]
  cases h2 : preprocessTraining F P v.nBins d with
  | error e => exact ⟨rfl, rfl⟩
  | ok q =>
    obtain ⟨df, cf, pc, b⟩ := q
    simp only [ok_bind]
    rw [bind_ok (modify_run _ _), bind_ok (get_run _), bind_pureCode]
    cases h4 : init.toRuleset with
    | error e => exact ⟨rfl, rfl⟩
    | ok start =>
      simp only [ok_bind]
      rw [bind_pureCode]
      cases h5 : irepGrow fuel R (updatedConds S start.possible (posExamples df.toFrame cf pc)
        (negExamples df.toFrame cf pc)) v.hyper (start.rules.map Rule.conds) (posExamples df.toFrame cf pc)
        (negExamples df.toFrame cf pc) g with
      | error e => exact ⟨rfl, rfl⟩
      | ok st =>
        simp only [ok_bind, pure_eq_ok]
        rw [bind_ok (modify_run _ _)]
        refine KeepsBound.at ?_ (by rfl)
        refine KeepsBound.bind (KeepsBound.fitProbas _ _ _) (fun _ => ?_)
        refine KeepsBound.bind (KeepsBound.modify (fun _ h => h)) (fun _ => ?_)
        exact KeepsBound.bind KeepsBound.tidy (fun _ => KeepsBound.pure _)

omit [Arith.Lawful] in
theorem fit_leaves_ripper {fuel : Nat} {R : PyRandom} {F : PyFloat} {P : PandasCut} {d : FitData} {init : ModelArg}
    {g : R.G} {v : Clf} {rs : Ruleset} : FitLeaves .ripper fuel R F P d init g v rs := by
  unfold FitLeaves
  simp only [Method.grows, Method.fit, Method.bindsFirst, Bool.false_eq_true, if_false]
  unfold Clf.ripperFit
  rw [bind_ok (get_run _), bind_pureCode]
  cases h2 : preprocessTraining F P v.nBins d with
  | error e => exact ⟨rfl, rfl⟩
  | ok q =>
    obtain ⟨df, cf, pc, b⟩ := q
    simp only [ok_bind]
    rw [bind_ok (modify_run _ _), bind_ok (get_run _), bind_pureCode]
    cases h3 : CatNap.build df.toFrame cf with
    | error e => exact ⟨rfl, rfl⟩
    | ok cn =>
      simp only [ok_bind]
      rw [bind_pureCode]
      cases h4 : init.toRuleset with
      | error e => exact ⟨rfl, rfl⟩
      | ok start =>
        simp only [ok_bind]
        rw [bind_pureCode]
        cases h5 : ripperGrowCn fuel R cn v.hyper (start.rules.map Rule.conds) (labelSet (posRows df.toFrame cf pc).index)
          (labelSet (negRows df.toFrame cf pc).index) g with
        | error e => exact ⟨rfl, rfl⟩
        | ok st =>
          simp only [ok_bind, pure_eq_ok]
          unfold Clf.setRules
          rw [bind_ok (modify_run _ _)]
          refine KeepsBound.at ?_ (by rfl)
          refine KeepsBound.bind (KeepsBound.stage2 _ _ _ _ _ _ _ _) (fun _ => ?_)
          try dsimp only
          refine KeepsBound.bind (KeepsBound.pureCode _) (fun _ => ?_)
          try dsimp only
          refine KeepsBound.bind (KeepsBound.modify (fun _ _ => rfl)) (fun _ => ?_)
          refine KeepsBound.bind (KeepsBound.pureCode _) (fun _ => ?_)
          try dsimp only
          refine KeepsBound.bind (KeepsBound.modify (fun _ _ => rfl)) (fun _ => ?_)
          refine KeepsBound.bind KeepsBound.tidy (fun _ => ?_)
          refine KeepsBound.bind (KeepsBound.fitProbas _ _ _) (fun _ => ?_)
          exact KeepsBound.bind (KeepsBound.modify (fun _ h => h)) (fun _ => KeepsBound.pure _)

omit [Arith.Lawful] in
theorem fit_leaves_ripperPlain {fuel : Nat} {R : PyRandom} {S : SetOps} {F : PyFloat} {P : PandasCut} {d : FitData}
    {init : ModelArg} {g : R.G} {v : Clf} {rs : Ruleset} : FitLeaves (.ripperPlain S) fuel R F P d init g v rs := by
  unfold FitLeaves
  simp only [Method.grows, Method.fit, Method.bindsFirst, Bool.false_eq_true, if_false]
  unfold Clf.ripperFitPlain
  rw [bind_ok (get_run _), bind_pureCode]
  cases h2 : preprocessTraining F P v.nBins d with
  | error e => exact ⟨rfl, rfl⟩
  | ok q =>
    obtain ⟨df, cf, pc, b⟩ := q
    simp only [ok_bind]
    rw [bind_ok (modify_run _ _), bind_ok (get_run _), bind_pureCode]
    cases h4 : init.toRuleset with
    | error e => exact ⟨rfl, rfl⟩
    | ok start =>
      simp only [ok_bind]
      rw [bind_pureCode]
      cases h5 : ripperGrow fuel R (updatedConds S start.possible (posExamples df.toFrame cf pc)
        (negExamples df.toFrame cf pc)) v.hyper (start.rules.map Rule.conds) (posExamples df.toFrame cf pc)
        (negExamples df.toFrame cf pc) g with
      | error e => exact ⟨rfl, rfl⟩
      | ok st =>
        simp only [ok_bind, pure_eq_ok]
        unfold Clf.setRules
        rw [bind_ok (modify_run _ _)]
        refine KeepsBound.at ?_ (by rfl)
        refine KeepsBound.bind (KeepsBound.stage2Df _ _ _ _ _ _ _ _) (fun _ => ?_)
        try dsimp only
        refine KeepsBound.bind (KeepsBound.pureCode _) (fun _ => ?_)
        try dsimp only
        refine KeepsBound.bind (KeepsBound.modify (fun _ _ => rfl)) (fun _ => ?_)
        refine KeepsBound.bind (KeepsBound.pureCode _) (fun _ => ?_)
        try dsimp only
        refine KeepsBound.bind (KeepsBound.modify (fun _ _ => rfl)) (fun _ => ?_)
        refine KeepsBound.bind KeepsBound.tidy (fun _ => ?_)
        refine KeepsBound.bind (KeepsBound.fitProbas _ _ _) (fun _ => ?_)
        exact KeepsBound.bind (KeepsBound.modify (fun _ h => h)) (fun _ => KeepsBound.pure _)

omit [Arith.Lawful] in
theorem fit_leaves {m : Method} {fuel : Nat} {R : PyRandom} {F : PyFloat} {P : PandasCut} {d : FitData} {init : ModelArg}
    {g : R.G} {v : Clf} {rs : Ruleset} (he : m.bindsFirst = true → init.early = .ok rs) :
    FitLeaves m fuel R F P d init g v rs := by
  cases m with
  | irep => exact fit_leaves_irep (he rfl)
  | irepPlain S => exact fit_leaves_irepPlain (he rfl)
  | ripper => exact fit_leaves_ripper
  | ripperPlain S => exact fit_leaves_ripperPlain

omit [Arith.Lawful] in
/-- An initial model that cannot be read: IREP changes nothing. -/
theorem fit_unread {m : Method} {fuel : Nat} {R : PyRandom} {F : PyFloat} {P : PandasCut} {d : FitData} {init : ModelArg}
    {g : R.G} {v : Clf} {e : PyErr} (hb : m.bindsFirst = true) (he : init.early = .error e) :
    m.fit fuel R F P d init g v = .error e v := by
  cases m with
  | irep => simp only [Method.fit, Clf.irepFit]; rw [he, bind_pureCode]
  | irepPlain S => simp only [Method.fit, Clf.irepFitPlain]; rw [he, bind_pureCode]
  | ripper => cases hb
  | ripperPlain S => cases hb

omit [Arith.Lawful] in
/-- A `fit` that returns has grown rules. -/
theorem fit_ok_grows {m : Method} {fuel : Nat} {R : PyRandom} {F : PyFloat} {P : PandasCut} {d : FitData} {init : ModelArg}
    {g g' : R.G} {v v' : Clf} (h : m.fit fuel R F P d init g v = .ok g' v') :
    ∃ u, m.grows fuel R F P v.nBins v.hyper d init g = .ok u := by
  cases hg : m.grows fuel R F P v.nBins v.hyper d init g with
  | ok u => exact ⟨u, rfl⟩
  | error e =>
    exfalso
    by_cases hb : m.bindsFirst = true
    · cases he : init.early with
      | error e' => rw [fit_unread hb he] at h; cases h
      | ok rs =>
        have := fit_leaves (m := m) (fuel := fuel) (R := R) (F := F) (P := P) (d := d) (g := g) (v := v) (fun _ => he)
        simp only [FitLeaves, hg, h] at this
        cases this.1
    · have := fit_leaves (m := m) (fuel := fuel) (R := R) (F := F) (P := P) (d := d) (init := init) (g := g) (v := v)
        (rs := { rules := [] }) (fun hb' => absurd hb' hb)
      simp only [FitLeaves, hg, h] at this
      cases this.1

end Witt
