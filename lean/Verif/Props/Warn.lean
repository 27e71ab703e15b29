import Verif.Warn
import Verif.Props.FitApi
/-
C89: the warnings of `fit` and `predict`.
-/
namespace Witt
open Spec

/-! ### erasing the log -/

/-- The logged program is the given one, issuing warnings on the way. -/
def Erases {α : Type} (m : Logged α) (m' : OnClf α) : Prop :=
  ∀ c w, ∃ ws, m (c, w) = match m' c with
    | .ok a c' => .ok a (c', w ++ ws)
    | .error e c' => .error e (c', w ++ ws)

theorem logged_bind_run {α β : Type} (m : Logged α) (f : α → Logged β) (s : Clf × List Warning) :
    (m >>= f) s = match m s with
      | .ok a s' => f a s'
      | .error e s' => .error e s' := by
  show EStateM.bind m f s = _
  unfold EStateM.bind
  cases m s <;> rfl

theorem erases_quietly {α : Type} (m : OnClf α) : Erases (quietly m) m := by
  intro c w
  refine ⟨[], ?_⟩
  unfold quietly
  cases m c <;> simp

theorem erases_pure {α : Type} (a : α) : Erases (pure a) (pure a) := fun c w => ⟨[], by simp; rfl⟩

theorem erases_bind {α β : Type} {m : Logged α} {m' : OnClf α} {f : α → Logged β} {f' : α → OnClf β} (h : Erases m m')
    (hf : ∀ a, Erases (f a) (f' a)) : Erases (m >>= f) (m' >>= f') := by
  intro c w
  obtain ⟨ws, h1⟩ := h c w
  rw [logged_bind_run, h1, bind_run]
  cases m' c with
  | error e c' => exact ⟨ws, rfl⟩
  | ok a c' =>
    obtain ⟨ws', h2⟩ := hf a c' (w ++ ws)
    refine ⟨ws ++ ws', ?_⟩
    dsimp only
    rw [h2]
    simp only [List.append_assoc]

theorem erases_warn {β : Type} (ws : List Warning) {f : Unit → Logged β} {m' : OnClf β} (h : Erases (f ()) m') :
    Erases (warnAll ws >>= f) m' := by
  intro c w
  obtain ⟨ws', h2⟩ := h c (w ++ ws)
  refine ⟨ws ++ ws', ?_⟩
  rw [logged_bind_run]
  show f () (c, w ++ ws) = _
  rw [h2]
  simp only [List.append_assoc]

theorem pureCode_bind {α β : Type} (x : Except PyErr α) (f : α → Except PyErr β) :
    pureCode (x >>= f) = pureCode x >>= fun a => pureCode (f a) := by
  funext c
  cases x <;> rfl

theorem erases_preprocess [Arith] (F : PyFloat) (P : PandasCut) (n : Option Nat) (d : FitData) :
    Erases (preprocessLogged F P n d) (pureCode (preprocessTraining F P n d)) := by
  unfold preprocessLogged preprocessTraining
  rw [pureCode_bind]
  refine erases_bind (erases_quietly _) fun _ => ?_
  rw [pureCode_bind]
  refine erases_bind (erases_quietly _) fun df => ?_
  rw [pureCode_bind]
  refine erases_bind (erases_quietly _) fun pc => ?_
  refine erases_warn _ ?_
  rw [pureCode_bind]
  refine erases_bind (erases_quietly _) fun q => ?_
  exact erases_pure _

theorem erases_fit [Arith] (a : Method) (fuel : Nat) (R : PyRandom) (F : PyFloat) (P : PandasCut) (d : FitData) (init : ModelArg)
    (g : R.G) : Erases (a.fitLogged fuel R F P d init g) (a.fit fuel R F P d init g) := by
  cases a with
  | irep =>
    unfold Method.fitLogged Method.fit Clf.irepFitLogged Clf.irepFit
    refine erases_bind (erases_quietly _) fun _ => erases_bind (erases_quietly _) fun _ => erases_bind (erases_quietly _) fun _ =>
      erases_bind (erases_preprocess F P _ d) fun q => ?_
    obtain ⟨df, cf, pc, b⟩ := q
    refine erases_bind (erases_quietly _) fun _ => erases_bind (erases_quietly _) fun _ => erases_bind (erases_quietly _) fun _ =>
      erases_warn _ ?_
    refine erases_bind (erases_quietly _) fun _ => erases_bind (erases_quietly _) fun _ => erases_warn _ ?_
    exact erases_bind (erases_quietly _) fun _ => erases_bind (erases_quietly _) fun _ => erases_bind (erases_quietly _) fun _ =>
      erases_bind (erases_quietly _) fun _ => erases_pure _
  | irepPlain S =>
    unfold Method.fitLogged Method.fit Clf.irepFitPlainLogged Clf.irepFitPlain
    refine erases_bind (erases_quietly _) fun _ => erases_bind (erases_quietly _) fun _ => erases_bind (erases_quietly _) fun _ =>
      erases_bind (erases_preprocess F P _ d) fun q => ?_
    obtain ⟨df, cf, pc, b⟩ := q
    refine erases_bind (erases_quietly _) fun _ => erases_bind (erases_quietly _) fun _ =>
      erases_warn _ ?_
    refine erases_bind (erases_quietly _) fun _ => erases_bind (erases_quietly _) fun _ => erases_warn _ ?_
    exact erases_bind (erases_quietly _) fun _ => erases_bind (erases_quietly _) fun _ => erases_bind (erases_quietly _) fun _ =>
      erases_bind (erases_quietly _) fun _ => erases_pure _
  | ripper =>
    unfold Method.fitLogged Method.fit Clf.ripperFitLogged Clf.ripperFit
    refine erases_bind (erases_quietly _) fun _ => erases_bind (erases_preprocess F P _ d) fun q => ?_
    obtain ⟨df, cf, pc, b⟩ := q
    refine erases_bind (erases_quietly _) fun _ => erases_bind (erases_quietly _) fun _ => erases_bind (erases_quietly _) fun _ =>
      erases_warn _ ?_
    refine erases_bind (erases_quietly _) fun _ => erases_bind (erases_quietly _) fun _ => erases_bind (erases_quietly _) fun _ =>
      erases_bind (erases_quietly _) fun q => ?_
    obtain ⟨rules, g1⟩ := q
    refine erases_bind (erases_quietly _) fun q => ?_
    obtain ⟨rules, g1⟩ := q
    refine erases_bind (erases_quietly _) fun _ => erases_bind (erases_quietly _) fun q => ?_
    obtain ⟨rules, g1⟩ := q
    refine erases_warn _ ?_
    exact erases_bind (erases_quietly _) fun _ => erases_bind (erases_quietly _) fun _ => erases_bind (erases_quietly _) fun _ =>
      erases_bind (erases_quietly _) fun _ => erases_pure _
  | ripperPlain S =>
    unfold Method.fitLogged Method.fit Clf.ripperFitPlainLogged Clf.ripperFitPlain
    refine erases_bind (erases_quietly _) fun _ => erases_bind (erases_preprocess F P _ d) fun q => ?_
    obtain ⟨df, cf, pc, b⟩ := q
    refine erases_bind (erases_quietly _) fun _ => erases_bind (erases_quietly _) fun _ =>
      erases_warn _ ?_
    refine erases_bind (erases_quietly _) fun _ => erases_bind (erases_quietly _) fun _ => erases_bind (erases_quietly _) fun _ =>
      erases_bind (erases_quietly _) fun q => ?_
    obtain ⟨rules, g1⟩ := q
    refine erases_bind (erases_quietly _) fun q => ?_
    obtain ⟨rules, cands, g1⟩ := q
    refine erases_bind (erases_quietly _) fun _ => erases_bind (erases_quietly _) fun q => ?_
    obtain ⟨rules, g1⟩ := q
    refine erases_warn _ ?_
    exact erases_bind (erases_quietly _) fun _ => erases_bind (erases_quietly _) fun _ => erases_bind (erases_quietly _) fun _ =>
      erases_bind (erases_quietly _) fun _ => erases_pure _

theorem erases_ok {α : Type} {m : Logged α} {m' : OnClf α} (h : Erases m m') {c c' : Clf} {w w' : List Warning} {a : α}
    (hm : m (c, w) = .ok a (c', w')) : m' c = .ok a c' := by
  obtain ⟨ws, h1⟩ := h c w
  rw [hm] at h1
  cases h2 : m' c with
  | ok b c2 => rw [h2] at h1; injection h1 with e1 e2; injection e2 with e2 e3; rw [e1, e2]
  | error e c2 => rw [h2] at h1; cases h1

/-! ### the log of a successful fit -/

theorem logged_bind_ok {α β : Type} {m : Logged α} {f : α → Logged β} {s s' : Clf × List Warning} {b : β}
    (h : (m >>= f) s = .ok b s') : ∃ a s1, m s = .ok a s1 ∧ f a s1 = .ok b s' := by
  rw [logged_bind_run] at h
  cases hm : m s with
  | ok a s1 => rw [hm] at h; exact ⟨a, s1, rfl, h⟩
  | error e s1 => rw [hm] at h; cases h

theorem quietly_ok {α : Type} {m : OnClf α} {s s' : Clf × List Warning} {a : α} (h : quietly m s = .ok a s') :
    m s.1 = .ok a s'.1 ∧ s'.2 = s.2 := by
  unfold quietly at h
  cases hm : m s.1 with
  | ok b c => rw [hm] at h; injection h with h1 h2; subst h1; subst h2; exact ⟨rfl, rfl⟩
  | error e c => rw [hm] at h; cases h

theorem warnAll_ok {ws : List Warning} {s s' : Clf × List Warning} {u : Unit} (h : warnAll ws s = .ok u s') :
    s' = (s.1, s.2 ++ ws) := by
  unfold warnAll at h
  injection h with _ h
  exact h.symm

/-- Peel one quiet step off. -/
theorem peel {α β : Type} {m : OnClf α} {f : α → Logged β} {c : Clf} {w : List Warning} {b : β} {s' : Clf × List Warning}
    (h : (quietly m >>= f) (c, w) = .ok b s') : ∃ a c1, m c = .ok a c1 ∧ f a (c1, w) = .ok b s' := by
  obtain ⟨a, ⟨c1, w1⟩, h1, h2⟩ := logged_bind_ok h
  obtain ⟨h3, h4⟩ := quietly_ok h1
  dsimp only at h3 h4
  subst h4
  exact ⟨a, c1, h3, h2⟩

/-- Peel warnings off. -/
theorem peelWarn {β : Type} {ws : List Warning} {f : Unit → Logged β} {c : Clf} {w : List Warning} {b : β} {s' : Clf × List Warning}
    (h : (warnAll ws >>= f) (c, w) = .ok b s') : f () (c, w ++ ws) = .ok b s' := by
  rw [logged_bind_run] at h
  exact h

theorem preprocessLogged_ok [Arith] {F : PyFloat} {P : PandasCut} {n : Option Nat} {d : FitData} {c c1 : Clf} {w w1 : List Warning}
    {q : TFrame × Feat × Val × Binner} (h : preprocessLogged F P n d (c, w) = .ok q (c1, w1)) :
    preprocessTraining F P n d = .ok q ∧ c1 = c ∧ ∃ df0, toTraining d.X d.y (classFeatName d.classFeat d.y) d.names = .ok df0 ∧
      w1 = w ++ singleClassWarnings (df0.unique (classFeatName d.classFeat d.y)) d.posClass q.2.2.1 := by
  have he := erases_ok (erases_preprocess F P n d) h
  rw [pureCode_run] at he
  have hp : preprocessTraining F P n d = .ok q ∧ c1 = c := by
    cases hq : preprocessTraining F P n d with
    | ok q' => rw [hq] at he; injection he with h1 h2; exact ⟨by rw [h1], h2.symm⟩
    | error e => rw [hq] at he; cases he
  refine ⟨hp.1, hp.2, ?_⟩
  unfold preprocessLogged at h
  obtain ⟨_, c2, _, h⟩ := peel h
  obtain ⟨df0, c3, h3, h⟩ := peel h
  obtain ⟨pc, c4, _, h⟩ := peel h
  have h := peelWarn h
  obtain ⟨⟨b, df⟩, c5, _, h⟩ := peel h
  refine ⟨df0, ?_, ?_⟩
  · rw [pureCode_run] at h3
    cases ht : toTraining d.X d.y (classFeatName d.classFeat d.y) d.names with
    | ok x => rw [ht] at h3; injection h3 with e1 e2; rw [e1]
    | error e => rw [ht] at h3; cases h3
  · dsimp only at h
    injection h with e1 e2
    injection e2 with e2 e3
    rw [← e3, ← e1]

/-- The rest of `fit`, the rules having been grown. -/
theorem tail_irep {c c' : Clf} {w w' : List Warning} {rs : Ruleset} {df : Frame} {cf : Feat} {pc : Val} {sel tf : List Feat}
    {α : Type} {x y : α}
    (h : (quietly (modify (fun c : Clf => { c with ruleset := some rs, selected := some sel, trainFeats := some tf })) >>= fun _ =>
      quietly (Clf.fitProbas df cf pc) >>= fun _ => quietly (modify (fun c : Clf => { c with classes := some .codes })) >>= fun _ =>
      quietly Clf.tidy >>= fun _ => (pure x : Logged α)) (c, w) = .ok y (c', w')) :
    w' = w ∧ ∃ rs', c'.ruleset = some rs' ∧ rs'.rules.map Rule.conds = finish c'.hyper.lim.maxTotalConds (rs.rules.map Rule.conds) := by
  obtain ⟨_, c1, h1, h⟩ := peel h
  injection h1 with _ h1
  subst h1
  obtain ⟨_, c2, h2, h⟩ := peel h
  rw [Clf.fitProbas_run (rs := rs) rfl] at h2
  obtain ⟨rs2, hr2, hc2⟩ : ∃ rs2, rs2.rules.map Rule.conds = rs.rules.map Rule.conds ∧
      c2 = { c with ruleset := some rs2, selected := some sel, trainFeats := some tf } := by
    have hk := recalibrate_conds rs df cf pc c.hyper.alpha
    revert h2 hk
    dsimp only
    generalize recalibrate rs df cf pc c.hyper.alpha = o
    obtain ⟨rs2, e⟩ := o
    cases e with
    | some e => intro h2; cases h2
    | none => intro h2 hk; injection h2 with _ h2; exact ⟨rs2, hk, h2.symm⟩
  subst hc2
  obtain ⟨_, c3, h3, h⟩ := peel h
  injection h3 with _ h3
  subst h3
  obtain ⟨_, c4, h4, h⟩ := peel h
  rw [Clf.tidy_run (rs := rs2) rfl] at h4
  injection h4 with _ h4
  subst h4
  injection h with _ h
  injection h with hc hw
  subst hc
  refine ⟨hw.symm, _, rfl, ?_⟩
  simp only [Ruleset.trimConds, trimRules_conds, removeDups_conds, hr2]
  rfl

theorem tail_ripper {c c' : Clf} {w w' : List Warning} {rs : Ruleset} {df : Frame} {cf : Feat} {pc : Val} {sel tf : List Feat}
    {α : Type} {x y : α}
    (h : (quietly (modify (fun c : Clf => { c with ruleset := some rs, selected := some sel, trainFeats := some tf })) >>= fun _ =>
      quietly Clf.tidy >>= fun _ => quietly (Clf.fitProbas df cf pc) >>= fun _ =>
      quietly (modify (fun c : Clf => { c with classes := some .codes })) >>= fun _ => (pure x : Logged α)) (c, w) = .ok y (c', w')) :
    w' = w ∧ ∃ rs', c'.ruleset = some rs' ∧ rs'.rules.map Rule.conds = finish c'.hyper.lim.maxTotalConds (rs.rules.map Rule.conds) := by
  obtain ⟨_, c1, h1, h⟩ := peel h
  injection h1 with _ h1
  subst h1
  obtain ⟨_, c4, h4, h⟩ := peel h
  rw [Clf.tidy_run (rs := rs) rfl] at h4
  injection h4 with _ h4
  subst h4
  obtain ⟨_, c2, h2, h⟩ := peel h
  rw [Clf.fitProbas_run rfl] at h2
  dsimp only at h2
  generalize hrs1 : Ruleset.trimConds { rs with rules := removeDups Rule.sameKey rs.rules } c.hyper.lim.maxTotalConds = rs1 at h2
  obtain ⟨rs2, hr2, hc2⟩ : ∃ rs2, rs2.rules.map Rule.conds = rs1.rules.map Rule.conds ∧
      c2 = { c with ruleset := some rs2, selected := some sel, trainFeats := some tf } := by
    have hk := recalibrate_conds rs1 df cf pc c.hyper.alpha
    revert h2 hk
    generalize recalibrate rs1 df cf pc c.hyper.alpha = o
    obtain ⟨rs2, e⟩ := o
    cases e with
    | some e => intro h2; cases h2
    | none => intro h2 hk; injection h2 with _ h2; exact ⟨rs2, hk, h2.symm⟩
  subst hc2
  obtain ⟨_, c3, h3, h⟩ := peel h
  injection h3 with _ h3
  subst h3
  injection h with _ h
  injection h with hc hw
  subst hc
  refine ⟨hw.symm, _, rfl, ?_⟩
  rw [hr2, ← hrs1]
  simp only [Ruleset.trimConds, trimRules_conds, removeDups_conds]
  rfl

/-- The log of a successful fit: what is said of the single class, of the classes and of the grown rules. -/
theorem fitLogged_log [Arith] {a : Method} {fuel : Nat} {R : PyRandom} {F : PyFloat} {P : PandasCut} {d : FitData} {init : ModelArg}
    {g g' : R.G} {c c' : Clf} {w : List Warning} (h : a.fitLogged fuel R F P d init g (c, []) = .ok g' (c', w)) :
    ∃ df0 df cf pc b grown rs', cf = classFeatName d.classFeat d.y ∧ toTraining d.X d.y cf d.names = .ok df0 ∧
      preprocessTraining F P c.nBins d = .ok (df, cf, pc, b) ∧
      w = singleClassWarnings (df0.unique cf) d.posClass pc ++ classWarnings df.toFrame cf pc ++ rulesWarnings grown ∧
      c'.ruleset = some rs' ∧ rs'.rules.map Rule.conds = finish c'.hyper.lim.maxTotalConds (grown.rules.map Rule.conds) := by
  cases a with
  | irep =>
    unfold Method.fitLogged Clf.irepFitLogged at h
    obtain ⟨first, c1, h1, h⟩ := peel h
    obtain ⟨_, c2, h2, h⟩ := peel h
    obtain ⟨v, c3, h3, h⟩ := peel h
    obtain ⟨⟨df, cf, pc, b⟩, ⟨c4, w4⟩, h4, h⟩ := logged_bind_ok h
    obtain ⟨hp, _, df0, ht, hw⟩ := preprocessLogged_ok h4
    obtain ⟨_, hcf, _⟩ := preprocessTraining_ok hp
    obtain ⟨_, c5, _, h⟩ := peel h
    obtain ⟨_, c6, _, h⟩ := peel h
    obtain ⟨cn, c7, _, h⟩ := peel h
    have h := peelWarn h
    obtain ⟨_, c8, _, h⟩ := peel h
    obtain ⟨st, c9, _, h⟩ := peel h
    have h := peelWarn h
    obtain ⟨t1, rs', t2, t3⟩ := tail_irep h
    have hn : v.nBins = c.nBins := by
      rw [pureCode_run] at h1
      cases he : init.early with
      | error e => rw [he] at h1; cases h1
      | ok x =>
        rw [he] at h1
        injection h1 with _ e1
        injection h2 with _ e2
        injection h3 with e3 _
        rw [← e3, ← e2, ← e1]
    rw [hn] at hp
    exact ⟨df0, df, cf, pc, b, _, rs', hcf, hcf ▸ ht, hp, by rw [t1, hw]; simp [hcf], t2, t3⟩
  | irepPlain S =>
    unfold Method.fitLogged Clf.irepFitPlainLogged at h
    obtain ⟨first, c1, h1, h⟩ := peel h
    obtain ⟨_, c2, h2, h⟩ := peel h
    obtain ⟨v, c3, h3, h⟩ := peel h
    obtain ⟨⟨df, cf, pc, b⟩, ⟨c4, w4⟩, h4, h⟩ := logged_bind_ok h
    obtain ⟨hp, _, df0, ht, hw⟩ := preprocessLogged_ok h4
    obtain ⟨_, hcf, _⟩ := preprocessTraining_ok hp
    obtain ⟨_, c5, _, h⟩ := peel h
    obtain ⟨_, c6, _, h⟩ := peel h
    have h := peelWarn h
    obtain ⟨_, c8, _, h⟩ := peel h
    obtain ⟨st, c9, _, h⟩ := peel h
    have h := peelWarn h
    obtain ⟨t1, rs', t2, t3⟩ := tail_irep h
    have hn : v.nBins = c.nBins := by
      rw [pureCode_run] at h1
      cases he : init.early with
      | error e => rw [he] at h1; cases h1
      | ok x =>
        rw [he] at h1
        injection h1 with _ e1
        injection h2 with _ e2
        injection h3 with e3 _
        rw [← e3, ← e2, ← e1]
    rw [hn] at hp
    exact ⟨df0, df, cf, pc, b, _, rs', hcf, hcf ▸ ht, hp, by rw [t1, hw]; simp [hcf], t2, t3⟩
  | ripper =>
    unfold Method.fitLogged Clf.ripperFitLogged at h
    obtain ⟨v, c3, h3, h⟩ := peel h
    obtain ⟨⟨df, cf, pc, b⟩, ⟨c4, w4⟩, h4, h⟩ := logged_bind_ok h
    obtain ⟨hp, _, df0, ht, hw⟩ := preprocessLogged_ok h4
    obtain ⟨_, hcf, _⟩ := preprocessTraining_ok hp
    obtain ⟨_, c5, _, h⟩ := peel h
    obtain ⟨_, c6, _, h⟩ := peel h
    obtain ⟨cn, c7, _, h⟩ := peel h
    have h := peelWarn h
    obtain ⟨_, c8, _, h⟩ := peel h
    obtain ⟨st, c9, _, h⟩ := peel h
    obtain ⟨_, c10, _, h⟩ := peel h
    obtain ⟨⟨r1, g1⟩, c11, _, h⟩ := peel h
    obtain ⟨⟨r2, g2⟩, c12, _, h⟩ := peel h
    obtain ⟨_, c13, _, h⟩ := peel h
    obtain ⟨⟨r3, g3⟩, c14, _, h⟩ := peel h
    have h := peelWarn h
    obtain ⟨t1, rs', t2, t3⟩ := tail_ripper h
    have hn : v.nBins = c.nBins := by injection h3 with e3 _; rw [← e3]
    rw [hn] at hp
    exact ⟨df0, df, cf, pc, b, _, rs', hcf, hcf ▸ ht, hp, by rw [t1, hw]; simp [hcf], t2, t3⟩
  | ripperPlain S =>
    unfold Method.fitLogged Clf.ripperFitPlainLogged at h
    obtain ⟨v, c3, h3, h⟩ := peel h
    obtain ⟨⟨df, cf, pc, b⟩, ⟨c4, w4⟩, h4, h⟩ := logged_bind_ok h
    obtain ⟨hp, _, df0, ht, hw⟩ := preprocessLogged_ok h4
    obtain ⟨_, hcf, _⟩ := preprocessTraining_ok hp
    obtain ⟨_, c5, _, h⟩ := peel h
    obtain ⟨_, c6, _, h⟩ := peel h
    have h := peelWarn h
    obtain ⟨_, c8, _, h⟩ := peel h
    obtain ⟨st, c9, _, h⟩ := peel h
    obtain ⟨_, c10, _, h⟩ := peel h
    obtain ⟨⟨r1, g1⟩, c11, _, h⟩ := peel h
    obtain ⟨⟨r2, k2, g2⟩, c12, _, h⟩ := peel h
    obtain ⟨_, c13, _, h⟩ := peel h
    obtain ⟨⟨r3, g3⟩, c14, _, h⟩ := peel h
    have h := peelWarn h
    obtain ⟨t1, rs', t2, t3⟩ := tail_ripper h
    have hn : v.nBins = c.nBins := by injection h3 with e3 _; rw [← e3]
    rw [hn] at hp
    exact ⟨df0, df, cf, pc, b, _, rs', hcf, hcf ▸ ht, hp, by rw [t1, hw]; simp [hcf], t2, t3⟩

/-! ### what the warnings say -/

theorem sameKind_pyEq {a b v : Val} (h : a.sameKind b = true) : a.pyEq v = b.pyEq v := by
  cases a <;> cases b <;> cases v <;> simp_all [Val.sameKind, Val.pyEq]

theorem anyCell_eq (f : Feat) (pc : Val) (l l' : List Row) (h : l.map (·.cell f) = l'.map (·.cell f)) :
    l.any (fun row => (row.cell f).pyEq pc) = l'.any (fun row => (row.cell f).pyEq pc) ∧
    l.all (fun row => (row.cell f).pyEq pc) = l'.all (fun row => (row.cell f).pyEq pc) := by
  have h1 : ∀ l : List Row, l.any (fun row => (row.cell f).pyEq pc) = (l.map (·.cell f)).any (fun v => v.pyEq pc) := by
    intro l; rw [List.any_map]; rfl
  have h2 : ∀ l : List Row, l.all (fun row => (row.cell f).pyEq pc) = (l.map (·.cell f)).all (fun v => v.pyEq pc) := by
    intro l; rw [List.all_map]; rfl
  rw [h1, h1, h2, h2, h]
  exact ⟨rfl, rfl⟩

/-- The warning about a single class says what the warning about the classes says. -/
theorem singleClass_sub {df : Frame} {cf : Feat} {asked : Option Val} {pc : Val} (hne : df.rows ≠ []) (w : Warning)
    (h : w ∈ singleClassWarnings (df.unique cf) asked pc) : w ∈ classWarnings df cf pc := by
  unfold singleClassWarnings at h
  cases asked with
  | some v => simp at h
  | none =>
    cases hu : df.unique cf with
    | nil => rw [hu] at h; simp at h
    | cons v l =>
      cases l with
      | cons v2 l => rw [hu] at h; simp at h
      | nil =>
        rw [hu] at h
        simp only [List.mem_singleton] at h
        have hall : ∀ row ∈ df.rows, (row.cell cf).pyEq pc = v.pyEq pc := by
          intro row hr
          obtain ⟨x, hx, hx2⟩ := unique_rep (f := cf) hr
          rw [hu] at hx
          simp only [List.mem_singleton] at hx
          subst hx
          exact (sameKind_pyEq hx2).symm
        have hcong1 : df.rows.any (fun row => (row.cell cf).pyEq pc) = v.pyEq pc := by
          cases hv : v.pyEq pc with
          | true =>
            obtain ⟨row, hr⟩ := List.exists_mem_of_ne_nil _ hne
            exact List.any_eq_true.mpr ⟨row, hr, by rw [hall row hr, hv]⟩
          | false =>
            rw [List.any_eq_false]
            intro row hr
            rw [hall row hr, hv]; simp
        unfold classWarnings
        rw [hcong1]
        cases hv : v.pyEq pc with
        | false => rw [hv] at h; subst h; simp
        | true =>
          rw [hv] at h
          have : df.rows.all (fun row => (row.cell cf).pyEq pc) = true := by
            rw [List.all_eq_true]
            intro row hr
            rw [hall row hr, hv]
          rw [this]
          subst h; simp

theorem classWarnings_iff {df : Frame} {cf : Feat} {pc : Val} (hne : df.rows ≠ []) (w : Warning) :
    w ∈ classWarnings df cf pc ↔
      (w = .noPositives ∧ ∀ row ∈ df.rows, ¬ Same (row.cell cf) pc) ∨ (w = .noNegatives ∧ ∀ row ∈ df.rows, Same (row.cell cf) pc) := by
  unfold classWarnings
  cases h1 : df.rows.any (fun row => (row.cell cf).pyEq pc) with
  | false =>
    rw [List.any_eq_false] at h1
    obtain ⟨row, hr⟩ := List.exists_mem_of_ne_nil _ hne
    have hno : ∀ row ∈ df.rows, ¬ Same (row.cell cf) pc := by
      intro row hr hs
      exact h1 row hr (Val.pyEq_iff.mpr hs)
    simp only [Bool.not_false, if_true, List.mem_singleton]
    exact ⟨fun h => Or.inl ⟨h, hno⟩, fun h => h.elim (·.1) (fun h => absurd (h.2 row hr) (hno row hr))⟩
  | true =>
    obtain ⟨row, hr, hs⟩ := List.any_eq_true.mp h1
    simp only [Bool.not_true, Bool.false_eq_true, if_false]
    have hnot : ¬ ∀ row ∈ df.rows, ¬ Same (row.cell cf) pc := fun h => h row hr (Val.pyEq_iff.mp hs)
    cases h2 : df.rows.all (fun row => (row.cell cf).pyEq pc) with
    | true =>
      rw [List.all_eq_true] at h2
      simp only [if_true, List.mem_singleton]
      exact ⟨fun h => Or.inr ⟨h, fun row hr => Val.pyEq_iff.mp (h2 row hr)⟩, fun h => h.elim (fun h => absurd h.2 hnot) (·.1)⟩
    | false =>
      simp only [Bool.false_eq_true, if_false, List.not_mem_nil, false_iff, not_or]
      refine ⟨fun h => hnot h.2, fun h => ?_⟩
      have : df.rows.all (fun row => (row.cell cf).pyEq pc) = true := List.all_eq_true.mpr fun row hr => Val.pyEq_iff.mpr (h.2 row hr)
      rw [this] at h2
      cases h2

theorem rulesWarnings_iff (rs : Ruleset) (w : Warning) :
    w ∈ rulesWarnings rs ↔ (w = .universal ∧ ∃ r ∈ rs.rules, r.conds = []) ∨ (w = .empty ∧ rs.rules = []) := by
  unfold rulesWarnings
  by_cases h1 : rs.isUniversal = true
  · rw [if_pos h1]
    obtain ⟨r, hr, he⟩ := Ruleset.isUniversal_iff.mp h1
    simp only [List.mem_singleton]
    exact ⟨fun h => Or.inl ⟨h, r, hr, he⟩, fun h => h.elim (·.1) (fun h => by rw [h.2] at hr; simp at hr)⟩
  · rw [if_neg h1]
    have h1' := fun h => h1 (Ruleset.isUniversal_iff.mpr h)
    by_cases h2 : rs.isNull = true
    · rw [if_pos h2]
      simp only [List.mem_singleton]
      exact ⟨fun h => Or.inr ⟨h, Ruleset.isNull_iff.mp h2⟩, fun h => h.elim (fun h => absurd h.2 h1') (·.1)⟩
    · rw [if_neg h2]
      simp only [List.not_mem_nil, false_iff, not_or]
      exact ⟨fun h => h1' h.2, fun h => h2 (Ruleset.isNull_iff.mpr h.2)⟩

/-- No rule disappears from the list for good, and the empty rule neither, when nothing is trimmed. -/
theorem finish_none {rules : List (List Cond)} :
    (([] : List Cond) ∈ rules → [] ∈ finish none rules) ∧ (finish none rules = [] → rules = []) := by
  have hkey : ∀ r ∈ rules, ∃ s ∈ finish none rules, s = r ∨ condsSameKey s r = true := by
    intro r hr
    rcases removeDups_rep (same := condsSameKey) rules hr with h | ⟨s, h1, h2⟩
    · exact ⟨r, h, Or.inl rfl⟩
    · exact ⟨s, h1, Or.inr h2⟩
  constructor
  · intro h
    obtain ⟨s, hs, hs2⟩ := hkey [] h
    rcases hs2 with rfl | hs2
    · exact hs
    · have : s = [] := by
        have h := List.isPerm_iff.mp hs2
        simpa [condTexts] using h
      exact this ▸ hs
  · intro h
    cases rules with
    | nil => rfl
    | cons r l =>
      obtain ⟨s, hs, _⟩ := hkey r List.mem_cons_self
      rw [h] at hs
      simp at hs

/-! ### the properties -/

/-- C89. Issuing warnings changes nothing: `fit` with its warnings returns, raises and leaves behind on the object exactly what
the `fit` of the other properties does, for both classifiers, with and without the index. -/
theorem C89_warnings_change_nothing [Arith] (a : Method) (fuel : Nat) (R : PyRandom) (F : PyFloat) (P : PandasCut) (d : FitData)
    (init : ModelArg) (g : R.G) (c : Clf) :
    (∀ g' c', a.fit fuel R F P d init g c = .ok g' c' ↔ ∃ log, a.fitLogged fuel R F P d init g (c, []) = .ok g' (c', log)) ∧
    (∀ e c', a.fit fuel R F P d init g c = .error e c' ↔
      ∃ log, a.fitLogged fuel R F P d init g (c, []) = .error e (c', log)) := by
  obtain ⟨ws, h⟩ := erases_fit a fuel R F P d init g c []
  rw [h]
  cases a.fit fuel R F P d init g c with
  | ok g1 c1 =>
    exact ⟨fun g' c' => ⟨fun h => by injection h with h1 h2; subst h1; subst h2; exact ⟨_, rfl⟩,
      fun ⟨log, h⟩ => by injection h with h1 h2; injection h2 with h2 h3; rw [h1, h2]⟩,
      fun e c' => ⟨fun h => by (cases h), fun ⟨log, h⟩ => by (cases h)⟩⟩
  | error e1 c1 =>
    exact ⟨fun g' c' => ⟨fun h => by (cases h), fun ⟨log, h⟩ => by (cases h)⟩,
      fun e c' => ⟨fun h => by injection h with h1 h2; subst h1; subst h2; exact ⟨_, rfl⟩,
      fun ⟨log, h⟩ => by injection h with h1 h2; injection h2 with h2 h3; rw [h1, h2]⟩⟩

/-- C89. The warnings of a successful `fit`, for both classifiers, with and without the index, on any data: "No positive samples" is
warned of exactly when no row of the labelled data has the positive class (given or inferred), "No negative samples" exactly when
all rows have it; if the model left behind has a rule without conditions, this was warned of; if an empty model was warned of,
the model left behind is empty; and if max_total_conds is not set, both warnings are given exactly when the model left behind is
such. -/
theorem C89_fit_warnings [Arith] (a : Method) (fuel : Nat) (R : PyRandom) (F : PyFloat) (P : PandasCut) (d : FitData)
    (init : ModelArg) (g g' : R.G) (c c' : Clf) (log : List Warning)
    (h : a.fitLogged fuel R F P d init g (c, []) = .ok g' (c', log)) :
    ∃ df cf pc rs, toTraining d.X d.y cf d.names = .ok df ∧ c'.classFeat = some cf ∧ c'.posClass = some pc ∧ c'.ruleset = some rs ∧
      (.noPositives ∈ log ↔ ∀ row ∈ df.rows, ¬ Same (row.cell cf) pc) ∧
      (.noNegatives ∈ log ↔ ∀ row ∈ df.rows, Same (row.cell cf) pc) ∧
      ((∃ r ∈ rs.rules, r.conds = []) → .universal ∈ log) ∧
      (.empty ∈ log → rs.rules = []) ∧
      (c.hyper.lim.maxTotalConds = none →
        (.universal ∈ log ↔ ∃ r ∈ rs.rules, r.conds = []) ∧ (.empty ∈ log ↔ rs.rules = [])) := by
  obtain ⟨df0, df, cf, pc, b, grown, rs', hcf, ht, hp, hw, hrs, hfin⟩ := fitLogged_log h
  obtain ⟨df1, cf1, pc1, b1, start, m, hp1, _, _, hc'⟩ := Method.fit_ok (erases_ok (erases_fit a fuel R F P d init g) h)
  rw [hp] at hp1
  injection hp1 with hp1
  simp only [Prod.mk.injEq] at hp1
  obtain ⟨rfl, rfl, rfl, rfl⟩ := hp1
  obtain ⟨hne, _, df2, ht2, _, _, _, hlen, _, _, _, hcells⟩ := preprocessTraining_ok hp
  rw [ht] at ht2
  injection ht2 with ht2
  subst ht2
  have hne0 : df0.rows ≠ [] := by
    intro he
    rw [he] at hlen
    exact hne (List.length_eq_zero_iff.mp hlen.symm)
  have hcw : classWarnings df.toFrame cf pc = classWarnings df0.toFrame cf pc := by
    unfold classWarnings
    obtain ⟨e1, e2⟩ := anyCell_eq cf pc df.rows df0.rows hcells
    have e1' : df.toFrame.rows.any (fun row => (row.cell cf).pyEq pc) = df0.toFrame.rows.any (fun row => (row.cell cf).pyEq pc) := e1
    have e2' : df.toFrame.rows.all (fun row => (row.cell cf).pyEq pc) = df0.toFrame.rows.all (fun row => (row.cell cf).pyEq pc) := e2
    rw [e1', e2']
  have hcls : ∀ w, w = .noPositives ∨ w = .noNegatives → (w ∈ log ↔ w ∈ classWarnings df0.toFrame cf pc) := by
    intro w hww
    rw [hw, hcw]
    simp only [List.mem_append]
    constructor
    · rintro ((h | h) | h)
      · exact singleClass_sub (df := df0.toFrame) hne0 w h
      · exact h
      · rcases (rulesWarnings_iff grown w).mp h with ⟨rfl, _⟩ | ⟨rfl, _⟩ <;> simp at hww
    · exact fun h => Or.inl (Or.inr h)
  have hrls : ∀ w, w = .universal ∨ w = .empty → (w ∈ log ↔ w ∈ rulesWarnings grown) := by
    intro w hww
    rw [hw, hcw]
    simp only [List.mem_append]
    have hno : w ∉ classWarnings df0.toFrame cf pc := by
      intro h
      rcases (classWarnings_iff (df := df0.toFrame) hne0 w).mp h with ⟨rfl, _⟩ | ⟨rfl, _⟩ <;> simp at hww
    constructor
    · rintro ((h | h) | h)
      · exact absurd (singleClass_sub (df := df0.toFrame) hne0 w h) hno
      · exact absurd h hno
      · exact h
    · exact fun h => Or.inr h
  have hmem : (∃ r ∈ grown.rules, r.conds = []) ↔ ([] : List Cond) ∈ grown.rules.map Rule.conds := by simp
  have hmem' : (∃ r ∈ rs'.rules, r.conds = []) ↔ ([] : List Cond) ∈ rs'.rules.map Rule.conds := by simp
  have hnil : rs'.rules = [] ↔ rs'.rules.map Rule.conds = [] := by simp
  have hnil' : grown.rules = [] ↔ grown.rules.map Rule.conds = [] := by simp
  have huni : (∃ r ∈ rs'.rules, r.conds = []) → Warning.universal ∈ log := by
    intro hr
    rw [hmem', hfin] at hr
    exact (hrls _ (Or.inl rfl)).mpr ((rulesWarnings_iff _ _).mpr (Or.inl ⟨rfl, hmem.mpr ((finish_sublist _ _).subset hr)⟩))
  have hemp : Warning.empty ∈ log → rs'.rules = [] := by
    intro hl
    rcases (rulesWarnings_iff _ _).mp ((hrls _ (Or.inr rfl)).mp hl) with ⟨h, _⟩ | ⟨_, h⟩
    · cases h
    · rw [hnil, hfin]
      have hs := finish_sublist c'.hyper.lim.maxTotalConds (grown.rules.map Rule.conds)
      rw [h] at hs
      exact List.sublist_nil.mp (h ▸ hs)
  refine ⟨df0, cf, pc, rs', ht, by rw [hc']; rfl, by rw [hc']; rfl, hrs, ?_, ?_, huni, hemp, fun hmax => ⟨⟨?_, huni⟩, hemp, ?_⟩⟩
  · rw [hcls _ (Or.inl rfl), classWarnings_iff (df := df0.toFrame) hne0]
    exact ⟨fun h => h.elim (·.2) (fun h => by cases h.1), fun h => Or.inl ⟨rfl, h⟩⟩
  · rw [hcls _ (Or.inr rfl), classWarnings_iff (df := df0.toFrame) hne0]
    exact ⟨fun h => h.elim (fun h => by cases h.1) (·.2), fun h => Or.inr ⟨rfl, h⟩⟩
  · intro hl
    have hm' : c'.hyper.lim.maxTotalConds = none := by rw [hc']; exact hmax
    rcases (rulesWarnings_iff _ _).mp ((hrls _ (Or.inl rfl)).mp hl) with ⟨_, h⟩ | ⟨h, _⟩
    · rw [hmem', hfin, hm']
      exact finish_none.1 (hmem.mp h)
    · cases h
  · intro hr
    have hm' : c'.hyper.lim.maxTotalConds = none := by rw [hc']; exact hmax
    rw [hnil, hfin, hm'] at hr
    exact (hrls _ (Or.inr rfl)).mpr ((rulesWarnings_iff _ _).mpr (Or.inr ⟨rfl, hnil'.mpr (finish_none.2 hr)⟩))

theorem erases_predict [Arith] (F : PyFloat) (X : TFrame) (names : Option (List Feat)) :
    Erases (Clf.predictLogged F X names) (Clf.predict F X names) := by
  unfold Clf.predictLogged Clf.predict
  exact erases_bind (erases_quietly _) fun _ => erases_bind (erases_quietly _) fun _ => erases_bind (erases_quietly _) fun _ =>
    erases_bind (erases_quietly _) fun _ => erases_warn _ (erases_quietly _)

/-- C89. `predict` with its warnings answers what `predict` answers. If it answers, the only warnings are: "Ruleset is universal"
exactly when the model has a rule without conditions (then all answers are True), and "Ruleset is empty" exactly when it has no rules
(then all answers are False). -/
theorem C89_predict_warnings [Arith] (F : PyFloat) (X : TFrame) (names : Option (List Feat)) (c : Clf) :
    (∀ ps c', Clf.predict F X names c = .ok ps c' ↔ ∃ log, Clf.predictLogged F X names (c, []) = .ok ps (c', log)) ∧
    ∀ ps c' log, Clf.predictLogged F X names (c, []) = .ok ps (c', log) → ∃ rs, c'.ruleset = some rs ∧
      (log = [] ∨ log = [.universal] ∨ log = [.empty]) ∧
      (.universal ∈ log ↔ ∃ r ∈ rs.rules, r.conds = []) ∧ (.empty ∈ log ↔ rs.rules = []) ∧
      (.universal ∈ log → ∀ p ∈ ps, p = true) ∧ (.empty ∈ log → ∀ p ∈ ps, p = false) := by
  constructor
  · intro ps c'
    obtain ⟨ws, h⟩ := erases_predict F X names c []
    rw [h]
    cases Clf.predict F X names c with
    | ok g1 c1 =>
      exact ⟨fun h => by injection h with h1 h2; subst h1; subst h2; exact ⟨_, rfl⟩,
        fun ⟨log, h⟩ => by injection h with h1 h2; injection h2 with h2 h3; rw [h1, h2]⟩
    | error e1 c1 => exact ⟨fun h => by (cases h), fun ⟨log, h⟩ => by (cases h)⟩
  · intro ps c' log h
    unfold Clf.predictLogged at h
    obtain ⟨rs0, c1, h1, h⟩ := peel h
    obtain ⟨_, c2, h2, h⟩ := peel h
    obtain ⟨df, c3, h3, h⟩ := peel h
    obtain ⟨rs, c4, h4, h⟩ := peel h
    have h := peelWarn h
    obtain ⟨h5, h6⟩ := quietly_ok h
    dsimp only at h5 h6
    rw [self_run] at h4
    rw [pureCode_run] at h5
    have hc4 : c4 = c3 ∧ c3.ruleset = some rs := by
      cases hr : c3.ruleset with
      | none => rw [hr] at h4; cases h4
      | some r => rw [hr] at h4; injection h4 with e1 e2; subst e1; exact ⟨e2.symm, rfl⟩
    obtain ⟨rfl, hrs⟩ := hc4
    have hps : rs.predict df = .ok ps ∧ c' = c4 := by
      cases hp : rs.predict df with
      | error e => rw [hp] at h5; cases h5
      | ok q => rw [hp] at h5; injection h5 with e1 e2; subst e1; exact ⟨rfl, e2.symm⟩
    obtain ⟨hps, rfl⟩ := hps
    rw [List.nil_append] at h6
    have hu : Warning.universal ∈ log ↔ ∃ r ∈ rs.rules, r.conds = [] := by
      rw [h6, rulesWarnings_iff]
      exact ⟨fun h => h.elim (·.2) (fun h => by cases h.1), fun h => Or.inl ⟨rfl, h⟩⟩
    have he : Warning.empty ∈ log ↔ rs.rules = [] := by
      rw [h6, rulesWarnings_iff]
      exact ⟨fun h => h.elim (fun h => by cases h.1) (·.2), fun h => Or.inr ⟨rfl, h⟩⟩
    refine ⟨rs, hrs, ?_, hu, he, ?_, ?_⟩
    · rw [h6]; unfold rulesWarnings; split
      · exact Or.inr (Or.inl rfl)
      · split
        · exact Or.inr (Or.inr rfl)
        · exact Or.inl rfl
    · intro hl p hp
      have := (C05_universal_and_null rs df).1 (hu.mp hl)
      rw [hps] at this
      injection this with this
      rw [this] at hp
      exact (List.mem_replicate.mp hp).2
    · intro hl p hp
      have := (C05_universal_and_null rs df).2 (he.mp hl)
      rw [hps] at this
      injection this with this
      rw [this] at hp
      exact (List.mem_replicate.mp hp).2

/-- C89. What is warned of as universal is: a ruleset answers True on all data with its columns only if it has a rule without
conditions. -/
theorem C89_universal_means_always_true (rs : Ruleset) :
    (∃ r ∈ rs.rules, r.conds = []) ↔
      ∀ df, HasFeatures df rs.rules → rs.predict df = .ok (List.replicate df.rows.length true) := by
  refine ⟨fun h df _ => (C05_universal_and_null rs df).1 h, fun h => ?_⟩
  by_contra hno
  have h1 := h { cols := rs.rules.flatMap (fun r => r.conds.map Cond.feature), rows := [{ label := 0, cell := fun _ => .nan }] } (by
    intro r hr c hc
    exact List.mem_flatMap.mpr ⟨r, hr, List.mem_map.mpr ⟨c, hc, rfl⟩⟩)
  rw [Ruleset.predict_ok (Or.inr (by
    intro r hr c hc
    exact List.mem_flatMap.mpr ⟨r, hr, List.mem_map.mpr ⟨c, hc, rfl⟩⟩))] at h1
  injection h1 with h1
  simp only [List.map_cons, List.map_nil, List.any_cons, List.any_nil, Bool.or_false, beq_self_eq_true, Bool.true_and,
    List.length_cons, List.length_nil, List.replicate_succ, List.replicate_zero, List.cons.injEq, and_true] at h1
  obtain ⟨r, hr, hf⟩ := rulesMet_iff.mp h1
  refine hno ⟨r, hr, ?_⟩
  cases hc : r.conds with
  | nil => rfl
  | cons x l =>
    have := hf x (by rw [hc]; exact List.mem_cons_self)
    rcases this with ⟨s, h1, _⟩ | ⟨q, t, u, h1, _⟩ <;> simp at h1

/-! ### concrete cases -/

namespace Demo
/-- Rules and warnings after a fit. -/
def logOf {α : Type} (r : EStateM.Result PyErr (Clf × List Warning) α) : Option (Option (List (List Cond)) × List Warning) :=
  match r with
  | .ok _ s => some (s.1.ruleset.map (fun rs => rs.rules.map Rule.conds), s.2)
  | .error _ _ => none
def limited (n : Int) (c : Clf) : Clf := { c with hyper := { c.hyper with lim := { c.hyper.lim with maxTotalConds := some n } } }
def allPositive : FitData := { mixedData with posClass := none, y := some (.list [vp, vp, vp, vp, vp, vp]) }
def allZero : FitData :=
  { mixedData with posClass := none, y := some (.list [numCell 0, numCell 0, numCell 0, numCell 0, numCell 0, numCell 0]) }
end Demo

/-- C89. The warning about an empty model may be missing when max_total_conds is set: the rules are looked at before they are
trimmed. With `max_total_conds=1` on data that needs two conditions, the model left behind answers False on everything and neither
classifier says so. -/
theorem C89_refuted_trimmed_silently :
    Demo.logOf (Method.irep.fitLogged 7 Demo.R0 Demo.F Demo.P Demo.mixedData .nothing () (Demo.limited 1 Demo.newIrep, [])) =
      some (some [], []) ∧
    Demo.logOf (Method.ripper.fitLogged 7 Demo.R1 Demo.F Demo.P Demo.mixedData .nothing (0 : Nat) (Demo.limited 1 Demo.newRipper, [])) =
      some (some [], []) := by
  refine ⟨?_, ?_⟩ <;> decide +kernel

/-- A fit without warnings, and fits with each of them. -/
example : Demo.logOf (Method.irep.fitLogged 7 Demo.R0 Demo.F Demo.P Demo.mixedData .nothing () (Demo.newIrep, [])) =
    some (some [[⟨Demo.fn, .str p!"<9.0"⟩, ⟨Demo.fa, Demo.vx⟩]], []) := by decide +kernel
example : Demo.logOf (Method.irep.fitLogged 7 Demo.R0 Demo.F Demo.P { Demo.mixedData with posClass := some (.str p!"zz") } .nothing ()
    (Demo.newIrep, [])) = some (some [], [.noPositives, .empty]) := by decide +kernel
example : Demo.logOf (Method.irep.fitLogged 7 Demo.R0 Demo.F Demo.P Demo.allPositive .nothing () (Demo.newIrep, [])) =
    some (some [[]], [.noNegatives, .noNegatives, .universal]) := by decide +kernel
example : Demo.logOf (Method.irep.fitLogged 7 Demo.R0 Demo.F Demo.P Demo.allZero .nothing () (Demo.newIrep, [])) =
    some (some [], [.noPositives, .noPositives, .empty]) := by decide +kernel

/-- `predict` of a model with rules, and of one without. -/
example : (match Clf.predictLogged Demo.F Demo.tdf none (Demo.clf, []) with
    | .ok ps s => some (ps, s.2)
    | .error _ _ => none) = some ([true, true, false], []) := by decide +kernel
example : (match Clf.predictLogged Demo.F Demo.tdf none ({ Demo.clf with ruleset := some { rules := [] } }, []) with
    | .ok ps s => some (ps, s.2)
    | .error _ _ => none) = some ([false, false, false], [.empty]) := by decide +kernel

end Witt
