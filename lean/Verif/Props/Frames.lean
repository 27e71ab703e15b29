import Verif.Frames
import Verif.Props.FitApi
import Verif.Props.Examples
/-
C90: no call changes the caller's data.
-/
namespace Witt
open Spec

theorem fit_rest [Arith] (fuel : Nat) (R : PyRandom) (F : PyFloat) (P : PandasCut) (d : FitData) (init : ModelArg) (g : R.G) (a : Method) :
    a.fit fuel R F P d init g = (do
      a.begin init
      let c ← EStateM.get
      let q ← pureCode (preprocessTraining F P c.nBins d)
      a.rest fuel R init g q.1 q.2.1 q.2.2.1 q.2.2.2) := by
  cases a with
  | irep => 
    show Clf.irepFit _ _ _ _ _ _ _ = (do
      (do let first ← pureCode init.early; modify (fun c => { c with ruleset := some first }))
      let c ← EStateM.get
      let q ← pureCode (preprocessTraining F P c.nBins d)
      Clf.irepRest fuel R init g q.1 q.2.1 q.2.2.1 q.2.2.2)
    simp only [bind_assoc]
    rfl
  | irepPlain S => 
    show Clf.irepFitPlain _ _ _ _ _ _ _ _ = (do
      (do let first ← pureCode init.early; modify (fun c => { c with ruleset := some first }))
      let c ← EStateM.get
      let q ← pureCode (preprocessTraining F P c.nBins d)
      Clf.irepPlainRest fuel R S init g q.1 q.2.1 q.2.2.1 q.2.2.2)
    simp only [bind_assoc]
    rfl
  | ripper => 
    show Clf.ripperFit _ _ _ _ _ _ _ = (do
      (pure () : OnClf Unit)
      let c ← EStateM.get
      let q ← pureCode (preprocessTraining F P c.nBins d)
      Clf.ripperRest fuel R init g q.1 q.2.1 q.2.2.1 q.2.2.2)
    rfl
  | ripperPlain S => 
    show Clf.ripperFitPlain _ _ _ _ _ _ _ _ = (do
      (pure () : OnClf Unit)
      let c ← EStateM.get
      let q ← pureCode (preprocessTraining F P c.nBins d)
      Clf.ripperPlainRest fuel R S init g q.1 q.2.1 q.2.2.1 q.2.2.2)
    rfl

/-! ### specification -/

/-- All frames that exist in `H` still exist in `H'` and have not changed. -/
def Spec.SameFrames (H H' : Frames) : Prop := H.next ≤ H'.next ∧ ∀ a < H.next, H'.at_ a = H.at_ a

/-- The caller's data, if it is a frame, exists. -/
def Spec.Given (X : DataArg) (H : Frames) : Prop := ∀ a, X = .frame a → a < H.next

/-- The call does what `m'` does (answer or exception, and attributes of the classifier), and to no frame that exists anything at
all. -/
def Spec.OnlyReads {α : Type} (m : OnData α) (m' : OnClf α) (H : Frames) : Prop :=
  ∀ c, ∃ H', SameFrames H H' ∧ m (c, H) = match m' c with
    | .ok a c' => .ok a (c', H')
    | .error e c' => .error e (c', H')

/-! ### frames -/

theorem Spec.SameFrames.refl (H : Frames) : SameFrames H H := ⟨Nat.le_refl _, fun _ _ => rfl⟩

/-- From frames including those of `H0` and satisfying `pre`, `m` gives what `v` says, leaves those of `H0` alone and ends in `post`. -/
def Runs (H0 : Frames) (pre : Frames → Prop) {α β : Type} (m : OnFrames α) (v : Except PyErr β) (post : β → α → Frames → Prop) : Prop :=
  ∀ H, SameFrames H0 H → pre H → (∀ b, v = .ok b → ∃ x H', m H = .ok x H' ∧ SameFrames H0 H' ∧ post b x H') ∧
    ∀ e, v = .error e → ∃ H', m H = .error e H' ∧ SameFrames H0 H'

theorem frames_bind_run {α β : Type} (m : OnFrames α) (f : α → OnFrames β) (H : Frames) :
    (m >>= f) H = match m H with
      | .ok a H' => f a H'
      | .error e H' => .error e H' := by
  show EStateM.bind m f H = _
  unfold EStateM.bind
  cases m H <;> rfl

theorem Runs.bind {H0 : Frames} {pre : Frames → Prop} {α α' β β' : Type} {m : OnFrames α} {v : Except PyErr β}
    {mid : β → α → Frames → Prop} {f : α → OnFrames α'} {w : β → Except PyErr β'} {post : β' → α' → Frames → Prop}
    (h : Runs H0 pre m v mid) (hf : ∀ b x, Runs H0 (mid b x) (f x) (w b) post) : Runs H0 pre (m >>= f) (v >>= w) post := by
  intro H hH hp
  obtain ⟨h1, h2⟩ := h H hH hp
  rw [frames_bind_run]
  cases v with
  | error e =>
    obtain ⟨H', hm, hH'⟩ := h2 e rfl
    rw [hm]
    exact ⟨fun b hb => by (cases hb), fun e' he => by cases he; exact ⟨H', rfl, hH'⟩⟩
  | ok b =>
    obtain ⟨x, H', hm, hH', hmid⟩ := h1 b rfl
    rw [hm]
    exact hf b x H' hH' hmid

theorem Runs.pure {H0 : Frames} {pre : Frames → Prop} {α β : Type} {x : α} {b : β} {post : β → α → Frames → Prop}
    (h : ∀ H, pre H → post b x H) : Runs H0 pre (pure x) (.ok b) post := by
  intro H hH hp
  exact ⟨fun b' hb => by cases hb; exact ⟨x, H, rfl, hH, h H hp⟩, fun e he => by cases he⟩

theorem Runs.throw {H0 : Frames} {pre : Frames → Prop} {α β : Type} {e : PyErr} {post : β → α → Frames → Prop} :
    Runs H0 pre (throw e) (.error e) post := by
  intro H hH hp
  exact ⟨fun b' hb => by (cases hb), fun e' he => by cases he; exact ⟨H, rfl, hH⟩⟩

theorem Runs.noFrames {H0 : Frames} {pre : Frames → Prop} {α : Type} (v : Except PyErr α) :
    Runs H0 pre (noFrames v) v (fun b x H => b = x ∧ pre H) := by
  cases v with
  | ok a => exact Runs.pure (fun H h => ⟨rfl, h⟩)
  | error e => exact Runs.throw

theorem Runs.strengthen {H0 : Frames} {pre pre' : Frames → Prop} {α β : Type} {m : OnFrames α} {v : Except PyErr β}
    {post : β → α → Frames → Prop} (h : Runs H0 pre m v post) (hp : ∀ H, SameFrames H0 H → pre' H → pre H) : Runs H0 pre' m v post :=
  fun H hH hpre => h H hH (hp H hH hpre)

/-- The frame at `a` did not exist before, and is `df`. -/
def Own (H0 : Frames) (a : Nat) (df : TFrame) (H : Frames) : Prop := H0.next ≤ a ∧ a < H.next ∧ H.at_ a = df

theorem runs_newFrame {H0 : Frames} {pre : Frames → Prop} (df : TFrame) :
    Runs H0 pre (newFrame df) (.ok df) (fun b x H => Own H0 x b H) := by
  intro H hH hp
  refine ⟨fun b hb => ?_, fun e he => by cases he⟩
  cases hb
  refine ⟨_, _, rfl, ⟨Nat.le_succ_of_le hH.1, fun a ha => ?_⟩, hH.1, Nat.lt_succ_self _, by simp⟩
  have : a ≠ H.next := by have := hH.1; omega
  simp only [this, if_false]
  exact hH.2 a ha

/-- Reading what one owns. -/
theorem runs_look {H0 : Frames} {a : Nat} {df : TFrame} :
    Runs H0 (Own H0 a df) (look a) (.ok df) (fun b x H => x = b ∧ Own H0 a df H) := by
  intro H hH hp
  refine ⟨fun b hb => ?_, fun e he => by cases he⟩
  cases hb
  exact ⟨_, H, rfl, hH, hp.2.2, hp⟩

theorem runs_overwrite {H0 : Frames} {a : Nat} {df df' : TFrame} :
    Runs H0 (Own H0 a df) (overwrite a df') (.ok df') (fun b _ H => Own H0 a b H) := by
  intro H hH hp
  refine ⟨fun b hb => ?_, fun e he => by cases he⟩
  cases hb
  refine ⟨(), _, rfl, ⟨hH.1, fun x hx => ?_⟩, hp.1, hp.2.1, by simp⟩
  have : x ≠ a := by have := hp.1; omega
  simp only [this, if_false]
  exact hH.2 x hx

theorem runs_lookGiven {H0 : Frames} {pre : Frames → Prop} {a : Nat} (ha : a < H0.next) :
    Runs H0 pre (look a) (.ok (H0.at_ a)) (fun b x H => x = b ∧ pre H) := by
  intro H hH hp
  refine ⟨fun b hb => ?_, fun e he => by cases he⟩
  cases hb
  exact ⟨_, H, rfl, hH, hH.2 a ha, hp⟩

theorem runs_value {H0 : Frames} {pre : Frames → Prop} {X : DataArg} (hX : Given X H0) :
    Runs H0 pre (match X with | .frame a => look a | .other df => (pure df : OnFrames TFrame)) (.ok (X.value H0))
      (fun b x H => x = b ∧ pre H) := by
  cases X with
  | frame a => exact runs_lookGiven (hX a rfl)
  | other df => exact Runs.pure fun H h => ⟨rfl, h⟩

/-- Two steps, the first giving the value it should. -/
theorem Runs.step {H0 : Frames} {pre : Frames → Prop} {α α' β β' : Type} {m : OnFrames α} {b : β}
    {mid : β → α → Frames → Prop} {f : α → OnFrames α'} {w : Except PyErr β'} {post : β' → α' → Frames → Prop}
    (h : Runs H0 pre m (.ok b) mid) (hf : ∀ x, Runs H0 (mid b x) (f x) w post) : Runs H0 pre (m >>= f) w post := by
  have := Runs.bind (w := fun _ => w) h (post := post) (f := f)
  intro H hH hp
  obtain ⟨h1, _⟩ := h H hH hp
  obtain ⟨x, H', hm, hH', hmid⟩ := h1 b rfl
  rw [frames_bind_run, hm]
  exact hf x H' hH' hmid

/-- A precondition that does not depend on the frames. -/
theorem Runs.pull {H0 : Frames} {pre : Frames → Prop} {q : Prop} {α β : Type} {m : OnFrames α} {v : Except PyErr β}
    {post : β → α → Frames → Prop} (h : q → Runs H0 pre m v post) : Runs H0 (fun H => q ∧ pre H) m v post :=
  fun H hH hp => h hp.1 H hH hp.2

theorem runs_copyFrame {H0 : Frames} {a : Nat} {df : TFrame} :
    Runs H0 (Own H0 a df) (copyFrame a) (.ok df) (fun b x H => Own H0 x b H) := by
  unfold copyFrame
  refine Runs.step runs_look fun x => Runs.pull fun hx => ?_
  subst hx
  exact runs_newFrame _

theorem runs_asFrame {H0 : Frames} {pre : Frames → Prop} {X : DataArg} (hX : Given X H0) :
    Runs H0 pre (asFrame X) (.ok (X.value H0)) (fun b x H => Own H0 x b H) := by
  cases X with
  | frame a =>
    show Runs H0 pre (copyFrame a) _ _
    unfold copyFrame
    refine Runs.step (runs_lookGiven (hX a rfl)) fun x => Runs.pull fun hx => ?_
    subst hx
    exact runs_newFrame _
  | other df => exact runs_newFrame df

theorem Runs.last {H0 : Frames} {pre : Frames → Prop} {α α' β : Type} {m : OnFrames α} {v : Except PyErr β}
    {mid : β → α → Frames → Prop} {f : α → OnFrames α'} {post : β → α' → Frames → Prop}
    (h : Runs H0 pre m v mid) (hf : ∀ b x, Runs H0 (mid b x) (f x) (.ok b) post) : Runs H0 pre (m >>= f) v post := by
  have := Runs.bind h hf
  have e : (v >>= fun b => .ok b) = v := by cases v <;> rfl
  rwa [e] at this

theorem runs_setNames {H0 : Frames} {a : Nat} {df : TFrame} (ns : List Feat) :
    Runs H0 (Own H0 a df) (setNames a ns) (df.rename ns) (fun b _ H => Own H0 a b H) := by
  unfold setNames
  refine Runs.step runs_look fun x => Runs.pull fun hx => ?_
  subst hx
  refine Runs.last (Runs.noFrames _) fun b y => Runs.pull fun hy => ?_
  subst hy
  exact runs_overwrite

theorem runs_setIndex {H0 : Frames} {a : Nat} {df : TFrame} (ls : List Label) :
    Runs H0 (Own H0 a df) (setIndex a ls)
      (if ls.length ≠ df.rows.length then .error .valueError
        else .ok { df with rows := (df.rows.zip ls).map (fun rl => { rl.1 with label := rl.2 }) })
      (fun b x H => Own H0 x b H) := by
  unfold setIndex
  refine Runs.step runs_look fun x => Runs.pull fun hx => ?_
  subst hx
  by_cases h : ls.length ≠ x.rows.length
  · rw [if_pos h, if_pos h]; exact Runs.throw
  · rw [if_neg h, if_neg h]; exact runs_newFrame _

theorem runs_assignList {H0 : Frames} {a : Nat} {df : TFrame} (cf : Feat) (vs : List Val) :
    Runs H0 (Own H0 a df) (assignList a cf vs)
      (if vs.length ≠ df.rows.length then .error .valueError else .ok (df.setCol cf vs)) (fun b _ H => Own H0 a b H) := by
  unfold assignList
  refine Runs.step runs_look fun x => Runs.pull fun hx => ?_
  subst hx
  by_cases h : vs.length ≠ x.rows.length
  · rw [if_pos h, if_pos h]; exact Runs.throw
  · rw [if_neg h, if_neg h]; exact runs_overwrite

theorem runs_assignSeries {H0 : Frames} {a : Nat} {df : TFrame} (cf : Feat) (lvs : List (Label × Val)) :
    Runs H0 (Own H0 a df) (assignSeries a cf lvs)
      (if df.index = lvs.map Prod.fst then .ok (df.setCol cf (lvs.map Prod.snd))
        else if ¬ (lvs.map Prod.fst).Nodup then .error .valueError
        else .ok (df.setCol cf (df.rows.map (fun row => (lvs.lookup row.label).getD .nan)))) (fun b _ H => Own H0 a b H) := by
  unfold assignSeries
  refine Runs.step runs_look fun x => Runs.pull fun hx => ?_
  subst hx
  by_cases h : x.index = lvs.map Prod.fst
  · rw [if_pos h, if_pos h]; exact runs_overwrite
  · rw [if_neg h, if_neg h]
    by_cases h2 : ¬ (lvs.map Prod.fst).Nodup
    · rw [if_pos h2, if_pos h2]; exact Runs.throw
    · rw [if_neg h2, if_neg h2]; exact runs_overwrite

theorem tryCatch_run {α : Type} (m : OnFrames α) (f : PyErr → OnFrames α) (H : Frames) :
    (tryCatch m f) H = match m H with
      | .ok a H' => .ok a H'
      | .error e H' => f e H' := by
  show EStateM.tryCatch m f H = _
  unfold EStateM.tryCatch
  cases m H <;> rfl

theorem runs_attachAt {H0 : Frames} {a : Nat} {df : TFrame} (cf : Feat) (y : YArg) :
    Runs H0 (Own H0 a df) (attachAt a cf y) (attachY df cf y) (fun b x H => Own H0 x b H) := by
  cases y with
  | list vs =>
    unfold attachAt attachY
    exact Runs.last (runs_assignList cf vs) fun b _ => Runs.pure fun H h => h
  | series nm lvs =>
    intro H hH hp
    unfold attachAt attachY
    dsimp only
    rw [tryCatch_run]
    by_cases hl : lvs.length = df.rows.length
    · rw [if_pos hl]
      have h1 := runs_setIndex (H0 := H0) (df := df) (a := a) (lvs.map Prod.fst)
      rw [if_neg (by simp [hl])] at h1
      have h2 : Runs H0 (Own H0 a df) (do
          let a' ← setIndex a (lvs.map Prod.fst)
          assignSeries a' cf lvs
          return a') (.ok ((({ df with rows := (df.rows.zip lvs).map (fun rl => { rl.1 with label := rl.2.1 }) } : TFrame)).setCol cf
            (lvs.map Prod.snd))) (fun b x H => Own H0 x b H) := by
        refine Runs.step h1 fun x => ?_
        refine Runs.last (mid := fun b _ H => Own H0 x b H) ?_ fun b _ => Runs.pure fun H h => h
        have h3 := runs_assignSeries (H0 := H0) (a := x)
          (df := { df with rows := (df.rows.zip (lvs.map Prod.fst)).map (fun rl => { rl.1 with label := rl.2 }) }) cf lvs
        have e : (df.rows.zip (lvs.map Prod.fst)).map (fun rl => ({ rl.1 with label := rl.2 } : Row)) =
            (df.rows.zip lvs).map (fun rl => { rl.1 with label := rl.2.1 }) := by
          rw [List.zip_map_right, List.map_map]; rfl
        rw [if_pos] at h3
        · rw [e] at h3 ⊢; exact h3
        · show (List.map _ _ : List Label) = _
          rw [List.map_map]
          show List.map Prod.snd _ = _
          rw [List.map_snd_zip]
          simp [hl]
      obtain ⟨g1, _⟩ := h2 H hH hp
      obtain ⟨x, H', hm, hr⟩ := g1 _ rfl
      rw [hm]
      exact ⟨fun b hb => by cases hb; exact ⟨x, H', rfl, hr⟩, fun e he => by (cases he)⟩
    · rw [if_neg hl]
      have h1 := runs_setIndex (H0 := H0) (df := df) (a := a) (lvs.map Prod.fst)
      rw [if_pos (by simp [hl])] at h1
      have e1 : (do
          let a' ← setIndex a (lvs.map Prod.fst)
          assignSeries a' cf lvs
          return a' : OnFrames Nat) H = .error .valueError H := by
        rw [frames_bind_run]
        unfold setIndex
        rw [frames_bind_run]
        have hc : (lvs.map Prod.fst).length ≠ (H.at_ a).rows.length := by rw [hp.2.2]; simpa using hl
        dsimp only [look]
        rw [if_pos hc]
        rfl
      rw [e1]
      dsimp only
      have h3 := runs_assignSeries (H0 := H0) (a := a) (df := df) cf lvs
      rw [if_neg] at h3
      · exact Runs.last h3 (fun b _ => Runs.pure fun H h => h) H hH hp
      · intro he
        apply hl
        have := congrArg List.length he
        simpa [Frame.index] using this.symm

theorem runs_toTrainingAt {H0 : Frames} {pre : Frames → Prop} {X : DataArg} (hX : Given X H0) (y : Option YArg) (cf : Feat)
    (names : Option (List Feat)) :
    Runs H0 pre (toTrainingAt X y cf names) (toTraining (X.value H0) y cf names) (fun b x H => Own H0 x b H) := by
  have hy : ∀ (a : Nat) (df : TFrame), Runs H0 (Own H0 a df) (match y with | none => return a | some y => attachAt a cf y)
      (match y with | none => return df | some y => attachY df cf y) (fun b x H => Own H0 x b H) := by
    intro a df
    cases y with
    | none => exact Runs.pure fun H h => h
    | some y => exact runs_attachAt cf y
  unfold toTrainingAt toTraining
  refine Runs.step (runs_asFrame hX) fun a => ?_
  cases names with
  | none => exact hy a _
  | some ns => exact Runs.bind (runs_setNames ns) fun b _ => hy a b

theorem runs_toPredictionAt {H0 : Frames} {pre : Frames → Prop} {X : DataArg} (hX : Given X H0) (cf : Feat)
    (names : Option (List Feat)) :
    Runs H0 pre (toPredictionAt X cf names) (toPrediction (X.value H0) cf names) (fun b x H => Own H0 x b H) := by
  have hn : ∀ (a : Nat) (df : TFrame), Runs H0 (Own H0 a df)
      (match names with | none => return a | some ns => do setNames a (ns.filter (fun f => f ≠ cf)); return a)
      (match names with | none => .ok df | some ns => df.rename (ns.filter (fun f => f ≠ cf))) (fun b x H => Own H0 x b H) := by
    intro a df
    cases names with
    | none => exact Runs.pure fun H h => h
    | some ns => exact Runs.last (runs_setNames _) fun b _ => Runs.pure fun H h => h
  unfold toPredictionAt toPrediction
  refine Runs.step (runs_asFrame hX) fun a => ?_
  refine Runs.step runs_look fun x => Runs.pull fun hx => ?_
  rw [hx]
  generalize X.value H0 = df
  by_cases h : df.cols.contains cf = true
  · rw [if_pos h, if_pos h]
    exact Runs.step runs_overwrite fun _ => hn a _
  · rw [if_neg h, if_neg h]
    exact hn a _

theorem runs_transformLoopAt {H0 : Frames} (F : PyFloat) (b : Binner) (done : List Feat) (a : Nat) :
    ∀ (l : List (Feat × List PStr)) (df : TFrame), Runs H0 (Own H0 a df) (transformLoopAt F b done a l) (transformLoop F b done l df)
      (fun b _ H => Own H0 a b H) := by
  intro l
  induction l with
  | nil => intro df; exact Runs.pure fun H h => h
  | cons p rest ih =>
    intro df
    obtain ⟨f, labels⟩ := p
    unfold transformLoopAt transformLoop
    refine Runs.step runs_look fun x => Runs.pull fun hx => ?_
    subst hx
    by_cases h : (x.cols.contains f && !done.contains f) = true
    · rw [if_pos h, if_pos h]
      refine Runs.bind (Runs.noFrames _) fun t y => Runs.pull fun hy => ?_
      subst hy
      exact Runs.step runs_overwrite fun _ => ih _
    · rw [if_neg h, if_neg h]
      exact ih _

theorem runs_transformAt {H0 : Frames} (F : PyFloat) (b : Binner) (a : Nat) (df : TFrame) :
    Runs H0 (Own H0 a df) (b.transformAt F a) (b.transform F df) (fun b x H => Own H0 x b H) := by
  unfold Binner.transformAt Binner.transform
  refine Runs.step runs_look fun x => Runs.pull fun hx => ?_
  subst hx
  refine Runs.bind (Runs.noFrames _) fun t y => Runs.pull fun hy => ?_
  subst hy
  refine Runs.step runs_copyFrame fun c => ?_
  exact Runs.last (runs_transformLoopAt F b t c b.bins x) fun _ _ => Runs.pure fun H h => h

theorem runs_applyBinsAt {H0 : Frames} (F : PyFloat) (b : Binner) (a : Nat) (df : TFrame) :
    Runs H0 (Own H0 a df) (applyBinsAt F b a) (applyBins F b df) (fun b x H => Own H0 x b H) := by
  unfold applyBinsAt applyBins
  by_cases h : b.bins = []
  · rw [if_pos h, if_pos h]; exact Runs.pure fun H h => h
  · rw [if_neg h, if_neg h]; exact runs_transformAt F b a df

theorem runs_preprocessTrainingAt {H0 : Frames} {pre : Frames → Prop} {X : DataArg} (hX : Given X H0) (F : PyFloat) (P : PandasCut)
    (n : Option Nat) (d : FitData) (hd : d.X = X.value H0) :
    Runs H0 pre (preprocessTrainingAt F P n X d) (preprocessTraining F P n d)
      (fun b x H => x.2 = b.2 ∧ Own H0 x.1 b.1 H) := by
  unfold preprocessTrainingAt preprocessTraining
  rw [hd]
  refine Runs.step (runs_value hX) fun X0 => Runs.pull fun hx => ?_
  rw [hx]
  refine Runs.bind (Runs.noFrames _) fun _ _ => Runs.pull fun _ => ?_
  refine Runs.bind (runs_toTrainingAt hX _ _ _) fun df a => ?_
  refine Runs.step runs_look fun x => Runs.pull fun hx => ?_
  rw [hx]
  refine Runs.bind (Runs.noFrames _) fun pc pc' => Runs.pull fun hy => ?_
  subst hy
  refine Runs.step runs_copyFrame fun a1 => ?_
  refine Runs.step runs_look fun x => Runs.pull fun hx => ?_
  rw [hx]
  unfold Binner.fitTransform
  rw [bind_assoc]
  refine Runs.bind (runs_transformAt F _ a1 df) fun df' a2 => ?_
  exact Runs.pure fun H h => ⟨rfl, h⟩

theorem runs_preprocessPredictionAt {H0 : Frames} {pre : Frames → Prop} {X : DataArg} (hX : Given X H0) (F : PyFloat) (cf : Feat)
    (b : Binner) (names : Option (List Feat)) (sel : List Feat) :
    Runs H0 pre (preprocessPredictionAt F X cf b names sel) (preprocessPrediction F (X.value H0) cf b names sel)
      (fun b x H => Own H0 x b H) := by
  unfold preprocessPredictionAt preprocessPrediction
  refine Runs.step (runs_value hX) fun X0 => Runs.pull fun hx => ?_
  rw [hx]
  by_cases h : (X.value H0).rows = []
  · rw [if_pos h, if_pos h]; exact Runs.throw
  · rw [if_neg h, if_neg h]
    refine Runs.bind (runs_toPredictionAt hX _ _) fun df a => ?_
    refine Runs.step runs_look fun x => Runs.pull fun hx => ?_
    rw [hx]
    by_cases h : (sel.any fun f => !df.cols.contains f) = true
    · rw [if_pos h, if_pos h]; exact Runs.throw
    · rw [if_neg h, if_neg h]
      exact Runs.step runs_copyFrame fun a1 => runs_applyBinsAt F b a1 df

theorem runs_preprocessRecalibrateAt {H0 : Frames} {pre : Frames → Prop} {X : DataArg} (hX : Given X H0) (F : PyFloat)
    (y : Option YArg) (cf : Feat) (b : Option Binner) (names : Option (List Feat)) :
    Runs H0 pre (preprocessRecalibrateAt F X y cf b names) (preprocessRecalibrate F (X.value H0) y cf b names)
      (fun b x H => Own H0 x b H) := by
  unfold preprocessRecalibrateAt preprocessRecalibrate
  refine Runs.step (runs_value hX) fun X0 => Runs.pull fun hx => ?_
  rw [hx]
  refine Runs.bind (Runs.noFrames _) fun _ _ => Runs.pull fun _ => ?_
  refine Runs.bind (runs_toTrainingAt hX _ _ _) fun df a => ?_
  refine Runs.step runs_copyFrame fun a1 => ?_
  cases b with
  | none => exact Runs.pure fun H h => h
  | some b => exact runs_applyBinsAt F b a1 df

/-! ### classifier methods -/

/-- The method does what `m'` does, to no frame of `H0` anything, and ends in `post`. -/
def Does (H0 : Frames) (pre : Frames → Prop) {α β : Type} (m : OnData α) (m' : OnClf β) (post : β → α → Frames → Prop) : Prop :=
  ∀ c H, SameFrames H0 H → pre H →
    (∀ b c', m' c = .ok b c' → ∃ x H', m (c, H) = .ok x (c', H') ∧ SameFrames H0 H' ∧ post b x H') ∧
    ∀ e c', m' c = .error e c' → ∃ H', m (c, H) = .error e (c', H') ∧ SameFrames H0 H'

theorem data_bind_run {α β : Type} (m : OnData α) (f : α → OnData β) (s : Clf × Frames) :
    (m >>= f) s = match m s with
      | .ok a s' => f a s'
      | .error e s' => .error e s' := by
  show EStateM.bind m f s = _
  unfold EStateM.bind
  cases m s <;> rfl

theorem Does.bind {H0 : Frames} {pre : Frames → Prop} {α α' β β' : Type} {m : OnData α} {v : OnClf β}
    {mid : β → α → Frames → Prop} {f : α → OnData α'} {w : β → OnClf β'} {post : β' → α' → Frames → Prop}
    (h : Does H0 pre m v mid) (hf : ∀ b x, Does H0 (mid b x) (f x) (w b) post) : Does H0 pre (m >>= f) (v >>= w) post := by
  intro c H hH hp
  obtain ⟨h1, h2⟩ := h c H hH hp
  rw [data_bind_run, bind_run]
  cases hv : v c with
  | error e c1 =>
    obtain ⟨H', hm, hH'⟩ := h2 e c1 hv
    rw [hm]
    exact ⟨fun b c' hb => by (cases hb), fun e' c' he => by cases he; exact ⟨H', rfl, hH'⟩⟩
  | ok b c1 =>
    obtain ⟨x, H', hm, hH', hmid⟩ := h1 b c1 hv
    rw [hm]
    exact hf b x c1 H' hH' hmid

theorem does_onClf {H0 : Frames} {pre : Frames → Prop} {α : Type} (m : OnClf α) :
    Does H0 pre (onClf m) m (fun b x H => x = b ∧ pre H) := by
  intro c H hH hp
  unfold onClf
  refine ⟨fun b c' hb => ?_, fun e c' he => ?_⟩
  · dsimp only; rw [hb]; exact ⟨_, _, rfl, hH, rfl, hp⟩
  · dsimp only; rw [he]; exact ⟨_, rfl, hH⟩

theorem does_onFrames {H0 : Frames} {pre : Frames → Prop} {α β : Type} {m : OnFrames α} {v : Except PyErr β}
    {post : β → α → Frames → Prop} (h : Runs H0 pre m v post) : Does H0 pre (onFrames m) (pureCode v) post := by
  intro c H hH hp
  obtain ⟨h1, h2⟩ := h H hH hp
  unfold onFrames
  rw [pureCode_run]
  cases v with
  | ok b =>
    obtain ⟨x, H', hm, hr⟩ := h1 b rfl
    dsimp only
    rw [hm]
    exact ⟨fun b' c' hb => by cases hb; exact ⟨x, H', rfl, hr⟩, fun e c' he => by (cases he)⟩
  | error e =>
    obtain ⟨H', hm, hr⟩ := h2 e rfl
    dsimp only
    rw [hm]
    exact ⟨fun b' c' hb => by (cases hb), fun e c' he => by cases he; exact ⟨H', rfl, hr⟩⟩

theorem Does.pull {H0 : Frames} {pre : Frames → Prop} {q : Prop} {α β : Type} {m : OnData α} {v : OnClf β}
    {post : β → α → Frames → Prop} (h : q → Does H0 pre m v post) : Does H0 (fun H => q ∧ pre H) m v post :=
  fun c H hH hp => h hp.1 c H hH hp.2

/-- The end of the program: what is left runs on the classifier only. -/
theorem Does.onlyReads {H0 : Frames} {α : Type} {m : OnData α} {m' : OnClf α} {post : Frames → Prop}
    (h : Does H0 (fun _ => True) m m' (fun b x H => x = b ∧ post H)) : OnlyReads m m' H0 := by
  intro c
  obtain ⟨h1, h2⟩ := h c H0 (SameFrames.refl H0) trivial
  cases hm : m' c with
  | ok b c' =>
    obtain ⟨x, H', g1, g2, g3, _⟩ := h1 b c' hm
    exact ⟨H', g2, by rw [g1, g3]⟩
  | error e c' =>
    obtain ⟨H', g1, g2⟩ := h2 e c' hm
    exact ⟨H', g2, by rw [g1]⟩

theorem does_lookOwn {H0 : Frames} {a : Nat} {df : TFrame} :
    Does H0 (Own H0 a df) (onFrames (look a)) (pureCode (.ok df)) (fun b x H => x = b ∧ Own H0 a df H) := does_onFrames runs_look

theorem Does.step {H0 : Frames} {pre : Frames → Prop} {α α' β β' : Type} {m : OnData α} {b : β}
    {mid : β → α → Frames → Prop} {f : α → OnData α'} {w : OnClf β'} {post : β' → α' → Frames → Prop}
    (h : Does H0 pre m (pureCode (.ok b)) mid) (hf : ∀ x, Does H0 (mid b x) (f x) w post) : Does H0 pre (m >>= f) w post := by
  intro c H hH hp
  obtain ⟨h1, _⟩ := h c H hH hp
  obtain ⟨x, H', hm, hH', hmid⟩ := h1 b c rfl
  rw [data_bind_run, hm]
  exact hf x c H' hH' hmid

theorem Does.pure {H0 : Frames} {pre : Frames → Prop} {α β : Type} {x : α} {b : β} {post : β → α → Frames → Prop}
    (h : ∀ H, pre H → post b x H) : Does H0 pre (pure x) (pure b) post := by
  intro c H hH hp
  exact ⟨fun b' c' hb => by cases hb; exact ⟨x, H, rfl, hH, h H hp⟩, fun e c' he => by (cases he)⟩

/-- A step on the classifier only. -/
theorem Does.clf {H0 : Frames} {pre : Frames → Prop} {α α' β' : Type} (m : OnClf α) {f : α → OnData α'} {w : α → OnClf β'}
    {post : β' → α' → Frames → Prop} (hf : ∀ a, Does H0 pre (f a) (w a) post) : Does H0 pre (onClf m >>= f) (m >>= w) post :=
  Does.bind (does_onClf m) fun b _ => Does.pull fun hx => hx ▸ hf b

theorem does_preparedAt {H0 : Frames} {X : DataArg} (hX : Given X H0) (F : PyFloat) (names : Option (List Feat)) :
    Does H0 (fun _ => True) (preparedAt F X names) (prepared F (X.value H0) names) (fun b x _ => x = b ∧ True) := by
  unfold preparedAt prepared
  refine Does.clf _ fun cf => Does.clf _ fun _ => Does.clf _ fun b => Does.clf _ fun sel => Does.clf _ fun _ => ?_
  refine Does.bind (does_onFrames (runs_preprocessPredictionAt hX F cf b names sel)) fun df a => ?_
  refine Does.step does_lookOwn fun x => Does.pull fun hx => ?_
  subst hx
  exact Does.pure fun _ _ => ⟨rfl, trivial⟩

theorem does_last {H0 : Frames} {X : DataArg} (hX : Given X H0) (F : PyFloat) (names : Option (List Feat)) {α : Type}
    (m : Frame → OnClf α) :
    Does H0 (fun _ => True) (preparedAt F X names >>= fun df => onClf (m df)) (prepared F (X.value H0) names >>= m)
      (fun b x _ => x = b ∧ True) := by
  refine Does.bind (does_preparedAt hX F names) fun df x => Does.pull fun hx => ?_
  subst hx
  exact does_onClf _

theorem does_predictAt {H0 : Frames} {X : DataArg} (hX : Given X H0) (F : PyFloat) (names : Option (List Feat)) {α : Type}
    (act : Ruleset → Frame → Except PyErr α) :
    Does H0 (fun _ => True) (predictAt F act X names) (query F act (X.value H0) names) (fun b x _ => x = b ∧ True) := by
  unfold predictAt query
  exact Does.clf _ fun _ => Does.clf _ fun _ => does_last hX F names fun df => (do pureCode (act (← self Clf.ruleset) df))

theorem does_probaAt {H0 : Frames} {X : DataArg} (hX : Given X H0) (F : PyFloat) (names : Option (List Feat)) {α : Type}
    (act : Ruleset → Frame → Except PyErr α) :
    Does H0 (fun _ => True) (probaAt F act X names) (probaQuery F act (X.value H0) names) (fun b x _ => x = b ∧ True) := by
  unfold probaAt probaQuery
  exact Does.clf _ fun _ => Does.clf _ fun _ => does_last hX F names fun df => (do
    let pc ← self Clf.posClass
    modify (fun c => { c with classes := some (.named pc) })
    pureCode (act (← self Clf.ruleset) df))

/-! ### the property -/

/-- C90. No query changes the caller's data: whatever frames exist (the caller's `X` among them, if it is a DataFrame), `predict` and
`predict_proba` (with and without reasons), `score`, `rule_stats` (with and without examples) leave every one of them as it was,
whether they answer or raise, and answer or raise as the value model says. -/
theorem C90_queries_only_read (F : PyFloat) (H : Frames) (X : DataArg) (hX : Given X H) (names : Option (List Feat)) :
    OnlyReads (predictAt F (fun rs df => rs.predict df) X names) (Clf.predict F (X.value H) names) H ∧
    OnlyReads (predictAt F (fun rs df => rs.predictReasons df) X names) (Clf.predictReasons F (X.value H) names) H ∧
    OnlyReads (probaAt F (fun rs df => rs.predictProba df) X names) (Clf.predictProba F (X.value H) names) H ∧
    OnlyReads (probaAt F (fun rs df => rs.predictProbaReasons df) X names) (Clf.predictProbaReasons F (X.value H) names) H ∧
    (∀ (α : Type) (y : List Val) (scoreFn : List Bool → List Bool → Except PyErr α),
      OnlyReads (scoreAt F X y scoreFn) (Clf.score F (X.value H) y scoreFn) H) ∧
    (∀ y, OnlyReads (ruleStatsAt F X y names) (Clf.ruleStats F (X.value H) y names) H) ∧
    (∀ (S : PySample) y n seed g,
      OnlyReads (ruleStatsExamplesAt F S X y n names seed g) (Clf.ruleStatsExamples F S (X.value H) y n names seed g) H) := by
  refine ⟨Does.onlyReads (post := fun _ => True) (does_predictAt hX F names _),
    Does.onlyReads (post := fun _ => True) (does_predictAt hX F names _),
    Does.onlyReads (post := fun _ => True) (does_probaAt hX F names _),
    Does.onlyReads (post := fun _ => True) (does_probaAt hX F names _), ?_, ?_, ?_⟩
  · intro α y scoreFn
    refine Does.onlyReads (post := fun _ => True) ?_
    unfold scoreAt Clf.score
    refine Does.clf _ fun _ => Does.bind (does_predictAt hX F none _) fun b x => Does.pull fun hx => ?_
    subst hx
    exact does_onClf _
  · intro y
    refine Does.onlyReads (post := fun _ => True) ?_
    unfold ruleStatsAt Clf.ruleStats
    exact Does.clf _ fun _ => Does.clf _ fun _ => does_last hX F names fun df => (do
      let pc ← self Clf.posClass
      let rs ← self Clf.ruleset
      pureCode (ruleTable pc y rs df))
  · intro S y n seed g
    refine Does.onlyReads (post := fun _ => True) ?_
    unfold ruleStatsExamplesAt Clf.ruleStatsExamples
    exact Does.clf _ fun _ => Does.clf _ fun _ => does_last hX F names fun df => (do
      let pc ← self Clf.posClass
      let cf ← self Clf.classFeat
      let rs ← self Clf.ruleset
      pureCode (examplesTable S cf pc y n seed g rs df))

/-- C90, recalibration: `recalibrate_proba` leaves every frame as it was. -/
theorem C90_recalibrate_only_reads (F : PyFloat) (H : Frames) (X : DataArg) (hX : Given X H) (y : Option YArg)
    (names : Option (List Feat)) (minSamples : Option Int) (require discretize : Bool) :
    OnlyReads (recalibrateOn F X y names minSamples require discretize)
      (Clf.recalibrate F (X.value H) y names minSamples require discretize) H := by
  refine Does.onlyReads (post := fun _ => True) ?_
  unfold recalibrateOn Clf.recalibrate
  refine Does.clf _ fun cf => Does.clf _ fun pc => Does.clf _ fun b => ?_
  refine Does.bind (does_onFrames (runs_preprocessRecalibrateAt hX F y cf b names)) fun df a => ?_
  refine Does.step does_lookOwn fun x => Does.pull fun hx => ?_
  subst hx
  have := does_onClf (H0 := H) (pre := fun _ => True) (do
    let rs ← self Clf.ruleset
    let alpha := (← EStateM.get).hyper.alpha
    match recalibrateProba rs x.toFrame cf pc minSamples require alpha with
    | (rs', none) => modify (fun c => { c with ruleset := some rs' })
    | (rs', some e) =>
      modify (fun c => { c with ruleset := some rs' })
      throw e)
  exact fun c H' hH _ => this c H' hH trivial

/-- C90, training: `fit`, of both classifiers, with and without the index, leaves every frame as it was, whether it returns or raises,
and does what the value model says. -/
theorem C90_fit_only_reads [Arith] (a : Method) (fuel : Nat) (R : PyRandom) (F : PyFloat) (P : PandasCut) (H : Frames) (X : DataArg)
    (hX : Given X H) (d : FitData) (init : ModelArg) (g : R.G) :
    OnlyReads (a.fitAt fuel R F P X d init g) (a.fit fuel R F P { d with X := X.value H } init g) H := by
  refine Does.onlyReads (post := fun _ => True) ?_
  rw [fit_rest]
  unfold Method.fitAt
  refine Does.clf _ fun _ => Does.clf _ fun c => ?_
  have hpre : ∀ n, preprocessTrainingAt F P n X d = preprocessTrainingAt F P n X { d with X := X.value H } := fun _ => rfl
  rw [hpre]
  refine Does.bind (does_onFrames (runs_preprocessTrainingAt hX F P _ { d with X := X.value H } rfl)) fun q x => ?_
  obtain ⟨fr, cf, pc, b⟩ := x
  obtain ⟨df, cf', pc', b'⟩ := q
  refine Does.pull fun he => ?_
  simp only [Prod.mk.injEq] at he
  obtain ⟨rfl, rfl, rfl⟩ := he
  refine Does.step does_lookOwn fun y => Does.pull fun hy => ?_
  subst hy
  exact fun c H' hH _ => does_onClf (pre := fun _ => True) _ c H' hH trivial

/-- A call of a caller that has frames, whatever is done with its answer. -/
inductive DataCall (R : PyRandom)
  | predict (X : DataArg) (names : Option (List Feat))
  | predictProba (X : DataArg) (names : Option (List Feat))
  | score (X : DataArg) (y : List Val) (scoreFn : List Bool → List Bool → Except PyErr (Option Rat))
  | ruleStats (X : DataArg) (y : Option (List Val)) (names : Option (List Feat))
  | recalibrate (X : DataArg) (y : Option YArg) (names : Option (List Feat)) (minSamples : Option Int) (require discretize : Bool)
  | fit (a : Method) (X : DataArg) (d : FitData) (init : ModelArg) (g : R.G)

/-- The data of the call. -/
def DataCall.data {R : PyRandom} : DataCall R → DataArg
  | .predict X _ | .predictProba X _ | .score X _ _ | .ruleStats X _ _ | .recalibrate X _ _ _ _ _ | .fit _ X _ _ _ => X

/-- The call, on frames. -/
def DataCall.run [Arith] {R : PyRandom} (fuel : Nat) (F : PyFloat) (P : PandasCut) : DataCall R → OnData Unit
  | .predict X names => do let _ ← predictAt F (fun rs df => rs.predict df) X names
  | .predictProba X names => do let _ ← probaAt F (fun rs df => rs.predictProba df) X names
  | .score X y fn => do let _ ← scoreAt F X y fn
  | .ruleStats X y names => do let _ ← ruleStatsAt F X y names
  | .recalibrate X y names m r dz => recalibrateOn F X y names m r dz
  | .fit a X d init g => do let _ ← a.fitAt fuel R F P X d init g

/-- The call, on values. -/
def DataCall.value [Arith] {R : PyRandom} (fuel : Nat) (F : PyFloat) (P : PandasCut) (H : Frames) : DataCall R → OnClf Unit
  | .predict X names => do let _ ← Clf.predict F (X.value H) names
  | .predictProba X names => do let _ ← Clf.predictProba F (X.value H) names
  | .score X y fn => do let _ ← Clf.score F (X.value H) y fn
  | .ruleStats X y names => do let _ ← Clf.ruleStats F (X.value H) y names
  | .recalibrate X y names m r dz => Clf.recalibrate F (X.value H) y names m r dz
  | .fit a X d init g => do let _ ← a.fit fuel R F P { d with X := X.value H } init g

/-- What is left after a call, answered or raising. -/
def leftBy {σ α : Type} : EStateM.Result PyErr σ α → σ
  | .ok _ s => s
  | .error _ s => s

theorem Spec.OnlyReads.discard {α : Type} {m : OnData α} {m' : OnClf α} {H : Frames} (h : OnlyReads m m' H) :
    OnlyReads (do let _ ← m) (do let _ ← m') H := by
  intro c
  obtain ⟨H', h1, h2⟩ := h c
  refine ⟨H', h1, ?_⟩
  rw [data_bind_run, bind_run, h2]
  cases m' c <;> rfl

/-- C90, histories: after any series of calls (`fit` and `recalibrate_proba` included, answered or raising), on any data, all frames
that existed are as they were, and the classifier is what the same calls on values make of it. -/
theorem C90_history_only_reads [Arith] {R : PyRandom} (fuel : Nat) (F : PyFloat) (P : PandasCut) (H : Frames) (calls : List (DataCall R))
    (hc : ∀ k ∈ calls, Given k.data H) (c : Clf) :
    SameFrames H (calls.foldl (fun s k => leftBy (k.run fuel F P s)) (c, H)).2 ∧
    (calls.foldl (fun s k => leftBy (k.run fuel F P s)) (c, H)).1 = calls.foldl (fun c k => leftBy (k.value fuel F P H c)) c := by
  have hone : ∀ (H : Frames) (k : DataCall R), Given k.data H → OnlyReads (k.run fuel F P) (k.value fuel F P H) H := by
    intro H k hk
    cases k with
    | predict X names => exact (C90_queries_only_read F H X hk names).1.discard
    | predictProba X names => exact (C90_queries_only_read F H X hk names).2.2.1.discard
    | score X y fn => exact ((C90_queries_only_read F H X hk none).2.2.2.2.1 _ y fn).discard
    | ruleStats X y names => exact ((C90_queries_only_read F H X hk names).2.2.2.2.2.1 y).discard
    | recalibrate X y names m r dz => exact C90_recalibrate_only_reads F H X hk y names m r dz
    | fit a X d init g => exact (C90_fit_only_reads a fuel R F P H X hk d init g).discard
  have hval : ∀ (H H' : Frames) (X : DataArg), SameFrames H H' → Given X H → X.value H' = X.value H := by
    intro H H' X hu hg
    cases X with
    | frame a => exact hu.2 a (hg a rfl)
    | other df => rfl
  have hkval : ∀ (H H' : Frames) (k : DataCall R), SameFrames H H' → Given k.data H → k.value fuel F P H' = k.value fuel F P H := by
    intro H H' k hu hg
    have e := hval H H' k.data hu hg
    cases k <;> (simp only [DataCall.value, DataCall.data] at e ⊢; rw [e])
  have key : ∀ (calls : List (DataCall R)) (H' : Frames) (c : Clf), (∀ k ∈ calls, Given k.data H) → SameFrames H H' →
      SameFrames H (calls.foldl (fun s k => leftBy (k.run fuel F P s)) (c, H')).2 ∧
      (calls.foldl (fun s k => leftBy (k.run fuel F P s)) (c, H')).1 = calls.foldl (fun c k => leftBy (k.value fuel F P H c)) c := by
    intro calls
    induction calls with
    | nil => intro H' c _ hu; exact ⟨hu, rfl⟩
    | cons k rest ih =>
      intro H' c hc hu
      have hk := hc k List.mem_cons_self
      have hk' : Given k.data H' := fun a ha => Nat.lt_of_lt_of_le (hk a ha) hu.1
      obtain ⟨H2, hu2, hr⟩ := hone H' k hk' c
      rw [hkval H H' k hu hk] at hr
      have hu' : SameFrames H H2 := ⟨Nat.le_trans hu.1 hu2.1, fun a ha => by rw [hu2.2 a (Nat.lt_of_lt_of_le ha hu.1), hu.2 a ha]⟩
      have e : leftBy (k.run fuel F P (c, H')) = (leftBy (k.value fuel F P H c), H2) := by
        rw [hr]; cases k.value fuel F P H c <;> rfl
      simp only [List.foldl_cons, e]
      exact ih H2 _ (fun k hk => hc k (List.mem_cons_of_mem _ hk)) hu'
  exact key calls H c hc (SameFrames.refl H)

/-! ### a concrete case -/

namespace Demo
/-- The caller's only frame. -/
def oneFrame : Frames := { at_ := fun _ => mixed, next := 1 }
/-- Fit on the frame, then predict on it. -/
def fitThenPredict : OnData (List Bool) := do
  let _ ← Method.irep.fitAt 7 R0 F P (.frame 0) mixedData .nothing ()
  predictAt F (fun rs df => rs.predict df) (.frame 0) none
end Demo

/-- Fitting and predicting with a frame with a numeric column to be binned makes six frames and leaves the caller's one alone. -/
example : (match Demo.fitThenPredict (Demo.newIrep, Demo.oneFrame) with
    | .ok ps s => some (ps, s.2.next, (s.2.at_ 0).cols, (s.2.at_ 0).rows.map (fun r => r.cell Demo.fn))
    | .error _ _ => none) =
    some ([true, true, false, false, false, false], 7, Demo.mixed.cols, Demo.mixed.rows.map (fun r => r.cell Demo.fn)) := by
  decide +kernel
example : Given (.frame 0) Demo.oneFrame := by
  intro a h; cases h; decide

end Witt
