import Verif.Lemmas.HeapOwn
import Verif.Props.Editing
import Mathlib.Data.List.InsertIdx
/-
What the methods do to the heap, compared with what they do to values.
-/
namespace Witt
open Spec
variable [Arith] [Arith.Lawful]

/-! ### value level -/

omit [Arith] [Arith.Lawful] in
theorem find_lt {o : Rule} {l : List Rule} {i : Nat} (h : l.findIdx? (fun s => s.pyEq o) = some i) :
    i < l.length ∧ l.any (fun s => s.pyEq o) = true := by
  obtain ⟨hi, hp, _⟩ := List.findIdx?_eq_some_iff_getElem.1 h
  exact ⟨hi, List.any_eq_true.2 ⟨l[i], List.getElem_mem hi, hp⟩⟩

omit [Arith] [Arith.Lawful] in
theorem any_of_find_none {o : Rule} {l : List Rule} (h : l.findIdx? (fun s => s.pyEq o) = none) :
    l.any (fun s => s.pyEq o) = false := by
  rw [List.findIdx?_eq_none_iff] at h
  exact List.any_eq_false.2 (fun x hx => by simp [h x hx])

omit [Arith] [Arith.Lawful] in
/-- A call that looks a rule up first. -/
theorem lookup_eq (old : RuleArg) (f : Int → OnRuleset Unit) (rs : Ruleset) :
    (do
      checkRule (← lift (asRule old))
      let i ← ruleIndex (← lift (asRule old))
      f i : OnRuleset Unit) rs =
    match asRule old with
    | .error e => .error e rs
    | .ok r => match rs.rules.findIdx? (fun s => s.pyEq r) with
      | some i => f (i : Int) rs
      | none => .error .valueError rs := by
  simp only [bind, EStateM.bind, lift_eq]
  cases asRule old with
  | error e => rfl
  | ok r =>
    simp only [checkRule_eq, ruleIndex_eq]
    cases hf : rs.rules.findIdx? (fun s => s.pyEq r) with
    | some i => simp only [(find_lt hf).2, if_true, hf]
    | none => simp only [any_of_find_none hf, Bool.false_eq_true, if_false]

/-! ### heap level -/

/-- A Rule object with value `v` at `x`; nothing that existed has changed. -/
structure RuleAt (h : Heap) (x : Nat) (v : Rule) (h' : Heap) : Prop where
  clf : h'.clf = h.clf
  set : h'.set = h.set
  clfs : h'.clfs = h.clfs
  sets : h'.sets = h.sets
  more : h.rules ≤ h'.rules
  rule : ∀ y < h.rules, h'.rule y = h.rule y
  value : h'.rule x = v

omit [Arith] [Arith.Lawful] in
theorem RuleAt.readSet {h h' : Heap} {x : Nat} {v : Rule} (hs : Sound h) (hr : RuleAt h x v h') (a : Nat) :
    h'.readSet a = h.readSet a :=
  readSet_congr (by rw [hr.set]) (fun y hy => hr.rule y (hs.rules a y hy).2)

omit [Arith] [Arith.Lawful] in
theorem asRule_run {h : Heap} (hs : Sound h) (r : RuleObj) :
    match asRule (r.value h) with
    | .error e => r.asRule h = .error e h
    | .ok v => ∃ x h', r.asRule h = .ok x h' ∧ RuleAt h x v h' ∧ (RuleFree h r → Unlisted h x) := by
  have made : ∀ r : RuleObj, (do
      let v ← Witt.noEffect (Witt.asRule (r.value (← MonadStateOf.get)))
      alloc (·.newRule v) : OnHeap Nat) h = match asRule (r.value h) with
        | .error e => .error e h
        | .ok v => .ok (h.newRule v).1 (h.newRule v).2 := by
    intro r
    rw [heap_bind]
    show (Witt.noEffect (Witt.asRule (r.value h)) >>= fun v => alloc (·.newRule v)) h = _
    rw [heap_bind]
    cases asRule (r.value h) <;> rfl
  have new : ∀ v, RuleAt h (h.newRule v).1 v (h.newRule v).2 := by
    intro v
    refine ⟨rfl, rfl, rfl, rfl, Nat.le_succ _, fun y hy => ?_, ?_⟩
    · exact if_neg (Nat.ne_of_lt hy)
    · exact if_pos rfl
  have free : Unlisted h h.rules := fun a hx => absurd (hs.rules a _ hx).2 (Nat.lt_irrefl _)
  have other : ∀ r : RuleObj, r.asRule h = (match asRule (r.value h) with
        | .error e => .error e h
        | .ok v => .ok (h.newRule v).1 (h.newRule v).2) →
      match asRule (r.value h) with
      | .error e => r.asRule h = .error e h
      | .ok v => ∃ x h', r.asRule h = .ok x h' ∧ RuleAt h x v h' ∧ (RuleFree h r → Unlisted h x) := by
    intro r hr
    cases hv : asRule (r.value h) with
    | error e => rw [hv] at hr; exact hr
    | ok v => rw [hv] at hr; exact ⟨_, _, hr, new v, fun _ => free⟩
  cases r with
  | obj x => exact ⟨x, h, rfl, ⟨rfl, rfl, rfl, rfl, le_refl _, fun _ _ => rfl, rfl⟩, fun h => h⟩
  | text s => exact other (.text s) (made (.text s))
  | nothing => exact other .nothing (made .nothing)
  | conds cs => exact other (.conds cs) (made (.conds cs))

omit [Arith] [Arith.Lawful] in
theorem read_run (r : RuleObj) (h : Heap) : r.read h = noEffect (asRule (r.value h)) h := rfl

omit [Arith] [Arith.Lawful] in
theorem checkIndexAt_run (a : Nat) (i : Int) (h : Heap) : checkIndexAt a i h =
    if 0 ≤ i ∧ i < (h.readSet a).rules.length then .ok () h else .error .indexError h := by
  show (MonadStateOf.get >>= fun s : Heap => (if i < 0 ∨ i ≥ ((s.set a).rules.length : Int) then throw PyErr.indexError else pure () : OnHeap Unit)) h = _
  rw [heap_bind]
  show (if i < 0 ∨ i ≥ ((h.set a).rules.length : Int) then throw .indexError else pure () : OnHeap Unit) h = _
  have : (h.readSet a).rules.length = (h.set a).rules.length := List.length_map _
  rw [this]
  by_cases hi : 0 ≤ i ∧ i < (h.set a).rules.length
  · rw [if_pos hi, if_neg (by omega)]; rfl
  · rw [if_neg hi, if_pos (by omega)]; rfl

omit [Arith] [Arith.Lawful] in
theorem findRule_run (a : Nat) (r : Rule) (h : Heap) : findRule a r h =
    match (h.readSet a).rules.findIdx? (fun s => s.pyEq r) with
    | some i => .ok (i : Int) h
    | none => .error .valueError h := by
  show (MonadStateOf.get >>= fun s : Heap => (match (s.readSet a).rules.findIdx? (fun s => s.pyEq r) with
    | some i => pure (i : Int)
    | none => throw .valueError : OnHeap Int)) h = _
  rw [heap_bind]
  show (match (h.readSet a).rules.findIdx? (fun s => s.pyEq r) with
    | some i => pure (i : Int)
    | none => throw .valueError : OnHeap Int) h = _
  cases (h.readSet a).rules.findIdx? (fun s => s.pyEq r) <;> rfl

omit [Arith] [Arith.Lawful] in
theorem setRules_run (a : Nat) (f : List Nat → List Nat) (h : Heap) :
    setRules a f h = .ok () (h.putSet a { h.set a with rules := f (h.set a).rules }) := rfl

/-- An edit of the Ruleset object at `a` that leaves it as `rs`. -/
structure Edited (h : Heap) (a : Nat) (rs : Ruleset) (h' : Heap) : Prop where
  clf : h'.clf = h.clf
  clfs : h'.clfs = h.clfs
  sets : h'.sets = h.sets
  set : ∀ b, b ≠ a → h'.set b = h.set b
  more : h.rules ≤ h'.rules
  rule : ∀ y < h.rules, h'.rule y = h.rule y
  read : h'.readSet a = rs

/-- The Rule objects listed at `a` are old ones, or were not listed; none is listed twice. -/
def Relisted (h : Heap) (a : Nat) (h' : Heap) : Prop :=
  (h.set a).rules.Nodup → (h'.set a).rules.Nodup ∧ ∀ y ∈ (h'.set a).rules, y ∈ (h.set a).rules ∨ Unlisted h y

omit [Arith] [Arith.Lawful] in
theorem Edited.same {h : Heap} (a : Nat) : Edited h a (h.readSet a) h :=
  ⟨rfl, rfl, rfl, fun _ _ => rfl, le_refl _, fun _ _ => rfl, rfl⟩

omit [Arith] [Arith.Lawful] in
theorem Relisted.same {h : Heap} (a : Nat) : Relisted h a h := fun hn => ⟨hn, fun _ hy => Or.inl hy⟩

omit [Arith] [Arith.Lawful] in
/-- Changing the list of a Ruleset object after a Rule object has been made. -/
theorem Edited.put {h h' : Heap} {x : Nat} {v : Rule} (hs : Sound h) (hr : RuleAt h x v h') (a : Nat)
    (f : List Nat → List Nat) (g : List Rule → List Rule)
    (hfg : (f (h.set a).rules).map h'.rule = g ((h.set a).rules.map h'.rule)) :
    Edited h a { h.readSet a with rules := g (h.readSet a).rules }
      (h'.putSet a { h'.set a with rules := f (h'.set a).rules }) := by
  refine ⟨hr.clf, hr.clfs, hr.sets, fun b hb => ?_, hr.more, hr.rule, ?_⟩
  · simp only [Heap.putSet, if_neg hb, hr.set]
  · have := hr.readSet hs a
    simp only [Heap.readSet, Ruleset.mk.injEq, hr.set] at this
    simp only [Heap.readSet, Heap.putSet, if_true, hr.set, Ruleset.mk.injEq, and_true]
    rw [hfg, this.1]

omit [Arith] [Arith.Lawful] in
theorem put_rules (h' : Heap) (a : Nat) (f : List Nat → List Nat) :
    ((h'.putSet a { h'.set a with rules := f (h'.set a).rules }).set a).rules = f (h'.set a).rules := by
  simp only [Heap.putSet, if_true]

omit [Arith] [Arith.Lawful] in
theorem Relisted.add {h h' : Heap} {x : Nat} {v : Rule} (hr : RuleAt h x v h') {a : Nat} (hx : Unlisted h x)
    (f : List Nat → List Nat)
    (hf : ∀ l : List Nat, l.Nodup → x ∉ l → (f l).Nodup ∧ ∀ y ∈ f l, y ∈ l ∨ y = x) :
    Relisted h a (h'.putSet a { h'.set a with rules := f (h'.set a).rules }) := by
  intro hn
  rw [put_rules, hr.set]
  obtain ⟨h1, h2⟩ := hf _ hn (hx a)
  exact ⟨h1, fun y hy => (h2 y hy).imp id (fun (e : y = x) => e ▸ hx)⟩

omit [Arith] [Arith.Lawful] in
theorem add_list (x : Nat) (l : List Nat) (hn : l.Nodup) (hx : x ∉ l) :
    (l ++ [x]).Nodup ∧ ∀ y ∈ l ++ [x], y ∈ l ∨ y = x := by
  refine ⟨?_, fun y hy => by simpa using hy⟩
  exact List.nodup_append.mpr ⟨hn, by simp, fun a ha b hb => by
    rw [List.mem_singleton.mp hb]; exact fun e => hx (e ▸ ha)⟩

omit [Arith] [Arith.Lawful] in
theorem set_list (i x : Nat) (l : List Nat) (hn : l.Nodup) (hx : x ∉ l) :
    (l.set i x).Nodup ∧ ∀ y ∈ l.set i x, y ∈ l ∨ y = x :=
  ⟨hn.set hx, fun _ hy => List.mem_or_eq_of_mem_set hy⟩

omit [Arith] [Arith.Lawful] in
theorem insert_list (i x : Nat) (l : List Nat) (hn : l.Nodup) (hx : x ∉ l) :
    (l.insertIdx i x).Nodup ∧ ∀ y ∈ l.insertIdx i x, y ∈ l ∨ y = x := by
  refine ⟨?_, fun y hy => (List.eq_or_mem_of_mem_insertIdx hy).symm⟩
  by_cases hi : i ≤ l.length
  · exact (List.perm_insertIdx x l hi).nodup_iff.mpr (List.nodup_cons.mpr ⟨hx, hn⟩)
  · rw [List.insertIdx_of_length_lt (by omega)]; exact hn

omit [Arith] [Arith.Lawful] in
theorem erase_list (i : Nat) (l : List Nat) (hn : l.Nodup) : (l.eraseIdx i).Nodup ∧ ∀ y ∈ l.eraseIdx i, y ∈ l :=
  ⟨hn.sublist (List.eraseIdx_sublist l i), fun _ hy => (List.eraseIdx_sublist l i).subset hy⟩

omit [Arith] [Arith.Lawful] in
theorem Relisted.erase (h : Heap) (a i : Nat) :
    Relisted h a (h.putSet a { h.set a with rules := (h.set a).rules.eraseIdx i }) := by
  intro hn
  have e : ((h.putSet a { h.set a with rules := (h.set a).rules.eraseIdx i }).set a).rules = (h.set a).rules.eraseIdx i :=
    put_rules h a (·.eraseIdx i)
  rw [e]
  exact ⟨(erase_list _ _ hn).1, fun y hy => Or.inl ((erase_list _ _ hn).2 y hy)⟩

omit [Arith] [Arith.Lawful] in
/-- Looking a rule up first. -/
theorem lookupAt_run (o : RuleObj) (a : Nat) (f : Int → OnHeap Unit) (h : Heap) :
    (do let i ← findRule a (← o.read); f i : OnHeap Unit) h =
    match asRule (o.value h) with
    | .error e => .error e h
    | .ok r => match (h.readSet a).rules.findIdx? (fun s => s.pyEq r) with
      | some i => f (i : Int) h
      | none => .error .valueError h := by
  rw [heap_bind, read_run]
  cases asRule (o.value h) with
  | error e => rfl
  | ok r =>
    show (findRule a r >>= f) h = _
    rw [heap_bind, findRule_run]
    dsimp only
    cases (h.readSet a).rules.findIdx? (fun s => s.pyEq r) <;> rfl

omit [Arith] [Arith.Lawful] in
theorem RuleAt.none (h : Heap) : RuleAt h 0 (h.rule 0) h :=
  ⟨rfl, rfl, rfl, rfl, le_refl _, fun _ _ => rfl, rfl⟩

omit [Arith] [Arith.Lawful] in
theorem Edited.of_rule {h h' : Heap} {x : Nat} {v : Rule} (hs : Sound h) (hr : RuleAt h x v h') (a : Nat) :
    Edited h a (h.readSet a) h' :=
  ⟨hr.clf, hr.clfs, hr.sets, fun b _ => by rw [hr.set], hr.more, hr.rule, hr.readSet hs a⟩

/-- What an edit does to the heap, given what it does to the value. -/
def EditRuns (e : EditCall) (a : Nat) (h : Heap) : Prop :=
  match (e.value h).call (h.readSet a) with
  | .ok _ rs => ∃ h', e.at a h = .ok () h' ∧ Edited h a rs h' ∧ (EditFree h e → Relisted h a h')
  | .error err rs => e.at a h = .error err h ∧ rs = h.readSet a

omit [Arith] [Arith.Lawful] in
/-- Index check, rule, list change. -/
theorem indexed_run {h : Heap} (hs : Sound h) (a : Nat) (i : Int) (r : RuleObj) (f : Nat → List Nat → List Nat)
    (g : Rule → List Rule → List Rule) (hfg : ∀ (k : Nat → Rule) x l, (f x l).map k = g (k x) (l.map k))
    (hf : ∀ x l, l.Nodup → x ∉ l → (f x l).Nodup ∧ ∀ y ∈ f x l, y ∈ l ∨ y = x) :
    match (if 0 ≤ i ∧ i < (h.readSet a).rules.length then
      match asRule (r.value h) with
      | .ok v => EStateM.Result.ok () { h.readSet a with rules := g v (h.readSet a).rules }
      | .error e => .error e (h.readSet a)
    else .error .indexError (h.readSet a)) with
    | .ok _ rs => ∃ h', (do checkIndexAt a i; let x ← r.asRule; setRules a (f x) : OnHeap Unit) h = .ok () h' ∧
        Edited h a rs h' ∧ (RuleFree h r → Relisted h a h')
    | .error err rs => (do checkIndexAt a i; let x ← r.asRule; setRules a (f x) : OnHeap Unit) h = .error err h ∧
        rs = h.readSet a := by
  rw [heap_bind, checkIndexAt_run]
  by_cases hi : 0 ≤ i ∧ i < (h.readSet a).rules.length
  · rw [if_pos hi, if_pos hi]
    dsimp only
    rw [heap_bind]
    have hr := asRule_run hs r
    cases hv : asRule (r.value h) with
    | error e =>
      rw [hv] at hr
      dsimp only at hr ⊢
      rw [hr]
      exact ⟨rfl, rfl⟩
    | ok v =>
      rw [hv] at hr
      obtain ⟨x, h', e1, e2, e3⟩ := hr
      dsimp only
      rw [e1]
      dsimp only
      rw [setRules_run]
      refine ⟨_, rfl, Edited.put hs e2 a (f x) (g v) ?_, fun hfree => Relisted.add e2 (e3 hfree) _ (hf x)⟩
      rw [hfg, e2.value]
  · rw [if_neg hi, if_neg hi]
    exact ⟨rfl, rfl⟩

omit [Arith] [Arith.Lawful] in
/-- Rule, index check, list change, at an index in range. -/
theorem looked_run {h : Heap} (hs : Sound h) (a : Nat) (i : Nat) (hi : i < (h.readSet a).rules.length) (r : RuleObj)
    (f : Nat → List Nat → List Nat)
    (g : Rule → List Rule → List Rule) (hfg : ∀ (k : Nat → Rule) x l, (f x l).map k = g (k x) (l.map k))
    (hf : ∀ x l, l.Nodup → x ∉ l → (f x l).Nodup ∧ ∀ y ∈ f x l, y ∈ l ∨ y = x) :
    match (match asRule (r.value h) with
      | .ok v => EStateM.Result.ok () { h.readSet a with rules := g v (h.readSet a).rules }
      | .error e => .error e (h.readSet a)) with
    | .ok _ rs => ∃ h', (do let x ← r.asRule; checkIndexAt a (i : Int); setRules a (f x) : OnHeap Unit) h = .ok () h' ∧
        Edited h a rs h' ∧ (RuleFree h r → Relisted h a h')
    | .error err rs => (do let x ← r.asRule; checkIndexAt a (i : Int); setRules a (f x) : OnHeap Unit) h = .error err h ∧
        rs = h.readSet a := by
  rw [heap_bind]
  have hr := asRule_run hs r
  cases hv : asRule (r.value h) with
  | error e =>
    rw [hv] at hr
    dsimp only at hr ⊢
    rw [hr]
    exact ⟨rfl, rfl⟩
  | ok v =>
    rw [hv] at hr
    obtain ⟨x, h', e1, e2, e3⟩ := hr
    dsimp only
    rw [e1]
    dsimp only
    rw [heap_bind, checkIndexAt_run, e2.readSet hs a, if_pos (by omega)]
    dsimp only
    rw [setRules_run]
    refine ⟨_, rfl, Edited.put hs e2 a (f x) (g v) ?_, fun hfree => Relisted.add e2 (e3 hfree) _ (hf x)⟩
    rw [hfg, e2.value]

omit [Arith] [Arith.Lawful] in
theorem edit_run {h : Heap} (hs : Sound h) (a : Nat) (e : EditCall) : EditRuns e a h := by
  unfold EditRuns
  cases e with
  | add r =>
    simp only [EditCall.value, EditOp.call, EditFree, rsAdd_eq]
    have hr := asRule_run hs r
    cases hv : asRule (r.value h) with
    | error e =>
      rw [hv] at hr
      dsimp only at hr ⊢
      refine ⟨?_, rfl⟩
      show (r.asRule >>= fun x => setRules a (· ++ [x])) h = _
      rw [heap_bind, hr]
    | ok v =>
      rw [hv] at hr
      obtain ⟨x, h', e1, e2, e3⟩ := hr
      refine ⟨_, ?_, Edited.put hs e2 a (· ++ [x]) (· ++ [v]) ?_, fun hfree => Relisted.add e2 (e3 hfree) _ (add_list x)⟩
      · show (r.asRule >>= fun x => setRules a (· ++ [x])) h = _
        rw [heap_bind, e1]
        rfl
      · simp only [List.map_append, List.map_cons, List.map_nil, e2.value]
  | replaceAt i r =>
    simp only [EditCall.value, EditOp.call, EditFree, rsReplace_eq]
    exact indexed_run hs a i r (fun x l => l.set i.toNat x) (fun v l => l.set i.toNat v) (fun k x l => List.map_set)
      (set_list i.toNat)
  | insertAt i r =>
    simp only [EditCall.value, EditOp.call, EditFree, rsInsert_eq]
    exact indexed_run hs a i r (fun x l => l.insertIdx i.toNat x) (fun v l => l.insertIdx i.toNat v)
      (fun k x l => List.map_insertIdx k l i.toNat x) (insert_list i.toNat)
  | removeAt i =>
    simp only [EditCall.value, EditOp.call, rsRemove_eq]
    by_cases hi : 0 ≤ i ∧ i < (h.readSet a).rules.length
    · rw [if_pos hi]
      refine ⟨_, ?_, Edited.put hs (RuleAt.none h) a (·.eraseIdx i.toNat) (·.eraseIdx i.toNat) ?_, fun _ hn => ?_⟩
      · show (checkIndexAt a i >>= fun _ => setRules a (·.eraseIdx i.toNat)) h = _
        rw [heap_bind, checkIndexAt_run, if_pos hi]
        rfl
      · exact (List.eraseIdx_map _ _ _).symm
      · exact Relisted.erase h a i.toNat hn
    · rw [if_neg hi]
      refine ⟨?_, rfl⟩
      show (checkIndexAt a i >>= fun _ => setRules a (·.eraseIdx i.toNat)) h = _
      rw [heap_bind, checkIndexAt_run, if_neg hi]
  | remove o =>
    have hval : (EditOp.remove (o.value h)).call (h.readSet a) = _ := lookup_eq (o.value h) rsRemove (h.readSet a)
    have hheap : (EditCall.remove o).at a h = _ := lookupAt_run o a
      (fun i => do checkIndexAt a i; setRules a (·.eraseIdx i.toNat)) h
    simp only [EditCall.value]
    rw [hval, hheap]
    cases hv : asRule (o.value h) with
    | error e => exact ⟨rfl, rfl⟩
    | ok r =>
      dsimp only
      cases hf : (h.readSet a).rules.findIdx? (fun s => s.pyEq r) with
      | none => exact ⟨rfl, rfl⟩
      | some i =>
        have hi := (find_lt hf).1
        dsimp only
        rw [rsRemove_eq, if_pos (by omega)]
        refine ⟨_, ?_, Edited.put hs (RuleAt.none h) a (·.eraseIdx i) (·.eraseIdx i) ?_, fun _ => Relisted.erase h a i⟩
        · rw [heap_bind, checkIndexAt_run, if_pos (by omega)]
          rfl
        · exact (List.eraseIdx_map _ _ _).symm
  | replace o n =>
    have hval : (EditOp.replace (o.value h) (n.value h)).call (h.readSet a) = _ := lookup_eq (o.value h)
      (fun i => do let r ← lift (asRule (n.value h)); rsReplace i (.rule r)) (h.readSet a)
    have hheap : (EditCall.replace o n).at a h = _ := lookupAt_run o a
      (fun i => do let x ← n.asRule; checkIndexAt a i; setRules a (·.set i.toNat x)) h
    simp only [EditCall.value]
    rw [hval, hheap]
    cases hv : asRule (o.value h) with
    | error e => exact ⟨rfl, rfl⟩
    | ok r =>
      dsimp only
      cases hf : (h.readSet a).rules.findIdx? (fun s => s.pyEq r) with
      | none => exact ⟨rfl, rfl⟩
      | some i =>
        have hi := (find_lt hf).1
        have key := looked_run hs a i hi n (fun x l => l.set i x) (fun v l => l.set i v) (fun k x l => List.map_set)
          (set_list i)
        dsimp only
        have : (do let r ← lift (asRule (n.value h)); rsReplace (i : Int) (.rule r) : OnRuleset Unit) (h.readSet a) =
            match asRule (n.value h) with
            | .ok v => EStateM.Result.ok () { h.readSet a with rules := (h.readSet a).rules.set i v }
            | .error e => .error e (h.readSet a) := by
          simp only [bind, EStateM.bind, lift_eq]
          cases asRule (n.value h) with
          | error e => rfl
          | ok v =>
            dsimp only
            rw [rsReplace_eq, if_pos (by omega)]
            rfl
        rw [this]
        exact key
  | insert o n =>
    have hval : (EditOp.insert (o.value h) (n.value h)).call (h.readSet a) = _ := lookup_eq (o.value h)
      (fun i => do let r ← lift (asRule (n.value h)); rsInsert i (.rule r)) (h.readSet a)
    have hheap : (EditCall.insert o n).at a h = _ := lookupAt_run o a
      (fun i => do let x ← n.asRule; checkIndexAt a i; setRules a (·.insertIdx i.toNat x)) h
    simp only [EditCall.value]
    rw [hval, hheap]
    cases hv : asRule (o.value h) with
    | error e => exact ⟨rfl, rfl⟩
    | ok r =>
      dsimp only
      cases hf : (h.readSet a).rules.findIdx? (fun s => s.pyEq r) with
      | none => exact ⟨rfl, rfl⟩
      | some i =>
        have hi := (find_lt hf).1
        have key := looked_run hs a i hi n (fun x l => l.insertIdx i x) (fun v l => l.insertIdx i v)
          (fun k x l => List.map_insertIdx k l i x) (insert_list i)
        dsimp only
        have : (do let r ← lift (asRule (n.value h)); rsInsert (i : Int) (.rule r) : OnRuleset Unit) (h.readSet a) =
            match asRule (n.value h) with
            | .ok v => EStateM.Result.ok () { h.readSet a with rules := (h.readSet a).rules.insertIdx i v }
            | .error e => .error e (h.readSet a) := by
          simp only [bind, EStateM.bind, lift_eq]
          cases asRule (n.value h) with
          | error e => rfl
          | ok v =>
            dsimp only
            rw [rsInsert_eq, if_pos (by omega)]
            rfl
        rw [this]
        exact key

/-! ### recalibration -/

/-- A change of the probabilities at `a` that leaves it as `rs`. -/
structure Recalibrated (h : Heap) (a : Nat) (rs : Ruleset) (h' : Heap) : Prop where
  clf : h'.clf = h.clf
  clfs : h'.clfs = h.clfs
  sets : h'.sets = h.sets
  rules : h'.rules = h.rules
  set : ∀ b, b ≠ a → h'.set b = h.set b
  list : (h'.set a).rules = (h.set a).rules
  rule : ∀ y, y ∉ (h.set a).rules → h'.rule y = h.rule y
  read : h'.readSet a = rs

/-- The outcome of a call, by the exception. -/
def outcomeAt (e : Option PyErr) (h : Heap) : EStateM.Result PyErr Heap Unit :=
  match e with
  | none => .ok () h
  | some e => .error e h

omit [Arith] [Arith.Lawful] in
theorem recalAt_run (df : Frame) (cf : Feat) (pc : Val) (alpha : Rat) :
    ∀ (as : List Nat) (h : Heap), as.Nodup → ∃ f : Nat → Rule,
      recalAt df cf pc alpha as h = outcomeAt (recalRules df cf pc alpha (as.map h.rule)).2 { h with rule := f } ∧
      as.map f = (recalRules df cf pc alpha (as.map h.rule)).1 ∧ ∀ y, y ∉ as → f y = h.rule y := by
  intro as
  induction as with
  | nil => intro h _; exact ⟨h.rule, rfl, rfl, fun _ _ => rfl⟩
  | cons a as ih =>
    intro h hn
    obtain ⟨ha, hn⟩ := List.nodup_cons.mp hn
    have step : recalAt df cf pc alpha (a :: as) h =
        match (recalRule df cf pc alpha (h.rule a)).2 with
        | some e => .error e (h.putRule a (recalRule df cf pc alpha (h.rule a)).1)
        | none => recalAt df cf pc alpha as (h.putRule a (recalRule df cf pc alpha (h.rule a)).1) := by
      show (MonadStateOf.get >>= fun s : Heap =>
        modify (·.putRule a (recalRule df cf pc alpha (s.rule a)).1) >>= fun _ =>
        raised (recalRule df cf pc alpha (s.rule a)).2 >>= fun _ => recalAt df cf pc alpha as) h = _
      rw [heap_bind]
      show (modify (·.putRule a (recalRule df cf pc alpha (h.rule a)).1) >>= fun _ =>
        raised (recalRule df cf pc alpha (h.rule a)).2 >>= fun _ => recalAt df cf pc alpha as) h = _
      rw [heap_bind]
      show (raised (recalRule df cf pc alpha (h.rule a)).2 >>= fun _ => recalAt df cf pc alpha as)
        (h.putRule a (recalRule df cf pc alpha (h.rule a)).1) = _
      rw [heap_bind]
      cases (recalRule df cf pc alpha (h.rule a)).2 <;> rfl
    have hmap : ∀ r, as.map (h.putRule a r).rule = as.map h.rule := by
      intro r
      refine List.map_congr_left (fun x hx => if_neg ?_)
      intro e; exact ha (e ▸ hx)
    rw [step]
    simp only [List.map_cons, recalRules]
    cases hr : recalRule df cf pc alpha (h.rule a) with
    | mk r' err =>
      cases err with
      | some e =>
        refine ⟨(h.putRule a r').rule, rfl, ?_, fun y hy => if_neg (fun (e : y = a) => hy (e ▸ List.mem_cons_self))⟩
        rw [hmap]
        simp only [Heap.putRule, if_true]
      | none =>
        obtain ⟨f, e1, e2, e3⟩ := ih (h.putRule a r') hn
        rw [hmap] at e1 e2
        refine ⟨f, e1, ?_, fun y hy => ?_⟩
        · dsimp only
          rw [e2, e3 a ha]
          simp only [Heap.putRule, if_true]
        · rw [e3 y (fun hm => hy (List.mem_cons_of_mem _ hm))]
          exact if_neg (fun (e : y = a) => hy (e ▸ List.mem_cons_self))

omit [Arith] [Arith.Lawful] in
theorem recalibrateAt_run {h : Heap} {a : Nat} (hn : (h.set a).rules.Nodup) (df : Frame) (cf : Feat) (pc : Val)
    (alpha : Rat) : ∃ h', recalibrateAt a df cf pc alpha h = outcomeAt (recalibrate (h.readSet a) df cf pc alpha).2 h' ∧
      Recalibrated h a (recalibrate (h.readSet a) df cf pc alpha).1 h' := by
  have same : Recalibrated h a (h.readSet a) h :=
    ⟨rfl, rfl, rfl, rfl, fun _ _ => rfl, rfl, fun _ _ => rfl, rfl⟩
  have start : recalibrateAt a df cf pc alpha h =
      if (h.readSet a).selectedFeatures.any (fun f => !df.cols.contains f) then .error .indexError h
      else (do
        recalAt df cf pc alpha (h.set a).rules
        let covered ← noEffect (((← get).readSet a).covers df)
        let uncovered := df.dropLabels covered.index
        let tn ← noEffect (numNeg uncovered cf pc)
        let out := calibrate alpha ((tn : Int), (uncovered.rows.length : Int) - tn) ((← get).set a).uncov
        modify (fun h => h.putSet a { h.set a with uncov := out.1 })
        raised out.2 : OnHeap Unit) h := by
    unfold recalibrateAt
    rw [heap_bind]
    dsimp only [get, getThe, MonadStateOf.get, EStateM.get]
    by_cases hsel : (h.readSet a).selectedFeatures.any (fun f => !df.cols.contains f) = true
    · rw [if_pos hsel]
      simp only [hsel, if_true]
      rfl
    · rw [if_neg hsel]
      simp only [hsel, if_false]
      rfl
  rw [start]
  unfold recalibrate
  by_cases hsel : (h.readSet a).selectedFeatures.any (fun f => !df.cols.contains f) = true
  · rw [if_pos hsel, if_pos hsel]
    exact ⟨h, rfl, same⟩
  · rw [if_neg hsel, if_neg hsel]
    obtain ⟨f, e1, e2, e3⟩ := recalAt_run df cf pc alpha (h.set a).rules h hn
    have hrules : (h.readSet a).rules = (h.set a).rules.map h.rule := rfl
    rw [hrules, heap_bind, e1]
    obtain ⟨h1, hh1⟩ : ∃ h1 : Heap, h1 = { h with rule := f } := ⟨_, rfl⟩
    rw [← hh1]
    cases hrr : recalRules df cf pc alpha ((h.set a).rules.map h.rule) with
    | mk rules' err =>
      rw [hrr] at e2
      have hread : h1.readSet a = { h.readSet a with rules := rules' } := by
        rw [hh1]
        simp only [Heap.readSet, Ruleset.mk.injEq, and_true]
        exact e2
      have base : Recalibrated h a { h.readSet a with rules := rules' } h1 :=
        ⟨by rw [hh1], by rw [hh1], by rw [hh1], by rw [hh1], fun _ _ => by rw [hh1], by rw [hh1],
          fun y hy => by rw [hh1]; exact e3 y hy, hread⟩
      cases err with
      | some e => exact ⟨h1, rfl, base⟩
      | none =>
        dsimp only [outcomeAt]
        rw [heap_bind]
        show ∃ h', (noEffect ((h1.readSet a).covers df) >>= _) h1 = _ ∧ _
        rw [heap_bind, hread]
        cases hcov : ({ h.readSet a with rules := rules' } : Ruleset).covers df with
        | error e => exact ⟨h1, rfl, base⟩
        | ok cov =>
          show ∃ h', (noEffect (numNeg (df.dropLabels cov.index) cf pc) >>= _) h1 = _ ∧ _
          rw [heap_bind]
          simp only [ok_bind]
          cases hnum : numNeg (df.dropLabels cov.index) cf pc with
          | error e => exact ⟨h1, rfl, base⟩
          | ok tn =>
            simp only [ok_bind, pure_eq_ok]
            have huncov : (h1.set a).uncov = (h.readSet a).uncov := by rw [hh1]; rfl
            refine ⟨h1.putSet a { h1.set a with uncov := (calibrate alpha ((tn : Int),
              ((df.dropLabels cov.index).rows.length : Int) - tn) (h.readSet a).uncov).1 }, ?_, ?_⟩
            · show (raised (calibrate alpha ((tn : Int), ((df.dropLabels cov.index).rows.length : Int) - tn)
                (h1.set a).uncov).2) (h1.putSet a { h1.set a with uncov := (calibrate alpha ((tn : Int),
                ((df.dropLabels cov.index).rows.length : Int) - tn) (h1.set a).uncov).1 }) = _
              rw [huncov]
              cases calibrate alpha ((tn : Int), ((df.dropLabels cov.index).rows.length : Int) - tn) (h.readSet a).uncov with
              | mk cal err => cases err <;> rfl
            · refine ⟨base.clf, base.clfs, base.sets, base.rules, fun b hb => ?_, ?_, base.rule, ?_⟩
              · show (if b = a then _ else h1.set b) = _
                rw [if_neg hb]; exact base.set b hb
              · simp only [Heap.putSet, if_true]; exact base.list
              · have hr := hread
                simp only [Heap.readSet, Ruleset.mk.injEq] at hr
                simp only [Heap.readSet, Heap.putSet, if_true]
                rw [hr.1, hr.2.2]

end Witt
