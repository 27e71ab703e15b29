import Verif.Plain
import Verif.Lemmas.RipperTotal
/-
Growth over DataFrames, whatever their row labels: what a result looks like, termination.
-/
namespace Witt
open Spec
variable [Arith] [Arith.Lawful]

/-- Rows of `d` that satisfy all conditions of `r`. -/
def rowHits (r : List Cond) (d : Frame) : Nat := (d.rows.filter (condsMet r)).length

omit [Arith] [Arith.Lawful] in
theorem numCoveredC_cases (r : List Cond) (d : Frame) :
    (numCoveredC r d = .ok (rowHits r d) ∧ ∀ c ∈ r, c.feature ∈ d.cols) ∨
    (numCoveredC r d = .error .keyError ∧ ¬ ∀ c ∈ r, c.feature ∈ d.cols) := by
  unfold numCoveredC
  rcases condsCover_cases r d with ⟨h, h'⟩ | ⟨h, h'⟩
  · rw [h]; exact Or.inl ⟨rfl, h'⟩
  · rw [h]; exact Or.inr ⟨rfl, h'⟩

omit [Arith] [Arith.Lawful] in
theorem numCoveredC_ok {r : List Cond} {d : Frame} {n : Nat} (h : numCoveredC r d = .ok n) :
    n = rowHits r d ∧ ∀ c ∈ r, c.feature ∈ d.cols := by
  rcases numCoveredC_cases r d with ⟨h1, h2⟩ | ⟨h1, _⟩
  · rw [h1] at h; injection h with h; exact ⟨h.symm, h2⟩
  · rw [h1] at h; cases h

omit [Arith] [Arith.Lawful] in
theorem numCoveredC_noDiv (r : List Cond) (d : Frame) : NoDiv (numCoveredC r d) := by
  rcases numCoveredC_cases r d with ⟨h1, _⟩ | ⟨h1, _⟩ <;> rw [h1] <;> simp [NoDiv]

omit [Arith] [Arith.Lawful] in
theorem condsCover_noDiv (r : List Cond) (d : Frame) : NoDiv (condsCover r d) := by
  rcases condsCover_cases r d with ⟨h1, _⟩ | ⟨h1, _⟩ <;> rw [h1] <;> simp [NoDiv]

omit [Arith] [Arith.Lawful] in
theorem condsMet_append {r s : List Cond} {row : Row} : condsMet (r ++ s) row = (condsMet r row && condsMet s row) := by
  simp [condsMet]

omit [Arith] [Arith.Lawful] in
theorem rowHits_snoc_le (r : List Cond) (c : Cond) (d : Frame) : rowHits (r ++ [c]) d ≤ rowHits r d := by
  unfold rowHits
  have : condsMet (r ++ [c]) = fun row => condsMet [c] row && condsMet r row := by
    funext row; rw [condsMet_append, Bool.and_comm]
  rw [this, ← List.filter_filter]
  exact List.length_filter_le _ _

omit [Arith] [Arith.Lawful] in
theorem rowHits_le (r : List Cond) (d : Frame) : rowHits r d ≤ d.rows.length := List.length_filter_le _ _

omit [Arith.Lawful] in
theorem gainDf_ok {a b : List Cond} {pos neg : Frame} {v : Rat} (h : gainDf a b pos neg = .ok v) :
    v = Arith.gain (rowHits a pos) (rowHits a neg) (rowHits b pos) (rowHits b neg) ∧
    (∀ c ∈ b, c.feature ∈ pos.cols) ∧ ∀ c ∈ b, c.feature ∈ neg.cols := by
  unfold gainDf at h
  obtain ⟨p0, h0, h⟩ := bind_ok_iff.mp h
  obtain ⟨p1, h1, h⟩ := bind_ok_iff.mp h
  obtain ⟨n0, h2, h⟩ := bind_ok_iff.mp h
  obtain ⟨n1, h3, h⟩ := bind_ok_iff.mp h
  simp only [pure_eq_ok, Except.ok.injEq] at h
  obtain ⟨rfl, _⟩ := numCoveredC_ok h0
  obtain ⟨rfl, hp⟩ := numCoveredC_ok h1
  obtain ⟨rfl, _⟩ := numCoveredC_ok h2
  obtain ⟨rfl, hn⟩ := numCoveredC_ok h3
  exact ⟨h.symm, hp, hn⟩

omit [Arith.Lawful] in
theorem gainDf_noDiv (a b : List Cond) (pos neg : Frame) : NoDiv (gainDf a b pos neg) := by
  unfold gainDf
  exact (numCoveredC_noDiv _ _).bind fun _ _ => (numCoveredC_noDiv _ _).bind fun _ _ =>
    (numCoveredC_noDiv _ _).bind fun _ _ => (numCoveredC_noDiv _ _).bind fun _ _ => .pure _

omit [Arith] [Arith.Lawful] in
theorem bestLoopM_spec {score : List Cond → Except PyErr Rat} : ∀ (l : List (List Cond)) (b out : Option (List Cond) × Rat),
    bestLoopM score b l = .ok out →
    (out = b ∨ ∃ s ∈ l, score s = .ok out.2 ∧ out.1 = some s) ∧ b.2 ≤ out.2 ∧ (out ≠ b → b.2 < out.2) ∧
    ∀ s ∈ l, ∃ v, score s = .ok v ∧ v ≤ out.2 := by
  intro l
  induction l with
  | nil =>
    intro b out h
    simp only [bestLoopM, Except.ok.injEq] at h
    subst h
    exact ⟨Or.inl rfl, le_refl _, fun h => absurd rfl h, by simp⟩
  | cons a l ih =>
    intro b out h
    rw [bestLoopM] at h
    obtain ⟨g, hg, h⟩ := bind_ok_iff.mp h
    obtain ⟨h1, h2, h3, h4⟩ := ih _ _ h
    by_cases hlt : b.2 < g
    · rw [if_pos hlt] at h1 h2 h3
      simp only at h2 h3
      have hb : b.2 < out.2 := lt_of_lt_of_le hlt h2
      refine ⟨Or.inr ?_, le_of_lt hb, fun _ => hb, ?_⟩
      · rcases h1 with h1 | ⟨s, hs, h1, h1'⟩
        · exact ⟨a, by simp, by rw [h1]; exact hg, by rw [h1]⟩
        · exact ⟨s, by simp [hs], h1, h1'⟩
      · intro s hs
        rcases List.mem_cons.mp hs with rfl | hs
        · exact ⟨g, hg, h2⟩
        · exact h4 s hs
    · rw [if_neg hlt] at h1 h2 h3
      refine ⟨?_, h2, h3, ?_⟩
      · rcases h1 with h1 | ⟨s, hs, h1, h1'⟩
        · exact Or.inl h1
        · exact Or.inr ⟨s, by simp [hs], h1, h1'⟩
      · intro s hs
        rcases List.mem_cons.mp hs with rfl | hs
        · exact ⟨g, hg, le_trans (not_lt.mp hlt) h2⟩
        · exact h4 s hs

omit [Arith] [Arith.Lawful] in
theorem bestLoopM_noDiv {score : List Cond → Except PyErr Rat} (hs : ∀ s, NoDiv (score s)) :
    ∀ (l : List (List Cond)) b, NoDiv (bestLoopM score b l) := by
  intro l
  induction l with
  | nil => intro b; exact .ok _
  | cons a l ih => intro b; rw [bestLoopM]; exact (hs a).bind fun _ _ => ih _

/-- What a condition appended during growth over frames does. -/
structure FrameUseful (cands : List Cond) (pos neg : Frame) (r : List Cond) (c : Cond) : Prop where
  mem : c ∈ cands
  new : condIn c r = false
  posCol : c.feature ∈ pos.cols
  negCol : c.feature ∈ neg.cols
  keeps : ∃ row ∈ pos.rows, condsMet (r ++ [c]) row = true
  loses : ∃ row ∈ neg.rows, condsMet r row = true ∧ c.met row = false
  gain : 1 < Arith.gain (rowHits r pos) (rowHits r neg) (rowHits (r ++ [c]) pos) (rowHits (r ++ [c]) neg)

omit [Arith] [Arith.Lawful] in
theorem rowHits_pos {r : List Cond} {d : Frame} (h : 1 ≤ rowHits r d) : ∃ row ∈ d.rows, condsMet r row = true := by
  obtain ⟨row, hr⟩ := List.exists_mem_of_length_pos h
  exact ⟨row, List.mem_filter.mp hr⟩

omit [Arith] [Arith.Lawful] in
theorem rowHits_lt {r : List Cond} {c : Cond} {d : Frame} (h : rowHits (r ++ [c]) d < rowHits r d) :
    ∃ row ∈ d.rows, condsMet r row = true ∧ c.met row = false := by
  by_contra hn
  push Not at hn
  have : rowHits (r ++ [c]) d = rowHits r d := by
    unfold rowHits
    congr 1
    apply List.filter_congr
    intro row hrow
    rw [condsMet_append]
    cases hr : condsMet r row with
    | false => rfl
    | true =>
      have := hn row hrow hr
      simp only [Bool.true_and, condsMet, List.all_cons, List.all_nil, Bool.and_true]
      simpa using this
  omega

theorem bestSuccessor_spec {r : List Cond} {cands : List Cond} {pos neg : Frame} {o : Option (List Cond)}
    (h : bestSuccessor r cands pos neg = .ok o) :
    ∀ r', o = some r' → ∃ c, r' = r ++ [c] ∧ FrameUseful cands pos neg r c := by
  unfold bestSuccessor at h
  obtain ⟨out, hb, h⟩ := bind_ok_iff.mp h
  simp only [pure_eq_ok, Except.ok.injEq] at h
  obtain ⟨h1, _, h3, _⟩ := bestLoopM_spec _ _ _ hb
  rintro r' rfl
  rcases h1 with h1 | ⟨s, hs, hv, h1⟩
  · rw [h1] at h; cases h
  · rw [h] at h1; injection h1 with h1; subst h1
    unfold successors at hs
    obtain ⟨c, hc, rfl⟩ := List.mem_map.mp hs
    rw [List.mem_filter] at hc
    have hgt : (1 : Rat) < out.2 := h3 (by intro he; rw [he] at h; cases h)
    obtain ⟨he, hpc, hnc⟩ := gainDf_ok hv
    rw [he] at hgt
    obtain ⟨hk, hl⟩ := Arith.Lawful.gain_loses _ _ _ _ (rowHits_snoc_le r c pos) hgt
    exact ⟨c, rfl, hc.1, by simpa using hc.2, hpc c (by simp), hnc c (by simp), rowHits_pos hk, rowHits_lt hl, hgt⟩

omit [Arith.Lawful] in
/-- One iteration of the growing loop over frames. -/
theorem growStep_cases {cands : List Cond} {lim : Limits} {pos neg : Frame} {r : List Cond}
    {o : Step (List Cond) (List Cond)} (h : growStep cands lim pos neg r = .ok o) :
    (∀ c ∈ r, c.feature ∈ neg.cols) ∧
    ((rowHits r neg = 0 ∧ o = .done r) ∨
    (rowHits r neg ≠ 0 ∧ userHalt lim r (rowHits r neg) (if lim.minRuleSamples.isSome then rowHits r pos else 0) = true ∧
      o = .done (haltRule lim r)) ∨
    (rowHits r neg ≠ 0 ∧ userHalt lim r (rowHits r neg) (if lim.minRuleSamples.isSome then rowHits r pos else 0) = false ∧
      ((bestSuccessor r cands pos neg = .ok none ∧ o = .done r) ∨
       ∃ r', bestSuccessor r cands pos neg = .ok (some r') ∧ o = .more r'))) := by
  unfold growStep at h
  obtain ⟨n, hn, h⟩ := bind_ok_iff.mp h
  obtain ⟨rfl, hc⟩ := numCoveredC_ok hn
  refine ⟨hc, ?_⟩
  split at h
  · rename_i h0
    simp only [pure_eq_ok, Except.ok.injEq] at h
    exact Or.inl ⟨h0, h.symm⟩
  · rename_i h0
    obtain ⟨p, hp, h⟩ := bind_ok_iff.mp h
    have hpe : p = if lim.minRuleSamples.isSome then rowHits r pos else 0 := by
      split at hp
      · rename_i hm; rw [if_pos hm]; exact (numCoveredC_ok hp).1
      · rename_i hm; injection hp with hp; rw [if_neg hm]; exact hp.symm
    rw [← hpe]
    by_cases hu : userHalt lim r (rowHits r neg) p = true
    · rw [if_pos hu] at h
      simp only [pure_eq_ok, Except.ok.injEq] at h
      exact Or.inr (Or.inl ⟨h0, hu, h.symm⟩)
    · rw [if_neg hu] at h
      obtain ⟨b, hb, h⟩ := bind_ok_iff.mp h
      refine Or.inr (Or.inr ⟨h0, by simpa using hu, ?_⟩)
      cases b with
      | none => simp only [pure_eq_ok, Except.ok.injEq] at h; exact Or.inl ⟨hb, h.symm⟩
      | some r' => simp only [pure_eq_ok, Except.ok.injEq] at h; exact Or.inr ⟨r', hb, h.symm⟩

omit [Arith.Lawful] in
theorem bestSuccessor_noDiv (r cands : List Cond) (pos neg : Frame) : NoDiv (bestSuccessor r cands pos neg) := by
  unfold bestSuccessor
  exact (bestLoopM_noDiv (fun s => gainDf_noDiv _ _ _ _) _ _).bind fun _ _ => .pure _

omit [Arith.Lawful] in
theorem growStep_noDiv (cands : List Cond) (lim : Limits) (pos neg : Frame) (r : List Cond) :
    NoDiv (growStep cands lim pos neg r) := by
  unfold growStep
  refine (numCoveredC_noDiv _ _).bind fun _ _ => ?_
  split
  · exact .pure _
  · refine NoDiv.bind ?_ fun _ _ => ?_
    · split
      · exact numCoveredC_noDiv _ _
      · exact .ok _
    · split
      · exact .pure _
      · refine (bestSuccessor_noDiv _ _ _ _).bind fun o _ => ?_
        cases o <;> exact .pure _

theorem growStep_more {cands : List Cond} {lim : Limits} {pos neg : Frame} {r r' : List Cond}
    (h : growStep cands lim pos neg r = .ok (.more r')) :
    (∃ c, r' = r ++ [c] ∧ FrameUseful cands pos neg r c) ∧
    userHalt lim r (rowHits r neg) (if lim.minRuleSamples.isSome then rowHits r pos else 0) = false := by
  rcases (growStep_cases h).2 with ⟨_, h⟩ | ⟨_, _, h⟩ | ⟨_, hu, ⟨_, h⟩ | ⟨r'', hb, h⟩⟩
  · cases h
  · cases h
  · cases h
  · injection h with h; subst h
    exact ⟨bestSuccessor_spec hb _ rfl, hu⟩

/-- Rules obtained from `init` by appending useful conditions. -/
inductive FrameChain (cands : List Cond) (pos neg : Frame) (init : List Cond) : List Cond → Prop where
  | refl : FrameChain cands pos neg init init
  | snoc {r c} : FrameChain cands pos neg init r → FrameUseful cands pos neg r c →
      FrameChain cands pos neg init (r ++ [c])

/-- What is known about a rule grown over frames. -/
structure FramePost (cands : List Cond) (lim : Limits) (pos neg : Frame) (init r : List Cond) : Prop where
  chain : ∃ r0, FrameChain cands pos neg init r0 ∧ (r = r0 ∨ (lim.minRuleSamples.isSome = true ∧ r0 ≠ [] ∧ r = r0.dropLast))
  len : ∀ m, lim.maxRuleConds = some m → (r.length : Int) ≤ max m init.length

theorem growRule_post {fuel : Nat} {cands : List Cond} {lim : Limits} {pos neg : Frame} {init r : List Cond}
    (h : growRule fuel cands lim pos neg init = .ok r) : FramePost cands lim pos neg init r := by
  refine pyWhile_inv
    (I := fun r => FrameChain cands pos neg init r ∧ ∀ m, lim.maxRuleConds = some m → (r.length : Int) ≤ max m init.length)
    (Q := FramePost cands lim pos neg init) ?_ ?_ fuel init r ⟨.refl, fun m _ => by omega⟩ h
  · intro s s' ⟨hc, hl⟩ hb
    obtain ⟨⟨c, rfl, hu⟩, hh⟩ := growStep_more hb
    refine ⟨.snoc hc hu, fun m hm => ?_⟩
    unfold userHalt at hh
    simp only [Bool.or_eq_false_iff] at hh
    have := atLeast_eq_false hh.1 hm
    simp only [List.length_append, List.length_cons, List.length_nil]
    push_cast
    omega
  · intro s a ⟨hc, hl⟩ hb
    rcases (growStep_cases hb).2 with ⟨_, h⟩ | ⟨_, hu, h⟩ | ⟨_, _, ⟨_, h⟩ | ⟨_, _, h⟩⟩
    · injection h with h; subst h; exact ⟨⟨_, hc, Or.inl rfl⟩, hl⟩
    · injection h with h; subst h
      unfold haltRule
      split
      · rename_i hp
        simp only [Bool.and_eq_true, Bool.not_eq_true', List.isEmpty_eq_false_iff] at hp
        refine ⟨⟨_, hc, Or.inr ⟨hp.1, hp.2, rfl⟩⟩, fun m hm => ?_⟩
        have := hl m hm
        have h2 : (s.dropLast.length : Int) ≤ s.length := by exact_mod_cast (by simp : s.dropLast.length ≤ s.length)
        omega
      · exact ⟨⟨_, hc, Or.inl rfl⟩, hl⟩
    · injection h with h; subst h; exact ⟨⟨_, hc, Or.inl rfl⟩, hl⟩
    · cases h

omit [Arith.Lawful] in
/-- A growing step loses an example of every superset of the negatives. -/
theorem FrameUseful.base_lt {cands : List Cond} {pos neg B : Frame} {r : List Cond} {c : Cond}
    (h : FrameUseful cands pos neg r c) (hB : ∀ row ∈ neg.rows, row ∈ B.rows) : rowHits (r ++ [c]) B < rowHits r B := by
  obtain ⟨row, hrow, h1, h2⟩ := h.loses
  refine lt_of_le_of_ne (rowHits_snoc_le r c B) ?_
  intro he
  unfold rowHits at he
  have hsub : (B.rows.filter (condsMet (r ++ [c]))).Sublist (B.rows.filter (condsMet r)) := by
    have : condsMet (r ++ [c]) = fun row => condsMet [c] row && condsMet r row := by
      funext row; rw [condsMet_append, Bool.and_comm]
    rw [this, ← List.filter_filter]
    exact List.filter_sublist
  have := hsub.eq_of_length he
  have hm : row ∈ B.rows.filter (condsMet r) := List.mem_filter.mpr ⟨hB row hrow, h1⟩
  rw [← this, List.mem_filter, condsMet_append] at hm
  have := hm.2
  simp [condsMet, h2] at this

theorem growRule_noDiv {fuel : Nat} {cands : List Cond} {lim : Limits} {pos neg B : Frame} {init : List Cond}
    (hB : ∀ row ∈ neg.rows, row ∈ B.rows) (hf : B.rows.length < fuel) :
    NoDiv (growRule fuel cands lim pos neg init) := by
  refine pyWhile_ne_error (I := fun _ => True) (m := fun r => rowHits r B) ?_
    (fun s _ => growStep_noDiv cands lim pos neg s) fuel init trivial (lt_of_le_of_lt (rowHits_le _ _) hf)
  intro s s' _ hb
  obtain ⟨⟨c, rfl, hu⟩, _⟩ := growStep_more hb
  exact ⟨trivial, hu.base_lt hB⟩

theorem growRule_fuel {fuel fuel' : Nat} {cands : List Cond} {lim : Limits} {pos neg B : Frame} {init : List Cond}
    (hB : ∀ row ∈ neg.rows, row ∈ B.rows) (hf : B.rows.length < fuel) (hf' : B.rows.length < fuel') :
    growRule fuel cands lim pos neg init = growRule fuel' cands lim pos neg init := by
  refine pyWhile_stable (I := fun _ => True) (m := fun r => rowHits r B) ?_ (fun _ _ => rfl) fuel fuel' init trivial
    (lt_of_le_of_lt (rowHits_le _ _) hf) (lt_of_le_of_lt (rowHits_le _ _) hf')
  intro s s' _ hb
  obtain ⟨⟨c, rfl, hu⟩, _⟩ := growStep_more hb
  exact ⟨trivial, hu.base_lt hB⟩

/-- `P` holds of the empty rule and is kept by useful extensions and by cutting off the end. -/
structure ClosedOn (cands : List Cond) (P : List Cond → Prop) : Prop where
  nil : P []
  snoc : ∀ pos neg r c, P r → FrameUseful cands pos neg r c → P (r ++ [c])
  pre : ∀ r s, P r → s <+: r → P s

theorem ClosedOn.grow {fuel : Nat} {cands : List Cond} {P : List Cond → Prop} (hP : ClosedOn cands P) {lim : Limits}
    {pos neg : Frame} {init r : List Cond} (hi : P init) (h : growRule fuel cands lim pos neg init = .ok r) : P r := by
  obtain ⟨r0, hc, hr⟩ := (growRule_post h).chain
  have : P r0 := by
    clear hr
    induction hc with
    | refl => exact hi
    | snoc _ hu ih => exact hP.snoc _ _ _ _ ih hu
  rcases hr with rfl | ⟨_, _, rfl⟩
  · exact this
  · exact hP.pre _ _ this (List.dropLast_prefix _)

/-- A rule grown from the empty rule holds of one of its positives, if there are any. -/
theorem growRule_covers_pos {fuel : Nat} {cands : List Cond} {lim : Limits} {pos neg : Frame} {r : List Cond}
    (h : growRule fuel cands lim pos neg [] = .ok r) (hp : pos.rows ≠ []) : ∃ row ∈ pos.rows, condsMet r row = true := by
  obtain ⟨r0, hc, hr⟩ := (growRule_post h).chain
  have h0 : ∃ row ∈ pos.rows, condsMet r0 row = true := by
    cases hc with
    | refl => obtain ⟨row, hrow⟩ := List.exists_mem_of_ne_nil _ hp; exact ⟨row, hrow, rfl⟩
    | snoc _ hu => exact hu.keeps
  rcases hr with rfl | ⟨_, _, rfl⟩
  · exact h0
  · obtain ⟨row, hrow, hm⟩ := h0
    refine ⟨row, hrow, ?_⟩
    rw [condsMet_iff] at hm ⊢
    exact fun c hc => hm c (List.dropLast_subset _ hc)

/-! ### splits -/

omit [Arith] [Arith.Lawful] in
theorem loc_rows {d : Frame} {ls : List Label} : ∀ row ∈ (d.loc ls).rows, row ∈ d.rows := by
  intro row h
  unfold Frame.loc at h
  simp only [List.mem_flatMap, List.mem_filter] at h
  obtain ⟨_, _, h, _⟩ := h
  exact h

omit [Arith] [Arith.Lawful] in
theorem loc_label {d : Frame} {ls : List Label} {row : Row} : row ∈ (d.loc ls).rows ↔ row ∈ d.rows ∧ row.label ∈ ls := by
  unfold Frame.loc
  simp only [List.mem_flatMap, List.mem_filter]
  constructor
  · rintro ⟨l, hl, h, he⟩
    simp only [beq_iff_eq] at he
    exact ⟨h, he ▸ hl⟩
  · rintro ⟨h, hl⟩
    exact ⟨_, hl, h, by simp⟩

omit [Arith] [Arith.Lawful] in
theorem loc_cols {d : Frame} {ls : List Label} : (d.loc ls).cols = d.cols := rfl

omit [Arith.Lawful] in
/-- Both parts of a split hold rows of the frame, under the same columns. -/
theorem dfSplit_sub {R : PyRandom} {g g' : R.G} {d a b : Frame} {q : Rat} {rs : Option Int}
    (h : dfShuffledSplit R g d q rs = (a, b, g')) :
    (∀ row ∈ a.rows, row ∈ d.rows) ∧ (∀ row ∈ b.rows, row ∈ d.rows) ∧ a.cols = d.cols ∧ b.cols = d.cols := by
  unfold dfShuffledSplit at h
  rcases hs : randomSplit R g d.index q rs with ⟨x, y, z⟩
  simp only [hs, Prod.mk.injEq] at h
  obtain ⟨rfl, rfl, rfl⟩ := h
  exact ⟨loc_rows, loc_rows, rfl, rfl⟩

omit [Arith.Lawful] in
/-- A split loses no row. -/
theorem dfSplit_all {R : PyRandom} (hR : R.Lawful) {g g' : R.G} {d a b : Frame} {q : Rat} {rs : Option Int}
    (h : dfShuffledSplit R g d q rs = (a, b, g')) : ∀ row ∈ d.rows, row ∈ a.rows ∨ row ∈ b.rows := by
  unfold dfShuffledSplit at h
  have hm := randomSplit_mem hR g d.index q rs
  rcases hs : randomSplit R g d.index q rs with ⟨x, y, z⟩
  simp only [hs, Prod.mk.injEq] at h hm
  obtain ⟨rfl, rfl, rfl⟩ := h
  intro row hrow
  rw [loc_label, loc_label]
  rcases (hm row.label).mp (List.mem_map.mpr ⟨row, hrow, rfl⟩) with h | h
  · exact Or.inl ⟨hrow, h⟩
  · exact Or.inr ⟨hrow, h⟩

theorem dfSplit_one {R : PyRandom} (hR : R.Lawful) {g g' : R.G} {d a b : Frame} {rs : Option Int}
    (h : dfShuffledSplit R g d 1 rs = (a, b, g')) : ∀ row ∈ d.rows, row ∈ a.rows := by
  unfold dfShuffledSplit at h
  have hm := (randomSplit_one hR g d.index rs).1
  rcases hs : randomSplit R g d.index 1 rs with ⟨x, y, z⟩
  simp only [hs, Prod.mk.injEq] at h hm
  obtain ⟨rfl, rfl, rfl⟩ := h
  intro row hrow
  rw [loc_label]
  exact ⟨hrow, hm.mem_iff.mpr (List.mem_map.mpr ⟨row, hrow, rfl⟩)⟩

/-! ### dropping -/

omit [Arith] [Arith.Lawful] in
theorem dropLabels_rows {d : Frame} {ls : List Label} {row : Row} :
    row ∈ (d.dropLabels ls).rows ↔ row ∈ d.rows ∧ row.label ∉ ls := by
  unfold Frame.dropLabels
  simp [List.mem_filter]

omit [Arith] [Arith.Lawful] in
theorem dropLabels_sublist {d : Frame} {ls : List Label} : (d.dropLabels ls).rows.Sublist d.rows := by
  unfold Frame.dropLabels; exact List.filter_sublist

omit [Arith] [Arith.Lawful] in
theorem dropLabels_cols {d : Frame} {ls : List Label} : (d.dropLabels ls).cols = d.cols := rfl

omit [Arith] [Arith.Lawful] in
theorem dropLabels_lt {d : Frame} {ls : List Label} {row : Row} (h : row ∈ d.rows) (hl : row.label ∈ ls) :
    (d.dropLabels ls).rows.length < d.rows.length := by
  refine lt_of_le_of_ne dropLabels_sublist.length_le ?_
  intro he
  have := dropLabels_sublist.eq_of_length he
  rw [← this] at h
  exact (dropLabels_rows.mp h).2 hl

end Witt
