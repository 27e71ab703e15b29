import Mathlib.Tactic.Linarith
import Mathlib.Data.Rat.Floor
import Verif.Discretize
import Verif.Lemmas.Text
import Verif.Lemmas.DemoFloat
import Verif.Props.Predict
import Verif.Lemmas.Cover
/-
Properties of discretisation: C48-C51.
-/
namespace Witt
open Spec

namespace Spec
/-- The number lies in the interval: above its left end, at or below its right end. -/
def Inside (iv : Interval) (q : Rat) : Prop :=
  (iv.left = .ninf ∨ ∃ a, iv.left = .fin a ∧ a < q) ∧ (iv.right = .pinf ∨ ∃ b, iv.right = .fin b ∧ q ≤ b)

/-- The interval has floats or the appropriate infinities as ends. -/
def Proper (F : PyFloat) (iv : Interval) : Prop :=
  (iv.left = .ninf ∨ ∃ a, iv.left = .fin a ∧ F.Rep a) ∧ (iv.right = .pinf ∨ ∃ b, iv.right = .fin b ∧ F.Rep b)
end Spec

theorem Interval.has_iff {iv : Interval} {q : Rat} : iv.has q = true ↔ Inside iv q := by
  obtain ⟨l, r⟩ := iv
  cases l <;> cases r <;> simp [Interval.has, Inside, Ext.below, Ext.notBelow]

/-! ### labels -/

theorem splitSub_single {a : PStr} (ha : ' ' ∉ a) : splitSub p!" - " a = [a] := by
  unfold splitSub
  induction a with
  | nil => rfl
  | cons x a ih =>
    have hx : ¬ x = ' ' := by intro e; exact ha (by simp [e])
    have := ih (fun h => ha (by simp [h]))
    have hp : List.isPrefixOf p!" - " (x :: a) = false := by
      simp [List.isPrefixOf, Ne.symm hx]
    simp only [splitSubAux, hp, Bool.false_eq_true, if_false, this]

theorem splitSub_pair {a b : PStr} (ha : ' ' ∉ a) (hb : ' ' ∉ b) :
    splitSub p!" - " (a ++ p!" - " ++ b) = [a, b] := by
  unfold splitSub
  induction a with
  | nil =>
    have := splitSub_single hb
    unfold splitSub at this
    simp [splitSubAux, List.isPrefixOf, this]
  | cons x a ih =>
    have hx : ¬ x = ' ' := by intro e; exact ha (by simp [e])
    have := ih (fun h => ha (by simp [h]))
    have hp : List.isPrefixOf p!" - " (x :: (a ++ p!" - " ++ b)) = false := by
      simp [List.isPrefixOf, Ne.symm hx]
    rw [List.cons_append, List.cons_append]
    simp only [splitSubAux, hp, Bool.false_eq_true, if_false, this]

theorem dropChar_notin {c : Char} {s : PStr} (h : c ∉ s) : dropChar c s = s := by
  unfold dropChar
  rw [List.filter_eq_self]
  intro a ha
  simp only [bne_iff_ne, ne_eq]
  rintro rfl
  exact h ha

/-- C50. Reading the label of any interval with float (or infinite) ends gives back that interval. -/
theorem C50_label_denotes_interval (F : PyFloat) (hF : F.Lawful) (iv : Interval) (h : Proper F iv) :
    textInterval F (intervalText F iv) = .ok iv := by
  obtain ⟨l, r⟩ := iv
  obtain ⟨hl, hr⟩ := h
  simp only at hl hr
  have hright : ' ' ∉ F.text r ∧ '<' ∉ F.text r ∧ '>' ∉ F.text r ∧ F.read (F.text r) = .ok r := by
    rcases hr with rfl | ⟨b, rfl, hb⟩
    · refine ⟨by show _ ∉ p!"inf"; decide, by show _ ∉ p!"inf"; decide, by show _ ∉ p!"inf"; decide, ?_⟩
      simp only [PyFloat.read, PyFloat.text, hF.pos_inf]
    · obtain ⟨h1, h2, h3⟩ := hF.plain b hb
      exact ⟨h1, h2, h3, by simp only [PyFloat.read, PyFloat.text, hF.round_trip b hb]⟩
  unfold intervalText textInterval
  rcases hl with rfl | ⟨a, rfl, ha⟩
  · simp only [if_true]
    have hc : (['<'] ++ F.text r).contains '<' = true := by simp
    have hd : dropChar '<' (['<'] ++ F.text r) = F.text r := by
      have := dropChar_notin hright.2.1
      unfold dropChar at this ⊢
      simpa using this
    simp only [hc, if_true, hd, ok_bind, PyFloat.read, hF.neg_inf]
    have := hright.2.2.2
    unfold PyFloat.read at this
    simp only [this, ok_bind, pure_eq_ok]
  · obtain ⟨h1, h2, h3⟩ := hF.plain a ha
    have hread : F.read (F.shown a) = .ok (.fin a) := by simp only [PyFloat.read, hF.round_trip a ha]
    have hne : ¬ (Ext.fin a = Ext.ninf) := by simp
    simp only [hne, if_false]
    rcases hr with rfl | ⟨b, rfl, hb⟩
    · simp only [if_true, PyFloat.text]
      have hc : (['>'] ++ F.shown a).contains '<' = false := by simpa using h2
      have hc' : (['>'] ++ F.shown a).contains '>' = true := by simp
      have hd : dropChar '>' (['>'] ++ F.shown a) = F.shown a := by
        have := dropChar_notin h3
        unfold dropChar at this ⊢
        simpa using this
      simp only [hc, hc', if_true, Bool.false_eq_true, if_false, hd, ok_bind, hread]
      simp only [PyFloat.read, hF.pos_inf, ok_bind, pure_eq_ok]
    · have hne : ¬ (Ext.fin b = Ext.pinf) := by simp
      simp only [hne, if_false, PyFloat.text]
      simp only [PyFloat.text] at hright
      have hc : (F.shown a ++ p!" - " ++ F.shown b).contains '<' = false := by
        have := hright.2.1; simp [h2, this]
      have hc' : (F.shown a ++ p!" - " ++ F.shown b).contains '>' = false := by
        have := hright.2.2.1; simp [h3, this]
      simp only [hc, hc', Bool.false_eq_true, if_false, findFloorCeil, splitSub_pair h1 hright.1, ok_bind,
        hread, hright.2.2.2, pure_eq_ok]

example : Demo.F.Lawful ∧ Proper Demo.F ⟨.fin (-12), .fin 3⟩ ∧
    intervalText Demo.F ⟨.fin (-12), .fin 3⟩ = p!"-12.0 - 3.0" ∧
    intervalText Demo.F ⟨.ninf, .fin (-12)⟩ = p!"<-12.0" ∧
    textInterval Demo.F p!"-12.0 - 3.0" = .ok ⟨.fin (-12), .fin 3⟩ := by
  refine ⟨Demo.F_lawful, ⟨Or.inr ⟨_, rfl, rfl⟩, Or.inr ⟨_, rfl, rfl⟩⟩, by decide +kernel,
    by decide +kernel, by decide +kernel⟩

/-- C50, labels without spaces (as written by older versions): a negative upper bound has two dashes, and
reading it is an UnboundLocalError. -/
theorem C50_refuted_two_dashes : findFloorCeil Demo.F p!"-12.0--3.0" = .error .unboundLocal ∧
    findFloorCeil Demo.F p!"1.0-3.0" = .ok (some (p!"1.0", p!"3.0")) := by decide +kernel

/-! ### bins -/

/-- Pairs that follow each other without overlapping. -/
def Ordered (l : List (Rat × Rat)) : Prop := (∀ p ∈ l, p.1 < p.2) ∧ l.Pairwise (fun p p' => p.2 ≤ p'.1)

theorem pairsOf_mem_bounds : ∀ {a : Rat} {l : List Rat}, (a :: l).Pairwise (· < ·) → ∀ p ∈ pairsOf (a :: l),
    a ≤ p.1 ∧ p.1 < p.2
  | a, [], _, p, hp => by simp [pairsOf] at hp
  | a, b :: rest, h, p, hp => by
    rw [List.pairwise_cons] at h
    have hab := h.1 b List.mem_cons_self
    rcases List.mem_cons.mp hp with rfl | hp
    · exact ⟨le_refl _, hab⟩
    · obtain ⟨h1, h2⟩ := pairsOf_mem_bounds h.2 p hp
      exact ⟨by linarith, h2⟩

theorem pairsOf_ordered : ∀ {l : List Rat}, l.Pairwise (· < ·) → Ordered (pairsOf l)
  | [], _ => ⟨by simp [pairsOf], by simp [pairsOf]⟩
  | [a], _ => ⟨by simp [pairsOf], by simp [pairsOf]⟩
  | a :: b :: rest, h => by
    have h' := (List.pairwise_cons.mp h)
    obtain ⟨i1, i2⟩ := pairsOf_ordered h'.2
    constructor
    · intro p hp
      rcases List.mem_cons.mp hp with rfl | hp
      · exact h'.1 b List.mem_cons_self
      · exact i1 p hp
    · rw [pairsOf, List.pairwise_cons]
      exact ⟨fun p hp => (pairsOf_mem_bounds h'.2 p hp).1, i2⟩

theorem keepOccupied_sublist (occ : Nat → Bool) (l : List (Rat × Rat)) : (keepOccupied occ l).Sublist l := by
  have h : (l.zipIdx.filter (fun p => occ p.2)).Sublist l.zipIdx := List.filter_sublist
  have := h.map Prod.fst
  simpa [keepOccupied] using this

theorem Ordered.sublist {l l' : List (Rat × Rat)} (h : Ordered l) (hs : l'.Sublist l) : Ordered l' :=
  ⟨fun p hp => h.1 p (hs.subset hp), h.2.sublist hs⟩

/-- A finite interval. -/
def finIv (p : Rat × Rat) : Interval := { left := .fin p.1, right := .fin p.2 }

theorem extendEnds_one (p : Rat × Rat) : extendEnds [p] = [⟨.ninf, .pinf⟩] := rfl

theorem extendEnds_two (p z : Rat × Rat) (mid : List (Rat × Rat)) :
    extendEnds (p :: (mid ++ [z])) = ⟨.ninf, .fin p.2⟩ :: (mid.map finIv ++ [⟨.fin z.1, .pinf⟩]) := by
  unfold extendEnds
  simp only [List.map_cons, List.map_append, List.map_nil]
  rw [← List.cons_append, List.getLast?_concat]
  simp only
  rw [← List.cons_append, List.dropLast_concat]
  rfl

/-- Either one pair, or a first, some in the middle and a last. -/
theorem pairs_cases {l : List (Rat × Rat)} (h : l ≠ []) :
    (∃ p, l = [p]) ∨ ∃ p mid z, l = p :: (mid ++ [z]) := by
  obtain ⟨p, rest, rfl⟩ := List.exists_cons_of_ne_nil h
  by_cases hr : rest = []
  · subst hr; exact Or.inl ⟨p, rfl⟩
  · exact Or.inr ⟨p, rest.dropLast, rest.getLast hr, by rw [List.dropLast_append_getLast]⟩

namespace Spec
/-- The first interval ends before the second begins. -/
def Before (iv iv' : Interval) : Prop := ∃ a b, iv.right = .fin a ∧ iv'.left = .fin b ∧ a ≤ b
end Spec

theorem extendEnds_ordered {l : List (Rat × Rat)} (h : Ordered l) : (extendEnds l).Pairwise Before := by
  by_cases hl : l = []
  · subst hl; simp [extendEnds]
  rcases pairs_cases hl with ⟨p, rfl⟩ | ⟨p, mid, z, rfl⟩
  · rw [extendEnds_one]; simp
  · rw [extendEnds_two]
    obtain ⟨h1, h2⟩ := h
    rw [List.pairwise_cons] at h2
    obtain ⟨h3, h4⟩ := h2
    rw [List.pairwise_append] at h4
    obtain ⟨h5, _, h6⟩ := h4
    rw [List.pairwise_cons, List.pairwise_append, List.pairwise_map]
    refine ⟨?_, h5.imp (fun {a b} hab => ⟨a.2, b.1, rfl, rfl, hab⟩), by simp, ?_⟩
    · intro iv hiv
      rcases List.mem_append.mp hiv with hiv | hiv
      · obtain ⟨m, hm, rfl⟩ := List.mem_map.mp hiv
        exact ⟨p.2, m.1, rfl, rfl, h3 m (List.mem_append_left _ hm)⟩
      · simp only [List.mem_singleton] at hiv
        subst hiv
        exact ⟨p.2, z.1, rfl, rfl, h3 z (by simp)⟩
    · intro iv hiv iv' hiv'
      obtain ⟨m, hm, rfl⟩ := List.mem_map.mp hiv
      simp only [List.mem_singleton] at hiv'
      subst hiv'
      exact ⟨m.2, z.1, rfl, rfl, h6 m hm z (by simp)⟩

theorem Before.lt {iv iv' : Interval} (h : Before iv iv') {q q' : Rat} (hq : Inside iv q) (hq' : Inside iv' q') :
    q < q' := by
  obtain ⟨a, b, h1, h2, h3⟩ := h
  obtain ⟨_, hq⟩ := hq
  obtain ⟨hq', _⟩ := hq'
  rw [h1] at hq
  rw [h2] at hq'
  simp only [reduceCtorEq, Ext.fin.injEq, false_or] at hq hq'
  obtain ⟨_, rfl, hq⟩ := hq
  obtain ⟨_, rfl, hq'⟩ := hq'
  linarith

/-- Which numbers the extended intervals contain. -/
theorem extendEnds_inside {l : List (Rat × Rat)} {q : Rat} :
    (∃ iv ∈ extendEnds l, Inside iv q) ↔
      ((∃ p ∈ l.head?, l.length = 1 ∨ q ≤ p.2) ∨ (∃ p ∈ l.getLast?, p.1 < q) ∨ ∃ p ∈ l, p.1 < q ∧ q ≤ p.2) := by
  by_cases hl : l = []
  · subst hl; simp [extendEnds]
  rcases pairs_cases hl with ⟨p, rfl⟩ | ⟨p, mid, z, rfl⟩
  · rw [extendEnds_one]
    simp [Inside]
  · rw [extendEnds_two]
    have hlast : (p :: (mid ++ [z])).getLast? = some z := by
      rw [← List.cons_append, List.getLast?_concat]
    have hlen : ¬ (p :: (mid ++ [z])).length = 1 := by simp
    rw [hlast]
    simp only [List.head?_cons, Option.mem_def, Option.some.injEq, exists_eq_left', hlen, false_or]
    constructor
    · rintro ⟨iv, hiv, hin⟩
      rcases List.mem_cons.mp hiv with rfl | hiv
      · simp [Inside] at hin; exact Or.inl hin
      · rcases List.mem_append.mp hiv with hiv | hiv
        · obtain ⟨m, hm, rfl⟩ := List.mem_map.mp hiv
          simp [Inside, finIv] at hin
          exact Or.inr (Or.inr ⟨m, by simp [hm], hin⟩)
        · simp only [List.mem_singleton] at hiv
          subst hiv
          simp [Inside] at hin
          exact Or.inr (Or.inl hin)
    · rintro (h | h | ⟨m, hm, h⟩)
      · exact ⟨_, List.mem_cons_self, by simp [Inside, h]⟩
      · exact ⟨⟨.fin z.1, .pinf⟩, by simp, by simp [Inside, h]⟩
      · rcases List.mem_cons.mp hm with rfl | hm
        · exact ⟨_, List.mem_cons_self, by simp [Inside, h.2]⟩
        · rcases List.mem_append.mp hm with hm | hm
          · exact ⟨finIv m, by simp [List.mem_map]; exact Or.inr (Or.inl ⟨_, _, hm, rfl⟩), by simp [Inside, finIv, h]⟩
          · simp only [List.mem_singleton] at hm
            subst hm
            exact ⟨⟨.fin m.1, .pinf⟩, by simp, by simp [Inside, h.1]⟩

/-- The numbers outside all extended intervals: those in a gap. -/
theorem extendEnds_gap {l : List (Rat × Rat)} (ho : Ordered l) (hl : l ≠ []) {q : Rat} :
    (¬ ∃ iv ∈ extendEnds l, Inside iv q) ↔
      ((∃ p ∈ l, p.2 < q) ∧ (∃ p ∈ l, q ≤ p.1) ∧ ∀ p ∈ l, ¬ (p.1 < q ∧ q ≤ p.2)) := by
  rw [extendEnds_inside]
  rcases pairs_cases hl with ⟨p, rfl⟩ | ⟨p, mid, z, rfl⟩
  · have := ho.1 p (by simp)
    simp only [List.head?_cons, Option.mem_def, Option.some.injEq, exists_eq_left', List.length_singleton, true_or,
      not_true_eq_false, List.mem_singleton, exists_eq_left, forall_eq, false_iff]
    rintro ⟨h1, h2, _⟩
    linarith
  · have hlast : (p :: (mid ++ [z])).getLast? = some z := by
      rw [← List.cons_append, List.getLast?_concat]
    have hlen : ¬ (p :: (mid ++ [z])).length = 1 := by simp
    rw [hlast]
    simp only [List.head?_cons, Option.mem_def, Option.some.injEq, exists_eq_left', hlen, false_or, not_or,
      not_le, not_lt, not_exists]
    obtain ⟨h1, h2⟩ := ho
    rw [List.pairwise_cons] at h2
    obtain ⟨h3, h4⟩ := h2
    rw [List.pairwise_append] at h4
    obtain ⟨_, _, h6⟩ := h4
    constructor
    · rintro ⟨h, h', h''⟩
      exact ⟨⟨p, by simp, h⟩, ⟨z, by simp, h'⟩, fun p hp hin => h'' p ⟨hp, hin⟩⟩
    · rintro ⟨⟨a, ha, h⟩, ⟨b, hb, h'⟩, h''⟩
      refine ⟨?_, ?_, fun p hp => h'' p hp.1 hp.2⟩
      · rcases List.mem_cons.mp ha with rfl | ha
        · exact h
        · have := h3 a ha
          have := h1 a (List.mem_cons_of_mem _ ha)
          linarith
      · rcases List.mem_cons.mp hb with rfl | hb
        · have := h3 z (by simp)
          have := h1 b (by simp)
          linarith
        · rcases List.mem_append.mp hb with hb | hb
          · have := h6 b hb z (by simp)
            have := h1 b (by simp [hb])
            linarith
          · simp only [List.mem_singleton] at hb
            rw [← hb]; exact h'

theorem mem_keepOccupied {occ : Nat → Bool} {l : List (Rat × Rat)} {p : Rat × Rat} :
    p ∈ keepOccupied occ l ↔ ∃ i, l[i]? = some p ∧ occ i = true := by
  unfold keepOccupied
  simp only [List.mem_map, List.mem_filter, Prod.exists, exists_and_right, exists_eq_right, List.mem_zipIdx_iff_getElem?]

/-- Between the first and the last break point there is always a bin. -/
theorem pairsOf_cover : ∀ {a : Rat} {l : List Rat} {q c : Rat}, a < q → c ∈ a :: l → q ≤ c →
    ∃ p ∈ pairsOf (a :: l), p.1 < q ∧ q ≤ p.2
  | a, [], q, c, h, hc, h' => by
    simp only [List.mem_singleton] at hc
    subst hc
    linarith
  | a, b :: rest, q, c, h, hc, h' => by
    by_cases hb : q ≤ b
    · exact ⟨(a, b), List.mem_cons_self, h, hb⟩
    · push Not at hb
      have : c ∈ b :: rest := by
        rcases List.mem_cons.mp hc with rfl | hc
        · linarith
        · exact hc
      obtain ⟨p, hp, h1⟩ := pairsOf_cover hb this h'
      exact ⟨p, List.mem_cons_of_mem _ hp, h1⟩

theorem pairsOf_mem_breaks : ∀ {l : List Rat} {p : Rat × Rat}, p ∈ pairsOf l → p.1 ∈ l ∧ p.2 ∈ l
  | [], p, h => by simp [pairsOf] at h
  | [a], p, h => by simp [pairsOf] at h
  | a :: b :: rest, p, h => by
    rcases List.mem_cons.mp h with rfl | h
    · simp
    · obtain ⟨h1, h2⟩ := pairsOf_mem_breaks h
      exact ⟨List.mem_cons_of_mem _ h1, List.mem_cons_of_mem _ h2⟩

theorem ordered_index {l : List (Rat × Rat)} (ho : Ordered l) {i j : Nat} {p p' : Rat × Rat}
    (hi : l[i]? = some p) (hj : l[j]? = some p') {q : Rat} (h : p.2 < q) (h' : q ≤ p'.2) : i < j := by
  rcases lt_trichotomy i j with hlt | heq | hgt
  · exact hlt
  · subst heq
    rw [hi] at hj; injection hj with hj; subst hj; linarith
  · obtain ⟨hi1, hi2⟩ := List.getElem?_eq_some_iff.mp hi
    obtain ⟨hj1, hj2⟩ := List.getElem?_eq_some_iff.mp hj
    have := List.pairwise_iff_getElem.mp ho.2 j i hj1 hi1 hgt
    rw [hi2, hj2] at this
    have := ho.1 p (List.mem_of_getElem? hi)
    linarith

namespace Spec
/-- `q` falls into a bin that was dropped (because no training row fell into it) although bins on both sides
of it were kept. -/
def InDropped (breaks : List Rat) (occ : Nat → Bool) (q : Rat) : Prop :=
  ∃ i a b, (pairsOf breaks)[i]? = some (a, b) ∧ occ i = false ∧ a < q ∧ q ≤ b ∧
    (∃ j, j < i ∧ occ j = true) ∧ ∃ k, i < k ∧ k < (pairsOf breaks).length ∧ occ k = true
end Spec

/-- Which numbers the fitted bins miss. -/
theorem gaps_of_fit {breaks : List Rat} {occ : Nat → Bool} (hb : breaks.Pairwise (· < ·))
    (hne : keepOccupied occ (pairsOf breaks) ≠ []) {q : Rat} :
    (¬ ∃ iv ∈ extendEnds (keepOccupied occ (pairsOf breaks)), Inside iv q) ↔ InDropped breaks occ q := by
  have ho := pairsOf_ordered hb
  rw [extendEnds_gap (ho.sublist (keepOccupied_sublist _ _)) hne]
  constructor
  · rintro ⟨⟨p, hp, h1⟩, ⟨z, hz, h2⟩, h3⟩
    obtain ⟨j, hj, hoj⟩ := mem_keepOccupied.mp hp
    obtain ⟨k, hk, hok⟩ := mem_keepOccupied.mp hz
    have hcov : ∃ m ∈ pairsOf breaks, m.1 < q ∧ q ≤ m.2 := by
      cases hbr : breaks with
      | nil => rw [hbr] at hj; simp [pairsOf] at hj
      | cons a l =>
        rw [hbr] at hj hk hb
        have hp' := pairsOf_mem_bounds hb p (List.mem_of_getElem? hj)
        exact pairsOf_cover (by linarith) (pairsOf_mem_breaks (List.mem_of_getElem? hk)).1 h2
    obtain ⟨m, hm, hm1, hm2⟩ := hcov
    obtain ⟨i, hi⟩ := List.mem_iff_getElem?.mp hm
    have hoi : occ i = false := by
      rw [← Bool.not_eq_true]
      intro h
      exact h3 m (mem_keepOccupied.mpr ⟨i, hi, h⟩) ⟨hm1, hm2⟩
    refine ⟨i, m.1, m.2, hi, hoi, hm1, hm2, ⟨j, ordered_index ho hj hi h1 hm2, hoj⟩, k, ?_, ?_, hok⟩
    · rcases lt_trichotomy i k with hlt | heq | hgt
      · exact hlt
      · subst heq; rw [hok] at hoi; cases hoi
      · obtain ⟨hi1, hi2⟩ := List.getElem?_eq_some_iff.mp hi
        obtain ⟨hk1, hk2⟩ := List.getElem?_eq_some_iff.mp hk
        have := List.pairwise_iff_getElem.mp ho.2 k i hk1 hi1 hgt
        rw [hi2, hk2] at this
        have := ho.1 z (List.mem_of_getElem? hk)
        linarith
    · exact (List.getElem?_eq_some_iff.mp hk).1
  · rintro ⟨i, a, b, hi, hoi, h1, h2, ⟨j, hji, hoj⟩, k, hik, hk, hok⟩
    obtain ⟨hi1, hi2⟩ := List.getElem?_eq_some_iff.mp hi
    have hjl : j < (pairsOf breaks).length := by omega
    have hJ := List.pairwise_iff_getElem.mp ho.2 j i hjl hi1 hji
    have hK := List.pairwise_iff_getElem.mp ho.2 i k hi1 hk hik
    rw [hi2] at hJ hK
    refine ⟨⟨_, mem_keepOccupied.mpr ⟨j, List.getElem?_eq_getElem hjl, hoj⟩, by simp only at hJ; linarith⟩,
      ⟨_, mem_keepOccupied.mpr ⟨k, List.getElem?_eq_getElem hk, hok⟩, by simp only at hK; linarith⟩, ?_⟩
    intro p hp hin
    obtain ⟨m, hm, hom⟩ := mem_keepOccupied.mp hp
    have hne : m ≠ i := by rintro rfl; rw [hom] at hoi; cases hoi
    obtain ⟨hm1, hm2⟩ := List.getElem?_eq_some_iff.mp hm
    rcases lt_or_gt_of_ne hne with hlt | hgt
    · have := List.pairwise_iff_getElem.mp ho.2 m i hm1 hi1 hlt
      rw [hi2, hm2] at this
      simp only at this
      linarith [hin.2]
    · have := List.pairwise_iff_getElem.mp ho.2 i m hi1 hm1 hgt
      rw [hi2, hm2] at this
      simp only at this
      linarith [hin.1]

end Witt
