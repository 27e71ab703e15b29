import Verif.Lemmas.Transform
/-
Properties of a fitted BinTransformer: C48 (bins partition), C49 (inclusive upper bounds),
C51 (idempotence).
-/
namespace Witt
open Spec

namespace Spec
/-- `q` lies between two neighbouring break points, in a bin that no training row fell into, with occupied bins on both sides. -/
def InEmptyBin (breaks : List Rat) (occ : Nat → Bool) (q : Rat) : Prop :=
  ∃ i a b, breaks[i]? = some a ∧ breaks[i + 1]? = some b ∧ occ i = false ∧ a < q ∧ q ≤ b ∧
    (∃ j < i, occ j = true) ∧ ∃ k > i, k + 1 < breaks.length ∧ occ k = true

/-- The column of a frame. -/
def column (df : TFrame) (f : Feat) : List Val := df.rows.map (·.cell f)
end Spec

theorem pairsOf_get : ∀ (l : List Rat) (i : Nat) (p : Rat × Rat),
    (pairsOf l)[i]? = some p ↔ l[i]? = some p.1 ∧ l[i + 1]? = some p.2
  | [], i, p => by simp [pairsOf]
  | [a], i, p => by cases i <;> simp [pairsOf]
  | a :: b :: rest, 0, p => by
    obtain ⟨x, y⟩ := p
    simp [pairsOf]
  | a :: b :: rest, i + 1, p => by
    rw [pairsOf]
    simpa using pairsOf_get (b :: rest) i p

theorem pairsOf_length : ∀ (l : List Rat), (pairsOf l).length = l.length - 1
  | [] => rfl
  | [_] => rfl
  | _ :: b :: rest => by
    rw [pairsOf, List.length_cons, pairsOf_length (b :: rest)]
    simp

theorem inDropped_iff {breaks : List Rat} {occ : Nat → Bool} {q : Rat} :
    InDropped breaks occ q ↔ InEmptyBin breaks occ q := by
  unfold InDropped InEmptyBin
  constructor
  · rintro ⟨i, a, b, h, h1, h2, h3, ⟨j, h4, h5⟩, k, h6, h7, h8⟩
    rw [pairsOf_get] at h
    rw [pairsOf_length] at h7
    exact ⟨i, a, b, h.1, h.2, h1, h2, h3, ⟨j, h4, h5⟩, k, h6, by omega, h8⟩
  · rintro ⟨i, a, b, ha, hb, h1, h2, h3, ⟨j, h4, h5⟩, k, h6, h7, h8⟩
    refine ⟨i, a, b, (pairsOf_get _ _ _).mpr ⟨ha, hb⟩, h1, h2, h3, ⟨j, h4, h5⟩, k, h6, ?_, h8⟩
    rw [pairsOf_length]; omega

theorem fit_mem {F : PyFloat} {P : PandasCut} {n : Option Nat} {df : TFrame} {ignore : List Feat} {f : Feat}
    {labels : List PStr} (h : (f, labels) ∈ (Binner.fit F P n df ignore).bins) :
    f ∈ df.cols ∧ f ∉ ignore ∧ df.kind f = .number ∧ 2 ≤ labels.length ∧
      labels = fitFeat F P (n.getD 0) (column df f) := by
  simp only [Binner.fit, List.mem_filterMap] at h
  obtain ⟨f', hf', h⟩ := h
  split at h
  · rename_i hlen
    simp only [Option.some.injEq, Prod.mk.injEq] at h
    obtain ⟨rfl, rfl⟩ := h
    refine ⟨?_, ?_, ?_, hlen, rfl⟩ <;>
    · unfold continuousFeats at hf'
      split at hf'
      · simp at hf'
      · simp at hf'
      · simp only [List.mem_filter, Bool.and_eq_true, beq_iff_eq, decide_eq_true_eq, Bool.not_eq_true',
          List.contains_eq_mem, decide_eq_false_iff_not] at hf'
        tauto
  · cases h

theorem fit_keys_nodup {F : PyFloat} {P : PandasCut} {n : Option Nat} {df : TFrame} {ignore : List Feat}
    (hc : df.cols.Nodup) : ((Binner.fit F P n df ignore).bins.map Prod.fst).Nodup := by
  have hsub : ((Binner.fit F P n df ignore).bins.map Prod.fst).Sublist (continuousFeats n df ignore) := by
    simp only [Binner.fit]
    generalize continuousFeats n df ignore = l
    induction l with
    | nil => simp
    | cons a l ih =>
      simp only [List.filterMap_cons]
      split
      · exact ih.cons _
      · rename_i b hb
        split at hb
        · simp only [Option.some.injEq] at hb
          subst hb
          exact ih.cons_cons _
        · cases hb
  refine List.Nodup.sublist hsub ?_
  unfold continuousFeats
  split
  · simp
  · simp
  · exact hc.filter _

/-- Ends of the extended intervals are proper. -/
theorem extendEnds_proper {F : PyFloat} {l : List (Rat × Rat)} (h : ∀ p ∈ l, F.Rep p.1 ∧ F.Rep p.2) :
    ∀ iv ∈ extendEnds l, Proper F iv := by
  intro iv hiv
  by_cases hl : l = []
  · subst hl; simp [extendEnds] at hiv
  rcases pairs_cases hl with ⟨p, rfl⟩ | ⟨p, mid, z, rfl⟩
  · rw [extendEnds_one] at hiv
    simp only [List.mem_singleton] at hiv
    subst hiv
    exact ⟨Or.inl rfl, Or.inl rfl⟩
  · rw [extendEnds_two] at hiv
    rcases List.mem_cons.mp hiv with rfl | hiv
    · exact ⟨Or.inl rfl, Or.inr ⟨_, rfl, (h p (by simp)).2⟩⟩
    · rcases List.mem_append.mp hiv with hiv | hiv
      · obtain ⟨m, hm, rfl⟩ := List.mem_map.mp hiv
        exact ⟨Or.inr ⟨_, rfl, (h m (by simp [hm])).1⟩, Or.inr ⟨_, rfl, (h m (by simp [hm])).2⟩⟩
      · simp only [List.mem_singleton] at hiv
        subst hiv
        exact ⟨Or.inr ⟨_, rfl, (h z (by simp)).1⟩, Or.inl rfl⟩

theorem mapM_text {F : PyFloat} (hF : F.Lawful) {ivs : List Interval} (h : ∀ iv ∈ ivs, Proper F iv) :
    (ivs.map (intervalText F)).mapM (textInterval F) = .ok ivs := by
  have h1 : (ivs.map (intervalText F)).mapM (textInterval F) = ivs.mapM (fun iv => textInterval F (intervalText F iv)) := by
    rw [List.mapM_map]
    rfl
  rw [h1, mapM_ok (g := id) (fun iv hiv => C50_label_denotes_interval F hF iv (h iv hiv))]
  simp

namespace Spec
/-- `ivs` is the list of ranges that the labels of a fitted column stand for. -/
def Ranges (F : PyFloat) (labels : List PStr) (ivs : List Interval) : Prop :=
  labels.mapM (textInterval F) = .ok ivs ∧ ivs.length = labels.length
end Spec

theorem fit_ranges {F : PyFloat} (hF : F.Lawful) {P : PandasCut} (hP : P.Lawful F) {n : Option Nat} {df : TFrame}
    {ignore : List Feat} {f : Feat} {labels : List PStr} (h : (f, labels) ∈ (Binner.fit F P n df ignore).bins) :
    Ranges F labels (extendEnds (keepOccupied (P.occupied (column df f) (n.getD 0)) (pairsOf (P.breaks (column df f) (n.getD 0))))) := by
  obtain ⟨_, _, _, _, hl⟩ := fit_mem h
  rw [hl]
  constructor
  · apply mapM_text hF
    apply extendEnds_proper
    intro p hp
    have := pairsOf_mem_breaks ((keepOccupied_sublist _ _).subset hp)
    exact ⟨hP.rep _ _ _ this.1, hP.rep _ _ _ this.2⟩
  · simp [fitFeat]

/-- C48. The labels of every fitted column are readable as ranges; there are at least two, they follow each
other without overlapping, and every number lies in exactly one of them, unless it falls into an empty
interior bin of the training data, in which case it lies in none. -/
theorem C48_bins_partition (F : PyFloat) (hF : F.Lawful) (P : PandasCut) (hP : P.Lawful F) (n : Option Nat)
    (df : TFrame) (ignore : List Feat) (f : Feat) (labels : List PStr)
    (h : (f, labels) ∈ (Binner.fit F P n df ignore).bins) :
    ∃ ivs, Ranges F labels ivs ∧ 2 ≤ ivs.length ∧ ivs.Pairwise Before ∧
      ∀ q, (InEmptyBin (P.breaks (column df f) (n.getD 0)) (P.occupied (column df f) (n.getD 0)) q ∧
              ∀ iv ∈ ivs, ¬ Inside iv q) ∨
           (¬ InEmptyBin (P.breaks (column df f) (n.getD 0)) (P.occupied (column df f) (n.getD 0)) q ∧
              ∃! i : Nat, ∃ iv, ivs[i]? = some iv ∧ Inside iv q) := by
  obtain ⟨_, _, _, hlen, _⟩ := fit_mem h
  have hr := fit_ranges hF hP h
  have hinc := hP.increasing (column df f) (n.getD 0)
  generalize hb : P.breaks (column df f) (n.getD 0) = breaks at *
  generalize ho : P.occupied (column df f) (n.getD 0) = occ at *
  generalize hiv : extendEnds (keepOccupied occ (pairsOf breaks)) = ivs at *
  have hpw : ivs.Pairwise Before := by
    rw [← hiv]; exact extendEnds_ordered ((pairsOf_ordered hinc).sublist (keepOccupied_sublist _ _))
  refine ⟨ivs, hr, by rw [hr.2]; exact hlen, hpw, ?_⟩
  intro q
  have hne : keepOccupied occ (pairsOf breaks) ≠ [] := by
    intro h0
    rw [h0] at hiv
    have : ivs = [] := by rw [← hiv]; rfl
    have h2 := hr.2
    rw [this] at h2
    simp at h2; omega
  have hgap := gaps_of_fit hinc hne (q := q)
  rw [hiv, inDropped_iff] at hgap
  by_cases hin : ∃ iv ∈ ivs, Inside iv q
  · right
    refine ⟨fun h => (hgap.mpr h) hin, ?_⟩
    obtain ⟨iv, hiv', hq⟩ := hin
    obtain ⟨i, hi⟩ := List.mem_iff_getElem?.mp hiv'
    refine ⟨i, ⟨iv, hi, hq⟩, ?_⟩
    rintro j ⟨iv', hj, hq'⟩
    obtain ⟨hi1, hi2⟩ := List.getElem?_eq_some_iff.mp hi
    obtain ⟨hj1, hj2⟩ := List.getElem?_eq_some_iff.mp hj
    rcases lt_trichotomy j i with hlt | heq | hgt
    · have := List.pairwise_iff_getElem.mp hpw j i hj1 hi1 hlt
      rw [hi2, hj2] at this
      exact absurd (Before.lt this hq' hq) (lt_irrefl _)
    · exact heq
    · have := List.pairwise_iff_getElem.mp hpw i j hi1 hj1 hgt
      rw [hi2, hj2] at this
      exact absurd (Before.lt this hq hq') (lt_irrefl _)
  · left
    exact ⟨hgap.mp hin, fun iv h1 h2 => hin ⟨iv, h1, h2⟩⟩

/-- C48. If no bin of the training data was left empty, the bins partition the number line. -/
theorem C48_bins_partition_full (F : PyFloat) (hF : F.Lawful) (P : PandasCut) (hP : P.Lawful F) (n : Option Nat)
    (df : TFrame) (ignore : List Feat) (f : Feat) (labels : List PStr)
    (h : (f, labels) ∈ (Binner.fit F P n df ignore).bins)
    (hocc : ∀ i, i + 1 < (P.breaks (column df f) (n.getD 0)).length → P.occupied (column df f) (n.getD 0) i = true) :
    ∃ ivs, Ranges F labels ivs ∧ 2 ≤ ivs.length ∧ ∀ q, ∃! i : Nat, ∃ iv, ivs[i]? = some iv ∧ Inside iv q := by
  obtain ⟨ivs, h1, h2, _, h3⟩ := C48_bins_partition F hF P hP n df ignore f labels h
  refine ⟨ivs, h1, h2, fun q => ?_⟩
  rcases h3 q with ⟨⟨i, a, b, _, hb, ho, _⟩, _⟩ | ⟨_, h⟩
  · have := hocc i (List.getElem?_eq_some_iff.mp hb).1
    rw [ho] at this; cases this
  · exact h

theorem find_zip {ivs : List Interval} {labels : List PStr} {q : Rat} {i : Nat} {iv : Interval} {l : PStr}
    (hi : ivs[i]? = some iv) (hl : labels[i]? = some l) (hq : Inside iv q)
    (hu : ∀ j iv', ivs[j]? = some iv' → Inside iv' q → j = i) :
    (ivs.zip labels).find? (fun p => p.1.has q) = some (iv, l) := by
  obtain ⟨hi1, hi2⟩ := List.getElem?_eq_some_iff.mp hi
  obtain ⟨hl1, hl2⟩ := List.getElem?_eq_some_iff.mp hl
  rw [List.find?_eq_some_iff_getElem]
  refine ⟨Interval.has_iff.mpr hq, i, by simp only [List.length_zip]; omega, by simp [hi2, hl2], ?_⟩
  intro j hj
  rw [Bool.not_eq_true', ← Bool.not_eq_true, Interval.has_iff, List.getElem_zip]
  intro hin
  have := hu j _ (List.getElem?_eq_getElem (by omega)) hin
  omega

theorem cutCell_outside {ivs : List Interval} {labels : List PStr} {q : Rat} {t : PStr}
    (hu : ∀ iv ∈ ivs, ¬ Inside iv q) : cutCell (ivs.zip labels) (.num q t) = .nan := by
  have : (ivs.zip labels).find? (fun p => p.1.has q) = none := by
    rw [List.find?_eq_none]
    rintro ⟨iv, l⟩ hp
    rw [Interval.has_iff]
    exact hu iv (List.of_mem_zip hp).1
  simp only [cutCell, this]

/-- A fitted transformer maps each fitted, not yet transformed column cell by cell. -/
theorem fit_featTransform {F : PyFloat} {P : PandasCut} {n : Option Nat} {df : TFrame} {ignore : List Feat}
    {f : Feat} {labels : List PStr} {ivs : List Interval} (hr : Ranges F labels ivs) :
    featTransform F (Binner.fit F P n df ignore) f labels = .ok (cutCell (ivs.zip labels)) := by
  simp only [featTransform, Binner.fit, List.lookup_nil, hr.1, ok_bind, pure_eq_ok]

/-- `transform` on a frame: either some text column has foreign values (ValueError), or it succeeds. -/
theorem fit_transform_total {F : PyFloat} (hF : F.Lawful) {P : PandasCut} (hP : P.Lawful F) {n : Option Nat}
    {df : TFrame} {ignore : List Feat} {X : TFrame} (hb : ¬ BadText (Binner.fit F P n df ignore) X) :
    ∃ X', (Binner.fit F P n df ignore).transform F X = .ok X' := by
  unfold Binner.transform
  rw [findTransformed_eq, if_neg hb, ok_bind]
  exact transformLoop_total (fun f labels h => ⟨_, fit_featTransform (fit_ranges hF hP h)⟩)

/-- The result of `transform`. -/
theorem transform_ok {F : PyFloat} {b : Binner} (hnd : (b.bins.map Prod.fst).Nodup) {X X' : TFrame}
    (h : b.transform F X = .ok X') :
    ¬ BadText b X ∧ ∃ G K, X' = X.mapAll G K ∧
      (∀ f, (f ∉ b.bins.map Prod.fst ∨ f ∉ X.cols ∨ X.kind f = .text) → (∀ v, G f v = v) ∧ K f = X.kind f) ∧
      ∀ f labels, (f, labels) ∈ b.bins → f ∈ X.cols → X.kind f ≠ .text →
        featTransform F b f labels = .ok (G f) ∧ K f = .text := by
  unfold Binner.transform at h
  rw [findTransformed_eq] at h
  by_cases hb : BadText b X
  · rw [if_pos hb] at h; cases h
  · rw [if_neg hb, ok_bind] at h
    obtain ⟨G, K, h1, h2, h3⟩ := transformLoop_ok hnd h
    refine ⟨hb, G, K, h1, ?_, ?_⟩
    · intro f hf
      apply h2
      rw [mem_transformedFeats]
      tauto
    · intro f labels hf hc hk
      exact h3 f labels hf hc (by rw [mem_transformedFeats]; tauto)

theorem column_mapAll {X : TFrame} {G : Feat → Val → Val} {K : Feat → Kind} (f : Feat) :
    column (X.mapAll G K) f = (column X f).map (G f) := by
  simp [column, TFrame.mapAll]

/-- C48, at the level of `transform`. Transforming new data with a fitted transformer succeeds unless a
fitted column already holds foreign text; in every fitted numeric column a number becomes the label of the
range it lies in, or missing if it lies in none, and a missing cell stays missing. -/
theorem C48_transform (F : PyFloat) (hF : F.Lawful) (P : PandasCut) (hP : P.Lawful F) (n : Option Nat)
    (df X : TFrame) (ignore : List Feat) (hc : df.cols.Nodup)
    (hX : ¬ BadText (Binner.fit F P n df ignore) X) :
    ∃ X', (Binner.fit F P n df ignore).transform F X = .ok X' ∧
      ∀ f labels, (f, labels) ∈ (Binner.fit F P n df ignore).bins → f ∈ X.cols → X.kind f = .number →
        ∃ ivs g, Ranges F labels ivs ∧ column X' f = (column X f).map g ∧ g .nan = .nan ∧
          ∀ q t, (∃ (i : Nat) (iv : Interval) (l : PStr), ivs[i]? = some iv ∧ labels[i]? = some l ∧ Inside iv q ∧ g (.num q t) = .str l) ∨
                 ((∀ iv ∈ ivs, ¬ Inside iv q) ∧ g (.num q t) = .nan) := by
  obtain ⟨X', h⟩ := fit_transform_total hF hP hX
  refine ⟨X', h, ?_⟩
  obtain ⟨_, G, K, h1, _, h3⟩ := transform_ok (fit_keys_nodup hc) h
  intro f labels hf hfc hk
  obtain ⟨hg, _⟩ := h3 f labels hf hfc (by rw [hk]; decide)
  obtain ⟨ivs, hr, _, _, hpart⟩ := C48_bins_partition F hF P hP n df ignore f labels hf
  rw [fit_featTransform hr] at hg
  injection hg with hg
  refine ⟨ivs, G f, hr, by rw [h1, column_mapAll], by rw [← hg]; rfl, ?_⟩
  intro q t
  rw [← hg]
  rcases hpart q with ⟨_, hout⟩ | ⟨_, i, ⟨iv, hi, hin⟩, hu⟩
  · exact Or.inr ⟨hout, cutCell_outside hout⟩
  · left
    have hil : i < labels.length := by rw [← hr.2]; exact (List.getElem?_eq_some_iff.mp hi).1
    refine ⟨i, iv, labels[i], hi, List.getElem?_eq_getElem hil, hin, ?_⟩
    simp only [cutCell, find_zip hi (List.getElem?_eq_getElem hil) hin (fun j iv' hj hq => hu j ⟨iv', hj, hq⟩)]

/-- C48, monotone: in a fitted column a larger number never gets an earlier label. -/
theorem C48_transform_monotone (F : PyFloat) (hF : F.Lawful) (P : PandasCut) (hP : P.Lawful F) (n : Option Nat)
    (df : TFrame) (ignore : List Feat) (f : Feat) (labels : List PStr)
    (h : (f, labels) ∈ (Binner.fit F P n df ignore).bins) :
    ∃ ivs, Ranges F labels ivs ∧ ∀ (i j : Nat) (iv iv' : Interval) (q q' : Rat), ivs[i]? = some iv → ivs[j]? = some iv' → Inside iv q →
      Inside iv' q' → q ≤ q' → i ≤ j := by
  obtain ⟨ivs, hr, _, hpw, _⟩ := C48_bins_partition F hF P hP n df ignore f labels h
  refine ⟨ivs, hr, ?_⟩
  intro i j iv iv' q q' hi hj hq hq' hle
  by_contra hlt
  push Not at hlt
  obtain ⟨hi1, hi2⟩ := List.getElem?_eq_some_iff.mp hi
  obtain ⟨hj1, hj2⟩ := List.getElem?_eq_some_iff.mp hj
  have := List.pairwise_iff_getElem.mp hpw j i hj1 hi1 hlt
  rw [hi2, hj2] at this
  have := Before.lt this hq' hq
  linarith

namespace Demo
/-- A skewed numeric column: six ones, a 2, a 3 and a 25. -/
def skewed : TFrame :=
  { Frame.ofTable [fa] ([1, 1, 1, 1, 1, 1, 2, 3, 25].zipIdx.map (fun p => ((p.2 : Int), [Val.num p.1 p!"x"]))) with
    kind := fun _ => .number }
/-- The break points of `pd.cut` with three bins (rounded to whole numbers); a bin is occupied if some value lies in it. -/
def P : PandasCut where
  breaks _ _ := [0, 9, 17, 25]
  occupied vs _ i := vs.any (fun v => match v, ([0, 9, 17] : List Rat)[i]?, ([9, 17, 25] : List Rat)[i]? with
    | .num q _, some a, some b => a < q && q ≤ b
    | _, _, _ => false)
theorem P_lawful : P.Lawful F where
  increasing _ _ := by show List.Pairwise _ [(0 : Rat), 9, 17, 25]; decide +kernel
  rep _ _ q hq := by
    simp only [P, List.mem_cons, List.not_mem_nil, or_false] at hq
    rcases hq with rfl | rfl | rfl | rfl <;> rfl
/-- New data: the number 12 and the number 9. -/
def fresh : TFrame :=
  { Frame.ofTable [fa] [(0, [Val.num 12 p!"12"]), (1, [Val.num 9 p!"9"])] with kind := fun _ => .number }
/-- What transform makes of a column. -/
def transformed (b : Binner) (X : TFrame) (f : Feat) : Except PyErr (List Val) := do
  return ((← b.transform F X).rows.map (·.cell f))
end Demo

example : (Binner.fit Demo.F Demo.P (some 3) Demo.skewed []).bins = [(Demo.fa, [p!"<9.0", p!">17.0"])] ∧
    Demo.skewed.cols.Nodup := by decide +kernel

example : ¬ BadText (Binner.fit Demo.F Demo.P (some 3) Demo.skewed []) Demo.fresh := by
  rintro ⟨f, l, h1, h2, h3, _⟩
  exact absurd h3 (by simp [Demo.fresh])

/-- C48: the bins need not cover the number line. On skewed training data the middle bin has no rows and is
dropped, and a number there (12) is turned into a missing value by `transform`. -/
theorem C48_refuted_empty_bin_dropped :
    Demo.F.Lawful ∧ Demo.P.Lawful Demo.F ∧
    (Binner.fit Demo.F Demo.P (some 3) Demo.skewed []).bins = [(Demo.fa, [p!"<9.0", p!">17.0"])] ∧
    Demo.transformed (Binner.fit Demo.F Demo.P (some 3) Demo.skewed []) Demo.fresh Demo.fa =
      .ok [.nan, .str p!"<9.0"] :=
  ⟨Demo.F_lawful, Demo.P_lawful, by decide +kernel, by decide +kernel⟩

/-! ### C49 -/

/-- C49, pandas engine (the one the classifiers use): a number equal to the upper bound of a fitted bin is
given that bin's label. -/
theorem C49_upper_bound_inclusive_pandas (F : PyFloat) (hF : F.Lawful) (P : PandasCut) (hP : P.Lawful F)
    (n : Option Nat) (df X : TFrame) (ignore : List Feat) (hc : df.cols.Nodup)
    (hX : ¬ BadText (Binner.fit F P n df ignore) X) (f : Feat) (labels : List PStr)
    (hf : (f, labels) ∈ (Binner.fit F P n df ignore).bins) (hfX : f ∈ X.cols) (hk : X.kind f = .number) :
    ∃ X' ivs g, (Binner.fit F P n df ignore).transform F X = .ok X' ∧ Ranges F labels ivs ∧
      column X' f = (column X f).map g ∧
      ∀ (i : Nat) (iv : Interval) (b : Rat) (t : PStr), ivs[i]? = some iv → iv.right = .fin b →
        ∃ l, labels[i]? = some l ∧ g (.num b t) = .str l := by
  obtain ⟨X', h1, h2⟩ := C48_transform F hF P hP n df X ignore hc hX
  obtain ⟨ivs, g, hr, hg, _, h3⟩ := h2 f labels hf hfX hk
  refine ⟨X', ivs, g, h1, hr, hg, ?_⟩
  intro i iv b t hi hb
  obtain ⟨ivs', hr', _, hpw, hpart⟩ := C48_bins_partition F hF P hP n df ignore f labels hf
  have : ivs' = ivs := by have := hr.1; rw [hr'.1] at this; injection this
  subst this
  have hord : Ordered (keepOccupied (P.occupied (column df f) (n.getD 0)) (pairsOf (P.breaks (column df f) (n.getD 0)))) :=
    (pairsOf_ordered (hP.increasing _ _)).sublist (keepOccupied_sublist _ _)
  have hfr := fit_ranges hF hP hf
  have heq : ivs' = extendEnds (keepOccupied (P.occupied (column df f) (n.getD 0))
      (pairsOf (P.breaks (column df f) (n.getD 0)))) := by
    have := hfr.1; rw [hr'.1] at this; injection this
  have hin : Inside iv b := by
    refine ⟨?_, Or.inr ⟨b, hb, le_refl _⟩⟩
    have hmem : iv ∈ ivs' := List.mem_of_getElem? hi
    rw [heq] at hmem
    generalize keepOccupied (P.occupied (column df f) (n.getD 0)) (pairsOf (P.breaks (column df f) (n.getD 0))) = l at *
    by_cases hl : l = []
    · subst hl; simp [extendEnds] at hmem
    rcases pairs_cases hl with ⟨p, rfl⟩ | ⟨p, mid, z, rfl⟩
    · rw [extendEnds_one] at hmem
      simp only [List.mem_singleton] at hmem
      subst hmem; exact Or.inl rfl
    · rw [extendEnds_two] at hmem
      rcases List.mem_cons.mp hmem with rfl | hmem
      · exact Or.inl rfl
      · rcases List.mem_append.mp hmem with hmem | hmem
        · obtain ⟨m, hm, rfl⟩ := List.mem_map.mp hmem
          simp only [finIv, Ext.fin.injEq] at hb
          exact Or.inr ⟨m.1, rfl, by rw [← hb]; exact hord.1 m (by simp [hm])⟩
        · simp only [List.mem_singleton] at hmem
          subst hmem
          cases hb
  rcases h3 b t with ⟨j, iv', l, hj, hl, hin', hgl⟩ | ⟨hout, _⟩
  · have : j = i := by
      rcases hpart b with ⟨_, hout⟩ | ⟨_, hu⟩
      · exact absurd hin (hout iv (List.mem_of_getElem? hi))
      · exact hu.unique ⟨iv', hj, hin'⟩ ⟨iv, hi, hin⟩
    subst this
    exact ⟨l, hl, hgl⟩
  · exact absurd hin (hout iv (List.mem_of_getElem? hi))

theorem countP_le_of_increasing : ∀ {ts : List Rat} (_ : ts.Pairwise (· < ·)) {q : Rat} {m : Nat},
    (∀ i t, ts[i]? = some t → (t ≤ q ↔ i < m)) → m ≤ ts.length → ts.countP (fun t => decide (t ≤ q)) = m
  | [], _, q, m, _, h2 => by simp at h2; simp [h2]
  | a :: ts, hp, q, m, h, h2 => by
    rw [List.countP_cons]
    cases m with
    | zero =>
      have h0 : ¬ a ≤ q := by rw [h 0 a rfl]; omega
      have : ts.countP (fun t => decide (t ≤ q)) = 0 :=
        countP_le_of_increasing (List.pairwise_cons.mp hp).2
          (fun i t hi => by rw [h (i + 1) t (by simpa using hi)]; omega) (by omega)
      simp [this, h0]
    | succ m =>
      have h0 : a ≤ q := by rw [h 0 a rfl]; omega
      have : ts.countP (fun t => decide (t ≤ q)) = m :=
        countP_le_of_increasing (List.pairwise_cons.mp hp).2
          (fun i t hi => by rw [h (i + 1) t (by simpa using hi)]; omega) (by simpa using h2)
      simp [this, h0]

theorem increasing_index {ts : List Rat} (h : ts.Pairwise (· < ·)) {i j : Nat} {a b : Rat} (hi : ts[i]? = some a)
    (hj : ts[j]? = some b) : a ≤ b ↔ i ≤ j := by
  obtain ⟨hi1, rfl⟩ := List.getElem?_eq_some_iff.mp hi
  obtain ⟨hj1, rfl⟩ := List.getElem?_eq_some_iff.mp hj
  rcases lt_trichotomy i j with hlt | heq | hgt
  · have := List.pairwise_iff_getElem.mp h i j hi1 hj1 hlt
    constructor
    · intro _; omega
    · intro _; linarith
  · subst heq; simp
  · have := List.pairwise_iff_getElem.mp h j i hj1 hi1 hgt
    constructor
    · intro h'; linarith
    · intro h'; omega

/-- The extended intervals between thresholds, one by one. -/
theorem extendEnds_get {ts : List Rat} {i : Nat} {a b : Rat} (ha : ts[i]? = some a)
    (hb : ts[i + 1]? = some b) :
    (extendEnds (pairsOf ts))[i]? = some
      { left := if i = 0 then .ninf else .fin a, right := if i + 2 = ts.length then .pinf else .fin b } := by
  have hp := (pairsOf_get ts i (a, b)).mpr ⟨ha, hb⟩
  have hlen : (pairsOf ts).length = ts.length - 1 := pairsOf_length ts
  obtain ⟨hi, _⟩ := List.getElem?_eq_some_iff.mp hp
  have hne : pairsOf ts ≠ [] := by intro h; rw [h] at hi; simp at hi
  rcases pairs_cases hne with ⟨p, h⟩ | ⟨p, mid, z, h⟩
  · rw [h] at hp hlen ⊢
    rw [extendEnds_one]
    cases i with
    | zero =>
      have : 0 + 2 = ts.length := by simp at hlen; omega
      rw [if_pos this]
      simp
    | succ i => simp at hp
  · rw [h] at hp hlen ⊢
    rw [extendEnds_two]
    cases i with
    | zero =>
      have : ¬ 0 + 2 = ts.length := by simp at hlen; omega
      rw [if_neg this]
      simp only [List.getElem?_cons_zero, Option.some.injEq] at hp
      simp [hp]
    | succ i =>
      simp only [List.getElem?_cons_succ] at hp ⊢
      by_cases hi' : i < mid.length
      · have : ¬ i + 1 + 2 = ts.length := by simp at hlen; omega
        rw [List.getElem?_append_left hi'] at hp
        rw [if_neg this, List.getElem?_append_left (by simpa using hi'), List.getElem?_map, hp]
        simp [finIv]
      · have hii : i = mid.length := by
          have := (List.getElem?_eq_some_iff.mp hp).1
          simp at this; omega
        subst hii
        have : mid.length + 1 + 2 = ts.length := by simp at hlen; omega
        rw [if_pos this, List.getElem?_append_right (by simp)]
        rw [List.getElem?_append_right (by simp)] at hp
        simp only [Nat.sub_self, List.getElem?_cons_zero, Option.some.injEq] at hp
        simp [hp]

/-- The labels the numpy engine fits, one by one. -/
theorem numpy_label {F : PyFloat} {ts : List Rat} {i : Nat} {a b : Rat} (ha : ts[i]? = some a)
    (hb : ts[i + 1]? = some b) :
    (fitFeatNumpy F ts).1[i]? = some (intervalText F
      { left := if i = 0 then .ninf else .fin a, right := if i + 2 = ts.length then .pinf else .fin b }) := by
  simp only [fitFeatNumpy, List.getElem?_map, extendEnds_get ha hb, Option.map_some]

/-- C49, numpy engine, what it does: with increasing thresholds, a number is given the bin whose lower
threshold is the last one at or below it (the first bin below all thresholds, the last above all). -/
theorem C49_numpy_placement (F : PyFloat) (ts : List Rat) (hts : ts.Pairwise (· < ·)) (q : Rat) (t : PStr)
    (i : Nat) (a b : Rat) (ha : ts[i]? = some a) (hb : ts[i + 1]? = some b)
    (h1 : i = 0 ∨ a ≤ q) (h2 : i + 2 = ts.length ∨ q < b) :
    ∃ l, (fitFeatNumpy F ts).1[i]? = some l ∧ digitizeCell ts (fitFeatNumpy F ts).1 (.num q t) = .str l := by
  have hl := numpy_label (F := F) ha hb
  refine ⟨_, hl, ?_⟩
  have hib : i + 1 < ts.length := (List.getElem?_eq_some_iff.mp hb).1
  have hlen : (fitFeatNumpy F ts).1.length = ts.length - 1 := by
    simp only [fitFeatNumpy, List.length_map]
    have hpl := pairsOf_length ts
    have hne : pairsOf ts ≠ [] := by intro h; rw [h] at hpl; simp at hpl; omega
    rcases pairs_cases hne with ⟨p, h⟩ | ⟨p, mid, z, h⟩
    · rw [h] at hpl ⊢; rw [extendEnds_one]; simpa using hpl
    · rw [h] at hpl ⊢; rw [extendEnds_two]; simpa using hpl
  have hidx : min (max (digitize ts (.num q t)) 1) (fitFeatNumpy F ts).1.length - 1 = i := by
    rw [hlen]
    have hmono : ∀ j c, ts[j]? = some c → i + 2 ≤ j → j + 0 < ts.length → b < c := by
      intro j c hj hij _
      have := (increasing_index hts hj hb).not
      push Not at this
      exact this.mpr (by omega)
    have hle : ∀ j c, ts[j]? = some c → j ≤ i → c ≤ a := fun j c hj hij => (increasing_index hts hj ha).mpr hij
    simp only [digitize]
    rcases h1 with rfl | h1
    · rcases h2 with h2 | h2
      · have : ts.countP (fun t => decide (t ≤ q)) ≤ ts.length := List.countP_le_length
        omega
      · -- below b: count is 0 or 1
        by_cases haq : a ≤ q
        · have : ts.countP (fun t => decide (t ≤ q)) = 1 := by
            apply countP_le_of_increasing hts _ (by omega)
            intro j c hj
            constructor
            · intro hc
              by_contra hj1
              have := (increasing_index hts hb hj).mpr (by omega)
              linarith
            · intro hj0
              have := hle j c hj (by omega)
              linarith
          omega
        · have : ts.countP (fun t => decide (t ≤ q)) = 0 := by
            apply countP_le_of_increasing hts _ (by omega)
            intro j c hj
            constructor
            · intro hc
              have := (increasing_index hts ha hj).mpr (by omega)
              linarith
            · intro hj0; omega
          omega
    · rcases h2 with h2 | h2
      · have h3 : i + 1 ≤ ts.countP (fun t => decide (t ≤ q)) := by
          by_cases hbq : b ≤ q
          · have : ts.countP (fun t => decide (t ≤ q)) = i + 2 := by
              apply countP_le_of_increasing hts _ (by omega)
              intro j c hj
              have hjl := (List.getElem?_eq_some_iff.mp hj).1
              constructor
              · intro _; omega
              · intro _
                have := (increasing_index hts hj hb).mpr (by omega)
                linarith
            omega
          · have : ts.countP (fun t => decide (t ≤ q)) = i + 1 := by
              apply countP_le_of_increasing hts _ (by omega)
              intro j c hj
              constructor
              · intro hc
                by_contra hj1
                have := (increasing_index hts hb hj).mpr (by omega)
                linarith
              · intro hj0
                have := hle j c hj (by omega)
                linarith
            omega
        omega
      · have : ts.countP (fun t => decide (t ≤ q)) = i + 1 := by
          apply countP_le_of_increasing hts _ (by omega)
          intro j c hj
          constructor
          · intro hc
            by_contra hj1
            have := (increasing_index hts hb hj).mpr (by omega)
            linarith
          · intro hj0
            have := hle j c hj (by omega)
            linarith
        omega
  simp only [digitizeCell, hidx, hl]

/-- C49, numpy engine, false for EVERY threshold list with an interior threshold: the number equal to the
upper bound of a bin (other than the last) is given the label of the next bin, whose printed range does not
contain it. -/
theorem C49_refuted_numpy_upper_bound (F : PyFloat) (ts : List Rat) (hts : ts.Pairwise (· < ·)) (t : PStr)
    (i : Nat) (a b c : Rat) (ha : ts[i]? = some a) (hb : ts[i + 1]? = some b) (hc : ts[i + 2]? = some c) :
    ∃ iv l, (fitFeatNumpy F ts).1[i]? = some (intervalText F iv) ∧ iv.right = .fin b ∧ Inside iv b ∧
      (fitFeatNumpy F ts).1[i + 1]? = some l ∧ digitizeCell ts (fitFeatNumpy F ts).1 (.num b t) = .str l := by
  have hab : a < b := by
    have := (increasing_index hts hb ha).not
    push Not at this
    exact this.mpr (by omega)
  have hbc : b < c := by
    have := (increasing_index hts hc hb).not
    push Not at this
    exact this.mpr (by omega)
  have hlen := (List.getElem?_eq_some_iff.mp hc).1
  have h1 := numpy_label (F := F) ha hb
  rw [if_neg (show ¬ i + 2 = ts.length by omega)] at h1
  obtain ⟨l, h2, h3⟩ := C49_numpy_placement F ts hts b t (i + 1) b c hb hc (Or.inr (le_refl _)) (Or.inr hbc)
  refine ⟨_, l, h1, rfl, ⟨?_, Or.inr ⟨b, rfl, le_refl _⟩⟩, h2, h3⟩
  by_cases hi : i = 0
  · left; simp [hi]
  · right; exact ⟨a, by simp [hi], hab⟩

example : digitizeCell [0, 9, 17, 25] (fitFeatNumpy Demo.F [0, 9, 17, 25]).1 (.num 9 p!"9") = .str p!"9.0 - 17.0" ∧
    (fitFeatNumpy Demo.F [0, 9, 17, 25]).1 = [p!"<9.0", p!"9.0 - 17.0", p!">17.0"] := by decide +kernel

/-- C49, numpy engine: a missing value is given the label of the last (highest) bin; with the pandas engine
it stays missing. -/
theorem C49_numpy_missing_is_highest (F : PyFloat) (ts : List Rat) (h : 2 ≤ ts.length) :
    ∃ l, (fitFeatNumpy F ts).1.getLast? = some l ∧ digitizeCell ts (fitFeatNumpy F ts).1 .nan = .str l ∧
      ∀ ivs, cutCell ivs .nan = .nan := by
  have hpl := pairsOf_length ts
  have hlen : (fitFeatNumpy F ts).1.length = ts.length - 1 := by
    simp only [fitFeatNumpy, List.length_map]
    have hne : pairsOf ts ≠ [] := by intro h; rw [h] at hpl; simp at hpl; omega
    rcases pairs_cases hne with ⟨p, h⟩ | ⟨p, mid, z, h⟩
    · rw [h] at hpl ⊢; rw [extendEnds_one]; simpa using hpl
    · rw [h] at hpl ⊢; rw [extendEnds_two]; simpa using hpl
  have hidx : min (max (digitize ts .nan) 1) (fitFeatNumpy F ts).1.length - 1 = (fitFeatNumpy F ts).1.length - 1 := by
    simp only [digitize, hlen]; omega
  have hlt : (fitFeatNumpy F ts).1.length - 1 < (fitFeatNumpy F ts).1.length := by omega
  refine ⟨(fitFeatNumpy F ts).1[(fitFeatNumpy F ts).1.length - 1], ?_, ?_, fun _ => rfl⟩
  · rw [List.getLast?_eq_getElem?, List.getElem?_eq_getElem hlt]
  · simp only [digitizeCell, hidx, List.getElem?_eq_getElem hlt]

/-! ### C51 -/

/-- C51. `transform` keeps the columns and the row labels, and changes no cell of a column it was not
fitted on, nor of a column that is already text. -/
theorem C51_touches_only_fitted (F : PyFloat) (b : Binner) (hb : (b.bins.map Prod.fst).Nodup) (X X' : TFrame)
    (h : b.transform F X = .ok X') :
    X'.cols = X.cols ∧ X'.index = X.index ∧
      ∀ f, (f ∉ b.bins.map Prod.fst ∨ X.kind f = .text) → column X' f = column X f ∧ X'.kind f = X.kind f := by
  obtain ⟨_, G, K, rfl, h2, _⟩ := transform_ok hb h
  refine ⟨rfl, by simp [Frame.index, TFrame.mapAll], ?_⟩
  intro f hf
  obtain ⟨h3, h4⟩ := h2 f (by tauto)
  exact ⟨by rw [column_mapAll, show G f = id from funext h3]; simp, h4⟩

/-- The cells of a transformed column are labels or missing. -/
theorem featTransform_range {F : PyFloat} {b : Binner} {f : Feat} {labels : List PStr} {g : Val → Val}
    (h : featTransform F b f labels = .ok g) (v : Val) : g v = .nan ∨ ∃ l ∈ labels, g v = .str l := by
  unfold featTransform at h
  split at h
  · cases h
  · split at h
    · injection h with h
      subst h
      unfold digitizeCell
      split
      · rename_i s hs
        exact Or.inr ⟨s, List.mem_of_getElem? hs, rfl⟩
      · exact Or.inl rfl
    · obtain ⟨ivs, hi, h⟩ := bind_ok_iff.mp h
      simp only [pure_eq_ok, Except.ok.injEq] at h
      subst h
      unfold cutCell
      split
      · split
        · rename_i p hp
          exact Or.inr ⟨p.2, (List.of_mem_zip (List.mem_of_find?_eq_some hp)).2, rfl⟩
        · exact Or.inl rfl
      · exact Or.inl rfl

/-- C51. Transforming a second time returns the same frame, unless the first time left (or produced) a
missing value in a fitted column: then, and only then, the second call is a ValueError. -/
theorem C51_second_transform (F : PyFloat) (b : Binner) (hb : (b.bins.map Prod.fst).Nodup) (X X' : TFrame)
    (h : b.transform F X = .ok X') :
    ((∀ f ∈ b.bins.map Prod.fst, f ∈ X'.cols → .nan ∉ column X' f) → b.transform F X' = .ok X') ∧
    ((∃ f ∈ b.bins.map Prod.fst, f ∈ X'.cols ∧ .nan ∈ column X' f) → b.transform F X' = .error .valueError) := by
  obtain ⟨hbad, G, K, hX', h2, h3⟩ := transform_ok hb h
  have hcols : X'.cols = X.cols := by rw [hX']; rfl
  have hkind : ∀ f ∈ b.bins.map Prod.fst, f ∈ X.cols → X'.kind f = .text := by
    intro f hf hfc
    by_cases hk : X.kind f = .text
    · have := (h2 f (Or.inr (Or.inr hk))).2
      rw [hX']; simp only [TFrame.mapAll]; rw [this, hk]
    · obtain ⟨⟨f', labels⟩, hm, rfl⟩ := List.mem_map.mp hf
      rw [hX']; exact (h3 f' labels hm hfc hk).2
  have hcells : ∀ f labels, (f, labels) ∈ b.bins → f ∈ X.cols → ∀ row ∈ X'.rows,
      row.cell f = .nan ∨ ∃ l ∈ labels, row.cell f = .str l := by
    intro f labels hm hfc row hrow
    rw [hX'] at hrow
    simp only [TFrame.mapAll, List.mem_map] at hrow
    obtain ⟨row0, hrow0, rfl⟩ := hrow
    by_cases hk : X.kind f = .text
    · simp only [(h2 f (Or.inr (Or.inr hk))).1]
      by_cases hl : ∃ l ∈ labels, row0.cell f = .str l
      · exact Or.inr hl
      · exact absurd ⟨f, labels, hm, hfc, hk, row0, hrow0, fun l hl' hc => hl ⟨l, hl', hc⟩⟩ hbad
    · exact featTransform_range (h3 f labels hm hfc hk).1 _
  constructor
  · intro hno
    unfold Binner.transform
    have : ¬ BadText b X' := by
      rintro ⟨f, labels, hm, hfc, _, row, hrow, hl⟩
      have hf : f ∈ b.bins.map Prod.fst := List.mem_map.mpr ⟨_, hm, rfl⟩
      rcases hcells f labels hm (hcols ▸ hfc) row hrow with hc | ⟨l, hl', hc⟩
      · exact hno f hf hfc (List.mem_map.mpr ⟨row, hrow, hc⟩)
      · exact hl l hl' hc
    rw [findTransformed_eq, if_neg this, ok_bind]
    apply transformLoop_done
    intro f hf hfc
    rw [mem_transformedFeats]
    exact ⟨hf, hfc, hkind f hf (hcols ▸ hfc)⟩
  · rintro ⟨f, hf, hfc, hnan⟩
    obtain ⟨⟨f', labels⟩, hm, rfl⟩ := List.mem_map.mp hf
    obtain ⟨row, hrow, hc⟩ := List.mem_map.mp hnan
    have : BadText b X' := ⟨f', labels, hm, hfc, hkind _ hf (hcols ▸ hfc), row, hrow, fun l _ hcl => by
      simp only at hc; rw [hc] at hcl; cases hcl⟩
    unfold Binner.transform
    rw [findTransformed_eq, if_pos this, error_bind]

example : ((Binner.fit Demo.F Demo.P (some 3) Demo.skewed []).bins.map Prod.fst).Nodup ∧
    Demo.transformed (Binner.fit Demo.F Demo.P (some 3) Demo.skewed []) Demo.skewed Demo.fa =
      .ok ((List.replicate 8 (.str p!"<9.0")) ++ [.str p!">17.0"]) := by decide +kernel

/-- C51: a concrete frame (the number 12, which falls into a dropped bin) on which the first transform
succeeds and transforming its result is a ValueError. -/
theorem C51_refuted_missing :
    (do let X' ← (Binner.fit Demo.F Demo.P (some 3) Demo.skewed []).transform Demo.F Demo.fresh
        (Binner.fit Demo.F Demo.P (some 3) Demo.skewed []).transform Demo.F X' : Except PyErr TFrame).toOption.isNone = true ∧
    ((Binner.fit Demo.F Demo.P (some 3) Demo.skewed []).transform Demo.F Demo.fresh).toOption.isSome = true := by
  decide +kernel

/-- C51. A transformer whose `thresholds_` is None (one converted from an older saved model) raises
TypeError on any frame that has a fitted column it would have to transform. -/
theorem C51_refuted_no_thresholds (F : PyFloat) (b : Binner) (hb : b.thresholds = none) (X : TFrame)
    (hX : ¬ BadText b X) (h : ∃ f ∈ b.bins.map Prod.fst, f ∈ X.cols ∧ X.kind f ≠ .text) :
    b.transform F X = .error .typeError := by
  unfold Binner.transform
  rw [findTransformed_eq, if_neg hX, ok_bind]
  obtain ⟨f, hf, hfc, hk⟩ := h
  have hd : f ∉ transformedFeats b X := by rw [mem_transformedFeats]; tauto
  generalize transformedFeats b X = done at hd
  generalize b.bins = bins at hf
  clear hk hX
  induction bins with
  | nil => simp at hf
  | cons p rest ih =>
    obtain ⟨f0, labels0⟩ := p
    rw [transformLoop]
    by_cases hc : (X.cols.contains f0 && !done.contains f0) = true
    · rw [if_pos hc]
      simp only [featTransform, hb, error_bind]
    · rw [if_neg hc]
      apply ih
      rcases List.mem_cons.mp hf with h | h
      · exfalso
        apply hc
        rw [← show f = f0 from h]
        simp [hfc, hd]
      · exact h

end Witt
