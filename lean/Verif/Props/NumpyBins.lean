import Verif.Props.Columns
import Verif.Lemmas.NumpyBins
/-
C84: discretisation with the numpy engine, from the data to the transformed table.
-/
namespace Witt
open Spec

namespace Spec
/-- The least and the greatest number in a column. -/
def Extremes (df : TFrame) (f : Feat) (lo hi : Rat) : Prop :=
  (∃ t, Val.num lo t ∈ column df f) ∧ (∃ t, Val.num hi t ∈ column df f) ∧
    ∀ q t, Val.num q t ∈ column df f → lo ≤ q ∧ q ≤ hi
/-- The columns to be discretised: numeric, not ignored, with more than `k` different values. -/
def ContinuousBut (k : Nat) (df : TFrame) (ignore : List Feat) (f : Feat) : Prop :=
  f ∈ df.cols ∧ f ∉ ignore ∧ df.kind f = .number ∧ MoreValuesThan k df.toFrame f
/-- The thresholds of `n` bins for the numbers `qs`, the least of which is `lo` and the greatest `hi`: the rounded
quantiles, if they are all different; otherwise the rounded evenly spaced points. -/
def CutPoints (N : NumpyCalc) (n : Nat) (qs : List Rat) (lo hi : Rat) (ts : List Rat) : Prop :=
  let quantiles := fun k => N.round (N.quantile qs n k)
  let Different := ∀ j k, j < k → k ≤ n → quantiles j ≠ quantiles k
  ts.length = n + 1 ∧ (Different → ∀ k ≤ n, ts[k]? = some (quantiles k)) ∧
    (¬ Different → ∀ k ≤ n, ts[k]? = some (N.round (N.spaced lo hi n k)))
/-- The column holds one number (any number of times) and missing values, nothing else. -/
def OneNumberAndMissing (df : TFrame) (f : Feat) : Prop :=
  .nan ∈ column df f ∧ ∃ q, (∃ t, Val.num q t ∈ column df f) ∧
    ∀ v ∈ column df f, v = .nan ∨ ∃ t, v = .num q t
end Spec

theorem continuousFeats_but (n : Option Nat) (df : TFrame) (ignore : List Feat) (f : Feat) :
    f ∈ continuousFeats n df ignore ↔ ∃ k, n = some k ∧ 0 < k ∧ ContinuousBut k df ignore f := by
  unfold continuousFeats ContinuousBut
  rcases n with _ | _ | k
  · simp
  · simp
  · simp only [List.mem_filter, Bool.and_eq_true, beq_iff_eq, decide_eq_true_eq, unique_length, Bool.not_eq_true',
      Option.some.injEq]
    constructor
    · rintro ⟨h1, ⟨h2, h3⟩, h4⟩
      exact ⟨k + 1, rfl, by omega, h1, by simpa using h4, h2, h3⟩
    · rintro ⟨_, rfl, _, h1, h4, h2, h3⟩
      exact ⟨h1, ⟨h2, h3⟩, by simpa using h4⟩

theorem extremes_of_numbers {df : TFrame} {f : Feat} (h : numbersOf (column df f) ≠ []) :
    Extremes df f (lowestOf (numbersOf (column df f))) (highestOf (numbersOf (column df f))) := by
  obtain ⟨h1, h2⟩ := lowestOf_spec h
  obtain ⟨h3, h4⟩ := highestOf_spec h
  exact ⟨mem_numbersOf.mp h1, mem_numbersOf.mp h3,
    fun q t hq => ⟨h2 q (mem_numbersOf.mpr ⟨t, hq⟩), h4 q (mem_numbersOf.mpr ⟨t, hq⟩)⟩⟩

theorem extremes_unique {df : TFrame} {f : Feat} {lo hi lo' hi' : Rat} (h : Extremes df f lo hi)
    (h' : Extremes df f lo' hi') : lo = lo' ∧ hi = hi' := by
  obtain ⟨⟨t1, a1⟩, ⟨t2, a2⟩, a3⟩ := h
  obtain ⟨⟨t3, b1⟩, ⟨t4, b2⟩, b3⟩ := h'
  exact ⟨le_antisymm (a3 _ _ b1).1 (b3 _ _ a1).1, le_antisymm (b3 _ _ a2).2 (a3 _ _ b2).2⟩

theorem numbersOf_ne {df : TFrame} {f : Feat} {q : Rat} {t : PStr} (h : Val.num q t ∈ column df f) :
    numbersOf (column df f) ≠ [] := by
  have := mem_numbersOf.mpr ⟨t, h⟩
  intro he; rw [he] at this; simp at this

/-- The cells of a numeric column are numbers or missing. -/
theorem wf_column {df : TFrame} (hw : df.WF) {f : Feat} (hf : f ∈ df.cols) (hk : df.kind f = .number) {v : Val}
    (hv : v ∈ column df f) : v = .nan ∨ ∃ q t, v = .num q t := by
  obtain ⟨row, hr, rfl⟩ := List.mem_map.mp hv
  cases h : row.cell f with
  | str s => exact absurd h (hw f hf hk row hr s)
  | num q t => exact Or.inr ⟨q, t, rfl⟩
  | nan => exact Or.inl rfl

/-- Two values, different as labels, of a numeric column: one is a number. -/
theorem more_values_number {df : TFrame} (hw : df.WF) {f : Feat} {k : Nat} (hk : 0 < k) {ignore : List Feat}
    (h : ContinuousBut k df ignore f) : numbersOf (column df f) ≠ [] := by
  obtain ⟨hf, _, hkind, vs, hl, hp, hm⟩ := h
  match vs, hl with
  | a :: b :: rest, _ =>
    have hab := (List.pairwise_cons.mp hp).1 b List.mem_cons_self
    have ha : a ∈ column df f := by
      obtain ⟨row, hr, he⟩ := hm a (by simp)
      exact List.mem_map.mpr ⟨row, hr, he⟩
    have hb : b ∈ column df f := by
      obtain ⟨row, hr, he⟩ := hm b (by simp)
      exact List.mem_map.mpr ⟨row, hr, he⟩
    rcases wf_column hw hf hkind ha with rfl | ⟨q, t, rfl⟩
    · rcases wf_column hw hf hkind hb with rfl | ⟨q, t, rfl⟩
      · exact absurd (Or.inr ⟨rfl, rfl⟩) hab
      · exact numbersOf_ne hb
    · exact numbersOf_ne ha
  | [a], hl => simp at hl; omega
  | [], hl => simp at hl

/-- More than two values of a numeric column: two different numbers. -/
theorem more_values_spread {df : TFrame} (hw : df.WF) {f : Feat} {k : Nat} (hk : 2 ≤ k) {ignore : List Feat}
    (h : ContinuousBut k df ignore f) {lo hi : Rat} (he : Extremes df f lo hi) : lo ≠ hi := by
  obtain ⟨hf, _, hkind, vs, hl, hp, hm⟩ := h
  rintro rfl
  have hcell : ∀ v ∈ vs, v = .nan ∨ ∃ t, v = .num lo t := by
    intro v hv
    obtain ⟨row, hr, hrv⟩ := hm v hv
    have hvc : v ∈ column df f := List.mem_map.mpr ⟨row, hr, hrv⟩
    rcases wf_column hw hf hkind hvc with rfl | ⟨q, t, rfl⟩
    · exact Or.inl rfl
    · obtain ⟨h1, h2⟩ := he.2.2 q t hvc
      exact Or.inr ⟨t, by rw [le_antisymm h1 h2]⟩
  have hsame : ∀ t t', SameLabel (.num lo t) (.num lo t') := fun t t' => Or.inl (by simp [Same])
  match vs, hl with
  | a :: b :: c :: rest, _ =>
    have hp1 := List.pairwise_cons.mp hp
    have hp2 := List.pairwise_cons.mp hp1.2
    have hab := hp1.1 b (by simp)
    have hac := hp1.1 c (by simp)
    have hbc := hp2.1 c (by simp)
    rcases hcell a (by simp) with rfl | ⟨t, rfl⟩ <;> rcases hcell b (by simp) with rfl | ⟨t', rfl⟩ <;>
      rcases hcell c (by simp) with rfl | ⟨t'', rfl⟩
    · exact hab (Or.inr ⟨rfl, rfl⟩)
    · exact hab (Or.inr ⟨rfl, rfl⟩)
    · exact hac (Or.inr ⟨rfl, rfl⟩)
    · exact hbc (hsame _ _)
    · exact hbc (Or.inr ⟨rfl, rfl⟩)
    · exact hac (hsame _ _)
    · exact hab (hsame _ _)
    · exact hab (hsame _ _)
  | [a, b], hl => simp at hl; omega
  | [a], hl => simp at hl; omega
  | [], hl => simp at hl

/-! ### the thresholds -/

theorem range_map_get {g : Nat → Rat} {n k : Nat} (h : k ≤ n) : ((List.range (n + 1)).map g)[k]? = some (g k) := by
  rw [List.getElem?_map, List.getElem?_range (by omega)]; rfl

theorem range_map_mono {g : Nat → Rat} {n : Nat} (h : ∀ j k, j ≤ k → k ≤ n → g j ≤ g k) :
    ((List.range (n + 1)).map g).Pairwise (· ≤ ·) := by
  rw [List.pairwise_map]
  refine (List.pairwise_lt_range (n := n + 1)).imp_of_mem ?_
  intro a b _ hb hab
  exact h a b hab.le (by have := List.mem_range.mp hb; omega)

/-- What `_numpy_cut` computes for data with at least one number. -/
theorem numpyCut_cases {F : PyFloat} {N : NumpyCalc} (hN : N.Lawful F) {n : Nat} (hn : 0 < n) {vs : List Val}
    (hq : numbersOf vs ≠ []) :
    (lowestOf (numbersOf vs) = highestOf (numbersOf vs) ∧ numpyCut N n vs = none) ∨
    (lowestOf (numbersOf vs) ≠ highestOf (numbersOf vs) ∧
      N.round (lowestOf (numbersOf vs)) = N.round (highestOf (numbersOf vs)) ∧
      numpyCut N n vs = some [lowestOf (numbersOf vs), highestOf (numbersOf vs)]) ∨
    (N.round (lowestOf (numbersOf vs)) ≠ N.round (highestOf (numbersOf vs)) ∧
      ∃ ts, numpyCut N n vs = some ts ∧ ts.length = n + 1 ∧ ts.Pairwise (· ≤ ·) ∧ (∀ t ∈ ts, F.Rep t) ∧
        ts[0]? = some (N.round (lowestOf (numbersOf vs))) ∧ ts[n]? = some (N.round (highestOf (numbersOf vs))) ∧
        CutPoints N n (numbersOf vs) (lowestOf (numbersOf vs)) (highestOf (numbersOf vs)) ts) := by
  have hle : lowestOf (numbersOf vs) ≤ highestOf (numbersOf vs) :=
    (lowestOf_spec hq).2 _ (highestOf_spec hq).1
  generalize hqs : numbersOf vs = qs at *
  have hts : (roundedQuantiles N n qs).Pairwise (· ≤ ·) :=
    range_map_mono (fun j k hjk hk => hN.round_mono _ _ (hN.quantile_mono qs n j k hq hjk hk))
  have h0 : (roundedQuantiles N n qs)[0]? = some (N.round (lowestOf qs)) := by
    unfold roundedQuantiles
    rw [range_map_get (Nat.zero_le n), hN.quantile_first qs n hq hn]
  have hl : (roundedQuantiles N n qs)[n]? = some (N.round (highestOf qs)) := by
    unfold roundedQuantiles
    rw [range_map_get (le_refl n), hN.quantile_last qs n hq hn]
  have hlen : (roundedQuantiles N n qs).length = n + 1 := by simp [roundedQuantiles]
  have hbetween : ∀ x ∈ roundedQuantiles N n qs, N.round (lowestOf qs) ≤ x ∧ x ≤ N.round (highestOf qs) := by
    intro x hx
    obtain ⟨k, hk, rfl⟩ := List.mem_map.mp hx
    have hk' : k ≤ n := by have := List.mem_range.mp hk; omega
    constructor
    · rw [← hN.quantile_first qs n hq hn]
      exact hN.round_mono _ _ (hN.quantile_mono qs n 0 k hq (Nat.zero_le k) hk')
    · rw [← hN.quantile_last qs n hq hn]
      exact hN.round_mono _ _ (hN.quantile_mono qs n k n hq hk' (le_refl n))
  have hsame : (npUnique (roundedQuantiles N n qs)).length < 2 ↔ N.round (lowestOf qs) = N.round (highestOf qs) := by
    rw [npUnique_lt_two]
    constructor
    · intro h
      exact h _ (List.mem_of_getElem? h0) _ (List.mem_of_getElem? hl)
    · intro h x hx y hy
      obtain ⟨a1, a2⟩ := hbetween x hx
      obtain ⟨b1, b2⟩ := hbetween y hy
      exact le_antisymm (by linarith) (by linarith)
  have hdiff : (npUnique (roundedQuantiles N n qs)).length = (roundedQuantiles N n qs).length ↔
      ∀ j k, j < k → k ≤ n → N.round (N.quantile qs n j) ≠ N.round (N.quantile qs n k) := by
    constructor
    · intro he j k hjk hk hh
      have hi := increasing_of_npUnique hts he
      have := List.pairwise_iff_getElem.mp hi j k (by omega) (by omega) hjk
      have e1 : (roundedQuantiles N n qs)[j]? = some (N.round (N.quantile qs n j)) := range_map_get (by omega)
      have e2 : (roundedQuantiles N n qs)[k]? = some (N.round (N.quantile qs n k)) := range_map_get hk
      rw [(List.getElem?_eq_some_iff.mp e1).2, (List.getElem?_eq_some_iff.mp e2).2, hh] at this
      exact absurd this (lt_irrefl _)
    · intro hd
      have hi : (roundedQuantiles N n qs).Pairwise (· < ·) := by
        unfold roundedQuantiles
        rw [List.pairwise_map]
        refine (List.pairwise_lt_range (n := n + 1)).imp_of_mem ?_
        intro a b _ hb hab
        have hb' : b ≤ n := by have := List.mem_range.mp hb; omega
        exact lt_of_le_of_ne (hN.round_mono _ _ (hN.quantile_mono qs n a b hq hab.le hb')) (hd a b hab hb')
      rw [npUnique_of_sorted hi]
  unfold numpyCut
  simp only [hqs]
  by_cases h1 : (npUnique (roundedQuantiles N n qs)).length < 2
  · rw [if_pos h1]
    by_cases h2 : lowestOf qs = highestOf qs
    · exact Or.inl ⟨h2, if_pos h2⟩
    · exact Or.inr (Or.inl ⟨h2, hsame.mp h1, if_neg h2⟩)
  · rw [if_neg h1]
    refine Or.inr (Or.inr ⟨fun h => h1 (hsame.mpr h), ?_⟩)
    by_cases h2 : (npUnique (roundedQuantiles N n qs)).length < (roundedQuantiles N n qs).length
    · refine ⟨_, if_pos h2, by simp [roundedSpaced], ?_, ?_, ?_, ?_, by simp [roundedSpaced], ?_, ?_⟩
      · exact range_map_mono (fun j k hjk hk => hN.round_mono _ _ (hN.spaced_mono _ _ n j k hle hjk hk))
      · intro t ht
        obtain ⟨k, _, rfl⟩ := List.mem_map.mp ht
        exact hN.round_rep _
      · unfold roundedSpaced
        rw [range_map_get (Nat.zero_le n), hN.spaced_first _ _ n hle hn]
      · unfold roundedSpaced
        rw [range_map_get (le_refl n), hN.spaced_last _ _ n hle hn]
      · intro hd
        have := hdiff.mpr hd
        omega
      · intro _ k hk
        exact range_map_get hk
    · have heq : (npUnique (roundedQuantiles N n qs)).length = (roundedQuantiles N n qs).length :=
        le_antisymm npUnique_length_le (not_lt.mp h2)
      have hself := npUnique_of_sorted (increasing_of_npUnique hts heq)
      refine ⟨_, if_neg h2, by rw [heq, hlen], by rw [hself]; exact hts, ?_, by rw [hself]; exact h0, by rw [hself]; exact hl,
        by rw [heq, hlen], ?_, fun hd => absurd (hdiff.mp heq) hd⟩
      · intro t ht
        obtain ⟨k, _, rfl⟩ := List.mem_map.mp (mem_npUnique.mp ht)
        exact hN.round_rep _
      · intro _ k hk
        rw [hself]
        exact range_map_get hk

theorem fitFeatNumpy_length (F : PyFloat) (ts : List Rat) : (fitFeatNumpy F ts).1.length = ts.length - 1 := by
  simp only [fitFeatNumpy, List.length_map, extendEnds_length, pairsOf_length]

/-! ### the loop -/

/-- The loop fails iff some column does, and always with AttributeError. -/
theorem fitLoop_error {F : PyFloat} {N : NumpyCalc} {n : Nat} {df : TFrame} : ∀ {fs : List Feat} {e : PyErr},
    fitLoopNumpy F N n df fs = .error e ↔ e = .attributeError ∧ ∃ f ∈ fs, numpyCut N n (column df f) = none
  | [], e => by simp [fitLoopNumpy]
  | f :: fs, e => by
    have ih := fitLoop_error (F := F) (N := N) (n := n) (df := df) (fs := fs) (e := e)
    unfold fitLoopNumpy fitColNumpy
    change (match numpyCut N n (column df f) with | none => _ | some ts => _ : Except PyErr _) >>= _ = _ ↔ _
    cases hc : numpyCut N n (column df f) with
    | none =>
      simp only [error_bind]
      constructor
      · intro h; injection h with h; exact ⟨h.symm, f, by simp, hc⟩
      · rintro ⟨rfl, _⟩; rfl
    | some ts =>
      simp only [ok_bind]
      cases hr : fitLoopNumpy F N n df fs with
      | error e' =>
        rw [hr] at ih
        simp only [error_bind]
        rw [ih]
        constructor
        · rintro ⟨h, f', hf, h'⟩; exact ⟨h, f', List.mem_cons_of_mem _ hf, h'⟩
        · rintro ⟨h, f', hf, h'⟩
          rcases List.mem_cons.mp hf with rfl | hf
          · rw [hc] at h'; cases h'
          · exact ⟨h, f', hf, h'⟩
      | ok rest =>
        rw [hr] at ih
        simp only [ok_bind, pure_eq_ok]
        constructor
        · intro h; cases h
        · rintro ⟨h, f', hf, h'⟩
          rcases List.mem_cons.mp hf with rfl | hf
          · rw [hc] at h'; cases h'
          · exact absurd (ih.mpr ⟨h, f', hf, h'⟩) (by simp)

theorem fitLoop_ok {F : PyFloat} {N : NumpyCalc} {n : Nat} {df : TFrame} : ∀ {fs : List Feat}
    {out : List (Feat × List PStr × List Rat)}, fitLoopNumpy F N n df fs = .ok out →
    (∀ f labels ts, (f, labels, ts) ∈ out ↔ f ∈ fs ∧ numpyCut N n (column df f) = some ts ∧
      labels = (fitFeatNumpy F ts).1 ∧ 2 ≤ labels.length) ∧ (out.map Prod.fst).Sublist fs
  | [], out, h => by
    unfold fitLoopNumpy at h
    cases h
    simp
  | f :: fs, out, h => by
    unfold fitLoopNumpy fitColNumpy at h
    change (match numpyCut N n (column df f) with | none => _ | some ts => _ : Except PyErr _) >>= _ = _ at h
    cases hc : numpyCut N n (column df f) with
    | none => rw [hc] at h; simp only [error_bind] at h; cases h
    | some ts0 =>
      rw [hc] at h
      simp only [ok_bind] at h
      cases hr : fitLoopNumpy F N n df fs with
      | error e' => rw [hr] at h; simp only [error_bind] at h; cases h
      | ok rest =>
        rw [hr] at h
        simp only [ok_bind, pure_eq_ok] at h
        obtain ⟨ih1, ih2⟩ := fitLoop_ok hr
        injection h with h
        constructor
        · intro g labels ts
          rw [← h]
          constructor
          · intro hm
            split at hm
            · rename_i hl
              rcases List.mem_cons.mp hm with hm | hm
              · injection hm with e1 e2
                injection e2 with e2 e3
                subst e1 e2 e3
                exact ⟨List.mem_cons_self, hc, rfl, hl⟩
              · obtain ⟨a, b⟩ := (ih1 g labels ts).mp hm
                exact ⟨List.mem_cons_of_mem _ a, b⟩
            · obtain ⟨a, b⟩ := (ih1 g labels ts).mp hm
              exact ⟨List.mem_cons_of_mem _ a, b⟩
          · rintro ⟨hg, hc', hl, h2⟩
            rcases List.mem_cons.mp hg with rfl | hg
            · rw [hc] at hc'
              cases hc'
              subst hl
              rw [if_pos h2]
              exact List.mem_cons_self
            · have := (ih1 g labels ts).mpr ⟨hg, hc', hl, h2⟩
              split
              · exact List.mem_cons_of_mem _ this
              · exact this
        · rw [← h]
          split
          · exact ih2.cons_cons _
          · exact ih2.cons _

/-! ### fitting -/

theorem cut_none_iff {F : PyFloat} {N : NumpyCalc} (hN : N.Lawful F) {k : Nat} (hk : 0 < k) {df : TFrame}
    (hw : df.WF) {ignore : List Feat} {f : Feat} (h : ContinuousBut k df ignore f) :
    numpyCut N k (column df f) = none ↔ k = 1 ∧ OneNumberAndMissing df f := by
  have hq := more_values_number hw hk h
  have hx := extremes_of_numbers hq
  constructor
  · intro hnone
    have heq : lowestOf (numbersOf (column df f)) = highestOf (numbersOf (column df f)) := by
      rcases numpyCut_cases hN hk hq with ⟨h1, _⟩ | ⟨_, _, h1⟩ | ⟨_, ts, h1, _⟩
      · exact h1
      · rw [hnone] at h1; cases h1
      · rw [hnone] at h1; cases h1
    have hk1 : k = 1 := by
      by_contra hne
      exact more_values_spread hw (by omega) h hx heq
    refine ⟨hk1, ?_, lowestOf (numbersOf (column df f)), hx.1, ?_⟩
    · by_contra hnan
      obtain ⟨hf, _, hkind, vs, hl, hp, hm⟩ := h
      have hcell : ∀ v ∈ vs, ∃ t, v = .num (lowestOf (numbersOf (column df f))) t := by
        intro v hv
        obtain ⟨row, hr, hrv⟩ := hm v hv
        have hvc : v ∈ column df f := List.mem_map.mpr ⟨row, hr, hrv⟩
        rcases wf_column hw hf hkind hvc with rfl | ⟨q, t, rfl⟩
        · exact absurd hvc hnan
        · obtain ⟨h1, h2⟩ := hx.2.2 q t hvc
          rw [← heq] at h2
          exact ⟨t, by rw [le_antisymm h1 h2]⟩
      match vs, hl with
      | a :: b :: rest, _ =>
        obtain ⟨t, rfl⟩ := hcell a (by simp)
        obtain ⟨t', rfl⟩ := hcell b (by simp)
        exact (List.pairwise_cons.mp hp).1 _ List.mem_cons_self (Or.inl (by simp [Same]))
      | [a], hl => simp at hl; omega
      | [], hl => simp at hl
    · intro v hv
      rcases wf_column hw h.1 h.2.2.1 hv with rfl | ⟨q, t, rfl⟩
      · exact Or.inl rfl
      · obtain ⟨h1, h2⟩ := hx.2.2 q t hv
        rw [← heq] at h2
        exact Or.inr ⟨t, by rw [le_antisymm h1 h2]⟩
  · rintro ⟨_, _, q, ⟨t, hqt⟩, hall⟩
    have hx' : Extremes df f q q := ⟨⟨t, hqt⟩, ⟨t, hqt⟩, fun q' t' hq' => by
      rcases hall _ hq' with h | ⟨t'', h⟩
      · cases h
      · cases h; exact ⟨le_refl _, le_refl _⟩⟩
    obtain ⟨h1, h2⟩ := extremes_unique hx hx'
    rcases numpyCut_cases hN hk hq with ⟨_, h3⟩ | ⟨h3, _⟩ | ⟨h3, _⟩
    · exact h3
    · exact absurd (h1.trans h2.symm) h3
    · exact absurd (by rw [h1, h2]) h3

/-- C84: with the numpy engine, fitting fails only for `n_discretize_bins=1`, exactly when some numeric column that
is not ignored holds a single number next to missing values; the failure is an AttributeError. -/
theorem C84_fit_fails_iff (F : PyFloat) (N : NumpyCalc) (hN : N.Lawful F) (n : Option Nat) (df : TFrame) (hw : df.WF)
    (ignore : List Feat) (e : PyErr) :
    Binner.fitNumpy F N n df ignore = .error e ↔
      e = .attributeError ∧ n = some 1 ∧
        ∃ f ∈ df.cols, f ∉ ignore ∧ df.kind f = .number ∧ OneNumberAndMissing df f := by
  have hloop : Binner.fitNumpy F N n df ignore = .error e ↔
      fitLoopNumpy F N (n.getD 0) df (continuousFeats n df ignore) = .error e := by
    unfold Binner.fitNumpy
    cases fitLoopNumpy F N (n.getD 0) df (continuousFeats n df ignore) with
    | error e' => simp only [error_bind]; constructor <;> (intro h; cases h; rfl)
    | ok out => simp only [ok_bind, pure_eq_ok]; constructor <;> (intro h; cases h)
  rw [hloop, fitLoop_error]
  constructor
  · rintro ⟨he, f, hf, hc⟩
    obtain ⟨k, rfl, hk, hcont⟩ := (continuousFeats_but n df ignore f).mp hf
    obtain ⟨rfl, h1⟩ := (cut_none_iff hN hk hw hcont).mp hc
    exact ⟨he, rfl, f, hcont.1, hcont.2.1, hcont.2.2.1, h1⟩
  · rintro ⟨he, rfl, f, hf, hi, hk, h1⟩
    have hcont : ContinuousBut 1 df ignore f := by
      refine ⟨hf, hi, hk, ?_⟩
      obtain ⟨hnan, q, ⟨t, hq⟩, _⟩ := h1
      refine ⟨[.nan, .num q t], rfl, ?_, ?_⟩
      · rw [List.pairwise_pair]
        rintro (h | ⟨_, h⟩)
        · simp [Same] at h
        · cases h
      · intro v hv
        simp only [List.mem_cons, List.not_mem_nil, or_false] at hv
        rcases hv with rfl | rfl
        · obtain ⟨row, hr, h⟩ := List.mem_map.mp hnan; exact ⟨row, hr, h⟩
        · obtain ⟨row, hr, h⟩ := List.mem_map.mp hq; exact ⟨row, hr, h⟩
    exact ⟨he, f, (continuousFeats_but _ df ignore f).mpr ⟨1, rfl, by omega, hcont⟩,
      (cut_none_iff hN (by omega) hw hcont).mpr ⟨rfl, h1⟩⟩

/-- Two or more bins never fail. -/
theorem fitNumpy_ok {F : PyFloat} {N : NumpyCalc} {n : Option Nat} {df : TFrame} {ignore : List Feat} {b : Binner}
    (h : Binner.fitNumpy F N n df ignore = .ok b) :
    ∃ out, fitLoopNumpy F N (n.getD 0) df (continuousFeats n df ignore) = .ok out ∧
      b = { bins := out.map (fun p => (p.1, p.2.1)), thresholds := some (out.map (fun p => (p.1, p.2.2))) } := by
  unfold Binner.fitNumpy at h
  cases hl : fitLoopNumpy F N (n.getD 0) df (continuousFeats n df ignore) with
  | error e' => rw [hl] at h; simp only [error_bind] at h; cases h
  | ok out =>
    rw [hl] at h
    simp only [ok_bind, pure_eq_ok] at h
    injection h with h
    exact ⟨out, rfl, h.symm⟩

theorem fitNumpy_keys {F : PyFloat} {N : NumpyCalc} {n : Option Nat} {df : TFrame} {ignore : List Feat} {b : Binner}
    (hc : df.cols.Nodup) (h : Binner.fitNumpy F N n df ignore = .ok b) : (b.bins.map Prod.fst).Nodup := by
  obtain ⟨out, hl, rfl⟩ := fitNumpy_ok h
  have h2 := (fitLoop_ok hl).2
  have : (out.map (fun p => (p.1, p.2.1))).map Prod.fst = out.map Prod.fst := by simp
  rw [show (Binner.bins _) = _ from rfl, this]
  refine List.Nodup.sublist h2 ?_
  unfold continuousFeats
  rcases n with _ | _ | k
  · exact List.nodup_nil
  · exact List.nodup_nil
  · exact hc.filter _

theorem lookup_of_mem {α : Type} {l : List (Feat × α)} (hn : (l.map Prod.fst).Nodup) {f : Feat} {a : α}
    (h : (f, a) ∈ l) : l.lookup f = some a := by
  induction l with
  | nil => simp at h
  | cons p rest ih =>
    obtain ⟨g, b⟩ := p
    simp only [List.map_cons, List.nodup_cons] at hn
    rcases List.mem_cons.mp h with h | h
    · cases h; simp [List.lookup]
    · have hne : f ≠ g := by
        rintro rfl
        exact hn.1 (List.mem_map.mpr ⟨(f, a), by assumption, rfl⟩)
      rw [List.lookup_cons, beq_false_of_ne hne]
      exact ih hn.2 h

/-- Everything about one fitted column. -/
theorem fitNumpy_column {F : PyFloat} {N : NumpyCalc} (hN : N.Lawful F) {n : Option Nat} {df : TFrame} (hw : df.WF)
    (hc : df.cols.Nodup) {ignore : List Feat} {b : Binner} (h : Binner.fitNumpy F N n df ignore = .ok b) {f : Feat}
    {labels : List PStr} (hf : (f, labels) ∈ b.bins) :
    ∃ k lo hi ts, n = some k ∧ 2 ≤ k ∧ ContinuousBut k df ignore f ∧ Extremes df f lo hi ∧ N.round lo ≠ N.round hi ∧
      (∃ tss, b.thresholds = some tss ∧ tss.lookup f = some ts) ∧ labels = (fitFeatNumpy F ts).1 ∧
      ts.length = k + 1 ∧ ts.Pairwise (· ≤ ·) ∧ (∀ t ∈ ts, F.Rep t) ∧
      ts[0]? = some (N.round lo) ∧ ts[k]? = some (N.round hi) ∧ CutPoints N k (numbersOf (column df f)) lo hi ts := by
  have hkeys := fitNumpy_keys hc h
  obtain ⟨out, hl, rfl⟩ := fitNumpy_ok h
  obtain ⟨⟨f', labels', ts⟩, hm, he⟩ := List.mem_map.mp hf
  simp only [Prod.mk.injEq] at he
  obtain ⟨rfl, rfl⟩ := he
  obtain ⟨hcf, hcut, hlab, h2⟩ := ((fitLoop_ok hl).1 _ _ _).mp hm
  obtain ⟨k, rfl, hk, hcont⟩ := (continuousFeats_but n df ignore f').mp hcf
  simp only [Option.getD_some] at hcut
  have hq := more_values_number hw hk hcont
  have hx := extremes_of_numbers hq
  have hlk : (out.map (fun p => (p.1, p.2.2))).lookup f' = some ts := by
    apply lookup_of_mem
    · simpa [Function.comp_def] using hkeys
    · exact List.mem_map.mpr ⟨_, hm, rfl⟩
  rcases numpyCut_cases hN hk hq with ⟨_, h3⟩ | ⟨_, _, h3⟩ | ⟨hr, ts', h3, h4, h5, h6, h7, h8, h9⟩
  · rw [hcut] at h3; cases h3
  · rw [hcut] at h3
    cases h3
    rw [hlab, fitFeatNumpy_length] at h2
    simp at h2
  · rw [hcut] at h3
    cases h3
    have : 2 ≤ k := by
      rw [hlab, fitFeatNumpy_length, h4] at h2
      omega
    exact ⟨k, _, _, ts, rfl, this, hcont, hx, hr, ⟨_, rfl, hlk⟩, hlab, h4, h5, h6, h7, h8, h9⟩

/-- C84: which columns are discretised. With the numpy engine a column is given bins exactly when it is numeric, not
ignored, has more than `n_discretize_bins` different values, at least two bins are asked for, and its least and its
greatest number differ after rounding to `names_precision` places; it then has exactly `n_discretize_bins` labels. -/
theorem C84_which_columns (F : PyFloat) (N : NumpyCalc) (hN : N.Lawful F) (n : Option Nat) (df : TFrame) (hw : df.WF)
    (hc : df.cols.Nodup) (ignore : List Feat) (b : Binner) (h : Binner.fitNumpy F N n df ignore = .ok b) :
    (∀ f, f ∈ b.bins.map Prod.fst ↔ ∃ k lo hi, n = some k ∧ 2 ≤ k ∧ ContinuousBut k df ignore f ∧
      Extremes df f lo hi ∧ N.round lo ≠ N.round hi) ∧
    (∀ f labels, (f, labels) ∈ b.bins → n = some labels.length) ∧ (b.bins.map Prod.fst).Nodup := by
  refine ⟨?_, ?_, fitNumpy_keys hc h⟩
  · intro f
    constructor
    · intro hf
      obtain ⟨⟨f', labels⟩, hm, rfl⟩ := List.mem_map.mp hf
      obtain ⟨k, lo, hi, ts, h1, h2, h3, h4, h5, _⟩ := fitNumpy_column hN hw hc h hm
      exact ⟨k, lo, hi, h1, h2, h3, h4, h5⟩
    · rintro ⟨k, lo, hi, rfl, hk, hcont, hx, hr⟩
      obtain ⟨out, hl, rfl⟩ := fitNumpy_ok h
      have hq := more_values_number hw (by omega) hcont
      obtain ⟨rfl, rfl⟩ := extremes_unique hx (extremes_of_numbers hq)
      rcases numpyCut_cases hN (n := k) (by omega) hq with ⟨h3, _⟩ | ⟨_, h3, _⟩ | ⟨_, ts, h3, h4, _⟩
      · exact absurd (by rw [h3]) hr
      · exact absurd h3 hr
      · have hm := ((fitLoop_ok hl).1 f _ ts).mpr ⟨(continuousFeats_but _ df ignore f).mpr ⟨k, rfl, by omega, hcont⟩,
          h3, rfl, by rw [fitFeatNumpy_length, h4]; omega⟩
        exact List.mem_map.mpr ⟨(f, _), List.mem_map.mpr ⟨_, hm, rfl⟩, rfl⟩
  · intro f labels hf
    obtain ⟨k, lo, hi, ts, h1, _, _, _, _, _, hlab, hlen, _⟩ := fitNumpy_column hN hw hc h hf
    rw [h1, hlab, fitFeatNumpy_length, hlen]
    rfl

/-! ### transforming -/

/-- In a nondecreasing list, position `i` is at most `q` iff more than `i` members are. -/
theorem countP_nondecreasing : ∀ {ts : List Rat} (_ : ts.Pairwise (· ≤ ·)) {i : Nat} {a : Rat} (_ : ts[i]? = some a)
    (q : Rat), a ≤ q ↔ i < ts.countP (fun t => decide (t ≤ q))
  | [], _, i, a, h, q => by simp at h
  | t :: ts, hp, i, a, h, q => by
    have hp' := List.pairwise_cons.mp hp
    rw [List.countP_cons]
    cases i with
    | zero =>
      simp only [List.getElem?_cons_zero, Option.some.injEq] at h
      subst h
      by_cases hq : t ≤ q
      · simp [hq]
      · have : ts.countP (fun t => decide (t ≤ q)) = 0 := by
          rw [List.countP_eq_zero]
          intro x hx
          have := hp'.1 x hx
          simp only [decide_eq_true_eq, not_le]
          linarith
        simp [hq, this]
    | succ i =>
      simp only [List.getElem?_cons_succ] at h
      rw [countP_nondecreasing hp'.2 h q]
      by_cases hq : t ≤ q
      · simp [hq]
      · have : ts.countP (fun t => decide (t ≤ q)) = 0 := by
          rw [List.countP_eq_zero]
          intro x hx
          have := hp'.1 x hx
          simp only [decide_eq_true_eq, not_le]
          linarith
        simp [hq, this]

namespace Spec
/-- The bin of a number: bin `i` of `k`, where the thresholds are `ts`; the lower threshold belongs to the bin, the
upper does not; the first bin has no lower end and the last no upper end. -/
def InBin (ts : List Rat) (k : Nat) (q : Rat) (i : Nat) : Prop :=
  i < k ∧ (i = 0 ∨ ∃ a, ts[i]? = some a ∧ a ≤ q) ∧ (i + 1 = k ∨ ∃ b, ts[i + 1]? = some b ∧ q < b)
/-- The ranges the labels of `k` bins stand for: consecutive thresholds, the first without lower end, the last
without upper end. -/
def BinRange (ts : List Rat) (k i : Nat) (iv : Interval) : Prop :=
  ∃ a b, ts[i]? = some a ∧ ts[i + 1]? = some b ∧ iv.left = (if i = 0 then .ninf else .fin a) ∧
    iv.right = (if i + 1 = k then .pinf else .fin b)
end Spec

theorem inBin_mono {ts : List Rat} (hp : ts.Pairwise (· ≤ ·)) {k : Nat} {q q' : Rat} {i j : Nat}
    (h : InBin ts k q i) (h' : InBin ts k q' j) (hq : q ≤ q') : i ≤ j := by
  by_contra hlt
  push Not at hlt
  obtain ⟨hi, h1, _⟩ := h
  obtain ⟨_, _, h2⟩ := h'
  rcases h1 with rfl | ⟨a, ha, haq⟩
  · omega
  · rcases h2 with h2 | ⟨b, hb, hqb⟩
    · omega
    · obtain ⟨l1, e1⟩ := List.getElem?_eq_some_iff.mp ha
      obtain ⟨l2, e2⟩ := List.getElem?_eq_some_iff.mp hb
      have : b ≤ a := by
        rw [← e1, ← e2]
        rcases Nat.lt_or_ge (j + 1) i with hc | hc
        · exact List.pairwise_iff_getElem.mp hp _ _ l2 l1 hc
        · have : j + 1 = i := by omega
          subst this; exact le_refl _
      linarith

theorem inBin_digitize {ts : List Rat} (hp : ts.Pairwise (· ≤ ·)) {k : Nat} (hk : 0 < k) (hl : ts.length = k + 1)
    (q : Rat) (t : PStr) : InBin ts k q (min (max (digitize ts (.num q t)) 1) k - 1) := by
  have hget : ∀ i, i < k + 1 → ∃ a, ts[i]? = some a := fun i hi => ⟨_, List.getElem?_eq_getElem (by omega)⟩
  simp only [digitize]
  generalize hc : ts.countP (fun t => decide (t ≤ q)) = c
  refine ⟨by omega, ?_, ?_⟩
  · by_cases h0 : min (max c 1) k - 1 = 0
    · exact Or.inl h0
    · obtain ⟨a, ha⟩ := hget (min (max c 1) k - 1) (by omega)
      refine Or.inr ⟨a, ha, (countP_nondecreasing hp ha q).mpr ?_⟩
      rw [hc]; omega
  · by_cases h0 : min (max c 1) k - 1 + 1 = k
    · exact Or.inl h0
    · obtain ⟨a, ha⟩ := hget (min (max c 1) k - 1 + 1) (by omega)
      refine Or.inr ⟨a, ha, not_le.mp (fun h => ?_)⟩
      have := (countP_nondecreasing hp ha q).mp h
      rw [hc] at this; omega

/-- C84: transforming with bins fitted by the numpy engine. It succeeds on any table unless a fitted column already
holds foreign text. The `n` labels of a column are readable as the ranges between the thresholds, which go up (not
necessarily strictly) from the rounded least to the rounded greatest training number: the rounded quantiles if they
are all different, otherwise the rounded evenly spaced points; every number, seen in training
or not, gets the label of its bin (the lower threshold belongs to the bin, the upper does not); a missing value gets
the last label; no cell becomes missing; and a larger number never gets an earlier bin. -/
theorem C84_transform (F : PyFloat) (hF : F.Lawful) (N : NumpyCalc) (hN : N.Lawful F) (n : Option Nat) (df X : TFrame)
    (hw : df.WF) (hc : df.cols.Nodup) (ignore : List Feat) (b : Binner)
    (h : Binner.fitNumpy F N n df ignore = .ok b) (hX : ¬ BadText b X) :
    ∃ X', b.transform F X = .ok X' ∧ X'.cols = X.cols ∧ X'.index = X.index ∧
      (∀ f, (f ∉ b.bins.map Prod.fst ∨ X.kind f = .text) → column X' f = column X f) ∧
      ∀ f labels, (f, labels) ∈ b.bins → f ∈ X.cols → X.kind f = .number →
        ∃ (ts : List Rat) (ivs : List Interval) (g : Val → Val) (lo hi : Rat), Extremes df f lo hi ∧
          ts.Pairwise (· ≤ ·) ∧ ts.length = labels.length + 1 ∧ ts.head? = some (N.round lo) ∧
          ts.getLast? = some (N.round hi) ∧ CutPoints N labels.length (numbersOf (column df f)) lo hi ts ∧ Ranges F labels ivs ∧
          (∀ i iv, ivs[i]? = some iv → BinRange ts labels.length i iv) ∧
          column X' f = (column X f).map g ∧
          (∀ q t, ∃ i l, InBin ts labels.length q i ∧ labels[i]? = some l ∧ g (.num q t) = .str l) ∧
          (∀ q q' i j, InBin ts labels.length q i → InBin ts labels.length q' j → q ≤ q' → i ≤ j) ∧
          ∃ l, labels.getLast? = some l ∧ g .nan = .str l := by
  have hkeys := fitNumpy_keys hc h
  have hfeat : ∀ f labels, (f, labels) ∈ b.bins → ∃ ts, featTransform F b f labels = .ok (digitizeCell ts labels) ∧
      (∃ tss, b.thresholds = some tss ∧ tss.lookup f = some ts) := by
    intro f labels hf
    obtain ⟨k, lo, hi, ts, _, _, _, _, _, ⟨tss, ht, hlk⟩, _⟩ := fitNumpy_column hN hw hc h hf
    exact ⟨ts, by simp only [featTransform, ht, hlk], tss, ht, hlk⟩
  have htot : ∃ X', b.transform F X = .ok X' := by
    unfold Binner.transform
    rw [findTransformed_eq, if_neg hX, ok_bind]
    exact transformLoop_total (fun f labels hf => ⟨_, (hfeat f labels hf).choose_spec.1⟩)
  obtain ⟨X', hX'⟩ := htot
  obtain ⟨hcols, hidx, hrest⟩ := C51_touches_only_fitted F b hkeys X X' hX'
  refine ⟨X', hX', hcols, hidx, fun f hf => (hrest f hf).1, ?_⟩
  intro f labels hf hfX hk
  obtain ⟨_, G, K, h1, _, h3⟩ := transform_ok hkeys hX'
  obtain ⟨hg, _⟩ := h3 f labels hf hfX (by rw [hk]; decide)
  obtain ⟨k, lo, hi, ts, _, hk2, _, hx, _, ⟨tss, ht, hlk⟩, hlab, hlen, hp, hrep, hfirst, hlast, hcut⟩ :=
    fitNumpy_column hN hw hc h hf
  have hG : digitizeCell ts labels = G f := by
    have : featTransform F b f labels = .ok (digitizeCell ts labels) := by simp only [featTransform, ht, hlk]
    rw [this] at hg
    injection hg
  have hll : labels.length = k := by rw [hlab, fitFeatNumpy_length, hlen]; rfl
  refine ⟨ts, extendEnds (pairsOf ts), G f, lo, hi, hx, hp, by rw [hll, hlen], ?_, ?_, by rw [hll]; exact hcut, ?_, ?_, by rw [h1, column_mapAll],
    ?_, fun q q' i j h h' => inBin_mono hp h h', ?_⟩
  · rw [List.head?_eq_getElem?]; exact hfirst
  · rw [List.getLast?_eq_getElem?, hlen]; exact hlast
  · constructor
    · rw [hlab]
      apply mapM_text hF
      apply extendEnds_proper
      intro p hp'
      have := pairsOf_mem_breaks hp'
      exact ⟨hrep _ this.1, hrep _ this.2⟩
    · rw [extendEnds_length, pairsOf_length, hlen, hll]; rfl
  · intro i iv hiv
    have hi : i < k := by
      have := (List.getElem?_eq_some_iff.mp hiv).1
      rw [extendEnds_length, pairsOf_length, hlen] at this
      omega
    have ha : ts[i]? = some ts[i] := List.getElem?_eq_getElem (by omega)
    have hb : ts[i + 1]? = some ts[i + 1] := List.getElem?_eq_getElem (by omega)
    refine ⟨_, _, ha, hb, ?_⟩
    have := extendEnds_get ha hb
    rw [this] at hiv
    injection hiv with hiv
    rw [← hiv, hll]
    refine ⟨rfl, ?_⟩
    dsimp only
    by_cases hik : i + 1 = k
    · rw [if_pos hik, if_pos (by omega)]
    · rw [if_neg hik, if_neg (by omega)]
  · intro q t
    have hin := inBin_digitize hp (by omega) hlen q t
    rw [hll]
    refine ⟨_, labels[min (max (digitize ts (.num q t)) 1) k - 1]'(by rw [hll]; exact hin.1), hin, List.getElem?_eq_getElem _, ?_⟩
    rw [← hG]
    have : labels[min (max (digitize ts (.num q t)) 1) labels.length - 1]? =
        some (labels[min (max (digitize ts (.num q t)) 1) k - 1]'(by rw [hll]; exact hin.1)) := by
      simp only [hll]; exact List.getElem?_eq_getElem _
    simp only [digitizeCell, this]
  · obtain ⟨l, e1, e2, _⟩ := C49_numpy_missing_is_highest F ts (by omega)
    rw [← hlab] at e1 e2
    exact ⟨l, e1, by rw [← hG]; exact e2⟩

/-- C84: `fit_transform` on the table itself fails exactly when fitting fails; otherwise it gives the fitted bins and
what `transform` gives with them. -/
theorem C84_fit_transform (F : PyFloat) (hF : F.Lawful) (N : NumpyCalc) (hN : N.Lawful F) (n : Option Nat) (df : TFrame)
    (hw : df.WF) (hc : df.cols.Nodup) (ignore : List Feat) :
    (∀ e, Binner.fitTransformNumpy F N n df ignore = .error e ↔ Binner.fitNumpy F N n df ignore = .error e) ∧
    ∀ b, Binner.fitNumpy F N n df ignore = .ok b →
      ∃ X', b.transform F df = .ok X' ∧ Binner.fitTransformNumpy F N n df ignore = .ok (b, X') := by
  have hok : ∀ b, Binner.fitNumpy F N n df ignore = .ok b →
      ∃ X', b.transform F df = .ok X' ∧ Binner.fitTransformNumpy F N n df ignore = .ok (b, X') := by
    intro b h
    have hX : ¬ BadText b df := by
      rintro ⟨f, labels, hf, _, hk, _⟩
      obtain ⟨k, lo, hi, ts, _, _, hcont, _⟩ := fitNumpy_column hN hw hc h hf
      rw [hcont.2.2.1] at hk
      cases hk
    obtain ⟨X', h', _⟩ := C84_transform F hF N hN n df df hw hc ignore b h hX
    exact ⟨X', h', by unfold Binner.fitTransformNumpy; rw [h, ok_bind, h', ok_bind]; rfl⟩
  refine ⟨fun e => ?_, hok⟩
  cases h : Binner.fitNumpy F N n df ignore with
  | error e' => unfold Binner.fitTransformNumpy; rw [h, error_bind]; constructor <;> (intro h; cases h; rfl)
  | ok b =>
    obtain ⟨X', _, h'⟩ := hok b h
    rw [h']
    constructor <;> (intro h; cases h)

namespace Demo
/-- numpy computed exactly, rounding to whole numbers (`names_precision=0`). -/
def N0 : NumpyCalc := NumpyCalc.exact 0
theorem N0_lawful : N0.Lawful F := NumpyCalc.exact_lawful F 0 (fun k => by
  show ((k : Rat) / 10 ^ 0).den = 1
  simp)
/-- A numeric column with the given numbers. -/
def numbers (qs : List Rat) : TFrame :=
  { Frame.ofTable [fa] (qs.zipIdx.map (fun p => ((p.2 : Int), [Val.num p.1 p!"x"]))) with kind := fun _ => .number }
/-- A numeric column of sevens with a missing value. -/
def sevens : TFrame :=
  { Frame.ofTable [fa] [(0, [.num 7 p!"7"]), (1, [.nan]), (2, [.num 7 p!"7.0"])] with kind := fun _ => .number }
theorem numbers_wf (qs : List Rat) : (numbers qs).WF := by
  intro f _ _ row hrow s
  simp only [numbers, Frame.ofTable, List.mem_map] at hrow
  obtain ⟨_, ⟨p, _, rfl⟩, rfl⟩ := hrow
  by_cases h : f = fa
  · subst h; simp
  · simp [List.lookup_cons, beq_false_of_ne h]
theorem sevens_missing : OneNumberAndMissing sevens fa := by
  have hc : column sevens fa = [.num 7 p!"7", .nan, .num 7 p!"7.0"] := by decide +kernel
  refine ⟨by rw [hc]; decide, 7, ⟨p!"7", by rw [hc]; decide⟩, ?_⟩
  rw [hc]
  intro v hv
  simp only [List.mem_cons, List.not_mem_nil, or_false] at hv
  rcases hv with rfl | rfl | rfl
  · exact Or.inr ⟨_, rfl⟩
  · exact Or.inl rfl
  · exact Or.inr ⟨_, rfl⟩
end Demo

-- Quartiles of 1, 2, 4, 8, 16, 32: 2.5, 6 and 14, with 2.5 rounded to the even 2.
example : Binner.fitNumpy Demo.F Demo.N0 (some 4) (Demo.numbers [1, 2, 4, 8, 16, 32]) [] =
      .ok { bins := [(Demo.fa, [p!"<2.0", p!"2.0 - 6.0", p!"6.0 - 14.0", p!">14.0"])],
            thresholds := some [(Demo.fa, [1, 2, 6, 14, 32])] } := by
  decide +kernel

example : ∃ b, Binner.fitNumpy Demo.F Demo.N0 (some 4) (Demo.numbers [1, 2, 4, 8, 16, 32]) [] = .ok b ∧
    (Demo.numbers [1, 2, 4, 8, 16, 32]).cols.Nodup ∧ ¬ BadText b Demo.fresh := by
  refine ⟨{ bins := [(Demo.fa, [p!"<2.0", p!"2.0 - 6.0", p!"6.0 - 14.0", p!">14.0"])],
            thresholds := some [(Demo.fa, [1, 2, 6, 14, 32])] }, by decide +kernel, by decide +kernel, ?_⟩
  rintro ⟨f, l, h1, h2, h3, _⟩
  exact absurd h3 (by simp [Demo.fresh])

/-- C84: the AttributeError does happen: one bin, a column of sevens with a missing value. -/
theorem C84_refuted_one_number (ignore : List Feat) (hi : Demo.fa ∉ ignore) :
    Binner.fitNumpy Demo.F Demo.N0 (some 1) Demo.sevens ignore = .error .attributeError := by
  refine (C84_fit_fails_iff Demo.F Demo.N0 Demo.N0_lawful (some 1) Demo.sevens ?_ ignore _).mpr
    ⟨rfl, rfl, Demo.fa, by decide +kernel, hi, rfl, Demo.sevens_missing⟩
  intro f hf _ row hrow s
  have hf' : f = Demo.fa := by simpa [Demo.sevens, Frame.ofTable] using hf
  subst hf'
  have : row.cell Demo.fa ∈ column Demo.sevens Demo.fa := List.mem_map.mpr ⟨row, hrow, rfl⟩
  obtain ⟨_, _, _, hall⟩ := Demo.sevens_missing
  rcases hall _ this with h | ⟨_, h⟩ <;> rw [h] <;> exact fun h' => by cases h'

/-- C84: a continuous column whose numbers agree after rounding is silently left as it is, however many different
numbers it has (here five numbers in tenths, with whole-number precision): its values stay numbers. -/
theorem C84_refuted_small_scale :
    ContinuousBut 2 (Demo.numbers [1/10, 2/10, 3/10, 4/10, -1/10]) [] Demo.fa ∧
    Binner.fitNumpy Demo.F Demo.N0 (some 2) (Demo.numbers [1/10, 2/10, 3/10, 4/10, -1/10]) [] =
      .ok { bins := [],
            thresholds := some [] } := by
  refine ⟨⟨by decide +kernel, by simp, rfl, ?_⟩, by decide +kernel⟩
  rw [← unique_length]
  decide +kernel

/-- C84: labels of empty ranges. On skewed data the quantiles coincide, the evenly spaced points are rounded, and
two of them may be equal: two labels with the same end, one of them the range from 1 to 1, which holds no number. -/
theorem C84_refuted_empty_range :
    Binner.fitNumpy Demo.F Demo.N0 (some 4) (Demo.numbers [0, 0, 0, 0, 1/10, 2/10, 3/10, 4/10, 3/2]) [] =
      .ok { bins := [(Demo.fa, [p!"<0.0", p!"0.0 - 1.0", p!"1.0 - 1.0", p!">1.0"])],
            thresholds := some [(Demo.fa, [0, 0, 1, 1, 2])] } ∧
    textInterval Demo.F p!"1.0 - 1.0" = .ok ⟨.fin 1, .fin 1⟩ ∧ ∀ q, ¬ Inside ⟨.fin 1, .fin 1⟩ q := by
  refine ⟨by decide +kernel, by decide +kernel, ?_⟩
  rintro q ⟨h1, h2⟩
  rcases h1 with h1 | ⟨a, h1, h1'⟩
  · cases h1
  · rcases h2 with h2 | ⟨b, h2, h2'⟩
    · cases h2
    · injection h1 with h1; injection h2 with h2
      linarith

end Witt
