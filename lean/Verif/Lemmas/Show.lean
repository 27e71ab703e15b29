import Verif.Lemmas.Roundtrip
import Verif.Show
/-
Lemmas on the printed model.
-/
namespace Witt

/-- The four replacements of base.py 85-91 at once, on one character. -/
def prettyChar (x : Char) : PStr :=
  if x = ' ' ∨ x = '\'' then [] else if x = ',' then p!" V\n" else if x = '^' then p!" ^ " else [x]

theorem pretty_eq_flatMap (s : PStr) :
    replChar '^' p!" ^ " (dropChar '\'' (replChar ',' p!" V\n" (dropChar ' ' s))) = s.flatMap prettyChar := by
  induction s with
  | nil => rfl
  | cons x s ih =>
    have e : ∀ y : PStr, replChar '^' p!" ^ " (dropChar '\'' (replChar ',' p!" V\n" (dropChar ' ' (x :: y))))
        = prettyChar x ++ replChar '^' p!" ^ " (dropChar '\'' (replChar ',' p!" V\n" (dropChar ' ' y))) := by
      intro y
      unfold prettyChar
      by_cases h1 : x = ' '
      · subst h1; simp [dropChar]
      · by_cases h2 : x = '\''
        · subst h2; simp [dropChar, replChar]
        · by_cases h3 : x = ','
          · subst h3; simp [dropChar, replChar]
          · by_cases h4 : x = '^'
            · subst h4; simp [dropChar, replChar]
            · simp [dropChar, replChar, h1, h2, h3, h4]
    rw [e, ih, List.flatMap_cons]

/-- A text with each backslash doubled and a space on both sides of each `^`. -/
def shownText (t : PStr) : PStr :=
  t.flatMap (fun x => if x = '^' then p!" ^ " else if x = '\\' then p!"\\\\" else [x])

/-- What the text of a rule is made of. -/
theorem ruleText_chars (cs : List Cond) : ∀ c ∈ condsText cs, pyIsSpace c = false ∧
    ¬ (c.toNat < 32 ∨ (127 ≤ c.toNat ∧ c.toNat ≤ 160)) ∧ c ≠ '\'' ∧ c ≠ ',' := by
  intro c hc
  by_cases hcs : cs = []
  · subst hcs
    have : condsText [] = p!"[True]" := rfl
    rw [this] at hc
    revert c; decide
  · by_cases hb : c = '[' ∨ c = ']'
    · rcases hb with rfl | rfl <;> decide
    · push Not at hb
      have hd : c ∈ dropBrackets (condsText cs) := by
        simp only [dropBrackets, dropChar, List.mem_filter, bne_iff_ne]
        exact ⟨⟨hc, hb.1⟩, hb.2⟩
      rw [dropBrackets_condsText hcs] at hd
      rcases mem_pyJoin hd with hx | ⟨t, ht, hx⟩
      · simp only [List.mem_singleton] at hx; subst hx; decide
      · obtain ⟨d, _, rfl⟩ := List.mem_map.1 ht
        have := printed_chars _ c hx
        exact ⟨this.1, this.2.1, this.2.2.1, this.2.2.2.1⟩

/-- How a rule's text appears in the printed list. -/
theorem repr_shown {t : PStr} (h : ∀ c ∈ t, pyIsSpace c = false ∧
    ¬ (c.toNat < 32 ∨ (127 ≤ c.toNat ∧ c.toNat ≤ 160)) ∧ c ≠ '\'' ∧ c ≠ ',') :
    (pyRepr t).flatMap prettyChar = shownText t := by
  have hq : t.contains '\'' = false := by
    cases hc : t.contains '\''
    · rfl
    · exact absurd rfl (h _ (List.contains_iff_mem.1 hc)).2.2.1
  unfold pyRepr
  simp only [hq, Bool.false_and, Bool.false_eq_true, if_false, List.flatMap_append, List.flatMap_assoc]
  have e1 : ['\''].flatMap prettyChar = [] := by decide
  rw [e1, List.nil_append, List.append_nil]
  unfold shownText
  clear hq
  induction t with
  | nil => rfl
  | cons x t ih =>
    rw [List.flatMap_cons, List.flatMap_cons, ih (fun c hc => h c (by simp [hc]))]
    congr 1
    obtain ⟨q1, q2, q3, q4⟩ := h x (by simp)
    have hsp : x ≠ ' ' := by rintro rfl; revert q1; decide
    have hn : x ≠ '\n' ∧ x ≠ '\r' ∧ x ≠ '\t' := by
      refine ⟨?_, ?_, ?_⟩ <;> (rintro rfl; revert q1; decide)
    by_cases hb : x = '\\'
    · subst hb; decide
    · rw [reprChar, if_neg hb, if_neg q3, if_neg hn.1, if_neg hn.2.1, if_neg hn.2.2, if_neg q2,
        if_neg (by simp [q1])]
      simp only [List.flatMap_cons, List.flatMap_nil, List.append_nil, prettyChar, hsp, q3, q4, hb, or_self, if_false]

theorem pretty_join (ts : List PStr) (h : ∀ t ∈ ts, ∀ c ∈ t, pyIsSpace c = false ∧
    ¬ (c.toNat < 32 ∨ (127 ≤ c.toNat ∧ c.toNat ≤ 160)) ∧ c ≠ '\'' ∧ c ≠ ',') :
    (pyJoin [',', ' '] (ts.map pyRepr)).flatMap prettyChar = pyJoin p!" V\n" (ts.map shownText) := by
  induction ts with
  | nil => rfl
  | cons t ts ih =>
    cases ts with
    | nil => exact repr_shown (h t (by simp))
    | cons u us =>
      have := ih (fun x hx => h x (by simp [hx]))
      simp only [List.map_cons, pyJoin, List.flatMap_append, repr_shown (h t (by simp))] at *
      rw [this]; simp [prettyChar]

/-- What `out_pretty` prints, exactly. -/
theorem pretty_eq (rs : Ruleset) :
    rs.pretty = ['['] ++ pyJoin p!" V\n" (rs.rules.map (fun r => shownText r.text)) ++ [']'] := by
  unfold Ruleset.pretty
  rw [pretty_eq_flatMap, pyReprList, List.flatMap_append, List.flatMap_append, pretty_join]
  · simp [prettyChar, Function.comp_def]
  · intro t ht
    obtain ⟨r, _, rfl⟩ := List.mem_map.1 ht
    exact ruleText_chars r.conds

theorem shown_notin {x : Char} (hx : x ≠ ' ' ∧ x ≠ '^' ∧ x ≠ '\\') {t : PStr} (h : x ∉ t) : x ∉ shownText t := by
  unfold shownText
  intro hm
  obtain ⟨c, hc, hcx⟩ := List.mem_flatMap.1 hm
  split_ifs at hcx
  · simp at hcx; tauto
  · simp at hcx; tauto
  · simp at hcx; subst hcx; exact h hc

theorem shown_mem {x : Char} (hx : x ≠ ' ') {t : PStr} (h : x ∈ shownText t) : x ∈ t := by
  unfold shownText at h
  obtain ⟨c, hc, hcx⟩ := List.mem_flatMap.1 h
  split_ifs at hcx with h1 h2
  · simp [hx] at hcx; subst h1; rwa [hcx]
  · simp at hcx; subst h2; rwa [hcx]
  · simp at hcx; subst hcx; exact hc

/-! ### white space around conditions -/

theorem strip_left {w x : PStr} (hw : ∀ c ∈ w, pyIsSpace c = true) : pyStrip (w ++ x) = pyStrip x := by
  unfold pyStrip
  rw [dropWhile_all hw]

theorem strip_right {w x : PStr} (hw : ∀ c ∈ w, pyIsSpace c = true) : pyStrip (x ++ w) = pyStrip x := by
  have key : ∀ y : PStr, ((y ++ w).reverse.dropWhile pyIsSpace) = y.reverse.dropWhile pyIsSpace := by
    intro y
    rw [List.reverse_append, dropWhile_all (by intro c hc; exact hw c (List.mem_reverse.1 hc))]
  unfold pyStrip
  by_cases h : ∀ c ∈ x, pyIsSpace c = true
  · have e : ∀ z : PStr, (∀ c ∈ z, pyIsSpace c = true) → z.dropWhile pyIsSpace = [] := by
      intro z hz
      have := dropWhile_all (b := []) hz
      simpa using this
    rw [e x h, e (x ++ w) (by intro c hc; rcases List.mem_append.1 hc with hc | hc; exacts [h c hc, hw c hc])]
  · have e : (x ++ w).dropWhile pyIsSpace = x.dropWhile pyIsSpace ++ w := by
      clear key
      induction x with
      | nil => simp at h
      | cons a x ih =>
        by_cases ha : pyIsSpace a = true
        · rw [List.cons_append, List.dropWhile_cons_of_pos ha, List.dropWhile_cons_of_pos ha]
          apply ih
          intro h'
          apply h
          intro c hc
          rcases List.mem_cons.1 hc with rfl | hc
          · exact ha
          · exact h' c hc
        · rw [List.cons_append, List.dropWhile_cons_of_neg ha, List.dropWhile_cons_of_neg ha]
          rfl
    rw [e, key]

theorem split_left {c : Char} {a : PStr} (ha : c ∉ a) (q : PStr) :
    ∃ p ps, splitChar c q = p :: ps ∧ splitChar c (a ++ q) = (a ++ p) :: ps := by
  induction a with
  | nil =>
    cases h : splitChar c q with
    | nil => exact absurd h (splitChar_ne_nil _ _)
    | cons p ps => exact ⟨p, ps, rfl, by simp [h]⟩
  | cons x a ih =>
    obtain ⟨p, ps, h1, h2⟩ := ih (fun h => ha (by simp [h]))
    refine ⟨p, ps, h1, ?_⟩
    have hx : x ≠ c := by rintro rfl; exact ha (by simp)
    rw [List.cons_append, splitChar, if_neg hx, h2]
    rfl

theorem split_right {c : Char} {b : PStr} (hb : c ∉ b) (q : PStr) :
    ∃ ps p, splitChar c q = ps ++ [p] ∧ splitChar c (q ++ b) = ps ++ [p ++ b] := by
  induction q with
  | nil => exact ⟨[], [], rfl, by rw [List.nil_append, splitChar_single _ _ hb]; rfl⟩
  | cons x q ih =>
    obtain ⟨ps, p, h1, h2⟩ := ih
    by_cases hx : x = c
    · refine ⟨[] :: ps, p, ?_, ?_⟩
      · rw [splitChar, if_pos hx, h1]; rfl
      · rw [List.cons_append, splitChar, if_pos hx, h2]; rfl
    · cases ps with
      | nil =>
        refine ⟨[], x :: p, ?_, ?_⟩
        · rw [splitChar, if_neg hx, h1]; rfl
        · rw [List.cons_append, splitChar, if_neg hx, h2]; rfl
      | cons y ys =>
        refine ⟨(x :: y) :: ys, p, ?_, ?_⟩
        · rw [splitChar, if_neg hx, h1]; rfl
        · rw [List.cons_append, splitChar, if_neg hx, h2]; rfl

/-- White space around a condition does not matter. -/
theorem condFromStr_pad {a b : PStr} (ha : ∀ x ∈ a, pyIsSpace x = true) (hb : ∀ x ∈ b, pyIsSpace x = true) (q : PStr) :
    condFromStr (a ++ q ++ b) = condFromStr q := by
  have hne : ∀ {s : PStr}, (∀ x ∈ s, pyIsSpace x = true) → '=' ∉ s := by
    intro s hs he; have := hs _ he; revert this; decide
  have e : (splitChar '=' (a ++ q ++ b)).map pyStrip = (splitChar '=' q).map pyStrip := by
    obtain ⟨ps, p, h1, h2⟩ := split_right (hne hb) (a ++ q)
    obtain ⟨r, rs, h3, h4⟩ := split_left (hne ha) q
    rw [h2, List.map_append, List.map_singleton, strip_right hb, ← List.map_singleton, ← List.map_append, ← h1, h4, h3,
      List.map_cons, List.map_cons, strip_left ha]
  unfold condFromStr
  rw [e]

/-- A space on both sides of each `^`. -/
def spaced (t : PStr) : PStr := replChar '^' p!" ^ " t

theorem spaced_append (a b : PStr) : spaced (a ++ b) = spaced a ++ spaced b := by simp [spaced, replChar]

theorem spaced_id {t : PStr} (h : '^' ∉ t) : spaced t = t := by
  induction t with
  | nil => rfl
  | cons x t ih =>
    have hx : x ≠ '^' := by rintro rfl; exact h (by simp)
    have : spaced (x :: t) = x :: spaced t := by simp [spaced, replChar, hx]
    rw [this, ih (fun hm => h (by simp [hm]))]

theorem spaced_join {ps : List PStr} (h : ∀ p ∈ ps, '^' ∉ p) : spaced (pyJoin ['^'] ps) = pyJoin p!" ^ " ps := by
  induction ps with
  | nil => rfl
  | cons p ps ih =>
    cases ps with
    | nil => exact spaced_id (h p (by simp))
    | cons q qs =>
      have := ih (fun x hx => h x (by simp [hx]))
      simp only [pyJoin, spaced_append, this, spaced_id (h p (by simp))]
      rfl

theorem dropBrackets_spaced (t : PStr) : dropBrackets (spaced t) = spaced (dropBrackets t) := by
  induction t with
  | nil => rfl
  | cons x t ih =>
    have e1 : spaced (x :: t) = spaced [x] ++ spaced t := by rw [← spaced_append]; rfl
    have e2 : dropBrackets (x :: t) = dropBrackets [x] ++ dropBrackets t := by rw [← dropBrackets_append]; rfl
    rw [e1, e2, dropBrackets_append, spaced_append, ih]
    congr 1
    by_cases h : x = '^'
    · subst h; decide
    · by_cases h1 : x = '['
      · subst h1; decide
      · by_cases h2 : x = ']'
        · subst h2; decide
        · simp [spaced, replChar, dropBrackets, dropChar, h, h1, h2]

/-- Spaces around `^` do not matter to the parser. -/
theorem ruleFromStr_spaced (s : PStr) : ruleFromStr (spaced s) = ruleFromStr s := by
  by_cases hm : '^' ∈ s
  · have hs : '^' ∈ spaced s := by
      unfold spaced replChar
      exact List.mem_flatMap.2 ⟨'^', hm, by simp⟩
    have lit : ∀ {t : PStr}, '^' ∈ t → ¬ (t = p!"True" ∨ t = p!"[True]" ∨ t = p!"[]") := by
      rintro t ht (rfl | rfl | rfl) <;> (revert ht; decide)
    unfold ruleFromStr
    rw [if_neg (lit hs), if_neg (lit hm), dropBrackets_spaced]
    generalize dropBrackets s = d
    have e : (splitChar '^' (spaced d)).mapM condFromStr = (splitChar '^' d).mapM condFromStr := by
      have hj := splitChar_join '^' d
      have hn := splitChar_notin '^' d
      have hne := splitChar_ne_nil '^' d
      have hsp := splitChar_padded '^' [' '] [' '] (by decide) (by decide) [] (by simp) (splitChar '^' d) hne hn [] (by simp)
      have h2 : spaced d = pyJoin ([' '] ++ '^' :: [' ']) (splitChar '^' d) := by
        conv => lhs; rw [← hj]
        rw [spaced_join hn]; rfl
      rw [List.nil_append, List.append_nil, ← h2] at hsp
      generalize splitChar '^' (spaced d) = l at hsp
      generalize splitChar '^' d = r at hsp
      induction hsp with
      | nil => rfl
      | cons hp _ ih =>
        obtain ⟨a', b', ha, hb, rfl⟩ := hp
        rw [List.mapM_cons, List.mapM_cons, condFromStr_pad, ih]
        · rcases ha with rfl | rfl <;> decide
        · rcases hb with rfl | rfl <;> decide
    rw [e]
  · rw [spaced_id hm]

/-! ### backslashes -/

/-- Each backslash doubled. -/
def doubled (t : PStr) : PStr := replChar '\\' p!"\\\\" t

theorem shown_eq (t : PStr) : shownText t = spaced (doubled t) := by
  unfold shownText spaced doubled replChar
  rw [List.flatMap_assoc]
  congr 1
  funext x
  by_cases h : x = '^'
  · subst h; decide
  · by_cases h2 : x = '\\'
    · subst h2; decide
    · simp [h, h2]

theorem doubled_id {t : PStr} (h : '\\' ∉ t) : doubled t = t := by
  induction t with
  | nil => rfl
  | cons x t ih =>
    have hx : x ≠ '\\' := by rintro rfl; exact h (by simp)
    have : doubled (x :: t) = x :: doubled t := by simp [doubled, replChar, hx]
    rw [this, ih (fun hm => h (by simp [hm]))]

theorem doubled_count (t : PStr) : (doubled t).count '\\' = 2 * t.count '\\' := by
  induction t with
  | nil => rfl
  | cons x t ih =>
    have e : doubled (x :: t) = doubled [x] ++ doubled t := by simp [doubled, replChar]
    rw [e, List.count_append, ih]
    by_cases hx : x = '\\'
    · subst hx
      have : (doubled ['\\']).count '\\' = 2 := by decide
      rw [this]; simp; omega
    · have : doubled [x] = [x] := by simp [doubled, replChar, hx]
      rw [this]; simp [hx]

/-- The backslashes of the conditions of a rule. -/
def slashes (cs : List Cond) : Nat := (cs.map (fun c => c.text.count '\\')).sum

theorem strip_count {x : Char} (hx : pyIsSpace x = false) (s : PStr) : (pyStrip s).count x = s.count x := by
  have key : ∀ t : PStr, (t.dropWhile pyIsSpace).count x = t.count x := by
    intro t
    induction t with
    | nil => rfl
    | cons y t ih =>
      by_cases hy : pyIsSpace y = true
      · have : y ≠ x := by rintro rfl; rw [hx] at hy; cases hy
        rw [List.dropWhile_cons_of_pos hy, ih]; simp [this]
      · rw [List.dropWhile_cons_of_neg hy]
  unfold pyStrip
  rw [List.count_reverse, key, List.count_reverse, key]

theorem condFromStr_slashes {s : PStr} {c : Cond} (h : condFromStr s = .ok c) :
    c.text.count '\\' = s.count '\\' := by
  have hj := splitChar_join '=' s
  unfold condFromStr at h
  rcases hl : splitChar '=' s with _ | ⟨p, _ | ⟨q, _ | ⟨w, rest⟩⟩⟩
  all_goals (rw [hl] at h; simp at h)
  subst h
  rw [hl] at hj
  rw [← hj]
  have e1 := strip_count (x := '\\') (by decide) p
  have e2 := strip_count (x := '\\') (by decide) q
  simp only [Cond.text, Feat.text, Val.text, pyJoin, List.count_append, e1, e2]

theorem dropBrackets_count (s : PStr) : (dropBrackets s).count '\\' = s.count '\\' := by
  unfold dropBrackets dropChar
  rw [List.count_filter (by decide), List.count_filter (by decide)]

theorem split_count (c x : Char) (h : c ≠ x) (s : PStr) : ((splitChar c s).map (List.count x)).sum = s.count x := by
  have hj := splitChar_join c s
  generalize splitChar c s = ps at hj
  subst hj
  induction ps with
  | nil => rfl
  | cons p ps ih =>
    cases ps with
    | nil => simp [pyJoin]
    | cons q qs => simp [pyJoin, h] at ih ⊢; omega

theorem ruleFromStr_slashes {s : PStr} {r : Rule} (h : ruleFromStr s = .ok r) : slashes r.conds = s.count '\\' := by
  unfold ruleFromStr at h
  split_ifs at h with hl
  · cases h
    rcases hl with rfl | rfl | rfl <;> decide
  · cases hm : (splitChar '^' (dropBrackets s)).mapM condFromStr with
    | error e => rw [hm] at h; cases h
    | ok cs =>
      rw [hm] at h
      cases h
      have hf := forall₂_ok hm
      rw [← dropBrackets_count, ← split_count '^' '\\' (by decide)]
      generalize splitChar '^' (dropBrackets s) = l at hf
      clear hm hl
      induction hf with
      | nil => rfl
      | cons h1 _ ih =>
        simp only [slashes, List.map_cons, List.sum_cons] at ih ⊢
        rw [ih, condFromStr_slashes h1]

theorem printed_slashes (t : PStr) : t.count '\\' ≤ (printed t).count '\\' := by
  unfold printed
  rw [dropBrackets_count]
  unfold pyRepr
  simp only [List.flatMap_append, List.count_append]
  refine le_trans ?_ (Nat.le_trans (Nat.le_add_left _ _) (Nat.le_add_right _ _))
  generalize (if (t.contains '\'' && !t.contains '"') = true then '"' else '\'') = q
  induction t with
  | nil => simp
  | cons x t ih =>
    rw [List.flatMap_cons, List.flatMap_append, List.count_append]
    by_cases hx : x = '\\'
    · subst hx
      have : ((reprChar q '\\').flatMap printChar).count '\\' = 2 := by
        rw [reprChar, if_pos rfl]; decide
      rw [this, List.count_cons_self]; omega
    · rw [List.count_cons_of_ne hx]; omega

theorem condsText_slashes (cs : List Cond) : slashes cs ≤ (condsText cs).count '\\' := by
  by_cases hcs : cs = []
  · subst hcs; decide
  · rw [← dropBrackets_count, dropBrackets_condsText hcs]
    have key : ∀ ts : List PStr, (ts.map (List.count '\\')).sum ≤ (pyJoin ['^'] ts).count '\\' := by
      intro ts
      induction ts with
      | nil => simp
      | cons t ts ih =>
        cases ts with
        | nil => simp [pyJoin]
        | cons u us => simp [pyJoin] at ih ⊢; omega
    refine le_trans ?_ (key _)
    unfold slashes
    rw [List.map_map]
    clear hcs key
    induction cs with
    | nil => simp
    | cons c cs ih =>
      simp only [List.map_cons, List.sum_cons, Function.comp]
      have := printed_slashes c.text
      exact Nat.add_le_add this ih

/-- A rule that comes back from what is shown of it has no backslash. -/
theorem noSlash_of_back {cs : List Cond} {a b : PStr} {r : Rule}
    (h : ruleFromStr (a ++ shownText (condsText cs) ++ b) = .ok r) (hr : r.conds = cs) (ha : '^' ∉ a) (hb : '^' ∉ b) :
    ruleFromStr (a ++ condsText cs ++ b) = .ok r := by
  have e : a ++ shownText (condsText cs) ++ b = spaced (a ++ doubled (condsText cs) ++ b) := by
    rw [spaced_append, spaced_append, spaced_id ha, spaced_id hb, shown_eq]
  rw [e, ruleFromStr_spaced] at h
  have h1 := ruleFromStr_slashes h
  have h2 := condsText_slashes cs
  rw [hr, List.count_append, List.count_append, doubled_count] at h1
  have : (condsText cs).count '\\' = 0 := by omega
  rwa [doubled_id (List.count_eq_zero.1 this)] at h

end Witt
