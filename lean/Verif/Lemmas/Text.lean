import Verif.Lemmas.Cover
import Verif.Text
/-
Lemmas: splitting, joining, printing and parsing text.
-/
namespace Witt

theorem splitChar_ne_nil (c : Char) (s : PStr) : splitChar c s ≠ [] := by
  cases s with
  | nil => simp [splitChar]
  | cons x xs =>
    unfold splitChar
    split
    · simp
    · split <;> simp

theorem splitChar_notin (c : Char) (s : PStr) : ∀ p ∈ splitChar c s, c ∉ p := by
  induction s with
  | nil => simp [splitChar]
  | cons x xs ih =>
    unfold splitChar
    split
    · intro p hp
      rcases List.mem_cons.1 hp with rfl | hp
      · simp
      · exact ih p hp
    · rename_i hx
      split
      · rename_i h; exact absurd h (splitChar_ne_nil c xs)
      · rename_i q qs h
        rw [h] at ih
        intro p hp
        rcases List.mem_cons.1 hp with rfl | hp
        · intro hc
          rcases List.mem_cons.1 hc with rfl | hc
          · exact hx rfl
          · exact ih q (by simp) hc
        · exact ih p (by simp [hp])

theorem splitChar_join (c : Char) (s : PStr) : pyJoin [c] (splitChar c s) = s := by
  induction s with
  | nil => simp [splitChar, pyJoin]
  | cons x xs ih =>
    unfold splitChar
    split
    · rename_i hx
      subst hx
      rcases hs : splitChar x xs with _ | ⟨q, qs⟩
      · exact absurd hs (splitChar_ne_nil x xs)
      · rw [hs] at ih; simp [pyJoin, ih]
    · split
      · rename_i h; exact absurd h (splitChar_ne_nil c xs)
      · rename_i q qs h
        rw [h] at ih
        cases qs with
        | nil => simp [pyJoin] at *; exact ih
        | cons q' qs => simp [pyJoin] at *; exact ih

theorem splitChar_append (c : Char) (a b : PStr) (h : c ∉ a) :
    splitChar c (a ++ c :: b) = a :: splitChar c b := by
  induction a with
  | nil => simp [splitChar]
  | cons x a ih =>
    have hx : ¬ x = c := by intro e; exact h (by simp [e])
    have := ih (fun hc => h (by simp [hc]))
    simp only [List.cons_append, splitChar, hx, if_false, this]

theorem splitChar_single (c : Char) (a : PStr) (h : c ∉ a) : splitChar c a = [a] := by
  induction a with
  | nil => rfl
  | cons x a ih =>
    have hx : ¬ x = c := by intro e; exact h (by simp [e])
    have := ih (fun hc => h (by simp [hc]))
    simp only [splitChar, hx, if_false, this]

/-- `split` is determined by `join`: the only pieces free of the separator that join to `s`. -/
theorem splitChar_of_join (c : Char) (ps : List PStr) (hne : ps ≠ []) (h : ∀ p ∈ ps, c ∉ p) :
    splitChar c (pyJoin [c] ps) = ps := by
  induction ps with
  | nil => exact absurd rfl hne
  | cons p ps ih =>
    cases ps with
    | nil => exact splitChar_single c p (h p (by simp))
    | cons q qs =>
      have := ih (by simp) (fun x hx => h x (by simp [hx]))
      simp only [pyJoin, List.append_assoc, List.singleton_append]
      rw [splitChar_append c p _ (h p (by simp)), this]

/-! ### strip -/

theorem dropWhile_all {p : Char → Bool} {a b : PStr} (h : ∀ x ∈ a, p x = true) :
    (a ++ b).dropWhile p = b.dropWhile p := by
  induction a with
  | nil => rfl
  | cons x a ih =>
    simp only [List.cons_append, List.dropWhile_cons, h x (by simp), if_true]
    exact ih (fun y hy => h y (by simp [hy]))

theorem dropWhile_none {p : Char → Bool} {a : PStr} (h : ∀ x ∈ a, p x = false) :
    a.dropWhile p = a := by
  cases a with
  | nil => rfl
  | cons x a => simp [h x (by simp)]

/-- Stripping removes surrounding white space from a text that has none inside. -/
theorem pyStrip_pad {a f b : PStr} (ha : ∀ x ∈ a, pyIsSpace x = true) (hb : ∀ x ∈ b, pyIsSpace x = true)
    (hf : ∀ x ∈ f, pyIsSpace x = false) : pyStrip (a ++ f ++ b) = f := by
  unfold pyStrip
  rw [List.append_assoc, dropWhile_all ha]
  cases f with
  | nil =>
    have hbb : b.dropWhile pyIsSpace = [] := by
      have := dropWhile_all (p := pyIsSpace) (a := b) (b := []) hb
      simpa using this
    simp [hbb]
  | cons x f =>
    have h1 : ((x :: f) ++ b).dropWhile pyIsSpace = (x :: f) ++ b := by
      simp [hf x (by simp)]
    rw [h1, List.reverse_append, dropWhile_all (by intro y hy; exact hb y (by simpa using hy)),
      dropWhile_none (by intro y hy; exact hf y (List.mem_reverse.1 hy)), List.reverse_reverse]

/-! ### printing a rule -/

/-- Characters that survive printing and parsing: not white space, quote `'`, comma, bracket, backslash,
`^`, `=`, `V`, nor a control character (below U+0020, or U+007F to U+009F). -/
def safeChar (c : Char) : Bool :=
  !(pyIsSpace c || c == '\'' || c == ',' || c == '[' || c == ']' || c == '\\' || c == '^' || c == '='
    || c == 'V' || c.toNat < 32 || (127 ≤ c.toNat && c.toNat ≤ 160))

/-- A text made of safe characters. -/
def SafeText (s : PStr) : Prop := ∀ c ∈ s, safeChar c = true

/-- A condition with a text name and a text value, both safe. -/
def SafeCond (c : Cond) : Prop := ∃ f v, c = ⟨.name f, .str v⟩ ∧ SafeText f ∧ SafeText v

/-- The three replacements of base.py 343-346 at once, on one character. -/
def printChar (x : Char) : PStr :=
  if x = ',' then ['^'] else if x = '\'' ∨ x = ' ' then [] else [x]

theorem print_eq_flatMap (s : PStr) :
    dropChar ' ' (dropChar '\'' (replChar ',' ['^'] s)) = s.flatMap printChar := by
  induction s with
  | nil => rfl
  | cons x s ih =>
    simp only [dropChar, replChar, List.flatMap_cons, List.filter_append] at *
    rw [ih]
    congr 1
    unfold printChar
    by_cases h1 : x = ','
    · simp [h1]
    · by_cases h2 : x = '\''
      · simp [h2]
      · by_cases h3 : x = ' '
        · simp [h3]
        · simp [h1, h2, h3]

/-- Texts left alone by quoting and by the replacements. -/
def QuietText (t : PStr) : Prop := ∀ c ∈ t, safeChar c = true ∨ c = '='

theorem quiet_char {c : Char} (h : safeChar c = true ∨ c = '=') :
    c ≠ '\'' ∧ c ≠ ',' ∧ c ≠ ' ' ∧ c ≠ '\\' ∧ ¬ (c.toNat < 32 ∨ (127 ≤ c.toNat ∧ c.toNat ≤ 160)) ∧ c ≠ '\n' ∧ c ≠ '\r' ∧
    c ≠ '\t' ∧ c ≠ '[' ∧ c ≠ ']' ∧ c ≠ '^' ∧ c ≠ 'V' ∧ pyIsSpace c = false := by
  rcases h with h | rfl
  · simp only [safeChar, Bool.not_eq_true', Bool.or_eq_false_iff, beq_eq_false_iff_ne,
      decide_eq_false_iff_not] at h
    obtain ⟨⟨⟨⟨⟨⟨⟨⟨⟨⟨h1, h2⟩, h3⟩, h4⟩, h5⟩, h6⟩, h7⟩, h8⟩, h9⟩, h10⟩, h11⟩ := h
    refine ⟨h2, h3, ?_, h6, ?_, ?_, ?_, ?_, h4, h5, h7, h9, h1⟩
    · rintro rfl; revert h1; decide
    · rintro (h | h)
      · contradiction
      · simp [h.1, h.2] at h11
    · rintro rfl; revert h1; decide
    · rintro rfl; revert h1; decide
    · rintro rfl; revert h1; decide
  · decide

theorem quiet_repr {t : PStr} (h : QuietText t) : (pyRepr t).flatMap printChar = t := by
  have hq : t.contains '\'' = false := by
    cases hc : t.contains '\''
    · rfl
    · have := List.contains_iff_mem.1 hc
      exact absurd rfl (quiet_char (h _ this)).1
  unfold pyRepr
  simp only [hq, Bool.false_and, Bool.false_eq_true, if_false]
  have h1 : t.flatMap (reprChar '\'') = t := by
    clear hq
    induction t with
    | nil => rfl
    | cons x t ih =>
      have hx := quiet_char (h x (by simp))
      rw [List.flatMap_cons, ih (fun c hc => h c (by simp [hc]))]
      obtain ⟨q1, _, _, q4, q5, q6, q7, q8, _, _, _, _, q13⟩ := hx
      rw [reprChar, if_neg q4, if_neg q1, if_neg q6, if_neg q7, if_neg q8, if_neg q5, if_neg (by simp [q13])]
      rfl
  have h2 : t.flatMap printChar = t := by
    clear hq h1
    induction t with
    | nil => rfl
    | cons x t ih =>
      have hx := quiet_char (h x (by simp))
      rw [List.flatMap_cons, ih (fun c hc => h c (by simp [hc]))]
      simp [printChar, hx.1, hx.2.1, hx.2.2.1]
  rw [h1, List.flatMap_append, List.flatMap_append, h2]
  simp [printChar]

theorem safeCond_quiet {c : Cond} (h : SafeCond c) : QuietText c.text := by
  obtain ⟨f, v, rfl, hf, hv⟩ := h
  intro x hx
  simp only [Cond.text, Feat.text, Val.text, List.mem_append, List.mem_singleton] at hx
  rcases hx with (hx | hx) | hx
  · exact .inl (hf x hx)
  · exact .inr hx
  · exact .inl (hv x hx)

theorem print_join (ts : List PStr) (h : ∀ t ∈ ts, QuietText t) :
    (pyJoin [',', ' '] (ts.map pyRepr)).flatMap printChar = pyJoin ['^'] ts := by
  induction ts with
  | nil => rfl
  | cons t ts ih =>
    cases ts with
    | nil => simpa [pyJoin] using quiet_repr (h t (by simp))
    | cons u us =>
      have := ih (fun x hx => h x (by simp [hx]))
      simp only [List.map_cons, pyJoin, List.flatMap_append, quiet_repr (h t (by simp))] at *
      rw [this]; simp [printChar]

/-- Printing a non-empty rule of safe conditions. -/
theorem condsText_safe {cs : List Cond} (hne : cs ≠ []) (h : ∀ c ∈ cs, SafeCond c) :
    condsText cs = ['['] ++ pyJoin ['^'] (cs.map Cond.text) ++ [']'] := by
  unfold condsText
  have : cs.isEmpty = false := by cases cs <;> simp_all
  simp only [this, Bool.false_eq_true, if_false, print_eq_flatMap, pyReprList, List.flatMap_append]
  rw [print_join _ (by
    intro t ht
    obtain ⟨c, hc, rfl⟩ := List.mem_map.1 ht
    exact safeCond_quiet (h c hc))]
  simp [printChar]

/-! ### parsing it back -/

theorem mem_pyJoin {sep : PStr} {ts : List PStr} {x : Char} (h : x ∈ pyJoin sep ts) :
    x ∈ sep ∨ ∃ t ∈ ts, x ∈ t := by
  induction ts with
  | nil => simp [pyJoin] at h
  | cons t ts ih =>
    cases ts with
    | nil => exact .inr ⟨t, by simp, h⟩
    | cons u us =>
      simp only [pyJoin, List.mem_append] at h
      rcases h with (h | h) | h
      · exact .inr ⟨t, by simp, h⟩
      · exact .inl h
      · rcases ih h with h | ⟨v, hv, hx⟩
        · exact .inl h
        · exact .inr ⟨v, by simp [hv], hx⟩

theorem condFromStr_safe {c : Cond} (h : SafeCond c) {a b : PStr} (ha : ∀ x ∈ a, pyIsSpace x = true)
    (hb : ∀ x ∈ b, pyIsSpace x = true) : condFromStr (a ++ c.text ++ b) = .ok c := by
  obtain ⟨f, v, rfl, hf, hv⟩ := h
  have hne : ∀ {s : PStr}, (∀ x ∈ s, pyIsSpace x = true) → '=' ∉ s := by
    intro s hs he; have := hs _ he; revert this; decide
  have hsafe : ∀ {s : PStr}, SafeText s → '=' ∉ s ∧ ∀ x ∈ s, pyIsSpace x = false := by
    intro s hs
    refine ⟨fun he => ?_, fun x hx => (quiet_char (.inl (hs x hx))).2.2.2.2.2.2.2.2.2.2.2.2⟩
    have := hs _ he; revert this; decide
  have e : a ++ Cond.text ⟨.name f, .str v⟩ ++ b = (a ++ f) ++ '=' :: (v ++ b) := by
    simp [Cond.text, Feat.text, Val.text]
  unfold condFromStr
  rw [e, splitChar_append _ _ _ (by simp [hne ha, (hsafe hf).1]),
    splitChar_single _ _ (by simp [hne hb, (hsafe hv).1])]
  have e1 : pyStrip (a ++ f) = f := by
    have := pyStrip_pad (b := []) ha (by simp) (hsafe hf).2
    simpa using this
  have e2 : pyStrip (v ++ b) = v := by
    have := pyStrip_pad (a := []) (by simp) hb (hsafe hv).2
    simpa using this
  simp [e1, e2]

theorem condsParse_safe (cs : List Cond) (hne : cs ≠ []) (h : ∀ c ∈ cs, SafeCond c) :
    ∀ (a b : PStr), (∀ x ∈ a, pyIsSpace x = true) → (∀ x ∈ b, pyIsSpace x = true) →
    (splitChar '^' (a ++ pyJoin ['^'] (cs.map Cond.text) ++ b)).mapM condFromStr = .ok cs := by
  have hne' : ∀ {s : PStr}, (∀ x ∈ s, pyIsSpace x = true) → '^' ∉ s := by
    intro s hs he; have := hs _ he; revert this; decide
  have hc' : ∀ {c : Cond}, SafeCond c → '^' ∉ c.text := by
    intro c hc he; exact absurd rfl (quiet_char (safeCond_quiet hc _ he)).2.2.2.2.2.2.2.2.2.2.1
  induction cs with
  | nil => exact absurd rfl hne
  | cons c cs ih =>
    intro a b ha hb
    cases cs with
    | nil =>
      simp only [List.map_cons, List.map_nil, pyJoin]
      rw [splitChar_single _ _ (by simp [hne' ha, hne' hb, hc' (h c (by simp))])]
      rw [List.mapM_cons, condFromStr_safe (h c (by simp)) ha hb]; rfl
    | cons d ds =>
      have := ih (by simp) (fun x hx => h x (by simp [hx])) [] b (by simp) hb
      have e : a ++ pyJoin ['^'] ((c :: d :: ds).map Cond.text) ++ b
          = (a ++ c.text) ++ '^' :: ([] ++ pyJoin ['^'] ((d :: ds).map Cond.text) ++ b) := by
        simp [pyJoin]
      have hcc := condFromStr_safe (h c (by simp)) (b := []) ha (by simp)
      rw [List.append_nil] at hcc
      rw [e, splitChar_append _ _ _ (by simp [hne' ha, hc' (h c (by simp))]), List.mapM_cons, hcc, this]
      rfl

/-- Spaces and brackets only. -/
def Padding (s : PStr) : Prop := ∀ c ∈ s, c = '[' ∨ c = ']' ∨ pyIsSpace c = true

theorem dropBrackets_append (a b : PStr) : dropBrackets (a ++ b) = dropBrackets a ++ dropBrackets b := by
  simp [dropBrackets, dropChar]

theorem dropBrackets_pad {a : PStr} (h : Padding a) : ∀ x ∈ dropBrackets a, pyIsSpace x = true := by
  intro x hx
  simp only [dropBrackets, dropChar, List.mem_filter, bne_iff_ne] at hx
  rcases h x hx.1.1 with h | h | h
  · exact absurd h hx.1.2
  · exact absurd h hx.2
  · exact h

theorem dropBrackets_id {a : PStr} (h : '[' ∉ a ∧ ']' ∉ a) : dropBrackets a = a := by
  have e1 : dropChar '[' a = a := by
    unfold dropChar; rw [List.filter_eq_self]
    intro x hx; simp only [bne_iff_ne]; rintro rfl; exact h.1 hx
  unfold dropBrackets; rw [e1]
  unfold dropChar; rw [List.filter_eq_self]
  intro x hx; simp only [bne_iff_ne]; rintro rfl; exact h.2 hx

theorem ruleFromStr_safe {cs : List Cond} (hne : cs ≠ []) (h : ∀ c ∈ cs, SafeCond c) {a b : PStr}
    (ha : Padding a) (hb : Padding b) : ruleFromStr (a ++ condsText cs ++ b) = .ok { conds := cs } := by
  have heq : '=' ∈ condsText cs := by
    rw [condsText_safe hne h]
    cases cs with
    | nil => exact absurd rfl hne
    | cons c cs =>
      have : '=' ∈ c.text := by
        obtain ⟨f, v, rfl, _, _⟩ := h c (by simp)
        simp [Cond.text]
      cases cs with
      | nil => simp [pyJoin, this]
      | cons d ds => simp [pyJoin, this]
  have hin : '=' ∈ a ++ condsText cs ++ b := by simp [heq]
  unfold ruleFromStr
  have hl : ¬ (a ++ condsText cs ++ b = p!"True" ∨ a ++ condsText cs ++ b = p!"[True]" ∨
      a ++ condsText cs ++ b = p!"[]") := by
    rintro (e | e | e) <;> (rw [e] at hin; revert hin; decide)
  rw [if_neg hl]
  have hjoin : dropBrackets (pyJoin ['^'] (cs.map Cond.text)) = pyJoin ['^'] (cs.map Cond.text) := by
    have key : ∀ x ∈ pyJoin ['^'] (cs.map Cond.text), x ≠ '[' ∧ x ≠ ']' := by
      intro x hx
      rcases mem_pyJoin hx with hx | ⟨t, ht, hx⟩
      · simp at hx; subst hx; decide
      · obtain ⟨c, hc, rfl⟩ := List.mem_map.1 ht
        have := quiet_char (safeCond_quiet (h c hc) x hx)
        exact ⟨this.2.2.2.2.2.2.2.2.1, this.2.2.2.2.2.2.2.2.2.1⟩
    exact dropBrackets_id ⟨fun hm => (key _ hm).1 rfl, fun hm => (key _ hm).2 rfl⟩
  have e : dropBrackets (a ++ condsText cs ++ b)
      = dropBrackets a ++ pyJoin ['^'] (cs.map Cond.text) ++ dropBrackets b := by
    rw [condsText_safe hne h]
    simp only [dropBrackets_append, hjoin]
    have e1 : dropBrackets ['['] = [] := by decide
    have e2 : dropBrackets [']'] = [] := by decide
    rw [e1, e2]; simp
  rw [e, condsParse_safe cs hne h _ _ (dropBrackets_pad ha) (dropBrackets_pad hb)]

theorem V_notin_condsText {cs : List Cond} (hne : cs ≠ []) (h : ∀ c ∈ cs, SafeCond c) :
    'V' ∉ condsText cs := by
  rw [condsText_safe hne h]
  intro hm
  simp only [List.mem_append, List.mem_singleton] at hm
  rcases hm with (hm | hm) | hm
  · revert hm; decide
  · rcases mem_pyJoin hm with hx | ⟨t, ht, hx⟩
    · simp at hx
    · obtain ⟨c, hc, rfl⟩ := List.mem_map.1 ht
      exact absurd rfl (quiet_char (safeCond_quiet (h c hc) _ hx)).2.2.2.2.2.2.2.2.2.2.2.1
  · revert hm; decide

theorem V_notin_pad {a : PStr} (h : Padding a) : 'V' ∉ a := by
  intro hm
  rcases h _ hm with e | e | e
  · exact absurd e (by decide)
  · exact absurd e (by decide)
  · revert e; decide

theorem rulesParse_safe (rs : List (List Cond)) (hne : rs ≠ []) (h : ∀ r ∈ rs, r ≠ [] ∧ ∀ c ∈ r, SafeCond c) :
    ∀ (a b : PStr), Padding a → Padding b →
    (splitChar 'V' (a ++ pyJoin p!" V " (rs.map condsText) ++ b)).mapM ruleFromStr
      = .ok (rs.map (fun cs => { conds := cs })) := by
  induction rs with
  | nil => exact absurd rfl hne
  | cons r rs ih =>
    intro a b ha hb
    obtain ⟨hr, hrs⟩ := h r (by simp)
    cases rs with
    | nil =>
      simp only [List.map_cons, List.map_nil, pyJoin]
      rw [splitChar_single _ _ (by simp [V_notin_pad ha, V_notin_pad hb, V_notin_condsText hr hrs])]
      rw [List.mapM_cons, ruleFromStr_safe hr hrs ha hb]; rfl
    | cons s ss =>
      have hsp : Padding [' '] := by intro c hc; simp at hc; subst hc; exact .inr (.inr (by decide))
      have := ih (by simp) (fun x hx => h x (by simp [hx])) [' '] b hsp hb
      have e : a ++ pyJoin p!" V " ((r :: s :: ss).map condsText) ++ b
          = (a ++ condsText r ++ [' ']) ++ 'V' :: ([' '] ++ pyJoin p!" V " ((s :: ss).map condsText) ++ b) := by
        simp [pyJoin]
      rw [e, splitChar_append _ _ _ (by
        simp [V_notin_pad ha, V_notin_condsText hr hrs]), List.mapM_cons, ruleFromStr_safe hr hrs ha hsp,
        this]
      rfl

end Witt
