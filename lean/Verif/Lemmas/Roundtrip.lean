import Mathlib.Data.List.Forall2
import Verif.Lemmas.Text
/-
The converse of the printing and parsing round trip: what comes back unchanged is safe text.
-/
namespace Witt

theorem splitChar_length (c : Char) (s : PStr) : (splitChar c s).length = s.count c + 1 := by
  induction s with
  | nil => rfl
  | cons x s ih =>
    unfold splitChar
    by_cases h : x = c
    · subst h; simp [ih]
    · rcases hs : splitChar c s with _ | ⟨p, ps⟩
      · exact absurd hs (splitChar_ne_nil _ _)
      · rw [hs] at ih
        simp [h] at ih ⊢
        omega

/-- Number of separators in a joined text. -/
theorem count_pyJoin (c : Char) (sep : PStr) (hs : sep.count c = 1) (ts : List PStr) (hne : ts ≠ []) :
    (pyJoin sep ts).count c + 1 = (ts.map (List.count c)).sum + ts.length := by
  induction ts with
  | nil => exact absurd rfl hne
  | cons t ts ih =>
    cases ts with
    | nil => simp [pyJoin]
    | cons u us =>
      have := ih (by simp)
      simp only [pyJoin, List.count_append, hs, List.map_cons, List.sum_cons, List.length_cons] at this ⊢
      omega

/-- Splitting a padded join whose pieces do not contain the separator. -/
theorem splitChar_padded (c : Char) (s1 s2 : PStr) (h1 : c ∉ s1) (h2 : c ∉ s2) (b : PStr) (hb : c ∉ b)
    (ts : List PStr) (hne : ts ≠ []) (ht : ∀ t ∈ ts, c ∉ t) :
    ∀ a : PStr, c ∉ a → List.Forall₂ (fun p t => ∃ a' b', (a' = a ∨ a' = s2) ∧ (b' = b ∨ b' = s1) ∧ p = a' ++ t ++ b')
      (splitChar c (a ++ pyJoin (s1 ++ c :: s2) ts ++ b)) ts := by
  induction ts with
  | nil => exact absurd rfl hne
  | cons t ts ih =>
    intro a ha
    have htc := ht t (by simp)
    cases ts with
    | nil =>
      rw [splitChar_single c _ (by simp [pyJoin, ha, htc, hb])]
      exact .cons ⟨a, b, .inl rfl, .inl rfl, by simp [pyJoin]⟩ .nil
    | cons u us =>
      have e : a ++ pyJoin (s1 ++ c :: s2) (t :: u :: us) ++ b
          = (a ++ t ++ s1) ++ c :: (s2 ++ pyJoin (s1 ++ c :: s2) (u :: us) ++ b) := by
        simp [pyJoin]
      rw [e, splitChar_append c _ _ (by simp [ha, htc, h1])]
      refine .cons ⟨a, s1, .inl rfl, .inr rfl, rfl⟩ ?_
      refine (ih (by simp) (fun x hx => ht x (by simp [hx])) s2 h2).imp ?_
      rintro p x ⟨a', b', ha', hb', rfl⟩
      exact ⟨a', b', .inr (ha'.elim id id), hb', rfl⟩

/-! ### one condition -/

/-- What of a condition's text is left in the printed rule, brackets dropped. -/
def printed (t : PStr) : PStr := dropBrackets ((pyRepr t).flatMap printChar)

theorem hex2_chars (n : Nat) : ∀ c ∈ hex2 n, pyIsSpace c = false ∧ ¬ (c.toNat < 32 ∨ (127 ≤ c.toNat ∧ c.toNat ≤ 160)) := by
  have hd : ∀ m : Nat, pyIsSpace (Nat.digitChar m) = false ∧
      ¬ ((Nat.digitChar m).toNat < 32 ∨ (127 ≤ (Nat.digitChar m).toNat ∧ (Nat.digitChar m).toNat ≤ 160)) := by
    have small : ∀ m : Fin 16, pyIsSpace (Nat.digitChar m.1) = false ∧
        ¬ ((Nat.digitChar m.1).toNat < 32 ∨ (127 ≤ (Nat.digitChar m.1).toNat ∧ (Nat.digitChar m.1).toNat ≤ 160)) := by
      decide
    have big : ∀ m : Nat, 16 ≤ m → Nat.digitChar m = '*' := by
      intro m hm
      unfold Nat.digitChar
      rw [if_neg (by omega), if_neg (by omega), if_neg (by omega), if_neg (by omega), if_neg (by omega), if_neg (by omega),
        if_neg (by omega), if_neg (by omega), if_neg (by omega), if_neg (by omega), if_neg (by omega), if_neg (by omega),
        if_neg (by omega), if_neg (by omega), if_neg (by omega), if_neg (by omega)]
    intro m
    by_cases hm : m < 16
    · exact small ⟨m, hm⟩
    · rw [big m (by omega)]; decide
  intro c hc
  simp only [hex2, List.mem_cons, List.not_mem_nil, or_false] at hc
  rcases hc with rfl | rfl <;> exact hd _

theorem reprChar_chars {q d : Char} (hq : q = '\'' ∨ q = '"') : ∀ c ∈ reprChar q d,
    (pyIsSpace c = true → c = ' ') ∧ ¬ (c.toNat < 32 ∨ (127 ≤ c.toNat ∧ c.toNat ≤ 160)) := by
  intro c hc
  have one : ∀ x : Char, x ∈ ['\\', 'n', 'r', 't', 'x', 'u', '\'', '"'] →
      (pyIsSpace x = true → x = ' ') ∧ ¬ (x.toNat < 32 ∨ (127 ≤ x.toNat ∧ x.toNat ≤ 160)) := by decide
  have hx : ∀ {n : Nat} {x : Char}, x ∈ hex2 n →
      (pyIsSpace x = true → x = ' ') ∧ ¬ (x.toNat < 32 ∨ (127 ≤ x.toNat ∧ x.toNat ≤ 160)) := by
    intro n x h
    exact ⟨fun h' => absurd h' (by simp [(hex2_chars n x h).1]), (hex2_chars n x h).2⟩
  unfold reprChar at hc
  split_ifs at hc with h1 h2 h3 h4 h5 h6 h7
  · exact one c (by simp at hc; simp [hc])
  · rcases hq with rfl | rfl <;> exact one c (by simp at hc; rcases hc with rfl | rfl <;> simp)
  · exact one c (by simp at hc; rcases hc with rfl | rfl <;> simp)
  · exact one c (by simp at hc; rcases hc with rfl | rfl <;> simp)
  · exact one c (by simp at hc; rcases hc with rfl | rfl <;> simp)
  · rcases List.mem_append.1 hc with hc | hc
    · exact one c (by simp at hc; rcases hc with rfl | rfl <;> simp)
    · exact hx hc
  · rcases List.mem_append.1 hc with hc | hc
    · exact one c (by simp at hc; rcases hc with rfl | rfl <;> simp)
    · rcases List.mem_append.1 hc with hc | hc <;> exact hx hc
  · simp only [List.mem_singleton] at hc
    subst hc
    refine ⟨fun h => ?_, h6⟩
    by_contra hne
    exact h7 ⟨hne, h⟩

theorem pyRepr_chars (t : PStr) : ∀ c ∈ pyRepr t,
    (pyIsSpace c = true → c = ' ') ∧ ¬ (c.toNat < 32 ∨ (127 ≤ c.toNat ∧ c.toNat ≤ 160)) := by
  intro c hc
  unfold pyRepr at hc
  simp only [List.mem_append, List.mem_singleton, List.mem_flatMap] at hc
  generalize hq : (if t.contains '\'' && !t.contains '"' then '"' else '\'') = q at hc
  have hq' : q = '\'' ∨ q = '"' := by rw [← hq]; split_ifs <;> simp
  rcases hc with (rfl | ⟨d, _, hd⟩) | rfl
  · rcases hq' with rfl | rfl <;> decide
  · exact reprChar_chars hq' c hd
  · rcases hq' with rfl | rfl <;> decide

theorem printed_chars (t : PStr) : ∀ c ∈ printed t, pyIsSpace c = false ∧
    ¬ (c.toNat < 32 ∨ (127 ≤ c.toNat ∧ c.toNat ≤ 160)) ∧ c ≠ '\'' ∧ c ≠ ',' ∧ c ≠ '[' ∧ c ≠ ']' := by
  intro c hc
  simp only [printed, dropBrackets, dropChar, List.mem_filter, bne_iff_ne, List.mem_flatMap] at hc
  obtain ⟨⟨⟨d, hd, hcd⟩, hb1⟩, hb2⟩ := hc
  have hdc := pyRepr_chars t d hd
  unfold printChar at hcd
  split_ifs at hcd with h1 h2
  · simp only [List.mem_singleton] at hcd; subst hcd; decide
  · simp at hcd
  · simp only [List.mem_singleton] at hcd
    subst hcd
    push Not at h2
    refine ⟨?_, hdc.2, h2.1, h1, hb1, hb2⟩
    cases hs : pyIsSpace c
    · rfl
    · exact absurd (hdc.1 hs) h2.2

theorem dropBrackets_flatMap (s : PStr) (f : Char → PStr) :
    dropBrackets (s.flatMap f) = s.flatMap (fun x => dropBrackets (f x)) := by
  induction s with
  | nil => rfl
  | cons x s ih => simp only [List.flatMap_cons, dropBrackets_append, ih]

/-- A text that printing leaves as it is has no backslash. -/
theorem printed_fixed {t : PStr} (h : printed t = t) : '\\' ∉ t := by
  have hc := printed_chars t
  rw [h] at hc
  have hq : t.contains '\'' = false := by
    cases hc' : t.contains '\''
    · rfl
    · exact absurd rfl (hc _ (List.contains_iff_mem.1 hc')).2.2.1
  have hp : printed t = t.flatMap (fun x => dropBrackets ((reprChar '\'' x).flatMap printChar)) := by
    unfold printed pyRepr
    simp only [hq, Bool.false_and, Bool.false_eq_true, if_false, List.flatMap_append, dropBrackets_append]
    have e1 : dropBrackets (['\''].flatMap printChar) = [] := by decide
    rw [e1, List.nil_append, List.append_nil, List.flatMap_assoc, dropBrackets_flatMap]
  rw [hp] at h
  have hlen : ∀ s : PStr, (∀ c ∈ s, c ∈ t) →
      (s.flatMap (fun x => dropBrackets ((reprChar '\'' x).flatMap printChar))).length = s.length + s.count '\\' := by
    intro s
    induction s with
    | nil => intro _; rfl
    | cons x s ih =>
      intro hs
      have hx := hc x (hs x (by simp))
      rw [List.flatMap_cons, List.length_append, ih (fun c hc => hs c (by simp [hc]))]
      by_cases hb : x = '\\'
      · subst hb
        have : (dropBrackets ((reprChar '\'' '\\').flatMap printChar)).length = 2 := by decide
        rw [this]; simp; omega
      · obtain ⟨q1, q2, q3, q4, q5, q6⟩ := hx
        have hsp : x ≠ ' ' := by rintro rfl; revert q1; decide
        have hn : x ≠ '\n' ∧ x ≠ '\r' ∧ x ≠ '\t' := by
          refine ⟨?_, ?_, ?_⟩ <;> (rintro rfl; revert q1; decide)
        have e : dropBrackets ((reprChar '\'' x).flatMap printChar) = [x] := by
          rw [reprChar, if_neg hb, if_neg q3, if_neg hn.1, if_neg hn.2.1, if_neg hn.2.2, if_neg q2,
            if_neg (by simp [q1])]
          simp [printChar, q3, q4, hsp, dropBrackets, dropChar, q5, q6]
        rw [e]; simp [hb]; omega
  have := hlen t (fun _ h => h)
  rw [h] at this
  intro hm
  have := List.count_pos_iff.2 hm
  omega

theorem pyStrip_none {s : PStr} (h : ∀ x ∈ s, pyIsSpace x = false) : pyStrip s = s := by
  have := pyStrip_pad (a := []) (b := []) (f := s) (by simp) (by simp) h
  simpa using this

/-- The texts in a ruleset that comes back: no `V`, nor `^`. -/
theorem safeCond_of_back {c : Cond} {a b : PStr} (ha : ∀ x ∈ a, pyIsSpace x = true) (hb : ∀ x ∈ b, pyIsSpace x = true)
    (hV : 'V' ∉ printed c.text) (hh : '^' ∉ printed c.text)
    (h : condFromStr (a ++ printed c.text ++ b) = .ok c) : SafeCond c := by
  have hne : ∀ {s : PStr}, (∀ x ∈ s, pyIsSpace x = true) → '=' ∉ s := by
    intro s hs he; have := hs _ he; revert this; decide
  have hc := printed_chars c.text
  -- the two parts
  obtain ⟨x, y, hxy, hx, hy, hcc⟩ : ∃ x y, printed c.text = x ++ '=' :: y ∧ '=' ∉ x ∧ '=' ∉ y ∧
      c = ⟨.name (pyStrip (a ++ x)), .str (pyStrip (y ++ b))⟩ := by
    by_cases hm : '=' ∈ printed c.text
    · have hjoin := splitChar_join '=' (printed c.text)
      have hnot := splitChar_notin '=' (printed c.text)
      rcases hl : splitChar '=' (printed c.text) with _ | ⟨p, _ | ⟨q, rest⟩⟩
      · exact absurd hl (splitChar_ne_nil _ _)
      · rw [hl] at hjoin hnot
        simp only [pyJoin] at hjoin
        rw [← hjoin] at hm
        exact absurd hm (hnot p (by simp))
      · rw [hl] at hjoin hnot
        have hp := hnot p (by simp)
        cases rest with
        | nil =>
          have hq := hnot q (by simp)
          simp only [pyJoin] at hjoin
          have e2 : printed c.text = p ++ '=' :: q := by rw [← hjoin]; simp
          refine ⟨p, q, e2, hp, hq, ?_⟩
          rw [e2] at h
          have e3 : a ++ (p ++ '=' :: q) ++ b = (a ++ p) ++ '=' :: (q ++ b) := by simp
          unfold condFromStr at h
          rw [e3, splitChar_append '=' (a ++ p) (q ++ b) (by simp [hne ha, hp]),
            splitChar_single '=' (q ++ b) (by simp [hq, hne hb])] at h
          simp only [List.map_cons, List.map_nil, Except.ok.injEq] at h
          exact h.symm
        | cons r rest =>
          exfalso
          have e2 : printed c.text = p ++ '=' :: (q ++ '=' :: pyJoin ['='] (r :: rest)) := by
            rw [← hjoin]; simp [pyJoin]
          have hcount : 3 ≤ (splitChar '=' (a ++ printed c.text ++ b)).length := by
            rw [splitChar_length, e2]
            simp only [List.count_append, List.count_cons_self]
            omega
          unfold condFromStr at h
          rcases hs : splitChar '=' (a ++ printed c.text ++ b) with _ | ⟨u, _ | ⟨v, _ | ⟨w, l⟩⟩⟩
          all_goals (rw [hs] at hcount h; simp at hcount h)
    · exfalso
      unfold condFromStr at h
      rw [splitChar_single _ _ (by simp [hm, hne ha, hne hb])] at h
      simp at h
  -- no white space inside
  have hx' : ∀ z ∈ x, pyIsSpace z = false := fun z hz => (hc z (by rw [hxy]; simp [hz])).1
  have hy' : ∀ z ∈ y, pyIsSpace z = false := fun z hz => (hc z (by rw [hxy]; simp [hz])).1
  have ex : pyStrip (a ++ x) = x := by
    have := pyStrip_pad (a := a) (b := []) (f := x) ha (by simp) hx'
    simpa using this
  have ey : pyStrip (y ++ b) = y := by
    have := pyStrip_pad (a := []) (b := b) (f := y) (by simp) hb hy'
    simpa using this
  rw [ex, ey] at hcc
  have htext : c.text = x ++ '=' :: y := by rw [hcc]; simp [Cond.text, Feat.text, Val.text]
  have hfix : printed c.text = c.text := by rw [hxy, htext]
  have hbs := printed_fixed hfix
  have safe : ∀ z ∈ c.text, z ≠ '=' → safeChar z = true := by
    intro z hz hze
    have hz' : z ∈ printed c.text := by rw [hfix]; exact hz
    obtain ⟨q1, q2, q3, q4, q5, q6⟩ := hc z hz'
    have q7 : z ≠ '\\' := by rintro rfl; exact hbs hz
    have q8 : z ≠ 'V' := by rintro rfl; exact hV hz'
    have q9 : z ≠ '^' := by rintro rfl; exact hh hz'
    push Not at q2
    have q10 : ¬ z.toNat < 32 := by omega
    have q11 : (decide (127 ≤ z.toNat) && decide (z.toNat ≤ 160)) = false := by
      rw [Bool.and_eq_false_iff, decide_eq_false_iff_not, decide_eq_false_iff_not]
      by_cases h' : 127 ≤ z.toNat
      · right; have := q2.2 h'; omega
      · exact .inl h'
    simp [safeChar, q1, q3, q4, q5, q6, q7, q8, q9, q10, q11, hze]
  refine ⟨x, y, hcc, fun z hz => safe z (by rw [htext]; simp [hz]) ?_, fun z hz => safe z (by rw [htext]; simp [hz]) ?_⟩
  · rintro rfl; exact hx hz
  · rintro rfl; exact hy hz

/-! ### rules -/

theorem print_pyJoin (ts : List PStr) :
    dropBrackets ((pyJoin [',', ' '] (ts.map pyRepr)).flatMap printChar) = pyJoin ['^'] (ts.map printed) := by
  induction ts with
  | nil => rfl
  | cons t ts ih =>
    cases ts with
    | nil => rfl
    | cons u us =>
      simp only [List.map_cons, pyJoin, List.flatMap_append, dropBrackets_append] at *
      rw [ih]
      rfl

theorem dropBrackets_condsText {cs : List Cond} (hne : cs ≠ []) :
    dropBrackets (condsText cs) = pyJoin ['^'] (cs.map (fun c => printed c.text)) := by
  unfold condsText
  have : cs.isEmpty = false := by cases cs <;> simp_all
  simp only [this, Bool.false_eq_true, if_false, print_eq_flatMap, pyReprList, List.flatMap_append, dropBrackets_append,
    print_pyJoin]
  have e1 : dropBrackets (['['].flatMap printChar) = [] := by decide
  have e2 : dropBrackets ([']'].flatMap printChar) = [] := by decide
  rw [e1, e2]; simp [Function.comp_def]

theorem mem_pyJoin_of {sep : PStr} {ts : List PStr} {t : PStr} {x : Char} (ht : t ∈ ts) (hx : x ∈ t) :
    x ∈ pyJoin sep ts := by
  induction ts with
  | nil => simp at ht
  | cons u ts ih =>
    cases ts with
    | nil => simp at ht; subst ht; exact hx
    | cons v vs =>
      simp only [pyJoin, List.mem_append]
      rcases List.mem_cons.1 ht with rfl | ht
      · exact .inl (.inl hx)
      · exact .inr (ih ht)

theorem forall₂_ok {α β : Type} {f : α → Except PyErr β} {l : List α} {r : List β} (h : l.mapM f = .ok r) :
    List.Forall₂ (fun a b => f a = .ok b) l r := by
  induction l generalizing r with
  | nil => rw [List.mapM_nil] at h; cases h; exact .nil
  | cons a l ih =>
    rw [List.mapM_cons] at h
    cases hf : f a with
    | error e => rw [hf] at h; cases h
    | ok b =>
      rw [hf] at h
      cases hl : l.mapM f with
      | error e => rw [hl] at h; cases h
      | ok bs => rw [hl] at h; cases h; exact .cons hf (ih hl)

theorem forall₂_compose {α β γ : Type} {R : α → β → Prop} {S : α → γ → Prop} {l : List α} {r : List β} {s : List γ}
    (h1 : List.Forall₂ R l r) (h2 : List.Forall₂ S l s) :
    List.Forall₂ (fun b c => ∃ a, R a b ∧ S a c) r s := by
  induction h1 generalizing s with
  | nil => cases h2; exact .nil
  | cons h _ ih => cases h2 with | cons h' h2 => exact .cons ⟨_, h, h'⟩ (ih h2)

theorem forall₂_self {α : Type} {R : α → α → Prop} {l : List α} (h : List.Forall₂ R l l) : ∀ a ∈ l, R a a := by
  induction l with
  | nil => simp
  | cons a l ih =>
    cases h with
    | cons h1 h2 =>
      intro b hb
      rcases List.mem_cons.1 hb with rfl | hb
      · exact h1
      · exact ih h2 b hb

theorem forall₂_length {α β : Type} {R : α → β → Prop} {l : List α} {r : List β} (h : List.Forall₂ R l r) :
    l.length = r.length := by
  induction h with
  | nil => rfl
  | cons _ _ ih => simp [ih]

/-- A rule that comes back (printed without a `V`) is not empty and has safe conditions. -/
theorem safeRule_of_back {cs : List Cond} {a b : PStr} (hane : a ≠ []) (ha : Padding a) (hb : Padding b)
    (hV : 'V' ∉ condsText cs) {r : Rule} (h : ruleFromStr (a ++ condsText cs ++ b) = .ok r) (hr : r.conds = cs) :
    cs ≠ [] ∧ ∀ c ∈ cs, SafeCond c := by
  unfold ruleFromStr at h
  have hane' : 1 ≤ a.length := by cases a with | nil => exact absurd rfl hane | cons => simp
  by_cases hcs : cs = []
  · exfalso
    subst hcs
    have hct : condsText [] = p!"[True]" := rfl
    rw [hct] at h
    have hlen : 7 ≤ (a ++ p!"[True]" ++ b).length := by
      simp only [List.length_append]
      have : (p!"[True]" : PStr).length = 6 := by decide
      omega
    have hlit : ¬ (a ++ p!"[True]" ++ b = p!"True" ∨ a ++ p!"[True]" ++ b = p!"[True]" ∨ a ++ p!"[True]" ++ b = p!"[]") := by
      rintro (e | e | e) <;> (rw [e] at hlen; revert hlen; decide)
    rw [if_neg hlit] at h
    have hd : dropBrackets (a ++ p!"[True]" ++ b) = dropBrackets a ++ p!"True" ++ dropBrackets b := by
      rw [dropBrackets_append, dropBrackets_append]; rfl
    have hp : ∀ x ∈ dropBrackets (a ++ p!"[True]" ++ b), x ≠ '^' ∧ x ≠ '=' := by
      intro x hx
      rw [hd] at hx
      simp only [List.mem_append] at hx
      rcases hx with (hx | hx) | hx
      · have := dropBrackets_pad ha x hx
        constructor <;> (rintro rfl; revert this; decide)
      · revert x; decide
      · have := dropBrackets_pad hb x hx
        constructor <;> (rintro rfl; revert this; decide)
    rw [splitChar_single _ _ (fun hm => (hp _ hm).1 rfl)] at h
    have : condFromStr (dropBrackets (a ++ p!"[True]" ++ b)) = .error .valueError := by
      unfold condFromStr
      rw [splitChar_single _ _ (fun hm => (hp _ hm).2 rfl)]
      rfl
    rw [List.mapM_cons, this] at h
    cases h
  · refine ⟨hcs, ?_⟩
    split_ifs at h with hlit
    · cases h
      exact absurd hr.symm hcs
    · cases hm : (splitChar '^' (dropBrackets (a ++ condsText cs ++ b))).mapM condFromStr with
      | error e => rw [hm] at h; cases h
      | ok cs' =>
        rw [hm] at h
        cases h
        simp only at hr
        subst hr
        have hf := forall₂_ok hm
        have hlen := forall₂_length hf
        rw [dropBrackets_append, dropBrackets_append, dropBrackets_condsText hcs] at hf hlen
        have hne : ∀ {s : PStr}, Padding s → '^' ∉ dropBrackets s := by
          intro s hs he; have := dropBrackets_pad hs _ he; revert this; decide
        rw [splitChar_length] at hlen
        simp only [List.count_append, List.count_eq_zero.2 (hne ha), List.count_eq_zero.2 (hne hb)] at hlen
        have hcount := count_pyJoin '^' ['^'] rfl (cs'.map (fun c => printed c.text)) (by simp [hcs])
        simp only [List.length_map, List.map_map] at hcount
        have hz : (cs'.map (List.count '^' ∘ fun c => printed c.text)).sum = 0 := by omega
        have hz' : ∀ c ∈ cs', '^' ∉ printed c.text := by
          intro c hc
          have := List.sum_eq_zero_iff_forall_eq_nat.mp hz _ (List.mem_map.2 ⟨c, hc, rfl⟩)
          exact List.count_eq_zero.1 this
        have hsplit := splitChar_padded '^' [] [] (by simp) (by simp) (dropBrackets b) (hne hb)
          (cs'.map (fun c => printed c.text)) (by simp [hcs])
          (by intro t ht; obtain ⟨c, hc, rfl⟩ := List.mem_map.1 ht; exact hz' c hc) (dropBrackets a) (hne ha)
        rw [List.forall₂_map_right_iff] at hsplit
        have := forall₂_self (forall₂_compose hsplit hf)
        intro c hc
        obtain ⟨p, ⟨a', b', ha', hb', rfl⟩, hp⟩ := this c hc
        have hsp : ∀ {s s' : PStr}, Padding s → (s' = dropBrackets s ∨ s' = []) → ∀ x ∈ s', pyIsSpace x = true := by
          rintro s s' hs (rfl | rfl)
          · exact dropBrackets_pad hs
          · simp
        refine safeCond_of_back (hsp ha ha') (hsp hb hb') ?_ (hz' c hc) hp
        intro hv
        apply hV
        have : 'V' ∈ dropBrackets (condsText cs') := by
          rw [dropBrackets_condsText hcs]
          exact mem_pyJoin_of (List.mem_map.2 ⟨c, hc, rfl⟩) hv
        simp only [dropBrackets, dropChar, List.mem_filter] at this
        exact this.1.1

/-- A ruleset that comes back from its own text has non-empty rules with safe conditions. -/
theorem safeRuleset_of_back {rs rs' : Ruleset} (h : rulesetFromStr rs.text = .ok rs')
    (he : rs'.rules.map Rule.conds = rs.rules.map Rule.conds) :
    ∀ r ∈ rs.rules, r.conds ≠ [] ∧ ∀ c ∈ r.conds, SafeCond c := by
  have hlen0 : rs'.rules.length = rs.rules.length := by
    have := congrArg List.length he
    simpa using this
  by_cases hnil : rs.rules = []
  · rw [hnil]; simp
  unfold rulesetFromStr at h
  split_ifs at h with hlit
  · cases h
    exact absurd (List.length_eq_zero_iff.1 hlen0.symm) hnil
  · cases hm : (splitChar 'V' rs.text).mapM ruleFromStr with
    | error e => rw [hm] at h; cases h
    | ok rules =>
      rw [hm] at h
      cases h
      simp only at he hlen0
      have hf := forall₂_ok hm
      have hlen := forall₂_length hf
      have hmap : rs.rules.map Rule.text = (rs.rules.map Rule.conds).map condsText := by simp [Rule.text]
      have htext : rs.text = ['['] ++ pyJoin ([' '] ++ 'V' :: [' ']) ((rs.rules.map Rule.conds).map condsText) ++ [']'] := by
        rw [Ruleset.text, hmap]; rfl
      rw [htext] at hf hlen
      rw [splitChar_length] at hlen
      have e1 : List.count 'V' ['['] = 0 := by decide
      have e2 : List.count 'V' [']'] = 0 := by decide
      simp only [List.count_append, e1, e2] at hlen
      have hcount := count_pyJoin 'V' ([' '] ++ 'V' :: [' ']) (by decide) ((rs.rules.map Rule.conds).map condsText)
        (by simp [hnil])
      simp only [List.length_map, List.map_map] at hcount hlen
      have hz : (rs.rules.map (List.count 'V' ∘ condsText ∘ Rule.conds)).sum = 0 := by omega
      have hz' : ∀ r ∈ rs.rules, 'V' ∉ condsText r.conds := by
        intro r hr
        have := List.sum_eq_zero_iff_forall_eq_nat.mp hz _ (List.mem_map.2 ⟨r, hr, rfl⟩)
        exact List.count_eq_zero.1 this
      have hsplit := splitChar_padded 'V' [' '] [' '] (by decide) (by decide) [']'] (by decide)
        ((rs.rules.map Rule.conds).map condsText) (by simp [hnil])
        (by
          intro t ht
          simp only [List.map_map, List.mem_map] at ht
          obtain ⟨r, hr, rfl⟩ := ht; exact hz' r hr) ['['] (by decide)
      rw [List.forall₂_map_right_iff] at hsplit
      -- compare rule by rule
      have hf' : List.Forall₂ (fun p cs => ∃ r : Rule, ruleFromStr p = .ok r ∧ r.conds = cs)
          (splitChar 'V' (['['] ++ pyJoin ([' '] ++ 'V' :: [' ']) ((rs.rules.map Rule.conds).map condsText) ++ [']']))
          (rs.rules.map Rule.conds) := by
        have hg : List.Forall₂ (fun p cs => ∃ r : Rule, ruleFromStr p = .ok r ∧ r.conds = cs)
            (splitChar 'V' (['['] ++ pyJoin ([' '] ++ 'V' :: [' ']) ((rs.rules.map Rule.conds).map condsText) ++ [']']))
            (rules.map Rule.conds) := by
          rw [List.forall₂_map_right_iff]
          exact hf.imp (fun p r h => (⟨r, h, rfl⟩ : ∃ r' : Rule, ruleFromStr p = .ok r' ∧ r'.conds = r.conds))
        rwa [he] at hg
      have := forall₂_self (forall₂_compose hsplit hf')
      intro r hr
      obtain ⟨p, ⟨a, b, ha, hb, rfl⟩, r', hp, hcs⟩ := this r.conds (List.mem_map.2 ⟨r, hr, rfl⟩)
      have hpa : a ≠ [] ∧ Padding a := by
        rcases ha with rfl | rfl
        · exact ⟨by simp, by intro c hc; simp at hc; exact .inl hc⟩
        · exact ⟨by simp, by intro c hc; simp at hc; subst hc; exact .inr (.inr (by decide))⟩
      have hpb : Padding b := by
        rcases hb with rfl | rfl
        · intro c hc; simp at hc; exact .inr (.inl hc)
        · intro c hc; simp at hc; subst hc; exact .inr (.inr (by decide))
      exact safeRule_of_back hpa.1 hpa.2 hpb (hz' r hr) hp hcs

end Witt
