import Verif.Spec.Text
import Mathlib.Tactic.Ring
import Mathlib.Tactic.Tauto
import Mathlib.Tactic.ByContra
/-
The expression lexer divides a text as Spec/Text.lean says.
-/
namespace BeTree

/-! ### the longest match -/

theorem lexBest_none {τ : Type} {s : Str} {rules : List (LexRule τ)} (h : lexBest s rules = none) : ∀ r ∈ rules, r.len s = 0 := by
  induction rules with
  | nil => simp
  | cons r rs ih =>
    rw [lexBest] at h
    cases hb : lexBest s rs with
    | none =>
      simp only [hb] at h
      intro r' hr'
      rcases List.mem_cons.mp hr' with rfl | hr'
      · by_contra h0
        simp [h0] at h
      · exact ih hb r' hr'
    | some p =>
      obtain ⟨n, r0⟩ := p
      simp only [hb] at h
      split at h <;> cases h

theorem lexBest_some {τ : Type} {s : Str} {rules : List (LexRule τ)} {n : Nat} {r : LexRule τ} (h : lexBest s rules = some (n, r)) :
    n ≠ 0 ∧ r.len s = n ∧ ∃ pre post, rules = pre ++ r :: post ∧ (∀ r' ∈ pre, r'.len s < n) ∧ (∀ r' ∈ post, r'.len s ≤ n) := by
  induction rules generalizing n r with
  | nil => simp [lexBest] at h
  | cons a rs ih =>
    rw [lexBest] at h
    cases hb : lexBest s rs with
    | none =>
      simp only [hb] at h
      split at h
      · cases h
      · rename_i h0
        simp only [Option.some.injEq, Prod.mk.injEq] at h
        obtain ⟨rfl, rfl⟩ := h
        exact ⟨h0, rfl, [], rs, rfl, by simp, fun r' hr' => by rw [lexBest_none hb r' hr']; exact Nat.zero_le _⟩
    | some p =>
      obtain ⟨m, r0⟩ := p
      simp only [hb] at h
      obtain ⟨hm, hl, pre, post, rfl, hpre, hpost⟩ := ih hb
      split at h
      · rename_i hc
        simp only [Option.some.injEq, Prod.mk.injEq] at h
        obtain ⟨rfl, rfl⟩ := h
        refine ⟨hc.1, rfl, [], _, rfl, by simp, ?_⟩
        intro r' hr'
        rcases List.mem_append.mp hr' with h' | h'
        · exact Nat.le_trans (Nat.le_of_lt (hpre r' h')) hc.2
        · rcases List.mem_cons.mp h' with rfl | h'
          · rw [hl]; exact hc.2
          · exact Nat.le_trans (hpost r' h') hc.2
      · rename_i hc
        simp only [Option.some.injEq, Prod.mk.injEq] at h
        obtain ⟨rfl, rfl⟩ := h
        refine ⟨hm, hl, a :: pre, post, rfl, ?_, hpost⟩
        intro r' hr'
        rcases List.mem_cons.mp hr' with rfl | h'
        · by_contra hlt
          exact hc ⟨by omega, by omega⟩
        · exact hpre r' h'

theorem lexGo_drop {τ : Type} (rules : List (LexRule τ)) (k : Nat) (s : Str) : lexGo rules k s = lexGo rules 0 (s.drop k) := by
  induction s generalizing k with
  | nil => cases k <;> simp [lexGo]
  | cons c s ih =>
    cases k with
    | zero => rfl
    | succ k => rw [lexGo, ih]; rfl

/-! ### spans of characters -/

theorem spanLen_take (p : Char → Bool) (s : Str) : ∀ c ∈ s.take (spanLen p s), p c = true := by
  induction s with
  | nil => simp [spanLen]
  | cons c s ih =>
    unfold spanLen
    split
    · rename_i h
      intro d hd
      rw [List.take_succ_cons] at hd
      rcases List.mem_cons.mp hd with rfl | hd
      · exact h
      · exact ih d hd
    · simp

theorem spanLen_le (p : Char → Bool) (s : Str) : spanLen p s ≤ s.length := by
  induction s with
  | nil => simp [spanLen]
  | cons c s ih => unfold spanLen; split <;> simp_all

theorem le_spanLen {p : Char → Bool} {w s : Str} (h : w <+: s) (hw : ∀ c ∈ w, p c = true) : w.length ≤ spanLen p s := by
  induction w generalizing s with
  | nil => simp
  | cons c w ih =>
    obtain ⟨r, rfl⟩ := h
    rw [List.cons_append, spanLen, if_pos (hw c (by simp))]
    have := ih (s := w ++ r) (List.prefix_append _ _) (fun d hd => hw d (by simp [hd]))
    simp only [List.length_cons]; omega

/-- a span that ends where the characters stop -/
theorem spanLen_append {p : Char → Bool} {w : Str} {c : Char} {r : Str} (hw : ∀ d ∈ w, p d = true) (hc : p c = false) :
    spanLen p (w ++ c :: r) = w.length := by
  induction w with
  | nil => simp [spanLen, hc]
  | cons d w ih =>
    rw [List.cons_append, spanLen, if_pos (hw d (by simp)), ih (fun d hd => hw d (by simp [hd]))]
    rfl

theorem isDigit_eq (c : Char) : isDigit c = c.isDigit := by
  simp only [isDigit, Char.isDigit, Char.le_def, ge_iff_le]

theorem isNameStart_eq (c : Char) : isNameStart c = true ↔ (c.isAlpha = true ∨ c = '_') := by
  have h1 : ∀ a b : Char, (decide (a ≤ c) && decide (c ≤ b)) = (decide (a.val ≤ c.val) && decide (c.val ≤ b.val)) := fun a b => rfl
  simp only [isNameStart, Char.isAlpha, Char.isUpper, Char.isLower, Bool.or_eq_true, beq_iff_eq, Bool.and_eq_true, decide_eq_true_eq,
    Char.le_def, ge_iff_le]
  tauto

theorem isNameChar_eq (c : Char) : isNameChar c = true ↔ (c.isAlphanum = true ∨ c = '_' ∨ c = '-') := by
  simp only [isNameChar, Bool.or_eq_true, isNameStart_eq, isDigit_eq, Char.isAlphanum, beq_iff_eq]
  tauto

theorem digits_iff (w : Str) : Digits w ↔ ∀ c ∈ w, isDigit c = true := by
  simp only [Digits, isDigit_eq]

theorem digitsVal_eq (w : Str) : digitsVal w = decimal w := by
  have key : ∀ (w : Str) (n : Nat), w.foldl (fun n c => 10 * n + (c.toNat - '0'.toNat)) n = n * 10 ^ w.length + decimal w := by
    intro w
    induction w with
    | nil => intro n; simp [decimal]
    | cons c w ih =>
      intro n
      rw [List.foldl_cons, ih, decimal, List.length_cons, Nat.pow_succ]
      ring
  rw [digitsVal, key]; simp

/-! ### quoted strings -/

theorem bodyLen_some {q : Char} (s : Str) {n : Nat} (h : bodyLen q s = some n) :
    ∃ b r, s = b ++ q :: r ∧ Quotable q b ∧ n = b.length + 1 := by
  fun_induction bodyLen q s generalizing n with
  | case1 => cases h
  | case2 s =>
    cases h
    exact ⟨[], s, rfl, .nil, rfl⟩
  | case3 => cases h
  | case4 => cases h
  | case5 =>
    rename_i d s hd hq ih
    simp only [Option.map_eq_some_iff] at h
    obtain ⟨m, hm, rfl⟩ := h
    obtain ⟨b, r, rfl, hb, rfl⟩ := ih hm
    exact ⟨'\\' :: d :: b, r, rfl, .escape hd hb, rfl⟩
  | case6 c s hq hb ih =>
    simp only [Option.map_eq_some_iff] at h
    obtain ⟨m, hm, rfl⟩ := h
    obtain ⟨b, r, rfl, hb', rfl⟩ := ih hm
    exact ⟨c :: b, r, rfl, .char hq hb hb', rfl⟩

theorem bodyLen_of {q : Char} (hq : q ≠ '\\') {b : Str} (h : Quotable q b) (r : Str) : bodyLen q (b ++ q :: r) = some (b.length + 1) := by
  induction h with
  | nil => rw [List.nil_append, bodyLen.eq_def]; exact if_pos rfl
  | char h1 h2 h3 ih => rw [List.cons_append, bodyLen.eq_def]; simp only [h1, h2, if_false, ih]; rfl
  | escape h1 h2 ih =>
    rw [List.cons_append, List.cons_append, bodyLen.eq_def]
    simp only [hq.symm, h1, if_false, if_true, ih]; rfl

theorem quotedLen_some {q : Char} {s : Str} (h : quotedLen q s ≠ 0) :
    ∃ b r, s = q :: b ++ q :: r ∧ Quotable q b ∧ quotedLen q s = b.length + 2 := by
  cases s with
  | nil => simp [quotedLen] at h
  | cons c s =>
    rw [quotedLen] at h ⊢
    by_cases hc : c = q
    · simp only [hc, if_true] at h ⊢
      cases hb : bodyLen q s with
      | none => simp [hb] at h
      | some n =>
        obtain ⟨b, r, rfl, hq, rfl⟩ := bodyLen_some s hb
        exact ⟨b, r, rfl, hq, rfl⟩
    · simp [hc] at h

theorem quotedLen_of {q : Char} (hq : q ≠ '\\') {b : Str} (h : Quotable q b) (r : Str) :
    quotedLen q (q :: b ++ q :: r) = b.length + 2 := by
  rw [List.cons_append, quotedLen, if_pos rfl, bodyLen_of hq h]

/-! ### numbers -/

theorem strtoll_eq (w : Str) : strtoll w = min (decimal w : Int) (2 ^ 63 - 1) := by
  unfold strtoll
  rw [digitsVal_eq]
  unfold int64Max
  split <;> omega

theorem digit_dot : isDigit '.' = false := by decide

theorem atof_eq {w f : Str} (hw : Digits w) : atof (w ++ '.' :: f) = rnd (decimal w + decimal f / 10 ^ f.length) := by
  unfold atof
  rw [spanLen_append ((digits_iff w).mp hw) digit_dot, List.take_left', List.drop_append, digitsVal_eq, digitsVal_eq, Rat.mkRat_eq_div]
  · simp [List.drop_eq_nil_of_le]
  · rfl

theorem floatLen_some {s : Str} (h : floatLen s ≠ 0) :
    ∃ w f r, s = w ++ '.' :: f ++ r ∧ w ≠ [] ∧ Digits w ∧ Digits f ∧ floatLen s = (w ++ '.' :: f).length := by
  unfold floatLen at h ⊢
  split at h
  · exact absurd rfl h
  · rename_i h0
    rw [if_neg h0]
    split at h
    · rename_i rest hr
      have hs : s = s.take (spanLen isDigit s) ++ '.' :: rest := by rw [← hr, List.take_append_drop]
      have hl : (s.take (spanLen isDigit s)).length = spanLen isDigit s := by
        rw [List.length_take]; have := spanLen_le isDigit s; omega
      refine ⟨s.take (spanLen isDigit s), rest.take (spanLen isDigit rest), rest.drop (spanLen isDigit rest), ?_, ?_, ?_, ?_, ?_⟩
      · rw [List.append_assoc, List.cons_append, List.take_append_drop]; exact hs
      · intro h; rw [h] at hl; simp at hl; omega
      · exact (digits_iff _).mpr (spanLen_take _ _)
      · exact (digits_iff _).mpr (spanLen_take _ _)
      · simp only [List.length_append, List.length_cons, hl, List.length_take]
        have := spanLen_le isDigit rest
        omega
    · exact absurd rfl h

theorem le_floatLen {w f s : Str} (h : w ++ '.' :: f <+: s) (h0 : w ≠ []) (hw : Digits w) (hf : Digits f) :
    (w ++ '.' :: f).length ≤ floatLen s := by
  obtain ⟨r, rfl⟩ := h
  have h1 : spanLen isDigit (w ++ '.' :: f ++ r) = w.length := by
    rw [List.append_assoc, List.cons_append]; exact spanLen_append ((digits_iff w).mp hw) digit_dot
  have h2 : (w ++ '.' :: f ++ r).drop w.length = '.' :: (f ++ r) := by
    rw [List.append_assoc, List.drop_left']; rfl; rfl
  have h3 : f.length ≤ spanLen isDigit (f ++ r) := le_spanLen (List.prefix_append _ _) ((digits_iff f).mp hf)
  unfold floatLen
  rw [h1, if_neg (by simpa using h0), h2]
  simp only [List.length_append, List.length_cons]
  omega

/-! ### the rules -/

/-- the literal rules of lexer.l -/
def kwList : List (String × Tok) := [
  ("within_frequency_cap", .withinFrequencyCap), ("segment_within", .segmentWithin), ("segment_before", .segmentBefore),
  ("geo_within_radius", .geoWithinRadius), ("contains", .contains), ("starts_with", .startsWith), ("ends_with", .endsWith),
  ("-", .minus), ("=", .eq), ("<>", .ne), (">", .gt), (">=", .ge), ("<", .lt), ("<=", .le), ("(", .lparen), (")", .rparen),
  (",", .comma), ("not in", .notIn), ("in", .isIn), ("one of", .oneOf), ("none of", .noneOf), ("all of", .allOf), ("&&", .and),
  ("and", .and), ("||", .or), ("or", .or), ("not", .not), ("is not null", .isNotNull), ("is null", .isNull), ("is empty", .isEmpty),
  ("true", .true), ("false", .false)]

/-- white space -/
def blankRule : LexRule Tok := ⟨blankLen, fun _ => .skip⟩
/-- quoted strings -/
def quoteRule (q : Char) : LexRule Tok := ⟨quotedLen q, fun s => .emit (.string (unquote s))⟩
/-- names -/
def nameRule : LexRule Tok := ⟨nameLen, fun s => .emit (.ident s)⟩
/-- numbers -/
def intRule : LexRule Tok := ⟨intLen, fun s => .emit (.int (strtoll s))⟩
/-- numbers with a point -/
def floatRule : LexRule Tok := ⟨floatLen, fun s => .emit (.float (atof s))⟩
/-- anything else -/
def anyRule : LexRule Tok := ⟨anyLen, fun _ => .stop⟩

theorem xxRules_eq : xxRules = (blankRule :: kwList.map (fun p => litRule p.1 p.2) ++
    [quoteRule '"', quoteRule '\'', nameRule, intRule, floatRule]) ++ [anyRule] := rfl

theorem mem_spellings {k : String} {t : Tok} : k ∈ spellings t ↔ (k, t) ∈ kwList := by
  constructor
  · intro h
    cases t <;> simp only [spellings, List.mem_cons, List.not_mem_nil, or_false] at h
    all_goals first | (subst h; decide) | (rcases h with rfl | rfl <;> decide)
  · have : ∀ p ∈ kwList, p.1 ∈ spellings p.2 := by decide
    exact this (k, t)

/-- the rules that give tokens -/
def tokenRules : List (LexRule Tok) :=
  kwList.map (fun p => litRule p.1 p.2) ++ [quoteRule '"', quoteRule '\'', nameRule, intRule, floatRule]

theorem mem_xxRules {r : LexRule Tok} : r ∈ xxRules ↔ r = blankRule ∨ r ∈ tokenRules ∨ r = anyRule := by
  rw [xxRules_eq, tokenRules]
  simp only [List.mem_append, List.mem_cons, List.cons_append, List.not_mem_nil, or_false, or_assoc]

theorem litLen_pos {k s : Str} (h : litLen k s ≠ 0) : k <+: s ∧ litLen k s = k.length := by
  unfold litLen at h ⊢
  split at h
  · rename_i hp; exact ⟨List.isPrefixOf_iff_prefix.mp hp, by rw [if_pos hp]⟩
  · exact absurd rfl h

theorem litLen_of {k s : Str} (h : k <+: s) : litLen k s = k.length := by
  unfold litLen; rw [if_pos (List.isPrefixOf_iff_prefix.mpr h)]

theorem nameLen_some {s : Str} (h : nameLen s ≠ 0) :
    ∃ c w r, s = (c :: w) ++ r ∧ nameLen s = (c :: w).length ∧ (c.isAlpha ∨ c = '_') ∧ ∀ d ∈ w, d.isAlphanum ∨ d = '_' ∨ d = '-' := by
  cases s with
  | nil => simp [nameLen] at h
  | cons c s =>
    rw [nameLen] at h ⊢
    split at h
    · rename_i hc
      refine ⟨c, s.take (spanLen isNameChar s), s.drop (spanLen isNameChar s), ?_, ?_, (isNameStart_eq c).mp hc, ?_⟩
      · simp
      · rw [if_pos hc, List.length_cons, List.length_take]; have := spanLen_le isNameChar s; omega
      · intro d hd; exact (isNameChar_eq d).mp (spanLen_take _ _ d hd)
    · exact absurd rfl h

/-- every way of writing a token is matched at least that far by some rule -/
theorem spells_matched {t : Tok} {w s : Str} (h : Spells t w) (hs : w <+: s) : ∃ r ∈ tokenRules, w.length ≤ r.len s := by
  cases h with
  | @fixed t k hk =>
    refine ⟨litRule k t, ?_, ?_⟩
    · exact List.mem_append_left _ (List.mem_map.mpr ⟨(k, t), mem_spellings.mp hk, rfl⟩)
    · simp only [litRule]; rw [litLen_of hs]
  | ident hn =>
    refine ⟨nameRule, by simp [tokenRules], ?_⟩
    obtain ⟨⟨c, r, rfl, hc, hr⟩, _⟩ := hn
    obtain ⟨s', rfl⟩ := hs
    simp only [nameRule, List.cons_append, nameLen]
    rw [if_pos ((isNameStart_eq c).mpr hc)]
    have := le_spanLen (p := isNameChar) (List.prefix_append r s') (fun d hd => (isNameChar_eq d).mpr (hr d hd))
    simp only [List.length_cons]; omega
  | @string q b hq hb =>
    refine ⟨quoteRule q, ?_, ?_⟩
    · rcases hq with rfl | rfl <;> simp [tokenRules]
    · obtain ⟨r, rfl⟩ := hs
      have hq' : q ≠ '\\' := by rcases hq with rfl | rfl <;> decide
      have := quotedLen_of hq' hb r
      simp only [quoteRule]
      rw [show q :: b ++ [q] ++ r = q :: b ++ q :: r by simp, this]
      simp
  | int h0 hd =>
    exact ⟨intRule, by simp [tokenRules], le_spanLen hs ((digits_iff _).mp hd)⟩
  | float h0 hw hf => exact ⟨floatRule, by simp [tokenRules], le_floatLen hs h0 hw hf⟩

/-- what a rule matches is a way of writing the token it gives, unless it is a fixed word matched as a name -/
theorem matched_spells {r : LexRule Tok} {s : Str} (hr : r ∈ tokenRules) (h : r.len s ≠ 0) :
    r.len s ≤ s.length ∧ ∃ t, r.act (s.take (r.len s)) = .emit t ∧
      (Spells t (s.take (r.len s)) ∨ (r = nameRule ∧ ∃ p ∈ kwList, s.take (r.len s) = p.1.toList)) := by
  rcases List.mem_append.mp hr with hr | hr
  · obtain ⟨⟨k, t⟩, hm, rfl⟩ := List.mem_map.mp hr
    obtain ⟨⟨s', rfl⟩, hl⟩ := litLen_pos h
    simp only [litRule] at h hl ⊢
    rw [hl]
    refine ⟨by simp, t, rfl, .inl ?_⟩
    rw [List.take_left']
    · exact .fixed (mem_spellings.mpr hm)
    · rfl
  · simp only [List.mem_cons, List.not_mem_nil, or_false] at hr
    have hquote : ∀ q : Char, q = '"' ∨ q = '\'' → (quoteRule q).len s ≠ 0 → (quoteRule q).len s ≤ s.length ∧
        ∃ t, (quoteRule q).act (s.take ((quoteRule q).len s)) = .emit t ∧ Spells t (s.take ((quoteRule q).len s)) := by
      intro q hq h
      obtain ⟨b, r, rfl, hb, hl⟩ := quotedLen_some h
      simp only [quoteRule] at h ⊢
      rw [hl]
      have e : (q :: b ++ q :: r).take (b.length + 2) = q :: b ++ [q] := by
        rw [show q :: b ++ q :: r = (q :: b ++ [q]) ++ r by simp, List.take_left']
        simp
      refine ⟨by simp, _, rfl, ?_⟩
      rw [e]
      have e2 : unquote (q :: b ++ [q]) = b := by simp [unquote]
      rw [e2]
      exact .string hq hb
    rcases hr with rfl | rfl | rfl | rfl | rfl
    · obtain ⟨h1, t, h2, h3⟩ := hquote _ (.inl rfl) h
      exact ⟨h1, t, h2, .inl h3⟩
    · obtain ⟨h1, t, h2, h3⟩ := hquote _ (.inr rfl) h
      exact ⟨h1, t, h2, .inl h3⟩
    · obtain ⟨c, w, r, hs, hl, hc, hw⟩ := nameLen_some h
      simp only [nameRule]
      have e : s.take (nameLen s) = c :: w := by rw [hl, hs, List.take_left']; rfl
      refine ⟨by rw [hl, hs]; simp, _, rfl, ?_⟩
      rw [e]
      by_cases hk : ∃ p ∈ kwList, c :: w = p.1.toList
      · exact .inr (by simpa [nameRule] using hk)
      · refine .inl (.ident ⟨⟨c, w, rfl, hc, hw⟩, ?_⟩)
        intro t k hk' he
        exact hk ⟨(k, t), mem_spellings.mp hk', he⟩
    · simp only [intRule] at h ⊢
      refine ⟨spanLen_le _ _, _, rfl, .inl ?_⟩
      rw [strtoll_eq]
      refine .int ?_ ((digits_iff _).mpr (spanLen_take _ _))
      intro h'
      have hl : (s.take (intLen s)).length = intLen s := by
        rw [List.length_take]; have := spanLen_le isDigit s; unfold intLen at *; omega
      rw [h'] at hl; simp at hl; omega
    · simp only [floatRule] at h ⊢
      obtain ⟨w, f, r, hs, h0, hw, hf, hl⟩ := floatLen_some h
      have e : s.take (floatLen s) = w ++ '.' :: f := by rw [hl, hs, List.take_left']; rfl
      refine ⟨by rw [hl, hs]; simp, _, rfl, .inl ?_⟩
      rw [e, atof_eq hw]
      exact .float h0 hw hf

/-! ### which rule wins -/

theorem front_of_not_mem {α : Type} {A B pre post : List α} {r : α} (h : A ++ B = pre ++ r :: post) (hr : r ∉ A) :
    ∀ a ∈ A, a ∈ pre := by
  rcases List.append_eq_append_iff.mp h with ⟨c, rfl, hc⟩ | ⟨c, rfl, hc⟩
  · intro a ha; exact List.mem_append_left _ ha
  · cases c with
    | nil => simp
    | cons x c =>
      simp only [List.cons_append, List.cons.injEq] at hc
      obtain ⟨rfl, _⟩ := hc
      simp at hr

theorem name_not_kw : nameRule ∉ blankRule :: kwList.map (fun p => litRule p.1 p.2) := by
  intro h
  rcases List.mem_cons.mp h with h | h
  · have := congrArg (fun r => r.act []) h
    simp [nameRule, blankRule] at this
  · obtain ⟨⟨k, t⟩, hm, he⟩ := List.mem_map.mp h
    have := congrArg (fun r => r.act []) he
    simp only [nameRule, litRule, LexAct.emit.injEq] at this
    subst this
    revert hm
    have : ∀ p ∈ kwList, p.2 ≠ .ident [] := by decide
    exact fun hm => this _ hm rfl

theorem any_not_token : anyRule ∉ blankRule :: tokenRules := by
  intro h
  rcases List.mem_cons.mp h with h | h
  · have := congrArg (fun r => r.act []) h
    simp [anyRule, blankRule] at this
  · rcases List.mem_append.mp h with h | h
    · obtain ⟨⟨k, t⟩, hm, he⟩ := List.mem_map.mp h
      have := congrArg (fun r => r.act []) he
      simp [anyRule, litRule] at this
    · simp only [List.mem_cons, List.not_mem_nil, or_false] at h
      rcases h with h | h | h | h | h <;>
      · have := congrArg (fun r => r.act []) h
        simp [anyRule, quoteRule, nameRule, intRule, floatRule] at this

theorem blankLen_pos {c : Char} {s : Str} : blankLen (c :: s) ≠ 0 ↔ Blank c := by
  rw [blankLen]
  unfold Blank
  split <;> simp_all

theorem blankLen_le (s : Str) : blankLen s ≤ 1 := by
  cases s with
  | nil => simp [blankLen]
  | cons c s => rw [blankLen]; split <;> simp

/-- the lexer divides a text as `Scan` says -/
theorem lexExpr_scan (s : Str) : ∃ r, Scan s (lexExpr s) r := by
  induction hn : s.length using Nat.strongRecOn generalizing s with
  | _ n ih =>
    cases s with
    | nil => exact ⟨[], .done⟩
    | cons c s =>
      have hstep : lexExpr (c :: s) = match lexBest (c :: s) xxRules with
        | none => lexGo xxRules 0 s
        | some (n, r) =>
          match r.act ((c :: s).take n) with
          | .skip => lexGo xxRules (n - 1) s
          | .emit t => t :: lexGo xxRules (n - 1) s
          | .stop => [] := by
        rw [lexExpr, lexGo]
        cases lexBest (c :: s) xxRules with
        | none => rfl
        | some p => obtain ⟨m, r⟩ := p; dsimp only; cases r.act (List.take m (c :: s)) <;> rfl
      have hpos : ∀ m, m ≠ 0 → s.drop (m - 1) = (c :: s).drop m := by
        intro m hm; obtain ⟨k, rfl⟩ := Nat.exists_eq_succ_of_ne_zero hm; rfl
      cases hb : lexBest (c :: s) xxRules with
      | none =>
        have h := lexBest_none hb
        have h1 := h blankRule (mem_xxRules.mpr (.inl rfl))
        have h2 := h anyRule (mem_xxRules.mpr (.inr (.inr rfl)))
        simp only [anyRule, anyLen] at h2
        split at h2
        · rename_i hc
          exact absurd h1 ((blankLen_pos (s := s)).mpr (.inr (.inr hc)))
        · cases h2
      | some p =>
        obtain ⟨m, r⟩ := p
        rw [hb] at hstep
        dsimp only at hstep
        obtain ⟨hm, hl, pre, post, hsplit, hpre, hpost⟩ := lexBest_some hb
        have hall : ∀ r' ∈ xxRules, r'.len (c :: s) ≤ m := by
          intro r' hr'
          rw [hsplit] at hr'
          rcases List.mem_append.mp hr' with h | h
          · exact Nat.le_of_lt (hpre r' h)
          · rcases List.mem_cons.mp h with rfl | h
            · exact Nat.le_of_eq hl
            · exact hpost r' h
        have hr : r ∈ xxRules := by rw [hsplit]; simp
        rw [lexGo_drop, hpos m hm] at hstep
        rcases mem_xxRules.mp hr with rfl | hr | rfl
        · have h1 : m = 1 := by
            have := blankLen_le (c :: s)
            simp only [blankRule] at hl
            omega
          subst h1
          have hbl : Blank c := (blankLen_pos (s := s)).mp (by simp only [blankRule] at hl; omega)
          obtain ⟨rest, hrest⟩ := ih s.length (by rw [← hn]; simp) s rfl
          exact ⟨rest, by rw [hstep]; exact .blank hbl hrest⟩
        · obtain ⟨hle, t, hact, hsp⟩ := matched_spells (s := c :: s) hr (by omega)
          rw [hl] at hle hact hsp
          have hspell : Spells t ((c :: s).take m) := by
            rcases hsp with h | ⟨rfl, p, hp, hk⟩
            · exact h
            · exfalso
              have hin := front_of_not_mem (A := blankRule :: kwList.map (fun p => litRule p.1 p.2))
                (B := [quoteRule '"', quoteRule '\'', nameRule, intRule, floatRule] ++ [anyRule])
                (by rw [← hsplit, xxRules_eq, List.append_assoc]) name_not_kw
                (litRule p.1 p.2) (List.mem_cons_of_mem _ (List.mem_map.mpr ⟨p, hp, rfl⟩))
              have hlt := hpre _ hin
              simp only [litRule] at hlt
              rw [litLen_of (by rw [← hk]; exact List.take_prefix _ _), ← hk, List.length_take] at hlt
              omega
          rw [hact] at hstep
          obtain ⟨rest, hrest⟩ := ih ((c :: s).drop m).length (by rw [← hn, List.length_drop]; simp; omega) _ rfl
          refine ⟨rest, ?_⟩
          rw [hstep]
          have hcs : c :: s = (c :: s).take m ++ (c :: s).drop m := (List.take_append_drop _ _).symm
          rw [hcs]
          rw [← hcs]
          have := Scan.token (s := (c :: s).drop m) hspell ?_ hrest
          · rw [← hcs] at this; exact this
          · intro t' w' hw' hp
            rw [← hcs] at hp
            obtain ⟨r', hr', hlen⟩ := spells_matched hw' hp
            have := hall r' (mem_xxRules.mpr (.inr (.inl hr')))
            rw [List.length_take]
            omega
        · refine ⟨c :: s, ?_⟩
          have : lexExpr (c :: s) = [] := hstep
          rw [this]
          have h1 : m = 1 := by
            simp only [anyRule, anyLen] at hl
            split at hl <;> omega
          subst h1
          have hfront := front_of_not_mem (A := blankRule :: tokenRules) (B := [anyRule])
            (by rw [← hsplit, xxRules_eq]; rfl) any_not_token
          refine .stuck ?_ ?_
          · intro hbl
            have h1 := hpre _ (hfront blankRule (by simp))
            have h2 := (blankLen_pos (s := s)).mpr hbl
            simp only [blankRule] at h1
            omega
          · intro t w hw hp
            obtain ⟨r', hr', hlen⟩ := spells_matched hw hp
            have h1 := hpre _ (hfront r' (List.mem_cons_of_mem _ hr'))
            have h2 : w.length = 0 := by omega
            have hne : w ≠ [] := by
              cases hw with
              | @fixed t k hk =>
                have : ∀ p ∈ kwList, p.1.toList ≠ [] := by decide
                exact this _ (mem_spellings.mp hk)
              | ident hn => obtain ⟨⟨c, r, rfl, _⟩, _⟩ := hn; simp
              | string => simp
              | int h0 => exact h0
              | float => simp
            exact hne (List.length_eq_zero_iff.mp h2)

/-! ### the division is unique -/

/-- the first character tells numbers, strings and the rest apart -/
theorem kw_first : ∀ p ∈ kwList, ∃ c r, p.1.toList = c :: r ∧ isDigit c = false ∧ c ≠ '"' ∧ c ≠ '\'' ∧ ¬ Blank c := by
  have h : ∀ p ∈ kwList, p.1.toList ≠ [] ∧ isDigit (p.1.toList.headD ' ') = false ∧ p.1.toList.headD ' ' ≠ '"' ∧
      p.1.toList.headD ' ' ≠ '\'' ∧
      ¬ (p.1.toList.headD ' ' = ' ' ∨ p.1.toList.headD ' ' = '\t' ∨ p.1.toList.headD ' ' = '\n') := by decide
  intro p hp
  obtain ⟨h0, h1⟩ := h p hp
  cases hl : p.1.toList with
  | nil => exact absurd hl h0
  | cons a r => rw [hl] at h1; exact ⟨a, r, rfl, h1⟩

theorem kw_distinct : ∀ p ∈ kwList, ∀ q ∈ kwList, p.1.toList = q.1.toList → p.2 = q.2 := by decide

theorem name_first {c : Char} (h : c.isAlpha = true ∨ c = '_') : isDigit c = false ∧ c ≠ '"' ∧ c ≠ '\'' ∧ ¬ Blank c := by
  have h' := (isNameStart_eq c).mpr h
  have key : ∀ d : Char, isNameStart d = false → c ≠ d := by
    intro d hd he; subst he; rw [h'] at hd; cases hd
  refine ⟨?_, key _ (by decide), key _ (by decide), ?_⟩
  · rcases h with h | rfl
    · have hd : ¬ c.isDigit = true := by
        intro hd
        simp only [Char.isAlpha, Char.isUpper, Char.isLower, Char.isDigit, Bool.or_eq_true, Bool.and_eq_true, decide_eq_true_eq,
          ge_iff_le, UInt32.le_iff_toNat_le] at h hd
        have e1 : 'A'.val.toNat = 65 := rfl
        have e2 : 'a'.val.toNat = 97 := rfl
        have e3 : '9'.val.toNat = 57 := rfl
        omega
      rw [isDigit_eq]; simpa using hd
    · decide
  · rintro (h | h | h)
    · exact key _ (by decide) h
    · exact key _ (by decide) h
    · exact key _ (by decide) h

theorem digit_first {c : Char} (h : isDigit c = true) : c ≠ '"' ∧ c ≠ '\'' ∧ ¬ Blank c := by
  have key : ∀ d : Char, isDigit d = false → c ≠ d := by
    intro d hd he; subst he; rw [h] at hd; cases hd
  refine ⟨key _ (by decide), key _ (by decide), ?_⟩
  rintro (h | h | h)
  · exact key _ (by decide) h
  · exact key _ (by decide) h
  · exact key _ (by decide) h

theorem digits_cons {w : Str} (h0 : w ≠ []) (h : Digits w) : ∃ c r, w = c :: r ∧ isDigit c = true := by
  cases w with
  | nil => exact absurd rfl h0
  | cons c r => exact ⟨c, r, rfl, (digits_iff _).mp h c (by simp)⟩

/-- the kinds of written tokens, by their first character -/
theorem spells_first {t : Tok} {w : Str} (h : Spells t w) : ∃ c r, w = c :: r ∧ ¬ Blank c := by
  cases h with
  | @fixed t k hk => obtain ⟨c, r, h1, _, _, _, h2⟩ := kw_first _ (mem_spellings.mp hk); exact ⟨c, r, h1, h2⟩
  | ident hn => obtain ⟨⟨c, r, rfl, hc, _⟩, _⟩ := hn; exact ⟨c, r, rfl, (name_first hc).2.2.2⟩
  | @string q b hq hb =>
    refine ⟨q, b ++ [q], rfl, ?_⟩
    rcases hq with rfl | rfl <;> (unfold Blank; decide)
  | int h0 hd => obtain ⟨c, r, rfl, hc⟩ := digits_cons h0 hd; exact ⟨c, r, rfl, (digit_first hc).2.2⟩
  | @float w f h0 hw hf => obtain ⟨c, r, rfl, hc⟩ := digits_cons h0 hw; exact ⟨c, r ++ '.' :: f, rfl, (digit_first hc).2.2⟩

theorem float_inj {w f w' f' : Str} (hw : Digits w) (hw' : Digits w') (h : w ++ '.' :: f = w' ++ '.' :: f') : w = w' ∧ f = f' := by
  have h1 := spanLen_append (r := f) ((digits_iff w).mp hw) digit_dot
  have h2 := spanLen_append (r := f') ((digits_iff w').mp hw') digit_dot
  rw [h, h2] at h1
  have := List.append_inj h h1.symm
  simpa using this

/-- one text is never a way of writing two tokens -/
theorem spells_unique {t t' : Tok} {w : Str} (h : Spells t w) (h' : Spells t' w) : t = t' := by
  have hdot : ∀ (w f : Str), ¬ Digits (w ++ '.' :: f) := by
    intro w f hd
    have := (digits_iff _).mp hd '.' (by simp)
    rw [digit_dot] at this; cases this
  cases h with
  | @fixed t k hk =>
    obtain ⟨c, r, e, hc1, hc2, hc3, _⟩ := kw_first _ (mem_spellings.mp hk)
    simp only at e
    generalize hw : k.toList = w at h'
    cases h' with
    | @fixed t' k' hk' => exact kw_distinct _ (mem_spellings.mp hk) _ (mem_spellings.mp hk') hw
    | ident hn => exact absurd hw.symm (hn.2 t k hk)
    | @string q b hq hb =>
      rw [e, List.cons_append, List.cons.injEq] at hw
      rcases hq with rfl | rfl
      · exact absurd hw.1 hc2
      · exact absurd hw.1 hc3
    | int h0 hd =>
      obtain ⟨d, r', e', hd'⟩ := digits_cons h0 hd
      rw [e, e', List.cons.injEq] at hw
      rw [← hw.1, hc1] at hd'; cases hd'
    | float h0 hd =>
      obtain ⟨d, r', e', hd'⟩ := digits_cons h0 hd
      rw [e, e', List.cons_append, List.cons.injEq] at hw
      rw [← hw.1, hc1] at hd'; cases hd'
  | ident hn =>
    obtain ⟨⟨c, r, e, hc, _⟩, hk⟩ := hn
    obtain ⟨hc1, hc2, hc3, _⟩ := name_first hc
    cases h' with
    | @fixed t' k' hk' => exact absurd rfl (hk t' k' hk')
    | ident hn => rfl
    | @string q b hq hb =>
      rw [List.cons_append, List.cons.injEq] at e
      rcases hq with rfl | rfl
      · exact absurd e.1.symm hc2
      · exact absurd e.1.symm hc3
    | int h0 hd =>
      obtain ⟨d, r', e', hd'⟩ := digits_cons h0 hd
      rw [e, List.cons.injEq] at e'
      rw [← e'.1, hc1] at hd'; cases hd'
    | float h0 hd =>
      obtain ⟨d, r', e', hd'⟩ := digits_cons h0 hd
      rw [e', List.cons_append, List.cons.injEq] at e
      rw [e.1, hc1] at hd'; cases hd'
  | @string q b hq hb =>
    generalize hw : q :: b ++ [q] = w at h'
    have hq' : isDigit q = false ∧ ¬ (q.isAlpha = true ∨ q = '_') := by rcases hq with rfl | rfl <;> decide
    cases h' with
    | @fixed t' k' hk' =>
      obtain ⟨c, r, e, hc1, hc2, hc3, _⟩ := kw_first _ (mem_spellings.mp hk')
      simp only at e
      rw [e, List.cons_append, List.cons.injEq] at hw
      rcases hq with rfl | rfl
      · exact absurd hw.1.symm hc2
      · exact absurd hw.1.symm hc3
    | ident hn =>
      obtain ⟨⟨c, r, e, hc, _⟩, hk⟩ := hn
      rw [e, List.cons_append, List.cons.injEq] at hw
      rw [← hw.1] at hc
      exact absurd hc hq'.2
    | @string q' b' hq2 hb2 =>
      rw [List.cons_append, List.cons_append, List.cons.injEq] at hw
      obtain ⟨rfl, hw⟩ := hw
      have := List.append_inj_left' hw rfl
      rw [this]
    | int h0 hd =>
      obtain ⟨d, r', e', hd'⟩ := digits_cons h0 hd
      rw [e', List.cons_append, List.cons.injEq] at hw
      rw [← hw.1, hq'.1] at hd'; cases hd'
    | float h0 hd =>
      obtain ⟨d, r', e', hd'⟩ := digits_cons h0 hd
      rw [e', List.cons_append, List.cons_append, List.cons.injEq] at hw
      rw [← hw.1, hq'.1] at hd'; cases hd'
  | int h0 hd =>
    obtain ⟨d, r', e', hd'⟩ := digits_cons h0 hd
    cases h' with
    | @fixed t' k' hk' =>
      obtain ⟨c, r, e, hc1, _⟩ := kw_first _ (mem_spellings.mp hk')
      simp only at e
      rw [e, List.cons.injEq] at e'
      rw [← e'.1, hc1] at hd'; cases hd'
    | ident hn =>
      obtain ⟨⟨c, r, e, hc, _⟩, hk⟩ := hn
      rw [e, List.cons.injEq] at e'
      rw [← e'.1, (name_first hc).1] at hd'; cases hd'
    | @string q b hq hb =>
      rw [List.cons_append, List.cons.injEq] at e'
      obtain ⟨rfl, _⟩ := e'
      rcases hq with rfl | rfl <;> exact absurd hd' (by decide)
    | int => rfl
    | @float w f => exact absurd hd (hdot w f)
  | @float w f h0 hd hf =>
    obtain ⟨d, r', e', hd'⟩ := digits_cons h0 hd
    generalize hw : w ++ '.' :: f = x at h'
    cases h' with
    | @fixed t' k' hk' =>
      obtain ⟨c, r, e, hc1, _⟩ := kw_first _ (mem_spellings.mp hk')
      simp only at e
      rw [e, e', List.cons_append, List.cons.injEq] at hw
      rw [hw.1, hc1] at hd'; cases hd'
    | ident hn =>
      obtain ⟨⟨c, r, e, hc, _⟩, hk⟩ := hn
      rw [e, e', List.cons_append, List.cons.injEq] at hw
      rw [hw.1, (name_first hc).1] at hd'; cases hd'
    | @string q b hq hb =>
      rw [e', List.cons_append, List.cons_append, List.cons.injEq] at hw
      obtain ⟨rfl, _⟩ := hw
      rcases hq with rfl | rfl <;> exact absurd hd' (by decide)
    | int h0' hd2 => rw [← hw] at hd2; exact absurd hd2 (hdot w f)
    | @float w' f' h0' hd2 hf2 =>
      obtain ⟨rfl, rfl⟩ := float_inj hd hd2 hw
      rfl

/-- a text divides in one way -/
theorem scan_unique {s : Str} {ts ts' : List Tok} {r r' : Str} (h : Scan s ts r) (h' : Scan s ts' r') : ts = ts' ∧ r = r' := by
  induction h generalizing ts' r' with
  | done =>
    generalize hs : ([] : Str) = s at h'
    cases h' with
    | done => exact ⟨rfl, rfl⟩
    | stuck => cases hs
    | blank => cases hs
    | token hsp =>
      obtain ⟨c, r, rfl, _⟩ := spells_first hsp
      cases hs
  | @stuck c s hb hn =>
    generalize hs : c :: s = s' at h'
    cases h' with
    | done => cases hs
    | stuck => exact ⟨rfl, rfl⟩
    | blank hb' => cases hs; exact absurd hb' hb
    | token hsp => exact absurd (by rw [hs]; exact List.prefix_append _ _) (hn _ _ hsp)
  | @blank c s ts r hb hsc ih =>
    generalize hs : c :: s = s' at h'
    cases h' with
    | done => cases hs
    | stuck hb' => cases hs; exact absurd hb hb'
    | blank hb' hsc' => cases hs; exact ih hsc'
    | token hsp =>
      obtain ⟨d, r, rfl, hd⟩ := spells_first hsp
      cases hs
      exact absurd hb hd
  | @token t w s ts r hsp hmax hsc ih =>
    generalize hs : w ++ s = s' at h'
    cases h' with
    | done =>
      obtain ⟨c, r, rfl, _⟩ := spells_first hsp
      cases hs
    | stuck hb' hn => exact absurd (by rw [← hs]; exact List.prefix_append _ _) (hn _ _ hsp)
    | blank hb' hsc' =>
      obtain ⟨d, r, rfl, hd⟩ := spells_first hsp
      cases hs
      exact absurd hb' hd
    | @token t' w' s' ts' r' hsp' hmax' hsc' =>
      have h1 := hmax t' w' hsp' (by rw [hs]; exact List.prefix_append _ _)
      have h2 := hmax' t w hsp (by rw [← hs]; exact List.prefix_append _ _)
      obtain ⟨rfl, rfl⟩ := List.append_inj hs (by omega)
      obtain rfl := spells_unique hsp hsp'
      obtain ⟨rfl, rfl⟩ := ih hsc'
      exact ⟨rfl, rfl⟩

/-- the lexer's tokens are those of the division, and there is only one -/
theorem lexExpr_eq {s : Str} {ts : List Tok} {r : Str} (h : Scan s ts r) : lexExpr s = ts := by
  obtain ⟨r', h'⟩ := lexExpr_scan s
  exact (scan_unique h' h).1

/-! ### texts written in the ordinary way -/

/-- a character that ends words and numbers -/
def Stopper (c : Char) : Prop := c = ' ' ∨ c = '\t' ∨ c = '\n' ∨ c ∈ ['(', ')', ',', '=', '<', '>', '&', '|']

instance (c : Char) : Decidable (Stopper c) := by unfold Stopper; infer_instance

theorem kw_tail : ∀ p ∈ kwList, p.1 ∈ phrases ∨ (∀ c ∈ p.1.toList.tail, ¬ Stopper c) ∨
    p.1.toList.length = 2 ∧ p.1.toList.head? ∈ [some '<', some '>', some '&', some '|'] := by decide

theorem not_nameChar {c : Char} (h : Stopper c) : isNameChar c = false := by
  simp only [Stopper, List.mem_cons, List.not_mem_nil, or_false] at h
  rcases h with rfl | rfl | rfl | rfl | rfl | rfl | rfl | rfl | rfl | rfl | rfl <;> decide
theorem not_digit {c : Char} (h : Stopper c) : isDigit c = false := by
  simp only [Stopper, List.mem_cons, List.not_mem_nil, or_false] at h
  rcases h with rfl | rfl | rfl | rfl | rfl | rfl | rfl | rfl | rfl | rfl | rfl <;> decide
theorem stopper_ne_dot {c : Char} (h : Stopper c) : c ≠ '.' := by
  simp only [Stopper, List.mem_cons, List.not_mem_nil, or_false] at h
  rcases h with rfl | rfl | rfl | rfl | rfl | rfl | rfl | rfl | rfl | rfl | rfl <;> decide

/-- a token that begins with a quote is a string -/
theorem spells_quote {t : Tok} {q : Char} {r : Str} (hq : q = '"' ∨ q = '\'') (h : Spells t (q :: r)) :
    ∃ b, q :: r = q :: b ++ [q] ∧ Quotable q b := by
  generalize hw : q :: r = w at h
  have hq' : isDigit q = false ∧ ¬ (q.isAlpha = true ∨ q = '_') := by rcases hq with rfl | rfl <;> decide
  cases h with
  | @fixed t k hk =>
    obtain ⟨c, r', e, _, hc2, hc3, _⟩ := kw_first _ (mem_spellings.mp hk)
    simp only at e
    rw [e, List.cons.injEq] at hw
    rcases hq with rfl | rfl
    · exact absurd hw.1.symm hc2
    · exact absurd hw.1.symm hc3
  | ident hn =>
    obtain ⟨⟨c, r', e, hc, _⟩, _⟩ := hn
    rw [e, List.cons.injEq] at hw
    rw [← hw.1] at hc
    exact absurd hc hq'.2
  | @string q' b hq2 hb =>
    rw [List.cons_append, List.cons.injEq] at hw
    obtain ⟨rfl, _⟩ := hw
    exact ⟨b, rfl, hb⟩
  | int h0 hd =>
    obtain ⟨d, r', e', hd'⟩ := digits_cons h0 hd
    rw [e', List.cons.injEq] at hw
    rw [← hw.1, hq'.1] at hd'; cases hd'
  | float h0 hd =>
    obtain ⟨d, r', e', hd'⟩ := digits_cons h0 hd
    rw [e', List.cons_append, List.cons.injEq] at hw
    rw [← hw.1, hq'.1] at hd'; cases hd'

/-- a token that begins with a sign is one of the fixed ones -/
theorem spells_sign {t : Tok} {c : Char} {r : Str} (hc : c ∈ ['-', '=', '<', '>', '(', ')', ',', '&', '|']) (h : Spells t (c :: r)) :
    ∃ p ∈ kwList, p.1.toList = c :: r := by
  have hc' : isDigit c = false ∧ ¬ (c.isAlpha = true ∨ c = '_') ∧ c ≠ '"' ∧ c ≠ '\'' := by
    have : ∀ c ∈ ['-', '=', '<', '>', '(', ')', ',', '&', '|'],
      isDigit c = false ∧ ¬ (c.isAlpha = true ∨ c = '_') ∧ c ≠ '"' ∧ c ≠ '\'' := by decide
    exact this c hc
  generalize hw : c :: r = w at h
  cases h with
  | @fixed t k hk => exact ⟨_, mem_spellings.mp hk, rfl⟩
  | ident hn =>
    obtain ⟨⟨c', r', e, hn', _⟩, _⟩ := hn
    rw [e, List.cons.injEq] at hw
    rw [← hw.1] at hn'
    exact absurd hn' hc'.2.1
  | @string q' b hq2 hb =>
    rw [List.cons_append, List.cons.injEq] at hw
    obtain ⟨rfl, _⟩ := hw
    rcases hq2 with h | h
    · exact absurd h hc'.2.2.1
    · exact absurd h hc'.2.2.2
  | int h0 hd =>
    obtain ⟨d, r', e', hd'⟩ := digits_cons h0 hd
    rw [e', List.cons.injEq] at hw
    rw [← hw.1, hc'.1] at hd'; cases hd'
  | float h0 hd =>
    obtain ⟨d, r', e', hd'⟩ := digits_cons h0 hd
    rw [e', List.cons_append, List.cons.injEq] at hw
    rw [← hw.1, hc'.1] at hd'; cases hd'

theorem kw_sign : ∀ k ∈ ["-", "=", "<>", ">=", "<=", "(", ")", ",", "&&", "||"].map String.toList,
    k.headD ' ' ∈ ['-', '=', '<', '>', '(', ')', ',', '&', '|'] ∧
    ∀ p ∈ kwList, k.isPrefixOf p.1.toList = true → p.1.toList = k := by decide

theorem kw_less : ∀ c ∈ ['<', '>'], ∀ p ∈ kwList, [c].isPrefixOf p.1.toList = true →
    p.1.toList = [c] ∨ p.1.toList = [c, '='] ∨ p.1.toList = [c, '>'] := by decide

theorem no_half {t : Tok} : ¬ Spells t ['&'] ∧ ¬ Spells t ['|'] := by
  have h1 : ∀ c ∈ ['&', '|'], ∀ r ∈ tokenRules, r.len [c] = 0 := by decide
  constructor <;>
  · intro h
    obtain ⟨r, hr, hl⟩ := spells_matched h (List.prefix_refl _)
    rw [h1 _ (by simp) r hr] at hl
    simp at hl

theorem written_longest {t : Tok} {w s : Str} (h : Spells t w) (he : Apart w s)
    (hp : ∀ k ∈ phrases, k.toList <+: w ++ s → k.toList = w) :
    ∀ t' w', Spells t' w' → w' <+: w ++ s → w'.length ≤ w.length := by
  intro t' w' h' hpre
  obtain ⟨a, r, hw, _⟩ := spells_first h
  by_contra hlt
  have hww : w <+: w' := List.prefix_of_prefix_length_le (List.prefix_append _ _) hpre (by omega)
  obtain ⟨x, rfl⟩ := hww
  have hx : x <+: s := by
    obtain ⟨y, hy⟩ := hpre
    rw [List.append_assoc] at hy
    exact ⟨y, List.append_cancel_left hy⟩
  cases x with
  | nil => simp at hlt
  | cons d x =>
    cases he with
    | last => simp at hx
    | sign hm =>
      obtain ⟨h1, h2⟩ := kw_sign w hm
      rw [hw] at h'
      rw [hw, List.headD_cons] at h1
      obtain ⟨p, hp', e⟩ := spells_sign h1 h'
      have := h2 p hp' (List.isPrefixOf_iff_prefix.mpr (by rw [e, hw]; exact List.prefix_append _ _))
      rw [this, hw] at e
      have := congrArg List.length e
      simp only [List.length_cons, List.append_eq, List.length_append] at this
      omega
    | @less c d' s hc h1 h2 =>
      obtain ⟨y, hy⟩ := hx
      rw [List.cons_append, List.cons.injEq] at hy
      obtain ⟨rfl, hy⟩ := hy
      have hc' : c ∈ ['<', '>'] := by simpa using hc
      obtain ⟨p, hp', e⟩ := spells_sign (c := c) (r := d :: x) (by rcases hc with rfl | rfl <;> simp) h'
      rcases kw_less c hc' p hp' (List.isPrefixOf_iff_prefix.mpr (by rw [e]; exact ⟨d :: x, rfl⟩)) with h | h | h
      · rw [h] at e; simp at e
      · rw [h] at e; simp only [List.cons.injEq, true_and] at e; exact h1 e.1.symm
      · rw [h] at e; simp only [List.cons.injEq, true_and] at e; exact h2 e.1.symm
    | @word _ c r' hw1 hw2 hc =>
      have hst : Stopper c := by
        rcases hc with (h | h | h) | h
        · exact .inl h
        · exact .inr (.inl h)
        · exact .inr (.inr (.inl h))
        · exact .inr (.inr (.inr h))
      obtain ⟨y, hy⟩ := hx
      rw [List.cons_append, List.cons.injEq] at hy
      obtain ⟨rfl, hy⟩ := hy
      have hin : d ∈ (w ++ d :: x).tail := by rw [hw]; simp
      generalize hz : w ++ d :: x = z at h' hin hpre
      cases h' with
      | @fixed t' k hk =>
        rcases kw_tail _ (mem_spellings.mp hk) with hk' | hk'
        · have := hp k hk' hpre
          rw [this] at hz
          have := congrArg List.length hz
          simp at this
        · rcases hk' with hk' | ⟨hk1, hk2⟩
          · exact hk' d hin hst
          · simp only at hk1 hk2
            rw [← hz] at hk1 hk2
            have hr : r = [] := by
              rw [hw] at hk1
              simp at hk1
              exact List.length_eq_zero_iff.mp (by omega)
            rw [hw, hr] at hw1 hw2 hk2 h
            simp only [List.cons_append, List.head?_cons, List.mem_cons, Option.some.injEq, List.not_mem_nil, or_false] at hk2
            rcases hk2 with rfl | rfl | rfl | rfl
            · exact hw1 rfl
            · exact hw2 rfl
            · exact no_half.1 h
            · exact no_half.2 h
      | ident hn =>
        obtain ⟨⟨c', r2, e, _, hr2⟩, _⟩ := hn
        rw [e] at hin
        have := (isNameChar_eq d).mpr (hr2 d hin)
        rw [not_nameChar hst] at this; cases this
      | @string q b hq hb =>
        rw [hw, List.cons_append, List.cons_append, List.cons.injEq] at hz
        obtain ⟨rfl, hz⟩ := hz
        have hq' : a ≠ '\\' := by rcases hq with rfl | rfl <;> decide
        rw [hw] at h
        obtain ⟨b', e', hb'⟩ := spells_quote hq h
        have h1 : quotedLen a (w ++ d :: r') = b'.length + 2 := by
          rw [hw, e', List.append_assoc]; exact quotedLen_of hq' hb' _
        obtain ⟨z, hz2⟩ := hpre
        rw [← hz2, List.append_assoc] at h1
        have h2 := quotedLen_of hq' hb z
        rw [List.singleton_append] at h1
        rw [h1] at h2
        have h3 := congrArg List.length e'
        rw [hw] at hlt
        have h4 := congrArg List.length hz
        simp at h2 h3 hlt h4
        omega
      | int h0 hd =>
        have := (digits_iff _).mp hd d (List.mem_of_mem_tail hin)
        rw [not_digit hst] at this; cases this
      | @float f1 f2 h0 hd hf =>
        rcases List.mem_append.mp (List.mem_of_mem_tail hin) with hm | hm
        · have := (digits_iff _).mp hd d hm
          rw [not_digit hst] at this; cases this
        · rcases List.mem_cons.mp hm with hm | hm
          · exact stopper_ne_dot hst hm
          · have := (digits_iff _).mp hf d hm
            rw [not_digit hst] at this; cases this

/-- a text written in the ordinary way divides into its tokens -/
theorem written_scan {ts : List Tok} {s : Str} (h : Written ts s) : Scan s ts [] := by
  induction h with
  | nil => exact .done
  | blank hb _ ih => exact .blank hb ih
  | token hs he hp _ ih => exact .token hs (written_longest hs he hp) ih

/-- names, checkably -/
theorem spells_name {w : Str} (h : w ≠ [] ∧ nameLen w = w.length ∧ ∀ p ∈ kwList, w ≠ p.1.toList) : Spells (.ident w) w := by
  obtain ⟨h0, h1, h2⟩ := h
  obtain ⟨c, w', r, e, hl, hc, hw⟩ := nameLen_some (s := w) (by rw [h1]; intro h; exact h0 (List.length_eq_zero_iff.mp h))
  have hr : r = [] := by
    have := congrArg List.length e
    rw [List.length_append, ← hl, h1] at this
    exact List.length_eq_zero_iff.mp (by omega)
  rw [hr, List.append_nil] at e
  exact .ident ⟨⟨c, w', e, hc, hw⟩, fun t k hk he => h2 _ (mem_spellings.mp hk) he⟩

end BeTree
