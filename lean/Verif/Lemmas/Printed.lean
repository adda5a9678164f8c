import Mathlib.Tactic.Linarith
import Mathlib.Tactic.Ring
import Mathlib.Tactic.Tauto
import Verif.Lemmas.Lex
import Verif.Lemmas.XxComplete
import Verif.Model.Printer
import Verif.Spec.Printed
import Verif.Spec.Sat
import Verif.Lemmas.Double
/-
C49: what the printer writes is read back.
-/
namespace BeTree
set_option linter.unusedSimpArgs false
set_option linter.unusedTactic false

/-- every token is a written one -/
def Spelled (ts : List Tok) : Prop := ∀ t ∈ ts, ∃ w, Spells t w

theorem scan_spelled {s ts r} (h : Scan s ts r) : Spelled ts := by
  induction h with
  | done => intro t ht; cases ht
  | stuck => intro t ht; cases ht
  | blank _ _ ih => exact ih
  | token hs _ _ ih =>
    intro t ht
    rcases List.mem_cons.1 ht with rfl | ht
    · exact ⟨_, hs⟩
    · exact ih t ht

theorem spelled_append {a b : List Tok} : Spelled (a ++ b) ↔ Spelled a ∧ Spelled b := by
  simp only [Spelled, List.mem_append]
  exact ⟨fun h => ⟨fun t ht => h t (.inl ht), fun t ht => h t (.inr ht)⟩, fun h t ht => ht.elim (h.1 t) (h.2 t)⟩

theorem spelled_cons {t : Tok} {b : List Tok} : Spelled (t :: b) ↔ (∃ w, Spells t w) ∧ Spelled b := by
  simp only [Spelled, List.mem_cons]
  exact ⟨fun h => ⟨h t (.inl rfl), fun t ht => h t (.inr ht)⟩, fun h t ht => ht.elim (fun e => e ▸ h.1) (h.2 t)⟩

theorem spelled_ident {x : Str} {w : Str} (h : Spells (.ident x) w) : IsName x := by
  cases h with
  | fixed h => simp [spellings] at h
  | ident h => exact h

theorem spelled_int {n : Int} {w : Str} (h : Spells (.int n) w) : 0 ≤ n ∧ n ≤ 2 ^ 63 - 1 := by
  cases h with
  | fixed h => simp [spellings] at h
  | int h0 hd =>
    constructor
    · exact le_min (Int.natCast_nonneg _) (by norm_num)
    · exact min_le_right _ _

theorem readsInt_range {ts : List Tok} {n : Int} (h : ReadsInt ts n) (hs : Spelled ts) : n.natAbs ≤ 2 ^ 63 - 1 := by
  cases h with
  | pos =>
    obtain ⟨w, hw⟩ := hs (.int n) (by simp)
    have := spelled_int hw
    omega
  | neg m =>
    obtain ⟨w, hw⟩ := hs (.int m) (by simp)
    have := spelled_int hw
    omega

/-! ### digits -/

theorem ofDigitChars_eq (w : Str) : Nat.ofDigitChars 10 w 0 = digitsVal w := by
  unfold Nat.ofDigitChars digitsVal
  congr 1

theorem decimal_toDigits (n : Nat) : decimal (Nat.toDigits 10 n) = n := by
  rw [← digitsVal_eq, ← ofDigitChars_eq, Nat.ofDigitChars_ten_toDigits]

theorem digits_toDigits (n : Nat) : Digits (Nat.toDigits 10 n) :=
  fun _ h => Nat.isDigit_of_mem_toDigits (by omega) (by omega) h

theorem spells_nat {n : Nat} (h : n ≤ 2 ^ 63 - 1) : Spells (.int n) (Nat.toDigits 10 n) := by
  have h1 := Spells.int (w := Nat.toDigits 10 n) Nat.toDigits_ne_nil (digits_toDigits n)
  rw [decimal_toDigits, min_eq_left (by omega)] at h1
  exact h1

/-! ### what may follow -/

/-- like `Written`, up to a rest that begins no token -/
inductive Wr (rest : Str) : List Tok → Str → Prop where
  | nil : Scan rest [] rest → Wr rest [] rest
  | blank {c ts s} : Blank c → Wr rest ts s → Wr rest ts (c :: s)
  | token {t w ts s} : Spells t w → Apart w s → (∀ k ∈ phrases, k.toList <+: w ++ s → k.toList = w) → Wr rest ts s →
      Wr rest (t :: ts) (w ++ s)

theorem wr_scan {rest : Str} {ts : List Tok} {s : Str} (h : Wr rest ts s) : Scan s ts rest := by
  induction h with
  | nil h => exact h
  | blank hb _ ih => exact .blank hb ih
  | token hs ha hp _ ih => exact .token hs (written_longest hs ha hp) ih


/-- the end, or a character that ends a number, a string or a name -/
def Ends (s : Str) : Prop := s = [] ∨ ∃ c r, s = c :: r ∧ (c = ' ' ∨ c = ')' ∨ c = ',')

theorem Ends.apart {w s : Str} (h : Ends s) (h1 : w ≠ ['<']) (h2 : w ≠ ['>']) : Apart w s := by
  rcases h with rfl | ⟨c, r, rfl, hc⟩
  · exact .last
  · refine .word h1 h2 ?_
    rcases hc with rfl | rfl | rfl
    · exact .inl (.inl rfl)
    · exact .inr (by decide)
    · exact .inr (by decide)

/-- the text adds the tokens in front of whatever follows -/
def Emits (ts : List Tok) (w : Str) : Prop := ∀ ⦃rest : Str⦄ ts' s', Wr rest ts' s' → Ends s' → Wr rest (ts ++ ts') (w ++ s')

theorem phrase_first : ∀ k ∈ phrases, ((k.toList.head?.map Char.isAlpha) = some true) := by decide

/-- no phrase begins with a character that is not a letter -/
theorem no_phrase {c : Char} {s w : Str} (hc : c.isAlpha = false) : ∀ k ∈ phrases, k.toList <+: c :: s → k.toList = w := by
  intro k hk h
  have h1 := phrase_first k hk
  revert h h1
  cases k.toList with
  | nil => intro _ h1; cases h1
  | cons d r =>
    intro h h1
    rw [List.cons_prefix_cons] at h
    rw [h.1] at h1
    simp [hc] at h1

theorem digit_not_alpha {c : Char} (h : c.isDigit = true) : c.isAlpha = false := by
  have h1 := (name_first (c := c))
  rw [isDigit_eq] at h1
  by_contra h2
  have h3 := (h1 (.inl (by simpa using h2))).1
  rw [h] at h3
  cases h3

theorem emits_nat {n : Nat} (h : n ≤ 2 ^ 63 - 1) : Emits [.int n] (Nat.toDigits 10 n) := by
  intro rest ts' s' hw he
  have hs := spells_nat h
  obtain ⟨c, r, e, hc⟩ := digits_cons Nat.toDigits_ne_nil (digits_toDigits n)
  rw [e] at hs ⊢
  refine .token hs (he.apart ?_ ?_) (no_phrase (digit_not_alpha (by rw [← isDigit_eq]; exact hc))) hw
  · intro h1; cases h1; revert hc; decide
  · intro h1; cases h1; revert hc; decide

theorem emits_minus {ts : List Tok} {w : Str} (h : Emits ts w) : Emits (.minus :: ts) ('-' :: w) := by
  intro rest ts' s' hw he
  exact .token (w := ['-']) (.fixed (t := .minus) (k := "-") (by decide)) (.sign (by decide)) (no_phrase (by decide)) (h ts' s' hw he)

theorem emits_int {n : Int} (h : n.natAbs ≤ 2 ^ 63 - 1) : ∃ ts, ReadsInt ts n ∧ Emits ts (fmtInt n) := by
  unfold fmtInt
  split
  next hn =>
    refine ⟨[.minus, .int n.natAbs], ?_, emits_minus (emits_nat h)⟩
    have := ReadsInt.neg (n.natAbs : Int)
    rwa [show -(n.natAbs : Int) = n by omega] at this
  next hn =>
    refine ⟨[.int n.natAbs], ?_, emits_nat h⟩
    rw [show (n.natAbs : Int) = n by omega]
    exact .pos n

theorem emits_str {s : Str} (h : Quotable '"' s) : Emits [.string s] (fmtStr s) := by
  intro rest ts' s' hw he
  refine .token (w := '"' :: s ++ ['"']) (.string (.inl rfl) h) (he.apart (by simp) (by simp)) (no_phrase (by decide)) hw

/-! ### decimal constants -/

theorem roundEven_near {q : Rat} (h : 0 ≤ q) : q - 1 / 2 ≤ roundEven q ∧ (roundEven q : Rat) ≤ q + 1 / 2 := by
  have hf : 0 ≤ q.floor := Rat.le_floor_iff.2 (by simpa using h)
  have h0 : ((q.floor.toNat : Nat) : Rat) = (q.floor : Rat) := by
    have : ((q.floor.toNat : Nat) : Int) = q.floor := by omega
    exact_mod_cast congrArg (Int.cast (R := Rat)) this
  have h1 : (q.floor : Rat) ≤ q := Rat.floor_le _
  have h2 : q < q.floor + 1 := by have := Rat.lt_floor_add_one q; push_cast at this; exact this
  unfold roundEven
  simp only
  rw [h0]
  split
  · rw [h0]; constructor <;> linarith
  · split
    · push_cast; rw [h0]; constructor <;> linarith
    · split
      · rw [h0]; constructor <;> linarith
      · push_cast; rw [h0]; constructor <;> linarith

theorem decimal_two {a b : Nat} (ha : a < 10) (hb : b < 10) : decimal [Nat.digitChar a, Nat.digitChar b] = 10 * a + b ∧
    Digits [Nat.digitChar a, Nat.digitChar b] := by
  have h : ∀ a < 10, ∀ b < 10, decimal [Nat.digitChar a, Nat.digitChar b] = 10 * a + b ∧
    (Nat.digitChar a).isDigit ∧ (Nat.digitChar b).isDigit := by decide
  obtain ⟨h1, h2, h3⟩ := h a ha b hb
  exact ⟨h1, by simp [Digits, h2, h3]⟩

theorem emits_hundredths (n : Nat) : Emits [.float (rnd (n / 100))]
    (Nat.toDigits 10 (n / 100) ++ ['.', Nat.digitChar (n % 100 / 10), Nat.digitChar (n % 10)]) := by
  intro rest ts' s' hw he
  obtain ⟨h1, h2⟩ := decimal_two (a := n % 100 / 10) (b := n % 10) (by omega) (by omega)
  have hs := Spells.float (w := Nat.toDigits 10 (n / 100)) (f := [Nat.digitChar (n % 100 / 10), Nat.digitChar (n % 10)])
    Nat.toDigits_ne_nil (digits_toDigits _) h2
  rw [decimal_toDigits, h1] at hs
  have e : ((n / 100 : Nat) : Rat) + ((10 * (n % 100 / 10) + n % 10 : Nat) : Rat) /
      10 ^ [Nat.digitChar (n % 100 / 10), Nat.digitChar (n % 10)].length = (n : Rat) / 100 := by
    have h3 : (n : Rat) = 100 * ((n / 100 : Nat) : Rat) + ((10 * (n % 100 / 10) + n % 10 : Nat) : Rat) := by
      have : n = 100 * (n / 100) + (10 * (n % 100 / 10) + n % 10) := by omega
      exact_mod_cast congrArg (Nat.cast (R := Rat)) this
    rw [h3]
    simp only [List.length_cons, List.length_nil]
    push_cast
    ring
  rw [e] at hs
  obtain ⟨c, r, e1, hc⟩ := digits_cons Nat.toDigits_ne_nil (digits_toDigits (n / 100))
  rw [e1] at hs ⊢
  refine .token hs (he.apart (by simp) (by simp)) (no_phrase (digit_not_alpha (by rw [← isDigit_eq]; exact hc))) hw

theorem emits_float (x : Rat) : ∃ y ts, Nearest x y ∧ ReadsFloat ts y ∧ Emits ts (fmtFloat x) := by
  unfold fmtFloat
  by_cases hx : x < 0
  · simp only [hx, if_true, List.cons_append, List.nil_append]
    obtain ⟨h1, h2⟩ := roundEven_near (q := 100 * -x) (by linarith)
    refine ⟨-rnd (roundEven (100 * -x) / 100), _, ⟨-(roundEven (100 * -x) : Int), ?_, ?_, ?_⟩, .neg _, emits_minus (emits_hundredths _)⟩
    · push_cast; linarith
    · push_cast; linarith
    · rw [← rnd_neg]; push_cast; congr 1; ring
  · simp only [hx, if_false, List.nil_append]
    obtain ⟨h1, h2⟩ := roundEven_near (q := 100 * x) (by linarith)
    refine ⟨rnd (roundEven (100 * x) / 100), _, ⟨(roundEven (100 * x) : Int), ?_, ?_, ?_⟩, .pos _, emits_hundredths _⟩
    · push_cast; linarith
    · push_cast; linarith
    · push_cast; rfl

/-! ### names and signs -/

theorem phrase_parts : ∀ k ∈ phrases, ∃ a ∈ ["not", "one", "none", "all", "is"], ∃ b ∈ ["in", "of", "not null", "null", "empty"],
    k.toList = a.toList ++ ' ' :: b.toList ∧ (b = "in" → a = "not") := by decide

theorem name_no_blank {x : Str} (h : IsName x) : ∀ c ∈ x, c ≠ ' ' := by
  obtain ⟨⟨c, r, rfl, hc, hr⟩, _⟩ := h
  intro d hd e
  subst e
  rcases List.mem_cons.1 hd with rfl | hd
  · revert hc; decide
  · have := hr _ hd
    revert this; decide

theorem name_ne_sign {x : Str} (h : IsName x) : x ≠ ['<'] ∧ x ≠ ['>'] := by
  obtain ⟨⟨c, r, rfl, hc, hr⟩, _⟩ := h
  constructor
  · intro e; cases e; revert hc; decide
  · intro e; cases e; revert hc; decide

theorem split_blank {a b x s : Str} (ha : ∀ c ∈ a, c ≠ ' ') (hx : ∀ c ∈ x, c ≠ ' ') (h : a ++ ' ' :: b <+: x ++ ' ' :: s) :
    a = x ∧ b <+: s := by
  induction a generalizing x with
  | nil =>
    cases x with
    | nil => exact ⟨rfl, (List.cons_prefix_cons.1 h).2⟩
    | cons c x =>
      have := (List.cons_prefix_cons.1 h).1
      exact absurd this.symm (hx c (by simp))
  | cons d a ih =>
    cases x with
    | nil =>
      have := (List.cons_prefix_cons.1 h).1
      exact absurd this (ha d (by simp))
    | cons c x =>
      obtain ⟨h1, h2⟩ := List.cons_prefix_cons.1 h
      obtain ⟨h3, h4⟩ := ih (fun c hc => ha c (by simp [hc])) (fun c hc => hx c (by simp [hc])) h2
      exact ⟨by rw [h1, h3], h4⟩

theorem phrase_words : ∀ a ∈ ["not", "one", "none", "all", "is"], ∀ c ∈ a.toList, c ≠ ' ' := by decide

theorem blank_mem_phrase : ∀ k ∈ phrases, ' ' ∈ k.toList := by decide
theorem phrase_no_sign : ∀ k ∈ phrases, ')' ∉ k.toList ∧ ',' ∉ k.toList := by decide

/-- a name before `)`, `,` or the end -/
theorem emits_name {x : Str} (h : IsName x) {rest : Str} {ts : List Tok} {s : Str} (hw : Wr rest ts s)
    (he : s = [] ∨ ∃ c r, s = c :: r ∧ (c = ')' ∨ c = ',')) : Wr rest (.ident x :: ts) (x ++ s) := by
  refine .token (.ident h) (Ends.apart ?_ (name_ne_sign h).1 (name_ne_sign h).2) ?_ hw
  · rcases he with rfl | ⟨c, r, rfl, hc⟩
    · exact .inl rfl
    · exact .inr ⟨c, r, rfl, .inr hc⟩
  · intro k hk hp
    exfalso
    have hb := blank_mem_phrase k hk
    have hsn := phrase_no_sign k hk
    rcases he with rfl | ⟨c, r, rfl, hc⟩
    · rw [List.append_nil] at hp
      exact name_no_blank h ' ' (hp.subset hb) rfl
    · obtain ⟨t, ht⟩ := hp
      rcases Nat.lt_or_ge x.length k.toList.length with hl | hl
      · have h1 : (x ++ c :: r)[x.length]? = some c := by simp
        rw [← ht, List.getElem?_append_left hl] at h1
        have := List.mem_of_getElem? h1
        rcases hc with rfl | rfl
        · exact hsn.1 this
        · exact hsn.2 this
      · have h1 : k.toList <+: x := by
          rw [List.prefix_iff_eq_take]
          have := congrArg (List.take k.toList.length) ht
          simpa [List.take_append_of_le_length hl] using this
        exact name_no_blank h ' ' (h1.subset hb) rfl

/-- a name before a blank and a sign -/
theorem emits_nameOp {x : Str} (h : IsName x) {rest : Str} {ts : List Tok} {s : Str} (hw : Wr rest ts s)
    (he : ∀ b ∈ ["of", "not null", "null", "empty"], ¬ b.toList <+: s) : Wr rest (.ident x :: ts) (x ++ ' ' :: s) := by
  refine .token (.ident h) (Ends.apart (.inr ⟨_, _, rfl, .inl rfl⟩) (name_ne_sign h).1 (name_ne_sign h).2) ?_ (.blank (.inl rfl) hw)
  intro k hk hp
  exfalso
  obtain ⟨a, ha, b, hb, e, hin⟩ := phrase_parts k hk
  rw [e] at hp
  obtain ⟨h1, h2⟩ := split_blank (phrase_words a ha) (name_no_blank h) hp
  by_cases hbi : b = "in"
  · have := hin hbi
    subst this
    exact h.2 .not "not" (by decide) h1.symm
  · refine he b ?_ h2
    simp only [List.mem_cons, List.not_mem_nil, or_false] at hb ⊢
    tauto

/-! ### fixed tokens -/

theorem phrase_after {w : Str} {c : Char} (h : ∀ k ∈ phrases, k.toList = w ∨ (¬ k.toList <+: w ++ [c] ∧ ¬ w ++ [c] <+: k.toList)) (s : Str) :
    ∀ k ∈ phrases, k.toList <+: w ++ c :: s → k.toList = w := by
  intro k hk hp
  rcases h k hk with h | ⟨h1, h2⟩
  · exact h
  · exfalso
    have h3 : w ++ [c] <+: w ++ c :: s := by
      rw [List.prefix_append_right_inj]
      exact ⟨s, rfl⟩
    exact (List.prefix_or_prefix_of_prefix hp h3).elim h1 h2

/-- a word before a blank or `(` -/
theorem emits_word {t : Tok} {k : String} {c : Char} {rest : Str} {ts : List Tok} {s : Str} (hk : k ∈ spellings t) (hc : c = ' ' ∨ c = '(' ∨ c = ')')
    (h1 : k.toList ≠ ['<'] ∧ k.toList ≠ ['>'])
    (hp : ∀ k' ∈ phrases, k'.toList = k.toList ∨ (¬ k'.toList <+: k.toList ++ [c] ∧ ¬ k.toList ++ [c] <+: k'.toList))
    (hw : Wr rest ts (c :: s)) : Wr rest (t :: ts) (k.toList ++ c :: s) := by
  refine .token (.fixed hk) (.word h1.1 h1.2 ?_) (phrase_after hp s) hw
  rcases hc with rfl | rfl | rfl
  · exact .inl (.inl rfl)
  · exact .inr (by decide)
  · exact .inr (by decide)

/-- one of the signs `(`, `)`, `,` -/
theorem emits_sign {t : Tok} {c : Char} {rest : Str} {ts : List Tok} {s : Str} (hk : Spells t [c]) (hc : c = '(' ∨ c = ')' ∨ c = ',')
    (hw : Wr rest ts s) : Wr rest (t :: ts) (c :: s) := by
  refine .token (w := [c]) hk (.sign ?_) (no_phrase ?_) hw
  · rcases hc with rfl | rfl | rfl <;> decide
  · rcases hc with rfl | rfl | rfl <;> decide

theorem emits_lparen {rest : Str} {ts : List Tok} {s : Str} (hw : Wr rest ts s) : Wr rest (.lparen :: ts) ('(' :: s) :=
  emits_sign (.fixed (t := .lparen) (k := "(") (by decide)) (.inl rfl) hw
theorem emits_rparen {rest : Str} {ts : List Tok} {s : Str} (hw : Wr rest ts s) : Wr rest (.rparen :: ts) (')' :: s) :=
  emits_sign (.fixed (t := .rparen) (k := ")") (by decide)) (.inr (.inl rfl)) hw
theorem emits_comma {rest : Str} {ts : List Tok} {s : Str} (hw : Wr rest ts s) : Wr rest (.comma :: ts) (',' :: ' ' :: s) :=
  emits_sign (.fixed (t := .comma) (k := ",") (by decide)) (.inr (.inr rfl)) (.blank (.inl rfl) hw)

theorem ends_paren (s : Str) : Ends (')' :: s) := .inr ⟨_, _, rfl, .inr (.inl rfl)⟩
theorem ends_comma (s : Str) : Ends (',' :: s) := .inr ⟨_, _, rfl, .inr (.inr rfl)⟩
theorem ends_blank (s : Str) : Ends (' ' :: s) := .inr ⟨_, _, rfl, .inl rfl⟩

/-- what comes after a sign between two operands -/
theorem emits_cmp {t : Tok} {o o' : CmpOp} (h : CmpSign t o o') {rest : Str} {ts : List Tok} {s : Str} (hw : Wr rest ts (' ' :: s)) :
    Wr rest (t :: ts) (o.print ++ ' ' :: s) ∧ ∀ b ∈ ["of", "not null", "null", "empty"], ¬ b.toList <+: o.print ++ ' ' :: s := by
  cases h
  · exact ⟨.token (w := ['>']) (.fixed (t := .gt) (k := ">") (by decide)) (.less (.inr rfl) (by decide) (by decide)) (no_phrase (by decide)) hw,
      by simp [CmpOp.print]⟩
  · exact ⟨.token (w := ">=".toList) (.fixed (t := .ge) (k := ">=") (by decide)) (.sign (by decide)) (no_phrase (by decide)) hw,
      by simp [CmpOp.print]⟩
  · exact ⟨.token (w := ['<']) (.fixed (t := .lt) (k := "<") (by decide)) (.less (.inl rfl) (by decide) (by decide)) (no_phrase (by decide)) hw,
      by simp [CmpOp.print]⟩
  · exact ⟨.token (w := "<=".toList) (.fixed (t := .le) (k := "<=") (by decide)) (.sign (by decide)) (no_phrase (by decide)) hw,
      by simp [CmpOp.print]⟩

theorem emits_eq {t : Tok} {o : EqOp} (h : EqSign t o) {rest : Str} {ts : List Tok} {s : Str} (hw : Wr rest ts (' ' :: s)) :
    Wr rest (t :: ts) (o.print ++ ' ' :: s) ∧ ∀ b ∈ ["of", "not null", "null", "empty"], ¬ b.toList <+: o.print ++ ' ' :: s := by
  cases h
  · exact ⟨.token (w := "=".toList) (.fixed (t := .eq) (k := "=") (by decide)) (.sign (by decide)) (no_phrase (by decide)) hw,
      by simp [EqOp.print]⟩
  · exact ⟨.token (w := "<>".toList) (.fixed (t := .ne) (k := "<>") (by decide)) (.sign (by decide)) (no_phrase (by decide)) hw,
      by simp [EqOp.print]⟩

theorem emits_set {t : Tok} {o : SetOp} (h : SetSign t o) {rest : Str} {ts : List Tok} {s : Str} (hw : Wr rest ts (' ' :: s)) :
    Wr rest (t :: ts) (o.print ++ ' ' :: s) ∧ ∀ b ∈ ["of", "not null", "null", "empty"], ¬ b.toList <+: o.print ++ ' ' :: s := by
  cases h
  · exact ⟨emits_word (t := .notIn) (k := "not in") (by decide) (.inl rfl) (by decide) (by decide) hw, by simp [SetOp.print]⟩
  · exact ⟨emits_word (t := .isIn) (k := "in") (by decide) (.inl rfl) (by decide) (by decide) hw, by simp [SetOp.print]⟩

theorem emits_list {t : Tok} {o : ListOp} (h : ListSign t o) {rest : Str} {ts : List Tok} {s : Str} (hw : Wr rest ts (' ' :: s)) :
    Wr rest (t :: ts) (o.print ++ ' ' :: s) ∧ ∀ b ∈ ["of", "not null", "null", "empty"], ¬ b.toList <+: o.print ++ ' ' :: s := by
  cases h
  · exact ⟨emits_word (t := .oneOf) (k := "one of") (by decide) (.inl rfl) (by decide) (by decide) hw, by simp [ListOp.print]⟩
  · exact ⟨emits_word (t := .noneOf) (k := "none of") (by decide) (.inl rfl) (by decide) (by decide) hw, by simp [ListOp.print]⟩
  · exact ⟨emits_word (t := .allOf) (k := "all of") (by decide) (.inl rfl) (by decide) (by decide) hw, by simp [ListOp.print]⟩

/-! ### lists -/

theorem readsInts_range {ts : List Tok} {l : List Int} (h : ReadsInts ts l) (hs : Spelled ts) : l ≠ [] ∧ ∀ n ∈ l, n.natAbs ≤ 2 ^ 63 - 1 := by
  induction h with
  | one h => exact ⟨by simp, by simpa using readsInt_range h hs⟩
  | more _ h2 ih =>
    rw [spelled_append, spelled_cons] at hs
    refine ⟨by simp, ?_⟩
    intro n hn
    rcases List.mem_append.1 hn with hn | hn
    · exact (ih hs.1).2 n hn
    · rw [List.mem_singleton.1 hn]; exact readsInt_range h2 hs.2.2

theorem readsStrs_quoted {ts : List Tok} {l : List StrVal} (h : ReadsStrs ts l) : l ≠ [] ∧ ∀ x ∈ l, x = quoted x.string := by
  induction h with
  | one s => simp [quoted]
  | more s _ ih =>
    refine ⟨by simp, ?_⟩
    intro x hx
    rcases List.mem_append.1 hx with hx | hx
    · exact ih.2 x hx
    · rw [List.mem_singleton.1 hx]; rfl

theorem emits_snoc {ts ts' : List Tok} {w w' : Str} (h : Emits ts w) (h' : Emits ts' w') :
    Emits (ts ++ .comma :: ts') (w ++ ", ".toList ++ w') := by
  intro rest us s hw he
  have := h _ _ (emits_comma (h' us s hw he)) (ends_comma _)
  simpa using this

theorem emits_ints : ∀ (m : List Int) {ts : List Tok} {l : List Int} {w : Str}, ReadsInts ts l → Emits ts w → (∀ n ∈ m, n.natAbs ≤ 2 ^ 63 - 1) →
    ∃ ts', ReadsInts ts' (l ++ m) ∧ Emits ts' (fmtRest w (m.map fmtInt))
  | [], ts, l, w, h, he, _ => ⟨ts, by simpa using h, he⟩
  | n :: m, ts, l, w, h, he, hm => by
    obtain ⟨t1, h1, h2⟩ := emits_int (hm n (by simp))
    obtain ⟨t2, h3, h4⟩ := emits_ints m (.more h h1) (emits_snoc he h2) (fun n hn => hm n (by simp [hn]))
    exact ⟨t2, by simpa using h3, h4⟩

theorem emits_strs : ∀ (m : List StrVal) {ts : List Tok} {l : List StrVal} {w : Str}, ReadsStrs ts l → Emits ts w →
    (∀ x ∈ m, x = quoted x.string ∧ Quotable '"' x.string) →
    ∃ ts', ReadsStrs ts' (l ++ m) ∧ Emits ts' (fmtRest w (m.map (fun s => fmtStr s.string)))
  | [], ts, l, w, h, he, _ => ⟨ts, by simpa using h, he⟩
  | x :: m, ts, l, w, h, he, hm => by
    obtain ⟨e1, h1⟩ := hm x (by simp)
    have h3 := ReadsStrs.more x.string h
    rw [← e1] at h3
    obtain ⟨t2, h4, h5⟩ := emits_strs m h3 (emits_snoc he (emits_str h1)) (fun n hn => hm n (by simp [hn]))
    exact ⟨t2, by simpa using h4, h5⟩

theorem emits_intList {l : List Int} (h0 : l ≠ []) (h : ∀ n ∈ l, n.natAbs ≤ 2 ^ 63 - 1) :
    ∃ ts w, fmtList (l.map fmtInt) = .ok w ∧ ReadsInts ts l ∧ Emits (.lparen :: ts ++ [.rparen]) w ∧ ∃ w', w = '(' :: w' := by
  cases l with
  | nil => exact absurd rfl h0
  | cons n m =>
    obtain ⟨t1, h1, h2⟩ := emits_int (h n (by simp))
    obtain ⟨t2, h3, h4⟩ := emits_ints m (.one h1) h2 (fun n hn => h n (by simp [hn]))
    refine ⟨t2, _, rfl, h3, ?_, _, rfl⟩
    intro rest us s hw he
    have := emits_lparen (h4 _ _ (emits_rparen hw) (ends_paren _))
    simpa using this

theorem emits_strList {l : List StrVal} (h0 : l ≠ []) (h : ∀ x ∈ l, x = quoted x.string ∧ Quotable '"' x.string) :
    ∃ ts w, fmtList (l.map (fun s => fmtStr s.string)) = .ok w ∧ ReadsStrs ts l ∧ Emits (.lparen :: ts ++ [.rparen]) w ∧ ∃ w', w = '(' :: w' := by
  cases l with
  | nil => exact absurd rfl h0
  | cons x m =>
    obtain ⟨e1, h1⟩ := h x (by simp)
    have h2 := ReadsStrs.one x.string
    rw [← e1] at h2
    obtain ⟨t2, h3, h4⟩ := emits_strs m h2 (emits_str h1) (fun n hn => h n (by simp [hn]))
    refine ⟨t2, _, rfl, h3, ?_, _, rfl⟩
    intro rest us s hw he
    have := emits_lparen (h4 _ _ (emits_rparen hw) (ends_paren _))
    simpa using this

/-! ### conditions -/

/-- the text adds the tokens in front of a closing parenthesis or the end -/
def Closes (ts : List Tok) (w : Str) : Prop := ∀ ⦃rest : Str⦄ ts' s', Wr rest ts' s' → (s' = [] ∨ ∃ r, s' = ')' :: r) → Wr rest (ts ++ ts') (w ++ s')

theorem closes_ends {s : Str} (h : s = [] ∨ ∃ r, s = ')' :: r) : Ends s := by
  rcases h with rfl | ⟨r, rfl⟩
  · exact .inl rfl
  · exact ends_paren r

theorem closes_name {s : Str} (h : s = [] ∨ ∃ r, s = ')' :: r) : s = [] ∨ ∃ c r, s = c :: r ∧ (c = ')' ∨ c = ',') := by
  rcases h with rfl | ⟨r, rfl⟩
  · exact .inl rfl
  · exact .inr ⟨_, _, rfl, .inl rfl⟩

theorem emits_left {ts : List Tok} {l : SetLeft} (h : ReadsLeft ts l) (hs : Spelled ts) (hq : ∀ x, l = .string x → Quotable '"' x.string) :
    ∃ ts', ReadsLeft ts' l ∧ ∀ {rest : Str} ts'' s, Wr rest ts'' s → (∀ b ∈ ["of", "not null", "null", "empty"], ¬ b.toList <+: s) →
      Wr rest (ts' ++ ts'') (l.print ++ ' ' :: s) := by
  cases h with
  | int h =>
    obtain ⟨t1, h1, h2⟩ := emits_int (readsInt_range h hs)
    exact ⟨t1, .int h1, fun {_} ts'' s hw _ => h2 _ _ (.blank (.inl rfl) hw) (ends_blank _)⟩
  | string x => exact ⟨_, .string x, fun {_} ts'' s hw _ => emits_str (hq _ rfl) _ _ (.blank (.inl rfl) hw) (ends_blank _)⟩
  | var x =>
    obtain ⟨w, hx⟩ := hs (.ident x) (by simp)
    exact ⟨_, .var x, fun {_} ts'' s hw he => emits_nameOp (spelled_ident hx) hw he⟩

theorem emits_right {ts : List Tok} {r : SetRight} (h : ReadsRight ts r) (hs : Spelled ts)
    (hq : ∀ l, r = .strList l → ∀ x ∈ l, Quotable '"' x.string) :
    ∃ ts' w, r.print = .ok w ∧ ReadsRight ts' r ∧ Closes ts' w := by
  cases h with
  | ints h =>
    rw [List.cons_append, spelled_cons, spelled_append] at hs
    obtain ⟨h0, h1⟩ := readsInts_range h hs.2.1
    obtain ⟨t1, w, h2, h3, h4, _⟩ := emits_intList h0 h1
    exact ⟨_, w, h2, .ints h3, fun _ _ _ hw he => h4 _ _ hw (closes_ends he)⟩
  | strs h =>
    obtain ⟨h0, h1⟩ := readsStrs_quoted h
    obtain ⟨t1, w, h2, h3, h4, _⟩ := emits_strList h0 (fun x hx => ⟨h1 x hx, hq _ rfl x hx⟩)
    exact ⟨_, w, h2, .strs h3, fun _ _ _ hw he => h4 _ _ hw (closes_ends he)⟩
  | var x =>
    obtain ⟨w, hx⟩ := hs (.ident x) (by simp)
    exact ⟨_, x, rfl, .var x, fun _ _ _ hw he => emits_name (spelled_ident hx) hw (closes_name he)⟩

theorem emits_listVal {ts : List Tok} {r : ListVal} (h : ReadsList ts r) (hs : Spelled ts)
    (hq : ∀ l, r = .strList l → ∀ x ∈ l, Quotable '"' x.string) :
    ∃ ts' w, r.print = .ok w ∧ ReadsList ts' r ∧ Closes ts' w := by
  cases h with
  | ints h =>
    rw [List.cons_append, spelled_cons, spelled_append] at hs
    obtain ⟨h0, h1⟩ := readsInts_range h hs.2.1
    obtain ⟨t1, w, h2, h3, h4, _⟩ := emits_intList h0 h1
    exact ⟨_, w, h2, .ints h3, fun _ _ _ hw he => h4 _ _ hw (closes_ends he)⟩
  | strs h =>
    obtain ⟨h0, h1⟩ := readsStrs_quoted h
    obtain ⟨t1, w, h2, h3, h4, _⟩ := emits_strList h0 (fun x hx => ⟨h1 x hx, hq _ rfl x hx⟩)
    exact ⟨_, w, h2, .strs h3, fun _ _ _ hw he => h4 _ _ hw (closes_ends he)⟩

theorem rounded_of {p p' : Pred} (h : p' = p) (h1 : ∀ o v x, p ≠ .compare o v (.float x)) (h2 : ∀ o v x, p ≠ .equality o v (.float x))
    (h3 : ∀ g, p ≠ .geo g) (h4 : ∀ s, p ≠ .segment s) : Rounded p p' := by
  unfold Rounded
  split
  · exact absurd rfl (h1 _ _ _)
  · exact absurd rfl (h2 _ _ _)
  · exact absurd rfl (h3 _)
  · exact absurd rfl (h4 _)
  · exact h

/-- the condition prints, and what it prints is read as the condition rounded -/
def PrintsBack (p : Pred) : Prop := ∃ ts p' w, p.print = .ok w ∧ Rounded p p' ∧ ReadsAtom ts p' ∧ Closes ts w

theorem prints_compare {t o o' ts c} (x : Str) (hx : IsName x) (hsg : CmpSign t o o') (h : ReadsNum ts c) (hs : Spelled ts) :
    PrintsBack (.compare o (named x) c) := by
  have key : ∀ {tv : List Tok} {wv : Str}, Emits tv wv → Closes (.ident x :: t :: tv) (x ++ ' ' :: o.print ++ ' ' :: wv) := by
    intro tv wv hv rest us s hw he
    have h1 := hv us s hw (closes_ends he)
    obtain ⟨h2, h3⟩ := emits_cmp hsg (.blank (.inl rfl) h1)
    have := emits_nameOp hx h2 h3
    simpa using this
  cases h with
  | int h =>
    obtain ⟨t1, h1, h2⟩ := emits_int (readsInt_range h hs)
    refine ⟨_, _, _, rfl, rounded_of rfl ?_ ?_ ?_ ?_, .compare x hsg (.int h1), ?_⟩
    any_goals (intros; simp)
    have := key h2
    simpa [named, CmpVal.print] using this
  | @float q h =>
    obtain ⟨y, t1, h0, h1, h2⟩ := emits_float q
    refine ⟨_, _, _, rfl, ⟨y, h0, rfl⟩, .compare x hsg (.float h1), ?_⟩
    have := key h2
    simpa [named, CmpVal.print] using this

theorem prints_equality {t o ts c} (x : Str) (hx : IsName x) (hsg : EqSign t o) (h : ReadsConst ts c) (hs : Spelled ts)
    (hq : ∀ s, c = .string s → Quotable '"' s.string) : PrintsBack (.equality o (named x) c) := by
  have key : ∀ {tv : List Tok} {wv : Str}, Emits tv wv → Closes (.ident x :: t :: tv) (x ++ ' ' :: o.print ++ ' ' :: wv) := by
    intro tv wv hv rest us s hw he
    have h1 := hv us s hw (closes_ends he)
    obtain ⟨h2, h3⟩ := emits_eq hsg (.blank (.inl rfl) h1)
    have := emits_nameOp hx h2 h3
    simpa using this
  cases h with
  | int h =>
    obtain ⟨t1, h1, h2⟩ := emits_int (readsInt_range h hs)
    refine ⟨_, _, _, rfl, rounded_of rfl ?_ ?_ ?_ ?_, .equality x hsg (.int h1), ?_⟩
    any_goals (intros; simp)
    have := key h2
    simpa [named, EqVal.print] using this
  | @float _ q h =>
    obtain ⟨y, t1, h0, h1, h2⟩ := emits_float q
    refine ⟨_, _, _, rfl, ⟨y, h0, rfl⟩, .equality x hsg (.float h1), ?_⟩
    have := key h2
    simpa [named, EqVal.print] using this
  | string s =>
    refine ⟨_, _, _, rfl, rounded_of rfl ?_ ?_ ?_ ?_, .equality x hsg (.string s), ?_⟩
    any_goals (intros; simp)
    have := key (emits_str (hq _ rfl))
    simpa [named, EqVal.print, quoted] using this

theorem prints_set {t o ts l ts' r} (hsg : SetSign t o) (hl : ReadsLeft ts l) (hr : ReadsRight ts' r) (hs : Spelled ts) (hs' : Spelled ts')
    (hq : ∀ x, l = .string x → Quotable '"' x.string) (hq' : ∀ l, r = .strList l → ∀ x ∈ l, Quotable '"' x.string) :
    PrintsBack (.set o l r) := by
  obtain ⟨t1, h1, h2⟩ := emits_left hl hs hq
  obtain ⟨t2, w, h3, h4, h5⟩ := emits_right hr hs' hq'
  refine ⟨_, _, l.print ++ ' ' :: o.print ++ ' ' :: w, ?_, rounded_of rfl ?_ ?_ ?_ ?_, .set hsg h1 h4, ?_⟩
  any_goals (intros; simp; done)
  · simp only [Pred.print, h3]
  · intro rest us s hw he
    obtain ⟨h6, h7⟩ := emits_set hsg (.blank (.inl rfl) (h5 us s hw he))
    have := h2 _ _ h6 h7
    simpa using this

theorem prints_list {t o ts l} (x : Str) (hx : IsName x) (hsg : ListSign t o) (hl : ReadsList ts l) (hs : Spelled ts)
    (hq : ∀ m, l = .strList m → ∀ x ∈ m, Quotable '"' x.string) : PrintsBack (.list o (named x) l) := by
  obtain ⟨t2, w, h3, h4, h5⟩ := emits_listVal hl hs hq
  refine ⟨_, _, x ++ ' ' :: o.print ++ ' ' :: w, ?_, rounded_of rfl ?_ ?_ ?_ ?_, .list x hsg h4, ?_⟩
  any_goals (intros; simp; done)
  · simp only [Pred.print, h3, named]
  · intro rest us s hw he
    obtain ⟨h6, h7⟩ := emits_list hsg (.blank (.inl rfl) (h5 us s hw he))
    have := emits_nameOp hx h6 h7
    simpa using this

theorem quotable_plain {s : Str} (h : ∀ c ∈ s, c ≠ '"' ∧ c ≠ '\\') : Quotable '"' s := by
  induction s with
  | nil => exact .nil
  | cons c s ih => exact .char (h c (by simp)).1 (h c (by simp)).2 (ih fun d hd => h d (by simp [hd]))

theorem capName_print (t : FreqType) (h : t ≠ .invalid) : ∃ s, t.print = .ok s ∧ CapType s t ∧ Quotable '"' s := by
  cases t
  case invalid => exact absurd rfl h
  all_goals exact ⟨_, rfl, .inl rfl, quotable_plain (by decide)⟩

theorem readsNat (n : Nat) : ReadsInt [.int n] n := .pos _

theorem unsigned64_of {n : Nat} (h : n < 2 ^ 63) : unsigned64 n = n := by
  unfold unsigned64; omega

theorem unsigned64_int {n : Nat} : unsigned64 n = n % 2 ^ 64 := by
  unfold unsigned64; omega

theorem prints_freq (f : Frequency) (ht : f.type ≠ .invalid) (hq : Quotable '"' f.ns.string) (hl : f.length < 2 ^ 63)
    (hv : f.value.natAbs ≤ 2 ^ 63 - 1) (hf : f = ⟨named "frequency_caps".toList, f.type, quoted f.ns.string, f.value, f.length, named "now".toList, 2 ^ 32 - 1⟩) : PrintsBack (.freq f) := by
  obtain ⟨ty, h1, h2, h3⟩ := capName_print f.type ht
  obtain ⟨tv, h4, h5⟩ := emits_int hv
  have hr := ReadsAtom.freq ty f.ns.string h2 h4 (readsNat f.length)
  rw [unsigned64_of hl, ← hf] at hr
  refine ⟨_, _, _, by simp only [Pred.print, h1]; rfl, rounded_of rfl ?_ ?_ ?_ ?_, hr, ?_⟩
  any_goals (intros; simp; done)
  intro rest us s hw he
  have e1 := emits_nat (n := f.length) (by omega) _ _ (emits_rparen hw) (ends_paren _)
  have e2 := h5 _ _ (emits_comma e1) (ends_comma _)
  have e3 := emits_str hq _ _ (emits_comma e2) (ends_comma _)
  have e4 := emits_str h3 _ _ (emits_comma e3) (ends_comma _)
  have e5 := emits_word (t := .withinFrequencyCap) (k := "within_frequency_cap") (by decide) (.inr (.inl rfl)) (by decide) (by decide)
    (emits_lparen e4)
  simpa [fmtStr] using e5

theorem prints_segment (s : SegmentExpr) (hi : s.segmentId < 2 ^ 63) (hx : IsName s.attr.attr) (hv : s.seconds.natAbs ≤ 2 ^ 63 - 1)
    (ha : s.attr = named s.attr.attr) (hn : s.now = named "now".toList) : PrintsBack (.segment s) := by
  obtain ⟨tv, h4, h5⟩ := emits_int hv
  have key : ∀ {t : Tok} {k : String}, SegSign t s.op → k ∈ spellings t → k.toList = (match s.op with
      | .within => "segment_within".toList | .before => "segment_before".toList) → k.toList ≠ ['<'] ∧ k.toList ≠ ['>'] →
      (∀ k' ∈ phrases, k'.toList = k.toList ∨ (¬ k'.toList <+: k.toList ++ ['('] ∧ ¬ k.toList ++ ['('] <+: k'.toList)) →
      PrintsBack (.segment s) := by
    intro t k hsg hk hkw hk1 hk2
    have hr := ReadsAtom.segmentVar s.attr.attr hsg (readsNat s.segmentId) h4
    rw [unsigned64_of hi] at hr
    refine ⟨_, _, _, by simp only [Pred.print]; rfl, ?_, hr, ?_⟩
    · show _ = _
      rw [← ha, ← hn]
    · intro rest us w hw he
      have e1 := h5 _ _ (emits_rparen hw) (ends_paren _)
      have e2 := emits_nat (n := s.segmentId) (by omega) _ _ (emits_comma e1) (ends_comma _)
      have e3 := emits_name hx (emits_comma e2) (.inr ⟨_, _, rfl, .inr rfl⟩)
      have e4 := emits_word hk (.inr (.inl rfl)) hk1 hk2 (emits_lparen e3)
      rw [hkw] at e4
      cases ho : s.op <;> simpa [ho] using e4
  cases ho : s.op with
  | within => exact key (t := .segmentWithin) (k := "segment_within") (by rw [ho]; exact .within) (by decide) (by rw [ho]) (by decide) (by decide)
  | before => exact key (t := .segmentBefore) (k := "segment_before") (by rw [ho]; exact .before) (by decide) (by rw [ho]) (by decide) (by decide)

theorem prints_geo (g : Geo) (hr : g.hasRadius = true) (ha : g.latVar = named "latitude".toList) (hb : g.lonVar = named "longitude".toList) :
    PrintsBack (.geo g) := by
  obtain ⟨y1, t1, a1, b1, c1⟩ := emits_float g.latitude
  obtain ⟨y2, t2, a2, b2, c2⟩ := emits_float g.longitude
  obtain ⟨y3, t3, a3, b3, c3⟩ := emits_float g.radius
  refine ⟨_, _, _, rfl, ⟨y1, y2, y3, a1, a2, a3, ?_⟩, .geoFloat b1 b2 b3, ?_⟩
  · rw [← ha, ← hb, ← hr]
  · intro rest us s hw he
    have e1 := c3 _ _ (emits_rparen hw) (ends_paren _)
    have e2 := c2 _ _ (emits_comma e1) (ends_comma _)
    have e3 := c1 _ _ (emits_comma e2) (ends_comma _)
    have e5 := emits_word (t := .geoWithinRadius) (k := "geo_within_radius") (by decide) (.inr (.inl rfl)) (by decide) (by decide)
      (emits_lparen e3)
    simpa using e5

theorem prints_str {t o} (x p : Str) (hx : IsName x) (hsg : StrSign t o) (hq : Quotable '"' p) :
    PrintsBack (.str { op := o, attr := named x, pattern := p }) := by
  refine ⟨_, _, _, rfl, rounded_of rfl ?_ ?_ ?_ ?_, .str x p hsg, ?_⟩
  any_goals (intros; simp; done)
  intro rest us s hw he
  have e1 := emits_str hq _ _ (emits_rparen hw) (ends_paren _)
  have e2 := emits_lparen (emits_name hx (emits_comma e1) (.inr ⟨_, _, rfl, .inr rfl⟩))
  cases hsg
  · have := emits_word (t := .contains) (k := "contains") (by decide) (.inr (.inl rfl)) (by decide) (by decide) e2
    simpa [named] using this
  · have := emits_word (t := .startsWith) (k := "starts_with") (by decide) (.inr (.inl rfl)) (by decide) (by decide) e2
    simpa [named] using this
  · have := emits_word (t := .endsWith) (k := "ends_with") (by decide) (.inr (.inl rfl)) (by decide) (by decide) e2
    simpa [named] using this

theorem closes_word {t : Tok} {k : String} (hk : k ∈ spellings t) (h1 : k.toList ≠ ['<'] ∧ k.toList ≠ ['>'])
    (hp : ∀ k' ∈ phrases, ¬ k'.toList <+: k.toList ∧ ¬ k.toList ++ [')'] <+: k'.toList ∧ ¬ k'.toList <+: k.toList ++ [')']) :
    Closes [t] k.toList := by
  intro rest us s hw he
  rcases he with rfl | ⟨r, rfl⟩
  · refine .token (.fixed hk) .last ?_ hw
    intro k' hk' h
    rw [List.append_nil] at h
    exact absurd h (hp k' hk').1
  · exact emits_word hk (.inr (.inr rfl)) h1 (fun k' hk' => .inr ⟨(hp k' hk').2.2, (hp k' hk').2.1⟩) hw

theorem segments_name : IsName "segments_with_timestamp".toList := spelled_ident (spells_name (by decide))

/-- a condition of an accepted text that can be written down prints back -/
theorem prints_atom {ts p} (h : ReadsAtom ts p) (hs : Spelled ts) (hp : Writable p) : PrintsBack p := by
  cases h with
  | isNull x hn => exact hp.elim
  | compare x hsg hc =>
    rw [spelled_cons, spelled_cons] at hs
    obtain ⟨w, hx⟩ := hs.1
    exact prints_compare x (spelled_ident hx) hsg hc hs.2.2
  | @compareLeft t o o' _ c x hsg hc =>
    rw [spelled_append, spelled_cons, spelled_cons] at hs
    obtain ⟨w, hx⟩ := hs.2.2.1
    have : ∃ t' o'', CmpSign t' o' o'' := by
      cases hsg
      · exact ⟨_, _, .lt⟩
      · exact ⟨_, _, .le⟩
      · exact ⟨_, _, .gt⟩
      · exact ⟨_, _, .ge⟩
    obtain ⟨_, _, hsg'⟩ := this
    exact prints_compare x (spelled_ident hx) hsg' hc hs.1
  | equality x hsg hc =>
    rw [spelled_cons, spelled_cons] at hs
    obtain ⟨w, hx⟩ := hs.1
    exact prints_equality x (spelled_ident hx) hsg hc hs.2.2 (fun s e => by subst e; exact hp)
  | equalityLeft x hsg hc =>
    rw [spelled_append, spelled_cons, spelled_cons] at hs
    obtain ⟨w, hx⟩ := hs.2.2.1
    exact prints_equality x (spelled_ident hx) hsg hc hs.1 (fun s e => by subst e; exact hp)
  | set hsg hl hr =>
    rw [spelled_append, spelled_cons] at hs
    refine prints_set hsg hl hr hs.1 hs.2.2 ?_ ?_
    · intro x e
      subst e
      cases hr
      · exact hp
      · exact hp.1
      · exact hp
    · intro l e
      subst e
      cases hl
      · exact hp
      · exact hp.2
      · exact hp
  | list x hsg hl =>
    rw [spelled_cons, spelled_cons] at hs
    obtain ⟨w, hx⟩ := hs.1
    exact prints_list x (spelled_ident hx) hsg hl hs.2.2 (fun m e => by subst e; exact hp)
  | boolVar x =>
    obtain ⟨w, hx⟩ := hs (.ident x) (by simp)
    refine ⟨_, _, _, rfl, rounded_of rfl ?_ ?_ ?_ ?_, .boolVar x, ?_⟩
    any_goals (intros; simp; done)
    intro rest us s hw he
    exact emits_name (spelled_ident hx) hw (closes_name he)
  | true =>
    refine ⟨_, _, _, rfl, rounded_of rfl ?_ ?_ ?_ ?_, .true, ?_⟩
    any_goals (intros; simp; done)
    exact closes_word (t := .true) (k := "true") (by decide) (by decide) (by decide)
  | false =>
    refine ⟨_, _, _, rfl, rounded_of rfl ?_ ?_ ?_ ?_, .false, ?_⟩
    any_goals (intros; simp)
    exact closes_word (t := .false) (k := "false") (by decide) (by decide) (by decide)
  | freq s ns ht hv hl =>
    obtain ⟨h1, h2, h3⟩ := hp
    refine prints_freq _ h1 h2 h3 ?_ rfl
    refine readsInt_range hv ?_
    intro t ht
    exact hs t (by simp [ht])
  | segment hsg hi hv =>
    refine prints_segment _ hp segments_name ?_ rfl rfl
    refine readsInt_range hv ?_
    intro t ht
    exact hs t (by simp [ht])
  | segmentVar x hsg hi hv =>
    obtain ⟨w, hx⟩ := hs (.ident x) (by simp)
    refine prints_segment _ hp (spelled_ident hx) ?_ rfl rfl
    refine readsInt_range hv ?_
    intro t ht
    exact hs t (by simp [ht])
  | geoInt => exact prints_geo _ rfl rfl rfl
  | geoFloat => exact prints_geo _ rfl rfl rfl
  | str x s hsg =>
    obtain ⟨w, hx⟩ := hs (.ident x) (by simp)
    exact prints_str x s (spelled_ident hx) hsg hp

/-! ### expressions -/

theorem emits_not {rest : Str} {ts : List Tok} {s : Str} (hw : Wr rest ts ('(' :: s)) : Wr rest (.not :: ts) ("not (".toList ++ s) := by
  refine .token (w := "not".toList) (s := ' ' :: '(' :: s) (.fixed (t := .not) (k := "not") (by decide))
    (.word (by decide) (by decide) (.inl (.inl rfl))) ?_ (.blank (.inl rfl) hw)
  simp [phrases]

theorem everywhere_mono {P Q : Pred → Prop} (h : ∀ p, P p → Q p) {e : Expr} (he : Everywhere P e) : Everywhere Q e := by
  induction e with
  | leaf p => exact h p he
  | not e ih => exact ih he
  | and l r ihl ihr => exact ⟨ihl he.1, ihr he.2⟩
  | or l r ihl ihr => exact ⟨ihl he.1, ihr he.2⟩

theorem everywhere_build {P : Pred → Prop} (e : Expr) : Everywhere P (parseBuild e) ↔ Everywhere P e := by
  induction e with
  | leaf p => rfl
  | not e ih => exact ih
  | and l r ihl ihr =>
    simp only [parseBuild, mkAnd]
    split
    · simp only [Everywhere, ihl, ihr, and_comm]
    · simp only [Everywhere, ihl, ihr]
  | or l r ihl ihr =>
    simp only [parseBuild, mkOr]
    split
    · simp only [Everywhere, ihl, ihr, and_comm]
    · simp only [Everywhere, ihl, ihr]

/-- what holds of the conditions read from written tokens -/
theorem reads_everywhere {P : Pred → Prop} (hP : ∀ ts p, ReadsAtom ts p → Spelled ts → P p) {l d ts e} (h : Reads l d ts e) (hs : Spelled ts) :
    Everywhere P e := by
  induction h with
  | atom d h => exact hP _ _ h hs
  | paren _ ih =>
    rw [List.cons_append, spelled_cons, spelled_append] at hs
    exact ih hs.2.1
  | not _ ih => exact ih (spelled_cons.1 hs).2
  | one _ ih => exact ih hs
  | and _ _ ih1 ih2 =>
    rw [spelled_append, spelled_cons] at hs
    exact ⟨ih1 hs.1, ih2 hs.2.2⟩
  | only _ ih => exact ih hs
  | or _ _ ih1 ih2 =>
    rw [spelled_append, spelled_cons] at hs
    exact ⟨ih1 hs.1, ih2 hs.2.2⟩

theorem prints_expr {e : Expr} (h : Everywhere PrintsBack e) :
    ∃ ts e' w, e.print = .ok w ∧ Alongside Rounded e e' ∧ Reads .unary (depthInParens e) ts e' ∧ Closes ts w := by
  induction e with
  | leaf p =>
    obtain ⟨ts, p', w, h1, h2, h3, h4⟩ := h
    exact ⟨ts, _, w, h1, .leaf h2, .atom _ h3, h4⟩
  | not e ih =>
    obtain ⟨ts, e', w, h1, h2, h3, h4⟩ := ih h
    refine ⟨_, _, _, by simp only [Expr.print, h1]; rfl, .not h2,
      .paren (d := depthInParens e + 2) (.only (.one (.not (d := depthInParens e + 1) (.paren (d := depthInParens e) (.only (.one h3))))))
      , ?_⟩
    intro rest us s hw he
    have e1 := h4 _ _ (emits_rparen (emits_rparen hw)) (.inr ⟨_, rfl⟩)
    have e2 := emits_not (emits_lparen e1)
    simpa using emits_lparen e2
  | and l r ihl ihr =>
    obtain ⟨tl, l', wl, h1, h2, h3, h4⟩ := ihl h.1
    obtain ⟨tr, r', wr, g1, g2, g3, g4⟩ := ihr h.2
    have h3' := reads_mono (d' := max (depthInParens l) (depthInParens r)) (by omega) h3
    have g3' := reads_mono (d' := max (depthInParens l) (depthInParens r)) (by omega) g3
    refine ⟨_, _, _, by simp only [Expr.print, h1, g1]; rfl, .and h2 g2,
      .paren (d := max (depthInParens l) (depthInParens r) + 1) (.only (.and (.one (.paren (.only (.one h3')))) (.paren (.only (.one g3')))))
      , ?_⟩
    intro rest us s hw he
    have e1 := g4 _ _ (emits_rparen (emits_rparen hw)) (.inr ⟨_, rfl⟩)
    have e2 := emits_word (t := .and) (k := "and") (by decide) (.inl rfl) (by decide) (by decide) (.blank (.inl rfl) (emits_lparen e1))
    have e3 := h4 _ _ (emits_rparen (.blank (c := ' ') (.inl rfl) e2)) (.inr ⟨_, rfl⟩)
    simpa using emits_lparen (emits_lparen e3)
  | or l r ihl ihr =>
    obtain ⟨tl, l', wl, h1, h2, h3, h4⟩ := ihl h.1
    obtain ⟨tr, r', wr, g1, g2, g3, g4⟩ := ihr h.2
    have h3' := reads_mono (d' := max (depthInParens l) (depthInParens r)) (by omega) h3
    have g3' := reads_mono (d' := max (depthInParens l) (depthInParens r)) (by omega) g3
    refine ⟨_, _, _, by simp only [Expr.print, h1, g1]; rfl, .or h2 g2,
      .paren (d := max (depthInParens l) (depthInParens r) + 1) (.or (.only (.one (.paren (.only (.one h3'))))) (.one (.paren (.only (.one g3')))))
      , ?_⟩
    intro rest us s hw he
    have e1 := g4 _ _ (emits_rparen (emits_rparen hw)) (.inr ⟨_, rfl⟩)
    have e2 := emits_word (t := .or) (k := "or") (by decide) (.inl rfl) (by decide) (by decide) (.blank (.inl rfl) (emits_lparen e1))
    have e3 := h4 _ _ (emits_rparen (.blank (c := ' ') (.inl rfl) e2)) (.inr ⟨_, rfl⟩)
    simpa using emits_lparen (emits_lparen e3)

/-! ### operands stay in order -/

/-- the operands are ordered by cost -/
def Ordered : Expr → Prop
  | .leaf _ => True
  | .not e => Ordered e
  | .and l r => Ordered l ∧ Ordered r ∧ scoreExpr l ≤ scoreExpr r
  | .or l r => Ordered l ∧ Ordered r ∧ scoreExpr l ≤ scoreExpr r

theorem ordered_build (e : Expr) : Ordered (parseBuild e) := by
  induction e with
  | leaf p => trivial
  | not e ih => exact ih
  | and l r ihl ihr =>
    simp only [parseBuild, mkAnd]
    split
    · exact ⟨ihr, ihl, by omega⟩
    · exact ⟨ihl, ihr, by omega⟩
  | or l r ihl ihr =>
    simp only [parseBuild, mkOr]
    split
    · exact ⟨ihr, ihl, by omega⟩
    · exact ⟨ihl, ihr, by omega⟩

theorem build_ordered {e : Expr} (h : Ordered e) : parseBuild e = e := by
  induction e with
  | leaf p => rfl
  | not e ih => simp only [parseBuild, ih h]
  | and l r ihl ihr =>
    simp only [parseBuild, ihl h.1, ihr h.2.1, mkAnd]
    rw [if_neg (by have := h.2.2; omega)]
  | or l r ihl ihr =>
    simp only [parseBuild, ihl h.1, ihr h.2.1, mkOr]
    rw [if_neg (by have := h.2.2; omega)]

theorem rounded_score {p p' : Pred} (h : Rounded p p') : scorePred p' = scorePred p := by
  unfold Rounded at h
  split at h
  · obtain ⟨y, _, rfl⟩ := h; rfl
  · obtain ⟨y, _, rfl⟩ := h; rfl
  · obtain ⟨_, _, _, _, _, _, rfl⟩ := h; rfl
  · subst h; rfl
  · subst h; rfl

theorem alongside_score {e e' : Expr} (h : Alongside Rounded e e') : scoreExpr e' = scoreExpr e := by
  induction h with
  | leaf h => exact rounded_score h
  | not _ ih => exact ih
  | and _ _ ih1 ih2 => simp only [scoreExpr, ih1, ih2]
  | or _ _ ih1 ih2 => simp only [scoreExpr, ih1, ih2]

theorem alongside_ordered {e e' : Expr} (h : Alongside Rounded e e') (ho : Ordered e) : Ordered e' := by
  induction h with
  | leaf _ => trivial
  | not _ ih => exact ih ho
  | and h1 h2 ih1 ih2 => exact ⟨ih1 ho.1, ih2 ho.2.1, by rw [alongside_score h1, alongside_score h2]; exact ho.2.2⟩
  | or h1 h2 ih1 ih2 => exact ⟨ih1 ho.1, ih2 ho.2.1, by rw [alongside_score h1, alongside_score h2]; exact ho.2.2⟩

/-- an accepted text: its conditions come from written tokens -/
theorem parsed_everywhere {P : Pred → Prop} (hP : ∀ ts p, ReadsAtom ts p → Spelled ts → P p) {text : Str} {e : Expr}
    (h : parseText text = .ok (some e)) : Everywhere P e ∧ Ordered e := by
  obtain ⟨r, hs⟩ := lexExpr_scan text
  rcases xx_parse (lexExpr text) with h' | ⟨d, e', hr, h'⟩
  · rw [parseText, h'] at h; cases h
  · rw [parseText, h'] at h
    cases h
    exact ⟨(everywhere_build e').2 (reads_everywhere hP hr (scan_spelled hs)), ordered_build e'⟩

theorem everywhere_and {P Q : Pred → Prop} {e : Expr} (h : Everywhere P e) (h' : Everywhere Q e) : Everywhere (fun p => P p ∧ Q p) e := by
  induction e with
  | leaf p => exact ⟨h, h'⟩
  | not e ih => exact ih h h'
  | and l r ihl ihr => exact ⟨ihl h.1 h'.1, ihr h.2 h'.2⟩
  | or l r ihl ihr => exact ⟨ihl h.1 h'.1, ihr h.2 h'.2⟩

theorem end_scan : Scan [] [] [] := .done

theorem parse_printed {text : Str} {e : Expr} (h : parseText text = .ok (some e)) (hw : Everywhere Writable e) (hd : depthInParens e < 1990) :
    ∃ s e', e.print = .ok s ∧ parseText s = .ok (some e') ∧ Alongside Rounded e e' := by
  obtain ⟨h1, ho⟩ := parsed_everywhere (P := fun p => Writable p → PrintsBack p) (fun _ _ h hs hp => prints_atom h hs hp) h
  have h2 : Everywhere PrintsBack e := everywhere_mono (fun p hp => hp.1 hp.2) (everywhere_and h1 hw)
  obtain ⟨ts, e', w, g1, g2, g3, g4⟩ := prints_expr h2
  refine ⟨w, e', g1, ?_, g2⟩
  have g5 := g4 [] [] (.nil end_scan) (.inl rfl)
  rw [List.append_nil, List.append_nil] at g5
  rw [parseText, lexExpr_eq (wr_scan g5), xx_accepts (.only (.one g3)) hd, build_ordered (alongside_ordered g2 ho)]

/-! ### null tests -/

theorem readsInt_parens {ts n} (h : ReadsInt ts n) : ts.count .lparen = 0 ∧ ts.count .rparen = 0 := by
  cases h <;> simp [List.count_cons]
theorem readsFloat_parens {ts n} (h : ReadsFloat ts n) : ts.count .lparen = 0 ∧ ts.count .rparen = 0 := by
  cases h <;> simp [List.count_cons]
theorem readsInts_parens {ts n} (h : ReadsInts ts n) : ts.count .lparen = 0 ∧ ts.count .rparen = 0 := by
  induction h with
  | one h => exact readsInt_parens h
  | more _ h ih =>
    have := readsInt_parens h
    simp [List.count_cons, ih, this]
theorem readsStrs_parens {ts n} (h : ReadsStrs ts n) : ts.count .lparen = 0 ∧ ts.count .rparen = 0 := by
  induction h with
  | one h => simp [List.count_cons]
  | more _ h ih => simp [List.count_cons, ih]
theorem readsNum_parens {ts n} (h : ReadsNum ts n) : ts.count .lparen = 0 ∧ ts.count .rparen = 0 := by
  cases h with
  | int h => exact readsInt_parens h
  | float h => exact readsFloat_parens h
theorem readsConst_parens {ts n} (h : ReadsConst ts n) : ts.count .lparen = 0 ∧ ts.count .rparen = 0 := by
  cases h with
  | int h => exact readsInt_parens h
  | float h => exact readsFloat_parens h
  | string s => simp [List.count_cons]
theorem readsLeft_parens {ts n} (h : ReadsLeft ts n) : ts.count .lparen = 0 ∧ ts.count .rparen = 0 := by
  cases h with
  | int h => exact readsInt_parens h
  | string s => simp [List.count_cons]
  | var s => simp [List.count_cons]
theorem readsRight_parens {ts n} (h : ReadsRight ts n) : ts.count .lparen = ts.count .rparen := by
  cases h with
  | ints h => have := readsInts_parens h; simp [List.count_cons, this]
  | strs h => have := readsStrs_parens h; simp [List.count_cons, this]
  | var s => simp [List.count_cons]
theorem readsList_parens {ts n} (h : ReadsList ts n) : ts.count .lparen = ts.count .rparen := by
  cases h with
  | ints h => have := readsInts_parens h; simp [List.count_cons, this]
  | strs h => have := readsStrs_parens h; simp [List.count_cons, this]

theorem readsAtom_parens {ts p} (h : ReadsAtom ts p) : ts.count .lparen = ts.count .rparen ∧ ts ≠ [] := by
  cases h with
  | isNull x hn => cases hn <;> simp [List.count_cons]
  | compare x hsg hc => have := readsNum_parens hc; cases hsg <;> simp [List.count_cons, this]
  | compareLeft x hsg hc => have := readsNum_parens hc; cases hsg <;> simp [List.count_cons, this]
  | equality x hsg hc => have := readsConst_parens hc; cases hsg <;> simp [List.count_cons, this]
  | equalityLeft x hsg hc => have := readsConst_parens hc; cases hsg <;> simp [List.count_cons, this]
  | set hsg hl hr => have := readsLeft_parens hl; have := readsRight_parens hr; cases hsg <;> simp [List.count_cons, *]
  | list x hsg hl => have := readsList_parens hl; cases hsg <;> simp [List.count_cons, *]
  | boolVar x => simp [List.count_cons]
  | true => simp [List.count_cons]
  | false => simp [List.count_cons]
  | freq s ns ht hv hl => have := readsInt_parens hv; have := readsInt_parens hl; simp [List.count_cons, *]
  | segment hsg hi hv => have := readsInt_parens hi; have := readsInt_parens hv; cases hsg <;> simp [List.count_cons, *]
  | segmentVar x hsg hi hv => have := readsInt_parens hi; have := readsInt_parens hv; cases hsg <;> simp [List.count_cons, *]
  | geoInt h1 h2 h3 => have := readsInt_parens h1; have := readsInt_parens h2; have := readsInt_parens h3; simp [List.count_cons, *]
  | geoFloat h1 h2 h3 => have := readsFloat_parens h1; have := readsFloat_parens h2; have := readsFloat_parens h3; simp [List.count_cons, *]
  | str x s hsg => cases hsg <;> simp [List.count_cons]

theorem reads_parens {l d ts e} (h : Reads l d ts e) : ts.count .lparen = ts.count .rparen ∧ ts ≠ [] := by
  induction h with
  | atom d h => exact readsAtom_parens h
  | paren _ ih => simp [List.count_cons, ih.1]
  | not _ ih => simp [List.count_cons, ih.1]
  | one _ ih => exact ih
  | and _ _ ih1 ih2 => simp [List.count_cons, ih1.1, ih2.1]
  | only _ ih => exact ih
  | or _ _ ih1 ih2 => simp [List.count_cons, ih1.1, ih2.1]

theorem question_stuck (s : Str) : Scan ('?' :: s) [] ('?' :: s) := by
  refine .stuck (by unfold Blank; decide) ?_
  intro t w hw hp
  obtain ⟨r, hr, hl⟩ := spells_matched hw hp
  have h0 : ∀ r ∈ tokenRules, r.len ('?' :: s) = 0 := by
    simp [tokenRules, kwList, quoteRule, nameRule, intRule, floatRule, litRule, litLen, quotedLen, nameLen, intLen, floatLen, spanLen, isNameStart, isDigit]
  obtain ⟨c, x, rfl, _⟩ := spells_first hw
  rw [h0 r hr] at hl
  simp at hl

theorem everywhere_no_null {P : Pred → Prop} {e : Expr} (h : Everywhere (fun p => P p ∨ ∃ o v, p = .isNull o v) e) (hn : ¬ HasNull e) :
    Everywhere P e := by
  induction e with
  | leaf p => exact h.resolve_right hn
  | not e ih => exact ih h hn
  | and l r ihl ihr =>
    have hn' := not_or.1 hn
    exact ⟨ihl h.1 hn'.1, ihr h.2 hn'.2⟩
  | or l r ihl ihr =>
    have hn' := not_or.1 hn
    exact ⟨ihl h.1 hn'.1, ihr h.2 hn'.2⟩

/-- the tokens before the first null test are none, or leave a parenthesis open -/
def Unfinished (s : Str) : Prop := ∃ ts rest, Wr rest ts s ∧ (ts = [] ∨ ts.count .rparen < ts.count .lparen)

theorem unfinished_lparen {s : Str} (h : Unfinished s) : Unfinished ('(' :: s) := by
  obtain ⟨ts, rest, h1, h2⟩ := h
  refine ⟨_, _, emits_lparen h1, .inr ?_⟩
  rcases h2 with rfl | h2
  · simp
  · simp [List.count_cons]; omega

theorem null_prints {e : Expr} (h : Everywhere (fun p => PrintsBack p ∨ ∃ o v, p = .isNull o v) e) (hn : HasNull e) {w : Str}
    (hw : e.print = .ok w) (s : Str) : Unfinished (w ++ s) := by
  induction e generalizing w s with
  | leaf p =>
    obtain ⟨o, v, rfl⟩ := hn
    cases hw
    exact ⟨[], _, .nil (question_stuck _), .inl rfl⟩
  | not e ih =>
    simp only [Expr.print] at hw
    split at hw
    · cases hw
    next a ha =>
      cases hw
      obtain ⟨ts, rest, h1, h2⟩ := ih h hn ha ("))".toList ++ s)
      have e1 := emits_not (emits_lparen h1)
      refine ⟨_, rest, by simpa using emits_lparen e1, .inr ?_⟩
      rcases h2 with rfl | h2
      · simp [List.count_cons]
      · simp [List.count_cons]; omega
  | and l r ihl ihr =>
    simp only [Expr.print] at hw
    split at hw
    · cases hw
    next a ha =>
      split at hw
      · cases hw
      next b hb =>
        cases hw
        by_cases hl : HasNull l
        · have := ihl h.1 hl ha (") and (".toList ++ b ++ "))".toList ++ s)
          simpa using unfinished_lparen (unfinished_lparen this)
        · obtain ⟨ts, e', w', g1, _, g3, g4⟩ := prints_expr (everywhere_no_null h.1 hl)
          rw [ha] at g1
          cases g1
          obtain ⟨ts', rest, h1, h2⟩ := ihr h.2 (hn.resolve_left hl) hb ("))".toList ++ s)
          have e2 := emits_word (t := .and) (k := "and") (by decide) (.inl rfl) (by decide) (by decide) (.blank (.inl rfl) (emits_lparen h1))
          have e3 := g4 _ _ (emits_rparen (.blank (c := ' ') (.inl rfl) e2)) (.inr ⟨_, rfl⟩)
          have e4 := (reads_parens g3).1
          refine ⟨_, rest, by simpa using emits_lparen (emits_lparen e3), .inr ?_⟩
          rcases h2 with rfl | h2
          · simp [List.count_cons, e4]; try omega
          · simp [List.count_cons, e4]; omega
  | or l r ihl ihr =>
    simp only [Expr.print] at hw
    split at hw
    · cases hw
    next a ha =>
      split at hw
      · cases hw
      next b hb =>
        cases hw
        by_cases hl : HasNull l
        · have := ihl h.1 hl ha (") or (".toList ++ b ++ "))".toList ++ s)
          simpa using unfinished_lparen (unfinished_lparen this)
        · obtain ⟨ts, e', w', g1, _, g3, g4⟩ := prints_expr (everywhere_no_null h.1 hl)
          rw [ha] at g1
          cases g1
          obtain ⟨ts', rest, h1, h2⟩ := ihr h.2 (hn.resolve_left hl) hb ("))".toList ++ s)
          have e2 := emits_word (t := .or) (k := "or") (by decide) (.inl rfl) (by decide) (by decide) (.blank (.inl rfl) (emits_lparen h1))
          have e3 := g4 _ _ (emits_rparen (.blank (c := ' ') (.inl rfl) e2)) (.inr ⟨_, rfl⟩)
          have e4 := (reads_parens g3).1
          refine ⟨_, rest, by simpa using emits_lparen (emits_lparen e3), .inr ?_⟩
          rcases h2 with rfl | h2
          · simp [List.count_cons, e4]; try omega
          · simp [List.count_cons, e4]; omega

theorem unfinished_refused {s : Str} (h : Unfinished s) : parseText s = .ok none := by
  obtain ⟨ts, rest, h1, h2⟩ := h
  rw [parseText, lexExpr_eq (wr_scan h1)]
  rcases xx_parse ts with h | ⟨d, e, hr, _⟩
  · exact h
  · obtain ⟨h3, h4⟩ := reads_parens hr
    rcases h2 with h2 | h2
    · exact absurd h2 h4
    · omega

/-! ### meaning -/

theorem rnd_close {q : Rat} (h1 : -(2 ^ 45 : Rat) < q) (h2 : q < 2 ^ 45) : |rnd q - q| ≤ 1 / 2 ^ 8 := by
  obtain ⟨e1, e2⟩ := abs_le.1 (nearestInt_err (q * 2 ^ 7))
  generalize hm : nearestInt (q * 2 ^ 7) = m at e1 e2
  have b1 : (m : Rat) < ((2 ^ 53 : Int) : Rat) := by push_cast; linarith
  have b2 : ((-2 ^ 53 : Int) : Rat) < (m : Rat) := by push_cast; linarith
  have b1 : m < 2 ^ 53 := by exact_mod_cast b1
  have b2 : -2 ^ 53 < m := by exact_mod_cast b2
  have hd : IsDouble ((m : Rat) / 2 ^ 7) := ⟨m, -7, by omega, by omega, by
    rw [zpow_neg, div_eq_mul_inv]; norm_num⟩
  refine le_trans (rnd_near q hd) (abs_le.2 ⟨?_, ?_⟩)
  · linarith
  · linarith

theorem nearest_exact {x y : Rat} (h : Nearest x y) (hx : Hundredths x) : y = x := by
  obtain ⟨n, h1, h2, rfl⟩ := h
  obtain ⟨m, b1, b2, rfl⟩ := hx
  obtain ⟨c1, c2⟩ := abs_le.1 (rnd_close b1 b2)
  have h5 : (m : Rat) < n + 1 := by linarith
  have h6 : (n : Rat) < m + 1 := by linarith
  have h7 : m < n + 1 := by exact_mod_cast h5
  have h8 : n < m + 1 := by exact_mod_cast h6
  have : n = m := by omega
  rw [this]

theorem rounded_exact {p p' : Pred} (h : Rounded p p') (ht : TwoDecimals p) : p' = writeSegments p := by
  unfold Rounded at h
  split at h
  · obtain ⟨y, hy, rfl⟩ := h; rw [nearest_exact hy ht]; rfl
  · obtain ⟨y, hy, rfl⟩ := h; rw [nearest_exact hy ht]; rfl
  · obtain ⟨_, _, _, h1, h2, h3, rfl⟩ := h
    rw [nearest_exact h1 ht.1, nearest_exact h2 ht.2.1, nearest_exact h3 ht.2.2]; rfl
  · exact h
  next h1 h2 h3 h4 =>
    subst h
    unfold writeSegments
    split
    · exact absurd rfl (h4 _)
    · rfl

theorem alongside_exact {e e' : Expr} (h : Alongside Rounded e e') (ht : Everywhere TwoDecimals e) :
    Alongside (fun p p' => p' = writeSegments p) e e' := by
  induction h with
  | leaf h => exact .leaf (rounded_exact h ht)
  | not _ ih => exact .not (ih ht)
  | and _ _ ih1 ih2 => exact .and (ih1 ht.1) (ih2 ht.2)
  | or _ _ ih1 ih2 => exact .or (ih1 ht.1) (ih2 ht.2)

theorem print_writeSegments (p : Pred) : (writeSegments p).print = p.print := by
  unfold writeSegments
  split
  · rfl
  · rfl

theorem alongside_print {e e' : Expr} (h : Alongside (fun p p' => p' = writeSegments p) e e') : e'.print = e.print := by
  induction h with
  | leaf h => subst h; exact print_writeSegments _
  | not _ ih => simp only [Expr.print, ih]
  | and _ _ ih1 ih2 => simp only [Expr.print, ih1, ih2]
  | or _ _ ih1 ih2 => simp only [Expr.print, ih1, ih2]

theorem sat_writeSegments (geo : Rat → Rat → Rat → Rat → Rat → Bool) (cs : Spec.Constants) (ev : Spec.Event) (p : Pred) :
    Spec.satPred geo cs ev (writeSegments p) ↔ Spec.satPred geo cs ev p := by
  unfold writeSegments
  split
  · rfl
  · rfl

theorem alongside_sat {e e' : Expr} (h : Alongside (fun p p' => p' = writeSegments p) e e')
    (geo : Rat → Rat → Rat → Rat → Rat → Bool) (cs : Spec.Constants) (ev : Spec.Event) :
    Spec.sat geo cs ev e' ↔ Spec.sat geo cs ev e := by
  induction h with
  | leaf h => subst h; exact sat_writeSegments geo cs ev _
  | not _ ih => simp only [Spec.sat, ih]
  | and _ _ ih1 ih2 => simp only [Spec.sat, ih1, ih2]
  | or _ _ ih1 ih2 => simp only [Spec.sat, ih1, ih2]

/-! ### printing never fails -/

theorem readsInts_ne {ts l} (h : ReadsInts ts l) : l ≠ [] := by
  cases h <;> simp

theorem fmtList_ok {l : List Str} (h : l ≠ []) : ∃ w, fmtList l = .ok w := by
  cases l with
  | nil => exact absurd rfl h
  | cons => exact ⟨_, rfl⟩

theorem print_atom_ok {ts p} (h : ReadsAtom ts p) (hf : ∀ f, p = .freq f → f.type ≠ .invalid) : ∃ w, p.print = .ok w := by
  cases h with
  | @set _ _ _ _ _ r _ _ hr =>
    have : ∃ w, SetRight.print r = .ok w := by
      cases hr with
      | ints h => exact fmtList_ok (by simpa using readsInts_ne h)
      | strs h => exact fmtList_ok (by simpa using (readsStrs_quoted h).1)
      | var x => exact ⟨_, rfl⟩
    obtain ⟨w, hw⟩ := this
    exact ⟨_, by simp only [Pred.print, hw]; rfl⟩
  | @list _ _ _ l x _ hr =>
    have : ∃ w, ListVal.print l = .ok w := by
      cases hr with
      | ints h => exact fmtList_ok (by simpa using readsInts_ne h)
      | strs h => exact fmtList_ok (by simpa using (readsStrs_quoted h).1)
    obtain ⟨w, hw⟩ := this
    exact ⟨_, by simp only [Pred.print, hw]; rfl⟩
  | freq s ns ht hv hl =>
    obtain ⟨w, hw, _⟩ := capName_print _ (hf _ rfl)
    exact ⟨_, by simp only [Pred.print]; rw [hw]⟩
  | _ => exact ⟨_, rfl⟩

theorem print_ok {e : Expr} (h : Everywhere (fun p => ∃ w, p.print = .ok w) e) : ∃ w, e.print = .ok w := by
  induction e with
  | leaf p => exact h
  | not e ih =>
    obtain ⟨w, hw⟩ := ih h
    exact ⟨_, by simp only [Expr.print, hw]; rfl⟩
  | and l r ihl ihr =>
    obtain ⟨a, ha⟩ := ihl h.1
    obtain ⟨b, hb⟩ := ihr h.2
    exact ⟨_, by simp only [Expr.print, ha, hb]; rfl⟩
  | or l r ihl ihr =>
    obtain ⟨a, ha⟩ := ihl h.1
    obtain ⟨b, hb⟩ := ihr h.2
    exact ⟨_, by simp only [Expr.print, ha, hb]; rfl⟩

end BeTree
