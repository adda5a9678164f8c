import Verif.Spec.EventText
import Verif.Lemmas.Lex
/-
The event lexer divides a text as Spec/EventText.lean says.
-/
namespace BeTree

/-- white space -/
def zBlank : LexRule ETok := ⟨blankLen, fun _ => .skip⟩
/-- quoted strings -/
def zQuote (q : Char) : LexRule ETok := ⟨quotedLen q, fun s => .emit (.string (unquote s))⟩
/-- numbers -/
def zInt : LexRule ETok := ⟨intLen, fun s => .emit (.int (strtoll s))⟩
/-- numbers with a point -/
def zFloat : LexRule ETok := ⟨floatLen, fun s => .emit (.float (atof s))⟩
/-- anything else -/
def zAny : LexRule ETok := ⟨anyLen, fun _ => .stop⟩

/-- the rules that give tokens -/
def zTokenRules : List (LexRule ETok) :=
  evFixed.map (fun p => litRule p.1 p.2) ++ [zQuote '"', zQuote '\'', zInt, zFloat]

theorem zzRules_eq : zzRules = (zBlank :: zTokenRules) ++ [zAny] := rfl

theorem mem_zzRules {r : LexRule ETok} : r ∈ zzRules ↔ r = zBlank ∨ r ∈ zTokenRules ∨ r = zAny := by
  rw [zzRules_eq]
  simp only [List.mem_append, List.mem_cons, List.cons_append, List.not_mem_nil, or_false]

theorem evSpells_matched {t : ETok} {w s : Str} (h : EvSpells t w) (hs : w <+: s) : ∃ r ∈ zTokenRules, w.length ≤ r.len s := by
  cases h with
  | @fixed t k hk =>
    refine ⟨litRule k t, ?_, ?_⟩
    · exact List.mem_append_left _ (List.mem_map.mpr ⟨(k, t), hk, rfl⟩)
    · simp only [litRule]; rw [litLen_of hs]
  | @string q b hq hb =>
    refine ⟨zQuote q, ?_, ?_⟩
    · rcases hq with rfl | rfl <;> simp [zTokenRules]
    · obtain ⟨r, rfl⟩ := hs
      have hq' : q ≠ '\\' := by rcases hq with rfl | rfl <;> decide
      have := quotedLen_of hq' hb r
      simp only [zQuote]
      rw [show q :: b ++ [q] ++ r = q :: b ++ q :: r by simp, this]
      simp
  | int h0 hd =>
    exact ⟨zInt, by simp [zTokenRules], le_spanLen hs ((digits_iff _).mp hd)⟩
  | float h0 hw hf => exact ⟨zFloat, by simp [zTokenRules], le_floatLen hs h0 hw hf⟩

theorem matched_evSpells {r : LexRule ETok} {s : Str} (hr : r ∈ zTokenRules) (h : r.len s ≠ 0) :
    r.len s ≤ s.length ∧ ∃ t, r.act (s.take (r.len s)) = .emit t ∧ EvSpells t (s.take (r.len s)) := by
  rcases List.mem_append.mp hr with hr | hr
  · obtain ⟨⟨k, t⟩, hm, rfl⟩ := List.mem_map.mp hr
    obtain ⟨⟨s', rfl⟩, hl⟩ := litLen_pos h
    simp only [litRule] at h hl ⊢
    rw [hl]
    refine ⟨by simp, t, rfl, ?_⟩
    rw [List.take_left']
    · exact .fixed hm
    · rfl
  · simp only [List.mem_cons, List.not_mem_nil, or_false] at hr
    have hquote : ∀ q : Char, q = '"' ∨ q = '\'' → (zQuote q).len s ≠ 0 → (zQuote q).len s ≤ s.length ∧
        ∃ t, (zQuote q).act (s.take ((zQuote q).len s)) = .emit t ∧ EvSpells t (s.take ((zQuote q).len s)) := by
      intro q hq h
      obtain ⟨b, r, rfl, hb, hl⟩ := quotedLen_some h
      simp only [zQuote] at h ⊢
      rw [hl]
      have e : (q :: b ++ q :: r).take (b.length + 2) = q :: b ++ [q] := by
        rw [show q :: b ++ q :: r = (q :: b ++ [q]) ++ r by simp, List.take_left']
        simp
      refine ⟨by simp, _, rfl, ?_⟩
      rw [e]
      have e2 : unquote (q :: b ++ [q]) = b := by simp [unquote]
      rw [e2]
      exact .string hq hb
    rcases hr with rfl | rfl | rfl | rfl
    · exact hquote _ (.inl rfl) h
    · exact hquote _ (.inr rfl) h
    · simp only [zInt] at h ⊢
      refine ⟨spanLen_le _ _, _, rfl, ?_⟩
      rw [strtoll_eq]
      refine .int ?_ ((digits_iff _).mpr (spanLen_take _ _))
      intro h'
      have hl : (s.take (intLen s)).length = intLen s := by
        rw [List.length_take]; have := spanLen_le isDigit s; unfold intLen at *; omega
      rw [h'] at hl; simp at hl; omega
    · simp only [zFloat] at h ⊢
      obtain ⟨w, f, r, hs, h0, hw, hf, hl⟩ := floatLen_some h
      have e : s.take (floatLen s) = w ++ '.' :: f := by rw [hl, hs, List.take_left']; rfl
      refine ⟨by rw [hl, hs]; simp, _, rfl, ?_⟩
      rw [e, atof_eq hw]
      exact .float h0 hw hf

theorem zAny_not_token : zAny ∉ zBlank :: zTokenRules := by
  intro h
  rcases List.mem_cons.mp h with h | h
  · have := congrArg (fun r => r.act []) h
    simp [zAny, zBlank] at this
  · rcases List.mem_append.mp h with h | h
    · obtain ⟨⟨k, t⟩, hm, he⟩ := List.mem_map.mp h
      have := congrArg (fun r => r.act []) he
      simp [zAny, litRule] at this
    · simp only [List.mem_cons, List.not_mem_nil, or_false] at h
      rcases h with h | h | h | h <;>
      · have := congrArg (fun r => r.act []) h
        simp [zAny, zQuote, zInt, zFloat] at this

theorem evFixed_first : ∀ p ∈ evFixed, ∃ c r, p.1.toList = c :: r ∧ isDigit c = false ∧ c ≠ '"' ∧ c ≠ '\'' ∧ ¬ Blank c := by
  have h : ∀ p ∈ evFixed, p.1.toList ≠ [] ∧ isDigit (p.1.toList.headD ' ') = false ∧ p.1.toList.headD ' ' ≠ '"' ∧
      p.1.toList.headD ' ' ≠ '\'' ∧
      ¬ (p.1.toList.headD ' ' = ' ' ∨ p.1.toList.headD ' ' = '\t' ∨ p.1.toList.headD ' ' = '\n') := by decide
  intro p hp
  obtain ⟨h0, h1⟩ := h p hp
  cases hl : p.1.toList with
  | nil => exact absurd hl h0
  | cons a r => rw [hl] at h1; exact ⟨a, r, rfl, h1⟩

theorem evSpells_first {t : ETok} {w : Str} (h : EvSpells t w) : ∃ c r, w = c :: r ∧ ¬ Blank c := by
  cases h with
  | @fixed t k hk => obtain ⟨c, r, h1, _, _, _, h2⟩ := evFixed_first _ hk; exact ⟨c, r, h1, h2⟩
  | @string q b hq hb =>
    refine ⟨q, b ++ [q], rfl, ?_⟩
    rcases hq with rfl | rfl <;> (unfold Blank; decide)
  | int h0 hd => obtain ⟨c, r, rfl, hc⟩ := digits_cons h0 hd; exact ⟨c, r, rfl, (digit_first hc).2.2⟩
  | @float w f h0 hw hf => obtain ⟨c, r, rfl, hc⟩ := digits_cons h0 hw; exact ⟨c, r ++ '.' :: f, rfl, (digit_first hc).2.2⟩

/-- the event lexer divides a text as `EvScan` says -/
theorem lexEvent_scan (s : Str) : ∃ r, EvScan s (lexEvent s) r := by
  induction hn : s.length using Nat.strongRecOn generalizing s with
  | _ n ih =>
    cases s with
    | nil => exact ⟨[], .done⟩
    | cons c s =>
      have hstep : lexEvent (c :: s) = match lexBest (c :: s) zzRules with
        | none => lexGo zzRules 0 s
        | some (n, r) =>
          match r.act ((c :: s).take n) with
          | .skip => lexGo zzRules (n - 1) s
          | .emit t => t :: lexGo zzRules (n - 1) s
          | .stop => [] := by
        rw [lexEvent, lexGo]
        cases lexBest (c :: s) zzRules with
        | none => rfl
        | some p => obtain ⟨m, r⟩ := p; dsimp only; cases r.act (List.take m (c :: s)) <;> rfl
      have hpos : ∀ m, m ≠ 0 → s.drop (m - 1) = (c :: s).drop m := by
        intro m hm; obtain ⟨k, rfl⟩ := Nat.exists_eq_succ_of_ne_zero hm; rfl
      cases hb : lexBest (c :: s) zzRules with
      | none =>
        have h := lexBest_none hb
        have h1 := h zBlank (mem_zzRules.mpr (.inl rfl))
        have h2 := h zAny (mem_zzRules.mpr (.inr (.inr rfl)))
        simp only [zAny, anyLen] at h2
        split at h2
        · rename_i hc
          exact absurd h1 ((blankLen_pos (s := s)).mpr (.inr (.inr hc)))
        · cases h2
      | some p =>
        obtain ⟨m, r⟩ := p
        rw [hb] at hstep
        dsimp only at hstep
        obtain ⟨hm, hl, pre, post, hsplit, hpre, hpost⟩ := lexBest_some hb
        have hall : ∀ r' ∈ zzRules, r'.len (c :: s) ≤ m := by
          intro r' hr'
          rw [hsplit] at hr'
          rcases List.mem_append.mp hr' with h | h
          · exact Nat.le_of_lt (hpre r' h)
          · rcases List.mem_cons.mp h with rfl | h
            · exact Nat.le_of_eq hl
            · exact hpost r' h
        have hr : r ∈ zzRules := by rw [hsplit]; simp
        rw [lexGo_drop, hpos m hm] at hstep
        rcases mem_zzRules.mp hr with rfl | hr | rfl
        · have h1 : m = 1 := by
            have := blankLen_le (c :: s)
            simp only [zBlank] at hl
            omega
          subst h1
          have hbl : Blank c := (blankLen_pos (s := s)).mp (by simp only [zBlank] at hl; omega)
          obtain ⟨rest, hrest⟩ := ih s.length (by rw [← hn]; simp) s rfl
          exact ⟨rest, by rw [hstep]; exact .blank hbl hrest⟩
        · obtain ⟨hle, t, hact, hspell⟩ := matched_evSpells (s := c :: s) hr (by omega)
          rw [hl] at hle hact hspell
          rw [hact] at hstep
          obtain ⟨rest, hrest⟩ := ih ((c :: s).drop m).length (by rw [← hn, List.length_drop]; simp; omega) _ rfl
          refine ⟨rest, ?_⟩
          rw [hstep]
          have hcs : c :: s = (c :: s).take m ++ (c :: s).drop m := (List.take_append_drop _ _).symm
          have := EvScan.token (s := (c :: s).drop m) hspell ?_ hrest
          · rw [← hcs] at this; exact this
          · intro t' w' hw' hp
            rw [← hcs] at hp
            obtain ⟨r', hr', hlen⟩ := evSpells_matched hw' hp
            have := hall r' (mem_zzRules.mpr (.inr (.inl hr')))
            rw [List.length_take]
            omega
        · refine ⟨c :: s, ?_⟩
          have : lexEvent (c :: s) = [] := hstep
          rw [this]
          have h1 : m = 1 := by
            simp only [zAny, anyLen] at hl
            split at hl <;> omega
          subst h1
          have hfront := front_of_not_mem (A := zBlank :: zTokenRules) (B := [zAny])
            (by rw [← hsplit, zzRules_eq]) zAny_not_token
          refine .stuck ?_ ?_
          · intro hbl
            have h1 := hpre _ (hfront zBlank (by simp))
            have h2 := (blankLen_pos (s := s)).mpr hbl
            simp only [zBlank] at h1
            omega
          · intro t w hw hp
            obtain ⟨r', hr', hlen⟩ := evSpells_matched hw hp
            have h1 := hpre _ (hfront r' (List.mem_cons_of_mem _ hr'))
            obtain ⟨a, x, rfl, _⟩ := evSpells_first hw
            simp only [List.length_cons] at hlen
            omega

/-! ### the division is unique -/

theorem evFixed_distinct : ∀ p ∈ evFixed, ∀ q ∈ evFixed, p.1.toList = q.1.toList → p.2 = q.2 := by decide

/-- one text is never a way of writing two tokens -/
theorem evSpells_unique {t t' : ETok} {w : Str} (h : EvSpells t w) (h' : EvSpells t' w) : t = t' := by
  have hdot : ∀ (w f : Str), ¬ Digits (w ++ '.' :: f) := by
    intro w f hd
    have := (digits_iff _).mp hd '.' (by simp)
    rw [digit_dot] at this; cases this
  cases h with
  | @fixed t k hk =>
    obtain ⟨c, r, e, hc1, hc2, hc3, _⟩ := evFixed_first _ hk
    simp only at e
    generalize hw : k.toList = w at h'
    cases h' with
    | @fixed t' k' hk' => exact evFixed_distinct _ hk _ hk' hw
    | @string q b hq hb =>
      rw [e, List.cons_append, List.cons.injEq] at hw
      rcases hq with rfl | rfl
      · exact absurd hw.1 hc2
      · exact absurd hw.1 hc3
    | int h0 hd =>
      obtain ⟨d, r', e', hd'⟩ := digits_cons h0 hd
      rw [e, e', List.cons.injEq] at hw
      rw [← hw.1, hc1] at hd'; cases hd'
    | float h0 hd =>
      obtain ⟨d, r', e', hd'⟩ := digits_cons h0 hd
      rw [e, e', List.cons_append, List.cons.injEq] at hw
      rw [← hw.1, hc1] at hd'; cases hd'
  | @string q b hq hb =>
    generalize hw : q :: b ++ [q] = w at h'
    have hq' : isDigit q = false := by rcases hq with rfl | rfl <;> decide
    cases h' with
    | @fixed t' k' hk' =>
      obtain ⟨c, r, e, hc1, hc2, hc3, _⟩ := evFixed_first _ hk'
      simp only at e
      rw [e, List.cons_append, List.cons.injEq] at hw
      rcases hq with rfl | rfl
      · exact absurd hw.1.symm hc2
      · exact absurd hw.1.symm hc3
    | @string q' b' hq2 hb2 =>
      rw [List.cons_append, List.cons_append, List.cons.injEq] at hw
      obtain ⟨rfl, hw⟩ := hw
      have := List.append_inj_left' hw rfl
      rw [this]
    | int h0 hd =>
      obtain ⟨d, r', e', hd'⟩ := digits_cons h0 hd
      rw [e', List.cons_append, List.cons.injEq] at hw
      rw [← hw.1, hq'] at hd'; cases hd'
    | float h0 hd =>
      obtain ⟨d, r', e', hd'⟩ := digits_cons h0 hd
      rw [e', List.cons_append, List.cons_append, List.cons.injEq] at hw
      rw [← hw.1, hq'] at hd'; cases hd'
  | int h0 hd =>
    obtain ⟨d, r', e', hd'⟩ := digits_cons h0 hd
    cases h' with
    | @fixed t' k' hk' =>
      obtain ⟨c, r, e, hc1, _⟩ := evFixed_first _ hk'
      simp only at e
      rw [e, List.cons.injEq] at e'
      rw [← e'.1, hc1] at hd'; cases hd'
    | @string q b hq hb =>
      rw [List.cons_append, List.cons.injEq] at e'
      obtain ⟨rfl, _⟩ := e'
      rcases hq with rfl | rfl <;> exact absurd hd' (by decide)
    | int => rfl
    | @float w f => exact absurd hd (hdot w f)
  | @float w f h0 hd hf =>
    obtain ⟨d, r', e', hd'⟩ := digits_cons h0 hd
    generalize hw : w ++ '.' :: f = x at h'
    cases h' with
    | @fixed t' k' hk' =>
      obtain ⟨c, r, e, hc1, _⟩ := evFixed_first _ hk'
      simp only at e
      rw [e, e', List.cons_append, List.cons.injEq] at hw
      rw [hw.1, hc1] at hd'; cases hd'
    | @string q b hq hb =>
      rw [e', List.cons_append, List.cons_append, List.cons.injEq] at hw
      obtain ⟨rfl, _⟩ := hw
      rcases hq with rfl | rfl <;> exact absurd hd' (by decide)
    | int h0' hd2 => rw [← hw] at hd2; exact absurd hd2 (hdot w f)
    | @float w' f' h0' hd2 hf2 =>
      obtain ⟨rfl, rfl⟩ := float_inj hd hd2 hw
      rfl

/-- a text divides in one way -/
theorem evScan_unique {s : Str} {ts ts' : List ETok} {r r' : Str} (h : EvScan s ts r) (h' : EvScan s ts' r') : ts = ts' ∧ r = r' := by
  induction h generalizing ts' r' with
  | done =>
    generalize hs : ([] : Str) = s at h'
    cases h' with
    | done => exact ⟨rfl, rfl⟩
    | stuck => cases hs
    | blank => cases hs
    | token hsp =>
      obtain ⟨c, r, rfl, _⟩ := evSpells_first hsp
      cases hs
  | @stuck c s hb hn =>
    generalize hs : c :: s = s' at h'
    cases h' with
    | done => cases hs
    | stuck => exact ⟨rfl, rfl⟩
    | blank hb' => cases hs; exact absurd hb' hb
    | token hsp => exact absurd (by rw [hs]; exact List.prefix_append _ _) (hn _ _ hsp)
  | @blank c s ts r hb hsc ih =>
    generalize hs : c :: s = s' at h'
    cases h' with
    | done => cases hs
    | stuck hb' => cases hs; exact absurd hb hb'
    | blank hb' hsc' => cases hs; exact ih hsc'
    | token hsp =>
      obtain ⟨d, r, rfl, hd⟩ := evSpells_first hsp
      cases hs
      exact absurd hb hd
  | @token t w s ts r hsp hmax hsc ih =>
    generalize hs : w ++ s = s' at h'
    cases h' with
    | done =>
      obtain ⟨c, r, rfl, _⟩ := evSpells_first hsp
      cases hs
    | stuck hb' hn => exact absurd (by rw [← hs]; exact List.prefix_append _ _) (hn _ _ hsp)
    | blank hb' hsc' =>
      obtain ⟨d, r, rfl, hd⟩ := evSpells_first hsp
      cases hs
      exact absurd hb' hd
    | @token t' w' s' ts' r' hsp' hmax' hsc' =>
      have h1 := hmax t' w' hsp' (by rw [hs]; exact List.prefix_append _ _)
      have h2 := hmax' t w hsp (by rw [← hs]; exact List.prefix_append _ _)
      obtain ⟨rfl, rfl⟩ := List.append_inj hs (by omega)
      obtain rfl := evSpells_unique hsp hsp'
      obtain ⟨rfl, rfl⟩ := ih hsc'
      exact ⟨rfl, rfl⟩

/-- the lexer's tokens are those of the division -/
theorem lexEvent_eq {s : Str} {ts : List ETok} {r : Str} (h : EvScan s ts r) : lexEvent s = ts := by
  obtain ⟨r', h'⟩ := lexEvent_scan s
  exact (evScan_unique h' h).1

/-! ### texts written in the ordinary way -/

theorem evFixed_prefix : ∀ p ∈ evFixed, ∀ q ∈ evFixed, p.1.toList.isPrefixOf q.1.toList = true → p.1.toList = q.1.toList := by decide

theorem evSpells_quote {t : ETok} {q : Char} {r : Str} (hq : q = '"' ∨ q = '\'') (h : EvSpells t (q :: r)) :
    ∃ b, q :: r = q :: b ++ [q] ∧ Quotable q b := by
  generalize hw : q :: r = w at h
  have hq' : isDigit q = false := by rcases hq with rfl | rfl <;> decide
  cases h with
  | @fixed t k hk =>
    obtain ⟨c, r', e, _, hc2, hc3, _⟩ := evFixed_first _ hk
    simp only at e
    rw [e, List.cons.injEq] at hw
    rcases hq with rfl | rfl
    · exact absurd hw.1.symm hc2
    · exact absurd hw.1.symm hc3
  | @string q' b hq2 hb =>
    rw [List.cons_append, List.cons.injEq] at hw
    obtain ⟨rfl, _⟩ := hw
    exact ⟨b, rfl, hb⟩
  | int h0 hd =>
    obtain ⟨d, r', e', hd'⟩ := digits_cons h0 hd
    rw [e', List.cons.injEq] at hw
    rw [← hw.1, hq'] at hd'; cases hd'
  | float h0 hd =>
    obtain ⟨d, r', e', hd'⟩ := digits_cons h0 hd
    rw [e', List.cons_append, List.cons.injEq] at hw
    rw [← hw.1, hq'] at hd'; cases hd'

/-- a token that begins with a digit is made of digits and points -/
theorem evSpells_digit {t : ETok} {d : Char} {r : Str} (hd : isDigit d = true) (h : EvSpells t (d :: r)) :
    ∀ c ∈ d :: r, isDigit c = true ∨ c = '.' := by
  generalize hw : d :: r = w at h
  cases h with
  | @fixed t k hk =>
    obtain ⟨c, r', e, hc, _⟩ := evFixed_first _ hk
    simp only at e
    rw [e, List.cons.injEq] at hw
    rw [hw.1, hc] at hd; cases hd
  | @string q b hq hb =>
    rw [List.cons_append, List.cons.injEq] at hw
    obtain ⟨rfl, _⟩ := hw
    rcases hq with rfl | rfl <;> exact absurd hd (by decide)
  | int h0 hd' => intro c hc; exact .inl ((digits_iff _).mp hd' c hc)
  | @float w f h0 hw' hf =>
    intro c hc
    rcases List.mem_append.mp hc with hc | hc
    · exact .inl ((digits_iff _).mp hw' c hc)
    · rcases List.mem_cons.mp hc with hc | hc
      · exact .inr hc
      · exact .inl ((digits_iff _).mp hf c hc)

theorem evWritten_longest {t : ETok} {w s : Str} (h : EvSpells t w) (he : IsNumber t → ∀ c ∈ s.head?, ¬ c.isDigit ∧ c ≠ '.') :
    ∀ t' w', EvSpells t' w' → w' <+: w ++ s → w'.length ≤ w.length := by
  intro t' w' h' hpre
  by_contra hlt
  have hww : w <+: w' := List.prefix_of_prefix_length_le (List.prefix_append _ _) hpre (by omega)
  obtain ⟨x, rfl⟩ := hww
  have hx : x <+: s := by
    obtain ⟨y, hy⟩ := hpre
    rw [List.append_assoc] at hy
    exact ⟨y, List.append_cancel_left hy⟩
  cases x with
  | nil => simp at hlt
  | cons d x =>
    obtain ⟨y, rfl⟩ := hx
    have hnum : ∀ (c : Char) (r : Str), w = c :: r → isDigit c = true → IsNumber t → False := by
      intro c r e hc hn
      rw [e] at h'
      have h1 := evSpells_digit hc h' d (by simp)
      have h2 := he hn d (by simp)
      rw [isDigit_eq] at h1
      tauto
    cases h with
    | @fixed t k hk =>
      obtain ⟨c, r, e, hc1, hc2, hc3, _⟩ := evFixed_first _ hk
      simp only at e
      generalize hz : k.toList ++ d :: x = z at h'
      cases h' with
      | @fixed t' k' hk' =>
        have := evFixed_prefix _ hk _ hk' (List.isPrefixOf_iff_prefix.mpr ⟨d :: x, hz⟩)
        simp only at this
        rw [this] at hz
        have := congrArg List.length hz
        simp at this
      | @string q b hq hb =>
        rw [e, List.cons_append, List.cons_append, List.cons.injEq] at hz
        rcases hq with rfl | rfl
        · exact absurd hz.1 hc2
        · exact absurd hz.1 hc3
      | int h0 hd =>
        obtain ⟨d', r', e', hd'⟩ := digits_cons h0 hd
        rw [e, e', List.cons_append, List.cons.injEq] at hz
        rw [← hz.1, hc1] at hd'; cases hd'
      | float h0 hd =>
        obtain ⟨d', r', e', hd'⟩ := digits_cons h0 hd
        rw [e, e', List.cons_append, List.cons_append, List.cons.injEq] at hz
        rw [← hz.1, hc1] at hd'; cases hd'
    | @string q b hq hb =>
      have hq' : q ≠ '\\' := by rcases hq with rfl | rfl <;> decide
      obtain ⟨b', e', hb'⟩ := evSpells_quote hq h'
      have h1 := quotedLen_of hq' hb (d :: x ++ y)
      have h2 := quotedLen_of hq' hb' y
      have e2 : q :: b ++ q :: (d :: x ++ y) = q :: b' ++ q :: y := by
        have : (q :: b ++ [q] ++ d :: x) ++ y = (q :: b' ++ [q]) ++ y := congrArg (· ++ y) e'
        simpa using this
      rw [e2, h2] at h1
      have h3 := congrArg List.length e'
      simp at h3
      omega
    | int h0 hd =>
      obtain ⟨c, r, e, hc⟩ := digits_cons h0 hd
      exact hnum c r e hc trivial
    | @float w f h0 hd hf =>
      obtain ⟨c, r, e, hc⟩ := digits_cons h0 hd
      exact hnum c (r ++ '.' :: f) (by rw [e]; rfl) hc trivial

/-- a text written in the ordinary way divides into its tokens -/
theorem evWritten_scan {ts : List ETok} {s : Str} (h : EvWritten ts s) : EvScan s ts [] := by
  induction h with
  | nil => exact .done
  | blank hb _ ih => exact .blank hb ih
  | token hs he _ ih => exact .token hs (evWritten_longest hs he) ih

end BeTree
