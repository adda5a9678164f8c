import Verif.Model.Flex
import Mathlib.Data.List.Forall2
/-
The scanner of flex against the rules: patterns by derivatives, the search for the longest match, and the transition tables.
-/
namespace BeTree

/-- what is left of a pattern after some bytes of it were read -/
inductive Pat where
  | lit (rest : List Nat)
  | blank
  | quote (q : Nat) | body (q : Nat) | esc (q : Nat)
  | name | nameTail
  | int | digits
  | flt | fltInt | fltFrac
  | any
  deriving DecidableEq

def digitN (n : Nat) : Bool := Nat.ble 48 n && Nat.ble n 57
def startN (n : Nat) : Bool := (Nat.ble 97 n && Nat.ble n 122) || (Nat.ble 65 n && Nat.ble n 90) || Nat.beq n 95
def charN (n : Nat) : Bool := startN n || digitN n || Nat.beq n 45

def Pat.step : Pat → Nat → Option Pat
  | .lit [], _ => none
  | .lit (k :: r), c => if Nat.beq c k then some (.lit r) else none
  | .blank, c => if Nat.beq c 32 || Nat.beq c 9 || Nat.beq c 10 then some (.lit []) else none
  | .quote q, c => if Nat.beq c q then some (.body q) else none
  | .body q, c => if Nat.beq c q then some (.lit []) else if Nat.beq c 92 then some (.esc q) else some (.body q)
  | .esc q, c => if Nat.beq c 10 then none else some (.body q)
  | .name, c => if startN c then some .nameTail else none
  | .nameTail, c => if charN c then some .nameTail else none
  | .int, c => if digitN c then some .digits else none
  | .digits, c => if digitN c then some .digits else none
  | .flt, c => if digitN c then some .fltInt else none
  | .fltInt, c => if digitN c then some .fltInt else if Nat.beq c 46 then some .fltFrac else none
  | .fltFrac, c => if digitN c then some .fltFrac else none
  | .any, c => if Nat.beq c 10 then none else some (.lit [])

def Pat.nullable : Pat → Bool
  | .lit [] => true
  | .nameTail => true
  | .digits => true
  | .fltFrac => true
  | _ => false

/-- the length of the longest match of what is left of a pattern -/
def Pat.run (p : Pat) : List Nat → Option Nat
  | [] => if p.nullable then some 0 else none
  | c :: s =>
    match p.step c with
    | none => if p.nullable then some 0 else none
    | some p' =>
      match p'.run s with
      | some n => some (n + 1)
      | none => if p.nullable then some 0 else none

/-! ### the length functions of the rules are the patterns -/

def codes (s : Str) : List Nat := s.map Char.toNat

/-- the rule and the pattern match alike -/
def Fits {τ : Type} (r : LexRule τ) (p : Pat) : Prop := p.nullable = false ∧ ∀ s : Str, r.len s = (p.run (codes s)).getD 0

theorem ble_decide (a b : Nat) : Nat.ble a b = decide (a ≤ b) := by
  rw [Bool.eq_iff_iff]; simp

theorem isDigit_code (c : Char) : isDigit c = digitN c.toNat := by
  simp only [isDigit, digitN, Char.le_def, UInt32.le_iff_toNat_le, Char.toNat, ble_decide]
  rfl

theorem beq_code (c d : Char) : (c == d) = Nat.beq c.toNat d.toNat := by
  by_cases h : c = d
  · subst h; simp
  · have : c.toNat ≠ d.toNat := fun h2 => h (Char.toNat_inj.1 h2)
    rw [beq_false_of_ne h]
    exact (Bool.eq_false_iff.2 fun h3 => this (Nat.eq_of_beq_eq_true h3)).symm

theorem eq_code (c d : Char) : c = d ↔ Nat.beq c.toNat d.toNat = true := by
  rw [← beq_code, beq_iff_eq]

theorem isNameStart_code (c : Char) : isNameStart c = startN c.toNat := by
  simp only [isNameStart, startN, beq_code, Char.le_def, UInt32.le_iff_toNat_le, Char.toNat, ble_decide]
  rfl

theorem isNameChar_code (c : Char) : isNameChar c = charN c.toNat := by
  simp only [isNameChar, charN, isNameStart_code, isDigit_code, beq_code]
  rfl

theorem lit_run : ∀ {k : List Nat} {s : List Nat}, (Pat.lit k).run s = if k.isPrefixOf s then some k.length else none := by
  intro k
  induction k with
  | nil => intro s; cases s <;> simp [Pat.run, Pat.step, Pat.nullable]
  | cons a k ih =>
    intro s
    cases s with
    | nil => simp [Pat.run, Pat.nullable]
    | cons c s =>
      rw [Pat.run]
      simp only [Pat.step]
      by_cases h : c = a
      · subst h
        simp only [Nat.beq_refl, if_true, ih, List.isPrefixOf, beq_self_eq_true, Bool.true_and, Pat.nullable]
        by_cases h2 : k.isPrefixOf s = true
        · simp [h2]
        · simp [h2]
      · have h1 : Nat.beq c a = false := Bool.eq_false_iff.2 fun h3 => h (Nat.eq_of_beq_eq_true h3)
        have h2 : (a == c) = false := beq_false_of_ne (Ne.symm h)
        simp [h1, h2, List.isPrefixOf, Pat.nullable]

theorem isPrefixOf_codes : ∀ {k s : Str}, (codes k).isPrefixOf (codes s) = k.isPrefixOf s := by
  intro k
  induction k with
  | nil => intro s; simp [codes]
  | cons a k ih =>
    intro s
    cases s with
    | nil => simp [codes]
    | cons c s =>
      have := ih (s := s)
      simp only [codes, List.map_cons, List.isPrefixOf] at *
      rw [this, beq_code, show (a.toNat == c.toNat) = Nat.beq a.toNat c.toNat from by rw [Bool.eq_iff_iff]; simp]

theorem lit_fits {τ : Type} {k : String} {t : τ} (h : k.toList ≠ []) : Fits (litRule k t) (.lit (codes k.toList)) := by
  refine ⟨?_, fun s => ?_⟩
  · cases hk : k.toList with
    | nil => exact absurd hk h
    | cons a l => simp [codes, Pat.nullable]
  · simp only [litRule, litLen, lit_run, isPrefixOf_codes]
    split <;> simp [codes]

theorem done_run {s : List Nat} : (Pat.lit []).run s = some 0 := by rw [lit_run]; simp

theorem blank_fits {τ : Type} {a : Str → LexAct τ} : Fits ⟨blankLen, a⟩ .blank := by
  refine ⟨rfl, fun s => ?_⟩
  cases s with
  | nil => rfl
  | cons c s =>
    simp only [blankLen, codes, List.map_cons, Pat.run, Pat.step, eq_code]
    have e1 : (' ' : Char).toNat = 32 := rfl
    have e2 : ('\t' : Char).toNat = 9 := rfl
    have e3 : ('\n' : Char).toNat = 10 := rfl
    rw [e1, e2, e3]
    by_cases h : (Nat.beq c.toNat 32 || Nat.beq c.toNat 9 || Nat.beq c.toNat 10) = true
    · rw [if_pos h, if_pos (by simpa [or_assoc] using h)]
      simp [done_run]
    · rw [if_neg h, if_neg (by simpa [or_assoc] using h)]
      simp [Pat.nullable]

theorem any_fits {τ : Type} {a : Str → LexAct τ} : Fits ⟨anyLen, a⟩ .any := by
  refine ⟨rfl, fun s => ?_⟩
  cases s with
  | nil => rfl
  | cons c s =>
    simp only [anyLen, codes, List.map_cons, Pat.run, Pat.step, eq_code]
    have e3 : ('\n' : Char).toNat = 10 := rfl
    rw [e3]
    split <;> simp [done_run, Pat.nullable]

theorem span_run {f : Char → Bool} {g : Nat → Bool} {p : Pat} (hg : ∀ c : Char, f c = g c.toNat) (hn : p.nullable = true)
    (hs : ∀ c, p.step c = if g c then some p else none) : ∀ s : Str, p.run (codes s) = some (spanLen f s) := by
  intro s
  induction s with
  | nil => simp [codes, Pat.run, hn, spanLen]
  | cons c s ih =>
    simp only [codes, List.map_cons, Pat.run, hs, spanLen, hg] at *
    by_cases h : g c.toNat = true
    · simp [h, ih]
    · simp [h, hn]

theorem digits_run (s : Str) : Pat.digits.run (codes s) = some (spanLen isDigit s) :=
  span_run (g := digitN) isDigit_code rfl (fun _ => rfl) s

theorem fltFrac_run (s : Str) : Pat.fltFrac.run (codes s) = some (spanLen isDigit s) :=
  span_run (g := digitN) isDigit_code rfl (fun _ => rfl) s

theorem nameTail_run (s : Str) : Pat.nameTail.run (codes s) = some (spanLen isNameChar s) :=
  span_run (g := charN) isNameChar_code rfl (fun _ => rfl) s

theorem name_fits {τ : Type} {a : Str → LexAct τ} : Fits ⟨nameLen, a⟩ .name := by
  refine ⟨rfl, fun s => ?_⟩
  cases s with
  | nil => rfl
  | cons c s =>
    have := nameTail_run s
    simp only [nameLen, codes, List.map_cons, Pat.run, Pat.step, isNameStart_code] at *
    by_cases h : startN c.toNat = true
    · simp [h, this]
    · simp [h, Pat.nullable]

theorem int_fits {τ : Type} {a : Str → LexAct τ} : Fits ⟨intLen, a⟩ .int := by
  refine ⟨rfl, fun s => ?_⟩
  cases s with
  | nil => rfl
  | cons c s =>
    have := digits_run s
    simp only [intLen, spanLen, codes, List.map_cons, Pat.run, Pat.step, isDigit_code] at *
    by_cases h : digitN c.toNat = true
    · simp [h, this]
    · simp [h, Pat.nullable]

theorem fltInt_run : ∀ s : Str, Pat.fltInt.run (codes s) =
    match s.drop (spanLen isDigit s) with
    | '.' :: rest => some (spanLen isDigit s + 1 + spanLen isDigit rest)
    | _ => none := by
  intro s
  induction s with
  | nil => rfl
  | cons c s ih =>
    simp only [codes, List.map_cons, Pat.run, Pat.step, spanLen, isDigit_code] at *
    by_cases h : digitN c.toNat = true
    · simp only [h, if_true, ih, List.drop_succ_cons]
      cases hd : s.drop (spanLen isDigit s) with
      | nil => simp [Pat.nullable]
      | cons d rest =>
        by_cases h46 : d = '.'
        · subst h46; simp; omega
        · simp [h46, Pat.nullable]
    · simp only [h]
      by_cases h46 : c = '.'
      · subst h46
        have := fltFrac_run s
        simp only [codes] at this
        have e : Nat.beq ('.' : Char).toNat 46 = true := rfl
        simp [this]; omega
      · have e : Nat.beq c.toNat 46 = false := by
          have := beq_code c '.'
          rw [beq_false_of_ne h46] at this
          exact this.symm
        simp [e, Pat.nullable, h46]

theorem flt_fits {τ : Type} {a : Str → LexAct τ} : Fits ⟨floatLen, a⟩ .flt := by
  refine ⟨rfl, fun s => ?_⟩
  cases s with
  | nil => rfl
  | cons c s =>
    have := fltInt_run s
    simp only [floatLen, codes, List.map_cons, Pat.run, Pat.step, spanLen, isDigit_code] at *
    by_cases h : digitN c.toNat = true
    · simp only [h, if_true, this, List.drop_succ_cons]
      cases hd : s.drop (spanLen isDigit s) with
      | nil => simp [Pat.nullable]
      | cons d rest =>
        by_cases h46 : d = '.'
        · subst h46; simp; omega
        · simp [h46, Pat.nullable]
    · simp [h, Pat.nullable]

theorem body_run {q : Char} : ∀ (n : Nat) (s : Str), s.length ≤ n → (Pat.body q.toNat).run (codes s) = bodyLen q s := by
  intro n
  induction n with
  | zero => intro s hs; cases s with | nil => rfl | cons c s => simp at hs
  | succ n ih =>
    intro s hs
    cases s with
    | nil => rfl
    | cons c s =>
      simp only [List.length_cons, Nat.add_le_add_iff_right] at hs
      rw [bodyLen.eq_def]
      simp only [codes, List.map_cons, Pat.run, Pat.step, eq_code]
      by_cases h1 : Nat.beq c.toNat q.toNat = true
      · have := done_run (s := List.map Char.toNat s)
        simp [h1, this]
      · by_cases h2 : Nat.beq c.toNat 92 = true
        · have e : ('\\' : Char).toNat = 92 := rfl
          simp only [h1, h2, e]
          cases s with
          | nil => simp [Pat.run, Pat.nullable]
          | cons d s =>
            have e3 : ('\n' : Char).toNat = 10 := rfl
            simp only [List.map_cons, Pat.run, Pat.step, e3]
            by_cases h3 : Nat.beq d.toNat 10 = true
            · simp [h3, Pat.nullable]
            · have := ih s (by simp only [List.length_cons] at hs; omega)
              simp only [codes] at this
              have h4 : d.toNat ≠ 10 := by simpa using h3
              cases hb : bodyLen q s <;> rw [hb] at this <;> simp [h4, this, Pat.nullable]
        · have e : ('\\' : Char).toNat = 92 := rfl
          have := ih s hs
          simp only [codes] at this
          simp only [h1, h2, e]
          cases hb : bodyLen q s <;> rw [hb] at this <;> simp [this, Pat.nullable]

theorem quote_fits {τ : Type} {a : Str → LexAct τ} {q : Char} : Fits ⟨quotedLen q, a⟩ (.quote q.toNat) := by
  refine ⟨rfl, fun s => ?_⟩
  cases s with
  | nil => rfl
  | cons c s =>
    have := body_run (q := q) s.length s (Nat.le_refl _)
    simp only [quotedLen, codes, List.map_cons, Pat.run, Pat.step, eq_code] at *
    by_cases h : Nat.beq c.toNat q.toNat = true
    · simp only [h, if_true, this]
      cases bodyLen q s <;> simp [Pat.nullable]
    · simp [h, Pat.nullable]

/-! ### the longest match of several patterns, the first among equals -/

/-- patterns with the numbers of their rules -/
abbrev Items := List (Nat × Pat)

/-- the first rule matched by what was read -/
def firstNull : Items → Option Nat
  | [] => none
  | (i, p) :: rest => if p.nullable then some i else firstNull rest

/-- read a byte -/
def stepItems : Items → Nat → Items
  | [], _ => []
  | (i, p) :: rest, c =>
    match p.step c with
    | none => stepItems rest c
    | some p' => (i, p') :: stepItems rest c

/-- the longest match and its rule, reading from left to right -/
def scanI : Items → List Nat → Option (Nat × Nat)
  | items, [] => (firstNull items).map fun i => (0, i)
  | items, c :: s =>
    match scanI (stepItems items c) s with
    | some (n, i) => some (n + 1, i)
    | none => (firstNull items).map fun i => (0, i)

/-- the longest match and its rule, pattern by pattern -/
def bestI (s : List Nat) : Items → Option (Nat × Nat)
  | [] => none
  | (i, p) :: rest =>
    match bestI s rest, p.run s with
    | b, none => b
    | none, some m => some (m, i)
    | some (n, j), some m => if n ≤ m then some (m, i) else some (n, j)

theorem bestI_nil : ∀ {items : Items}, bestI [] items = (firstNull items).map fun i => (0, i) := by
  intro items
  induction items with
  | nil => rfl
  | cons x rest ih =>
    obtain ⟨i, p⟩ := x
    simp only [bestI, firstNull, Pat.run, ih]
    by_cases h : p.nullable = true
    · simp only [h, if_true]
      cases firstNull rest <;> simp
    · simp only [h]
      simp

theorem bestI_cons {c : Nat} {s : List Nat} : ∀ {items : Items}, bestI (c :: s) items =
    match bestI s (stepItems items c) with
    | some (n, i) => some (n + 1, i)
    | none => (firstNull items).map fun i => (0, i) := by
  intro items
  induction items with
  | nil => rfl
  | cons x rest ih =>
    obtain ⟨i, p⟩ := x
    simp only [bestI, firstNull, Pat.run, ih, stepItems]
    cases hs : p.step c with
    | none =>
      dsimp only
      by_cases h : p.nullable = true
      · rw [if_pos h, if_pos h]
        cases hb : bestI s (stepItems rest c) with
        | none => cases hf : firstNull rest <;> simp
        | some b => simp
      · rw [if_neg h, if_neg h]
    | some p' =>
      dsimp only [bestI]
      cases hr : p'.run s with
      | none =>
        dsimp only
        by_cases h : p.nullable = true
        · rw [if_pos h, if_pos h]
          cases hb : bestI s (stepItems rest c) with
          | none => cases hf : firstNull rest <;> simp
          | some b => simp
        · rw [if_neg h, if_neg h]
      | some m =>
        dsimp only
        cases hb : bestI s (stepItems rest c) with
        | none => cases hf : firstNull rest <;> simp
        | some b =>
          obtain ⟨n, j⟩ := b
          by_cases h : n ≤ m <;> simp [h]

theorem scanI_best : ∀ {s : List Nat} {items : Items}, scanI items s = bestI s items := by
  intro s
  induction s with
  | nil => intro items; rw [bestI_nil, scanI]
  | cons c s ih => intro items; rw [bestI_cons, scanI, ih]

/-- number the patterns from `k` on -/
def numbered : Nat → List Pat → Items
  | _, [] => []
  | k, p :: ps => (k, p) :: numbered (k + 1) ps

theorem run_pos {p : Pat} (h : p.nullable = false) {s : List Nat} {n : Nat} (hr : p.run s = some n) : n ≠ 0 := by
  cases s with
  | nil => simp [Pat.run, h] at hr
  | cons c s =>
    simp only [Pat.run, h] at hr
    split at hr
    · cases hr
    · split at hr
      · cases hr; simp
      · cases hr

theorem lexBest_eq {τ : Type} {s : Str} : ∀ {rules : List (LexRule τ)} {pats : List Pat} {k : Nat}, List.Forall₂ Fits rules pats →
    (match bestI (codes s) (numbered k pats) with
    | none => lexBest s rules = none
    | some (n, j) => n ≠ 0 ∧ k ≤ j ∧ ∃ r, rules[j - k]? = some r ∧ lexBest s rules = some (n, r)) := by
  intro rules pats k h
  induction h generalizing k with
  | nil => rfl
  | @cons r p rules pats hp _ ih =>
    have ih := ih (k := k + 1)
    obtain ⟨h1, h2⟩ := hp
    have h2 := h2 s
    simp only [numbered, bestI, lexBest]
    cases hr : p.run (codes s) with
    | none =>
      rw [hr] at h2
      have h0 : r.len s = 0 := h2
      cases hb : bestI (codes s) (numbered (k + 1) pats) with
      | none =>
        rw [hb] at ih
        simp only at ih
        simp [ih, h0]
      | some b =>
        obtain ⟨n, j⟩ := b
        rw [hb] at ih
        obtain ⟨i1, i2, r', i3, i4⟩ := ih
        refine ⟨i1, by omega, r', ?_, ?_⟩
        · rw [show j - k = (j - (k + 1)) + 1 by omega, List.getElem?_cons_succ]; exact i3
        · simp [i4, h0]
    | some m =>
      rw [hr] at h2
      have h0 : r.len s = m := h2
      have hm := run_pos h1 hr
      cases hb : bestI (codes s) (numbered (k + 1) pats) with
      | none =>
        rw [hb] at ih
        simp only at ih
        refine ⟨hm, Nat.le_refl _, r, by simp, ?_⟩
        simp [ih, h0, hm]
      | some b =>
        obtain ⟨n, j⟩ := b
        rw [hb] at ih
        obtain ⟨i1, i2, r', i3, i4⟩ := ih
        by_cases hn : n ≤ m
        · simp only [hn, if_true]
          refine ⟨hm, Nat.le_refl _, r, by simp, ?_⟩
          simp [i4, h0, hm, hn]
        · simp only [hn, if_false]
          refine ⟨i1, by omega, r', ?_, ?_⟩
          · rw [show j - k = (j - (k + 1)) + 1 by omega, List.getElem?_cons_succ]; exact i3
          · simp [i4, h0, hn]

/-! ### what the tables must satisfy -/

/-- `reps d`: the patterns left in state `d` -/
structure FlexSpec (T : FlexTables) (pats : List Pat) (reps : Nat → Option Items) (eob jam : Nat) : Prop where
  start : reps 1 = some (numbered 0 pats)
  startBase : ∃ b, T.base[1]? = some b ∧ b ≠ T.jamBase
  base : ∀ {d items}, reps d = some items → ∃ b, T.base[d]? = some b
  trans : ∀ {d items b}, reps d = some items → T.base[d]? = some b → b ≠ T.jamBase → ∀ {c}, 0 < c → c < 256 →
    ∃ e, flexTrans T d c = .ok e ∧ reps e = some (stepItems items c)
  stuck : ∀ {d items}, reps d = some items → T.base[d]? = some T.jamBase → ∀ {c}, 0 < c → c < 256 → stepItems items c = []
  accept : ∀ {d items}, reps d = some items → T.accept[d]? = some (match firstNull items with | none => 0 | some i => i + 1)
  toEob : ∀ {d items b}, reps d = some items → T.base[d]? = some b → b ≠ T.jamBase → flexTrans T d 0 = .ok eob
  eobBase : ∃ b, T.base[eob]? = some b ∧ b ≠ T.jamBase
  eobAccept : T.accept[eob]? = some T.endOfBuffer
  eobNext : flexTrans T eob 0 = .ok jam
  jamBase : T.base[jam]? = some T.jamBase
  jamAccept : T.accept[jam]? = some 0
  first : ∀ {c}, 0 < c → c < 256 → firstNull (stepItems (numbered 0 pats) c) ≠ none
  rules : pats.length + 1 < T.endOfBuffer

/-- the action after backing up -/
def flexBack (T : FlexTables) : Option (Nat × Nat) → Except Fault (Nat × Nat)
  | none => .error .ub
  | some (d', p') =>
    match T.accept[d']? with
    | none => .error .ub
    | some 0 => .error .ub
    | some (a + 1) => .ok (a + 1, p')

/-- the action for the longest match -/
def flexOut (T : FlexTables) (items : Items) (s : List Nat) (p : Nat) (last : Option (Nat × Nat)) : Except Fault (Nat × Nat) :=
  match scanI items s with
  | some (n, i) => .ok (i + 1, p + n)
  | none => flexBack T last

theorem flexAction_eq {T : FlexTables} {d p : Nat} {items : Items} {last : Option (Nat × Nat)}
    (h : T.accept[d]? = some (match firstNull items with | none => 0 | some i => i + 1)) :
    flexAction T d p last = match firstNull items with | none => flexBack T last | some i => .ok (i + 1, p) := by
  unfold flexAction
  rw [h]
  cases firstNull items with
  | none => simp only [flexBack]; rfl
  | some i => rfl

theorem flexMark_eq {T : FlexTables} {d p : Nat} {items : Items} {last : Option (Nat × Nat)}
    (h : T.accept[d]? = some (match firstNull items with | none => 0 | some i => i + 1)) :
    flexMark T d p last = .ok (match firstNull items with | none => last | some _ => some (d, p)) := by
  unfold flexMark
  rw [h]
  cases firstNull items with
  | none => rfl
  | some i => rfl

theorem flexBack_mark {T : FlexTables} {d p : Nat} {items : Items} {last : Option (Nat × Nat)}
    (h : T.accept[d]? = some (match firstNull items with | none => 0 | some i => i + 1)) :
    flexBack T (match firstNull items with | none => last | some _ => some (d, p)) =
      match firstNull items with | none => flexBack T last | some i => .ok (i + 1, p) := by
  cases hf : firstNull items with
  | none => rfl
  | some i =>
    rw [hf] at h
    simp only [flexBack, h]

/-- a byte more -/
theorem flexOut_cons {T : FlexTables} {d p c : Nat} {items : Items} {s : List Nat} {last : Option (Nat × Nat)}
    (h : T.accept[d]? = some (match firstNull items with | none => 0 | some i => i + 1)) :
    flexOut T items (c :: s) p last =
      flexOut T (stepItems items c) s (p + 1) (match firstNull items with | none => last | some _ => some (d, p)) := by
  unfold flexOut
  rw [scanI]
  cases hs : scanI (stepItems items c) s with
  | some b => obtain ⟨n, i⟩ := b; simp only [Nat.add_assoc, Nat.add_comm 1 n]
  | none =>
    dsimp only
    rw [flexBack_mark h]
    cases firstNull items <;> simp

theorem scanI_stuck {items : Items} (h : ∀ {c}, 0 < c → c < 256 → stepItems items c = []) {s : List Nat} (hs : ∀ c ∈ s, 0 < c ∧ c < 256) :
    scanI items s = (firstNull items).map fun i => (0, i) := by
  cases s with
  | nil => rw [scanI]
  | cons c s =>
    obtain ⟨h1, h2⟩ := hs c (by simp)
    rw [scanI, h h1 h2]
    have : ∀ s, scanI [] s = none := by
      intro s
      induction s with
      | nil => rfl
      | cons c s ih => rw [scanI, stepItems, ih]; rfl
    rw [this]

/-- the loop: either it stops at the longest match, or it runs to the end of the text and the text is gone through again -/
theorem flexMatch_eq {T : FlexTables} {pats : List Pat} {reps : Nat → Option Items} {eob jam : Nat} (H : FlexSpec T pats reps eob jam) :
    ∀ {s : List Nat} {d : Nat} {items : Items} {b p : Nat} {last : Option (Nat × Nat)}, (∀ c ∈ s, 0 < c ∧ c < 256) → reps d = some items →
    T.base[d]? = some b → b ≠ T.jamBase → ∃ e p' last', flexMatch T d (s ++ [0, 0]) p last = .ok (e, p', last') ∧
      (flexAction T e p' last' = flexOut T items s p last ∧ s ≠ [] ∨
        e = jam ∧ p' = p + s.length + 2 ∧ last' = some (eob, p + s.length + 1) ∧
          ∀ last2, ∃ d' last3, flexPrevious T d s p last2 = .ok (d', last3) ∧
            flexAction T d' (p + s.length) last3 = flexOut T items s p last2) := by
  intro s
  induction s with
  | nil =>
    intro d items b p last _ hd hb hne
    obtain ⟨b', e1, e2⟩ := H.eobBase
    refine ⟨jam, p + 2, some (eob, p + 1), ?_, Or.inr ⟨rfl, rfl, rfl, ?_⟩⟩
    · have hm : flexMark T eob (p + 1) (match firstNull items with | none => last | some _ => some (d, p)) = .ok (some (eob, p + 1)) := by
        unfold flexMark
        rw [H.eobAccept]
        have := H.rules
        cases he : T.endOfBuffer with
        | zero => omega
        | succ n => rfl
      simp only [List.nil_append, flexMatch, flexMark_eq (H.accept hd), H.toEob hd hb hne, e1, e2, if_false, hm, H.eobNext, H.jamBase, if_true]
    · intro last2
      refine ⟨d, last2, rfl, ?_⟩
      rw [flexAction_eq (H.accept hd)]
      unfold flexOut
      rw [scanI]
      cases firstNull items <;> simp
  | cons c s ih =>
    intro d items b p last hs hd hb hne
    obtain ⟨c1, c2⟩ := hs c (by simp)
    have hs' : ∀ c ∈ s, 0 < c ∧ c < 256 := fun x hx => hs x (by simp [hx])
    obtain ⟨e, t1, t2⟩ := H.trans hd hb hne c1 c2
    obtain ⟨be, t3⟩ := H.base t2
    simp only [List.cons_append, flexMatch, flexMark_eq (H.accept hd), t1, t3]
    by_cases hj : be = T.jamBase
    · rw [if_pos hj]
      refine ⟨e, p + 1, _, rfl, Or.inl ⟨?_, by simp⟩⟩
      rw [flexOut_cons (H.accept hd), flexAction_eq (H.accept t2)]
      have := scanI_stuck (H.stuck t2 (hj ▸ t3)) hs'
      unfold flexOut
      rw [this]
      cases firstNull (stepItems items c) <;> simp
    · rw [if_neg hj]
      obtain ⟨e', p', last', k1, k2⟩ := ih (p := p + 1) (last := match firstNull items with | none => last | some _ => some (d, p)) hs' t2 t3 hj
      refine ⟨e', p', last', k1, ?_⟩
      rcases k2 with ⟨k2, _⟩ | ⟨k2, k3, k4, k5⟩
      · exact Or.inl ⟨by rw [k2, ← flexOut_cons (H.accept hd)], by simp⟩
      · refine Or.inr ⟨k2, by rw [k3]; simp only [List.length_cons]; omega, by rw [k4]; simp only [List.length_cons]; congr 2; omega, ?_⟩
        intro last2
        obtain ⟨d', last3, m1, m2⟩ := k5 (match firstNull items with | none => last2 | some _ => some (d, p))
        refine ⟨d', last3, ?_, ?_⟩
        · simp only [flexPrevious, flexMark_eq (H.accept hd), t1]
          exact m1
        · rw [show p + (c :: s).length = p + 1 + s.length by simp only [List.length_cons]; omega, m2, ← flexOut_cons (H.accept hd)]

theorem bestI_index {s : List Nat} : ∀ {items : Items} {n j : Nat}, bestI s items = some (n, j) → ∃ p, (j, p) ∈ items := by
  intro items
  induction items with
  | nil => intro n j h; cases h
  | cons x rest ih =>
    obtain ⟨i, p⟩ := x
    intro n j h
    simp only [bestI] at h
    split at h
    · obtain ⟨q, hq⟩ := ih h; exact ⟨q, by simp [hq]⟩
    · cases h; exact ⟨p, by simp⟩
    · rename_i n' j' m h1 h2
      split at h
      · cases h; exact ⟨p, by simp⟩
      · cases h; obtain ⟨q, hq⟩ := ih h1; exact ⟨q, by simp [hq]⟩

theorem numbered_index : ∀ {pats : List Pat} {k j : Nat} {p : Pat}, (j, p) ∈ numbered k pats → j < k + pats.length := by
  intro pats
  induction pats with
  | nil => intro k j p h; simp [numbered] at h
  | cons a pats ih =>
    intro k j p h
    simp only [numbered, List.mem_cons] at h
    rcases h with h | h
    · cases h; simp
    · have := ih h; simp only [List.length_cons]; omega

theorem flexToken_nil {T : FlexTables} {pats : List Pat} {reps : Nat → Option Items} {eob jam : Nat} (H : FlexSpec T pats reps eob jam) :
    flexToken T [] = .ok none := by
  obtain ⟨b, b1, b2⟩ := H.startBase
  obtain ⟨e, p', last', k1, k2⟩ := flexMatch_eq H (s := []) (p := 0) (last := none) (by simp) H.start b1 b2
  rcases k2 with ⟨_, k⟩ | ⟨k2, k3, k4, _⟩
  · exact absurd rfl k
  · have hr := H.rules
    subst k2 k4
    obtain ⟨n, hn⟩ : ∃ n, T.endOfBuffer = n + 1 := ⟨T.endOfBuffer - 1, by omega⟩
    have ha : flexAction T e p' (some (eob, 1)) = .ok (T.endOfBuffer, 1) := by
      unfold flexAction
      rw [H.jamAccept]
      simp only [H.eobAccept, hn]
    unfold flexToken
    simp only [k1, List.length_nil, Nat.zero_add] at *
    simp only [ha]
    simp

theorem flexToken_cons {T : FlexTables} {pats : List Pat} {reps : Nat → Option Items} {eob jam : Nat} (H : FlexSpec T pats reps eob jam)
    {c : Nat} {s : List Nat} (hs : ∀ x ∈ c :: s, 0 < x ∧ x < 256) :
    ∃ n j, bestI (c :: s) (numbered 0 pats) = some (n, j) ∧ flexToken T (c :: s) = .ok (some (j + 1, n)) := by
  obtain ⟨b, b1, b2⟩ := H.startBase
  obtain ⟨e, p', last', k1, k2⟩ := flexMatch_eq H (p := 0) (last := none) hs H.start b1 b2
  obtain ⟨c1, c2⟩ := hs c (by simp)
  have hsome : ∃ n j, scanI (numbered 0 pats) (c :: s) = some (n, j) := by
    have hf := H.first c1 c2
    rw [scanI]
    cases hi : firstNull (stepItems (numbered 0 pats) c) with
    | none => exact absurd hi hf
    | some i =>
      have : ∀ (s : List Nat) (items : Items), firstNull items = some i → ∃ n j, scanI items s = some (n, j) := by
        intro s items h
        cases s with
        | nil => exact ⟨0, i, by rw [scanI, h]; rfl⟩
        | cons c s =>
          rw [scanI]
          cases scanI (stepItems items c) s with
          | none => exact ⟨0, i, by rw [h]; rfl⟩
          | some b => obtain ⟨n, j⟩ := b; exact ⟨n + 1, j, rfl⟩
      obtain ⟨n, j, h⟩ := this s _ hi
      rw [h]; exact ⟨n + 1, j, rfl⟩
  obtain ⟨n, j, hnj⟩ := hsome
  refine ⟨n, j, by rw [← scanI_best, hnj], ?_⟩
  have hr := H.rules
  have hj : j + 1 ≠ T.endOfBuffer := by
    have h1 := hnj
    rw [scanI_best] at h1
    obtain ⟨p, hp⟩ := bestI_index h1
    have := numbered_index hp
    omega
  have hout : ∀ last, flexOut T (numbered 0 pats) (c :: s) 0 last = .ok (j + 1, n) := by
    intro last; unfold flexOut; rw [hnj]; simp
  unfold flexToken
  rw [k1]
  rcases k2 with ⟨k2, _⟩ | ⟨k2, k3, k4, k5⟩
  · rw [hout] at k2
    simp only [k2, hj, if_false]
  · obtain ⟨m, hn⟩ : ∃ m, T.endOfBuffer = m + 1 := ⟨T.endOfBuffer - 1, by omega⟩
    have ha : flexAction T e p' last' = .ok (T.endOfBuffer, s.length + 2) := by
      unfold flexAction
      rw [k2, k4, H.jamAccept]
      simp only [H.eobAccept, hn, List.length_cons]
      congr 2; omega
    obtain ⟨d', last3, m1, m2⟩ := k5 last'
    rw [hout] at m2
    simp only [Nat.zero_add] at m2
    simp only [ha, m1, m2, hj, if_false, if_true, List.length_cons] at *
    rw [if_neg (by omega), if_neg (by omega), if_neg (by omega)]

theorem flexGo_eq {τ : Type} {T : FlexTables} {pats : List Pat} {reps : Nat → Option Items} {eob jam : Nat}
    (H : FlexSpec T pats reps eob jam) {rules : List (LexRule τ)} (hr : List.Forall₂ Fits rules pats)
    {acts : List (Str → LexAct τ)} (ha : ∀ {i : Nat} {r : LexRule τ}, rules[i]? = some r → acts[i]? = some r.act) :
    ∀ {s : Str} {k : Nat}, (∀ c ∈ s, 0 < c.toNat ∧ c.toNat < 256) → flexGo T acts k s = .ok (lexGo rules k s) := by
  intro s
  induction s with
  | nil =>
    intro k _
    cases k <;> simp only [flexGo, flexToken_nil H, lexGo]
  | cons c s ih =>
    intro k hs
    have hs' : ∀ c ∈ s, 0 < c.toNat ∧ c.toNat < 256 := fun x hx => hs x (by simp [hx])
    cases k with
    | succ k => simp only [flexGo, lexGo]; exact ih hs'
    | zero =>
      have hc : ∀ x ∈ c.toNat :: s.map Char.toNat, 0 < x ∧ x < 256 := by
        intro x hx
        simp only [List.mem_cons, List.mem_map] at hx
        rcases hx with rfl | ⟨y, hy, rfl⟩
        · exact hs c (by simp)
        · exact hs' y hy
      obtain ⟨n, j, h1, h2⟩ := flexToken_cons H hc
      have h3 := lexBest_eq (s := c :: s) (k := 0) hr
      simp only [codes, List.map_cons, h1] at h3
      obtain ⟨i1, _, r, i3, i4⟩ := h3
      simp only [Nat.sub_zero] at i3
      simp only [flexGo, lexGo, List.map_cons, h2, i4, Nat.add_sub_cancel, ha i3, i1, if_false]
      cases r.act ((c :: s).take n) with
      | skip => exact ih hs'
      | emit t => simp only [ih hs']
      | stop => rfl

end BeTree
