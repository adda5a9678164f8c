import Verif.Lemmas.FlexReps
import Verif.Model.FlexLex
/-
The kernel's check of the transition tables against the patterns.
-/
namespace BeTree

/-- one state and one class of bytes with the byte `c`: the transition leads to the state with the patterns left after `c` -/
def okClass (T : FlexTables) (reps : List (Option Items)) (d k : Nat) (items : Items) (c : Nat) : Bool :=
  match flexNext T (T.defs.length + 1) d k with
  | .error _ => false
  | .ok e => decide (reps[e]? = some (some (stepItems items c)))

/-- all classes but 0, which is the end of the buffer -/
def okClasses (T : FlexTables) (reps : List (Option Items)) (d : Nat) (items : Items) : Nat → List Nat → Bool
  | _, [] => true
  | k, c :: cs => okClass T reps d k items c && okClasses T reps d items (k + 1) cs

/-- the bytes `c, c + 1, …` of the classes `ks` are not told from the bytes of their classes -/
def okBytes (bytes : List Nat) (items : Items) : Nat → List Nat → Bool
  | _, [] => true
  | c, k :: ks => (match bytes[k]? with | none => false | some r => decide (stepItems items c = stepItems items r)) && okBytes bytes items (c + 1) ks

/-- no pattern goes on -/
def okStuck (items : Items) : Nat → List Nat → Bool
  | _, [] => true
  | c, _ :: ks => decide (stepItems items c = []) && okStuck items (c + 1) ks

/-- a state -/
def okState (T : FlexTables) (reps : List (Option Items)) (bytes : List Nat) (eob d : Nat) (items : Items) : Bool :=
  decide (T.accept[d]? = some (match firstNull items with | none => 0 | some i => i + 1)) &&
  match T.base[d]? with
  | none => false
  | some b =>
    if b = T.jamBase then okStuck items 1 (T.ec.drop 1)
    else
      (match flexNext T (T.defs.length + 1) d 0 with | .ok e => Nat.beq e eob | .error _ => false) &&
        okClasses T reps d items 1 (bytes.drop 1) && okBytes bytes items 1 (T.ec.drop 1)

/-- all states from `d` on -/
def okStates (T : FlexTables) (reps : List (Option Items)) (bytes : List Nat) (eob : Nat) : Nat → List (Option Items) → Bool
  | _, [] => true
  | d, none :: rest => okStates T reps bytes eob (d + 1) rest
  | d, some items :: rest => okState T reps bytes eob d items && okStates T reps bytes eob (d + 1) rest

set_option maxRecDepth 100000 in
theorem zzStates : okStates zzFlex zzReps zzBytes 3 0 zzReps = true := by decide +kernel

set_option maxRecDepth 100000 in
theorem xxStates : okStates xxFlex xxReps xxBytes 3 0 xxReps = true := by decide +kernel

/-! ### from the check to the specification -/

theorem okClasses_get {T : FlexTables} {reps : List (Option Items)} {d : Nat} {items : Items} : ∀ {cs : List Nat} {k i c : Nat},
    okClasses T reps d items k cs = true → cs[i]? = some c → okClass T reps d (k + i) items c = true := by
  intro cs
  induction cs with
  | nil => intro k i c _ h; simp at h
  | cons a cs ih =>
    intro k i c h hi
    rw [okClasses, Bool.and_eq_true] at h
    cases i with
    | zero => simp at hi; subst hi; exact h.1
    | succ i =>
      have := ih h.2 (i := i) (by simpa using hi)
      rw [show k + (i + 1) = k + 1 + i by omega]; exact this

theorem okBytes_get {bytes : List Nat} {items : Items} : ∀ {ks : List Nat} {c i k : Nat}, okBytes bytes items c ks = true → ks[i]? = some k →
    ∃ r, bytes[k]? = some r ∧ stepItems items (c + i) = stepItems items r := by
  intro ks
  induction ks with
  | nil => intro c i k _ h; simp at h
  | cons a ks ih =>
    intro c i k h hi
    rw [okBytes, Bool.and_eq_true] at h
    cases i with
    | zero =>
      simp at hi; subst hi
      have h1 := h.1
      split at h1
      · cases h1
      · rename_i r hr; exact ⟨r, hr, of_decide_eq_true h1⟩
    | succ i =>
      have := ih h.2 (i := i) (by simpa using hi)
      rw [show c + (i + 1) = c + 1 + i by omega]; exact this

theorem okStuck_get {items : Items} : ∀ {ks : List Nat} {c i : Nat}, okStuck items c ks = true → i < ks.length → stepItems items (c + i) = [] := by
  intro ks
  induction ks with
  | nil => intro c i _ h; simp at h
  | cons a ks ih =>
    intro c i h hi
    rw [okStuck, Bool.and_eq_true] at h
    cases i with
    | zero => exact of_decide_eq_true h.1
    | succ i =>
      have := ih h.2 (i := i) (by simpa using hi)
      rw [show c + (i + 1) = c + 1 + i by omega]; exact this

theorem okStates_get {T : FlexTables} {reps : List (Option Items)} {bytes : List Nat} {eob : Nat} : ∀ {rs : List (Option Items)} {d i : Nat}
    {items : Items}, okStates T reps bytes eob d rs = true → rs[i]? = some (some items) → okState T reps bytes eob (d + i) items = true := by
  intro rs
  induction rs with
  | nil => intro d i items _ h; simp at h
  | cons a rs ih =>
    intro d i items h hi
    cases i with
    | zero =>
      simp at hi; subst hi
      rw [okStates, Bool.and_eq_true] at h
      exact h.1
    | succ i =>
      rw [show d + (i + 1) = d + 1 + i by omega]
      refine ih ?_ (by simpa using hi)
      cases a with
      | none => rw [okStates] at h; exact h
      | some x => rw [okStates, Bool.and_eq_true] at h; exact h.2

/-- the rest of the specification, each a look into the tables -/
structure FlexEnds (T : FlexTables) (pats : List Pat) (reps : List (Option Items)) (bytes : List Nat) (eob jam : Nat) : Prop where
  start : reps[1]? = some (some (numbered 0 pats))
  startBase : ∃ b, T.base[1]? = some b ∧ b ≠ T.jamBase
  ec : T.ec.length = 256
  zero : T.ec[0]? = some 0
  classes : ∀ k ∈ T.ec.drop 1, 0 < k
  eobBase : ∃ b, T.base[eob]? = some b ∧ b ≠ T.jamBase
  eobAccept : T.accept[eob]? = some T.endOfBuffer
  eobNext : flexTrans T eob 0 = .ok jam
  jamBase : T.base[jam]? = some T.jamBase
  jamAccept : T.accept[jam]? = some 0
  first : ∀ c < 256, 0 < c → firstNull (stepItems (numbered 0 pats) c) ≠ none
  rules : pats.length + 1 < T.endOfBuffer

theorem spec_of_check {T : FlexTables} {pats : List Pat} {reps : List (Option Items)} {bytes : List Nat} {eob jam : Nat}
    (h : okStates T reps bytes eob 0 reps = true) (E : FlexEnds T pats reps bytes eob jam) :
    FlexSpec T pats (fun d => (reps[d]?).join) eob jam := by
  have state : ∀ {d items}, (reps[d]?).join = some items → okState T reps bytes eob d items = true := by
    intro d items hd
    have := okStates_get h (i := d) (items := items) (by simpa [Option.join_eq_some_iff] using hd)
    simpa using this
  have cls : ∀ {c}, 0 < c → c < 256 → ∃ k, T.ec[c]? = some k ∧ (T.ec.drop 1)[c - 1]? = some k ∧ 0 < k := by
    intro c h1 h2
    obtain ⟨k, hk⟩ : ∃ k, T.ec[c]? = some k := ⟨T.ec[c]'(by rw [E.ec]; exact h2), List.getElem?_eq_getElem _⟩
    have hk' : (T.ec.drop 1)[c - 1]? = some k := by
      rw [List.getElem?_drop, show 1 + (c - 1) = c by omega]; exact hk
    exact ⟨k, hk, hk', E.classes k (List.mem_of_getElem? hk')⟩
  constructor
  case start => simp [E.start]
  case startBase => exact E.startBase
  case base =>
    intro d items hd
    have := state hd
    rw [okState, Bool.and_eq_true] at this
    have := this.2
    split at this
    · cases this
    · rename_i b hb; exact ⟨b, hb⟩
  case accept =>
    intro d items hd
    have := state hd
    rw [okState, Bool.and_eq_true] at this
    exact of_decide_eq_true this.1
  case trans =>
    intro d items b hd hb hne c h1 h2
    have := state hd
    rw [okState, Bool.and_eq_true] at this
    have := this.2
    rw [hb] at this
    simp only [hne, if_false, Bool.and_eq_true] at this
    obtain ⟨⟨_, t1⟩, t2⟩ := this
    obtain ⟨k, k1, k2, k3⟩ := cls h1 h2
    obtain ⟨r, r1, r2⟩ := okBytes_get t2 k2
    have hr : (bytes.drop 1)[k - 1]? = some r := by rw [List.getElem?_drop, show 1 + (k - 1) = k by omega]; exact r1
    have hc := okClasses_get t1 hr
    rw [show 1 + (k - 1) = k by omega, okClass] at hc
    split at hc
    · cases hc
    · rename_i e he
      refine ⟨e, ?_, ?_⟩
      · unfold flexTrans; rw [k1]; exact he
      · have := of_decide_eq_true hc
        rw [this, ← r2, show 1 + (c - 1) = c by omega]; rfl
  case stuck =>
    intro d items hd hb c h1 h2
    have := state hd
    rw [okState, Bool.and_eq_true] at this
    have := this.2
    rw [hb] at this
    simp only [if_true] at this
    have := okStuck_get this (i := c - 1) (by rw [List.length_drop, E.ec]; omega)
    rwa [show 1 + (c - 1) = c by omega] at this
  case toEob =>
    intro d items b hd hb hne
    have := state hd
    rw [okState, Bool.and_eq_true] at this
    have := this.2
    rw [hb] at this
    simp only [hne, if_false, Bool.and_eq_true] at this
    have := this.1.1
    unfold flexTrans
    rw [E.zero]
    split at this
    · rename_i e he
      have h3 : e = eob := Nat.eq_of_beq_eq_true this
      subst h3
      exact he
    · cases this
  case eobBase => exact E.eobBase
  case eobAccept => exact E.eobAccept
  case eobNext => exact E.eobNext
  case jamBase => exact E.jamBase
  case jamAccept => exact E.jamAccept
  case first => intro c h1 h2; exact E.first c h2 h1
  case rules => exact E.rules


set_option maxRecDepth 100000 in
theorem xxSpec : FlexSpec xxFlex xxPats (fun d => (xxReps[d]?).join) 3 174 :=
  spec_of_check xxStates
    { start := by rfl, startBase := ⟨0, by decide +kernel, by decide⟩, ec := by decide +kernel, zero := by decide +kernel,
      classes := by decide +kernel, eobBase := ⟨196, by decide +kernel, by decide⟩, eobAccept := by decide +kernel,
      eobNext := by rfl, jamBase := by decide +kernel, jamAccept := by decide +kernel, first := by decide +kernel,
      rules := by decide +kernel }

set_option maxRecDepth 100000 in
theorem zzSpec : FlexSpec zzFlex zzPats (fun d => (zzReps[d]?).join) 3 39 :=
  spec_of_check zzStates
    { start := by rfl, startBase := ⟨0, by decide +kernel, by decide⟩, ec := by decide +kernel, zero := by decide +kernel,
      classes := by decide +kernel, eobBase := ⟨53, by decide +kernel, by decide⟩, eobAccept := by decide +kernel,
      eobNext := by rfl, jamBase := by decide +kernel, jamAccept := by decide +kernel, first := by decide +kernel,
      rules := by decide +kernel }

theorem xxFits : List.Forall₂ Fits xxRules xxPats := by
  unfold xxRules xxPats
  repeat' apply List.Forall₂.cons
  all_goals first
    | exact List.Forall₂.nil
    | exact blank_fits
    | exact quote_fits
    | exact name_fits
    | exact int_fits
    | exact flt_fits
    | exact any_fits
    | exact lit_fits (by decide)

theorem zzFits : List.Forall₂ Fits zzRules zzPats := by
  unfold zzRules zzPats
  repeat' apply List.Forall₂.cons
  all_goals first
    | exact List.Forall₂.nil
    | exact blank_fits
    | exact quote_fits
    | exact int_fits
    | exact flt_fits
    | exact any_fits
    | exact lit_fits (by decide)

end BeTree
