import Verif.Model.Eval
import Verif.Spec.Sat
import Mathlib.Data.List.Perm.Subperm
/-
Helper lemmas about the loops of ast.c and special.c.
-/
set_option linter.unusedSectionVars false

namespace BeTree

/-- Strict linear order, for `Int` and `Nat`. -/
class LinLT (α : Type) [LT α] : Prop where
  irrefl : ∀ a : α, ¬ a < a
  trans : ∀ a b c : α, a < b → b < c → a < c
  tri : ∀ a b : α, a < b ∨ a = b ∨ b < a

instance : LinLT Int := ⟨by omega, by omega, by omega⟩
instance : LinLT Nat := ⟨by omega, by omega, by omega⟩

/-- ascending, repetitions allowed -/
def Ascending {α : Type} [LT α] (l : List α) : Prop := l.Pairwise (fun a b => ¬ b < a)
/-- ascending, no repetitions -/
def StrictAsc {α : Type} [LT α] (l : List α) : Prop := l.Pairwise (· < ·)

instance {α : Type} [LT α] [DecidableLT α] (l : List α) : Decidable (Ascending l) := by
  unfold Ascending; infer_instance
instance {α : Type} [LT α] [DecidableLT α] (l : List α) : Decidable (StrictAsc l) := by
  unfold StrictAsc; infer_instance

section
variable {α : Type} [LT α] [DecidableLT α] [DecidableEq α] [LinLT α]

theorem StrictAsc.ascending {l : List α} (h : StrictAsc l) : Ascending l :=
  List.Pairwise.imp (fun hab hba => LinLT.irrefl _ (LinLT.trans _ _ _ hab hba)) h

theorem ascending_get {l : List α} (h : Ascending l) {i j : Nat} (hi : i < l.length) (hj : j < l.length) (hij : i ≤ j) :
    ¬ l[j] < l[i] := by
  rcases Nat.lt_or_eq_of_le hij with h1 | h1
  · exact (List.pairwise_iff_getElem.1 h) i j hi hj h1
  · subst h1; exact LinLT.irrefl _

/-- `bsearchLoop` is correct on an ascending array, and does not need more fuel than given. -/
theorem bsearchLoop_spec {l : List α} (h : Ascending l) (x : α) :
    ∀ (fuel : Nat) (lo hi : Int), 0 ≤ lo → hi < l.length → hi - lo + 1 < fuel → lo ≤ hi + 1 →
      (∀ (i : Nat) (hi' : i < l.length), (i : Int) < lo → l[i] < x) →
      (∀ (i : Nat) (hi' : i < l.length), hi < (i : Int) → x < l[i]) →
      bsearchLoop l x fuel lo hi = .ok (decide (x ∈ l)) := by
  intro fuel
  induction fuel with
  | zero => intro lo hi h1 h2 h3; omega
  | succ n ih =>
    intro lo hi h1 h2 h3 h4 hlow hhigh
    unfold bsearchLoop
    by_cases hc : hi ≥ lo
    · rw [if_pos hc]
      have hm1 : lo ≤ lo + (hi - lo) / 2 := by omega
      have hm2 : lo + (hi - lo) / 2 ≤ hi := by omega
      generalize hmid : lo + (hi - lo) / 2 = m at *
      have hneg : ¬ m < 0 := by omega
      have hlt : m.toNat < l.length := by omega
      simp only [if_neg hneg, List.getElem?_eq_getElem hlt]
      by_cases he : l[m.toNat] = x
      · rw [if_pos he]
        have : x ∈ l := he ▸ List.getElem_mem hlt
        simp [this]
      · rw [if_neg he]
        by_cases hl : l[m.toNat] < x
        · rw [if_pos hl]
          refine ih _ _ (by omega) (by omega) (by omega) (by omega) ?_ ?_
          · intro i hi' hlt'
            have hle : i ≤ m.toNat := by omega
            rcases LinLT.tri l[i] l[m.toNat] with h5 | h5 | h5
            · exact LinLT.trans _ _ _ h5 hl
            · rw [h5]; exact hl
            · exact absurd h5 (ascending_get h hi' hlt hle)
          · exact hhigh
        · rw [if_neg hl]
          have hgt : x < l[m.toNat] := by
            rcases LinLT.tri l[m.toNat] x with h5 | h5 | h5
            · exact absurd h5 hl
            · exact absurd h5 he
            · exact h5
          refine ih _ _ (by omega) (by omega) (by omega) (by omega) ?_ ?_
          · exact hlow
          · intro i hi' hlt'
            have hle : m.toNat ≤ i := by omega
            rcases LinLT.tri l[m.toNat] l[i] with h5 | h5 | h5
            · exact LinLT.trans _ _ _ hgt h5
            · rw [← h5]; exact hgt
            · exact absurd h5 (ascending_get h hlt hi' hle)
    · rw [if_neg hc]
      have : x ∉ l := by
        intro hx
        obtain ⟨i, hi', he⟩ := List.getElem_of_mem hx
        by_cases h6 : (i : Int) < lo
        · have := hlow i hi' h6; rw [he] at this; exact LinLT.irrefl _ this
        · have := hhigh i hi' (by omega); rw [he] at this; exact LinLT.irrefl _ this
      simp [this]

theorem bsearch_spec {l : List α} (h : Ascending l) (x : α) : bsearch l x = .ok (decide (x ∈ l)) := by
  apply bsearchLoop_spec h x
  · omega
  · omega
  · omega
  · omega
  · intro i hi' h6; omega
  · intro i hi' h6; omega

/-- `Except`-wise: the binary search never faults whatever the array. -/
theorem scanAny_sound (xs ys : List α) : scanAny xs ys = true → ∃ z, z ∈ xs ∧ z ∈ ys := by
  induction xs generalizing ys with
  | nil => intro h; simp [scanAny] at h
  | cons x xs ih =>
    unfold scanAny
    induction ys with
    | nil => intro h; simp [scanStep] at h
    | cons y ys ihy =>
      intro h
      unfold scanStep at h
      split at h
      · rename_i e; exact ⟨x, by simp, by simp [e]⟩
      · split at h
        · obtain ⟨z, h1, h2⟩ := ihy h
          exact ⟨z, h1, List.mem_cons_of_mem _ h2⟩
        · obtain ⟨z, h1, h2⟩ := ih _ h
          exact ⟨z, List.mem_cons_of_mem _ h1, h2⟩

theorem scanAny_complete (xs ys : List α) (hx : Ascending xs) (hy : Ascending ys) :
    (∃ z, z ∈ xs ∧ z ∈ ys) → scanAny xs ys = true := by
  induction xs generalizing ys with
  | nil => rintro ⟨z, h, _⟩; simp at h
  | cons x xs ih =>
    unfold scanAny
    have hx1 := List.pairwise_cons.1 hx
    induction ys with
    | nil => rintro ⟨z, _, h⟩; simp at h
    | cons y ys ihy =>
      have hy1 := List.pairwise_cons.1 hy
      rintro ⟨z, h1, h2⟩
      unfold scanStep
      split
      · rfl
      · rename_i hne
        split
        · rename_i hlt
          apply ihy hy1.2
          refine ⟨z, h1, ?_⟩
          rcases List.mem_cons.1 h2 with h3 | h3
          · subst h3
            rcases List.mem_cons.1 h1 with h4 | h4
            · exact absurd h4.symm hne
            · exact absurd hlt (hx1.1 _ h4)
          · exact h3
        · rename_i hnlt
          apply ih _ hx1.2 hy
          refine ⟨z, ?_, h2⟩
          rcases List.mem_cons.1 h1 with h3 | h3
          · subst h3
            rcases List.mem_cons.1 h2 with h4 | h4
            · exact absurd h4 hne
            · exfalso
              rcases LinLT.tri y z with h5 | h5 | h5
              · exact hnlt h5
              · exact hne h5.symm
              · exact hy1.1 _ h4 h5
          · exact h3

theorem matchNotAllOf_spec (ys xs : List α) (hx : Ascending xs) (hy : Ascending ys) :
    matchNotAllOf ys xs = true ↔ ∃ z, z ∈ xs ∧ z ∈ ys := by
  unfold matchNotAllOf
  split
  · constructor
    · intro h; obtain ⟨z, h1, h2⟩ := scanAny_sound _ _ h; exact ⟨z, h2, h1⟩
    · rintro ⟨z, h1, h2⟩; exact scanAny_complete _ _ hy hx ⟨z, h2, h1⟩
  · exact ⟨scanAny_sound _ _, scanAny_complete _ _ hx hy⟩

/-- `scanAll` on an ascending event list: exact when the constants have no repetition. -/
theorem scanAll_spec (ys xs : List α) (hx : StrictAsc xs) (hy : StrictAsc ys) :
    scanAll ys xs = true ↔ ∀ z, z ∈ xs → z ∈ ys := by
  induction ys generalizing xs with
  | nil =>
    cases xs with
    | nil => simp [scanAll]
    | cons x xs =>
      simp only [scanAll, List.isEmpty_cons]
      constructor
      · intro h; cases h
      · intro h; have := h x (by simp); simp at this
  | cons y ys ih =>
    have hy1 := List.pairwise_cons.1 hy
    cases xs with
    | nil => simp [scanAll]
    | cons x xs =>
      have hx1 := List.pairwise_cons.1 hx
      unfold scanAll
      split
      · rename_i hlt
        rw [ih _ hx hy1.2]
        constructor
        · intro h z hz; exact List.mem_cons_of_mem _ (h z hz)
        · intro h z hz
          rcases List.mem_cons.1 (h z hz) with h3 | h3
          · subst h3
            exfalso
            rcases List.mem_cons.1 hz with h4 | h4
            · subst h4; exact LinLT.irrefl _ hlt
            · exact LinLT.irrefl _ (LinLT.trans _ _ _ hlt (hx1.1 _ h4))
          · exact h3
      · rename_i hnlt
        split
        · rename_i he
          subst he
          rw [ih _ hx1.2 hy1.2]
          constructor
          · intro h z hz
            rcases List.mem_cons.1 hz with h4 | h4
            · subst h4; simp
            · exact List.mem_cons_of_mem _ (h z h4)
          · intro h z hz
            rcases List.mem_cons.1 (h z (List.mem_cons_of_mem _ hz)) with h3 | h3
            · subst h3; exact absurd (hx1.1 _ hz) (LinLT.irrefl _)
            · exact h3
        · rename_i hne
          constructor
          · intro h; cases h
          · intro h
            exfalso
            rcases List.mem_cons.1 (h x (by simp)) with h3 | h3
            · exact hne h3
            · exact hnlt (hy1.1 _ h3)

theorem matchAllOf_spec (ys xs : List α) (hx : StrictAsc xs) (hy : StrictAsc ys) :
    matchAllOf ys xs = true ↔ ∀ z, z ∈ xs → z ∈ ys := by
  unfold matchAllOf
  split
  · exact scanAll_spec ys xs hx hy
  · rename_i hlen
    constructor
    · intro h; cases h
    · intro h
      exfalso
      apply hlen
      have hnd : xs.Nodup :=
        List.Pairwise.imp (fun {a b} (hab : a < b) (e : a = b) => LinLT.irrefl b (e ▸ hab)) hx
      exact (List.subperm_of_subset hnd h).length_le

/-- whatever the repetitions, `all of` never wrongly succeeds on ascending lists -/
theorem scanAll_sound (ys xs : List α) : scanAll ys xs = true → ∀ z, z ∈ xs → z ∈ ys := by
  induction ys generalizing xs with
  | nil =>
    intro h z hz
    cases xs with
    | nil => simp at hz
    | cons x xs => simp [scanAll] at h
  | cons y ys ih =>
    cases xs with
    | nil => intro _ z hz; simp at hz
    | cons x xs =>
      intro h z hz
      unfold scanAll at h
      split at h
      · exact List.mem_cons_of_mem _ (ih _ h z hz)
      · split at h
        · rename_i he
          rcases List.mem_cons.1 hz with h4 | h4
          · subst h4; simp [he]
          · exact List.mem_cons_of_mem _ (ih _ h z h4)
        · cases h

end

/-! ### strings -/

theorem strncmpEq_prefix (v p : Str) (_h : p.length ≤ v.length) :
    strncmpEq v p p.length = true ↔ p <+: v := by
  unfold strncmpEq
  rw [beq_iff_eq, List.take_length]
  constructor
  · intro h'; rw [← h']; exact List.take_prefix _ _
  · rintro ⟨t, rfl⟩; simp

theorem strncmpEq_prefix' (v p : Str) : strncmpEq v p p.length = true ↔ p <+: v := by
  unfold strncmpEq
  rw [beq_iff_eq, List.take_length]
  constructor
  · intro h'; rw [← h']; exact List.take_prefix _ _
  · rintro ⟨t, rfl⟩; simp

theorem strContains_spec (p v : Str) : strContains p v = true ↔ p <:+: v := by
  induction v with
  | nil => simp [strContains, List.isEmpty_iff]
  | cons c cs ih =>
    unfold strContains
    rw [Bool.or_eq_true, strncmpEq_prefix', ih, List.infix_cons_iff]

theorem strStartsWith_spec (v p : Str) : strStartsWith v p = true ↔ p <+: v := by
  unfold strStartsWith
  split
  · rename_i h
    constructor
    · intro h'; cases h'
    · intro h'; have := h'.length_le; omega
  · exact strncmpEq_prefix' v p

theorem strEndsWith_spec (v p : Str) : strEndsWith v p = true ↔ p <:+ v := by
  unfold strEndsWith
  split
  · rename_i h
    constructor
    · intro h'; cases h'
    · intro h'; have := h'.length_le; omega
  · rename_i h
    rw [strncmpEq_prefix']
    constructor
    · intro h'
      have : p = v.drop (v.length - p.length) := by
        apply h'.eq_of_length
        simp only [List.length_drop]; omega
      rw [this]; exact List.drop_suffix _ _
    · rintro ⟨t, rfl⟩
      simp

/-! ### segments, frequency caps -/

theorem segmentWithin_spec (id secs now : Int) (segs : List Segment)
    (h : (segs.map Segment.id).Pairwise (· ≤ ·)) :
    segmentWithin id secs now segs = true ↔ Spec.segHolds .within id secs now segs := by
  unfold Spec.segHolds
  induction segs with
  | nil => simp [segmentWithin]
  | cons s ss ih =>
    simp only [List.map_cons, List.pairwise_cons] at h
    unfold segmentWithin
    by_cases h1 : s.id < id
    · rw [if_pos h1, ih h.2, List.find?_cons]
      have : decide (s.id = id) = false := by simp; omega
      rw [this]
    · rw [if_neg h1]
      by_cases h2 : s.id = id
      · rw [if_pos h2, List.find?_cons]
        simp only [h2, decide_true, decide_eq_true_eq]
        omega
      · rw [if_neg h2]
        have : List.find? (fun s => decide (s.id = id)) (s :: ss) = none := by
          rw [List.find?_eq_none]
          intro x hx
          rcases List.mem_cons.1 hx with h3 | h3
          · subst h3; simpa using h2
          · have := h.1 x.id (List.mem_map_of_mem h3)
            simp; omega
        rw [this]; simp

theorem segmentBefore_spec (id secs now : Int) (segs : List Segment)
    (h : (segs.map Segment.id).Pairwise (· ≤ ·)) :
    segmentBefore id secs now segs = true ↔ Spec.segHolds .before id secs now segs := by
  unfold Spec.segHolds
  induction segs with
  | nil => simp [segmentBefore]
  | cons s ss ih =>
    simp only [List.map_cons, List.pairwise_cons] at h
    unfold segmentBefore
    by_cases h1 : s.id < id
    · rw [if_pos h1, ih h.2, List.find?_cons]
      have : decide (s.id = id) = false := by simp; omega
      rw [this]
    · rw [if_neg h1]
      by_cases h2 : s.id = id
      · rw [if_pos h2, List.find?_cons]
        simp only [h2, decide_true, decide_eq_true_eq]
        omega
      · rw [if_neg h2]
        have : List.find? (fun s => decide (s.id = id)) (s :: ss) = none := by
          rw [List.find?_eq_none]
          intro x hx
          rcases List.mem_cons.1 hx with h3 | h3
          · subst h3; simpa using h2
          · have := h.1 x.id (List.mem_map_of_mem h3)
            simp; omega
        rw [this]; simp

theorem toI64_of_lt {n : Nat} (h : n < 2 ^ 63) : toI64 n = n := by unfold toI64; omega
theorem toU32_of_lt {i : Int} (h0 : 0 ≤ i) (h : i < 2 ^ 32) : (toU32 i : Int) = i := by unfold toU32; omega
theorem toI32_of_lt {i : Int} (h0 : -(2 ^ 31) ≤ i) (h : i < 2 ^ 31) : toI32 i = i := by unfold toI32; omega

/-- frequency caps on namespace ids -/
theorem withinFrequencyCaps_eq (type : FreqType) (id : Nat) (ns : StrVal) (value : Nat) (length : Nat) (now : Int)
    (hlen : length < 2 ^ 63) (caps : List FreqCap) :
    withinFrequencyCaps type id ns value length now caps = true ↔
      match caps.find? (fun c => decide (c.type = type ∧ c.id = id ∧ c.ns.str = ns.str)) with
      | none => True
      | some c => c.value < value ∨
          (0 < length ∧ (c.timestampDefined = false ∨ now - c.timestamp.tdiv 1000000 > length)) := by
  induction caps with
  | nil => simp [withinFrequencyCaps]
  | cons c cs ih =>
    unfold withinFrequencyCaps
    rw [toI64_of_lt hlen, List.find?_cons]
    by_cases hm : c.id = id ∧ c.ns.str = ns.str ∧ c.type = type
    · rw [if_pos hm]
      have : decide (c.type = type ∧ c.id = id ∧ c.ns.str = ns.str) = true := by
        simp [hm]
      rw [this]
      by_cases hl : length = 0
      · simp [hl]
      · rw [if_neg hl]
        have hl' : 0 < length := by omega
        cases htd : c.timestampDefined
        · simp [hl', htd]
        · simp only [Bool.not_true, hl', true_and]
          by_cases h1 : now - c.timestamp.tdiv 1000000 > length
          · simp [h1]
          · by_cases h2 : value > c.value
            · simp [h1, h2]
            · simp [h1, h2, htd]
    · rw [if_neg hm, ih]
      have : decide (c.type = type ∧ c.id = id ∧ c.ns.str = ns.str) = false := by
        simp only [decide_eq_false_iff_not]
        rintro ⟨a, b, d⟩; exact hm ⟨b, d, a⟩
      rw [this]

end BeTree
