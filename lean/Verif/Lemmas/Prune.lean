import Verif.Lemmas.Bound
import Verif.Props.Split
import Verif.Spec.Contents
import Mathlib.Tactic.Linarith
/-
Pruning: a subtree that the search skips holds no expression that is true on the event.
-/
namespace BeTree
open Spec

variable [Floats]

/-! ### domains -/

/-- a domain as declarations and widening produce it -/
def BoundOK (b : Bound) : Prop :=
  match b.ty with
  | .bool => b.lo = .b false ∧ b.hi = .b true
  | .int | .intList => ∃ lo hi, b.lo = .i lo ∧ b.hi = .i hi ∧ lo ≤ hi
  | .float => ∃ lo hi, b.lo = .f lo ∧ b.hi = .f hi ∧ lo ≤ hi ∧ (NotLow (.f lo) → Floats.limit lo) ∧ (NotHigh (.f hi) → Floats.limit hi)
  | .string | .strList | .intEnum => ∃ hi, b.lo = .s 0 ∧ b.hi = .s hi ∧ hi < sizeMax
  | .segments | .freq => b.lo = .s 0 ∧ b.hi = .s 0

omit [Floats] in
theorem fne_iff {a b : Rat} : fne a b = true ↔ ¬ closeTo a b := by
  simp [fne, feq, closeTo]

theorem BoundOK.le {b : Bound} (h : BoundOK b) : b.lo.le b.hi = true := by
  obtain ⟨ty, lo, hi⟩ := b
  cases ty <;> simp only [BoundOK] at h
  · obtain ⟨rfl, rfl⟩ := h; rfl
  · obtain ⟨a, c, rfl, rfl, h⟩ := h; simpa [Scalar.le] using h
  · obtain ⟨a, c, rfl, rfl, h, -⟩ := h; simpa [Scalar.le] using h
  · obtain ⟨c, rfl, rfl, h⟩ := h; simp [Scalar.le]
  · obtain ⟨a, c, rfl, rfl, h⟩ := h; simpa [Scalar.le] using h
  · obtain ⟨c, rfl, rfl, h⟩ := h; simp [Scalar.le]
  · obtain ⟨rfl, rfl⟩ := h; rfl
  · obtain ⟨rfl, rfl⟩ := h; rfl
  · obtain ⟨c, rfl, rfl, h⟩ := h; simp [Scalar.le]

theorem BoundOK.kind {b : Bound} (h : BoundOK b) : b.lo.kind = b.ty.kind ∧ b.hi.kind = b.ty.kind := by
  obtain ⟨ty, lo, hi⟩ := b
  cases ty <;> simp only [BoundOK] at h
  · obtain ⟨rfl, rfl⟩ := h; exact ⟨rfl, rfl⟩
  · obtain ⟨a, c, rfl, rfl, h⟩ := h; exact ⟨rfl, rfl⟩
  · obtain ⟨a, c, rfl, rfl, h⟩ := h; exact ⟨rfl, rfl⟩
  · obtain ⟨c, rfl, rfl, h⟩ := h; exact ⟨rfl, rfl⟩
  · obtain ⟨a, c, rfl, rfl, h⟩ := h; exact ⟨rfl, rfl⟩
  · obtain ⟨c, rfl, rfl, h⟩ := h; exact ⟨rfl, rfl⟩
  · obtain ⟨rfl, rfl⟩ := h; exact ⟨rfl, rfl⟩
  · obtain ⟨rfl, rfl⟩ := h; exact ⟨rfl, rfl⟩
  · obtain ⟨c, rfl, rfl, h⟩ := h; exact ⟨rfl, rfl⟩

/-- a domain the tree partitions on has limits -/
theorem splitable_limited {b : Bound} (hok : BoundOK b) (h : splitable b = .ok true) : Limited b := by
  obtain ⟨ty, lo, hi⟩ := b
  cases ty <;> simp only [BoundOK] at hok
  · obtain ⟨rfl, rfl⟩ := hok; exact ⟨by simp, by simp, trivial, trivial⟩
  · obtain ⟨a, c, rfl, rfl, _⟩ := hok
    simp only [splitable] at h
    split at h
    · cases h
    · rename_i hn; rw [not_or] at hn; exact ⟨by simp, by simp, hn.1, hn.2⟩
  · obtain ⟨a, c, rfl, rfl, _⟩ := hok
    simp only [splitable] at h
    split at h
    · cases h
    · rename_i hn
      simp only [Bool.or_eq_true, not_or, Bool.not_eq_true] at hn
      exact ⟨by simp, by simp, fne_iff.1 (by simp [fne, hn.1]), fne_iff.1 (by simp [fne, hn.2])⟩
  · obtain ⟨c, rfl, rfl, hc⟩ := hok
    simp only [splitable] at h
    split at h
    · cases h
    · simp only [Except.ok.injEq, decide_eq_true_eq] at h
      refine ⟨by simp, by simp, trivial, ?_⟩
      simp only [NotHigh, sizeMax, maxDomainForSplit] at *
      omega
  · obtain ⟨a, c, rfl, rfl, _⟩ := hok
    simp only [splitable] at h
    split at h
    · cases h
    · rename_i hn; rw [not_or] at hn; exact ⟨by simp, by simp, hn.1, hn.2⟩
  · obtain ⟨c, rfl, rfl, hc⟩ := hok
    simp only [splitable] at h
    split at h
    · cases h
    · simp only [Except.ok.injEq, decide_eq_true_eq] at h
      refine ⟨by simp, by simp, trivial, ?_⟩
      simp only [NotHigh, sizeMax, maxDomainForSplit] at *
      omega
  · simp [splitable] at h
  · simp [splitable] at h
  · obtain ⟨c, rfl, rfl, hc⟩ := hok
    simp only [splitable] at h
    split at h
    · cases h
    · simp only [Except.ok.injEq, decide_eq_true_eq] at h
      refine ⟨by simp, by simp, trivial, ?_⟩
      simp only [NotHigh, sizeMax, maxDomainForSplit] at *
      omega

/-- domain number `v` is well-formed -/
structure DomAt (cfg : Config) (v : Nat) (d : Domain) : Prop where
  get : cfg.domains[v]? = some d
  var : d.attr.var = v
  float : d.bound.ty = .float → Floats.attr d.attr.attr
  ok : BoundOK d.bound

/-- a domain of a later configuration: limits only widen -/
structure DomWider (d d' : Domain) : Prop where
  attr : d'.attr = d.attr
  ty : d'.bound.ty = d.bound.ty
  undef : d'.allowUndefined = d.allowUndefined
  ok : BoundOK d.bound → BoundOK d'.bound
  lim : BoundOK d.bound → Limited d.bound → Limited d'.bound ∧ d'.bound.lo.le d.bound.lo = true ∧ d.bound.hi.le d'.bound.hi = true

def Wider (cfg cfg' : Config) : Prop :=
  ∀ (v : Nat) (d : Domain), cfg.domains[v]? = some d → ∃ d', cfg'.domains[v]? = some d' ∧ DomWider d d'

theorem DomWider.refl (d : Domain) : DomWider d d :=
  ⟨rfl, rfl, rfl, id, fun _ h => ⟨h, Scalar.le_refl _, Scalar.le_refl _⟩⟩

theorem DomWider.trans {a b c : Domain} (h : DomWider a b) (k : DomWider b c) : DomWider a c := by
  refine ⟨k.attr.trans h.attr, k.ty.trans h.ty, k.undef.trans h.undef, fun o => k.ok (h.ok o), fun o l => ?_⟩
  obtain ⟨l1, h1, h2⟩ := h.lim o l
  obtain ⟨l2, h3, h4⟩ := k.lim (h.ok o) l1
  exact ⟨l2, Scalar.le_trans h3 h1, Scalar.le_trans h2 h4⟩

theorem Wider.refl (cfg : Config) : Wider cfg cfg := fun _ d h => ⟨d, h, DomWider.refl d⟩
theorem Wider.of_eq {a b : Config} (h : b.domains = a.domains) : Wider a b := by
  intro v d hd; exact ⟨d, by rw [h]; exact hd, DomWider.refl d⟩
theorem Wider.trans {a b c : Config} (h : Wider a b) (k : Wider b c) : Wider a c := by
  intro v d hd
  obtain ⟨d1, h1, h2⟩ := h v d hd
  obtain ⟨d2, h3, h4⟩ := k v d1 h1
  exact ⟨d2, h3, h2.trans h4⟩

/-! ### the interval of a cdir -/

/-- for kinds whose lower end is compared even when open -/
def Scalar.Bottom : Scalar → Prop
  | .b x => x = false
  | .s x => x = 0
  | _ => True

/-- for kinds whose upper end is compared even when open -/
def Scalar.Top : Scalar → Prop
  | .b x => x = true
  | _ => True

/-- a range of floats can be halved to the end -/
def Bound.Halved (b : Bound) : Prop := ∀ x y, b.lo = .f x → b.hi = .f y → Halves x y

/-- the interval of a cdir on variable `v`: inside the domain, and strictly inside on the sides that are not open -/
structure BInv (cfg : Config) (v : Nat) (b : Bound) (ol or : Bool) (d : Domain) : Prop where
  dom : DomAt cfg v d
  lim : Limited d.bound
  ty : b.ty = d.bound.ty
  dlo : d.bound.lo.le b.lo = true
  lohi : b.lo.le b.hi = true
  dhi : b.hi.le d.bound.hi = true
  left : ol = false → b.lo.le d.bound.lo = false
  right : or = false → d.bound.hi.le b.hi = false
  bottom : ol = true → b.lo.Bottom
  top : or = true → b.hi.Top
  halved : b.Halved

theorem BInv.wider {cfg cfg' : Config} (hw : Wider cfg cfg') {v : Nat} {b : Bound} {ol or : Bool} {d : Domain}
    (h : BInv cfg v b ol or d) : ∃ d', BInv cfg' v b ol or d' := by
  obtain ⟨d', h1, h2⟩ := hw v d h.dom.get
  obtain ⟨l1, l2, l3⟩ := h2.lim h.dom.ok h.lim
  refine ⟨d', ⟨h1, by rw [h2.attr]; exact h.dom.var, by rw [h2.attr, h2.ty]; exact h.dom.float, h2.ok h.dom.ok⟩, l1, h.ty.trans h2.ty.symm, Scalar.le_trans l2 h.dlo,
    h.lohi, Scalar.le_trans h.dhi l3, ?_, ?_, h.bottom, h.top, h.halved⟩
  · intro ho
    cases hle : b.lo.le d'.bound.lo with
    | false => rfl
    | true => have := h.left ho; rw [Scalar.le_trans hle l2] at this; cases this
  · intro ho
    cases hle : d'.bound.hi.le b.hi with
    | false => rfl
    | true => have := h.right ho; rw [Scalar.le_trans l3 hle] at this; cases this

theorem BoundOK.halved {b : Bound} (h : BoundOK b) (hl : Limited b) : b.Halved := by
  obtain ⟨ty, lo, hi⟩ := b
  rintro x y rfl rfl
  cases ty <;> simp [BoundOK] at h
  exact Floats.halves _ _ (h.2.1 hl.low) (h.2.2 hl.high) h.1

/-- the interval of a whole domain -/
theorem BInv.root {cfg : Config} {v : Nat} {d : Domain} (hd : DomAt cfg v d) (hl : Limited d.bound) :
    BInv cfg v d.bound true true d := by
  refine ⟨hd, hl, rfl, Scalar.le_refl _, hd.ok.le, Scalar.le_refl _, by simp, by simp, fun _ => ?_, fun _ => ?_, hd.ok.halved hl⟩
  · have := hd.ok
    revert this
    obtain ⟨a, ⟨ty, lo, hi⟩, u⟩ := d
    cases ty <;> simp only [BoundOK]
    · rintro ⟨rfl, rfl⟩; rfl
    · rintro ⟨a, c, rfl, rfl, h⟩; trivial
    · rintro ⟨a, c, rfl, rfl, h⟩; trivial
    · rintro ⟨c, rfl, rfl, h⟩; rfl
    · rintro ⟨a, c, rfl, rfl, h⟩; trivial
    · rintro ⟨c, rfl, rfl, h⟩; rfl
    · rintro ⟨rfl, rfl⟩; rfl
    · rintro ⟨rfl, rfl⟩; rfl
    · rintro ⟨c, rfl, rfl, h⟩; rfl
  · have := hd.ok
    revert this
    obtain ⟨a, ⟨ty, lo, hi⟩, u⟩ := d
    cases ty <;> simp only [BoundOK]
    · rintro ⟨rfl, rfl⟩; rfl
    · rintro ⟨a, c, rfl, rfl, h⟩; trivial
    · rintro ⟨a, c, rfl, rfl, h⟩; trivial
    · rintro ⟨c, rfl, rfl, h⟩; trivial
    · rintro ⟨a, c, rfl, rfl, h⟩; trivial
    · rintro ⟨c, rfl, rfl, h⟩; trivial
    · rintro ⟨rfl, rfl⟩; trivial
    · rintro ⟨rfl, rfl⟩; trivial
    · rintro ⟨c, rfl, rfl, h⟩; trivial

omit [Floats] in
theorem rat_neg_le_abs (x : Rat) : -x ≤ x.abs := by
  rcases Rat.le_total (a := 0) (b := x) with h | h
  · rw [Rat.abs_of_nonneg h]; linarith
  · rw [Rat.abs_of_nonpos h]

omit [Floats] in
theorem splitBound_int {ty : VType} (h1 : ty ≠ .segments) (h2 : ty ≠ .freq) (lo hi : Int) :
    splitBound { ty := ty, lo := .i lo, hi := .i hi } =
      match intDiff lo hi with
      | .error e => .error e
      | .ok n =>
        if n > 2 then
          .ok ({ ty := ty, lo := .i lo, hi := .i (lo + (hi - lo).tdiv 2) }, { ty := ty, lo := .i (lo + (hi - lo).tdiv 2), hi := .i hi })
        else if n = 2 then .ok ({ ty := ty, lo := .i lo, hi := .i (lo + 1) }, { ty := ty, lo := .i (lo + 1), hi := .i hi })
        else if n = 1 then .ok ({ ty := ty, lo := .i lo, hi := .i lo }, { ty := ty, lo := .i hi, hi := .i hi })
        else .error .abort := by
  cases ty <;> first | rfl | (exact absurd rfl h1) | (exact absurd rfl h2)

omit [Floats] in
theorem splitBound_float {ty : VType} (h1 : ty ≠ .segments) (h2 : ty ≠ .freq) (lo hi : Rat) :
    splitBound { ty := ty, lo := .f lo, hi := .f hi } =
      match cut lo hi with
      | some (m, n) => .ok ({ ty := ty, lo := .f lo, hi := .f m }, { ty := ty, lo := .f n, hi := .f hi })
      | none => .error .abort := by
  have e : splitBound { ty := ty, lo := .f lo, hi := .f hi } =
      if (rnd (hi - lo)).abs > 2 then
        .ok ({ ty := ty, lo := .f lo, hi := .f (rnd (lo + (rnd (rnd (hi - lo) / 2)).ceil)) },
          { ty := ty, lo := .f (rnd (lo + (rnd (rnd (hi - lo) / 2)).ceil)), hi := .f hi })
      else if feq (rnd (hi - lo)).abs 2 then
        .ok ({ ty := ty, lo := .f lo, hi := .f (rnd (lo + 1)) }, { ty := ty, lo := .f (rnd (lo + 1)), hi := .f hi })
      else if feq (rnd (hi - lo)).abs 1 then .ok ({ ty := ty, lo := .f lo, hi := .f lo }, { ty := ty, lo := .f hi, hi := .f hi })
      else .error .abort := by
    cases ty <;> first | rfl | (exact absurd rfl h1) | (exact absurd rfl h2)
  rw [e]
  unfold cut
  simp only [feq, decide_eq_true_eq, gt_iff_lt]
  split
  · rfl
  · split
    · rfl
    · split <;> rfl

omit [Floats] in
theorem splitBound_bool {ty : VType} (h1 : ty ≠ .segments) (h2 : ty ≠ .freq) (lo hi : Bool) :
    splitBound { ty := ty, lo := .b lo, hi := .b hi } =
      if lo ≠ hi then .ok ({ ty := ty, lo := .b lo, hi := .b lo }, { ty := ty, lo := .b hi, hi := .b hi }) else .error .abort := by
  cases ty <;> first | rfl | (exact absurd rfl h1) | (exact absurd rfl h2)

omit [Floats] in
theorem splitBound_size {ty : VType} (h1 : ty ≠ .segments) (h2 : ty ≠ .freq) (lo hi : Nat) :
    splitBound { ty := ty, lo := .s lo, hi := .s hi } =
      (let n := (hi + (2 ^ 64 - lo % 2 ^ 64)) % 2 ^ 64
      if n > 2 then .ok ({ ty := ty, lo := .s lo, hi := .s (lo + n / 2) }, { ty := ty, lo := .s (lo + n / 2), hi := .s hi })
      else if n = 2 then .ok ({ ty := ty, lo := .s lo, hi := .s (lo + 1) }, { ty := ty, lo := .s (lo + 1), hi := .s hi })
      else if n = 1 then .ok ({ ty := ty, lo := .s lo, hi := .s lo }, { ty := ty, lo := .s hi, hi := .s hi })
      else .error .abort) := by
  cases ty <;> first | rfl | (exact absurd rfl h1) | (exact absurd rfl h2)

omit [Floats] in
/-- splitting: each half keeps one end and has a new, inner other end -/
theorem split_shape {b bl br : Bound} (hle : b.lo.le b.hi = true) (hsz : ∀ n, b.hi = .s n → n < 2 ^ 64) (hfl : b.Halved)
    (h : splitBound b = .ok (bl, br)) :
    bl.ty = b.ty ∧ br.ty = b.ty ∧ bl.lo = b.lo ∧ br.hi = b.hi ∧ bl.lo.le bl.hi = true ∧ br.lo.le br.hi = true ∧
      b.hi.le bl.hi = false ∧ br.lo.le b.lo = false ∧ b.lo.le br.lo = true ∧ bl.hi.le b.hi = true := by
  obtain ⟨ty, lo, hi⟩ := b
  have h1 : ty ≠ .segments := by rintro rfl; simp [splitBound] at h
  have h2 : ty ≠ .freq := by rintro rfl; simp [splitBound] at h
  dsimp only at hle hsz ⊢
  cases lo <;> cases hi <;> simp only [Scalar.le, Bool.false_eq_true] at hle
  · rename_i x y
    rw [splitBound_bool h1 h2] at h
    cases x <;> cases y <;> simp at hle h
    obtain ⟨rfl, rfl⟩ := h
    simp [Scalar.le]
  · rename_i x y
    rw [splitBound_int h1 h2] at h
    simp only [decide_eq_true_eq] at hle
    split at h
    · cases h
    · rename_i n hn
      have hn' : (n : Int) = y - x := by
        unfold intDiff checkedInt at hn
        split at hn
        · cases hn
        · rename_i z hz
          split at hz <;> cases hz
          split at hn <;> cases hn
          omega
      split at h
      · simp only [Except.ok.injEq, Prod.mk.injEq] at h
        obtain ⟨rfl, rfl⟩ := h
        simp only [Scalar.le, decide_eq_true_eq, decide_eq_false_iff_not, true_and]
        have : (y - x).tdiv 2 = (y - x) / 2 := Int.tdiv_eq_ediv_of_nonneg (by omega)
        omega
      · split at h
        · simp only [Except.ok.injEq, Prod.mk.injEq] at h
          obtain ⟨rfl, rfl⟩ := h
          simp only [Scalar.le, decide_eq_true_eq, decide_eq_false_iff_not, true_and]
          omega
        · split at h
          · simp only [Except.ok.injEq, Prod.mk.injEq] at h
            obtain ⟨rfl, rfl⟩ := h
            simp only [Scalar.le, decide_eq_true_eq, decide_eq_false_iff_not, true_and]
            omega
          · cases h
  · rename_i x y
    rw [splitBound_float h1 h2] at h
    simp only [decide_eq_true_eq] at hle
    have hh := hfl x y rfl rfl
    cases hc : cut x y with
    | none => rw [hc] at h; cases h
    | some p =>
      obtain ⟨m, n⟩ := p
      rw [hc] at h
      simp only [Except.ok.injEq, Prod.mk.injEq] at h
      obtain ⟨rfl, rfl⟩ := h
      obtain ⟨inside, left, right⟩ := hh
      obtain ⟨p1, p2, p3, p4⟩ := inside m n hc
      simp only [Scalar.le, decide_eq_true_eq, decide_eq_false_iff_not, true_and, not_le]
      exact ⟨p1, p4, p2, p3, p3.le, p2.le⟩
  · rename_i x y
    rw [splitBound_size h1 h2] at h
    simp only [decide_eq_true_eq] at hle
    rw [wrap_sub hle (hsz y rfl)] at h
    dsimp only at h
    split at h
    · simp only [Except.ok.injEq, Prod.mk.injEq] at h
      obtain ⟨rfl, rfl⟩ := h
      simp only [Scalar.le, decide_eq_true_eq, decide_eq_false_iff_not, true_and]
      omega
    · split at h
      · simp only [Except.ok.injEq, Prod.mk.injEq] at h
        obtain ⟨rfl, rfl⟩ := h
        simp only [Scalar.le, decide_eq_true_eq, decide_eq_false_iff_not, true_and]
        omega
      · split at h
        · simp only [Except.ok.injEq, Prod.mk.injEq] at h
          obtain ⟨rfl, rfl⟩ := h
          simp only [Scalar.le, decide_eq_true_eq, decide_eq_false_iff_not, true_and]
          omega
        · cases h

omit [Floats] in
theorem split_halved {b bl br : Bound} (hle : b.lo.le b.hi = true) (hsz : ∀ n, b.hi = .s n → n < 2 ^ 64) (hfl : b.Halved)
    (h : splitBound b = .ok (bl, br)) : bl.Halved ∧ br.Halved := by
  obtain ⟨t1, t2, e1, e2, l1, l2, -⟩ := split_shape hle hsz hfl h
  have h1 : b.ty ≠ .segments := by intro e; unfold splitBound at h; rw [e] at h; cases h
  have h2 : b.ty ≠ .freq := by intro e; unfold splitBound at h; rw [e] at h; cases h
  constructor
  all_goals
    intro x y hx hy
    obtain ⟨ty, lo, hi⟩ := b
    cases hlo : lo <;> cases hhi : hi <;> subst hlo <;> subst hhi <;> dsimp only at hle e1 e2 h1 h2 <;>
      simp only [Scalar.le, Bool.false_eq_true] at hle <;> rw [e1] at l1 <;> rw [e2] at l2 <;>
      first
      | (rw [hy] at l1; cases l1; done)
      | (rw [hx] at l2; cases l2; done)
      | skip
    rename_i p q
    rw [splitBound_float h1 h2] at h
    obtain ⟨inside, left, right⟩ := hfl p q rfl rfl
    cases hc : cut p q with
    | none => rw [hc] at h; cases h
    | some z =>
      obtain ⟨m, n⟩ := z
      rw [hc] at h
      simp only [Except.ok.injEq, Prod.mk.injEq] at h
      obtain ⟨rfl, rfl⟩ := h
      cases hx; cases hy
      first | exact left _ _ hc | exact right _ _ hc

theorem BInv.split {cfg : Config} {v : Nat} {b bl br : Bound} {ol or : Bool} {d : Domain} (h : BInv cfg v b ol or d)
    (hs : splitBound b = .ok (bl, br)) : BInv cfg v bl ol false d ∧ BInv cfg v br false or d := by
  have hsz : ∀ n, b.hi = .s n → n < 2 ^ 64 := by
    intro n hn
    have h1 := h.dhi
    have h2 := h.lim.high
    rw [hn] at h1
    cases hd : d.bound.hi <;> rw [hd] at h1 h2 <;> simp [Scalar.le] at h1
    simp only [NotHigh, sizeMax] at h2
    omega
  obtain ⟨t1, t2, e1, e2, l1, l2, s1, s2, s3, s4⟩ := split_shape h.lohi hsz h.halved hs
  obtain ⟨f1, f2⟩ := split_halved h.lohi hsz h.halved hs
  constructor
  · refine ⟨h.dom, h.lim, t1.trans h.ty, by rw [e1]; exact h.dlo, l1, Scalar.le_trans s4 h.dhi, by rw [e1]; exact h.left,
      fun _ => ?_, by rw [e1]; exact h.bottom, by simp, f1⟩
    cases hle : d.bound.hi.le bl.hi with
    | false => rfl
    | true => rw [Scalar.le_trans h.dhi hle] at s1; cases s1
  · refine ⟨h.dom, h.lim, t2.trans h.ty, Scalar.le_trans h.dlo s3, l2, by rw [e2]; exact h.dhi, fun _ => ?_,
      by rw [e2]; exact h.right, by simp, by rw [e2]; exact h.top, f2⟩
    cases hle : br.lo.le d.bound.lo with
    | false => rfl
    | true => rw [Scalar.le_trans hle h.dlo] at s2; cases s2

/-! ### an expression stored below a cdir is not pruned when it is true -/

/-- a value as the environment holds it: lists sorted -/
def Value.Sorted : Value → Prop
  | .intList l => Ascending (l.map id)
  | .strList l => Ascending (l.map StrVal.str)
  | _ => True

omit [Floats] in
theorem StrictAsc.ascending_int {l : List Int} (h : StrictAsc l) : Ascending l := h.imp fun h => by omega
omit [Floats] in
theorem StrictAsc.ascending_nat {l : List Nat} (h : StrictAsc l) : Ascending l := h.imp fun h => by omega

omit [Floats] in
theorem sortValue_sorted (z : Value) : (sortValue z).Sorted := by
  cases z <;> simp only [sortValue, Value.Sorted]
  · exact (dedup_sort_strict _ _).ascending_int
  · exact (dedup_sort_strict _ _).ascending_nat

omit [Floats] in
theorem eventEnv_sorted {T : Config} {ev : List EventVar} {env : Env} (he : eventEnv T ev = .ok env) {v : Nat} {d : Domain}
    (hd : T.domains[v]? = some d) {val : Value} (hv : env[v]? = some (some val)) : val.Sorted := by
  have hlt := (List.getElem?_eq_some_iff.1 hd).1
  have key := eventEnv_get he v hlt
  split at key
  · rw [hv] at key; cases key
  · obtain ⟨x, _, hx2⟩ := key
    rw [hv] at hx2
    cases hx2
    exact sortValue_sorted _

/-- an interval that contains the expression's interval contains the event's value, up to open ends -/
theorem enclosed_event {cfg : Config} {v : Nat} {b : Bound} {ol or : Bool} {d : Domain} (hb : BInv cfg v b ol or d)
    {p : Partial} (hlo : b.lo.le (p.lo.getD d.bound.lo) = true) (hhi : (p.hi.getD d.bound.hi).le b.hi = true)
    {val : Value} (hc : Covers p val) (hs : val.Sorted) {env : Env} (henv : env[v]? = some (some val))
    (hty : val.vtype = b.ty) : isEventEnclosed env v b ol or = .ok true := by
  have low : ol = false → ∃ m ∈ val.members, b.lo.le m = true := by
    intro ho
    cases hp : p.lo with
    | none =>
      rw [hp] at hlo
      have := hb.left ho
      rw [Option.getD_none] at hlo
      rw [hlo] at this; cases this
    | some l =>
      rw [hp] at hlo
      obtain ⟨m, h1, h2⟩ := hc.1 l hp
      exact ⟨m, h1, Scalar.le_trans hlo h2⟩
  have high : or = false → ∃ m ∈ val.members, m.le b.hi = true := by
    intro ho
    cases hp : p.hi with
    | none =>
      rw [hp] at hhi
      have := hb.right ho
      rw [Option.getD_none] at hhi
      rw [hhi] at this; cases this
    | some l =>
      rw [hp] at hhi
      obtain ⟨m, h1, h2⟩ := hc.2 l hp
      exact ⟨m, h1, Scalar.le_trans h2 hhi⟩
  have k1 : b.lo.kind = val.vtype.kind := by
    rw [hty, hb.ty, ← hb.dom.ok.kind.1]; exact (Scalar.le_kind hb.dlo).symm
  have k2 : b.hi.kind = val.vtype.kind := by
    rw [hty, hb.ty, ← hb.dom.ok.kind.2]; exact Scalar.le_kind hb.dhi
  have hbot := hb.bottom
  have htop := hb.top
  have hg : envGet env v = .ok (some val) := by unfold envGet getVariable; rw [henv]
  unfold isEventEnclosed
  rw [hg]
  dsimp only
  cases val with
  | segments _ => rfl
  | freq _ => rfl
  | bool x =>
    dsimp only
    rw [if_pos ⟨k1, k2⟩]
    simp only [Value.members, List.mem_singleton, exists_eq_left] at low high
    simp only [Except.ok.injEq, Bool.and_eq_true]
    cases hlo : b.lo <;> rw [hlo] at k1 <;> simp [Scalar.kind, Value.vtype, VType.kind] at k1
    cases hhi : b.hi <;> rw [hhi] at k2 <;> simp [Scalar.kind, Value.vtype, VType.kind] at k2
    rw [hlo] at hbot low; rw [hhi] at htop high
    constructor
    · cases ol with
      | false => exact low rfl
      | true => have := hbot rfl; simp only [Scalar.Bottom] at this; subst this; rfl
    · cases or with
      | false => exact high rfl
      | true => have := htop rfl; simp only [Scalar.Top] at this; subst this; cases x <;> rfl
  | int x =>
    dsimp only
    rw [if_pos ⟨k1, k2⟩]
    simp only [Value.members, List.mem_singleton, exists_eq_left] at low high
    cases ol <;> cases or <;> simp_all
  | float x =>
    dsimp only
    rw [if_pos ⟨k1, k2⟩]
    simp only [Value.members, List.mem_singleton, exists_eq_left] at low high
    cases ol <;> cases or <;> simp_all
  | string x =>
    dsimp only
    rw [if_pos ⟨k1, k2⟩]
    simp only [Value.members, List.mem_singleton, exists_eq_left] at low high
    simp only [Except.ok.injEq, Bool.and_eq_true]
    cases hlo : b.lo <;> rw [hlo] at k1 <;> simp [Scalar.kind, Value.vtype, VType.kind] at k1
    rw [hlo] at hbot low
    constructor
    · cases ol with
      | false => exact low rfl
      | true => have := hbot rfl; simp only [Scalar.Bottom] at this; subst this; simp [Scalar.le]
    · cases or with
      | false => exact high rfl
      | true => rfl
  | intEnum x =>
    dsimp only
    rw [if_pos ⟨k1, k2⟩]
    simp only [Value.members, List.mem_singleton, exists_eq_left] at low high
    simp only [Except.ok.injEq, Bool.and_eq_true]
    cases hlo : b.lo <;> rw [hlo] at k1 <;> simp [Scalar.kind, Value.vtype, VType.kind] at k1
    rw [hlo] at hbot low
    constructor
    · cases ol with
      | false => exact low rfl
      | true => have := hbot rfl; simp only [Scalar.Bottom] at this; subst this; simp [Scalar.le]
    · cases or with
      | false => exact high rfl
      | true => rfl
  | intList l =>
    dsimp only
    rw [if_pos ⟨k1, k2⟩]
    cases l with
    | nil => rfl
    | cons x xs =>
      simp only [Value.Sorted, List.map_id] at hs
      simp only [listOverlaps, Except.ok.injEq, Bool.and_eq_true, Bool.or_eq_true]
      constructor
      · cases or with
        | true => exact Or.inl rfl
        | false =>
          obtain ⟨m, h1, h2⟩ := high rfl
          obtain ⟨y, hy, rfl⟩ := List.mem_map.1 h1
          refine Or.inr (Scalar.le_trans ?_ h2)
          rcases ascending_first hs hy with h3 | h3
          · simp [Scalar.le, h3]
          · simp only [Scalar.le, decide_eq_true_eq]; omega
      · cases ol with
        | true => exact Or.inl rfl
        | false =>
          obtain ⟨m, h1, h2⟩ := low rfl
          obtain ⟨y, hy, rfl⟩ := List.mem_map.1 h1
          refine Or.inr (Scalar.le_trans h2 ?_)
          rcases ascending_last hs (by simp) hy with h3 | h3
          · simp [Scalar.le, ← h3]
          · simp only [Scalar.le, decide_eq_true_eq]; omega
  | strList l =>
    dsimp only
    rw [if_pos ⟨k1, k2⟩]
    cases l with
    | nil => rfl
    | cons x xs =>
      simp only [Value.Sorted] at hs
      simp only [listOverlaps, Except.ok.injEq, Bool.and_eq_true, Bool.or_eq_true]
      constructor
      · cases or with
        | true => exact Or.inl rfl
        | false =>
          obtain ⟨m, h1, h2⟩ := high rfl
          obtain ⟨y, hy, rfl⟩ := List.mem_map.1 h1
          refine Or.inr (Scalar.le_trans ?_ h2)
          have hy' : y.str ∈ (x :: xs).map StrVal.str := List.mem_map_of_mem hy
          rw [List.map_cons] at hs hy'
          rcases ascending_first hs hy' with h3 | h3
          · simp [Scalar.le, h3]
          · simp only [Scalar.le, decide_eq_true_eq]; omega
      · right
        cases ol with
        | true =>
          have h5 := hbot rfl
          cases hlo : b.lo <;> rw [hlo] at k1 <;> simp [Scalar.kind, Value.vtype, VType.kind] at k1
          rw [hlo] at h5
          simp only [Scalar.Bottom] at h5; subst h5; simp [Scalar.le]
        | false =>
          obtain ⟨m, h1, h2⟩ := low rfl
          obtain ⟨y, hy, rfl⟩ := List.mem_map.1 h1
          refine Scalar.le_trans h2 ?_
          have hy' : y.str ∈ (x :: xs).map StrVal.str := List.mem_map_of_mem hy
          have hlast : ((x :: xs).map StrVal.str).getLast (by simp) = ((x :: xs).getLast (by simp)).str := by
            rw [List.getLast_map]
          rcases ascending_last hs (by simp) hy' with h3 | h3
          · rw [← hlast, ← h3]; simp [Scalar.le]
          · rw [hlast] at h3; simp only [Scalar.le, decide_eq_true_eq]; omega

/-- the search never skips, because of this interval, a subscription that is true on the event -/
def Admits (s : Sub) (v : Nat) (b : Bound) (ol or : Bool) : Prop :=
  ∀ (geo : GeoTest) (T : Config) (cs : List Constant) (e : Expr) (ev : List EventVar) (env : Env) (dT : Domain),
    ExprRel (ResPred T cs) e s.expr.erase → Small T → TablesOK T → s.expr.erase.AllIds → Expr.InRange e →
    T.domains[v]? = some dT → dT.bound.ty = b.ty → Separated (fun n => tryGetIdForAttr T n = v) (eventOf ev) e →
    BoundSafe (fun n => tryGetIdForAttr T n = v) false e → eventEnv T ev = .ok env →
    sat geo (constants cs) (eventOf ev) e → isEventEnclosed env v b ol or = .ok true

theorem admits_of_enclosed {cfg : Config} {v : Nat} {b : Bound} {ol or : Bool} {d : Domain} (hb : BInv cfg v b ol or d)
    {s : Sub} (h : subIsEnclosed cfg s v b = .ok true) : Admits s v b ol or := by
  intro geo T cs e ev env dT hr hsm htab hids hin hdT hty hsep hsafe he hsat
  unfold subIsEnclosed at h
  split at h
  · split at h
    · cases h
    · rename_i d' hd'
      have hdd : d' = d := by
        unfold getDomain at hd'
        rw [hb.dom.get] at hd'
        cases hd'; rfl
      subst hdd
      split at h
      · cases h
      · rename_i b' hb'
        unfold getVariableBound at hb'
        split at hb'
        · cases hb'
        · rename_i p hp
          have hb'' : b' = { ty := d'.bound.ty, lo := p.lo.getD d'.bound.lo, hi := p.hi.getD d'.bound.hi } := by
            cases ht : d'.bound.ty <;> rw [ht] at hb' <;> simp at hb' <;> exact hb'.symm
          subst hb''
          unfold encloses at h
          split at h
          · simp only [Except.ok.injEq, Bool.and_eq_true] at h
            cases hv : env[v]? with
            | none =>
              have : v < env.length := by
                rw [eventEnv_length he]; exact (List.getElem?_eq_some_iff.1 hdT).1
              rw [List.getElem?_eq_none_iff] at hv
              omega
            | some o =>
              cases o with
              | none => simp only [isEventEnclosed, envGet, getVariable, hv]
              | some val =>
                have ht := eventEnv_type he hdT hv
                refine enclosed_event hb h.1 h.2 ?_ (eventEnv_sorted he hdT hv) hv (ht.trans hty)
                refine boundInner_covers (geo := geo) hsm htab he hr hids hin (d := d') (by rw [hb.dom.var]; exact hsep) (by rw [hb.dom.var]; exact hv)
                  (ht.trans (hty.trans hb.ty)) (rev := false) ?_ hp ?_
                · rw [hb.dom.var]; exact hsafe
                · simpa using hsat
          · cases h
  · cases h

end BeTree
