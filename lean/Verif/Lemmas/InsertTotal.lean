import Verif.Lemmas.TypedPred
import Verif.Lemmas.Shape
import Verif.Spec.Place
/-
Insertion returns: nothing in the restructuring of the tree aborts, overflows, or runs out of recursion budget.
-/
namespace BeTree
open Spec
variable [Floats]

/-! ### intervals of integer domains fit in `int64_t` -/

omit [Floats] in
theorem intDiff_total {lo hi : Int} (h : lo ≤ hi) (hn : hi - lo ≤ int64Max) : intDiff lo hi = .ok (hi - lo).toNat := by
  unfold intDiff checkedInt
  have h1 : int64Min ≤ hi - lo ∧ hi - lo ≤ int64Max := ⟨by simp only [int64Min]; omega, hn⟩
  rw [if_pos h1]
  dsimp only
  rw [if_neg (by simp only [int64Min]; omega)]
  congr 1
  omega

/-- the tree can cope with the range, if it is one of floats -/
def Bound.Copes (b : Bound) : Prop := ∀ a c, b = ⟨.float, .f a, .f c⟩ → Spec.Copes a c

/-- the limits of the attributes of `P` can be coped with -/
def CopesDoms (P : Nat → Prop) (cfg : Config) : Prop := ∀ j d, P j → cfg.domains[j]? = some d → Limited d.bound → d.bound.Copes

omit [Floats] in
theorem bound_eta {b : Bound} {t : VType} {lo hi : Scalar} (h1 : b.ty = t) (h2 : b.lo = lo) (h3 : b.hi = hi) : b = ⟨t, lo, hi⟩ := by
  obtain ⟨_, _, _⟩ := b; cases h1; cases h2; cases h3; rfl

theorem CopesDoms.fine {P : Nat → Prop} {cfg : Config} (hd : DomsOK cfg) (h : CopesDoms P cfg) : FineDoms P cfg := by
  intro j d hp hj hs x y hx hy
  have hok := (hd j d hj).ok
  have hl := splitable_limited hok hs
  have ht : d.bound.ty = .float := by
    have k := hok.kind.1
    rw [hx] at k
    have h1 := hl.seg
    have h2 := hl.freq
    cases hty : d.bound.ty <;> rw [hty] at k <;> first | rfl | (cases k; done)
  have he := bound_eta ht hx hy
  obtain ⟨h1, h2⟩ := h j d hp hj hl x y he
  refine h2 ?_
  have h3 := hl.low
  have h4 := hl.high
  rw [he] at hs
  simp only [splitable] at hs
  split at hs
  · cases hs
  · unfold truncU64 at hs
    rw [if_pos (by exact_mod_cast h1)] at hs
    simp only [Except.map, Except.ok.injEq, maxDomainForSplit] at hs
    replace hs := of_decide_eq_true hs
    have h5 : (rnd (y - x)).abs.floor < 1000 := by omega
    by_contra h6
    rw [not_lt] at h6
    have : (1000 : Int) ≤ (rnd (y - x)).abs.floor := Rat.le_floor_iff.2 (by exact_mod_cast h6)
    omega

theorem splitable_total {b : Bound} (hok : BoundOK b) (hn : NarrowBound b) (hf : Limited b → b.Copes) :
    ∃ r, splitable b = .ok r := by
  obtain ⟨ty, lo, hi⟩ := b
  cases ty <;> simp only [BoundOK] at hok <;> simp only [splitable]
  · exact ⟨_, rfl⟩
  · obtain ⟨a, c, rfl, rfl, h1⟩ := hok
    dsimp only
    by_cases h : a = int64Min ∨ c = int64Max
    · rw [if_pos h]; exact ⟨_, rfl⟩
    · rw [if_neg h]; rw [not_or] at h
      rw [intDiff_total h1 (hn a c rfl rfl h.1 h.2)]; exact ⟨_, rfl⟩
  · obtain ⟨a, c, rfl, rfl, h1⟩ := hok
    dsimp only
    by_cases h : (feq a (-dblMax) || feq c dblMax) = true
    · rw [if_pos h]; exact ⟨_, rfl⟩
    · rw [if_neg h]
      simp only [Bool.or_eq_true, not_or, Bool.not_eq_true] at h
      have := (hf ⟨by simp, by simp, fne_iff.1 (by simp [fne, h.1]), fne_iff.1 (by simp [fne, h.2])⟩ a c rfl).1
      unfold truncU64
      rw [if_pos (by exact_mod_cast this)]
      exact ⟨_, rfl⟩
  · obtain ⟨c, rfl, rfl, h1⟩ := hok
    dsimp only; split <;> exact ⟨_, rfl⟩
  · obtain ⟨a, c, rfl, rfl, h1⟩ := hok
    dsimp only
    by_cases h : a = int64Min ∨ c = int64Max
    · rw [if_pos h]; exact ⟨_, rfl⟩
    · rw [if_neg h]; rw [not_or] at h
      rw [intDiff_total h1 (hn a c rfl rfl h.1 h.2)]; exact ⟨_, rfl⟩
  · obtain ⟨c, rfl, rfl, h1⟩ := hok
    dsimp only; split <;> exact ⟨_, rfl⟩
  · exact ⟨_, rfl⟩
  · exact ⟨_, rfl⟩
  · obtain ⟨c, rfl, rfl, h1⟩ := hok
    dsimp only; split <;> exact ⟨_, rfl⟩

/-- the spread of a domain with limits; below 1000 when the tree may split it -/
theorem domainDiff_total {b : Bound} (hok : BoundOK b) (hn : NarrowBound b) (hl : Limited b) (hf : b.Copes) :
    ∃ n, domainDiff b = .ok n ∧ (splitable b = .ok true → n < maxDomainForSplit) := by
  obtain ⟨ty, lo, hi⟩ := b
  have hsz : ∀ {c : Nat}, ((if c = sizeMax then Except.ok (ε := Fault) false
      else .ok (decide ((c + (2 ^ 64 - 0 % 2 ^ 64)) % 2 ^ 64 < maxDomainForSplit))) = .ok true) →
      (c + (2 ^ 64 - 0 % 2 ^ 64)) % 2 ^ 64 < maxDomainForSplit := by
    intro c h
    split at h
    · cases h
    · simpa using h
  have hint : ∀ {a c : Int}, a ≤ c → a ≠ int64Min → c ≠ int64Max → c - a ≤ int64Max →
      (if a = int64Min ∨ c = int64Max then Except.ok false
      else (Except.ok (c - a).toNat).map fun d => decide (d < maxDomainForSplit)) = Except.ok (ε := Fault) true →
      (c - a).toNat < maxDomainForSplit := by
    intro a c h h1 h2 h3 h4
    rw [if_neg (by rw [not_or]; exact ⟨h1, h2⟩)] at h4
    simpa [Except.map] using h4
  cases ty <;> simp only [BoundOK] at hok <;> simp only [domainDiff, splitable]
  · exact ⟨_, rfl, fun _ => by simp [maxDomainForSplit]⟩
  · obtain ⟨a, c, rfl, rfl, h1⟩ := hok
    have h2 : a ≠ int64Min := hl.low
    have h3 : c ≠ int64Max := hl.high
    dsimp only
    rw [if_neg (fun h => h2 h.1), intDiff_total h1 (hn a c rfl rfl h2 h3)]
    exact ⟨_, rfl, hint h1 h2 h3 (hn a c rfl rfl h2 h3)⟩
  · obtain ⟨a, c, rfl, rfl, h1⟩ := hok
    have h2 := (hf a c rfl).1
    have h3 : feq a (-dblMax) = false := by
      have := fne_iff.2 (show ¬ closeTo a (-dblMax) from hl.low)
      simpa [fne] using this
    have h4 : feq c dblMax = false := by
      have := fne_iff.2 (show ¬ closeTo c dblMax from hl.high)
      simpa [fne] using this
    simp only [h3, h4, Bool.and_self, Bool.or_self, Bool.false_eq_true, if_false]
    unfold truncU64
    rw [if_pos (by exact_mod_cast h2)]
    exact ⟨_, rfl, fun h => by simpa [Except.map] using h⟩
  · obtain ⟨c, rfl, rfl, h1⟩ := hok
    exact ⟨_, rfl, hsz⟩
  · obtain ⟨a, c, rfl, rfl, h1⟩ := hok
    have h2 : a ≠ int64Min := hl.low
    have h3 : c ≠ int64Max := hl.high
    dsimp only
    rw [if_neg (fun h => h2 h.1), intDiff_total h1 (hn a c rfl rfl h2 h3)]
    exact ⟨_, rfl, hint h1 h2 h3 (hn a c rfl rfl h2 h3)⟩
  · obtain ⟨c, rfl, rfl, h1⟩ := hok
    exact ⟨_, rfl, hsz⟩
  · exact absurd rfl hl.seg
  · exact absurd rfl hl.freq
  · obtain ⟨c, rfl, rfl, h1⟩ := hok
    exact ⟨_, rfl, hsz⟩

/-! ### scores -/

theorem getScore_total {R : Rounding} {d : Domain} {c : Nat} (hok : BoundOK d.bound) (hn : NarrowBound d.bound) (hl : Limited d.bound)
    (hf : d.bound.Copes) : ∃ s, getScore R d c = .ok s := by
  obtain ⟨n, h, _⟩ := domainDiff_total hok hn hl hf
  unfold getScore
  rw [h]
  exact ⟨_, rfl⟩

omit [Floats] in
theorem score_pos {R : Rounding} (hR : Sane R) {num : Rat} {n c : Nat} (h1 : 1 ≤ num) (h2 : n ≠ 0) (h3 : n < 1000) (h4 : 1 ≤ c) :
    0 < R.rnd64 ((c : Rat) * R.rnd64 (num / (n : Rat))) := by
  have hn : (0 : Rat) < (n : Rat) := by exact_mod_cast Nat.pos_of_ne_zero h2
  have hn' : (n : Rat) ≤ 1024 := by exact_mod_cast (by omega : n ≤ 1024)
  have hc : (1 : Rat) ≤ (c : Rat) := by exact_mod_cast h4
  have a1 : (1 / 1024 : Rat) ≤ num / (n : Rat) := by
    rw [le_div_iff₀ hn]
    nlinarith
  have a2 := hR.mono _ _ a1
  rw [hR.exact] at a2
  have a3 : (1 / 1024 : Rat) ≤ (c : Rat) * R.rnd64 (num / (n : Rat)) := by nlinarith
  have a4 := hR.mono _ _ a3
  rw [hR.exact] at a4
  linarith

theorem getScore_pos {R : Rounding} (hR : Sane R) {d : Domain} {c : Nat} (hok : BoundOK d.bound) (hn : NarrowBound d.bound)
    (hf : Limited d.bound → d.bound.Copes) (hs : splitable d.bound = .ok true) (hc : 1 ≤ c) :
    ∃ s, getScore R d c = .ok s ∧ 0 < s := by
  have hl := splitable_limited hok hs
  obtain ⟨n, h, h2⟩ := domainDiff_total hok hn hl (hf hl)
  unfold getScore
  rw [h]
  refine ⟨_, rfl, score_pos hR ?_ ?_ ?_ hc⟩
  · split <;> norm_num
  · split <;> omega
  · have := h2 hs
    simp only [maxDomainForSplit] at this
    split <;> omega

/-! ### the choice of the variable -/

/-- an expression the tree can place: its predicates fit the types, its numbers are moderate, and it mentions no float attribute
with limits except those of `P` -/
structure Fit (P : Nat → Prop) (cfg : Config) (s : Sub) : Prop where
  typed : s.expr.erase.All (TypedPred cfg)
  mod : Moderate s.expr.erase
  floats : ∀ (j : Nat) (d : Domain), s.has j = true → cfg.domains[j]? = some d → Limited d.bound → d.bound.ty = .float → P j

omit [Floats] in
theorem Fit.copes {P : Nat → Prop} {cfg : Config} {s : Sub} (h : Fit P cfg s) (hP : CopesDoms P cfg) {j : Nat} {d : Domain}
    (hj : s.has j = true) (hd : cfg.domains[j]? = some d) : Limited d.bound → d.bound.Copes := by
  intro hl a c he
  exact hP j d (h.floats j d hj hd hl (by rw [he])) hd hl a c he

/-- the loop's variable, once found, is a fresh one that some expression has -/
structure BestOK (cfg : Config) (used : List Nat) (subs : List Sub) (b : Best) : Prop where
  found : b.found = true → b.var ≠ none
  zero : b.var = none → b.score = 0
  var : ∀ j, b.var = some j → j < cfg.domains.length ∧ j ∉ used ∧ ∃ s ∈ subs, s.has j = true

omit [Floats] in
theorem countAttr_pos {j : Nat} {subs : List Sub} {s : Sub} (h : s ∈ subs) (hj : s.has j = true) : 1 ≤ countAttr j subs := by
  unfold countAttr
  exact List.length_pos_of_mem (List.mem_filter.2 ⟨h, hj⟩)

theorem bestStep_total {R : Rounding} (hR : Sane R) {cfg : Config} (hd : DomsOK cfg) (hn : NarrowCfg cfg) {P : Nat → Prop} (hP : CopesDoms P cfg) {used : List Nat}
    {subs : List Sub} {s : Sub} (hs : s ∈ subs) (hfit : Fit P cfg s) {d : Domain} {j : Nat} (hj : cfg.domains[j]? = some d)
    {b : Best} (hb : BestOK cfg used subs b) :
    ∃ b', bestStep R used subs s d j b = .ok b' ∧ BestOK cfg used subs b' := by
  unfold bestStep
  by_cases h1 : s.has j = true
  · rw [if_pos h1]
    have hok := (hd j d hj).ok
    have hnb := hn d (List.mem_of_getElem? hj)
    obtain ⟨r, hr⟩ := splitable_total hok hnb (hfit.copes hP h1 hj)
    rw [hr]
    cases r with
    | false => exact ⟨_, rfl, hb⟩
    | true =>
      dsimp only
      by_cases h2 : j ∈ used
      · rw [if_pos h2]; exact ⟨_, rfl, hb⟩
      · rw [if_neg h2]
        obtain ⟨sc, h3, h4⟩ := getScore_pos hR hok hnb (hfit.copes hP h1 hj) hr (countAttr_pos hs h1)
        rw [h3]
        dsimp only
        by_cases h5 : sc > b.score
        · rw [if_pos h5]
          refine ⟨_, rfl, by simp, by simp, fun k hk => ?_⟩
          simp only [Option.some.injEq] at hk
          subst hk
          exact ⟨(List.getElem?_eq_some_iff.1 hj).1, h2, s, hs, h1⟩
        · rw [if_neg h5]
          refine ⟨_, rfl, fun _ hv => ?_, hb.zero, hb.var⟩
          dsimp only at hv
          rw [hb.zero hv] at h5
          exact h5 h4
  · rw [if_neg h1]; exact ⟨_, rfl, hb⟩

theorem bestOfSub_total {R : Rounding} (hR : Sane R) {cfg : Config} (hd : DomsOK cfg) (hn : NarrowCfg cfg) {P : Nat → Prop} (hP : CopesDoms P cfg) {used : List Nat}
    {subs : List Sub} {s : Sub} (hs : s ∈ subs) (hfit : Fit P cfg s) :
    ∀ {ds : List Domain} {j : Nat} {b : Best}, (∀ i, ds[i]? = cfg.domains[j + i]?) → BestOK cfg used subs b →
    ∃ b', bestOfSub R used subs s ds j b = .ok b' ∧ BestOK cfg used subs b' := by
  intro ds
  induction ds with
  | nil => intro j b _ hb; exact ⟨_, rfl, hb⟩
  | cons d ds ih =>
    intro j b hds hb
    have h0 := hds 0
    simp only [List.getElem?_cons_zero, Nat.add_zero] at h0
    obtain ⟨b1, h1, h2⟩ := bestStep_total hR hd hn hP hs hfit h0.symm hb
    obtain ⟨b2, h3, h4⟩ := ih (j := j + 1) (by
      intro i
      have := hds (i + 1)
      rw [List.getElem?_cons_succ] at this
      rw [this]; congr 1; omega) h2
    exact ⟨b2, by simp only [bestOfSub, h1, h3], h4⟩

theorem bestOfSubs_total {R : Rounding} (hR : Sane R) {cfg : Config} (hd : DomsOK cfg) (hn : NarrowCfg cfg) {P : Nat → Prop} (hP : CopesDoms P cfg) {used : List Nat}
    {subs : List Sub} : ∀ {ss : List Sub} {b : Best}, (∀ s ∈ ss, s ∈ subs ∧ Fit P cfg s) → BestOK cfg used subs b →
    ∃ b', bestOfSubs R cfg used subs ss b = .ok b' ∧ BestOK cfg used subs b' := by
  intro ss
  induction ss with
  | nil => intro b _ hb; exact ⟨_, rfl, hb⟩
  | cons s ss ih =>
    intro b hs hb
    obtain ⟨b1, h1, h2⟩ := bestOfSub_total hR hd hn hP (hs s List.mem_cons_self).1 (hs s List.mem_cons_self).2
      (ds := cfg.domains) (j := 0) (by intro i; rw [Nat.zero_add]) hb
    obtain ⟨b2, h3, h4⟩ := ih (fun t ht => hs t (List.mem_cons_of_mem _ ht)) h2
    exact ⟨b2, by simp only [bestOfSubs, h1, h3], h4⟩

theorem nextHighest_total {R : Rounding} (hR : Sane R) {cfg : Config} (hd : DomsOK cfg) (hn : NarrowCfg cfg) {P : Nat → Prop} (hP : CopesDoms P cfg) {used : List Nat}
    {subs : List Sub} (hs : ∀ s ∈ subs, Fit P cfg s) :
    ∃ r, nextHighest R cfg used subs = .ok r ∧
      ∀ v, r = some v → v < cfg.domains.length ∧ v ∉ used ∧ ∃ s ∈ subs, s.has v = true := by
  obtain ⟨b, h1, h2⟩ := bestOfSubs_total hR hd hn hP (used := used) (ss := subs) (subs := subs) (fun s h => ⟨h, hs s h⟩)
    (b := { found := false, score := 0, var := none }) ⟨by simp, by simp, by simp⟩
  unfold nextHighest
  rw [h1]
  dsimp only
  cases hf : b.found with
  | false => exact ⟨none, by simp, by simp⟩
  | true =>
    cases hv : b.var with
    | none => exact absurd hv (h2.found hf)
    | some v => exact ⟨some v, by simp, fun w hw => by cases hw; exact h2.var v hv⟩

/-! ### the interval of an expression -/

def Partial.OfKind (k : Kind) (p : Partial) : Prop := (∀ s, p.lo = some s → s.kind = k) ∧ (∀ s, p.hi = some s → s.kind = k)

omit [Floats] in
theorem Partial.ofKind_none (k : Kind) : Partial.OfKind k .none := ⟨(by intro s h; cases h), (by intro s h; cases h)⟩
omit [Floats] in
theorem Partial.ofKind_point {k : Kind} {s : Scalar} (h : s.kind = k) : Partial.OfKind k (.point s) :=
  ⟨(by intro t ht; cases ht; exact h), (by intro t ht; cases ht; exact h)⟩

omit [Floats] in
theorem firstLast_kind {α : Type} {f : α → Scalar} {k : Kind} (hf : ∀ x, (f x).kind = k) (l : List α) :
    Partial.OfKind k (firstLast f l) := by
  cases l with
  | nil => exact Partial.ofKind_none k
  | cons x xs => exact ⟨(by intro s h; cases h; exact hf _), (by intro s h; cases h; exact hf _)⟩

omit [Floats] in
theorem compareBound_total {op : CmpOp} {c : CmpVal} {rev : Bool} (hm : ∀ k, c = .int k → ModInt k) :
    ∃ p, compareBound op c rev = .ok p ∧ Partial.OfKind (match c with | .int _ => Kind.i | .float _ => Kind.f) p := by
  cases c with
  | int k =>
    obtain ⟨h1, h2⟩ := checkedInt_mod (hm k rfl)
    cases op <;> cases rev <;> simp [compareBound, h1, h2, Except.map, Partial.OfKind, Scalar.kind]
  | float k =>
    cases op <;> cases rev <;> simp [compareBound, Partial.OfKind, Scalar.kind]

theorem boundPred_total {cfg : Config} {d : Domain} {v : Nat} (hd : DomAt cfg v d) {rev : Bool} {p : Pred} (hp : TypedPred cfg p)
    (hm : Moderate (.leaf p)) : ∃ b, boundPred d rev p = .ok b ∧ Partial.OfKind d.bound.ty.kind b := by
  have key : ∀ {w : AttrVar} {t : VType}, d.attr.var = w.var → tyAt cfg w.var = some t → d.bound.ty = t := by
    intro w t h1 h2
    rw [← h1, hd.var] at h2
    simp only [tyAt, hd.get, Option.map_some, Option.some.injEq] at h2
    exact h2
  cases p with
  | compare op w c =>
    simp only [boundPred]
    by_cases h : d.attr.var ≠ w.var
    · rw [if_pos h]; exact ⟨_, rfl, Partial.ofKind_none _⟩
    · rw [if_neg h]
      have h' : d.attr.var = w.var := Decidable.not_not.1 h
      obtain ⟨b, h1, h2⟩ := compareBound_total (op := op) (c := c) (rev := rev) (fun k hk => by subst hk; exact hm)
      cases c <;> (have := key h' hp; simp only [this, cmpMatches, Bool.not_true, Bool.false_eq_true, if_false]; exact ⟨b, h1, h2⟩)
  | equality op w c =>
    simp only [boundPred]
    by_cases h : d.attr.var ≠ w.var
    · rw [if_pos h]; exact ⟨_, rfl, Partial.ofKind_none _⟩
    · rw [if_neg h]
      have h' : d.attr.var = w.var := Decidable.not_not.1 h
      cases c <;>
        (have := key h' hp
         simp only [this, eqMatches, Bool.not_true, Bool.false_eq_true, if_false]
         cases op <;> cases rev <;> exact ⟨_, rfl, by first | exact Partial.ofKind_none _ | exact Partial.ofKind_point rfl⟩)
  | boolVar w =>
    simp only [boundPred]
    by_cases h : d.attr.var ≠ w.var
    · rw [if_pos h]; exact ⟨_, rfl, Partial.ofKind_none _⟩
    · rw [if_neg h]
      have := key (Decidable.not_not.1 h) hp
      rw [if_neg (by rw [this]; simp), this]
      exact ⟨_, rfl, Partial.ofKind_point rfl⟩
  | list op w c =>
    simp only [boundPred, listBound]
    by_cases h : d.attr.var ≠ w.var
    · rw [if_pos h]; exact ⟨_, rfl, Partial.ofKind_none _⟩
    · rw [if_neg h]
      have h' : d.attr.var = w.var := Decidable.not_not.1 h
      cases c <;>
        (have := key h' hp
         simp only [this, listMatches, Bool.not_true, Bool.false_eq_true, if_false]
         split
         · exact ⟨_, rfl, by apply firstLast_kind; intro _; rfl⟩
         · exact ⟨_, rfl, Partial.ofKind_none _⟩)
  | set op l r =>
    simp only [boundPred]
    cases l <;> cases r <;> first | exact hp.elim | skip
    all_goals
      rename_i a b
      simp only [setBound]
      first
        | (by_cases h : d.attr.var ≠ b.var
           · rw [if_pos h]; exact ⟨_, rfl, Partial.ofKind_none _⟩
           · rw [if_neg h]
             have := key (Decidable.not_not.1 h) hp
             simp only [this]
             refine ⟨_, rfl, ?_⟩
             split
             · exact Partial.ofKind_point rfl
             · exact Partial.ofKind_none _)
        | (by_cases h : d.attr.var ≠ a.var
           · rw [if_pos h]; exact ⟨_, rfl, Partial.ofKind_none _⟩
           · rw [if_neg h]
             have := key (Decidable.not_not.1 h) hp
             simp only [this]
             refine ⟨_, rfl, ?_⟩
             split
             · apply firstLast_kind; intro _; rfl
             · exact Partial.ofKind_none _)
  | _ => exact ⟨_, rfl, Partial.ofKind_none _⟩

theorem boundInner_total {cfg : Config} {d : Domain} {v : Nat} (hd : DomAt cfg v d) {e : Expr} :
    ∀ {rev : Bool}, e.All (TypedPred cfg) → Moderate e → ∃ b, boundInner d rev e = .ok b ∧ Partial.OfKind d.bound.ty.kind b := by
  induction e with
  | leaf p => intro rev hp hm; exact boundPred_total hd hp hm
  | not e ih => intro rev hp hm; exact ih hp hm
  | and l r ihl ihr =>
    intro rev hp hm
    obtain ⟨a, h1, h2⟩ := ihl (rev := rev) hp.1 hm.1
    obtain ⟨b, h3, h4⟩ := ihr (rev := rev) hp.2 hm.2
    simp only [boundInner, h1, h3]
    refine ⟨_, rfl, ?_⟩
    obtain ⟨alo, ahi⟩ := a
    obtain ⟨blo, bhi⟩ := b
    obtain ⟨a1, a2⟩ := h2
    obtain ⟨b1, b2⟩ := h4
    dsimp only at a1 a2 b1 b2
    constructor
    · intro s hs
      cases alo <;> cases blo <;> simp only [andEnd, Option.some.injEq, reduceCtorEq] at hs
      · exact b1 s (by rw [hs])
      · exact a1 s (by rw [hs])
      · rw [← hs, min_kind ((a1 _ rfl).trans (b1 _ rfl).symm)]; exact a1 _ rfl
    · intro s hs
      cases ahi <;> cases bhi <;> simp only [andEnd, Option.some.injEq, reduceCtorEq] at hs
      · exact b2 s (by rw [hs])
      · exact a2 s (by rw [hs])
      · rw [← hs, max_kind ((a2 _ rfl).trans (b2 _ rfl).symm)]; exact a2 _ rfl
  | or l r ihl ihr =>
    intro rev hp hm
    obtain ⟨a, h1, h2⟩ := ihl (rev := rev) hp.1 hm.1
    obtain ⟨b, h3, h4⟩ := ihr (rev := rev) hp.2 hm.2
    simp only [boundInner, h1, h3]
    refine ⟨_, rfl, ?_⟩
    obtain ⟨alo, ahi⟩ := a
    obtain ⟨blo, bhi⟩ := b
    obtain ⟨a1, a2⟩ := h2
    obtain ⟨b1, b2⟩ := h4
    dsimp only at a1 a2 b1 b2
    constructor
    · intro s hs
      cases alo <;> cases blo <;> simp only [orEnd, Option.some.injEq, reduceCtorEq] at hs
      rw [← hs, min_kind ((a1 _ rfl).trans (b1 _ rfl).symm)]; exact a1 _ rfl
    · intro s hs
      cases ahi <;> cases bhi <;> simp only [orEnd, Option.some.injEq, reduceCtorEq] at hs
      rw [← hs, max_kind ((a2 _ rfl).trans (b2 _ rfl).symm)]; exact a2 _ rfl

theorem getVariableBound_total {cfg : Config} {d : Domain} {v : Nat} (hd : DomAt cfg v d) (h1 : d.bound.ty ≠ .segments)
    (h2 : d.bound.ty ≠ .freq) {e : Expr} (hp : e.All (TypedPred cfg)) (hm : Moderate e) :
    ∃ b, getVariableBound d e = .ok b ∧ b.ty = d.bound.ty ∧ b.lo.kind = d.bound.ty.kind ∧ b.hi.kind = d.bound.ty.kind := by
  obtain ⟨⟨lo, hi⟩, h, k1, k2⟩ := boundInner_total hd (rev := false) hp hm
  obtain ⟨d1, d2⟩ := hd.ok.kind
  have hlo : (lo.getD d.bound.lo).kind = d.bound.ty.kind := by
    cases lo with
    | none => exact d1
    | some s => exact k1 s rfl
  have hhi : (hi.getD d.bound.hi).kind = d.bound.ty.kind := by
    cases hi with
    | none => exact d2
    | some s => exact k2 s rfl
  unfold getVariableBound
  rw [h]
  dsimp only
  cases ht : d.bound.ty <;> first
    | exact absurd ht h1
    | exact absurd ht h2
    | (dsimp only; rw [ht] at hlo hhi; exact ⟨_, rfl, rfl, hlo, hhi⟩)

omit [Floats] in
theorem le_kind {a b : Scalar} (h : a.le b = true) : a.kind = b.kind := by
  cases a <;> cases b <;> first | rfl | (cases h; done)

theorem subIsEnclosed_total {P : Nat → Prop} {cfg : Config} {v : Nat} {b : Bound} {ol or : Bool} {d : Domain} (hb : BInv cfg v b ol or d) {s : Sub}
    (hs : Fit P cfg s) : ∃ r, subIsEnclosed cfg s v b = .ok r := by
  unfold subIsEnclosed
  by_cases h : s.has v = true
  · rw [if_pos h]
    obtain ⟨bb, h1, h2, h3, h4⟩ := getVariableBound_total hb.dom hb.lim.seg hb.lim.freq hs.typed hs.mod
    simp only [getDomain, hb.dom.get, h1]
    unfold encloses
    obtain ⟨k1, k2⟩ := hb.dom.ok.kind
    rw [if_pos]
    · exact ⟨_, rfl⟩
    · rw [h2]
      exact ⟨(le_kind hb.dlo).symm.trans k1, (le_kind hb.dhi).trans k2, h3, h4⟩
  · rw [if_neg h]; exact ⟨_, rfl⟩

theorem clusterDest_total {P : Nat → Prop} {cfg : Config} {v : Nat} {bl br : Bound} {o1 o2 o3 o4 : Bool} {d : Domain} (hl : BInv cfg v bl o1 o2 d)
    (hr : BInv cfg v br o3 o4 d) {s : Sub} (hs : Fit P cfg s) : ∃ r, clusterDest cfg v bl br s = .ok r := by
  unfold clusterDest
  obtain ⟨r1, h1⟩ := subIsEnclosed_total hl hs
  obtain ⟨r2, h2⟩ := subIsEnclosed_total hr hs
  rw [h1, h2]
  cases r1 <;> cases r2 <;> exact ⟨_, rfl⟩

/-! ### moving -/

omit [Floats] in
theorem removeSub_length {id : Nat} : ∀ {l l' : List Sub}, removeSub id l = some l' → l'.length + 1 = l.length
  | [], _, h => by simp [removeSub] at h
  | x :: xs, l', h => by
    simp only [removeSub] at h
    split at h
    · cases h; rfl
    · cases hx : removeSub id xs with
      | none => rw [hx] at h; cases h
      | some k =>
        rw [hx] at h
        cases h
        have := removeSub_length hx
        simp only [List.length_cons]
        omega

omit [Floats] in
theorem moveLoop_total {δ : Type} {dest : Sub → Except Fault (Option δ)} :
    ∀ {l kept : List Sub} {moved : List (δ × Sub)}, (∀ s ∈ l, ∃ r, dest s = .ok r) →
      ∃ kept' moved', moveLoop dest kept l moved = .ok (kept', moved') ∧
        kept'.length + moved'.length = kept.length + moved.length + l.length ∧ moved.length ≤ moved'.length ∧
        ((∃ s ∈ l, ∃ d, dest s = .ok (some d)) → moved.length < moved'.length) := by
  intro l
  induction l with
  | nil => intro kept moved _; exact ⟨kept, moved, rfl, by simp, Nat.le_refl _, by rintro ⟨s, hs, _⟩; cases hs⟩
  | cons s rest ih =>
    intro kept moved h
    obtain ⟨r, hr⟩ := h s List.mem_cons_self
    have hrest := fun t ht => h t (List.mem_cons_of_mem _ ht)
    cases r with
    | none =>
      obtain ⟨k, m, h1, h2, h3, h4⟩ := ih (kept := kept ++ [s]) (moved := moved) hrest
      refine ⟨k, m, by simp only [moveLoop, hr, h1], ?_, h3, ?_⟩
      · simp only [List.length_append, List.length_cons, List.length_nil] at h2 ⊢; omega
      · rintro ⟨t, ht, d, hd⟩
        rcases List.mem_cons.1 ht with rfl | ht
        · rw [hr] at hd; cases hd
        · exact h4 ⟨t, ht, d, hd⟩
    | some d =>
      cases hk : removeSub s.id kept with
      | some k0 =>
        obtain ⟨k, m, h1, h2, h3, h4⟩ := ih (kept := k0 ++ [s]) (moved := moved ++ [(d, s)]) hrest
        have := removeSub_length hk
        refine ⟨k, m, by simp only [moveLoop, hr, hk, h1], ?_, ?_, fun _ => ?_⟩ <;>
          simp only [List.length_append, List.length_cons, List.length_nil] at h2 h3 ⊢ <;> omega
      | none =>
        obtain ⟨k, m, h1, h2, h3, h4⟩ := ih (kept := kept) (moved := moved ++ [(d, s)]) hrest
        refine ⟨k, m, by simp only [moveLoop, hr, hk, h1], ?_, ?_, fun _ => ?_⟩ <;>
          simp only [List.length_append, List.length_cons, List.length_nil] at h2 h3 ⊢ <;> omega

omit [Floats] in
theorem movedTo_length (side : Bool) (m : List (Bool × Sub)) : (movedTo side m).length ≤ m.length := by
  unfold movedTo
  rw [List.length_map]
  exact List.length_filter_le _ _

/-! ### splitting -/

theorem isAtomic_total {cfg : Config} {v : Nat} {b : Bound} {ol or : Bool} {d : Domain} (hb : BInv cfg v b ol or d) :
    ∃ r, isAtomic b = .ok r := by
  have h1 : b.ty ≠ .segments := by rw [hb.ty]; exact hb.lim.seg
  have h2 : b.ty ≠ .freq := by rw [hb.ty]; exact hb.lim.freq
  have h3 := hb.lohi
  obtain ⟨ty, lo, hi⟩ := b
  unfold isAtomic
  dsimp only at h1 h2 h3 ⊢
  cases ty <;> first
    | exact absurd rfl h1
    | exact absurd rfl h2
    | (cases lo <;> cases hi <;> first | (cases h3; done) | exact ⟨_, rfl⟩)

/-- an interval that is not a single value splits in two smaller ones -/
theorem splitBound_total' {cfg : Config} {v : Nat} {b : Bound} {ol or : Bool} {d : Domain} (hb : BInv cfg v b ol or d)
    (h4 : ∀ x, b.lo ≠ .f x) (hw : b.width < maxDomainForSplit) (ha : isAtomic b = .ok false) :
    ∃ bl br, splitBound b = .ok (bl, br) ∧ bl.width < b.width ∧ br.width < b.width := by
  have h1 : b.ty ≠ .segments := by rw [hb.ty]; exact hb.lim.seg
  have h2 : b.ty ≠ .freq := by rw [hb.ty]; exact hb.lim.freq
  have h3 := hb.lohi
  have hsz := hb.size
  obtain ⟨ty, lo, hi⟩ := b
  dsimp only at h1 h2 h3 h4 hsz
  simp only [Bound.width, maxDomainForSplit] at hw
  cases lo <;> cases hi <;> simp only [Scalar.le, Bool.false_eq_true, decide_eq_true_eq] at h3
  · rename_i x y
    have hne : x ≠ y := by
      intro hxy; subst hxy
      unfold isAtomic at ha
      cases ty <;> simp at ha h1 h2
    refine ⟨_, _, by rw [splitBound_bool h1 h2, if_pos hne], ?_, ?_⟩ <;> simp [Bound.width, hne]
  · rename_i x y
    have hne : x ≠ y := by
      intro hxy; subst hxy
      unfold isAtomic at ha
      cases ty <;> simp at ha h1 h2
    dsimp only at hw
    rw [splitBound_int h1 h2, intDiff_total h3 (by simp only [int64Max]; omega)]
    dsimp only
    by_cases g1 : (y - x).toNat > 2
    · rw [if_pos g1]
      refine ⟨_, _, rfl, ?_, ?_⟩ <;> simp only [Bound.width] <;>
        rw [Int.tdiv_eq_ediv_of_nonneg (by omega)] <;> omega
    · rw [if_neg g1]
      by_cases g2 : (y - x).toNat = 2
      · rw [if_pos g2]; refine ⟨_, _, rfl, ?_, ?_⟩ <;> simp only [Bound.width] <;> omega
      · rw [if_neg g2, if_pos (by omega)]; refine ⟨_, _, rfl, ?_, ?_⟩ <;> simp only [Bound.width] <;> omega
  · exact absurd rfl (h4 _)
  · rename_i x y
    have hne : x ≠ y := by
      intro hxy; subst hxy
      unfold isAtomic at ha
      cases ty <;> simp at ha h1 h2
    have hy := hsz y rfl
    rw [splitBound_size h1 h2]
    have hn : (y + (2 ^ 64 - x % 2 ^ 64)) % 2 ^ 64 = y - x := by omega
    dsimp only
    rw [hn]
    by_cases g1 : y - x > 2
    · rw [if_pos g1]
      refine ⟨_, _, rfl, ?_, ?_⟩ <;> simp only [Bound.width] <;> omega
    · rw [if_neg g1]
      by_cases g2 : y - x = 2
      · rw [if_pos g2]; refine ⟨_, _, rfl, ?_, ?_⟩ <;> simp only [Bound.width] <;> omega
      · rw [if_neg g2, if_pos (by omega)]; refine ⟨_, _, rfl, ?_, ?_⟩ <;> simp only [Bound.width] <;> omega

/-- how many times an interval, and its parts, can be split -/
def Bound.Depth (n : Nat) (b : Bound) : Prop := b.width ≤ n ∧ ∀ x y, b.lo = .f x → b.hi = .f y → CutsUp n x y

theorem splitBound_total {cfg : Config} {v : Nat} {b : Bound} {ol or : Bool} {d : Domain} (hb : BInv cfg v b ol or d)
    {n : Nat} (hd : b.Depth n) (hn : n < maxDomainForSplit) (ha : isAtomic b = .ok false) :
    ∃ bl br k, splitBound b = .ok (bl, br) ∧ n = k + 1 ∧ bl.Depth k ∧ br.Depth k := by
  have hle := hb.lohi
  by_cases hf : ∃ x, b.lo = .f x
  · obtain ⟨x, hx⟩ := hf
    obtain ⟨y, hy⟩ : ∃ y, b.hi = .f y := by
      rw [hx] at hle
      cases hy : b.hi <;> rw [hy] at hle <;> first | (cases hle; done) | exact ⟨_, rfl⟩
    have h1 : b.ty ≠ .segments := by rw [hb.ty]; exact hb.lim.seg
    have h2 : b.ty ≠ .freq := by rw [hb.ty]; exact hb.lim.freq
    have hc := hd.2 x y hx hy
    have hs : ∃ bl br, splitBound b = .ok (bl, br) := by
      obtain ⟨ty, lo, hi⟩ := b
      dsimp only at hx hy h1 h2
      subst hx; subst hy
      rw [splitBound_float h1 h2]
      cases hc with
      | point hp =>
        unfold isAtomic at ha
        cases ty <;> simp [feq, hp] at ha h1 h2
      | cut hc _ _ => rw [hc]; exact ⟨_, _, rfl⟩
    obtain ⟨bl, br, hs⟩ := hs
    obtain ⟨k, hk, f1, f2⟩ := split_fine hle ha hd.2 hs hx hy
    obtain ⟨t1, t2, e1, e2, -⟩ := split_shape hle hb.size hb.halved hs
    have w1 : bl.width = 0 := by unfold Bound.width; rw [e1, hx]
    have w2 : br.width = 0 := by unfold Bound.width; rw [e2, hy]; cases br.lo <;> rfl
    exact ⟨bl, br, k, hs, hk, ⟨by omega, f1⟩, ⟨by omega, f2⟩⟩
  · rw [not_exists] at hf
    obtain ⟨bl, br, hs, w1, w2⟩ := splitBound_total' hb hf (Nat.lt_of_le_of_lt hd.1 hn) ha
    obtain ⟨t1, t2, e1, e2, l1, l2, -⟩ := split_shape hle hb.size hb.halved hs
    have := hd.1
    refine ⟨bl, br, n - 1, hs, by omega, ⟨by omega, fun x y hx _ => ?_⟩, ⟨by omega, fun x y hx hy => ?_⟩⟩
    · rw [e1] at hx; exact absurd hx (hf x)
    · rw [e2] at hy; rw [hy] at hle
      cases hlo : b.lo <;> rw [hlo] at hle <;> first | (cases hle; done) | exact absurd hlo (hf _)

omit [Floats] in
theorem finishPartition_total {cfg : Config} (hc : cfg.lnodeMaxCap ≠ 0) (subs : List Sub) (pns : PNodes) :
    ∃ c, finishPartition cfg subs pns = .ok c := by
  unfold finishPartition clusterCapacity
  rw [if_neg hc]
  exact ⟨_, rfl⟩

/-! ### restructuring -/

/-- the variables not used by an ancestor -/
def free (n : Nat) (used : List Nat) : Nat := ((List.range n).filter (fun j => decide (j ∉ used))).length

omit [Floats] in
theorem free_cons {n v : Nat} {used : List Nat} (h1 : v < n) (h2 : v ∉ used) : free n (v :: used) < free n used := by
  unfold free
  rw [← List.countP_eq_length_filter, ← List.countP_eq_length_filter]
  have key : ∀ l : List Nat, l.countP (fun j => decide (j ∉ v :: used)) ≤ l.countP (fun j => decide (j ∉ used)) := by
    intro l
    apply List.countP_mono_left
    intro x _ hx
    simp only [decide_eq_true_eq, List.mem_cons, not_or] at hx ⊢
    exact hx.2
  have : ∀ l : List Nat, v ∈ l → l.countP (fun j => decide (j ∉ v :: used)) < l.countP (fun j => decide (j ∉ used)) := by
    intro l
    induction l with
    | nil => intro h; cases h
    | cons x xs ih =>
      intro h
      rw [List.countP_cons, List.countP_cons]
      by_cases hx : x = v
      · subst hx
        have := key xs
        simp [h2]
        simp at this
        omega
      · have := ih (by rcases List.mem_cons.1 h with h | h; exact absurd h.symm hx; exact h)
        by_cases hu : x ∈ used <;> simp [hx, hu] at this ⊢ <;> omega
  exact this _ (List.mem_range.2 h1)

omit [Floats] in
theorem free_cons_le (n v : Nat) (used : List Nat) : free n (v :: used) ≤ free n used := by
  unfold free
  rw [← List.countP_eq_length_filter, ← List.countP_eq_length_filter]
  apply List.countP_mono_left
  intro x _ hx
  simp only [decide_eq_true_eq, List.mem_cons, not_or] at hx ⊢
  exact hx.2

omit [Floats] in
theorem free_le (n : Nat) (used : List Nat) : free n used ≤ n := by
  unfold free
  exact Nat.le_trans (List.length_filter_le _ _) (by simp)

theorem restructure_total {R : Rounding} (hR : Sane R) {cfg : Config} (hcfg : DomsOK cfg) (hn : NarrowCfg cfg) {P : Nat → Prop} (hP : CopesDoms P cfg)
    (hc : cfg.lnodeMaxCap ≠ 0) (fuel : Nat) :
    (∀ used subs max pns, (∀ s ∈ subs, Fit P cfg s) → 1 + subs.length + 1001 * free cfg.domains.length used ≤ fuel →
      ∃ c, partition R cfg fuel used subs max pns = .ok c) ∧
    (∀ used v b subs max pns ol or d, (∀ s ∈ subs, Fit P cfg s) → BInv cfg v b ol or d →
      ∀ n, b.Depth n → n < maxDomainForSplit → n + 2 + subs.length + 1001 * free cfg.domains.length (v :: used) ≤ fuel →
      ∃ cd, cluster R cfg fuel used (.leaf v b (.mk subs max pns)) = .ok cd) := by
  induction fuel with
  | zero => constructor <;> intros <;> omega
  | succ fuel ih =>
    obtain ⟨ihp, ihc⟩ := ih
    constructor
    · intro used subs max pns hs hf
      simp only [partition]
      by_cases h0 : subs.length > max
      · rw [if_pos h0]
        obtain ⟨r, h1, h2⟩ := nextHighest_total hR hcfg hn hP (used := used) hs
        cases r with
        | none => rw [h1]; exact finishPartition_total hc _ _
        | some v =>
          obtain ⟨d, hd, hsp⟩ := nextHighest_splitable h1
          rw [h1]
          dsimp only
          by_cases h3 : countAttr v subs < cfg.partitionMinSize
          · rw [if_pos h3]; exact finishPartition_total hc _ _
          · rw [if_neg h3]
            obtain ⟨hv1, hv2, s, hs1, hs2⟩ := h2 v rfl
            have hda := hcfg v d hd
            have hlim := splitable_limited hda.ok hsp
            simp only [getDomain, hd]
            obtain ⟨kept, moved, h4, h5, h6, h7⟩ := moveLoop_total (dest := fun s => .ok (if s.has v then some () else none))
              (l := subs) (kept := []) (moved := []) (fun s _ => ⟨_, rfl⟩)
            have h7 := h7 ⟨s, hs1, (), by rw [if_pos hs2]⟩
            obtain ⟨m1, m2⟩ := moveLoop_subset _ _ _ _ _ _ h4
            rw [h4]
            dsimp only
            simp only [List.length_nil, Nat.zero_add] at h5 h7
            have hfree := free_cons hv1 hv2
            have hwid := splitable_width hda.ok hsp
            obtain ⟨cd, h8⟩ := ihc used v d.bound (moved.map (·.2)) cfg.lnodeMaxCap .nil true true d (by
                intro t ht
                obtain ⟨x, hx, rfl⟩ := List.mem_map.1 ht
                rcases m2 x hx with h | h
                · cases h
                · exact hs _ h.1) (BInv.root hda hlim) 999 ⟨by simp only [maxDomainForSplit] at hwid; omega, fun x y hx hy => by
                  have ht : d.bound.ty = .float := by
                    have k := hda.ok.kind.1
                    rw [hx] at k
                    cases hty : d.bound.ty <;> rw [hty] at k <;> first | rfl | (cases k; done)
                  exact (hP.fine hcfg) v d ((hs s hs1).floats v d hs2 hd hlim ht) hd hsp x y hx hy⟩ (by simp [maxDomainForSplit]) (by
                rw [List.length_map]
                simp only [maxDomainForSplit] at hwid
                omega)
            rw [h8]
            dsimp only
            exact ihp _ _ _ _ (by
              intro t ht
              rcases m1 t ht with h | h
              · cases h
              · exact hs t h) (by omega)
      · rw [if_neg h0]; exact finishPartition_total hc _ _
    · intro used v b subs max pns ol or d hs hb n hdep hw hf
      simp only [cluster]
      by_cases h0 : subs.length > max
      · rw [if_pos h0]
        obtain ⟨r, h1⟩ := isAtomic_total hb
        rw [h1]
        cases r with
        | true =>
          dsimp only
          obtain ⟨c, h2⟩ := ihp (v :: used) subs max pns hs (by omega)
          rw [h2]; exact ⟨_, rfl⟩
        | false =>
          dsimp only
          obtain ⟨bl, br, k, h2, hk, w1, w2⟩ := splitBound_total hb hdep hw h1
          obtain ⟨bl1, br1⟩ := hb.split h2
          rw [h2]
          dsimp only
          obtain ⟨kept, moved, h4, h5, h6, _⟩ := moveLoop_total (dest := clusterDest cfg v bl br) (l := subs) (kept := []) (moved := [])
            (fun s h => clusterDest_total bl1 br1 (hs s h))
          obtain ⟨m1, m2⟩ := moveLoop_subset _ _ _ _ _ _ h4
          simp only [List.length_nil, Nat.zero_add] at h5
          rw [h4]
          dsimp only
          have mem : ∀ side, ∀ t ∈ movedTo side moved, Fit P cfg t := by
            intro side t ht
            simp only [movedTo, List.mem_map, List.mem_filter] at ht
            obtain ⟨x, ⟨hx, _⟩, rfl⟩ := ht
            rcases m2 x hx with h | h
            · cases h
            · exact hs _ h.1
          obtain ⟨c, h8⟩ := ihp (v :: used) kept max pns (by
              intro t ht
              rcases m1 t ht with h | h
              · cases h
              · exact hs t h) (by omega)
          have l1 := movedTo_length true moved
          have l2 := movedTo_length false moved
          obtain ⟨cl, h9⟩ := ihc used v bl (movedTo true moved) cfg.lnodeMaxCap .nil ol false d (mem true) bl1 k w1 (by omega) (by omega)
          obtain ⟨cr, h10⟩ := ihc used v br (movedTo false moved) cfg.lnodeMaxCap .nil false or d (mem false) br1 k w2 (by omega) (by omega)
          rw [h8, h9, h10]
          exact ⟨_, rfl⟩
      · rw [if_neg h0]; exact ⟨_, rfl⟩

theorem cluster_node_total {R : Rounding} (hR : Sane R) {cfg : Config} (hcfg : DomsOK cfg) (hn : NarrowCfg cfg) {P : Nat → Prop} (hP : CopesDoms P cfg)
    (hc : cfg.lnodeMaxCap ≠ 0) {fuel : Nat} {used : List Nat} {v : Nat} {b : Bound} {subs : List Sub} {max : Nat} {pns : PNodes}
    {l r : CDir} (hs : ∀ s ∈ subs, Fit P cfg s) (hf : 2 + subs.length + 1001 * free cfg.domains.length (v :: used) ≤ fuel) :
    ∃ cd, cluster R cfg fuel used (.node v b (.mk subs max pns) l r) = .ok cd := by
  cases fuel with
  | zero => omega
  | succ fuel =>
    simp only [cluster]
    by_cases h0 : subs.length > max
    · rw [if_pos h0]
      obtain ⟨c, h⟩ := (restructure_total hR hcfg hn hP hc fuel).1 (v :: used) subs max pns hs (by omega)
      rw [h]; exact ⟨_, rfl⟩
    · rw [if_neg h0]; exact ⟨_, rfl⟩

/-! ### insertion -/

omit [Floats] in
theorem bestPartition_mem {used : List Nat} {s : Sub} {pns : PNodes} : ∀ {n i : Nat} {best : Option (Nat × Rat)} {v : Nat} {m : Rat},
    (∀ w k, best = some (w, k) → s.has w = true ∧ pns.score? w ≠ none) → bestPartition used s pns n i best = some (v, m) →
    s.has v = true ∧ pns.score? v ≠ none := by
  intro n
  induction n with
  | zero => intro i best v m hb h; exact hb v m h
  | succ n ih =>
    intro i best v m hb h
    simp only [bestPartition] at h
    by_cases h1 : s.has i = true ∧ i ∉ used
    · rw [if_pos h1] at h
      split at h
      · exact ih hb h
      · rename_i sc hsc
        refine ih (fun w k hw => ?_) h
        cases hw
        exact ⟨h1.1, by rw [hsc]; simp⟩
      · rename_i sc w' m' hsc
        refine ih (fun w k hw => ?_) h
        by_cases h2 : m' < sc
        · rw [if_pos h2] at hw
          cases hw
          exact ⟨h1.1, by rw [hsc]; simp⟩
        · rw [if_neg h2] at hw
          exact hb w k hw
    · rw [if_neg h1] at h
      exact ih hb h

omit [Floats] in
theorem choosePartition_mem {cfg : Config} {used : List Nat} {s : Sub} {pns : PNodes} {v : Nat}
    (h : choosePartition cfg used s pns = some v) : s.has v = true ∧ pns.score? v ≠ none := by
  unfold choosePartition at h
  obtain ⟨⟨w, m⟩, h1, h2⟩ := Option.map_eq_some_iff.1 h
  cases h2
  exact bestPartition_mem (by simp) h1

/-- the domains of an expression that is fit can be coped with -/
theorem Fit.at {P : Nat → Prop} {cfg : Config} {s : Sub} (h : Fit P cfg s) (hP : CopesDoms P cfg) {v : Nat} {b : Bound} {ol or : Bool} {d : Domain} (hb : BInv cfg v b ol or d)
    (hv : s.has v = true) : d.bound.Copes := h.copes hP hv hb.dom.get hb.lim

theorem partitionScore_total {R : Rounding} {cfg : Config} (hn : NarrowCfg cfg) {v : Nat} {b : Bound} {ol or : Bool} {d : Domain}
    (hb : BInv cfg v b ol or d) (hf : d.bound.Copes) (c : CDir) : ∃ s, partitionScore R cfg v c = .ok s := by
  unfold partitionScore
  obtain ⟨x, h⟩ := getScore_total (R := R) (c := c.countAttr v) hb.dom.ok (hn d (List.mem_of_getElem? hb.dom.get)) hb.lim hf
  simp only [getDomain, hb.dom.get, h]
  exact ⟨_, rfl⟩

mutual
theorem PNodes.insert_total {R : Rounding} (hR : Sane R) {cfg : Config} (hcfg : DomsOK cfg) (hn : NarrowCfg cfg) {P : Nat → Prop} (hP : CopesDoms P cfg)
    (hc : cfg.lnodeMaxCap ≠ 0) {fuel : Nat} {used : List Nat} {v : Nat} {s : Sub} (hs : Fit P cfg s) (hv : s.has v = true) :
    ∀ {pns : PNodes}, pns.Pr cfg → pns.Sh P → (∀ t ∈ pns.contents, Fit P cfg t) → pns.score? v ≠ none →
      1100 * (cfg.domains.length + 1) + pns.size ≤ fuel → ∃ p, pns.insert R cfg fuel used v s = .ok p
  | .nil, _, _, _, h, _ => by simp [PNodes.score?] at h
  | .cons v' sc cd rest, hp, hsh, ht, h, hf => by
    simp only [PNodes.insert]
    simp only [PNodes.Pr] at hp
    simp only [PNodes.Sh] at hsh
    simp only [PNodes.contents, List.mem_append] at ht
    simp only [PNodes.size] at hf
    by_cases h1 : v = v'
    · rw [if_pos h1]
      subst h1
      obtain ⟨d, hd⟩ := hp.1.inv
      rw [hsh.1] at hd
      obtain ⟨cd', h2⟩ := CDir.insert_total hR hcfg hn hP hc (used := used) (fuel := fuel) hs (by rw [hsh.1]; exact hv) hp.1 hsh.2.1
        (fun t h => ht t (.inl h)) (by omega)
      obtain ⟨x, h3⟩ := partitionScore_total (R := R) hn hd (hs.at hP hd hv) cd'
      rw [h2]
      dsimp only
      rw [h3]
      exact ⟨_, rfl⟩
    · rw [if_neg h1]
      obtain ⟨r, h2⟩ := PNodes.insert_total hR hcfg hn hP hc (used := used) (fuel := fuel) hs hv hp.2 hsh.2.2 (fun t h => ht t (.inr h))
        (by simpa [PNodes.score?, h1] using h) (by omega)
      rw [h2]; exact ⟨_, rfl⟩

theorem CDir.insert_total {R : Rounding} (hR : Sane R) {cfg : Config} (hcfg : DomsOK cfg) (hn : NarrowCfg cfg) {P : Nat → Prop} (hP : CopesDoms P cfg)
    (hc : cfg.lnodeMaxCap ≠ 0) {fuel : Nat} {used : List Nat} {s : Sub} (hs : Fit P cfg s) :
    ∀ {ol or : Bool} {cd : CDir}, s.has cd.var = true → cd.Pr cfg ol or → cd.Sh P → (∀ t ∈ cd.contents, Fit P cfg t) →
      1100 * (cfg.domains.length + 1) + cd.size ≤ fuel → ∃ c, cd.insert R cfg fuel used s = .ok c
  | ol, or, .leaf v b (.mk subs max pns), hv, hp, hsh, ht, hf => by
    obtain ⟨d, hd⟩ := hp.inv
    replace hd : BInv cfg v b ol or d := hd
    replace hv : s.has v = true := hv
    simp only [CDir.Pr, CNode.Pr] at hp
    simp only [CDir.Sh, CNode.Sh] at hsh
    simp only [CDir.contents, CNode.contents, List.mem_append] at ht
    simp only [CDir.size, CNode.size] at hf
    simp only [CDir.insert]
    cases h1 : choosePartition cfg (v :: used) s pns with
    | none =>
      dsimp only
      refine (restructure_total hR hcfg hn hP hc fuel).2 used v b (subs ++ [s]) max pns ol or d ?_ hd 999 ⟨by have := hsh.1.1; simp only [maxDomainForSplit] at this; omega, fun x y hx hy => by
        have ht : d.bound.ty = .float := by
          have k := le_kind hd.dlo
          rw [hx, hd.dom.ok.kind.1] at k
          cases hty : d.bound.ty <;> rw [hty] at k <;> first | rfl | (cases k; done)
        exact hsh.1.2 (hs.floats v d hv hd.dom.get hd.lim ht) x y hx hy⟩ (by simp [maxDomainForSplit]) ?_
      · intro t h
        rcases List.mem_append.1 h with h | h
        · exact ht t (.inl h)
        · rw [List.mem_singleton.1 h]; exact hs
      · have := free_le cfg.domains.length (v :: used)
        simp only [List.length_append, List.length_cons, List.length_nil]
        omega
    | some w =>
      obtain ⟨h2, h3⟩ := choosePartition_mem h1
      obtain ⟨p, h4⟩ := PNodes.insert_total hR hcfg hn hP hc (used := v :: used) (fuel := fuel) hs h2 hp.2 hsh.2 (fun t h => ht t (.inr h)) h3
        (by omega)
      dsimp only
      rw [h4]; exact ⟨_, rfl⟩
  | ol, or, .node v b (.mk subs max pns) l r, hv, hp, hsh, ht, hf => by
    obtain ⟨d, hd⟩ := hp.inv
    replace hd : BInv cfg v b ol or d := hd
    replace hv : s.has v = true := hv
    simp only [CDir.Pr, CNode.Pr] at hp
    obtain ⟨_, hpn, hlv, hrv, hl, hr, _⟩ := hp
    simp only [CDir.Sh, CNode.Sh] at hsh
    simp only [CDir.contents, CNode.contents, List.mem_append] at ht
    simp only [CDir.size, CNode.size] at hf
    obtain ⟨dl, hdl⟩ := hl.inv
    obtain ⟨dr, hdr⟩ := hr.inv
    obtain ⟨rl, e1⟩ := subIsEnclosed_total hdl hs
    obtain ⟨rr, e2⟩ := subIsEnclosed_total hdr hs
    simp only [CDir.insert]
    rw [e1]
    cases rl with
    | true =>
      obtain ⟨c, h⟩ := CDir.insert_total hR hcfg hn hP hc (used := used) (fuel := fuel) hs (by rw [hlv]; exact hv) hl hsh.2.2.1
        (fun t h => ht t (.inl (.inr h))) (by omega)
      dsimp only
      rw [h]; exact ⟨_, rfl⟩
    | false =>
      dsimp only
      rw [e2]
      cases rr with
      | true =>
        obtain ⟨c, h⟩ := CDir.insert_total hR hcfg hn hP hc (used := used) (fuel := fuel) hs (by rw [hrv]; exact hv) hr hsh.2.2.2
          (fun t h => ht t (.inr h)) (by omega)
        dsimp only
        rw [h]; exact ⟨_, rfl⟩
      | false =>
        dsimp only
        cases h1 : choosePartition cfg (v :: used) s pns with
        | none =>
          dsimp only
          refine cluster_node_total hR hcfg hn hP hc ?_ ?_
          · intro t h
            rcases List.mem_append.1 h with h | h
            · exact ht t (.inl (.inl (.inl h)))
            · rw [List.mem_singleton.1 h]; exact hs
          · have := free_le cfg.domains.length (v :: used)
            simp only [List.length_append, List.length_cons, List.length_nil]
            omega
        | some w =>
          obtain ⟨h2, h3⟩ := choosePartition_mem h1
          obtain ⟨p, h4⟩ := PNodes.insert_total hR hcfg hn hP hc (used := v :: used) (fuel := fuel) hs h2 hpn hsh.2.1
            (fun t h => ht t (.inl (.inl (.inr h)))) h3 (by omega)
          dsimp only
          rw [h4]; exact ⟨_, rfl⟩
end

theorem CNode.insert_total {R : Rounding} (hR : Sane R) {cfg : Config} (hcfg : DomsOK cfg) (hn : NarrowCfg cfg) {P : Nat → Prop} (hP : CopesDoms P cfg)
    (hc : cfg.lnodeMaxCap ≠ 0) {s : Sub} (hs : Fit P cfg s) {c : CNode} (hp : c.Pr cfg) (hsh : c.Sh P) (ht : ∀ t ∈ c.contents, Fit P cfg t) :
    ∃ c', c.insert R cfg s = .ok c' := by
  obtain ⟨subs, max, pns⟩ := c
  simp only [CNode.Pr] at hp
  simp only [CNode.Sh] at hsh
  simp only [CNode.contents, List.mem_append] at ht
  simp only [CNode.insert]
  cases h1 : choosePartition cfg [] s pns with
  | none =>
    dsimp only
    refine (restructure_total hR hcfg hn hP hc _).1 [] (subs ++ [s]) max pns ?_ ?_
    · intro t h
      rcases List.mem_append.1 h with h | h
      · exact ht t (.inl h)
      · rw [List.mem_singleton.1 h]; exact hs
    · have := free_le cfg.domains.length []
      simp only [insertFuel, CNode.size, List.length_append, List.length_cons, List.length_nil]
      omega
  | some w =>
    obtain ⟨h2, h3⟩ := choosePartition_mem h1
    obtain ⟨p, h4⟩ := PNodes.insert_total hR hcfg hn hP hc (used := []) (fuel := insertFuel cfg (.mk subs max pns)) hs h2 hp hsh
      (fun t h => ht t (.inr h)) h3 (by simp only [insertFuel, CNode.size]; omega)
    dsimp only
    rw [h4]; exact ⟨_, rfl⟩

end BeTree
