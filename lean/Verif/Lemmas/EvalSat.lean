import Verif.Lemmas.Resolve
import Verif.Spec.Range
/-
Evaluating a stored expression decides whether the expression as written is true on the event as written.
-/
namespace BeTree
open Spec

/-! ### the value of an event variable -/

/-- how an entry of the environment relates to the value the caller gave -/
inductive ValRel (T : Config) (var : Nat) : Value → Value → Prop
  | bool (b) : ValRel T var (.bool b) (.bool b)
  | int (i) : ValRel T var (.int i) (.int i)
  | float (f) : ValRel T var (.float f) (.float f)
  | enumI (i) : ValRel T var (.int i) (.intEnum ⟨i, var, tryGetIdForIenum T var i⟩)
  | enumE (e) : ValRel T var (.intEnum e) (.intEnum ⟨e.integer, var, tryGetIdForIenum T var e.integer⟩)
  | str {s s'} (h : fillStr T var s = .ok s') : ValRel T var (.string s) (.string s')
  | intList (l) : ValRel T var (.intList l) (.intList (dedupBy id (sortBy id l)))
  | strNil : ValRel T var (.intList []) (.strList [])
  | segNil : ValRel T var (.intList []) (.segments [])
  | freqNil : ValRel T var (.intList []) (.freq [])
  | strList {l m} (h : List.Forall₂ (fun s s' => fillStr T var s = .ok s') l m) :
      ValRel T var (.strList l) (.strList (dedupBy StrVal.str (sortBy StrVal.str m)))
  | segments (l) : ValRel T var (.segments l) (.segments l)
  | freq {l m} (h : List.Forall₂ (fun c c' => ∃ ns, fillStr T var c.ns = .ok ns ∧ c' = { c with ns := ns }) l m) :
      ValRel T var (.freq l) (.freq m)

theorem fillStrs_forall₂ {T : Config} {var : Nat} {l m : List StrVal} (h : fillStrs T var l = .ok m) :
    List.Forall₂ (fun s s' => fillStr T var s = .ok s') l m := by
  induction l generalizing m with
  | nil => cases h; exact .nil
  | cons s ss ih =>
    rw [fillStrs] at h
    split at h
    · cases h
    · rename_i h1
      split at h
      · cases h
      · rename_i h2; cases h; exact .cons h1 (ih h2)

theorem fillCaps_forall₂ {T : Config} {var : Nat} {l m : List FreqCap} (h : fillCaps T var l = .ok m) :
    List.Forall₂ (fun c c' => ∃ ns, fillStr T var c.ns = .ok ns ∧ c' = { c with ns := ns }) l m := by
  induction l generalizing m with
  | nil => cases h; exact .nil
  | cons s ss ih =>
    rw [fillCaps] at h
    split at h
    · cases h
    · rename_i h1
      split at h
      · cases h
      · rename_i h2; cases h; exact .cons ⟨_, h1, rfl⟩ (ih h2)

theorem fillValue_rel {T : Config} {var : Nat} {ty : VType} {y z : Value} (h : fillValue T var ty y = .ok z) :
    ValRel T var y (sortValue z) := by
  cases y with
  | bool b => simp only [fillValue] at h; split at h <;> cases h; exact .bool b
  | int i => simp only [fillValue] at h; split at h <;> cases h; exact .int i; exact .enumI i
  | float f => simp only [fillValue] at h; split at h <;> cases h; exact .float f
  | string s =>
    simp only [fillValue] at h
    split at h
    · cases hs : fillStr T var s with
      | error e => rw [hs] at h; cases h
      | ok s' => rw [hs] at h; cases h; exact .str hs
    · cases h
  | intList l =>
    simp only [fillValue] at h
    split at h <;> cases h
    · exact .intList l
    · exact .strNil
    · exact .segNil
    · exact .freqNil
  | strList l =>
    simp only [fillValue] at h
    split at h
    · cases hs : fillStrs T var l with
      | error e => rw [hs] at h; cases h
      | ok s' => rw [hs] at h; cases h; exact .strList (fillStrs_forall₂ hs)
    · cases h
  | segments l => simp only [fillValue] at h; split at h <;> cases h; exact .segments l
  | freq l =>
    simp only [fillValue] at h
    split at h
    · cases hs : fillCaps T var l with
      | error e => rw [hs] at h; cases h
      | ok s' => rw [hs] at h; cases h; exact .freq (fillCaps_forall₂ hs)
    · cases h
  | intEnum e => simp only [fillValue] at h; split at h <;> cases h; exact .enumE e

/-- the tables are small enough for ids to be distinct from the code's "no id" -/
structure Small (T : Config) : Prop where
  domains : T.domains.length ≤ invalidId
  strs : ∀ v, (strTable T v).length < invalidId
  ints : ∀ v, (intTable T v).length < invalidId

/-- what evaluation reads for a variable of the expression, against what the event says -/
theorem lookup {T : Config} {ev : List EventVar} {env : Env} (hs : Small T) (he : eventEnv T ev = .ok env)
    {v v' : AttrVar} (hv : ResVar T v v') :
    getVariable env v'.var = .error .ub ∨
    (getVariable env v'.var = .ok none ∧ (eventOf ev).get v = none) ∨
    (∃ y x, getVariable env v'.var = .ok (some x) ∧ (eventOf ev).get v = some y ∧ ValRel T v'.var y x ∧
      ∃ u ∈ ev, u.value = y) := by
  have hlen := eventEnv_length he
  by_cases hinv : v'.var = invalidId
  · left
    unfold getVariable
    rw [hinv, List.getElem?_eq_none (by rw [hlen]; exact hs.domains)]
  · right
    have hne : tryGetIdForAttr T v.attr ≠ invalidId := by rw [← hv.var]; exact hinv
    have hlt := (tryGetId_lt hne).1
    have key := eventEnv_get he v'.var (by rw [hv.var]; exact hlt)
    have hfind : ev.reverse.find? (fun u => decide (tryGetIdForAttr T u.attr = v'.var)) =
        ev.reverse.find? (fun u => decide (lower u.attr = lower v.attr)) := by
      congr 1
      funext u
      apply decide_eq_decide.2
      rw [hv.var]
      exact ⟨fun h => (tryGetId_inj hne h.symm).symm, fun h => tryGetId_congr T h⟩
    rw [hfind] at key
    unfold Event.get eventOf
    split at key
    · rename_i hf
      left
      rw [hf]
      exact ⟨by unfold getVariable; rw [key], rfl⟩
    · rename_i u hf
      obtain ⟨x, hx1, hx2⟩ := key
      right
      rw [hf]
      refine ⟨u.value, sortValue x, by unfold getVariable; rw [hx2], rfl, ?_, u, ?_, rfl⟩
      · unfold fillOne at hx1
        split at hx1
        · cases hx1
        · split at hx1
          · cases hx1
          · split at hx1
            · cases hx1
            · rename_i h2
              simp only [Except.ok.injEq, Prod.mk.injEq] at hx1
              obtain ⟨h3, rfl⟩ := hx1
              rw [h3] at h2
              exact fillValue_rel h2
      · exact List.mem_reverse.1 (List.mem_of_find?_eq_some hf)

/-! ### ids stand for texts and integers -/

theorem get_ne_invalid {α : Type} {t : List α} (hl : t.length ≤ invalidId) {i : Nat} {x : α} (h : t[i]? = some x) :
    i ≠ invalidId := by
  have := (List.getElem?_eq_some_iff.1 h).1
  omega

theorem fillStr_inv {T : Config} {var : Nat} {x x' : StrVal} (h : fillStr T var x = .ok x') :
    x'.string = x.string ∧ tryGetIdForString T var x.string = .ok x'.str := by
  unfold fillStr at h
  split at h
  · cases h
  · rename_i h1; cases h; exact ⟨rfl, h1⟩

theorem strId_eq {T : Config} (_hs : Small T) (hok : TablesOK T) {var : Nat} {x x' k k' : StrVal}
    (hx : fillStr T var x = .ok x') (hk : ResStr T var k k') (hki : k'.str ≠ invalidId) :
    x'.str = k'.str ↔ x.string = k.string := by
  have hk1 := hk.sid.resolve_left hki
  rcases tryGetIdForString_ok (fillStr_inv hx).2 with h | ⟨h1, h2⟩
  · constructor
    · intro e
      rw [e, hk1] at h
      exact (Option.some.inj h).symm
    · intro e
      rw [e] at h
      have a := List.getElem?_eq_some_iff.1 h
      have b := List.getElem?_eq_some_iff.1 hk1
      exact (List.getElem_inj (hok.strNodup var)).1 (a.2.trans b.2.symm)
  · constructor
    · intro e; exact absurd (e.symm.trans h1) hki
    · intro e; rw [e] at h2; exact absurd (List.mem_of_getElem? hk1) h2

theorem mem_constIds {T : Config} (hs : Small T) (hok : TablesOK T) {var : Nat} {x x' : StrVal} {l m : List StrVal}
    (hx : fillStr T var x = .ok x') (h : List.Forall₂ (ResStr T var) l m) (hi : ∀ s ∈ m, s.str ≠ invalidId) :
    x'.str ∈ m.map StrVal.str ↔ x.string ∈ l.map StrVal.string := by
  induction h with
  | nil => simp
  | cons h1 _ ih =>
    rw [List.map_cons, List.mem_cons, List.map_cons, List.mem_cons, ih (fun s hs => hi s (List.mem_cons_of_mem _ hs)),
      strId_eq hs hok hx h1 (hi _ (List.mem_cons_self))]

theorem mem_eventIds {T : Config} (hs : Small T) (hok : TablesOK T) {var : Nat} {k k' : StrVal} {l m : List StrVal}
    (hk : ResStr T var k k') (hki : k'.str ≠ invalidId) (h : List.Forall₂ (fun s s' => fillStr T var s = .ok s') l m) :
    k'.str ∈ m.map StrVal.str ↔ k.string ∈ l.map StrVal.string := by
  induction h with
  | nil => simp
  | cons h1 _ ih =>
    rw [List.map_cons, List.mem_cons, List.map_cons, List.mem_cons, ih]
    constructor
    · rintro (h | h)
      · exact Or.inl ((strId_eq hs hok h1 hk hki).1 h.symm).symm
      · exact Or.inr h
    · rintro (h | h)
      · exact Or.inl ((strId_eq hs hok h1 hk hki).2 h.symm).symm
      · exact Or.inr h

/-- every constant has its position, texts stand for positions -/
theorem forall₂_mem_left {α β : Type} {P : α → β → Prop} {l : List α} {m : List β} (h : List.Forall₂ P l m) {a : α}
    (ha : a ∈ l) : ∃ b ∈ m, P a b := by
  induction h with
  | nil => cases ha
  | cons h1 _ ih =>
    rcases List.mem_cons.1 ha with rfl | ha
    · exact ⟨_, List.mem_cons_self, h1⟩
    · obtain ⟨b, h2, h3⟩ := ih ha; exact ⟨b, List.mem_cons_of_mem _ h2, h3⟩

theorem forall₂_mem_right {α β : Type} {P : α → β → Prop} {l : List α} {m : List β} (h : List.Forall₂ P l m) {b : β}
    (hb : b ∈ m) : ∃ a ∈ l, P a b := by
  induction h with
  | nil => cases hb
  | cons h1 _ ih =>
    rcases List.mem_cons.1 hb with rfl | hb
    · exact ⟨_, List.mem_cons_self, h1⟩
    · obtain ⟨a, h2, h3⟩ := ih hb; exact ⟨a, List.mem_cons_of_mem _ h2, h3⟩

theorem constIds_nodup {T : Config} {var : Nat} {l m : List StrVal} (h : List.Forall₂ (ResStr T var) l m)
    (hi : ∀ s ∈ m, s.str ≠ invalidId) (hn : (l.map StrVal.string).Nodup) : (m.map StrVal.str).Nodup := by
  induction h with
  | nil => exact List.nodup_nil
  | cons h1 h2 ih =>
    rename_i a b l m
    rw [List.map_cons, List.nodup_cons] at hn ⊢
    refine ⟨?_, ih (fun s hs => hi s (List.mem_cons_of_mem _ hs)) hn.2⟩
    intro hm
    obtain ⟨b', hb', he⟩ := List.mem_map.1 hm
    obtain ⟨a', ha', hr⟩ := forall₂_mem_right h2 hb'
    have e1 := hr.sid.resolve_left (hi _ (List.mem_cons_of_mem _ hb'))
    have e2 := h1.sid.resolve_left (hi _ List.mem_cons_self)
    rw [he, e2] at e1
    apply hn.1
    rw [Option.some.inj e1]
    exact List.mem_map_of_mem ha'

theorem strict_of_nodup {β : Type} [LT β] [LinLT β] {l : List β} (ha : Ascending l) (hn : l.Nodup) : StrictAsc l := by
  induction l with
  | nil => exact List.Pairwise.nil
  | cons x xs ih =>
    have h1 := List.pairwise_cons.1 ha
    have h2 := List.nodup_cons.1 hn
    refine List.pairwise_cons.2 ⟨?_, ih h1.2 h2.2⟩
    intro y hy
    rcases LinLT.tri x y with h | h | h
    · exact h
    · subst h; exact absurd hy h2.1
    · exact absurd h (h1.1 y hy)

theorem sort_nodup_strict {α β : Type} [LT β] [DecidableLT β] [DecidableEq β] [LinLT β] (key : α → β) {l : List α} (hn : (l.map key).Nodup) :
    StrictAsc ((sortBy key l).map key) :=
  strict_of_nodup (sortBy_ascending key l) ((((sortBy_perm key l).map key).nodup_iff).2 hn)

theorem mem_sort_map {α β : Type} [LT β] [DecidableLT β] [DecidableEq β] [LinLT β] (key : α → β) (l : List α) (k : β) :
    k ∈ (sortBy key l).map key ↔ k ∈ l.map key := by
  simp only [List.mem_map, sortBy_mem]

/-- the operator of a list predicate on sorted constants and sorted, duplicate-free event values -/
theorem applyListOp_spec {β : Type} [LT β] [DecidableLT β] [DecidableEq β] [LinLT β] (op : ListOp) {ys xs : List β}
    (hx : Ascending xs) (hy : StrictAsc ys) (hall : op = .allOf → StrictAsc xs) :
    applyListOp op ys xs = true ↔ listHolds op ys xs := by
  cases op with
  | oneOf => exact matchNotAllOf_spec ys xs hx hy.ascending
  | noneOf =>
    show (!matchNotAllOf ys xs) = true ↔ ¬ _
    rw [← matchNotAllOf_spec ys xs hx hy.ascending]
    cases matchNotAllOf ys xs <;> simp
  | allOf => exact matchAllOf_spec ys xs (hall rfl) hy

theorem listHolds_congr {α β : Type} (op : ListOp) {ys xs : List α} {ys' xs' : List β}
    (h1 : (∃ z, z ∈ xs ∧ z ∈ ys) ↔ (∃ z, z ∈ xs' ∧ z ∈ ys')) (h2 : (∀ z, z ∈ xs → z ∈ ys) ↔ (∀ z, z ∈ xs' → z ∈ ys')) :
    listHolds op ys xs ↔ listHolds op ys' xs' := by
  cases op with
  | oneOf => exact h1
  | noneOf => exact not_congr h1
  | allOf => exact h2

/-- every string and enum constant of a stored predicate was given an id -/
def Pred.AllIds : Pred → Prop
  | .equality _ _ (.string s) => s.str ≠ invalidId
  | .equality _ _ (.intEnum e) => e.ienum ≠ invalidId
  | .set _ (.string s) _ => s.str ≠ invalidId
  | .set _ _ (.strList l) => ∀ s ∈ l, s.str ≠ invalidId
  | .list _ _ (.strList l) => ∀ s ∈ l, s.str ≠ invalidId
  | .freq f => f.ns.str ≠ invalidId
  | _ => True

def Expr.AllIds : Expr → Prop
  | .leaf p => Pred.AllIds p
  | .not e => Expr.AllIds e
  | .and l r => Expr.AllIds l ∧ Expr.AllIds r
  | .or l r => Expr.AllIds l ∧ Expr.AllIds r

/-! ### one predicate -/

theorem setOp_iff {op : SetOp} {b : Bool} {c : Bool} {P : Prop} (hc : c = true ↔ P) (h : applySetOp op c = b) :
    b = true ↔ polar (SetOp.positive op) P := by
  subst h
  cases op <;> cases c <;> simp_all [applySetOp, polar, SetOp.positive]

theorem map_ok {α β : Type} {f : α → β} {a : Except Fault α} {b : β} (h : a.map f = .ok b) : ∃ x, a = .ok x ∧ f x = b := by
  cases a with
  | error e => cases h
  | ok x => cases h; exact ⟨x, rfl, rfl⟩

theorem dedup_sort_nil {α β : Type} [LT β] [DecidableLT β] [DecidableEq β] [LinLT β] (key : α → β) (l : List α) :
    dedupBy key (sortBy key l) = [] ↔ l = [] := by
  constructor
  · intro h
    cases l with
    | nil => rfl
    | cons a l =>
      have := (dedup_sort_keys key (a :: l) (key a)).2 (by simp)
      rw [h] at this; simp at this
  · rintro rfl; rfl

theorem forall₂_nil {α β : Type} {P : α → β → Prop} {l : List α} {m : List β} (h : List.Forall₂ P l m) : m = [] ↔ l = [] := by
  cases h <;> simp

theorem find_constant {cs : List Constant} {name : Str} {i : Int} (h : integerConstant name cs = some i) :
    (∃ c ∈ cs, c.value = .int i) ∧ (constants cs).find? (fun c => c.1 == name) = some (name, i) := by
  unfold integerConstant at h
  induction cs with
  | nil => simp at h
  | cons c cs ih =>
    obtain ⟨n, v⟩ := c
    simp only [List.find?_cons] at h
    by_cases hn : n = name
    · subst hn
      simp only [decide_true] at h
      split at h
      · rename_i hc
        cases hc
        cases h
        exact ⟨⟨_, List.mem_cons_self, rfl⟩, by simp [constants]⟩
      · cases h
    · simp only [hn, decide_false] at h
      obtain ⟨⟨c, h1, h2⟩, h3⟩ := ih h
      refine ⟨⟨c, List.mem_cons_of_mem _ h1, h2⟩, ?_⟩
      unfold constants at h3 ⊢
      rw [List.filterMap_cons]
      split
      · exact h3
      · rename_i b hb
        split at hb
        · cases hb
          rw [List.find?_cons]
          have : (n == name) = false := by simpa using hn
          simp only [this]
          exact h3
        · cases hb

theorem constants_get {cs : List Constant} {t : FreqType} {name : Str} {i : Int} (hname : constantName t = some name)
    (h : integerConstant name cs = some i) : (constants cs).get t = some i := by
  have h1 := (find_constant h).2
  unfold Constants.get
  cases t <;> simp only [constantName, Option.some.injEq, reduceCtorEq] at hname <;> subst hname <;>
    simp only [constName, h1, Option.map_some]

/-- the first matching cap, by namespace id and by namespace text -/
theorem find_cap {T : Config} (hs : Small T) (hok : TablesOK T) {var : Nat} {ns ns' : StrVal} (hst : ResStr T var ns ns')
    (hi : ns'.str ≠ invalidId) (t : FreqType) (id : Nat) {l m : List FreqCap}
    (h : List.Forall₂ (fun c c' => ∃ ns, fillStr T var c.ns = .ok ns ∧ c' = { c with ns := ns }) l m) :
    (l.find? (fun c => decide (c.type = t ∧ (c.id : Int) = (id : Int) ∧ c.ns.string = ns.string)) = none ∧
      m.find? (fun c => decide (c.type = t ∧ c.id = id ∧ c.ns.str = ns'.str)) = none) ∨
    (∃ c c', l.find? (fun c => decide (c.type = t ∧ (c.id : Int) = (id : Int) ∧ c.ns.string = ns.string)) = some c ∧
      m.find? (fun c => decide (c.type = t ∧ c.id = id ∧ c.ns.str = ns'.str)) = some c' ∧ c'.value = c.value ∧
      c'.timestampDefined = c.timestampDefined ∧ c'.timestamp = c.timestamp) := by
  induction h with
  | nil => left; exact ⟨rfl, rfl⟩
  | cons h1 h2 ih =>
    rename_i c c' l m
    obtain ⟨n, hn, rfl⟩ := h1
    have key := strId_eq hs hok hn hst hi
    simp only [List.find?_cons]
    by_cases hc : c.type = t ∧ c.id = id ∧ c.ns.string = ns.string
    · right
      have e1 : decide (c.type = t ∧ (c.id : Int) = (id : Int) ∧ c.ns.string = ns.string) = true := by
        rw [decide_eq_true_iff]; exact ⟨hc.1, by rw [hc.2.1], hc.2.2⟩
      have e2 : decide (c.type = t ∧ c.id = id ∧ n.str = ns'.str) = true := by
        rw [decide_eq_true_iff]; exact ⟨hc.1, hc.2.1, key.2 hc.2.2⟩
      simp only [e1, e2]
      exact ⟨_, _, rfl, rfl, rfl, rfl, rfl⟩
    · have e1 : decide (c.type = t ∧ (c.id : Int) = (id : Int) ∧ c.ns.string = ns.string) = false := by
        rw [decide_eq_false_iff_not]; rintro ⟨a, b, d⟩; exact hc ⟨a, by omega, d⟩
      have e2 : decide (c.type = t ∧ c.id = id ∧ n.str = ns'.str) = false := by
        rw [decide_eq_false_iff_not]; rintro ⟨a, b, d⟩; exact hc ⟨a, b, key.1 d⟩
      simp only [e1, e2]
      exact ih

theorem matchPred_sat {geo : GeoTest} {T : Config} {ev : List EventVar} {env : Env} {cs : List Constant} {p p' : Pred}
    {b : Bool} (hs : Small T) (hok : TablesOK T) (he : eventEnv T ev = .ok env) (hev : EventInRange ev)
    (hr : ResPred T cs p p') (hi : Pred.AllIds p') (hp : Pred.InRange p) (hcs : ConstantsInRange cs)
    (hm : matchPred geo env p' = .ok b) : b = true ↔ satPred geo (constants cs) (eventOf ev) p := by
  cases hr with
  | cmpInt hv hty =>
    rename_i op v v' k
    simp only [matchPred, matchCompare] at hm
    rcases lookup hs he hv with h | ⟨h, h'⟩ | ⟨y, x, h, h', hr, hu⟩
    · rw [h] at hm; cases hm
    · rw [h] at hm; cases hm; simp [satPred, h']
    · rw [h] at hm
      cases hr <;> first | (cases hm; done) | skip
      rename_i i
      simp only [Except.ok.injEq] at hm
      subst hm
      cases op <;> simp [satPred, h', cmpInt]
  | cmpIntF hv hty =>
    rename_i op v v' k
    simp only [matchPred, matchCompare] at hm
    rcases lookup hs he hv with h | ⟨h, h'⟩ | ⟨y, x, h, h', hr, hu⟩
    · rw [h] at hm; cases hm
    · rw [h] at hm; cases hm; simp [satPred, h']
    · rw [h] at hm
      cases hr <;> first | (cases hm; done) | skip
      rename_i i
      simp only [Except.ok.injEq] at hm
      subst hm
      cases op <;> simp [satPred, h', cmpRat]
  | cmpFloat hv =>
    rename_i op v v' k
    simp only [matchPred, matchCompare] at hm
    rcases lookup hs he hv with h | ⟨h, h'⟩ | ⟨y, x, h, h', hr, hu⟩
    · rw [h] at hm; cases hm
    · rw [h] at hm; cases hm; simp [satPred, h']
    · rw [h] at hm
      cases hr <;> first | (cases hm; done) | skip
      rename_i i
      simp only [Except.ok.injEq] at hm
      subst hm
      cases op <;> simp [satPred, h', cmpRat]
  | eqInt hv hty =>
    rename_i op v v' k
    simp only [matchPred, matchEquality] at hm
    rcases lookup hs he hv with h | ⟨h, h'⟩ | ⟨y, x, h, h', hr, hu⟩
    · rw [h] at hm; cases hm
    · rw [h] at hm; cases hm; simp [satPred, h', asInt]
    · rw [h] at hm
      cases hr <;> first | (cases hm; done) | skip
      rename_i i
      simp only [Except.ok.injEq] at hm
      subst hm
      cases op <;> simp [satPred, h', asInt, polar, EqOp.positive]
  | eqIntF hv hty =>
    rename_i op v v' k
    simp only [matchPred, matchEquality] at hm
    rcases lookup hs he hv with h | ⟨h, h'⟩ | ⟨y, x, h, h', hr, hu⟩
    · rw [h] at hm; cases hm
    · rw [h] at hm; cases hm; simp [satPred, h', asInt]
    · rw [h] at hm
      cases hr <;> first | (cases hm; done) | skip
      rename_i i
      simp only [Except.ok.injEq] at hm
      subst hm
      cases op <;> simp [satPred, h', asInt, polar, EqOp.positive, feq, fne, closeTo]
  | eqFloat hv =>
    rename_i op v v' k
    simp only [matchPred, matchEquality] at hm
    rcases lookup hs he hv with h | ⟨h, h'⟩ | ⟨y, x, h, h', hr, hu⟩
    · rw [h] at hm; cases hm
    · rw [h] at hm; cases hm; simp [satPred, h']
    · rw [h] at hm
      cases hr <;> first | (cases hm; done) | skip
      rename_i i
      simp only [Except.ok.injEq] at hm
      subst hm
      cases op <;> simp [satPred, h', polar, EqOp.positive, feq, fne, closeTo]
  | eqEnum hv hid hty =>
    rename_i op v v' k id
    simp only [matchPred, matchEquality] at hm
    have hid' := hid.resolve_left hi
    rcases lookup hs he hv with h | ⟨h, h'⟩ | ⟨y, x, h, h', hr, hu⟩
    · rw [h] at hm; cases hm
    · rw [h] at hm; cases hm; simp [satPred, h', asInt]
    · rw [h] at hm
      have key : ∀ i : Int, tryGetIdForIenum T v'.var i = id ↔ i = k := by
        intro i
        constructor
        · intro e
          rcases tryGetIdForIenum_ok e with h1 | h1
          · rw [hid'] at h1; exact (Option.some.inj h1).symm
          · exact absurd h1.1 hi
        · intro e; subst e; exact tryGetIdForIenum_of_get (hok.intNodup _) hid'
      cases hr <;> first | (cases hm; done) | skip
      · rename_i i
        simp only [Except.ok.injEq] at hm
        subst hm
        cases op <;> simp [satPred, h', asInt, polar, EqOp.positive, key]
      · rename_i i
        simp only [Except.ok.injEq] at hm
        subst hm
        cases op <;> simp [satPred, h', asInt, polar, EqOp.positive, key]
  | eqEnumRaw hv => exact absurd hp id
  | eqStr hv hst =>
    rename_i op v v' s s'
    simp only [matchPred, matchEquality] at hm
    rcases lookup hs he hv with h | ⟨h, h'⟩ | ⟨y, x, h, h', hr, hu⟩
    · rw [h] at hm; cases hm
    · rw [h] at hm; cases hm; simp [satPred, h']
    · rw [h] at hm
      cases hr <;> first | (cases hm; done) | skip
      rename_i x x' hx
      simp only [Except.ok.injEq] at hm
      subst hm
      have key := strId_eq hs hok hx hst hi
      cases op <;> simp [satPred, h', polar, EqOp.positive, key]
  | boolVar hv =>
    rename_i v v'
    simp only [matchPred, getBoolVar] at hm
    rcases lookup hs he hv with h | ⟨h, h'⟩ | ⟨y, x, h, h', hr, hu⟩
    · rw [h] at hm; cases hm
    · rw [h] at hm; cases hm; simp [satPred, h']
    · rw [h] at hm
      cases hr <;> first | (cases hm; done) | skip
      cases hm
      simp [satPred, h']
  | boolLit => cases hm; simp [satPred]
  | setInts hv =>
    rename_i op v v' l
    simp only [matchPred, matchSet, getIntVar] at hm
    rcases lookup hs he hv with h | ⟨h, h'⟩ | ⟨y, x, h, h', hr, hu⟩
    · rw [h] at hm; cases hm
    · rw [h] at hm; cases hm; simp [satPred, h']
    · rw [h] at hm
      cases hr <;> first | (cases hm; done) | skip
      rename_i i
      have hasc : Ascending (sortBy id l) := by simpa using sortBy_ascending id l
      simp only [bsearch_spec hasc] at hm
      obtain ⟨c, h1, h2⟩ := map_ok hm
      cases h1
      rw [setOp_iff (by rw [decide_eq_true_iff, sortBy_mem]) h2]
      simp [satPred, h']
  | setStrs hv hl =>
    rename_i op v v' l m
    simp only [matchPred, matchSet, getStringVar] at hm
    rcases lookup hs he hv with h | ⟨h, h'⟩ | ⟨y, x, h, h', hr, hu⟩
    · rw [h] at hm; cases hm
    · rw [h] at hm; cases hm; simp [satPred, h']
    · rw [h] at hm
      cases hr <;> first | (cases hm; done) | skip
      rename_i x x' hx
      simp only [bsearch_spec (sortBy_ascending StrVal.str m)] at hm
      obtain ⟨c, h1, h2⟩ := map_ok hm
      cases h1
      have hi' : ∀ s ∈ m, s.str ≠ invalidId := fun s hs => hi s ((sortBy_mem StrVal.str m s).2 hs)
      rw [setOp_iff (by rw [decide_eq_true_iff, mem_sort_map, mem_constIds hs hok hx hl hi']) h2]
      simp [satPred, h']
  | inInts hv =>
    rename_i op v v' k
    simp only [matchPred, matchSet, getIntListVar] at hm
    rcases lookup hs he hv with h | ⟨h, h'⟩ | ⟨y, x, h, h', hr, hu⟩
    · rw [h] at hm; cases hm
    · rw [h] at hm; cases hm; simp [satPred, h']
    · rw [h] at hm
      cases hr <;> first | (cases hm; done) | skip
      rename_i l
      have hasc : Ascending (dedupBy id (sortBy id l)) := by simpa using (dedup_sort_strict id l).ascending
      have hmem : k ∈ dedupBy id (sortBy id l) ↔ k ∈ l := by simpa using dedup_sort_keys id l k
      simp only [bsearch_spec hasc] at hm
      obtain ⟨c, h1, h2⟩ := map_ok hm
      cases h1
      rw [setOp_iff (by rw [decide_eq_true_iff, hmem]) h2]
      simp [satPred, h']
  | inStrs hv hst =>
    rename_i op v v' k k'
    simp only [matchPred, matchSet, getStrListVar] at hm
    rcases lookup hs he hv with h | ⟨h, h'⟩ | ⟨y, x, h, h', hr, hu⟩
    · rw [h] at hm; cases hm
    · rw [h] at hm; cases hm; simp [satPred, h', asTexts]
    · rw [h] at hm
      cases hr <;> first | (cases hm; done) | skip
      · simp only [List.map_nil] at hm
        rw [bsearch_spec (List.Pairwise.nil)] at hm
        obtain ⟨c, h1, h2⟩ := map_ok hm
        cases h1
        rw [setOp_iff (P := k.string ∈ ([] : List Str)) (by simp) h2]
        simp [satPred, h', asTexts]
      · rename_i l m hl
        dsimp only at hm
        rw [bsearch_spec (dedup_sort_strict StrVal.str m).ascending] at hm
        obtain ⟨c, h1, h2⟩ := map_ok hm
        cases h1
        rw [setOp_iff (by rw [decide_eq_true_iff, dedup_sort_keys, mem_eventIds hs hok hst hi hl]) h2]
        simp [satPred, h', asTexts]
  | setBad h _ _ _ => simp only [matchPred] at hm; rw [h env] at hm; cases hm
  | listInts hv =>
    rename_i op v v' l
    simp only [matchPred, matchList] at hm
    rcases lookup hs he hv with h | ⟨h, h'⟩ | ⟨y, x, h, h', hr, hu⟩
    · rw [h] at hm; cases hm
    · rw [h] at hm; cases hm; simp [satPred, h']
    · rw [h] at hm
      cases hr <;> first | (cases hm; done) | skip
      rename_i ys
      simp only [Except.ok.injEq] at hm
      subst hm
      have hasc : Ascending (sortBy id l) := by simpa using sortBy_ascending id l
      have hstr : StrictAsc (dedupBy id (sortBy id ys)) := by simpa using dedup_sort_strict id ys
      have hmem : ∀ k, k ∈ dedupBy id (sortBy id ys) ↔ k ∈ ys := fun k => by simpa using dedup_sort_keys id ys k
      rw [applyListOp_spec op hasc hstr (by
        rintro rfl
        simpa using sort_nodup_strict (l := l) id (by simpa using (show l.Nodup from hp)))]
      rw [listHolds_congr (ys' := ys) (xs' := l) op (by simp only [sortBy_mem, hmem]) (by simp only [sortBy_mem, hmem])]
      simp [satPred, h']
  | listStrs hv hl =>
    rename_i op v v' l m
    simp only [matchPred, matchList] at hm
    have hi' : ∀ s ∈ m, s.str ≠ invalidId := fun s hs => hi s ((sortBy_mem StrVal.str m s).2 hs)
    have hall : op = .allOf → StrictAsc ((sortBy StrVal.str m).map StrVal.str) := by
      rintro rfl
      exact sort_nodup_strict StrVal.str (constIds_nodup hl hi' hp)
    rcases lookup hs he hv with h | ⟨h, h'⟩ | ⟨y, x, h, h', hr, hu⟩
    · rw [h] at hm; cases hm
    · rw [h] at hm; cases hm; simp [satPred, h', asTexts]
    · rw [h] at hm
      cases hr <;> first | (cases hm; done) | skip
      · simp only [Except.ok.injEq] at hm
        subst hm
        rw [List.map_nil, applyListOp_spec op (sortBy_ascending StrVal.str m) List.Pairwise.nil hall]
        rw [listHolds_congr (ys' := ([] : List Str)) (xs' := l.map StrVal.string) op (by simp) (by
          simp only [List.not_mem_nil, imp_false]
          constructor
          · intro h3 z hz
            obtain ⟨s, hs1, rfl⟩ := List.mem_map.1 hz
            obtain ⟨t, ht, _⟩ := forall₂_mem_left hl hs1
            exact h3 t.str ((mem_sort_map StrVal.str m _).2 (List.mem_map_of_mem ht))
          · intro h3 z hz
            obtain ⟨t, ht, rfl⟩ := List.mem_map.1 ((mem_sort_map StrVal.str m _).1 hz)
            obtain ⟨s, hs1, _⟩ := forall₂_mem_right hl ht
            exact h3 _ (List.mem_map_of_mem hs1))]
        simp [satPred, h', asTexts]
      · rename_i ys zs hys
        simp only [Except.ok.injEq] at hm
        subst hm
        rw [applyListOp_spec op (sortBy_ascending StrVal.str m) (dedup_sort_strict StrVal.str zs) hall]
        rw [listHolds_congr (ys' := ys.map StrVal.string) (xs' := l.map StrVal.string) op (by
          simp only [mem_sort_map, dedup_sort_keys]
          constructor
          · rintro ⟨z, h1, h2⟩
            obtain ⟨t, ht, rfl⟩ := List.mem_map.1 h1
            obtain ⟨s, hs1, hst⟩ := forall₂_mem_right hl ht
            exact ⟨s.string, List.mem_map_of_mem hs1, (mem_eventIds hs hok hst (hi' _ ht) hys).1 h2⟩
          · rintro ⟨z, h1, h2⟩
            obtain ⟨s, hs1, rfl⟩ := List.mem_map.1 h1
            obtain ⟨t, ht, hst⟩ := forall₂_mem_left hl hs1
            exact ⟨t.str, List.mem_map_of_mem ht, (mem_eventIds hs hok hst (hi' _ ht) hys).2 h2⟩) (by
          simp only [mem_sort_map, dedup_sort_keys]
          constructor
          · intro h3 z h1
            obtain ⟨s, hs1, rfl⟩ := List.mem_map.1 h1
            obtain ⟨t, ht, hst⟩ := forall₂_mem_left hl hs1
            exact (mem_eventIds hs hok hst (hi' _ ht) hys).1 (h3 _ (List.mem_map_of_mem ht))
          · intro h3 z h1
            obtain ⟨t, ht, rfl⟩ := List.mem_map.1 h1
            obtain ⟨s, hs1, hst⟩ := forall₂_mem_right hl ht
            exact (mem_eventIds hs hok hst (hi' _ ht) hys).2 (h3 _ (List.mem_map_of_mem hs1)))]
        simp [satPred, h', asTexts]
  | freq hv hn hst hname hic =>
    rename_i f ns' v' now' name i
    obtain ⟨p1, p2, p3⟩ := hp
    have hget := constants_get hname hic
    obtain ⟨⟨c0, hc0, hc1⟩, _⟩ := find_constant hic
    obtain ⟨i0, i1⟩ := hcs c0 hc0 i hc1
    have hid : (((i % 2 ^ 32).toNat : Nat) : Int) = i := by omega
    have hval := toU32_of_lt p1 p2
    simp only [matchPred, matchFreq, getFreqVar, getIntVar] at hm
    rcases lookup hs he hv with h | ⟨h, h'⟩ | ⟨y, x, h, h', hr, hu⟩
    · rw [h] at hm; cases hm
    · rw [h] at hm; cases hm; simp [satPred, h', asCaps]
    · rw [h] at hm
      cases hr <;> first | (cases hm; done) | skip
      · cases hm; simp [satPred, h', asCaps]
      · rename_i l m hlm
        cases hlm with
        | nil => cases hm; simp [satPred, h', asCaps]
        | cons hc hlm =>
          rename_i c c' l m
          dsimp only at hm
          simp only [List.isEmpty_cons, Bool.false_eq_true, if_false] at hm
          rcases lookup hs he hn with k | ⟨k, k'⟩ | ⟨y2, x2, k, k', kr, ku⟩
          · rw [k] at hm; cases hm
          · rw [k] at hm; cases hm; simp [satPred, h', k', asCaps]
          · rw [k] at hm
            cases kr <;> first | (cases hm; done) | skip
            rename_i now
            simp only [Except.ok.injEq] at hm
            rw [← hm, withinFrequencyCaps_eq _ _ _ _ _ _ p3]
            have key := find_cap hs hok hst hi f.type (i % 2 ^ 32).toNat (List.Forall₂.cons hc hlm)
            simp only [satPred, h', k', asCaps, hget, Option.some.injEq, exists_eq_left', reduceCtorEq, false_or,
              Value.int.injEq, freqHolds, exists_and_left]
            rw [hid] at key
            rcases key with ⟨k1, k2⟩ | ⟨d, d', k1, k2, k3, k4, k5⟩
            · rw [k1, k2]
            · rw [k1, k2]
              simp only [k3, k4, k5]
              constructor
              · rintro (z | z)
                · left; omega
                · right; exact z
              · rintro (z | z)
                · left; omega
                · right; exact z
  | segment hv hn =>
    rename_i g v' now'
    obtain ⟨p1, p2, p3⟩ := hp
    have e1 := toI64_of_lt p1
    have e2 := toI32_of_lt p2 p3
    simp only [matchPred, matchSegment, getSegmentsVar, getIntVar, e1, e2] at hm
    rcases lookup hs he hv with h | ⟨h, h'⟩ | ⟨y, x, h, h', hr, hu⟩
    · rw [h] at hm; cases hm
    · rw [h] at hm; cases hm; simp [satPred, h', asSegments]
    · have key : ∀ segs, asSegments (some y) = some segs → (segs.map Segment.id).Pairwise (· ≤ ·) → x = .segments segs →
          (b = true ↔ satPred geo (constants cs) (eventOf ev) (.segment g)) := by
        rintro segs h1 h2 rfl
        rw [h] at hm
        dsimp only at hm
        rcases lookup hs he hn with k | ⟨k, k'⟩ | ⟨y2, x2, k, k', kr, ku⟩
        · rw [k] at hm; cases hm
        · rw [k] at hm; cases hm; simp [satPred, h', k']
        · rw [k] at hm
          cases kr <;> first | (cases hm; done) | skip
          rename_i now
          dsimp only at hm
          simp only [satPred, h', k', h1, Option.some.injEq, Value.int.injEq, exists_eq_left', exists_and_left]
          cases hop : g.op with
          | within =>
            rw [hop] at hm
            simp only [Except.ok.injEq] at hm
            rw [← hm, segmentWithin_spec _ _ _ _ h2]
          | before =>
            rw [hop] at hm
            simp only [Except.ok.injEq] at hm
            rw [← hm, segmentBefore_spec _ _ _ _ h2]
      cases hr with
      | segNil => exact key [] rfl List.Pairwise.nil rfl
      | segments l =>
        obtain ⟨u, hu1, hu2⟩ := hu
        exact key l rfl (hev u hu1 l hu2) rfl
      | _ => rw [h] at hm; cases hm
  | geo hv hn =>
    rename_i g lat' lon'
    simp only [matchPred, matchGeo, getFloatVar] at hm
    rcases lookup hs he hv with h | ⟨h, h'⟩ | ⟨y, x, h, h', hr, hu⟩
    · rw [h] at hm; cases hm
    · rw [h] at hm
      rcases lookup hs he hn with k | ⟨k, k'⟩ | ⟨y2, x2, k, k', kr, ku⟩
      · rw [k] at hm; cases hm
      · rw [k] at hm; cases hm; simp [satPred, h']
      · rw [k] at hm; cases kr <;> first | (cases hm; done) | (cases hm; simp [satPred, h'])
    · rw [h] at hm
      cases hr <;> first | (cases hm; done) | skip
      rcases lookup hs he hn with k | ⟨k, k'⟩ | ⟨y2, x2, k, k', kr, ku⟩
      · rw [k] at hm; cases hm
      · rw [k] at hm; cases hm; simp [satPred, k']
      · rw [k] at hm
        cases kr <;> first | (cases hm; done) | (cases hm; simp [satPred, h', k'])
  | str hv =>
    rename_i s v'
    simp only [matchPred, matchStr, getStringVar] at hm
    rcases lookup hs he hv with h | ⟨h, h'⟩ | ⟨y, x, h, h', hr, hu⟩
    · rw [h] at hm; cases hm
    · rw [h] at hm; cases hm; simp [satPred, h']
    · rw [h] at hm
      cases hr <;> first | (cases hm; done) | skip
      rename_i x x' hx
      dsimp only at hm
      rw [(fillStr_inv hx).1] at hm
      obtain ⟨op, a, pat⟩ := s
      cases op <;> cases hm <;>
        simp [satPred, h', strHolds, strContains_spec, strStartsWith_spec, strEndsWith_spec]
  | isNull hv =>
    rename_i op v v'
    simp only [matchPred, matchIsNull] at hm
    rcases lookup hs he hv with h | ⟨h, h'⟩ | ⟨y, x, h, h', hr, hu⟩
    · rw [h] at hm; cases hm
    · rw [h] at hm; cases op <;> cases hm <;> simp [satPred, h']
    · rw [h] at hm
      cases op
      · cases hm; simp [satPred, h']
      · cases hm; simp [satPred, h']
      · simp only [Except.ok.injEq] at hm
        subst hm
        cases hr <;> simp [satPred, h', isEmptyList, dedup_sort_nil]
        · rename_i hlm; exact forall₂_nil hlm
        · rename_i hlm; exact forall₂_nil hlm

/-- evaluation of a stored expression, when it does not fault, is the truth of the expression as written -/
theorem evalExpr_sat {geo : GeoTest} {T : Config} {ev : List EventVar} {env : Env} {cs : List Constant} {e e' : Expr}
    {b : Bool} (hs : Small T) (hok : TablesOK T) (he : eventEnv T ev = .ok env) (hev : EventInRange ev)
    (hr : ExprRel (ResPred T cs) e e') (hi : Expr.AllIds e') (hp : Expr.InRange e) (hcs : ConstantsInRange cs)
    (hm : evalExpr geo env e' = .ok b) : b = true ↔ sat geo (constants cs) (eventOf ev) e := by
  induction hr generalizing b with
  | leaf h => exact matchPred_sat hs hok he hev h hi hp hcs hm
  | not _ ih =>
    simp only [evalExpr] at hm
    split at hm
    · cases hm
    · rename_i c h1
      cases hm
      have := ih hi hp h1
      simp only [sat, ← this]
      cases c <;> simp
  | and _ _ ihl ihr =>
    simp only [evalExpr] at hm
    split at hm
    · cases hm
    · rename_i h1
      cases hm
      have := ihl hi.1 hp.1 h1
      simp only [sat, ← this]; simp
    · rename_i h1
      have h2 := ihl hi.1 hp.1 h1
      have h3 := ihr hi.2 hp.2 hm
      simp only [sat, ← h2, ← h3]; simp
  | or _ _ ihl ihr =>
    simp only [evalExpr] at hm
    split at hm
    · cases hm
    · rename_i h1
      cases hm
      have := ihl hi.1 hp.1 h1
      simp only [sat, ← this]; simp
    · rename_i h1
      have h2 := ihl hi.1 hp.1 h1
      have h3 := ihr hi.2 hp.2 hm
      simp only [sat, ← h2, ← h3]; simp

end BeTree
