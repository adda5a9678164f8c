import Verif.Lemmas.WorldPrune
import Verif.Spec.Room
import Verif.Props.Short
/-
When every string and enum constant of the stored subscriptions has an id.
-/
namespace BeTree
open Spec
variable [Floats]

/-- a condition on every predicate -/
def Expr.All (P : Pred → Prop) : Expr → Prop
  | .leaf p => P p
  | .not e => Expr.All P e
  | .and l r => Expr.All P l ∧ Expr.All P r
  | .or l r => Expr.All P l ∧ Expr.All P r

omit [Floats] in
theorem Expr.All.mono {P Q : Pred → Prop} (hpq : ∀ p, P p → Q p) : ∀ {e : Expr}, e.All P → e.All Q
  | .leaf p, h => hpq p h
  | .not e, h => Expr.All.mono (e := e) hpq h
  | .and l r, h => ⟨Expr.All.mono (e := l) hpq h.1, Expr.All.mono (e := r) hpq h.2⟩
  | .or l r, h => ⟨Expr.All.mono (e := l) hpq h.1, Expr.All.mono (e := r) hpq h.2⟩

omit [Floats] in
theorem allIds_of_all : ∀ {e : Expr}, e.All Pred.AllIds → e.AllIds
  | .leaf _, h => h
  | .not e, h => allIds_of_all (e := e) h
  | .and l r, h => ⟨allIds_of_all (e := l) h.1, allIds_of_all (e := r) h.2⟩
  | .or l r, h => ⟨allIds_of_all (e := l) h.1, allIds_of_all (e := r) h.2⟩

omit [Floats] in
theorem all_parse {P : Pred → Prop} {e : Expr} (h : e.All P) : (parseBuild e).All P := by
  induction e with
  | leaf p => exact h
  | not e ih => exact ih h
  | and l r ihl ihr =>
    simp only [parseBuild, mkAnd]
    split
    · exact ⟨ihr h.2, ihl h.1⟩
    · exact ⟨ihl h.1, ihr h.2⟩
  | or l r ihl ihr =>
    simp only [parseBuild, mkOr]
    split
    · exact ⟨ihr h.2, ihl h.1⟩
    · exact ⟨ihl h.1, ihr h.2⟩

omit [Floats] in
theorem assignVar_all {P Q : Pred → Prop} {cfg : Config} (hpq : ∀ p, P p → Q (assignVarPred cfg p)) {e : Expr} (h : e.All P) :
    (assignVar cfg e).All Q := by
  induction e with
  | leaf p => exact hpq p h
  | not e ih => exact ih h
  | and l r ihl ihr | or l r ihl ihr => exact ⟨ihl h.1, ihr h.2⟩

omit [Floats] in
theorem assignStr_all {P Q : Pred → Prop} {T : Config} {al : Bool}
    (hpq : ∀ (a b : Config) (p p' : Pred), a.domains = T.domains → Grow b T → assignStrPred a al p = .ok (p', b) → P p → Q p')
    {e e' : Expr} {a b : Config} (ha : a.domains = T.domains) (hb : Grow b T) (h : assignStr a al e = .ok (e', b)) (hp : e.All P) :
    e'.All Q := by
  induction e generalizing a b e' with
  | leaf p =>
    rw [assignStr] at h
    split at h
    · cases h
    · rename_i h1; cases h; exact hpq _ _ _ _ ha hb h1 hp
  | not e ih =>
    rw [assignStr] at h
    split at h
    · cases h
    · rename_i h1; cases h; have := ih ha hb h1 hp; exact this
  | and l r ihl ihr | or l r ihl ihr =>
    rw [assignStr] at h
    split at h
    · cases h
    · rename_i h1
      split at h
      · cases h
      · rename_i h2
        cases h
        exact ⟨ihl ha ((assignStr_grow h2).trans hb) h1 hp.1,
          ihr ((assignStr_grow h1).base.domains.trans ha) hb h2 hp.2⟩

omit [Floats] in
theorem assignIenum_all {P Q : Pred → Prop} {T : Config} {al : Bool}
    (hpq : ∀ (a b : Config) (p p' : Pred), a.domains = T.domains → Grow b T → assignIenumPred a al p = .ok (p', b) → P p → Q p')
    {e e' : Expr} {a b : Config} (ha : a.domains = T.domains) (hb : Grow b T) (h : assignIenum a al e = .ok (e', b)) (hp : e.All P) :
    e'.All Q := by
  induction e generalizing a b e' with
  | leaf p =>
    rw [assignIenum] at h
    split at h
    · cases h
    · rename_i h1; cases h; exact hpq _ _ _ _ ha hb h1 hp
  | not e ih =>
    rw [assignIenum] at h
    split at h
    · cases h
    · rename_i h1; cases h; have := ih ha hb h1 hp; exact this
  | and l r ihl ihr | or l r ihl ihr =>
    rw [assignIenum] at h
    split at h
    · cases h
    · rename_i h1
      split at h
      · cases h
      · rename_i h2
        cases h
        exact ⟨ihl ha ((assignIenum_grow h2).trans hb) h1 hp.1,
          ihr ((assignIenum_grow h1).base.domains.trans ha) hb h2 hp.2⟩

omit [Floats] in
theorem fixFloat_all {P Q : Pred → Prop} {cfg : Config} (hpq : ∀ p p', fixFloatPred cfg p = .ok p' → P p → Q p') {e e' : Expr}
    (h : fixFloat cfg e = .ok e') (hp : e.All P) : e'.All Q := by
  induction e generalizing e' with
  | leaf p =>
    rw [fixFloat] at h
    split at h
    · cases h
    · rename_i h1; cases h; exact hpq _ _ h1 hp
  | not e ih =>
    rw [fixFloat] at h
    split at h
    · cases h
    · rename_i h1; cases h; have := ih h1 hp; exact this
  | and l r ihl ihr | or l r ihl ihr =>
    rw [fixFloat] at h
    split at h
    · cases h
    · rename_i h1
      split at h
      · cases h
      · rename_i h2; cases h; exact ⟨ihl h1 hp.1, ihr h2 hp.2⟩

omit [Floats] in
theorem assignConstants_all {P Q : Pred → Prop} {cs : List Constant} (hpq : ∀ p p', assignConstantsPred cs p = some p' → P p → Q p')
    {e e' : Expr} (h : assignConstants cs e = some e') (hp : e.All P) : e'.All Q := by
  induction e generalizing e' with
  | leaf p =>
    simp only [assignConstants, Option.map_eq_some_iff] at h
    obtain ⟨q, hq, rfl⟩ := h
    exact hpq _ _ hq hp
  | not e ih =>
    simp only [assignConstants, Option.map_eq_some_iff] at h
    obtain ⟨q, hq, rfl⟩ := h
    have := ih hq hp; exact this
  | and l r ihl ihr | or l r ihl ihr =>
    simp only [assignConstants] at h
    split at h
    · rename_i h1 h2; cases h; exact ⟨ihl h1 hp.1, ihr h2 hp.2⟩
    · cases h

omit [Floats] in
theorem sortLists_all {P Q : Pred → Prop} (hpq : ∀ p, P p → Q (sortListsPred p)) {e : Expr} (h : e.All P) : (sortLists e).All Q := by
  induction e with
  | leaf p => exact hpq p h
  | not e ih => exact ih h
  | and l r ihl ihr | or l r ihl ihr => exact ⟨ihl h.1, ihr h.2⟩

/-! ### ids that are given -/

/-- the constant `x` of this variable gets an id, if the variable's table never outgrows `tab` -/
def Free {α : Type} [DecidableEq α] (al : Bool) (ds : List Domain) (tab : Nat → List α) (var : Nat) (x : α) : Prop :=
  al = true ∨ (∀ d, ds[var]? = some d → Unlimited d.bound) ∨
    ∀ d, ds[var]? = some d → ∃ k, d.bound.hi = .s k ∧ k < sizeMax ∧ ((tab var).filter (· ≠ x)).length ≤ k

/-- the tables so far are part of these -/
structure Inside (cfg : Config) (st : Nat → List Str) (it : Nat → List Int) : Prop where
  strs : ∀ v, strTable cfg v <+: st v
  ints : ∀ v, intTable cfg v <+: it v

omit [Floats] in
theorem Inside.before {a b : Config} {st : Nat → List Str} {it : Nat → List Int} (g : Grow a b) (h : Inside b st it) : Inside a st it :=
  ⟨fun v => (g.strs v).trans (h.strs v), fun v => (g.ints v).trans (h.ints v)⟩

omit [Floats] in
theorem interned_valid {α : Type} [DecidableEq α] {t t' : List α} {x : α} {al : Bool} {cfg : Config} {var id : Nat} {tab : Nat → List α}
    (hf : Free al cfg.domains tab var x) (hp : t <+: tab var) (h : Interned t x al (domSmax cfg var) id t') (hs : t'.length < invalidId) :
    id ≠ invalidId := by
  cases h with
  | old i hi =>
    have := (List.getElem?_eq_some_iff.1 hi).1
    omega
  | new _ _ => simp at hs; omega
  | full hn ha n hm hl =>
    exfalso
    unfold domSmax getDomain at hm
    split at hm
    · cases hm
    · rename_i d hd
      split at hd
      · cases hd
      · rename_i h1
        cases hd
        rcases hf with hf | hf | hf
        · rw [hf] at ha; cases ha
        · have := (hf _ h1).2
          unfold Bound.smax at hm
          rw [this] at hm
          cases hm
          rw [show (sizeMax - 1 + 1) % 2 ^ 64 = invalidId by decide] at hl
          omega
        · obtain ⟨k, h2, h3, h4⟩ := hf _ h1
          unfold Bound.smax at hm
          rw [h2] at hm
          replace hm : k = n := Except.ok.inj hm
          subst hm
          have h5 : (k + 1) % 2 ^ 64 = k + 1 := by unfold sizeMax at h3; omega
          have h6 : t.filter (· ≠ x) = t := List.filter_eq_self.2 fun y hy => by
            simp only [ne_eq, decide_eq_true_eq]; rintro rfl; exact hn hy
          have h7 := (hp.sublist.filter (· ≠ x)).length_le
          rw [h6] at h7
          omega

omit [Floats] in
theorem getIdForString_valid {a b T : Config} {v : AttrVar} {s : Str} {al : Bool} {id : Nat} {st : Nat → List Str} {it : Nat → List Int}
    (ha : a.domains = T.domains) (hg : Grow b T) (hT : Small T) (hin : Inside T st it) (hf : Free al T.domains st v.var s)
    (h : getIdForString a v s al = .ok (id, b)) : id ≠ invalidId := by
  obtain ⟨_, _, _, h4, _⟩ := getIdForString_spec h
  exact interned_valid (by rw [ha]; exact hf) ((hin.before ((getIdForString_grow h).trans hg)).strs _) h4
    (Nat.lt_of_le_of_lt (hg.strs _).length_le (hT.strs _))

omit [Floats] in
theorem getIdForIenum_valid {a b T : Config} {v : AttrVar} {s : Int} {al : Bool} {id : Nat} {st : Nat → List Str} {it : Nat → List Int}
    (ha : a.domains = T.domains) (hg : Grow b T) (hT : Small T) (hin : Inside T st it) (hf : Free al T.domains it v.var s)
    (h : getIdForIenum a v s al = .ok (id, b)) : id ≠ invalidId := by
  obtain ⟨_, _, _, h4, _⟩ := getIdForIenum_spec h
  exact interned_valid (by rw [ha]; exact hf) ((hin.before ((getIdForIenum_grow h).trans hg)).ints _) h4
    (Nat.lt_of_le_of_lt (hg.ints _).length_le (hT.ints _))

omit [Floats] in
theorem assignStrList_valid {T : Config} {v : AttrVar} {al : Bool} {st : Nat → List Str} {it : Nat → List Int} (hT : Small T)
    (hin : Inside T st it) : ∀ {l l' : List StrVal} {a b : Config}, (∀ s ∈ l, Free al T.domains st v.var s.string) →
      a.domains = T.domains → Grow b T → assignStrList a v al l = .ok (l', b) → ∀ s ∈ l', s.str ≠ invalidId := by
  intro l
  induction l with
  | nil => intro l' a b _ _ _ h; cases h; simp
  | cons s ss ih =>
    intro l' a b hf ha hb h
    rw [assignStrList] at h
    split at h
    · cases h
    · rename_i h1
      split at h
      · cases h
      · rename_i h2
        cases h
        intro t ht
        rcases List.mem_cons.1 ht with rfl | ht
        · exact getIdForString_valid ha ((assignStrList_grow h2).trans hb) hT hin (hf s List.mem_cons_self) h1
        · exact ih (fun s hs => hf s (List.mem_cons_of_mem _ hs)) ((getIdForString_grow h1).base.domains.trans ha) hb h2 t ht

/-- the room an equality with an integer needs -/
def EnumRoom (al : Bool) (ds : List Domain) (it : Nat → List Int) (v : Nat) (x : Int) : Prop :=
  (∃ d, ds[v]? = some d ∧ d.bound.ty ≠ .intEnum) ∨ Free al ds it v x

/-- the room a predicate needs -/
def PRoom (al : Bool) (ds : List Domain) (st : Nat → List Str) (it : Nat → List Int) : Pred → Prop
  | .equality _ v (.string s) => Free al ds st v.var s.string
  | .equality _ v (.int x) => EnumRoom al ds it v.var x
  | .equality _ _ (.intEnum _) => False
  | .set _ (.string s) (.var v) => Free al ds st v.var s.string
  | .set _ (.var v) (.strList l) => ∀ s ∈ l, Free al ds st v.var s.string
  | .list _ v (.strList l) => ∀ s ∈ l, Free al ds st v.var s.string
  | .freq f => Free al ds st f.attr.var f.ns.string
  | _ => True

/-- after the strings: their ids are given; the enums still need room -/
def PStr (al : Bool) (ds : List Domain) (it : Nat → List Int) : Pred → Prop
  | .equality _ v (.int x) => EnumRoom al ds it v.var x
  | p => Pred.AllIds p

omit [Floats] in
theorem assignStrPred_room {a b T : Config} {al : Bool} {p p' : Pred} {st : Nat → List Str} {it : Nat → List Int} (hT : Small T)
    (hin : Inside T st it) (ha : a.domains = T.domains) (hb : Grow b T)
    (h : assignStrPred a al p = .ok (p', b)) (hp : PRoom al T.domains st it p) : PStr al T.domains it p' := by
  cases p with
  | equality op v c =>
    cases c with
    | string s =>
      simp only [assignStrPred] at h
      split at h
      · cases h
      · rename_i h1; cases h; exact getIdForString_valid ha hb hT hin hp h1
    | intEnum e => exact absurd hp id
    | int i => simp only [assignStrPred] at h; cases h; exact hp
    | float f => simp only [assignStrPred] at h; cases h; trivial
  | freq f =>
    simp only [assignStrPred] at h
    split at h
    · cases h
    · rename_i h1; cases h; exact getIdForString_valid ha hb hT hin hp h1
  | list op v c =>
    cases c with
    | strList l =>
      simp only [assignStrPred] at h
      split at h
      · cases h
      · rename_i h1; cases h; exact assignStrList_valid hT hin hp ha hb h1
    | intList l => simp only [assignStrPred] at h; cases h; trivial
  | set op l r =>
    cases l <;> cases r <;> simp only [assignStrPred] at h <;> first | (cases h; done) | (cases h; trivial) | skip
    · split at h
      · cases h
      · rename_i h1; cases h; exact getIdForString_valid ha hb hT hin hp h1
    · split at h
      · cases h
      · rename_i h1; cases h; exact assignStrList_valid hT hin hp ha hb h1
  | _ => simp only [assignStrPred] at h; cases h; trivial

omit [Floats] in
theorem assignIenumPred_room {a b T : Config} {al : Bool} {p p' : Pred} {st : Nat → List Str} {it : Nat → List Int} (hT : Small T)
    (hin : Inside T st it) (ha : a.domains = T.domains) (hb : Grow b T)
    (h : assignIenumPred a al p = .ok (p', b)) (hp : PStr al T.domains it p) : Pred.AllIds p' := by
  unfold assignIenumPred at h
  split at h
  · rename_i op v i
    split at h
    · cases h
    · rename_i d hd
      have hdd : a.domains[v.var]? = some d := by
        unfold getDomain at hd
        split at hd
        · cases hd
        · rename_i h1; cases hd; exact h1
      split at h
      · rename_i hty
        split at h
        · cases h
        · rename_i h1
          cases h
          refine getIdForIenum_valid ha hb hT hin ?_ h1
          rcases hp with ⟨d', hd', hne⟩ | hp
          · rw [ha] at hdd
            rw [hdd] at hd'
            cases hd'
            exact absurd hty hne
          · exact hp
      · cases h; trivial
  · rename_i hne
    cases h
    unfold PStr at hp
    split at hp
    · rename_i op v i; exact absurd rfl (hne op v i)
    · exact hp

omit [Floats] in
theorem fixFloatPred_ids {cfg : Config} {p p' : Pred} (h : fixFloatPred cfg p = .ok p') (hp : Pred.AllIds p) : Pred.AllIds p' := by
  unfold fixFloatPred at h
  repeat' split at h
  all_goals first
    | (cases h; done)
    | (cases h; exact hp)

omit [Floats] in
theorem sortListsPred_ids {p : Pred} (hp : Pred.AllIds p) : Pred.AllIds (sortListsPred p) := by
  cases p with
  | set op l r =>
    cases l <;> cases r <;> try exact hp
    intro s hs
    rw [sortBy_mem] at hs
    exact hp s hs
  | list op v c =>
    cases c <;> try exact hp
    intro s hs
    rw [sortBy_mem] at hs
    exact hp s hs
  | _ => exact hp

omit [Floats] in
theorem assignConstantsPred_keep {cs : List Constant} {p p' : Pred} {P : Pred → Prop}
    (hP : ∀ f i, P (.freq f) → P (.freq { f with id := i })) (h : assignConstantsPred cs p = some p') (hp : P p) : P p' := by
  unfold assignConstantsPred at h
  repeat' split at h
  all_goals first
    | (cases h; done)
    | (cases h; exact hP _ _ hp)
    | (cases h; exact hp)

/-! ### the two ways of building a subscription -/

omit [Floats] in
theorem Small.grow {a b : Config} (h : Grow a b) (hs : Small b) : Small a := Small.of_ext h.ext hs

omit [Floats] in
theorem room_of_inRange {cfg : Config} {st : Nat → List Str} {it : Nat → List Int} {e : Expr} (h : Expr.InRange e) :
    (assignVar cfg e).All (PRoom true cfg.domains st it) := by
  induction e with
  | leaf p =>
    cases p with
    | equality op v c =>
      cases c with
      | intEnum e => exact absurd h id
      | int k => exact Or.inr (Or.inl rfl)
      | _ => first | exact Or.inl rfl | trivial
    | set op l r => cases l <;> cases r <;> first | exact Or.inl rfl | exact fun _ _ => Or.inl rfl | trivial
    | list op v c => cases c <;> first | exact fun _ _ => Or.inl rfl | trivial
    | freq f => exact Or.inl rfl
    | _ => trivial
  | not e ih => exact ih h
  | and l r ihl ihr | or l r ihl ihr => exact ⟨ihl h.1, ihr h.2⟩

omit [Floats] in
theorem prepareInsert_ids {cfg cfg' : Config} {id : Nat} {cs : List Constant} {e : Expr} {s : Sub} {st : Nat → List Str}
    {it : Nat → List Int} (hr : (assignVar cfg e).All (PRoom false cfg.domains st it)) (hin : Inside cfg' st it) (hs : Small cfg')
    (h : prepareInsert cfg id cs e = .ok (some s, cfg')) : s.expr.erase.AllIds := by
  unfold prepareInsert at h
  dsimp only at h
  split at h
  · cases h
  · cases h
  · split at h
    · cases h
    · rename_i hk
      split at h
      · cases h
      · rename_i h1
        split at h
        · cases h
        · rename_i h2
          split at h
          · cases h
          · rename_i hf
            split at h
            · cases h
            · rename_i h3
              cases h
              have hsm := Small.of_ext (finishSub_ext h3) hs
              have hin' : Inside _ st it := ⟨fun v => ((finishSub_ext h3).strs v).trans (hin.strs v),
                fun v => ((finishSub_ext h3).ints v).trans (hin.ints v)⟩
              have g1 := assignStr_grow h1
              have g2 := assignIenum_grow h2
              rw [(finishSub_fields h3).2.1]
              have r1 := assignConstants_all (Q := PRoom false cfg.domains st it)
                (fun p p' => assignConstantsPred_keep fun _ _ hx => hx) hk hr
              rw [← (g1.trans g2).base.domains] at r1
              have r2 := assignStr_all (fun _ _ _ _ x1 x2 x3 x4 => assignStrPred_room hsm hin' x1 x2 x3 x4)
                (g1.trans g2).base.domains.symm g2 h1 r1
              have r3 := assignIenum_all (fun _ _ _ _ x1 x2 x3 x4 => assignIenumPred_room hsm hin' x1 x2 x3 x4)
                g2.base.domains.symm (Grow.refl _) h2 r2
              have r4 := sortLists_all (fun p => sortListsPred_ids) r3
              exact allIds_of_all (fixFloat_all (fun _ _ => fixFloatPred_ids) hf r4)

omit [Floats] in
theorem makeSub_ids {t t' : Tree} {id : Nat} {cs : List Constant} {e : Expr} {s : Sub} (hin : Expr.InRange e)
    (hs : Small t'.cfg) (h : t.makeSub id cs e = .ok (some s, t')) : s.expr.erase.AllIds := by
  unfold Tree.makeSub at h
  dsimp only at h
  split at h
  · cases h
  · cases h
  · split at h
    · cases h
    · rename_i h1
      split at h
      · cases h
      · rename_i c2 h2
        split at h
        · cases h
        · rename_i hf
          split at h
          · cases h
          · cases h
          · split at h
            · cases h
            · rename_i hk
              split at h
              · cases h
              · rename_i h3
                split at h
                · cases h
                · rename_i h4
                  cases h
                  have hsm := Small.of_ext ((changeBoundaries_ext h3).trans (finishSub_ext h4)) hs
                  have g1 := assignStr_grow h1
                  have g2 := assignIenum_grow h2
                  rw [(finishSub_fields h4).2.1]
                  have r1 := room_of_inRange (cfg := t.cfg) (st := strTable c2) (it := intTable c2) hin
                  rw [← (g1.trans g2).base.domains] at r1
                  have r2 := assignStr_all (fun _ _ _ _ x1 x2 x3 x4 => assignStrPred_room hsm ⟨fun v => List.prefix_refl _, fun v => List.prefix_refl _⟩ x1 x2 x3 x4)
                    (g1.trans g2).base.domains.symm g2 h1 r1
                  have r3 := assignIenum_all (fun _ _ _ _ x1 x2 x3 x4 => assignIenumPred_room hsm ⟨fun v => List.prefix_refl _, fun v => List.prefix_refl _⟩ x1 x2 x3 x4)
                    g2.base.domains.symm (Grow.refl _) h2 r2
                  have r4 := assignConstants_all (Q := Pred.AllIds) (fun p p' => assignConstantsPred_keep fun _ _ hx => hx) hk
                    (fixFloat_all (fun _ _ => fixFloatPred_ids) hf r3)
                  exact allIds_of_all (sortLists_all (fun p => sortListsPred_ids) r4)

/-! ### from what the caller wrote -/

/-- a domain without limit at the end had none before -/
theorem unlimited_before {a b : Config} (hc : CfgOK a) (hw : Wider a b) {v : Nat} {d d' : Domain} (hd : a.domains[v]? = some d)
    (hd' : b.domains[v]? = some d') (hu : Unlimited d'.bound) : Unlimited d.bound := by
  obtain ⟨d1, h1, h2⟩ := hw v d hd
  rw [hd'] at h1
  cases h1
  have hok := (hc.doms v d hd).ok
  refine ⟨by rw [← h2.ty]; exact hu.1, ?_⟩
  have hty : d.bound.ty = .string ∨ d.bound.ty = .strList ∨ d.bound.ty = .intEnum := by rw [← h2.ty]; exact hu.1
  have hex : ∃ hi, d.bound.lo = .s 0 ∧ d.bound.hi = .s hi ∧ hi < sizeMax := by
    unfold BoundOK at hok
    rcases hty with h | h | h <;> rw [h] at hok <;> exact hok
  obtain ⟨hi, e1, e2, e3⟩ := hex
  rw [e2]
  by_cases hlt : hi < sizeMax - 1
  · exfalso
    have hlim : Limited d.bound := by
      refine ⟨?_, ?_, by rw [e1]; trivial, by rw [e2]; exact hlt⟩
      · rcases hty with h | h | h <;> rw [h] <;> decide
      · rcases hty with h | h | h <;> rw [h] <;> decide
    have := (h2.lim hok hlim).1.high
    rw [hu.2] at this
    simp only [NotHigh] at this
    omega
  · congr 1; omega

omit [Floats] in
theorem findAttr_idx (key : Str) : ∀ (ds : List Domain) (i : Nat), findAttr key ds i =
    match ds.findIdx? (fun d => d.attr.attr = key) with | none => invalidId | some j => i + j := by
  intro ds
  induction ds with
  | nil => intro i; rfl
  | cons d ds ih =>
    intro i
    rw [findAttr, List.findIdx?_cons]
    by_cases hd : d.attr.attr = key
    · simp [hd]
    · simp only [hd, if_false, decide_false, ih]
      cases ds.findIdx? (fun d => d.attr.attr = key) with
      | none => rfl
      | some j => show i + 1 + j = i + (j + 1); omega

omit [Floats] in
/-- the known strings and integers of an attribute are its tables -/
theorem known_tables {cfg : Config} {a : Str} (h : tryGetIdForAttr cfg a ≠ invalidId) :
    knownStrs cfg a = strTable cfg (tryGetIdForAttr cfg a) ∧ knownInts cfg a = intTable cfg (tryGetIdForAttr cfg a) := by
  have hid : tryGetIdForAttr cfg a = match cfg.domains.findIdx? (fun d => d.attr.attr = a.map Char.toLower) with
      | none => invalidId | some j => 0 + j := findAttr_idx _ _ 0
  rw [hid] at h ⊢
  unfold knownStrs knownInts strTable findStrMap intTable findIntMap
  cases hj : cfg.domains.findIdx? (fun d => decide (d.attr.attr = a.map Char.toLower)) with
  | none => rw [hj] at h; exact absurd rfl h
  | some j =>
    simp only [Nat.zero_add]
    constructor
    · cases List.find? (fun m : StringMap => decide (m.attr.var = j)) cfg.stringMaps <;> rfl
    · cases List.find? (fun m : IntMap => decide (m.attr.var = j)) cfg.intMaps <;> rfl

/-- A declared limit is a limit at any later time. -/
def LimitsHold (decls : List (Str × Decl × Bool)) (cfg : Config) : Prop :=
  ∀ a n d, limitOf decls a = some n → 0 < n → n < sizeMax → cfg.domains[tryGetIdForAttr cfg a]? = some d →
    ∃ k, d.bound.hi = .s k ∧ k < sizeMax - 1 ∧ n ≤ k + 1

theorem limits_wider {decls : List (Str × Decl × Bool)} {a b : Config} (hc : CfgOK a) (hw : Wider a b) (hx : CfgExt a b)
    (h : LimitsHold decls a) : LimitsHold decls b := by
  intro nm n d' hn h0 hs hd'
  rw [tryGetId_ext hx] at hd'
  have hlen : b.domains.length = a.domains.length := by simpa using congrArg List.length hx.doms
  have hlt := (List.getElem?_eq_some_iff.1 hd').1
  rw [hlen] at hlt
  obtain ⟨k, h1, h2, h3⟩ := h nm n _ hn h0 hs (List.getElem?_eq_getElem hlt)
  obtain ⟨d1, h4, h5⟩ := hw _ _ (List.getElem?_eq_getElem hlt)
  rw [hd'] at h4
  cases h4
  have hok := (hc.doms _ _ (List.getElem?_eq_getElem hlt)).ok
  have hok' := h5.ok hok
  generalize a.domains[tryGetIdForAttr a nm] = d at h1 hok h5
  have hty := h5.ty
  by_cases hsf : d.bound.ty = .segments ∨ d.bound.ty = .freq
  · have e : d'.bound.hi = .s 0 ∧ d.bound.hi = .s 0 := by
      unfold BoundOK at hok hok'
      rcases hsf with e | e <;> rw [hty, e] at hok' <;> rw [e] at hok <;> exact ⟨hok'.2, hok.2⟩
    rw [e.2] at h1
    cases h1
    exact ⟨0, e.1, h2, h3⟩
  · have hlim : Limited d.bound := by
      refine ⟨fun e => hsf (.inl e), fun e => hsf (.inr e), ?_, by rw [h1]; exact h2⟩
      unfold BoundOK at hok
      cases hb : d.bound.ty <;> rw [hb] at hok hsf <;> simp only [reduceCtorEq, or_self, or_true, true_or, not_true, not_false_eq_true] at hsf <;>
        first
          | (obtain ⟨_, e2⟩ := hok; rw [e2] at h1; cases h1)
          | (obtain ⟨_, _, _, e2, _⟩ := hok; rw [e2] at h1; cases h1)
          | (obtain ⟨_, e1, _⟩ := hok; rw [e1]; trivial)
    obtain ⟨l', _, hle⟩ := h5.lim hok hlim
    rw [h1] at hle
    have hkind : ∃ k', d'.bound.hi = .s k' := by
      cases hb : d'.bound.hi <;> rw [hb] at hle <;> first | exact ⟨_, rfl⟩ | (simp [Scalar.le] at hle)
    obtain ⟨k', hk'⟩ := hkind
    have hh := l'.high
    rw [hk'] at hle hh
    simp only [Scalar.le, decide_eq_true_eq] at hle
    simp only [NotHigh] at hh
    exact ⟨k', hk', by omega, by omega⟩

theorem free_of_room {decls : List (Str × Decl × Bool)} {a b : Config} (hc : CfgOK a) (hl : LimitsHold decls a) (hw : Wider a b)
    (hx : CfgExt a b) (hs : Small b) {n x : Str} (h : RoomFor decls b n x) : Free false a.domains (strTable b) (tryGetIdForAttr a n) x := by
  by_cases hne : tryGetIdForAttr a n = invalidId
  · right; left
    intro d hd
    have hlen : b.domains.length = a.domains.length := by simpa using congrArg List.length hx.doms
    have hlt := (List.getElem?_eq_some_iff.1 hd).1
    have := hs.domains
    omega
  rcases h with h | ⟨m, h1, h2, h3⟩
  · right; left
    intro d hd
    obtain ⟨_, d0, e0, e1⟩ := tryGetId_lt hne
    rw [hd] at e0
    cases e0
    obtain ⟨d', h1, h2⟩ := hw _ d hd
    refine unlimited_before hc hw hd h1 (h d' (List.mem_of_getElem? h1) ?_)
    rw [h2.attr]
    exact e1
  · right; right
    intro d hd
    obtain ⟨k, k1, k2, k3⟩ := hl n m d h1 (by omega) h2 hd
    refine ⟨k, k1, by omega, ?_⟩
    rw [(known_tables (by rw [tryGetId_ext hx]; exact hne)).1, tryGetId_ext hx] at h3
    omega

theorem enumFree_of_room {decls : List (Str × Decl × Bool)} {a b : Config} (hc : CfgOK a) (hl : LimitsHold decls a) (hw : Wider a b)
    (hx : CfgExt a b) (hs : Small b) {n : Str} {x : Int} (h : RoomForInt decls b n x) :
    EnumRoom false a.domains (intTable b) (tryGetIdForAttr a n) x := by
  by_cases hne : tryGetIdForAttr a n = invalidId
  · right; right; left
    intro d hd
    have hlen : b.domains.length = a.domains.length := by simpa using congrArg List.length hx.doms
    have hlt := (List.getElem?_eq_some_iff.1 hd).1
    have := hs.domains
    omega
  rcases h with h | ⟨m, h1, h2, h3⟩
  · obtain ⟨_, d, hd, e1⟩ := tryGetId_lt hne
    by_cases hty : d.bound.ty = .intEnum
    · right; right; left
      intro d0 e0
      rw [hd] at e0
      cases e0
      obtain ⟨d', h1, h2⟩ := hw _ d hd
      refine unlimited_before hc hw hd h1 (h d' (List.mem_of_getElem? h1) ?_ (by rw [h2.ty]; exact hty))
      rw [h2.attr]
      exact e1
    · exact .inl ⟨d, hd, hty⟩
  · right; right; right
    intro d hd
    obtain ⟨k, k1, k2, k3⟩ := hl n m d h1 (by omega) h2 hd
    refine ⟨k, k1, by omega, ?_⟩
    rw [(known_tables (by rw [tryGetId_ext hx]; exact hne)).2, tryGetId_ext hx] at h3
    omega

theorem room_of_roomy {decls : List (Str × Decl × Bool)} {a b : Config} (hc : CfgOK a) (hl : LimitsHold decls a) (hw : Wider a b)
    (hx : CfgExt a b) (hs : Small b) : ∀ {e : Expr}, Expr.InRange e →
    (∀ c ∈ strConsts e, RoomFor decls b c.1 c.2) → (∀ c ∈ enumConsts e, RoomForInt decls b c.1 c.2) →
    e.All (fun p => PRoom false a.domains (strTable b) (intTable b) (assignVarPred a p)) := by
  intro e
  induction e with
  | leaf p =>
    intro hin h1 h2
    cases p with
    | equality op v c =>
      cases c with
      | intEnum e => exact absurd hin id
      | string s => exact free_of_room hc hl hw hx hs (h1 (v.attr, s.string) (by simp [strConsts, predStrConsts]))
      | int i => exact enumFree_of_room hc hl hw hx hs (h2 (v.attr, i) (by simp [enumConsts, predEnumConsts]))
      | float f => trivial
    | set op l r =>
      cases l <;> cases r <;> try trivial
      · rename_i s v; exact free_of_room hc hl hw hx hs (h1 (v.attr, s.string) (by simp [strConsts, predStrConsts]))
      · rename_i v l
        exact fun s hm => free_of_room hc hl hw hx hs (h1 (v.attr, s.string) (List.mem_map.2 ⟨s, hm, rfl⟩))
    | list op v c =>
      cases c
      · trivial
      · exact fun s hm => free_of_room hc hl hw hx hs (h1 (v.attr, s.string) (List.mem_map.2 ⟨s, hm, rfl⟩))
    | freq f => exact free_of_room hc hl hw hx hs (h1 (f.attr.attr, f.ns.string) (by simp [strConsts, predStrConsts]))
    | _ => trivial
  | not e ih => exact ih
  | and l r ihl ihr | or l r ihl ihr =>
    intro hin h1 h2
    simp only [strConsts, enumConsts, List.mem_append] at h1 h2
    exact ⟨ihl hin.1 (fun n hn => h1 n (Or.inl hn)) (fun n hn => h2 n (Or.inl hn)),
      ihr hin.2 (fun n hn => h1 n (Or.inr hn)) (fun n hn => h2 n (Or.inr hn))⟩

omit [Floats] in
theorem makeTree_limits (cap min : Nat) (decls : List (Str × Decl × Bool)) : LimitsHold decls (makeTree cap min decls).cfg := by
  intro a n d hn h0 hs hd
  have hnames : (makeTree cap min decls).cfg.domains.map (fun d => d.attr.attr) = decls.map (·.1) := by
    rw [makeTree_domains]
    apply List.ext_getElem?
    intro i
    simp only [List.getElem?_map, List.getElem?_mapIdx]
    cases decls[i]? <;> rfl
  have hidx : (makeTree cap min decls).cfg.domains.findIdx? (fun d => d.attr.attr = a.map Char.toLower) =
      decls.findIdx? (fun d => d.1 = a.map Char.toLower) := by
    have h := congrArg (List.findIdx? (fun x => decide (x = a.map Char.toLower))) hnames
    simpa [List.findIdx?_map, Function.comp_def] using h
  unfold limitOf at hn
  rw [List.find?_eq_bind_findIdx?_getElem?] at hn
  cases hj : decls.findIdx? (fun d => d.1 = a.map Char.toLower) with
  | none => rw [hj] at hn; cases hn
  | some j =>
    have hid : tryGetIdForAttr (makeTree cap min decls).cfg a = j := by
      show findAttr _ _ 0 = j
      rw [findAttr_idx]
      show (match (makeTree cap min decls).cfg.domains.findIdx? (fun d => d.attr.attr = a.map Char.toLower) with
        | none => invalidId | some j => 0 + j) = j
      rw [hidx, hj]; simp
    rw [hj] at hn
    rw [hid, makeTree_domains, List.getElem?_mapIdx] at hd
    cases hx : decls[j]? with
    | none => rw [hx] at hd; cases hd
    | some x =>
      rw [hx] at hd
      simp only [Option.bind_some, hx] at hn
      cases hd
      obtain ⟨nm, dc, al⟩ := x
      have hmod : (n + sizeMax) % 2 ^ 64 = n - 1 := by unfold sizeMax at hs ⊢; omega
      cases dc <;> simp only [declLimit, Option.some.injEq, reduceCtorEq] at hn <;> subst hn
      all_goals
        first
          | exact ⟨_, rfl, by rw [hmod]; omega, by rw [hmod]; omega⟩
          | exact ⟨0, rfl, by decide, by omega⟩

theorem step_ids {R : Rounding} {w w' T : World} {o : Op} {decls : List (Str × Decl × Bool)} (hc : CfgOK w.tree.cfg)
    (hl : LimitsHold decls w.tree.cfg) (hw : w.Traced) (hn : NamedOp decls T.tree.cfg o)
    (hwd : Wider w.tree.cfg T.tree.cfg) (hx : CfgExt w'.tree.cfg T.tree.cfg) (hs : Small T.tree.cfg)
    (hp : ∀ p ∈ w.pool, p.2.expr.erase.AllIds)
    (hst : (w.live.map Req.id).Nodup → ∀ s ∈ w.tree.root.contents, s.expr.erase.AllIds) (h : w.step R o = .ok w') :
    (∀ p ∈ w'.pool, p.2.expr.erase.AllIds) ∧
      ((w'.live.map Req.id).Nodup → ∀ s ∈ w'.tree.root.contents, s.expr.erase.AllIds) := by
  have hsm' := Small.of_ext hx hs
  have hx0 := (step_ext h).trans hx
  have add : ∀ {cfg : Config} {q : Req} {s : Sub} {root' : CNode}, s.id = q.id → s.expr.erase.AllIds →
      w.tree.root.insert R cfg s = .ok root' → ((q :: w.live).map Req.id).Nodup → ∀ t ∈ root'.contents, t.expr.erase.AllIds := by
    intro cfg q s root' hid ha hins hnd
    simp only [List.map_cons, List.nodup_cons] at hnd
    have hids : (w.tree.root.contents.map Sub.id).Perm (w.live.map Req.id) := by
      obtain ⟨ps, h1, h2, h3⟩ := hw.stored hnd.2
      rw [← h1, List.map_map]
      refine (h2.map Sub.id).trans ?_
      rw [List.map_map]
      apply List.Perm.of_eq
      exact List.map_congr_left fun p hp => (h3 p hp).id
    have hnd2 : ((s :: w.tree.root.contents).map Sub.id).Nodup := by
      rw [List.map_cons, List.nodup_cons, hid]
      exact ⟨fun hm => hnd.1 (hids.mem_iff.1 hm), hids.nodup_iff.2 hnd.2⟩
    intro t ht
    rcases List.mem_cons.1 ((CNode.insert_contents hnd2 hins).mem_iff.1 ht) with rfl | ht
    · exact ha
    · exact hst hnd.2 t ht
  cases o with
  | insert q =>
    simp only [World.step, Tree.insert] at h
    cases hprep : prepareInsert w.tree.cfg q.id q.consts (parseBuild q.expr) with
    | error x => simp only [hprep] at h; cases h
    | ok r =>
      obtain ⟨o, cfg⟩ := r
      cases o with
      | none => simp only [hprep] at h; cases h; exact ⟨hp, hst⟩
      | some s =>
        simp only [hprep] at h
        cases hins : w.tree.root.insert R cfg s with
        | error x => simp only [hins] at h; cases h
        | ok root' =>
          simp only [hins] at h
          cases h
          have hr := assignVar_all (cfg := w.tree.cfg) (fun p hp => hp)
            (all_parse (room_of_roomy hc hl hwd hx0 hs hn.2 hn.1.1 hn.1.2))
          exact ⟨hp, add (prepareInsert_res hprep).1 (prepareInsert_ids hr ⟨hx.strs, hx.ints⟩ hsm' hprep) hins⟩
  | makeSub q =>
    simp only [World.step] at h
    cases hm : w.tree.makeSub q.id q.consts (parseBuild q.expr) with
    | error x => simp only [hm] at h; cases h
    | ok r =>
      obtain ⟨o, t⟩ := r
      have hroot := makeSub_api_root hm
      cases o with
      | none => simp only [hm] at h; cases h; exact ⟨hp, by dsimp only; rw [hroot]; exact hst⟩
      | some s =>
        simp only [hm] at h
        cases h
        refine ⟨?_, by dsimp only; rw [hroot]; exact hst⟩
        intro p hp'
        rcases List.mem_append.1 hp' with hp' | hp'
        · exact hp p hp'
        · simp only [List.mem_singleton] at hp'
          subst hp'
          exact makeSub_ids (inRange_parse hn.2) hsm' hm
  | insertSub i =>
    simp only [World.step, Tree.insertSub] at h
    cases hk : w.pool[i]? with
    | none => simp only [hk] at h; cases h; exact ⟨hp, hst⟩
    | some p =>
      obtain ⟨q, s⟩ := p
      simp only [hk] at h
      cases hins : w.tree.root.insert R w.tree.cfg s with
      | error x => simp only [hins] at h; cases h
      | ok root' =>
        simp only [hins] at h
        cases h
        have hmem := List.mem_of_getElem? hk
        exact ⟨hp, add (hw.pool (q, s) hmem).id (hp (q, s) hmem) hins⟩
  | changeBoundaries e =>
    simp only [World.step] at h
    cases hcb : w.tree.changeBoundaries (parseBuild e) with
    | error x => simp only [hcb] at h; cases h
    | ok t =>
      simp only [hcb] at h
      cases h
      exact ⟨hp, by dsimp only; rw [changeBoundaries_root hcb]; exact hst⟩

theorem run_ids {R : Rounding} {T : World} {decls : List (Str × Decl × Bool)} (hs : Small T.tree.cfg) : ∀ {ops : List Op} {w : World},
    PruneOK w → LimitsHold decls w.tree.cfg → TablesOK w.tree.cfg →
    w.Traced → (∀ o ∈ ops, ModerateOp o ∧ NamedOp decls T.tree.cfg o) →
    (∀ p ∈ w.pool, p.2.expr.erase.AllIds) → ((w.live.map Req.id).Nodup → ∀ s ∈ w.tree.root.contents, s.expr.erase.AllIds) →
    w.run R ops = .ok T → (T.live.map Req.id).Nodup → ∀ s ∈ T.tree.root.contents, s.expr.erase.AllIds := by
  intro ops
  induction ops with
  | nil => intro w _ _ _ _ _ _ hst h; cases h; exact hst
  | cons o os ih =>
    intro w hpr hl ht hw hops hp hst h
    have hrun := run_prune hpr ht hs (fun o ho => (hops o ho).1) h
    simp only [World.run] at h
    split at h
    · cases h
    · rename_i w1 h1
      have hx := run_ext h
      have hpr1 := step_prune hpr ht (Small.of_ext hx hs) (hops o List.mem_cons_self).1 h1
      obtain ⟨p1, p2⟩ := step_ids hpr.cfg hl hw (hops o List.mem_cons_self).2 hrun.2 hx hs hp hst h1
      exact ih hpr1.1 (limits_wider hpr.cfg hpr1.2 (step_ext h1) hl) ((step_ext h1).ok ht) (step_traced hw h1).1 (fun o ho => hops o (List.mem_cons_of_mem _ ho)) p1 p2 h

/-- after a history from a fresh tree whose calls leave room for their constants, every stored constant has an id -/
theorem history_ids {R : Rounding} {cap min : Nat} {decls : List (Str × Decl × Bool)} (hd : ∀ d ∈ decls, ProperDecl d.1 d.2.1)
    {ops : List Op} {w : World} (hops : ∀ o ∈ ops, ModerateOp o ∧ NamedOp decls w.tree.cfg o) (hs : Small w.tree.cfg)
    (h : (World.init (makeTree cap min decls)).run R ops = .ok w) (hids : (w.live.map Req.id).Nodup) :
    ∀ s ∈ w.tree.root.contents, s.expr.erase.AllIds :=
  run_ids hs (makeTree_cfgOK hd) (makeTree_limits cap min decls) (makeTree_tablesOK cap min decls) (init_traced cap min decls) hops (by simp [World.init])
    (by simp [World.init, makeTree, emptyCNode, CNode.contents, PNodes.contents]) h hids

end BeTree
