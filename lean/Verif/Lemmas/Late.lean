import Verif.Spec.Late
import Verif.Lemmas.World
import Verif.Lemmas.Total
import Verif.Lemmas.InsertWorld
/-
One more variable at the end of the declarations changes nothing in what the calls do that do not mention it.
-/
namespace BeTree
open Spec

/-- one more domain -/
def Config.plus (cfg : Config) (x : Domain) : Config := { cfg with domains := cfg.domains ++ [x] }

theorem getDomain_plus {cfg : Config} {x d : Domain} {v : Nat} (h : getDomain cfg v = .ok d) : getDomain (cfg.plus x) v = .ok d := by
  unfold getDomain at *
  split at h
  · cases h
  · rename_i h1
    have : (cfg.plus x).domains[v]? = some d := by
      cases h
      have hl : v < cfg.domains.length := by
        rcases Nat.lt_or_ge v cfg.domains.length with h | h
        · exact h
        · rw [List.getElem?_eq_none h] at h1; cases h1
      rw [Config.plus, List.getElem?_append_left hl, h1]
    rw [this]

/-! ### names -/

theorem findAttr_plus {key : Str} {x : Domain} : ∀ {ds : List Domain} {i : Nat}, key ∈ ds.map (fun d => d.attr.attr) →
    findAttr key (ds ++ [x]) i = findAttr key ds i ∧ findAttr key ds i < i + ds.length := by
  intro ds
  induction ds with
  | nil => intro i h; simp at h
  | cons d ds ih =>
    intro i h
    simp only [List.cons_append, findAttr]
    by_cases hk : d.attr.attr = key
    · simp [hk]
    · have h' : key ∈ ds.map (fun d => d.attr.attr) := by
        rcases List.mem_cons.1 h with h | h
        · exact absurd h.symm hk
        · exact h
      obtain ⟨h1, h2⟩ := ih (i := i + 1) h'
      simp only [hk, if_false, List.length_cons]
      exact ⟨h1, by omega⟩

/-- the names of the domains -/
def Config.names (cfg : Config) : List Str := cfg.domains.map (fun d => d.attr.attr)

theorem resolveVar_plus {cfg : Config} {x : Domain} {v : AttrVar} (h : lowerKey v.attr ∈ cfg.names) :
    resolveVar (cfg.plus x) v = resolveVar cfg v ∧ (resolveVar cfg v).var < cfg.domains.length := by
  obtain ⟨h1, h2⟩ := findAttr_plus (x := x) (i := 0) h
  constructor
  · unfold resolveVar tryGetIdForAttr; rw [Config.plus, h1]
  · unfold resolveVar tryGetIdForAttr; simpa using h2

/-- the ids of the variables of a predicate -/
def predIds : Pred → List Nat
  | .compare _ v _ => [v.var]
  | .equality _ v _ => [v.var]
  | .boolVar v => [v.var]
  | .boolLit _ => []
  | .set _ l r => (match l with | .var v => [v.var] | _ => []) ++ (match r with | .var v => [v.var] | _ => [])
  | .list _ v _ => [v.var]
  | .freq f => [f.attr.var, f.now.var]
  | .segment s => [s.attr.var, s.now.var]
  | .geo g => [g.latVar.var, g.lonVar.var]
  | .str s => [s.attr.var]
  | .isNull _ v => [v.var]

/-- does the predicate have a variable where `in` reads one? -/
def predGood : Pred → Bool
  | .set _ (.var _) _ => true
  | .set _ _ (.var _) => true
  | .set _ _ _ => false
  | _ => true

/-- what the passes leave alone in a predicate -/
def predKey (p : Pred) : List Nat × Bool := (predIds p, predGood p)

/-- the same for an expression, predicate by predicate -/
def exprIds : Expr → List (List Nat × Bool)
  | .leaf p => [predKey p]
  | .not e => exprIds e
  | .and l r => exprIds l ++ exprIds r
  | .or l r => exprIds l ++ exprIds r

/-- all variables are among the first `n` -/
def Below (n : Nat) (e : Expr) : Prop := ∀ k ∈ exprIds e, ∀ i ∈ k.1, i < n

/-- `in` has a variable everywhere -/
def Good (e : Expr) : Prop := ∀ k ∈ exprIds e, k.2 = true

theorem Below.left {n : Nat} {l r : Expr} (h : ∀ k ∈ exprIds l ++ exprIds r, ∀ i ∈ k.1, i < n) : Below n l :=
  fun i hi => h i (by simp [hi])
theorem Below.right {n : Nat} {l r : Expr} (h : ∀ k ∈ exprIds l ++ exprIds r, ∀ i ∈ k.1, i < n) : Below n r :=
  fun i hi => h i (by simp [hi])
theorem Below.leaf {n : Nat} {p : Pred} (h : Below n (.leaf p)) : ∀ i ∈ predIds p, i < n := h (predKey p) (by simp [exprIds])
theorem Good.left {l r : Expr} (h : ∀ k ∈ exprIds l ++ exprIds r, k.2 = true) : Good l := fun i hi => h i (by simp [hi])
theorem Good.right {l r : Expr} (h : ∀ k ∈ exprIds l ++ exprIds r, k.2 = true) : Good r := fun i hi => h i (by simp [hi])

theorem assignVarPred_plus {cfg : Config} {x : Domain} {p : Pred} (h : ∀ a ∈ predNames p, lowerKey a ∈ cfg.names) :
    assignVarPred (cfg.plus x) p = assignVarPred cfg p ∧ ∀ i ∈ predIds (assignVarPred cfg p), i < cfg.domains.length := by
  have hv : ∀ v : AttrVar, lowerKey v.attr ∈ cfg.names → (resolveVar cfg v).var < cfg.domains.length :=
    fun v hv => (resolveVar_plus (x := x) hv).2
  cases p with
  | set op l r =>
    cases l <;> cases r <;> simp_all [predNames, assignVarPred, predIds, resolveVar_plus]
  | _ => simp_all [predNames, assignVarPred, predIds, resolveVar_plus]

theorem assignVar_plus {cfg : Config} {x : Domain} {e : Expr} (h : ∀ a ∈ exprNames e, lowerKey a ∈ cfg.names) :
    assignVar (cfg.plus x) e = assignVar cfg e ∧ Below cfg.domains.length (assignVar cfg e) := by
  induction e with
  | leaf p =>
    obtain ⟨h1, h2⟩ := assignVarPred_plus (x := x) h
    exact ⟨by simp only [assignVar, h1], fun k hk => by simp only [assignVar, exprIds, List.mem_singleton] at hk; subst hk; exact h2⟩
  | not e ih =>
    obtain ⟨h1, h2⟩ := ih h
    exact ⟨by simp only [assignVar, h1], h2⟩
  | and l r ihl ihr | or l r ihl ihr =>
    obtain ⟨h1, h2⟩ := ihl fun a ha => h a (by simp [exprNames, ha])
    obtain ⟨h3, h4⟩ := ihr fun a ha => h a (by simp [exprNames, ha])
    refine ⟨by simp only [assignVar, h1, h3], fun i hi => ?_⟩
    rcases List.mem_append.1 hi with hi | hi
    · exact h2 i hi
    · exact h4 i hi

theorem predNames_assignVar (cfg : Config) (p : Pred) : predNames (assignVarPred cfg p) = predNames p := by
  cases p with
  | set op l r => cases l <;> cases r <;> rfl
  | _ => rfl

theorem exprNames_assignVar (cfg : Config) (e : Expr) : exprNames (assignVar cfg e) = exprNames e := by
  induction e with
  | leaf p => exact predNames_assignVar cfg p
  | not e ih => exact ih
  | and l r ihl ihr | or l r ihl ihr => simp only [assignVar, exprNames, ihl, ihr]

/-! ### the limits on strings -/

theorem attrStringBound_plus {attr : Str} {x : Domain} : ∀ {ds : List Domain},
    (attr ∈ ds.map (fun d => d.attr.attr) ∨ attr ≠ x.attr.attr) → attrStringBound attr (ds ++ [x]) = attrStringBound attr ds := by
  intro ds
  induction ds with
  | nil =>
    intro h
    have h1 : ¬ x.attr.attr = attr := fun h' => by simp [h'] at h
    simp [attrStringBound, h1]
  | cons d ds ih =>
    intro h
    simp only [List.cons_append, attrStringBound]
    split
    · rfl
    · rename_i hd
      apply ih
      rcases h with h | h
      · rcases List.mem_cons.1 h with h | h
        · exact absurd h.symm hd
        · exact Or.inl h
      · exact Or.inr h

theorem boundedStringsPred_plus {cfg : Config} {x : Domain} {p : Pred}
    (h : ∀ a ∈ predNames p, a ∈ cfg.names ∨ a ≠ x.attr.attr) : boundedStringsPred (cfg.plus x) p = boundedStringsPred cfg p := by
  have key : ∀ a, (a ∈ cfg.names ∨ a ≠ x.attr.attr) →
      attrStringBound a (cfg.plus x).domains = attrStringBound a cfg.domains := fun a ha => attrStringBound_plus ha
  have h1 : ∀ a s, (a ∈ cfg.names ∨ a ≠ x.attr.attr) → strValid (cfg.plus x) a s = strValid cfg a s := by
    intro a s ha; unfold strValid; rw [key a ha]; rfl
  have h2 : ∀ a s, (a ∈ cfg.names ∨ a ≠ x.attr.attr) → strsValid (cfg.plus x) a s = strsValid cfg a s := by
    intro a s ha; unfold strsValid; rw [key a ha]; rfl
  cases p with
  | equality op v c => cases c <;> first | rfl | exact h1 _ _ (h _ (by simp [predNames]))
  | list op v c => cases c <;> first | rfl | exact h2 _ _ (h _ (by simp [predNames]))
  | set op l r =>
    cases l <;> cases r <;> first | rfl | exact h1 _ _ (h _ (by simp [predNames])) | exact h2 _ _ (h _ (by simp [predNames]))
  | _ => rfl

theorem boundedStringsValid_plus {cfg : Config} {x : Domain} {e : Expr}
    (h : ∀ a ∈ exprNames e, a ∈ cfg.names ∨ a ≠ x.attr.attr) : boundedStringsValid (cfg.plus x) e = boundedStringsValid cfg e := by
  induction e with
  | leaf p => exact boundedStringsPred_plus h
  | not e ih => exact ih h
  | and l r ihl ihr | or l r ihl ihr =>
    simp only [boundedStringsValid, ihl fun a ha => h a (by simp [exprNames, ha]), ihr fun a ha => h a (by simp [exprNames, ha])]

/-! ### interning -/

theorem addStrId_plus {cfg cfg' : Config} {x : Domain} {v : AttrVar} {s : Str} {al : Bool} {maps : List StringMap} {n id : Nat}
    (h : addStrId cfg v s al maps n = .ok (id, cfg')) : addStrId (cfg.plus x) v s al maps n = .ok (id, cfg'.plus x) := by
  unfold addStrId at *
  split at h
  · cases h
  · rename_i hd
    rw [getDomain_plus hd]
    dsimp only
    repeat' split at h
    all_goals first
      | (cases h; simp_all [Config.plus])
      | cases h

theorem getIdForString_plus {cfg cfg' : Config} {x : Domain} {v : AttrVar} {s : Str} {al : Bool} {id : Nat}
    (h : getIdForString cfg v s al = .ok (id, cfg')) : getIdForString (cfg.plus x) v s al = .ok (id, cfg'.plus x) := by
  unfold getIdForString at *
  have e : (cfg.plus x).stringMaps = cfg.stringMaps := rfl
  rw [e]
  repeat' split at h
  all_goals first
    | (cases h; done)
    | (cases h; simp_all; done)
    | (have := addStrId_plus (x := x) h; simp_all)

theorem addIntId_plus {cfg cfg' : Config} {x : Domain} {v : AttrVar} {s : Int} {al : Bool} {maps : List IntMap} {n id : Nat}
    (h : addIntId cfg v s al maps n = .ok (id, cfg')) : addIntId (cfg.plus x) v s al maps n = .ok (id, cfg'.plus x) := by
  unfold addIntId at *
  split at h
  · cases h
  · rename_i hd
    rw [getDomain_plus hd]
    dsimp only
    repeat' split at h
    all_goals first
      | (cases h; simp_all [Config.plus])
      | cases h

theorem getIdForIenum_plus {cfg cfg' : Config} {x : Domain} {v : AttrVar} {s : Int} {al : Bool} {id : Nat}
    (h : getIdForIenum cfg v s al = .ok (id, cfg')) : getIdForIenum (cfg.plus x) v s al = .ok (id, cfg'.plus x) := by
  unfold getIdForIenum at *
  have e : (cfg.plus x).intMaps = cfg.intMaps := rfl
  rw [e]
  repeat' split at h
  all_goals first
    | cases h; done
    | (cases h; simp_all; done)
    | (have := addIntId_plus (x := x) h; simp_all)

theorem assignStrList_plus {x : Domain} {v : AttrVar} {al : Bool} : ∀ {l l' : List StrVal} {cfg cfg' : Config},
    assignStrList cfg v al l = .ok (l', cfg') → assignStrList (cfg.plus x) v al l = .ok (l', cfg'.plus x) := by
  intro l
  induction l with
  | nil => intro l' cfg cfg' h; cases h; rfl
  | cons s ss ih =>
    intro l' cfg cfg' h
    rw [assignStrList] at *
    split at h
    · cases h
    · rename_i h1
      split at h
      · cases h
      · rename_i h2
        cases h
        rw [getIdForString_plus h1]
        dsimp only
        rw [ih h2]

theorem assignStrPred_plus {cfg cfg' : Config} {x : Domain} {al : Bool} {p p' : Pred} (h : assignStrPred cfg al p = .ok (p', cfg')) :
    assignStrPred (cfg.plus x) al p = .ok (p', cfg'.plus x) ∧ predKey p' = predKey p := by
  unfold assignStrPred at *
  split at h
  all_goals (try split at h)
  all_goals (try cases h)
  all_goals (try rename_i h1)
  all_goals (first
    | rw [getIdForString_plus h1]; exact ⟨rfl, rfl⟩
    | rw [assignStrList_plus h1]; exact ⟨rfl, rfl⟩
    | exact ⟨rfl, rfl⟩)

theorem assignStr_plus {x : Domain} {al : Bool} {e : Expr} : ∀ {e' : Expr} {cfg cfg' : Config}, assignStr cfg al e = .ok (e', cfg') →
    assignStr (cfg.plus x) al e = .ok (e', cfg'.plus x) ∧ exprIds e' = exprIds e := by
  induction e with
  | leaf p =>
    intro e' cfg cfg' h
    rw [assignStr] at *
    split at h
    · cases h
    · rename_i h1; cases h
      obtain ⟨k1, k2⟩ := assignStrPred_plus (x := x) h1
      rw [k1]; exact ⟨rfl, by simp only [exprIds, k2]⟩
  | not e ih =>
    intro e' cfg cfg' h
    rw [assignStr] at *
    split at h
    · cases h
    · rename_i h1; cases h
      obtain ⟨k1, k2⟩ := ih h1
      rw [k1]; exact ⟨rfl, k2⟩
  | and l r ihl ihr | or l r ihl ihr =>
    intro e' cfg cfg' h
    rw [assignStr] at *
    split at h
    · cases h
    · rename_i h1
      split at h
      · cases h
      · rename_i h2
        cases h
        obtain ⟨k1, k2⟩ := ihl h1
        obtain ⟨k3, k4⟩ := ihr h2
        rw [k1]; dsimp only; rw [k3]
        exact ⟨rfl, by simp only [exprIds, k2, k4]⟩

theorem assignIenumPred_plus {cfg cfg' : Config} {x : Domain} {al : Bool} {p p' : Pred} (h : assignIenumPred cfg al p = .ok (p', cfg')) :
    assignIenumPred (cfg.plus x) al p = .ok (p', cfg'.plus x) ∧ predKey p' = predKey p := by
  unfold assignIenumPred at *
  split at h
  · split at h
    · cases h
    · rename_i h1
      rw [getDomain_plus h1]
      dsimp only
      split at h
      · rename_i h2
        rw [if_pos h2]
        split at h
        · cases h
        · rename_i h3
          cases h
          rw [getIdForIenum_plus h3]
          exact ⟨rfl, rfl⟩
      · rename_i h2
        rw [if_neg h2]; cases h; exact ⟨rfl, rfl⟩
  · cases h
    exact ⟨rfl, rfl⟩

theorem assignIenum_plus {x : Domain} {al : Bool} {e : Expr} : ∀ {e' : Expr} {cfg cfg' : Config}, assignIenum cfg al e = .ok (e', cfg') →
    assignIenum (cfg.plus x) al e = .ok (e', cfg'.plus x) ∧ exprIds e' = exprIds e := by
  induction e with
  | leaf p =>
    intro e' cfg cfg' h
    rw [assignIenum] at *
    split at h
    · cases h
    · rename_i h1; cases h
      obtain ⟨k1, k2⟩ := assignIenumPred_plus (x := x) h1
      rw [k1]; exact ⟨rfl, by simp only [exprIds, k2]⟩
  | not e ih =>
    intro e' cfg cfg' h
    rw [assignIenum] at *
    split at h
    · cases h
    · rename_i h1; cases h
      obtain ⟨k1, k2⟩ := ih h1
      rw [k1]; exact ⟨rfl, k2⟩
  | and l r ihl ihr | or l r ihl ihr =>
    intro e' cfg cfg' h
    rw [assignIenum] at *
    split at h
    · cases h
    · rename_i h1
      split at h
      · cases h
      · rename_i h2
        cases h
        obtain ⟨k1, k2⟩ := ihl h1
        obtain ⟨k3, k4⟩ := ihr h2
        rw [k1]; dsimp only; rw [k3]
        exact ⟨rfl, by simp only [exprIds, k2, k4]⟩

/-! ### the other passes -/

theorem fixFloatPred_plus {cfg : Config} {x : Domain} {p p' : Pred} (h : fixFloatPred cfg p = .ok p') :
    fixFloatPred (cfg.plus x) p = .ok p' ∧ predKey p' = predKey p := by
  unfold fixFloatPred at *
  split at h
  · split at h
    · cases h
    · rename_i h1
      rw [getDomain_plus h1]
      dsimp only
      split at h <;> (cases h; exact ⟨rfl, rfl⟩)
  · split at h
    · cases h
    · rename_i h1
      rw [getDomain_plus h1]
      dsimp only
      split at h <;> (cases h; exact ⟨rfl, rfl⟩)
  · cases h
    exact ⟨rfl, rfl⟩

theorem fixFloat_plus {cfg : Config} {x : Domain} {e : Expr} : ∀ {e' : Expr}, fixFloat cfg e = .ok e' →
    fixFloat (cfg.plus x) e = .ok e' ∧ exprIds e' = exprIds e := by
  induction e with
  | leaf p =>
    intro e' h
    rw [fixFloat] at *
    split at h
    · cases h
    · rename_i h1; cases h
      obtain ⟨k1, k2⟩ := fixFloatPred_plus (x := x) h1
      rw [k1]; exact ⟨rfl, by simp only [exprIds, k2]⟩
  | not e ih =>
    intro e' h
    rw [fixFloat] at *
    split at h
    · cases h
    · rename_i h1; cases h
      obtain ⟨k1, k2⟩ := ih h1
      rw [k1]; exact ⟨rfl, k2⟩
  | and l r ihl ihr | or l r ihl ihr =>
    intro e' h
    rw [fixFloat] at *
    split at h
    · cases h
    · rename_i h1
      split at h
      · cases h
      · rename_i h2
        cases h
        obtain ⟨k1, k2⟩ := ihl h1
        obtain ⟨k3, k4⟩ := ihr h2
        rw [k1]; dsimp only; rw [k3]
        exact ⟨rfl, by simp only [exprIds, k2, k4]⟩

theorem exprValidPred_plus {cfg : Config} {x : Domain} {p : Pred} {b : Bool} (h : exprValidPred cfg p = .ok b) :
    exprValidPred (cfg.plus x) p = .ok b := by
  unfold exprValidPred at *
  split at h
  all_goals first
    | exact h
    | (split at h
       · cases h
       · rename_i h1
         rw [getDomain_plus h1]
         exact h)

theorem andThen_ok {a b : Except Fault Bool} {x : Bool} (h : andThen a b = .ok x) :
    (a = .ok false ∧ x = false) ∨ (a = .ok true ∧ b = .ok x) := by
  unfold andThen at h
  split at h
  · cases h
  · cases h; exact Or.inl ⟨rfl, rfl⟩
  · exact Or.inr ⟨rfl, h⟩

theorem exprsValid_plus {cfg : Config} {x : Domain} {e : Expr} : ∀ {b : Bool}, exprsValid cfg e = .ok b →
    exprsValid (cfg.plus x) e = .ok b := by
  induction e with
  | leaf p => intro b h; exact exprValidPred_plus h
  | not e ih => intro b h; exact ih h
  | and l r ihl ihr | or l r ihl ihr =>
    intro b h
    rw [exprsValid] at *
    rcases andThen_ok h with ⟨h1, h2⟩ | ⟨h1, h2⟩
    · rw [ihl h1, h2]; rfl
    · rw [ihl h1]; exact ihr h2

theorem assignConstantsPred_key {cs : List Constant} {p p' : Pred} (h : assignConstantsPred cs p = some p') : predKey p' = predKey p := by
  unfold assignConstantsPred at h
  repeat' split at h
  all_goals first | (cases h; rfl) | cases h

theorem assignConstants_ids {cs : List Constant} {e : Expr} : ∀ {e' : Expr}, assignConstants cs e = some e' → exprIds e' = exprIds e := by
  induction e with
  | leaf p =>
    intro e' h
    simp only [assignConstants, Option.map_eq_some_iff] at h
    obtain ⟨a, h1, rfl⟩ := h
    simp only [exprIds, assignConstantsPred_key h1]
  | not e ih =>
    intro e' h
    simp only [assignConstants, Option.map_eq_some_iff] at h
    obtain ⟨a, h1, rfl⟩ := h
    have := ih h1; exact this
  | and l r ihl ihr | or l r ihl ihr =>
    intro e' h
    simp only [assignConstants] at h
    split at h
    · rename_i h1 h2
      cases h
      simp only [exprIds, ihl h1, ihr h2]
    · cases h

theorem sortListsPred_key (p : Pred) : predKey (sortListsPred p) = predKey p := by
  unfold sortListsPred
  split <;> rfl

theorem sortLists_ids (e : Expr) : exprIds (sortLists e) = exprIds e := by
  induction e with
  | leaf p => simp only [sortLists, exprIds, sortListsPred_key]
  | not e ih => exact ih
  | and l r ihl ihr | or l r ihl ihr => simp only [sortLists, exprIds, ihl, ihr]

/-! ### change_boundaries -/

theorem simplePred_none {n : Nat} {inv : Bool} {p : Pred} (h : ∀ i ∈ predIds p, i < n) : simplePred n inv p = .ok none := by
  cases p with
  | set op l r =>
    have hl : l.isVar n = false := by
      cases l with
      | var v => simp only [SetLeft.isVar]; have := h v.var (by simp [predIds]); simp; omega
      | _ => rfl
    have hr : r.isVar n = false := by
      cases r with
      | var v => simp only [SetRight.isVar]; have := h v.var (by simp [predIds]); simp; omega
      | _ => rfl
    simp [simplePred, hl, hr]
  | compare op v c | equality op v c | boolVar v | list op v c =>
    have := h v.var (by simp [predIds])
    have h1 : ¬ v.var = n := by omega
    simp [simplePred, h1]
  | _ => rfl

theorem simpleBound_none {n : Nat} {e : Expr} : ∀ {inv : Bool}, Below n e → simpleBound n inv e = .ok none := by
  induction e with
  | leaf p => intro inv h; exact simplePred_none h.leaf
  | not e ih => intro inv h; exact ih (inv := !inv) h
  | and l r ihl ihr | or l r ihl ihr =>
    intro inv h
    rw [simpleBound, ihl (Below.left h)]
    dsimp only
    rw [ihr (Below.right h)]
    rfl

theorem widenDomain_cfg {cfg : Config} {x d : Domain} {b : SBound} : widenDomain (cfg.plus x) d b = widenDomain cfg d b := rfl

theorem changeDomain_cfg {cfg : Config} {x d : Domain} {e : Expr} : changeDomain (cfg.plus x) e d = changeDomain cfg e d := rfl

theorem changeDomains_plus {cfg : Config} {x : Domain} {e : Expr} (hx : Below x.attr.var e) : ∀ {ds ds' : List Domain},
    changeDomains cfg e ds = .ok ds' → changeDomains (cfg.plus x) e (ds ++ [x]) = .ok (ds' ++ [x]) := by
  intro ds
  induction ds with
  | nil =>
    intro ds' h
    cases h
    have : changeDomain (cfg.plus x) e x = .ok x := by
      unfold changeDomain
      split <;> first | rfl | rw [simpleBound_none hx]
    simp [changeDomains, this]
  | cons d ds ih =>
    intro ds' h
    rw [changeDomains] at h
    split at h
    · cases h
    · rename_i h1
      split at h
      · cases h
      · rename_i h2
        cases h
        rw [List.cons_append, changeDomains, changeDomain_cfg, h1]
        dsimp only
        rw [ih h2]
        rfl

theorem changeBoundaries_plus {cfg cfg' : Config} {x : Domain} {e : Expr} (hx : Below x.attr.var e)
    (h : changeBoundaries cfg e = .ok cfg') : changeBoundaries (cfg.plus x) e = .ok (cfg'.plus x) := by
  unfold changeBoundaries at *
  split at h
  · cases h
  · rename_i h1
    cases h
    have := changeDomains_plus hx h1
    rw [show (cfg.plus x).domains = cfg.domains ++ [x] from rfl, this]
    rfl

/-! ### building a subscription -/

theorem scVar_above {n : Nat} {inv : Bool} {v : AttrVar} (h : v.var < n) : scVar n inv v = .none := by
  unfold scVar
  rw [if_neg (by omega)]

theorem scPred_none {n : Nat} {inv : Bool} {p : Pred} (h : ∀ i ∈ predIds p, i < n) {r : SC} (hr : scPred n inv p = .ok r) :
    r = .none := by
  cases p with
  | set op l r' =>
    cases l <;> cases r' <;> first
      | (cases hr; done)
      | (cases hr; rename_i v; exact scVar_above (h v.var (by simp [predIds])))
      | (cases hr; rename_i v _; exact scVar_above (h v.var (by simp [predIds])))
  | isNull op v => cases op <;> (cases hr; exact scVar_above (h v.var (by simp [predIds])))
  | boolLit b => cases hr; rfl
  | compare op v c | equality op v c | boolVar v | list op v c => cases hr; exact scVar_above (h v.var (by simp [predIds]))
  | str s => cases hr; exact scVar_above (h s.attr.var (by simp [predIds]))
  | freq f =>
    cases hr
    rw [scVar_above (h f.attr.var (by simp [predIds])), scVar_above (h f.now.var (by simp [predIds]))]; rfl
  | segment f =>
    cases hr
    rw [scVar_above (h f.attr.var (by simp [predIds])), scVar_above (h f.now.var (by simp [predIds]))]; rfl
  | geo g =>
    cases hr
    rw [scVar_above (h g.latVar.var (by simp [predIds])), scVar_above (h g.lonVar.var (by simp [predIds]))]; rfl

theorem scExpr_none {n : Nat} {e : Expr} : ∀ {inv : Bool} {r : SC}, Below n e → scExpr n inv e = .ok r → r = .none := by
  induction e with
  | leaf p => intro inv r h hr; exact scPred_none h.leaf hr
  | not e ih => intro inv r h hr; exact ih (inv := !inv) h hr
  | and l r ihl ihr | or l r ihl ihr =>
    intro inv s h hr
    rw [scExpr] at hr
    split at hr
    · cases hr
    · rename_i h1
      split at hr
      · cases hr
      · rename_i h2
        cases hr
        rw [ihl (Below.left h) h1, ihr (Below.right h) h2]
        rfl

theorem scPred_good {n : Nat} {inv : Bool} {p : Pred} (h : predGood p = true) : ∃ r, scPred n inv p = .ok r := by
  cases p with
  | set op l r => cases l <;> cases r <;> first | exact ⟨_, rfl⟩ | cases h
  | isNull op v => cases op <;> exact ⟨_, rfl⟩
  | _ => exact ⟨_, rfl⟩

theorem scExpr_good {n : Nat} {e : Expr} : ∀ {inv : Bool}, Good e → ∃ r, scExpr n inv e = .ok r := by
  induction e with
  | leaf p => intro inv h; exact scPred_good (h (predKey p) (by simp [exprIds]))
  | not e ih => intro inv h; exact ih (inv := !inv) h
  | and l r ihl ihr | or l r ihl ihr =>
    intro inv h
    obtain ⟨a, ha⟩ := ihl (inv := inv) (Good.left h)
    obtain ⟨b, hb⟩ := ihr (inv := inv) (Good.right h)
    rw [scExpr, ha]; dsimp only; rw [hb]
    exact ⟨_, rfl⟩

theorem fillShortCircuit_plus {e : Expr} {x : Domain} (hb : Below x.attr.var e) (hg : Good e) : ∀ {ds : List Domain} {i : Nat}
    {p f p' f' : Bits}, fillShortCircuit e ds i p f = .ok (p', f') → fillShortCircuit e (ds ++ [x]) i p f = .ok (p', f') := by
  intro ds
  induction ds with
  | nil =>
    intro i p f p' f' h
    cases h
    obtain ⟨r, hr⟩ := scExpr_good (n := x.attr.var) (inv := false) hg
    have := scExpr_none hb hr
    subst this
    simp [fillShortCircuit, hr]
  | cons d ds ih =>
    intro i p f p' f' h
    rw [List.cons_append]
    rw [fillShortCircuit] at *
    split at h
    · rename_i hu
      rw [if_pos hu]
      split at h
      · cases h
      · rename_i h1
        split at h
        · cases h
        · exact ih h
      · rename_i h1
        split at h
        · cases h
        · exact ih h
      · rename_i h1
        exact ih h
    · rename_i hu
      rw [if_neg hu]; exact ih h

theorem predVars_below {n : Nat} {p : Pred} (h : ∀ i ∈ predIds p, i < n) : ∀ i ∈ predVars p, i < n := by
  cases p with
  | set op l r => cases l <;> cases r <;> simp_all [predVars, predIds]
  | _ => simp_all [predVars, predIds]

theorem exprVars_below {n : Nat} {e : Expr} (h : Below n e) : ∀ i ∈ exprVars e, i < n := by
  induction e with
  | leaf p => exact predVars_below h.leaf
  | not e ih => exact ih h
  | and l r ihl ihr | or l r ihl ihr =>
    intro i hi
    rcases List.mem_append.1 hi with hi | hi
    · exact ihl (Below.left h) i hi
    · exact ihr (Below.right h) i hi

/-- one more variable needs no more words -/
def SameWords (cfg : Config) : Prop := (cfg.domains.length + 1) / 64 = cfg.domains.length / 64

theorem makeSub_plus {cfg : Config} {x : Domain} {id : Nat} {e : AExpr} {s : Sub} (hw : SameWords cfg) (hb : Below x.attr.var e.erase)
    (hg : Good e.erase) (h : makeSub cfg id e = .ok s) : makeSub (cfg.plus x) id e = .ok s := by
  unfold makeSub at *
  have hl : (cfg.plus x).domains.length = cfg.domains.length + 1 := by simp [Config.plus]
  have hm : makeBits (cfg.domains.length + 1) = makeBits cfg.domains.length := by unfold makeBits; rw [hw]
  dsimp only at *
  rw [hl, hw, hm]
  split at h
  · rename_i h1
    rw [if_pos h1]
    split at h
    · cases h
    · rename_i h2
      cases h
      rw [show (cfg.plus x).domains = cfg.domains ++ [x] from rfl, fillShortCircuit_plus hb hg h2]
  · cases h

theorem finishSub_plus {cfg cfg' : Config} {x : Domain} {id : Nat} {e : Expr} {s : Sub} (hw : SameWords cfg) (hb : Below x.attr.var e)
    (hg : Good e) (h : finishSub cfg id e = .ok (s, cfg')) : finishSub (cfg.plus x) id e = .ok (s, cfg'.plus x) := by
  unfold finishSub at *
  split at h
  · cases h
  · rename_i ae pm h1
    rw [show (cfg.plus x).predMap = cfg.predMap from rfl, h1]
    dsimp only at *
    have he := assignPred_erase h1
    split at h
    · cases h
    · rename_i h2
      cases h
      have := makeSub_plus (x := x) (cfg := { cfg with predMap := pm }) hw (by rw [he]; exact hb) (by rw [he]; exact hg) h2
      rw [show ({ cfg.plus x with predMap := pm } : Config) = Config.plus { cfg with predMap := pm } x from rfl, this]

theorem varsInConfigPred_good {p : Pred} {b : Bool} (h : varsInConfigPred p = .ok b) : predGood p = true := by
  cases p with
  | set op l r => cases l <;> cases r <;> first | rfl | cases h
  | _ => rfl

theorem varsInConfig_good {e : Expr} (h : varsInConfig e = .ok true) : Good e := by
  induction e with
  | leaf p => intro k hk; simp only [exprIds, List.mem_singleton] at hk; subst hk; exact varsInConfigPred_good h
  | not e ih => exact ih h
  | and l r ihl ihr | or l r ihl ihr =>
    rw [varsInConfig] at h
    rcases andThen_ok h with ⟨_, h2⟩ | ⟨h1, h2⟩
    · cases h2
    · intro k hk
      rcases List.mem_append.1 hk with hk | hk
      · exact ihl h1 k hk
      · exact ihr h2 k hk

/-! ### the tree -/

/-- the variables of the expressions are among the first `n` -/
def SubsBelow (n : Nat) (l : List Sub) : Prop := ∀ s ∈ l, ∀ i ∈ s.attrVars, i < n

theorem has_above {n : Nat} {s : Sub} (h : ∀ i ∈ s.attrVars, i < n) : s.has n = false := by
  unfold Sub.has
  rw [decide_eq_false_iff_not]
  intro h1
  exact Nat.lt_irrefl _ (h _ h1)

theorem bestOfSub_plus {R : Rounding} {used : List Nat} {subs : List Sub} {s : Sub} {x : Domain} : ∀ {ds : List Domain} {j : Nat} {b b' : Best},
    s.has (j + ds.length) = false → bestOfSub R used subs s ds j b = .ok b' → bestOfSub R used subs s (ds ++ [x]) j b = .ok b' := by
  intro ds
  induction ds with
  | nil =>
    intro j b b' hs h
    cases h
    have : bestStep R used subs s x j b = .ok b := by
      unfold bestStep
      have : s.has j = false := hs
      rw [this]; rfl
    simp [bestOfSub, this]
  | cons d ds ih =>
    intro j b b' hs h
    rw [List.cons_append, bestOfSub]
    rw [bestOfSub] at h
    split at h
    · cases h
    · exact ih (by rw [← hs]; simp only [List.length_cons]; congr 1; omega) h

theorem bestOfSubs_plus {R : Rounding} {cfg : Config} {used : List Nat} {subs : List Sub} {x : Domain} : ∀ {l : List Sub} {b b' : Best},
    SubsBelow cfg.domains.length l → bestOfSubs R cfg used subs l b = .ok b' → bestOfSubs R (cfg.plus x) used subs l b = .ok b' := by
  intro l
  induction l with
  | nil => intro b b' _ h; exact h
  | cons s ss ih =>
    intro b b' hs h
    rw [bestOfSubs] at *
    split at h
    · cases h
    · rename_i h1
      have h2 := bestOfSub_plus (x := x) (by rw [Nat.zero_add]; exact has_above (hs s (by simp))) h1
      rw [show (cfg.plus x).domains = cfg.domains ++ [x] from rfl, h2]
      exact ih (fun s h => hs s (by simp [h])) h

theorem nextHighest_plus {R : Rounding} {cfg : Config} {used : List Nat} {subs : List Sub} {x : Domain} {o : Option Nat}
    (hs : SubsBelow cfg.domains.length subs) (h : nextHighest R cfg used subs = .ok o) : nextHighest R (cfg.plus x) used subs = .ok o := by
  unfold nextHighest at *
  split at h
  · cases h
  · rename_i h1
    rw [bestOfSubs_plus hs h1]
    exact h

theorem subIsEnclosed_plus {cfg : Config} {x : Domain} {s : Sub} {v : Nat} {b : Bound} {r : Bool} (h : subIsEnclosed cfg s v b = .ok r) :
    subIsEnclosed (cfg.plus x) s v b = .ok r := by
  unfold subIsEnclosed at *
  split at h
  · rename_i h1
    rw [if_pos h1]
    split at h
    · cases h
    · rename_i h2
      rw [getDomain_plus h2]
      exact h
  · rename_i h1
    rw [if_neg h1]; exact h

theorem clusterDest_plus {cfg : Config} {x : Domain} {s : Sub} {v : Nat} {bl br : Bound} {r : Option Bool}
    (h : clusterDest cfg v bl br s = .ok r) : clusterDest (cfg.plus x) v bl br s = .ok r := by
  unfold clusterDest at *
  split at h
  · cases h
  · rename_i h1; rw [subIsEnclosed_plus h1]; exact h
  · rename_i h1
    rw [subIsEnclosed_plus h1]
    dsimp only
    split at h
    · cases h
    · rename_i h2; rw [subIsEnclosed_plus h2]; exact h
    · rename_i h2; rw [subIsEnclosed_plus h2]; exact h

theorem moveLoop_plus {δ : Type} {f g : Sub → Except Fault (Option δ)} (hfg : ∀ s r, f s = .ok r → g s = .ok r) :
    ∀ {subs kept : List Sub} {moved : List (δ × Sub)} {o : List Sub × List (δ × Sub)},
      moveLoop f kept subs moved = .ok o → moveLoop g kept subs moved = .ok o := by
  intro subs
  induction subs with
  | nil => intro kept moved o h; exact h
  | cons s ss ih =>
    intro kept moved o h
    rw [moveLoop] at *
    split at h
    · cases h
    · rename_i h1; rw [hfg _ _ h1]; exact ih h
    · rename_i h1
      rw [hfg _ _ h1]
      dsimp only
      split at h
      · exact ih h
      · exact ih h

theorem removeSub_sub {id : Nat} : ∀ {l l' : List Sub}, removeSub id l = some l' → ∀ s ∈ l', s ∈ l := by
  intro l
  induction l with
  | nil => intro l' h; cases h
  | cons a l ih =>
    intro l' h s hs
    rw [removeSub] at h
    split at h
    · cases h; simp [hs]
    · simp only [Option.map_eq_some_iff] at h
      obtain ⟨l2, h2, rfl⟩ := h
      rcases List.mem_cons.1 hs with rfl | hs
      · simp
      · exact List.mem_cons_of_mem _ (ih h2 s hs)

theorem moveLoop_from {δ : Type} {f : Sub → Except Fault (Option δ)} :
    ∀ {subs kept kept' : List Sub} {moved moved' : List (δ × Sub)},
      moveLoop f kept subs moved = .ok (kept', moved') → (∀ s ∈ kept', s ∈ kept ∨ s ∈ subs) ∧ (∀ m ∈ moved', m ∈ moved ∨ m.2 ∈ subs) := by
  intro subs
  induction subs with
  | nil => intro kept kept' moved moved' h; cases h; exact ⟨fun s hs => Or.inl hs, fun m hm => Or.inl hm⟩
  | cons s ss ih =>
    intro kept kept' moved moved' h
    rw [moveLoop] at h
    split at h
    · cases h
    · obtain ⟨h1, h2⟩ := ih h
      refine ⟨fun a ha => ?_, fun m hm => ?_⟩
      · rcases h1 a ha with h | h
        · rcases List.mem_append.1 h with h | h
          · exact Or.inl h
          · simp only [List.mem_singleton] at h; exact Or.inr (by simp [h])
        · exact Or.inr (by simp [h])
      · rcases h2 m hm with h | h
        · exact Or.inl h
        · exact Or.inr (by simp [h])
    · split at h
      · rename_i hr
        obtain ⟨h1, h2⟩ := ih h
        refine ⟨fun a ha => ?_, fun m hm => ?_⟩
        · rcases h1 a ha with h | h
          · rcases List.mem_append.1 h with h | h
            · exact Or.inl (removeSub_sub hr _ h)
            · simp only [List.mem_singleton] at h; exact Or.inr (by simp [h])
          · exact Or.inr (by simp [h])
        · rcases h2 m hm with h | h
          · rcases List.mem_append.1 h with h | h
            · exact Or.inl h
            · simp only [List.mem_singleton] at h; exact Or.inr (by simp [h])
          · exact Or.inr (by simp [h])
      · obtain ⟨h1, h2⟩ := ih h
        refine ⟨fun a ha => ?_, fun m hm => ?_⟩
        · rcases h1 a ha with h | h
          · exact Or.inl h
          · exact Or.inr (by simp [h])
        · rcases h2 m hm with h | h
          · rcases List.mem_append.1 h with h | h
            · exact Or.inl h
            · simp only [List.mem_singleton] at h; exact Or.inr (by simp [h])
          · exact Or.inr (by simp [h])

theorem movedTo_sub {side : Bool} {m : List (Bool × Sub)} {s : Sub} (h : s ∈ movedTo side m) : ∃ b, (b, s) ∈ m := by
  unfold movedTo at h
  simp only [List.mem_map, List.mem_filter] at h
  obtain ⟨⟨b, s'⟩, ⟨h1, _⟩, rfl⟩ := h
  exact ⟨b, h1⟩

theorem restructure_plus {R : Rounding} {cfg : Config} {x : Domain} : ∀ {fuel fuel' : Nat}, fuel ≤ fuel' →
    (∀ {used : List Nat} {subs : List Sub} {max : Nat} {pns : PNodes} {c : CNode}, SubsBelow cfg.domains.length subs →
      partition R cfg fuel used subs max pns = .ok c → partition R (cfg.plus x) fuel' used subs max pns = .ok c) ∧
    (∀ {used : List Nat} {cd cd' : CDir}, SubsBelow cfg.domains.length cd.cnode.subs →
      cluster R cfg fuel used cd = .ok cd' → cluster R (cfg.plus x) fuel' used cd = .ok cd') := by
  intro fuel
  induction fuel with
  | zero =>
    intro fuel' _
    constructor
    · intro used subs max pns c _ h; cases h
    · intro used cd cd' _ h; cases cd <;> cases h
  | succ n ih =>
    intro fuel' hle
    cases fuel' with
    | zero => omega
    | succ n' =>
    obtain ⟨ihp, ihc⟩ := ih (fuel' := n') (by omega)
    constructor
    · intro used subs max pns c hs h
      rw [partition] at *
      split at h
      · rename_i h1
        rw [if_pos h1]
        split at h
        · cases h
        · rename_i h2; rw [nextHighest_plus hs h2]; exact h
        · rename_i v h2
          rw [nextHighest_plus hs h2]
          dsimp only
          rw [show (cfg.plus x).partitionMinSize = cfg.partitionMinSize from rfl]
          split at h
          · rename_i h3; rw [if_pos h3]; exact h
          · rename_i h3
            rw [if_neg h3]
            split at h
            · cases h
            · rename_i h4
              rw [getDomain_plus h4]
              dsimp only
              split at h
              · cases h
              · rename_i h5
                split at h
                · cases h
                · rename_i h6
                  obtain ⟨k1, k2⟩ := moveLoop_from h5
                  have := ihc (fun s hs' => hs s (by
                    simp only [CDir.cnode, CNode.subs, List.mem_map] at hs'
                    obtain ⟨m, hm, rfl⟩ := hs'
                    rcases k2 m hm with h | h
                    · simp at h
                    · exact h)) h6
                  rw [show (cfg.plus x).lnodeMaxCap = cfg.lnodeMaxCap from rfl, this]
                  dsimp only
                  refine ihp (fun s hs' => hs s ?_) h
                  rcases k1 s hs' with h | h
                  · simp at h
                  · exact h
      · rename_i h1
        rw [if_neg h1]; exact h
    · intro used cd cd' hs h
      cases cd with
      | node v b c l r =>
        obtain ⟨subs, max, pns⟩ := c
        replace hs : SubsBelow cfg.domains.length subs := hs
        rw [cluster] at *
        split at h
        · rename_i h1
          rw [if_pos h1]
          split at h
          · cases h
          · rename_i h2
            rw [ihp hs h2]; exact h
        · rename_i h1
          rw [if_neg h1]; exact h
      | leaf v b c =>
        obtain ⟨subs, max, pns⟩ := c
        replace hs : SubsBelow cfg.domains.length subs := hs
        rw [cluster] at *
        split at h
        · rename_i h1
          rw [if_pos h1]
          split at h
          · cases h
          · split at h
            · cases h
            · rename_i h2
              rw [ihp hs h2]; exact h
          · split at h
            · cases h
            · split at h
              · cases h
              · rename_i h5
                rw [moveLoop_plus (fun s r hr => clusterDest_plus (x := x) hr) h5]
                dsimp only
                obtain ⟨k1, k2⟩ := moveLoop_from h5
                have hm : ∀ side, SubsBelow cfg.domains.length (movedTo side _) := fun side s hs' => hs s (by
                  obtain ⟨b', hb'⟩ := movedTo_sub hs'
                  rcases k2 _ hb' with h | h
                  · simp at h
                  · exact h)
                split at h
                · cases h
                · rename_i h6
                  rw [ihp (fun s hs' => hs s (by
                    rcases k1 s hs' with h | h
                    · simp at h
                    · exact h)) h6]
                  dsimp only
                  rw [show (cfg.plus x).lnodeMaxCap = cfg.lnodeMaxCap from rfl]
                  split at h
                  · cases h
                  · rename_i h7
                    rw [ihc (by exact hm true) h7]
                    dsimp only
                    split at h
                    · cases h
                    · rename_i h8
                      rw [ihc (by exact hm false) h8]
                      exact h
        · rename_i h1
          rw [if_neg h1]; exact h

theorem bestPartition_plus {used : List Nat} {s : Sub} {pns : PNodes} : ∀ {n i : Nat} {best : Option (Nat × Rat)},
    s.has (i + n) = false → bestPartition used s pns (n + 1) i best = bestPartition used s pns n i best := by
  intro n
  induction n with
  | zero =>
    intro i best h
    have h1 : s.has i = false := h
    simp [bestPartition, h1]
  | succ n ih =>
    intro i best h
    have h1 : s.has (i + 1 + n) = false := by rw [← h]; congr 1; omega
    unfold bestPartition
    simp only [ih h1]

theorem choosePartition_plus {cfg : Config} {x : Domain} {used : List Nat} {s : Sub} {pns : PNodes}
    (hs : ∀ i ∈ s.attrVars, i < cfg.domains.length) : choosePartition (cfg.plus x) used s pns = choosePartition cfg used s pns := by
  unfold choosePartition
  have hl : (cfg.plus x).domains.length = cfg.domains.length + 1 := by simp [Config.plus]
  rw [hl, bestPartition_plus (by rw [Nat.zero_add]; exact has_above hs)]

theorem partitionScore_plus {R : Rounding} {cfg : Config} {x : Domain} {v : Nat} {c : CDir} {r : Rat}
    (h : partitionScore R cfg v c = .ok r) : partitionScore R (cfg.plus x) v c = .ok r := by
  unfold partitionScore at *
  split at h
  · cases h
  · rename_i h1; rw [getDomain_plus h1]; exact h

theorem SubsBelow.left {n : Nat} {a b : List Sub} (h : SubsBelow n (a ++ b)) : SubsBelow n a := fun s hs => h s (by simp [hs])
theorem SubsBelow.right {n : Nat} {a b : List Sub} (h : SubsBelow n (a ++ b)) : SubsBelow n b := fun s hs => h s (by simp [hs])
theorem SubsBelow.snoc {n : Nat} {a : List Sub} {s : Sub} (h : SubsBelow n a) (hs : ∀ i ∈ s.attrVars, i < n) : SubsBelow n (a ++ [s]) := by
  intro t ht
  rcases List.mem_append.1 ht with ht | ht
  · exact h t ht
  · simp only [List.mem_singleton] at ht; subst ht; exact hs

mutual
theorem PNodes.insert_plus {R : Rounding} {cfg : Config} {x : Domain} {fuel fuel' : Nat} (hf : fuel ≤ fuel') {used : List Nat} {v : Nat}
    {s : Sub} (hs : ∀ i ∈ s.attrVars, i < cfg.domains.length) :
    ∀ {pns pns' : PNodes}, SubsBelow cfg.domains.length pns.contents → pns.insert R cfg fuel used v s = .ok pns' →
      pns.insert R (cfg.plus x) fuel' used v s = .ok pns'
  | .nil, pns', _, h => by rw [PNodes.insert] at h; cases h
  | .cons v' sc cd rest, pns', hc, h => by
    rw [PNodes.contents] at hc
    rw [PNodes.insert] at *
    split at h
    · rename_i h1
      rw [if_pos h1]
      split at h
      · cases h
      · rename_i h2
        rw [CDir.insert_plus hf hs hc.left h2]
        dsimp only
        split at h
        · cases h
        · rename_i h3
          rw [partitionScore_plus h3]; exact h
    · rename_i h1
      rw [if_neg h1]
      split at h
      · cases h
      · rename_i h2
        rw [PNodes.insert_plus hf hs hc.right h2]
        exact h

theorem CDir.insert_plus {R : Rounding} {cfg : Config} {x : Domain} {fuel fuel' : Nat} (hf : fuel ≤ fuel') {used : List Nat}
    {s : Sub} (hs : ∀ i ∈ s.attrVars, i < cfg.domains.length) :
    ∀ {cd cd' : CDir}, SubsBelow cfg.domains.length cd.contents → cd.insert R cfg fuel used s = .ok cd' →
      cd.insert R (cfg.plus x) fuel' used s = .ok cd'
  | .leaf v b (.mk subs max pns), cd', hc, h => by
    rw [CDir.contents, CNode.contents] at hc
    rw [CDir.insert] at *
    rw [choosePartition_plus hs]
    split at h
    · exact (restructure_plus hf).2 (SubsBelow.snoc hc.left hs) h
    · split at h
      · cases h
      · rename_i h2
        rw [PNodes.insert_plus hf hs hc.right h2]
        exact h
  | .node v b (.mk subs max pns) l r, cd', hc, h => by
    rw [CDir.contents, CNode.contents] at hc
    rw [CDir.insert] at *
    split at h
    · cases h
    · rename_i h1
      rw [subIsEnclosed_plus h1]
      dsimp only
      split at h
      · cases h
      · rename_i h2
        rw [CDir.insert_plus hf hs hc.left.right h2]
        exact h
    · rename_i h1
      rw [subIsEnclosed_plus h1]
      dsimp only
      split at h
      · cases h
      · rename_i h3
        rw [subIsEnclosed_plus h3]
        dsimp only
        split at h
        · cases h
        · rename_i h2
          rw [CDir.insert_plus hf hs hc.right h2]
          exact h
      · rename_i h3
        rw [subIsEnclosed_plus h3]
        dsimp only
        rw [choosePartition_plus hs]
        split at h
        · exact (restructure_plus hf).2 (SubsBelow.snoc hc.left.left.left hs) h
        · split at h
          · cases h
          · rename_i h2
            rw [PNodes.insert_plus hf hs hc.left.left.right h2]
            exact h
end

theorem CNode.insert_plus {R : Rounding} {cfg : Config} {x : Domain} {s : Sub} (hs : ∀ i ∈ s.attrVars, i < cfg.domains.length)
    {c c' : CNode} (hc : SubsBelow cfg.domains.length c.contents) (h : c.insert R cfg s = .ok c') :
    c.insert R (cfg.plus x) s = .ok c' := by
  obtain ⟨subs, max, pns⟩ := c
  have hf : insertFuel cfg (.mk subs max pns) ≤ insertFuel (cfg.plus x) (.mk subs max pns) := by
    unfold insertFuel
    have hl : (cfg.plus x).domains.length = cfg.domains.length + 1 := by simp [Config.plus]
    rw [hl]; omega
  rw [CNode.contents] at hc
  rw [CNode.insert] at *
  rw [choosePartition_plus hs]
  split at h
  · exact (restructure_plus hf).1 (SubsBelow.snoc hc.left hs) h
  · split at h
    · cases h
    · rename_i h2
      rw [PNodes.insert_plus hf hs hc.right h2]
      exact h

/-! ### nothing new is stored -/

theorem restructure_from {R : Rounding} {cfg : Config} {P : Sub → Prop} : ∀ {fuel : Nat},
    (∀ {used : List Nat} {subs : List Sub} {max : Nat} {pns : PNodes} {c : CNode}, (∀ s ∈ subs, P s) → (∀ s ∈ pns.contents, P s) →
      partition R cfg fuel used subs max pns = .ok c → ∀ s ∈ c.contents, P s) ∧
    (∀ {used : List Nat} {cd cd' : CDir}, (∀ s ∈ cd.contents, P s) →
      cluster R cfg fuel used cd = .ok cd' → ∀ s ∈ cd'.contents, P s) := by
  intro fuel
  induction fuel with
  | zero =>
    constructor
    · intro used subs max pns c _ _ h; cases h
    · intro used cd cd' _ h; cases cd <;> cases h
  | succ n ih =>
    obtain ⟨ihp, ihc⟩ := ih
    have fin : ∀ {subs : List Sub} {pns : PNodes} {c : CNode}, (∀ s ∈ subs, P s) → (∀ s ∈ pns.contents, P s) →
        finishPartition cfg subs pns = .ok c → ∀ s ∈ c.contents, P s := by
      intro subs pns c hs hp h s hm
      unfold finishPartition at h
      split at h
      · cases h
      · cases h
        rw [CNode.contents] at hm
        rcases List.mem_append.1 hm with hm | hm
        · exact hs s hm
        · exact hp s hm
    constructor
    · intro used subs max pns c hs hp h
      rw [partition] at h
      split at h
      · split at h
        · cases h
        · exact fin hs hp h
        · split at h
          · exact fin hs hp h
          · split at h
            · cases h
            · split at h
              · cases h
              · rename_i h5
                split at h
                · cases h
                · rename_i h6
                  obtain ⟨k1, k2⟩ := moveLoop_from h5
                  refine ihp (fun s hs' => hs s ?_) ?_ h
                  · rcases k1 s hs' with h | h
                    · simp at h
                    · exact h
                  · intro s hs'
                    rw [snoc_contents] at hs'
                    rcases List.mem_append.1 hs' with hs' | hs'
                    · exact hp s hs'
                    · refine ihc ?_ h6 s hs'
                      intro t ht
                      simp only [CDir.contents, CNode.contents, PNodes.contents, List.append_nil, List.mem_map] at ht
                      obtain ⟨m, hm, rfl⟩ := ht
                      rcases k2 m hm with h | h
                      · simp at h
                      · exact hs _ h
      · exact fin hs hp h
    · intro used cd cd' hs h
      cases cd with
      | node v b c l r =>
        obtain ⟨subs, max, pns⟩ := c
        rw [cluster] at h
        simp only [CDir.contents, CNode.contents, List.mem_append] at hs
        split at h
        · split at h
          · cases h
          · rename_i h2
            cases h
            intro s hm
            simp only [CDir.contents, List.mem_append] at hm
            rcases hm with (hm | hm) | hm
            · exact ihp (fun s h => hs s (by simp [h])) (fun s h => hs s (by simp [h])) h2 s hm
            · exact hs s (by simp [hm])
            · exact hs s (by simp [hm])
        · cases h
          intro s hm
          simp only [CDir.contents, CNode.contents, List.mem_append] at hm
          exact hs s hm
      | leaf v b c =>
        obtain ⟨subs, max, pns⟩ := c
        rw [cluster] at h
        simp only [CDir.contents, CNode.contents, List.mem_append] at hs
        split at h
        · split at h
          · cases h
          · split at h
            · cases h
            · rename_i h2
              cases h
              exact ihp (fun s h => hs s (by simp [h])) (fun s h => hs s (by simp [h])) h2
          · split at h
            · cases h
            · split at h
              · cases h
              · rename_i h5
                obtain ⟨k1, k2⟩ := moveLoop_from h5
                have hm : ∀ side, ∀ s ∈ movedTo side _, P s := fun side s hs' => hs s (by
                  obtain ⟨b', hb'⟩ := movedTo_sub hs'
                  rcases k2 _ hb' with h | h
                  · simp at h
                  · exact Or.inl h)
                split at h
                · cases h
                · rename_i h6
                  split at h
                  · cases h
                  · rename_i h7
                    split at h
                    · cases h
                    · rename_i h8
                      cases h
                      intro s hs'
                      simp only [CDir.contents, List.mem_append] at hs'
                      rcases hs' with (hs' | hs') | hs'
                      · refine ihp (fun t ht => hs t ?_) (fun s h => hs s (Or.inr h)) h6 s hs'
                        rcases k1 t ht with h | h
                        · simp at h
                        · exact Or.inl h
                      · refine ihc (fun t ht => hm true t ?_) h7 s hs'
                        simpa [CDir.contents, CNode.contents, PNodes.contents] using ht
                      · refine ihc (fun t ht => hm false t ?_) h8 s hs'
                        simpa [CDir.contents, CNode.contents, PNodes.contents] using ht
        · cases h
          intro s hm
          simp only [CDir.contents, CNode.contents, List.mem_append] at hm
          exact hs s hm

mutual
theorem PNodes.insert_from {R : Rounding} {cfg : Config} {fuel : Nat} {used : List Nat} {v : Nat} {s : Sub} {P : Sub → Prop} (hs : P s) :
    ∀ {pns pns' : PNodes}, (∀ t ∈ pns.contents, P t) → pns.insert R cfg fuel used v s = .ok pns' → ∀ t ∈ pns'.contents, P t
  | .nil, pns', _, h => by rw [PNodes.insert] at h; cases h
  | .cons v' sc cd rest, pns', hc, h => by
    simp only [PNodes.contents, List.mem_append] at hc
    rw [PNodes.insert] at h
    split at h
    · split at h
      · cases h
      · rename_i h2
        split at h
        · cases h
        · cases h
          intro t ht
          simp only [PNodes.contents, List.mem_append] at ht
          rcases ht with ht | ht
          · exact CDir.insert_from hs (fun t h => hc t (Or.inl h)) h2 t ht
          · exact hc t (Or.inr ht)
    · split at h
      · cases h
      · rename_i h2
        cases h
        intro t ht
        simp only [PNodes.contents, List.mem_append] at ht
        rcases ht with ht | ht
        · exact hc t (Or.inl ht)
        · exact PNodes.insert_from hs (fun t h => hc t (Or.inr h)) h2 t ht

theorem CDir.insert_from {R : Rounding} {cfg : Config} {fuel : Nat} {used : List Nat} {s : Sub} {P : Sub → Prop} (hs : P s) :
    ∀ {cd cd' : CDir}, (∀ t ∈ cd.contents, P t) → cd.insert R cfg fuel used s = .ok cd' → ∀ t ∈ cd'.contents, P t
  | .leaf v b (.mk subs max pns), cd', hc, h => by
    rw [CDir.insert] at h
    split at h
    · refine restructure_from.2 ?_ h
      intro t ht
      simp only [CDir.contents, CNode.contents, List.mem_append, List.mem_singleton] at ht hc
      rcases ht with (ht | rfl) | ht
      · exact hc t (Or.inl ht)
      · exact hs
      · exact hc t (Or.inr ht)
    · simp only [CDir.contents, CNode.contents, List.mem_append] at hc
      split at h
      · cases h
      · rename_i h2
        cases h
        intro t ht
        simp only [CDir.contents, CNode.contents, List.mem_append] at ht
        rcases ht with ht | ht
        · exact hc t (Or.inl ht)
        · exact PNodes.insert_from hs (fun t h => hc t (Or.inr h)) h2 t ht
  | .node v b (.mk subs max pns) l r, cd', hc, h => by
    simp only [CDir.contents, CNode.contents, List.mem_append] at hc
    rw [CDir.insert] at h
    split at h
    · cases h
    · split at h
      · cases h
      · rename_i h2
        cases h
        intro t ht
        simp only [CDir.contents, CNode.contents, List.mem_append] at ht
        rcases ht with (ht | ht) | ht
        · exact hc t (Or.inl (Or.inl ht))
        · exact CDir.insert_from hs (fun t h => hc t (Or.inl (Or.inr h))) h2 t ht
        · exact hc t (Or.inr ht)
    · split at h
      · cases h
      · split at h
        · cases h
        · rename_i h2
          cases h
          intro t ht
          simp only [CDir.contents, CNode.contents, List.mem_append] at ht
          rcases ht with (ht | ht) | ht
          · exact hc t (Or.inl (Or.inl ht))
          · exact hc t (Or.inl (Or.inr ht))
          · exact CDir.insert_from hs (fun t h => hc t (Or.inr h)) h2 t ht
      · split at h
        · refine restructure_from.2 ?_ h
          intro t ht
          simp only [CDir.contents, CNode.contents, List.mem_append, List.mem_singleton] at ht
          rcases ht with (((ht | rfl) | ht) | ht) | ht
          · exact hc t (Or.inl (Or.inl (Or.inl ht)))
          · exact hs
          · exact hc t (Or.inl (Or.inl (Or.inr ht)))
          · exact hc t (Or.inl (Or.inr ht))
          · exact hc t (Or.inr ht)
        · split at h
          · cases h
          · rename_i h2
            cases h
            intro t ht
            simp only [CDir.contents, CNode.contents, List.mem_append] at ht
            rcases ht with ((ht | ht) | ht) | ht
            · exact hc t (Or.inl (Or.inl (Or.inl ht)))
            · exact PNodes.insert_from hs (fun t h => hc t (Or.inl (Or.inl (Or.inr h)))) h2 t ht
            · exact hc t (Or.inl (Or.inr ht))
            · exact hc t (Or.inr ht)
end

theorem CNode.insert_from {R : Rounding} {cfg : Config} {s : Sub} {P : Sub → Prop} (hs : P s) {c c' : CNode}
    (hc : ∀ t ∈ c.contents, P t) (h : c.insert R cfg s = .ok c') : ∀ t ∈ c'.contents, P t := by
  obtain ⟨subs, max, pns⟩ := c
  simp only [CNode.contents, List.mem_append] at hc
  rw [CNode.insert] at h
  split at h
  · refine restructure_from.1 ?_ (fun t h => hc t (Or.inr h)) h
    intro t ht
    simp only [List.mem_append, List.mem_singleton] at ht
    rcases ht with ht | rfl
    · exact hc t (Or.inl ht)
    · exact hs
  · split at h
    · cases h
    · rename_i h2
      cases h
      intro t ht
      simp only [CNode.contents, List.mem_append] at ht
      rcases ht with ht | ht
      · exact hc t (Or.inl ht)
      · exact PNodes.insert_from hs (fun t h => hc t (Or.inr h)) h2 t ht

/-! ### the calls -/

theorem setBit_length {a a' : Bits} {k : Nat} (h : setBit a k = .ok a') : a'.length = a.length := by
  unfold setBit at h
  split at h
  · cases h
  · cases h; simp

theorem fillShortCircuit_length {e : Expr} : ∀ {ds : List Domain} {i : Nat} {p f p' f' : Bits},
    fillShortCircuit e ds i p f = .ok (p', f') → p'.length = p.length ∧ f'.length = f.length := by
  intro ds
  induction ds with
  | nil => intro i p f p' f' h; cases h; exact ⟨rfl, rfl⟩
  | cons d ds ih =>
    intro i p f p' f' h
    rw [fillShortCircuit] at h
    split at h
    · split at h
      · cases h
      · split at h
        · cases h
        · rename_i h2
          obtain ⟨k1, k2⟩ := ih h
          exact ⟨by rw [k1, setBit_length h2], k2⟩
      · split at h
        · cases h
        · rename_i h2
          obtain ⟨k1, k2⟩ := ih h
          exact ⟨k1, by rw [k2, setBit_length h2]⟩
      · exact ih h
    · exact ih h

/-- the variables of an expression are among the `n` declared, and its bit sets have the words for `n` variables -/
structure SubOK (n : Nat) (s : Sub) : Prop where
  vars : ∀ i ∈ s.attrVars, i < n
  pass : s.pass.length = n / 64 + 1
  fail : s.fail.length = n / 64 + 1

theorem finishSub_subOK {cfg cfg' : Config} {id : Nat} {e : Expr} {s : Sub} (hb : Below cfg.domains.length e)
    (h : finishSub cfg id e = .ok (s, cfg')) : SubOK cfg.domains.length s := by
  obtain ⟨_, _, h3, h4, _, _⟩ := finishSub_fields h
  obtain ⟨h5, h6⟩ := fillShortCircuit_length h4
  exact ⟨by rw [h3]; exact exprVars_below hb, by rw [h5]; simp [makeBits], by rw [h6]; simp [makeBits]⟩

theorem Below.of_ids {n : Nat} {e e' : Expr} (h : Below n e) (he : exprIds e' = exprIds e) : Below n e' := by
  unfold Below; rw [he]; exact h
theorem Good.of_ids {e e' : Expr} (h : Good e) (he : exprIds e' = exprIds e) : Good e' := by
  unfold Good; rw [he]; exact h

/-- the names of an expression are declared, and not spelled like the new one unless declared already -/
def LateNames (cfg : Config) (x : Domain) (e : Expr) : Prop :=
  ∀ a ∈ exprNames e, lowerKey a ∈ cfg.names ∧ (a ∈ cfg.names ∨ a ≠ x.attr.attr)

theorem prepareInsert_plus {cfg cfg' : Config} {x : Domain} (hx : x.attr.var = cfg.domains.length) (hw : SameWords cfg) {id : Nat}
    {cs : List Constant} {e : Expr} (hn : LateNames cfg x e) {o : Option Sub} (h : prepareInsert cfg id cs e = .ok (o, cfg')) :
    prepareInsert (cfg.plus x) id cs e = .ok (o, cfg'.plus x) ∧ ∀ s, o = some s → SubOK cfg.domains.length s := by
  obtain ⟨hv, hb⟩ := assignVar_plus (x := x) (fun a ha => (hn a ha).1)
  have hbs : boundedStringsValid (cfg.plus x) (assignVar cfg e) = boundedStringsValid cfg (assignVar cfg e) :=
    boundedStringsValid_plus (by rw [exprNames_assignVar]; exact fun a ha => (hn a ha).2)
  have hval : isValid (cfg.plus x) (assignVar cfg e) = isValid cfg (assignVar cfg e) := by unfold isValid; rw [hbs]
  unfold prepareInsert at *
  dsimp only at *
  rw [hv, hval]
  split at h
  · cases h
  · rename_i h1
    cases h
    exact ⟨rfl, fun s hs => by cases hs⟩
  · rename_i h1
    have hg : Good (assignVar cfg e) := by
      unfold isValid at h1
      rcases andThen_ok h1 with ⟨_, h2⟩ | ⟨h2, _⟩
      · cases h2
      · exact varsInConfig_good h2
    split at h
    · cases h; exact ⟨rfl, fun s hs => by cases hs⟩
    · rename_i e2 h2
      have i2 := assignConstants_ids h2
      split at h
      · cases h
      · rename_i e3 c3 h3
        obtain ⟨k3, i3⟩ := assignStr_plus (x := x) h3
        rw [k3]; dsimp only
        have g3 := assignStr_grow h3
        split at h
        · cases h
        · rename_i e4 c4 h4
          obtain ⟨k4, i4⟩ := assignIenum_plus (x := x) h4
          have g4 := assignIenum_grow h4
          rw [k4]; dsimp only
          split at h
          · cases h
          · rename_i e5 h5
            obtain ⟨k5, i5⟩ := fixFloat_plus (x := x) h5
            rw [k5]; dsimp only
            have hid : exprIds e5 = exprIds (assignVar cfg e) := by rw [i5, sortLists_ids, i4, i3, i2]
            have hl : c4.domains.length = cfg.domains.length := by
              rw [g4.base.domains, g3.base.domains]
            split at h
            · cases h
            · rename_i sub c6 h6
              cases h
              have hw4 : SameWords c4 := by unfold SameWords; rw [hl]; exact hw
              have hbl : Below c4.domains.length e5 := by rw [hl]; exact hb.of_ids hid
              rw [finishSub_plus hw4 (by rw [hx, ← hl]; exact hbl) (hg.of_ids hid) h6]
              refine ⟨rfl, fun s hs => ?_⟩
              cases hs
              rw [← hl]
              exact finishSub_subOK hbl h6

theorem api_makeSub_plus {t t' : Tree} {x : Domain} (hx : x.attr.var = t.cfg.domains.length) (hw : SameWords t.cfg) {id : Nat}
    {cs : List Constant} {e : Expr} (hn : LateNames t.cfg x e) {o : Option Sub} (h : t.makeSub id cs e = .ok (o, t')) :
    ({ t with cfg := t.cfg.plus x } : Tree).makeSub id cs e = .ok (o, { t' with cfg := t'.cfg.plus x }) ∧
      ∀ s, o = some s → SubOK t.cfg.domains.length s := by
  obtain ⟨hv, hb⟩ := assignVar_plus (x := x) (fun a ha => (hn a ha).1)
  unfold Tree.makeSub at *
  dsimp only at *
  rw [hv]
  split at h
  · cases h
  · rename_i h1
    cases h
    exact ⟨rfl, fun s hs => by cases hs⟩
  · rename_i h1
    have hg : Good (assignVar t.cfg e) := varsInConfig_good h1
    split at h
    · cases h
    · rename_i e3 c3 h3
      obtain ⟨k3, i3⟩ := assignStr_plus (x := x) h3
      rw [k3]; dsimp only
      have g3 := assignStr_grow h3
      split at h
      · cases h
      · rename_i e4 c4 h4
        obtain ⟨k4, i4⟩ := assignIenum_plus (x := x) h4
        have g4 := assignIenum_grow h4
        rw [k4]; dsimp only
        have hl : c4.domains.length = t.cfg.domains.length := by rw [g4.base.domains, g3.base.domains]
        split at h
        · cases h
        · rename_i e5 h5
          obtain ⟨k5, i5⟩ := fixFloat_plus (x := x) h5
          rw [k5]; dsimp only
          split at h
          · cases h
          · rename_i h6
            rw [exprsValid_plus h6]
            cases h
            exact ⟨rfl, fun s hs => by cases hs⟩
          · rename_i h6
            rw [exprsValid_plus h6]
            dsimp only
            split at h
            · cases h; exact ⟨rfl, fun s hs => by cases hs⟩
            · rename_i e7 h7
              have hid : exprIds (sortLists e7) = exprIds (assignVar t.cfg e) := by
                rw [sortLists_ids, assignConstants_ids h7, i5, i4, i3]
              have hbl : Below c4.domains.length (sortLists e7) := by rw [hl]; exact hb.of_ids hid
              split at h
              · cases h
              · rename_i c8 h8
                rw [changeBoundaries_plus (by rw [hx, ← hl]; exact hbl) h8]
                dsimp only
                have hl8 : c8.domains.length = c4.domains.length := by
                  simpa using congrArg List.length (changeBoundaries_ext h8).doms
                split at h
                · cases h
                · rename_i sub c9 h9
                  cases h
                  have hw8 : SameWords c8 := by unfold SameWords; rw [hl8, hl]; exact hw
                  rw [finishSub_plus hw8 (by rw [hx, ← hl]; exact hbl) (hg.of_ids hid) h9]
                  refine ⟨rfl, fun s hs => ?_⟩
                  cases hs
                  rw [← hl, ← hl8]
                  exact finishSub_subOK (by rw [hl8]; exact hbl) h9

theorem api_changeBoundaries_plus {t t' : Tree} {x : Domain} (hx : x.attr.var = t.cfg.domains.length) {e : Expr}
    (hn : LateNames t.cfg x e) (h : t.changeBoundaries e = .ok t') :
    ({ t with cfg := t.cfg.plus x } : Tree).changeBoundaries e = .ok { t' with cfg := t'.cfg.plus x } := by
  obtain ⟨hv, hb⟩ := assignVar_plus (x := x) (fun a ha => (hn a ha).1)
  unfold Tree.changeBoundaries at *
  dsimp only at *
  rw [hv]
  split at h
  · cases h
  · rename_i e3 c3 h3
    obtain ⟨k3, i3⟩ := assignStr_plus (x := x) h3
    rw [k3]; dsimp only
    split at h
    · cases h
    · rename_i e4 c4 h4
      obtain ⟨k4, i4⟩ := assignIenum_plus (x := x) h4
      rw [k4]; dsimp only
      split at h
      · cases h
      · rename_i e5 h5
        obtain ⟨k5, i5⟩ := fixFloat_plus (x := x) h5
        rw [k5]; dsimp only
        split at h
        · cases h
        · rename_i c6 h6
          cases h
          have hid : exprIds e5 = exprIds (assignVar t.cfg e) := by rw [i5, sortLists_ids, i4, i3]
          rw [changeBoundaries_plus (by rw [hx]; exact hb.of_ids hid) h6]

/-! ### worlds -/

/-- one more domain in a world -/
def World.plus (w : World) (x : Domain) : World := { w with tree := { w.tree with cfg := w.tree.cfg.plus x } }

/-- the expressions of a world are fit for its variables -/
structure LateOK (w : World) : Prop where
  root : ∀ s ∈ w.tree.root.contents, SubOK w.tree.cfg.domains.length s
  pool : ∀ p ∈ w.pool, SubOK w.tree.cfg.domains.length p.2

theorem ext_names {a b : Config} (h : CfgExt a b) : b.names = a.names ∧ b.domains.length = a.domains.length := by
  refine ⟨?_, by simpa using congrArg List.length h.doms⟩
  have := congrArg (List.map fun t : AttrVar × VType × Bool => t.1.attr) h.doms
  simpa [Config.names, Function.comp_def] using this

theorem namesOK_parse {cfg : Config} {x : Domain} {e : Expr} (h : LateNames cfg x e) : LateNames cfg x (parseBuild e) :=
  fun a ha => h a (exprNames_parse.1 ha)

theorem api_insert_plus {R : Rounding} {t t' : Tree} {x : Domain} (hx : x.attr.var = t.cfg.domains.length) (hw : SameWords t.cfg)
    (hr : ∀ s ∈ t.root.contents, SubOK t.cfg.domains.length s) {id : Nat} {cs : List Constant} {e : Expr} (hn : LateNames t.cfg x e)
    {b : Bool} (h : t.insert R id cs e = .ok (b, t')) :
    ({ t with cfg := t.cfg.plus x } : Tree).insert R id cs e = .ok (b, { t' with cfg := t'.cfg.plus x }) ∧
      ∀ s ∈ t'.root.contents, SubOK t.cfg.domains.length s := by
  unfold Tree.insert at *
  dsimp only at *
  split at h
  · cases h
  · rename_i c1 h1
    obtain ⟨k1, _⟩ := prepareInsert_plus hx hw hn h1
    rw [k1]
    cases h
    exact ⟨rfl, hr⟩
  · rename_i sub c1 h1
    obtain ⟨k1, k2⟩ := prepareInsert_plus hx hw hn h1
    rw [k1]
    dsimp only
    have hl := (ext_names (prepareInsert_ext h1)).2
    have hs := k2 sub rfl
    split at h
    · cases h
    · rename_i h2
      cases h
      have := CNode.insert_plus (x := x) (by rw [hl]; exact hs.vars) (fun s hm => by rw [hl]; exact (hr s hm).vars) h2
      rw [this]
      exact ⟨rfl, CNode.insert_from (P := SubOK t.cfg.domains.length) hs hr h2⟩

/-- the conditions on a call for the new domain to be irrelevant to it -/
def OpOK (cfg : Config) (x : Domain) (o : Op) : Prop :=
  ∀ a ∈ opNames o, lowerKey a ∈ cfg.names ∧ (a ∈ cfg.names ∨ a ≠ x.attr.attr)

theorem step_plus {R : Rounding} {w w' : World} {x : Domain} {o : Op} (hx : x.attr.var = w.tree.cfg.domains.length)
    (hw : SameWords w.tree.cfg) (hok : LateOK w) (ho : OpOK w.tree.cfg x o) (h : w.step R o = .ok w') :
    (w.plus x).step R o = .ok (w'.plus x) ∧ LateOK w' ∧ w'.tree.cfg.names = w.tree.cfg.names ∧
      w'.tree.cfg.domains.length = w.tree.cfg.domains.length := by
  cases o with
  | insert q =>
    simp only [World.step] at *
    split at h
    · cases h
    · rename_i t h1
      cases h
      obtain ⟨k1, k2⟩ := api_insert_plus hx hw hok.root (namesOK_parse ho) h1
      obtain ⟨n1, n2⟩ := ext_names (insert_ext h1)
      simp only [World.plus] at *
      rw [k1]
      exact ⟨rfl, ⟨by rw [n2]; exact k2, by rw [n2]; exact hok.pool⟩, n1, n2⟩
    · rename_i t h1
      cases h
      obtain ⟨k1, k2⟩ := api_insert_plus hx hw hok.root (namesOK_parse ho) h1
      obtain ⟨n1, n2⟩ := ext_names (insert_ext h1)
      simp only [World.plus] at *
      rw [k1]
      exact ⟨rfl, ⟨by rw [n2]; exact k2, by rw [n2]; exact hok.pool⟩, n1, n2⟩
  | makeSub q =>
    simp only [World.step] at *
    split at h
    · cases h
    · rename_i s t h1
      cases h
      obtain ⟨k1, k2⟩ := api_makeSub_plus hx hw (namesOK_parse ho) h1
      obtain ⟨n1, n2⟩ := ext_names (makeSub_ext h1)
      have hroot : t.root = w.tree.root := makeSub_root h1
      simp only [World.plus] at *
      rw [k1]
      refine ⟨rfl, ⟨by rw [n2, hroot]; exact hok.root, ?_⟩, n1, n2⟩
      rw [n2]
      intro p hp
      rcases List.mem_append.1 hp with hp | hp
      · exact hok.pool p hp
      · simp only [List.mem_singleton] at hp; subst hp; exact k2 s rfl
    · rename_i t h1
      cases h
      obtain ⟨k1, k2⟩ := api_makeSub_plus hx hw (namesOK_parse ho) h1
      obtain ⟨n1, n2⟩ := ext_names (makeSub_ext h1)
      have hroot : t.root = w.tree.root := makeSub_root h1
      simp only [World.plus] at *
      rw [k1]
      exact ⟨rfl, ⟨by rw [n2, hroot]; exact hok.root, by rw [n2]; exact hok.pool⟩, n1, n2⟩
  | insertSub k =>
    simp only [World.step] at *
    split at h
    · rename_i h1
      cases h
      rw [show (w.plus x).pool = w.pool from rfl, h1]
      exact ⟨rfl, hok, rfl, rfl⟩
    · rename_i q s h1
      rw [show (w.plus x).pool = w.pool from rfl, h1]
      dsimp only
      have hs := hok.pool _ (List.mem_of_getElem? h1)
      split at h
      · cases h
      · rename_i t h2
        cases h
        unfold Tree.insertSub at *
        split at h2
        · cases h2
        · rename_i h3
          cases h2
          have := CNode.insert_plus (x := x) hs.vars (fun s hm => (hok.root s hm).vars) h3
          simp only [World.plus]
          rw [this]
          exact ⟨rfl, ⟨CNode.insert_from (P := SubOK w.tree.cfg.domains.length) hs hok.root h3, hok.pool⟩, by trivial⟩
  | changeBoundaries e =>
    simp only [World.step] at *
    split at h
    · cases h
    · rename_i t h1
      cases h
      have k1 := api_changeBoundaries_plus hx (namesOK_parse ho) h1
      obtain ⟨n1, n2⟩ := ext_names (changeBoundaries_api_ext h1)
      have hroot : t.root = w.tree.root := changeBoundaries_root h1
      simp only [World.plus] at *
      rw [k1]
      exact ⟨rfl, ⟨by rw [n2, hroot]; exact hok.root, by rw [n2]; exact hok.pool⟩, n1, n2⟩

end BeTree
