import Verif.Lemmas.StrBound
import Verif.Lemmas.AllIds
import Verif.Lemmas.InsertWorld
/-
The interned values are constants of the expressions of the calls.
-/
namespace BeTree
open Spec

/-- the string constants of a resolved predicate, with their variables -/
def predVarStrs : Pred → List (Nat × Str)
  | .equality _ v (.string s) => [(v.var, s.string)]
  | .set _ (.string s) (.var v) => [(v.var, s.string)]
  | .set _ (.var v) (.strList l) => l.map fun s => (v.var, s.string)
  | .list _ v (.strList l) => l.map fun s => (v.var, s.string)
  | .freq f => [(f.attr.var, f.ns.string)]
  | _ => []

def predVarInts : Pred → List (Nat × Int)
  | .equality _ v (.int k) => [(v.var, k)]
  | _ => []

def varStrs : Expr → List (Nat × Str)
  | .leaf p => predVarStrs p
  | .not e => varStrs e
  | .and l r => varStrs l ++ varStrs r
  | .or l r => varStrs l ++ varStrs r

def varInts : Expr → List (Nat × Int)
  | .leaf p => predVarInts p
  | .not e => varInts e
  | .and l r => varInts l ++ varInts r
  | .or l r => varInts l ++ varInts r

theorem interned_from {α : Type} {t t' : List α} {x y : α} {al : Bool} {m : Except Fault Nat} {id : Nat} (h : Interned t x al m id t')
    (hy : y ∈ t') : y ∈ t ∨ y = x := by
  cases h with
  | old => exact .inl hy
  | new => simpa using hy
  | full => exact .inl hy

theorem getIdForString_from {a b : Config} {v : AttrVar} {s : Str} {al : Bool} {id u : Nat} {x : Str}
    (h : getIdForString a v s al = .ok (id, b)) (hx : x ∈ strTable b u) : x ∈ strTable a u ∨ (u, x) = (v.var, s) := by
  obtain ⟨_, _, h3, h4, _⟩ := getIdForString_spec h
  by_cases hu : u = v.var
  · subst hu
    exact (interned_from h4 hx).imp_right fun h => by rw [h]
  · rw [h3 u hu] at hx; exact .inl hx

theorem getIdForIenum_from {a b : Config} {v : AttrVar} {s : Int} {al : Bool} {id u : Nat} {x : Int}
    (h : getIdForIenum a v s al = .ok (id, b)) (hx : x ∈ intTable b u) : x ∈ intTable a u ∨ (u, x) = (v.var, s) := by
  obtain ⟨_, _, h3, h4, _⟩ := getIdForIenum_spec h
  by_cases hu : u = v.var
  · subst hu
    exact (interned_from h4 hx).imp_right fun h => by rw [h]
  · rw [h3 u hu] at hx; exact .inl hx

theorem assignStrList_from {v : AttrVar} {al : Bool} {u : Nat} {x : Str} : ∀ {l l' : List StrVal} {a b : Config},
    assignStrList a v al l = .ok (l', b) → x ∈ strTable b u → x ∈ strTable a u ∨ (u, x) ∈ l.map fun s => (v.var, s.string) := by
  intro l
  induction l with
  | nil => intro l' a b h hx; cases h; exact .inl hx
  | cons s ss ih =>
    intro l' a b h hx
    rw [assignStrList] at h
    split at h
    · cases h
    · rename_i h1
      split at h
      · cases h
      · rename_i h2
        cases h
        rcases ih h2 hx with h | h
        · exact (getIdForString_from h1 h).imp_right fun h => by rw [List.map_cons, h]; exact List.mem_cons_self
        · exact .inr (List.mem_cons_of_mem _ h)

theorem assignStr_from {al : Bool} {u : Nat} {x : Str} {e e' : Expr} {a b : Config} (h : assignStr a al e = .ok (e', b))
    (hx : x ∈ strTable b u) : x ∈ strTable a u ∨ (u, x) ∈ varStrs e := by
  induction e generalizing a b e' with
  | leaf p =>
    rw [assignStr] at h
    split at h
    · cases h
    · rename_i h1
      cases h
      unfold assignStrPred at h1
      repeat' split at h1
      all_goals first
        | (cases h1; done)
        | (rename_i h2; cases h1; exact (getIdForString_from h2 hx).imp_right fun h => by simp [varStrs, predVarStrs, h])
        | (rename_i h2; cases h1; exact assignStrList_from h2 hx)
        | (cases h1; exact .inl hx)
  | not e ih =>
    rw [assignStr] at h
    split at h
    · cases h
    · rename_i h1; cases h; exact ih h1 hx
  | and l r ihl ihr | or l r ihl ihr =>
    rw [assignStr] at h
    split at h
    · cases h
    · rename_i h1
      split at h
      · cases h
      · rename_i h2
        cases h
        rcases ihr h2 hx with h | h
        · exact (ihl h1 h).imp_right fun h => List.mem_append_left _ h
        · exact .inr (List.mem_append_right _ h)

theorem assignStrList_ints {v : AttrVar} {al : Bool} : ∀ {l l' : List StrVal} {a b : Config},
    assignStrList a v al l = .ok (l', b) → b.intMaps = a.intMaps := by
  intro l
  induction l with
  | nil => intro l' a b h; cases h; rfl
  | cons s ss ih =>
    intro l' a b h
    rw [assignStrList] at h
    split at h
    · cases h
    · rename_i h1
      split at h
      · cases h
      · rename_i h2
        cases h
        exact (ih h2).trans (getIdForString_spec h1).2.1

theorem assignStr_ints {al : Bool} {e e' : Expr} {a b : Config} (h : assignStr a al e = .ok (e', b)) : b.intMaps = a.intMaps := by
  induction e generalizing a b e' with
  | leaf p =>
    rw [assignStr] at h
    split at h
    · cases h
    · rename_i h1
      cases h
      unfold assignStrPred at h1
      repeat' split at h1
      all_goals first
        | (cases h1; done)
        | (rename_i h2; cases h1; exact (getIdForString_spec h2).2.1)
        | (rename_i h2; cases h1; exact assignStrList_ints h2)
        | (cases h1; rfl)
  | not e ih =>
    rw [assignStr] at h
    split at h
    · cases h
    · rename_i h1; cases h; exact ih h1
  | and l r ihl ihr | or l r ihl ihr =>
    rw [assignStr] at h
    split at h
    · cases h
    · rename_i h1
      split at h
      · cases h
      · rename_i h2
        cases h
        exact (ihr h2).trans (ihl h1)

theorem assignStr_varInts {al : Bool} {e e' : Expr} {a b : Config} (h : assignStr a al e = .ok (e', b)) : varInts e' = varInts e := by
  induction e generalizing a b e' with
  | leaf p =>
    rw [assignStr] at h
    split at h
    · cases h
    · rename_i h1
      cases h
      unfold assignStrPred at h1
      repeat' split at h1
      all_goals first
        | (cases h1; done)
        | (cases h1; rfl)
  | not e ih =>
    rw [assignStr] at h
    split at h
    · cases h
    · rename_i h1; cases h; have := ih h1; exact this
  | and l r ihl ihr | or l r ihl ihr =>
    rw [assignStr] at h
    split at h
    · cases h
    · rename_i h1
      split at h
      · cases h
      · rename_i h2
        cases h
        show varInts _ ++ varInts _ = varInts _ ++ varInts _
        rw [ihl h1, ihr h2]

theorem assignIenum_from {al : Bool} {u : Nat} {x : Int} {e e' : Expr} {a b : Config} (h : assignIenum a al e = .ok (e', b))
    (hx : x ∈ intTable b u) : x ∈ intTable a u ∨ (u, x) ∈ varInts e := by
  induction e generalizing a b e' with
  | leaf p =>
    rw [assignIenum] at h
    split at h
    · cases h
    · rename_i h1
      cases h
      unfold assignIenumPred at h1
      repeat' split at h1
      all_goals first
        | (cases h1; done)
        | (rename_i h2; cases h1; exact (getIdForIenum_from h2 hx).imp_right fun h => by simp [varInts, predVarInts, h])
        | (cases h1; exact .inl hx)
  | not e ih =>
    rw [assignIenum] at h
    split at h
    · cases h
    · rename_i h1; cases h; exact ih h1 hx
  | and l r ihl ihr | or l r ihl ihr =>
    rw [assignIenum] at h
    split at h
    · cases h
    · rename_i h1
      split at h
      · cases h
      · rename_i h2
        cases h
        rcases ihr h2 hx with h | h
        · exact (ihl h1 h).imp_right fun h => List.mem_append_left _ h
        · exact .inr (List.mem_append_right _ h)

theorem varStrs_constants {cs : List Constant} {e e' : Expr} (h : assignConstants cs e = some e') :
    varStrs e' = varStrs e ∧ varInts e' = varInts e := by
  induction e generalizing e' with
  | leaf p =>
    simp only [assignConstants, Option.map_eq_some_iff] at h
    obtain ⟨q, hq, rfl⟩ := h
    unfold assignConstantsPred at hq
    repeat' split at hq
    all_goals first | (cases hq; done) | (cases hq; exact ⟨rfl, rfl⟩)
  | not e ih =>
    simp only [assignConstants, Option.map_eq_some_iff] at h
    obtain ⟨q, hq, rfl⟩ := h
    have := ih hq
    exact this
  | and l r ihl ihr | or l r ihl ihr =>
    simp only [assignConstants] at h
    split at h
    · rename_i h1 h2
      cases h
      show _ ++ _ = _ ++ _ ∧ _ ++ _ = _ ++ _
      rw [(ihl h1).1, (ihr h2).1, (ihl h1).2, (ihr h2).2]
      exact ⟨rfl, rfl⟩
    · cases h

theorem varStrs_assignVar (cfg : Config) (e : Expr) :
    varStrs (assignVar cfg e) = (strConsts e).map (fun c => (tryGetIdForAttr cfg c.1, c.2)) ∧
      varInts (assignVar cfg e) = (enumConsts e).map (fun c => (tryGetIdForAttr cfg c.1, c.2)) := by
  induction e with
  | leaf p =>
    cases p with
    | equality op v c => cases c <;> exact ⟨rfl, rfl⟩
    | set op l r =>
      cases l <;> cases r <;> refine ⟨?_, rfl⟩ <;> first | rfl | (simp [varStrs, predVarStrs, assignVar, assignVarPred, strConsts, predStrConsts, resolveVar])
    | list op v c =>
      cases c
      · exact ⟨rfl, rfl⟩
      · exact ⟨by simp [varStrs, predVarStrs, assignVar, assignVarPred, strConsts, predStrConsts, resolveVar], rfl⟩
    | _ => exact ⟨rfl, rfl⟩
  | not e ih => exact ih
  | and l r ihl ihr | or l r ihl ihr =>
    simp only [assignVar, varStrs, varInts, strConsts, enumConsts, List.map_append, ihl, ihr, and_self]

theorem consts_parse (e : Expr) : (∀ c, c ∈ strConsts (parseBuild e) ↔ c ∈ strConsts e) ∧
    (∀ c, c ∈ enumConsts (parseBuild e) ↔ c ∈ enumConsts e) := by
  induction e with
  | leaf p => exact ⟨fun _ => Iff.rfl, fun _ => Iff.rfl⟩
  | not e ih => exact ih
  | and l r ihl ihr =>
    simp only [parseBuild, mkAnd]
    split <;> simp only [strConsts, enumConsts, List.mem_append, ihl, ihr, or_comm, implies_true, and_self]
  | or l r ihl ihr =>
    simp only [parseBuild, mkOr]
    split <;> simp only [strConsts, enumConsts, List.mem_append, ihl, ihr, or_comm, implies_true, and_self]

theorem finishSub_intMaps {cfg cfg' : Config} {id : Nat} {e : Expr} {s : Sub} (h : finishSub cfg id e = .ok (s, cfg')) :
    cfg'.intMaps = cfg.intMaps := by
  unfold finishSub at h
  dsimp only at h
  split at h
  · cases h
  · split at h
    · cases h
    · cases h; rfl

/-- every interned value is a constant of these expressions -/
structure FromConsts (cfg : Config) (es : List Expr) : Prop where
  strs : ∀ u x, x ∈ strTable cfg u → ∃ e ∈ es, ∃ c ∈ strConsts e, tryGetIdForAttr cfg c.1 = u ∧ c.2 = x
  ints : ∀ u x, x ∈ intTable cfg u → ∃ e ∈ es, ∃ c ∈ enumConsts e, tryGetIdForAttr cfg c.1 = u ∧ c.2 = x

theorem prepareInsert_from {cfg cfg' : Config} {id : Nat} {cs : List Constant} {e : Expr} {o : Option Sub} {es : List Expr}
    (hc : FromConsts cfg es) (h : prepareInsert cfg id cs (parseBuild e) = .ok (o, cfg')) : FromConsts cfg' (e :: es) := by
  have weak : FromConsts cfg (e :: es) :=
    ⟨fun u x hx => (hc.strs u x hx).imp fun _ h => ⟨List.mem_cons_of_mem _ h.1, h.2⟩,
      fun u x hx => (hc.ints u x hx).imp fun _ h => ⟨List.mem_cons_of_mem _ h.1, h.2⟩⟩
  have hdom := prepareInsert_domains h
  have hid : ∀ a, tryGetIdForAttr cfg' a = tryGetIdForAttr cfg a := fun a => by unfold tryGetIdForAttr; rw [hdom]
  unfold prepareInsert at h
  dsimp only at h
  split at h
  · cases h
  · cases h; exact weak
  · split at h
    · cases h; exact weak
    · rename_i hk
      split at h
      · cases h
      · rename_i h1
        split at h
        · cases h
        · rename_i h2
          split at h
          · cases h
          · split at h
            · cases h
            · rename_i h3
              cases h
              obtain ⟨k1, k2⟩ := varStrs_constants hk
              obtain ⟨v1, v2⟩ := varStrs_assignVar cfg (parseBuild e)
              constructor
              · intro u x hx
                rw [strTable_of_maps (finishSub_strs h3).1, strTable_of_maps (assignIenum_strs h2)] at hx
                rcases assignStr_from h1 hx with hx | hx
                · simpa only [hid] using weak.strs u x hx
                · rw [k1, v1] at hx
                  obtain ⟨c, hc1, hc2⟩ := List.mem_map.1 hx
                  cases hc2
                  exact ⟨e, List.mem_cons_self, c, ((consts_parse e).1 c).1 hc1, hid _, rfl⟩
              · intro u x hx
                rw [intTable_of_maps (finishSub_intMaps h3)] at hx
                rcases assignIenum_from h2 hx with hx | hx
                · rw [intTable_of_maps (assignStr_ints h1)] at hx
                  simpa only [hid] using weak.ints u x hx
                · rw [assignStr_varInts h1, k2, v2] at hx
                  obtain ⟨c, hc1, hc2⟩ := List.mem_map.1 hx
                  cases hc2
                  exact ⟨e, List.mem_cons_self, c, ((consts_parse e).2 c).1 hc1, hid _, rfl⟩

theorem insert_from {R : Rounding} {t t' : Tree} {id : Nat} {cs : List Constant} {e : Expr} {b : Bool} {es : List Expr}
    (hc : FromConsts t.cfg es) (h : t.insert R id cs (parseBuild e) = .ok (b, t')) : FromConsts t'.cfg (e :: es) := by
  unfold Tree.insert at h
  repeat' split at h
  all_goals first
    | (cases h; done)
    | (cases h; rename_i h1; exact prepareInsert_from hc h1)
    | (cases h; rename_i h1 _ _ _; exact prepareInsert_from hc h1)

end BeTree
