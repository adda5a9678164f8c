import Verif.Spec.Alike
import Verif.Lemmas.AllIds
import Verif.Lemmas.Sort
/-
Expressions alike up to the case of names and the order in lists.
-/
namespace BeTree
open Spec

theorem LikePred.mono {N N' T T' I I' S S'} (hn : ∀ a b, N a b → N' a b) (ht : ∀ a b, T a b → T' a b) (hi : ∀ a b, I a b → I' a b)
    (hs : ∀ a b, S a b → S' a b) {p p' : Pred} (h : LikePred N T I S p p') : LikePred N' T' I' S' p p' := by
  cases h with
  | compare h => exact .compare (hn _ _ h)
  | eqInt h => exact .eqInt (hn _ _ h)
  | eqFloat h => exact .eqFloat (hn _ _ h)
  | eqStr h h' => exact .eqStr (hn _ _ h) (ht _ _ h')
  | boolVar h => exact .boolVar (hn _ _ h)
  | boolLit => exact .boolLit
  | setInts h h' => exact .setInts (hn _ _ h) (hi _ _ h')
  | setStrs h h' => exact .setStrs (hn _ _ h) (hs _ _ h')
  | inInts h => exact .inInts (hn _ _ h)
  | inStrs h h' => exact .inStrs (hn _ _ h) (ht _ _ h')
  | listInts h h' => exact .listInts (hn _ _ h) (hi _ _ h')
  | listStrs h h' => exact .listStrs (hn _ _ h) (hs _ _ h')
  | freq h h' h'' => exact .freq (hn _ _ h) (hn _ _ h') (ht _ _ h'')
  | segment h h' => exact .segment (hn _ _ h) (hn _ _ h')
  | geo h h' => exact .geo (hn _ _ h) (hn _ _ h')
  | str h => exact .str (hn _ _ h)
  | isNull h => exact .isNull (hn _ _ h)

theorem Like.mono {P Q : Pred → Pred → Prop} (hpq : ∀ p p', P p p' → Q p p') {e e' : Expr} (h : Like P e e') : Like Q e e' := by
  induction h with
  | leaf h => exact .leaf (hpq _ _ h)
  | not _ ih => exact .not ih
  | and _ _ ihl ihr => exact .and ihl ihr
  | or _ _ ihl ihr => exact .or ihl ihr

theorem recased_alike {e e' : Expr} (h : Recased e e') : Alike e e' :=
  Like.mono (fun _ _ => LikePred.mono (fun _ _ h => h) (fun _ _ h => h) (fun _ _ h => h ▸ List.Perm.refl _)
    (fun a b h => by unfold SameTextsAnyOrder; rw [show b.map StrVal.string = a.map StrVal.string from h])) h

theorem reordered_alike {e e' : Expr} (h : Reordered e e') : Alike e e' :=
  Like.mono (fun _ _ => LikePred.mono (fun a b h => by unfold SameLower; rw [show b.attr = a.attr from h]) (fun _ _ h => h)
    (fun _ _ h => h) (fun _ _ h => h)) h

theorem intsReordered_reordered {e e' : Expr} (h : IntsReordered e e') : Reordered e e' :=
  Like.mono (fun _ _ => LikePred.mono (fun a b h => by rw [h]; rfl) (fun a b h => by rw [h]; rfl)
    (fun _ _ h => h) (fun a b h => by rw [h]; exact List.Perm.refl _)) h

/-! ### the meaning -/

theorem get_lower (ev : Spec.Event) {v v' : AttrVar} (h : SameLower v v') : ev.get v' = ev.get v := by
  unfold Spec.Event.get
  rw [show lower v'.attr = lower v.attr from h]

theorem listHolds_perm {α : Type} (op : ListOp) (ys : List α) {xs xs' : List α} (h : xs.Perm xs') :
    listHolds op ys xs ↔ listHolds op ys xs' := by
  cases op <;> simp only [listHolds, h.mem_iff]

theorem satPred_alike {geo : Rat → Rat → Rat → Rat → Rat → Bool} {cs : Constants} {ev : Spec.Event} {p p' : Pred}
    (h : LikePred SameLower SameText List.Perm SameTextsAnyOrder p p') : satPred geo cs ev p ↔ satPred geo cs ev p' := by
  cases h with
  | @compare op v v' c h => cases c <;> simp only [satPred, get_lower ev h]
  | eqInt h => simp only [satPred, get_lower ev h]
  | eqFloat h => simp only [satPred, get_lower ev h]
  | @eqStr _ _ _ s s' h h' => simp only [satPred, get_lower ev h, show s'.string = s.string from h']
  | boolVar h => simp only [satPred, get_lower ev h]
  | boolLit => exact Iff.rfl
  | setInts h h' => simp only [satPred, get_lower ev h, h'.mem_iff]
  | @setStrs _ _ _ l l' h h' => simp only [satPred, get_lower ev h, List.Perm.mem_iff h']
  | inInts h => simp only [satPred, get_lower ev h]
  | @inStrs _ _ _ s s' h h' => simp only [satPred, get_lower ev h, show s'.string = s.string from h']
  | listInts h h' => simp only [satPred, get_lower ev h, listHolds_perm _ _ h']
  | listStrs h h' => simp only [satPred, get_lower ev h, listHolds_perm _ _ h']
  | @freq f _ _ s h h' h'' =>
    simp only [satPred, get_lower ev h, get_lower ev h', show s.string = f.ns.string from h'']
  | segment h h' => simp only [satPred, get_lower ev h, get_lower ev h']
  | geo h h' => simp only [satPred, get_lower ev h, get_lower ev h']
  | str h => simp only [satPred, get_lower ev h]
  | @isNull op _ _ h => cases op <;> simp only [satPred, get_lower ev h]

/-- alike expressions have the same meaning -/
theorem sat_alike {geo : Rat → Rat → Rat → Rat → Rat → Bool} {cs : Constants} {ev : Spec.Event} {e e' : Expr}
    (h : Alike e e') : sat geo cs ev e ↔ sat geo cs ev e' := by
  unfold Alike at h
  induction h with
  | leaf h => exact satPred_alike h
  | not _ ih => exact not_congr ih
  | and _ _ ihl ihr => exact and_congr ihl ihr
  | or _ _ ihl ihr => exact or_congr ihl ihr

/-! ### the parser -/

theorem score_like {N T I S} {e e' : Expr} (h : Like (LikePred N T I S) e e') : scoreExpr e' = scoreExpr e := by
  induction h with
  | leaf h =>
    simp only [scoreExpr]
    cases h <;> simp only [scorePred]
  | not _ ih => exact ih
  | and _ _ ihl ihr => simp only [scoreExpr, ihl, ihr]
  | or _ _ ihl ihr => simp only [scoreExpr, ihl, ihr]

theorem parse_like {N T I S} {e e' : Expr} (h : Like (LikePred N T I S) e e') :
    Like (LikePred N T I S) (parseBuild e) (parseBuild e') := by
  induction h with
  | leaf h => exact .leaf h
  | not _ ih => exact .not ih
  | and _ _ ihl ihr =>
    simp only [parseBuild, mkAnd, score_like ihl, score_like ihr]
    split
    · exact .and ihr ihl
    · exact .and ihl ihr
  | or _ _ ihl ihr =>
    simp only [parseBuild, mkOr, score_like ihl, score_like ihr]
    split
    · exact .or ihr ihl
    · exact .or ihl ihr

/-! ### what is stored -/

theorem resVar_alike {T : Config} {v v' a a' : AttrVar} (h : ResVar T v a) (h' : ResVar T v' a') (hl : SameLower v v') :
    a'.var = a.var := by
  rw [h.var, h'.var]
  exact tryGetId_congr T hl

theorem resStr_alike {T : Config} (hok : TablesOK T) {var : Nat} {s s' a a' : StrVal} (h : ResStr T var s a)
    (h' : ResStr T var s' a') (ht : SameText s s') (hi : a.str ≠ invalidId) (hi' : a'.str ≠ invalidId) : a'.str = a.str := by
  have h1 := h.sid.resolve_left hi
  have h2 := h'.sid.resolve_left hi'
  rw [show s'.string = s.string from ht] at h2
  have hn := hok.strNodup var
  obtain ⟨l1, e1⟩ := List.getElem?_eq_some_iff.1 h1
  obtain ⟨l2, e2⟩ := List.getElem?_eq_some_iff.1 h2
  exact (List.getElem_inj hn).1 (e2.trans e1.symm)

/-- the ids of a list of strings, from the texts -/
theorem resStrs_ids {T : Config} (hok : TablesOK T) {var : Nat} {l m : List StrVal} (h : List.Forall₂ (ResStr T var) l m)
    (hi : ∀ s ∈ m, s.str ≠ invalidId) :
    m.map StrVal.str = (l.map StrVal.string).map (fun x => (strTable T var).idxOf x) := by
  induction h with
  | nil => rfl
  | cons h _ ih =>
    simp only [List.map_cons]
    rw [ih fun s hs => hi s (List.mem_cons_of_mem _ hs)]
    congr 1
    have h1 := h.sid.resolve_left (hi _ List.mem_cons_self)
    obtain ⟨l1, e1⟩ := List.getElem?_eq_some_iff.1 h1
    rw [← e1]
    exact ((hok.strNodup var).idxOf_getElem _ l1).symm

theorem sortBy_core {m m' : List StrVal} (h : (m.map StrVal.str).Perm (m'.map StrVal.str)) :
    (sortBy StrVal.str m).map strCore = (sortBy StrVal.str m').map strCore := by
  have key : ∀ l : List StrVal, l.map strCore = (l.map StrVal.str).map (fun i => ⟨[], 0, i⟩) := by
    intro l; simp [strCore, Function.comp_def]
  rw [key, key]
  congr 1
  have hp : ((sortBy StrVal.str m).map StrVal.str).Perm ((sortBy StrVal.str m').map StrVal.str) :=
    ((sortBy_perm _ m).map _).trans (h.trans ((sortBy_perm _ m').map _).symm)
  refine List.Perm.eq_of_pairwise (le := fun a b : Nat => ¬ b < a) ?_ (sortBy_ascending _ m) (sortBy_ascending _ m') hp
  intro a b _ _ h1 h2
  omega

theorem resStrs_alike {T : Config} (hok : TablesOK T) {var : Nat} {l l' m m' : List StrVal}
    (h : List.Forall₂ (ResStr T var) l m) (h' : List.Forall₂ (ResStr T var) l' m') (ht : SameTextsAnyOrder l l')
    (hi : ∀ s ∈ m, s.str ≠ invalidId) (hi' : ∀ s ∈ m', s.str ≠ invalidId) :
    (sortBy StrVal.str m).map strCore = (sortBy StrVal.str m').map strCore := by
  apply sortBy_core
  rw [resStrs_ids hok h hi, resStrs_ids hok h' hi']
  exact ht.map _

theorem sortInts_perm {l l' : List Int} (h : l.Perm l') : sortBy id l = sortBy id l' := by
  simpa using sort_perm_keys (id : Int → Int) h

theorem varCore_eq {a a' : AttrVar} (h : a'.var = a.var) : varCore a = varCore a' := by
  simp only [varCore, h]

/-- alike predicates are stored as the same predicate -/
theorem resPred_alike {T : Config} {cs : List Constant} (hok : TablesOK T) {p p' q q' : Pred}
    (hl : LikePred SameLower SameText List.Perm SameTextsAnyOrder p p') (h : ResPred T cs p q) (h' : ResPred T cs p' q')
    (hi : Pred.AllIds q) (hi' : Pred.AllIds q') : predCore q = predCore q' := by
  cases hl with
  | compare hn =>
    cases h with
    | cmpInt hv hty =>
      cases h' with
      | cmpInt hv' _ => simp only [predCore, varCore_eq (resVar_alike hv hv' hn)]
      | cmpIntF hv' hty' =>
        obtain ⟨t, h1, h2⟩ := hty
        rw [resVar_alike hv hv' hn, h1] at hty'
        cases hty'; exact absurd rfl h2
    | cmpIntF hv hty =>
      cases h' with
      | cmpIntF hv' _ => simp only [predCore, varCore_eq (resVar_alike hv hv' hn)]
      | cmpInt hv' hty' =>
        obtain ⟨t, h1, h2⟩ := hty'
        rw [resVar_alike hv hv' hn, hty] at h1
        cases h1; exact absurd rfl h2
    | cmpFloat hv =>
      cases h' with
      | cmpFloat hv' => simp only [predCore, varCore_eq (resVar_alike hv hv' hn)]
  | eqInt hn =>
    cases h with
    | eqInt hv hty =>
      obtain ⟨t, h1, h2, h3⟩ := hty
      cases h' with
      | eqInt hv' _ => simp only [predCore, varCore_eq (resVar_alike hv hv' hn)]
      | eqIntF hv' hty' =>
        rw [resVar_alike hv hv' hn, h1] at hty'
        cases hty'; exact absurd rfl h2
      | eqEnum hv' _ hty' =>
        rw [resVar_alike hv hv' hn, h1] at hty'
        cases hty'; exact absurd rfl h3
    | eqIntF hv hty =>
      cases h' with
      | eqIntF hv' _ => simp only [predCore, varCore_eq (resVar_alike hv hv' hn)]
      | eqInt hv' hty' =>
        obtain ⟨t, h1, h2, _⟩ := hty'
        rw [resVar_alike hv hv' hn, hty] at h1
        cases h1; exact absurd rfl h2
      | eqEnum hv' _ hty' =>
        rw [resVar_alike hv hv' hn, hty] at hty'
        cases hty'
    | eqEnum hv hid hty =>
      cases h' with
      | eqEnum hv' hid' _ =>
        have hvar := resVar_alike hv hv' hn
        have e1 := hid.resolve_left hi
        have e2 := hid'.resolve_left hi'
        rw [hvar] at e2
        obtain ⟨l1, f1⟩ := List.getElem?_eq_some_iff.1 e1
        obtain ⟨l2, f2⟩ := List.getElem?_eq_some_iff.1 e2
        have := (List.getElem_inj (hok.intNodup _)).1 (f2.trans f1.symm)
        simp only [predCore, varCore_eq hvar, enumCore, this]
      | eqInt hv' hty' =>
        obtain ⟨t, h1, _, h3⟩ := hty'
        rw [resVar_alike hv hv' hn, hty] at h1
        cases h1; exact absurd rfl h3
      | eqIntF hv' hty' =>
        rw [resVar_alike hv hv' hn, hty] at hty'
        cases hty'
  | eqFloat hn =>
    cases h with
    | eqFloat hv =>
      cases h' with
      | eqFloat hv' => simp only [predCore, varCore_eq (resVar_alike hv hv' hn)]
  | eqStr hn ht =>
    cases h with
    | eqStr hv hs =>
      cases h' with
      | eqStr hv' hs' =>
        have hvar := resVar_alike hv hv' hn
        rw [hvar] at hs'
        simp only [predCore, varCore_eq hvar, strCore, resStr_alike hok hs hs' ht hi hi']
  | boolVar hn =>
    cases h with
    | boolVar hv =>
      cases h' with
      | boolVar hv' => simp only [predCore, varCore_eq (resVar_alike hv hv' hn)]
  | boolLit => cases h; cases h'; rfl
  | setInts hn hp =>
    cases h with
    | setInts hv =>
      cases h' with
      | setInts hv' => simp only [predCore, varCore_eq (resVar_alike hv hv' hn), sortInts_perm hp]
      | setBad _ _ _ hb => simp [goodSet] at hb
    | setBad _ _ _ hb => simp [goodSet] at hb
  | setStrs hn hp =>
    cases h with
    | setStrs hv hl =>
      cases h' with
      | setStrs hv' hl' =>
        have hvar := resVar_alike hv hv' hn
        rw [hvar] at hl'
        have := resStrs_alike hok hl hl' hp (fun s hs => hi s ((sortBy_mem _ _ _).2 hs)) (fun s hs => hi' s ((sortBy_mem _ _ _).2 hs))
        simp only [predCore, varCore_eq hvar, this]
      | setBad _ _ _ hb => simp [goodSet] at hb
    | setBad _ _ _ hb => simp [goodSet] at hb
  | inInts hn =>
    cases h with
    | inInts hv =>
      cases h' with
      | inInts hv' => simp only [predCore, varCore_eq (resVar_alike hv hv' hn)]
      | setBad _ _ _ hb => simp [goodSet] at hb
    | setBad _ _ _ hb => simp [goodSet] at hb
  | inStrs hn ht =>
    cases h with
    | inStrs hv hs =>
      cases h' with
      | inStrs hv' hs' =>
        have hvar := resVar_alike hv hv' hn
        rw [hvar] at hs'
        simp only [predCore, varCore_eq hvar, strCore, resStr_alike hok hs hs' ht hi hi']
      | setBad _ _ _ hb => simp [goodSet] at hb
    | setBad _ _ _ hb => simp [goodSet] at hb
  | listInts hn hp =>
    cases h with
    | listInts hv =>
      cases h' with
      | listInts hv' => simp only [predCore, varCore_eq (resVar_alike hv hv' hn), sortInts_perm hp]
  | listStrs hn hp =>
    cases h with
    | listStrs hv hl =>
      cases h' with
      | listStrs hv' hl' =>
        have hvar := resVar_alike hv hv' hn
        rw [hvar] at hl'
        have := resStrs_alike hok hl hl' hp (fun s hs => hi s ((sortBy_mem _ _ _).2 hs)) (fun s hs => hi' s ((sortBy_mem _ _ _).2 hs))
        simp only [predCore, varCore_eq hvar, this]
  | freq hn hn' ht =>
    cases h with
    | freq hv hw hs hname hc =>
      cases h' with
      | freq hv' hw' hs' hname' hc' =>
        have hvar := resVar_alike hv hv' hn
        dsimp only at hname'
        rw [hname] at hname'; cases hname'
        rw [hc] at hc'; cases hc'
        rw [hvar] at hs'
        simp only [predCore, varCore_eq hvar, strCore, resStr_alike hok hs hs' ht hi hi']
  | segment hn hn' =>
    cases h with
    | segment hv _ =>
      cases h' with
      | segment hv' _ => simp only [predCore, varCore_eq (resVar_alike hv hv' hn)]
  | geo hn hn' =>
    cases h with
    | geo hv hw =>
      cases h' with
      | geo hv' hw' => simp only [predCore, varCore_eq (resVar_alike hv hv' hn), varCore_eq (resVar_alike hw hw' hn')]
  | str hn =>
    cases h with
    | str hv =>
      cases h' with
      | str hv' => simp only [predCore, varCore_eq (resVar_alike hv hv' hn)]
  | isNull hn =>
    cases h with
    | isNull hv =>
      cases h' with
      | isNull hv' => simp only [predCore, varCore_eq (resVar_alike hv hv' hn)]

theorem resExpr_alike {T : Config} {cs : List Constant} (hok : TablesOK T) {e e' a a' : Expr} (hl : Alike e e')
    (h : ExprRel (ResPred T cs) e a) (h' : ExprRel (ResPred T cs) e' a') (hi : a.AllIds) (hi' : a'.AllIds) : Same a a' := by
  unfold Alike at hl
  induction hl generalizing a a' with
  | leaf hl =>
    cases h with
    | leaf h => cases h' with | leaf h' => unfold Same; simp only [core, resPred_alike hok hl h h' hi hi']
  | not _ ih =>
    cases h with
    | not h => cases h' with | not h' => have := ih h h' hi hi'; unfold Same at *; simp only [core, this]
  | and _ _ ihl ihr =>
    cases h with
    | and h1 h2 =>
      cases h' with
      | and h3 h4 =>
        have := ihl h1 h3 hi.1 hi'.1
        have := ihr h2 h4 hi.2 hi'.2
        unfold Same at *; simp only [core, *]
  | or _ _ ihl ihr =>
    cases h with
    | or h1 h2 =>
      cases h' with
      | or h3 h4 =>
        have := ihl h1 h3 hi.1 hi'.1
        have := ihr h2 h4 hi.2 hi'.2
        unfold Same at *; simp only [core, *]

end BeTree
