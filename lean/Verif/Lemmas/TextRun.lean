import Verif.Spec.Says
import Verif.Lemmas.Lex
import Verif.Lemmas.EvLex
import Verif.Lemmas.XxComplete
import Verif.Lemmas.ZzComplete
/-
Calls with texts are calls with what the texts say.
-/
namespace BeTree

theorem says_unique {text : Str} {e e' : Expr} (h : Says text e) (h' : Says text e') : e = e' := by
  obtain ⟨ts, r, d, hs, hr⟩ := h
  obtain ⟨ts', r', d', hs', hr'⟩ := h'
  obtain ⟨rfl, _⟩ := scan_unique hs hs'
  exact reads_unique hr hr'

theorem saysEvent_unique {text : Str} {l l' : List EventVar} (h : SaysEvent text l) (h' : SaysEvent text l') : l = l' := by
  obtain ⟨ts, r, hs, hr⟩ := h
  obtain ⟨ts', r', hs', hr'⟩ := h'
  obtain ⟨rfl, _⟩ := evScan_unique hs hs'
  have h1 := zz_accepts hr
  rw [zz_accepts hr'] at h1
  cases h1
  rfl

/-- the parser refuses a text or gives what it says -/
theorem parseText_says (text : Str) : parseText text = .ok none ∨ ∃ e, Says text e ∧ parseText text = .ok (some (parseBuild e)) := by
  obtain ⟨r, hs⟩ := lexExpr_scan text
  rcases xx_parse (lexExpr text) with h | ⟨d, e, hr, h⟩
  · exact .inl h
  · exact .inr ⟨e, ⟨_, r, d, hs, hr⟩, h⟩

theorem parseText_silent {text : Str} (h : ∀ e, ¬ Says text e) : parseText text = .ok none := by
  rcases parseText_says text with h' | ⟨e, he, _⟩
  · exact h'
  · exact absurd he (h e)

theorem parseText_reads {text : Str} {e0 : Expr} (h : parseText text = .ok (some e0)) : ∃ e, Says text e ∧ e0 = parseBuild e := by
  rcases parseText_says text with h' | ⟨e, he, h'⟩
  · rw [h'] at h; cases h
  · rw [h'] at h
    cases h
    exact ⟨e, he, rfl⟩

theorem eventFromString_says (text : Str) :
    ((∀ ev, ¬ SaysEvent text ev) ∧ eventFromString text = .error .abort) ∨ ∃ ev, SaysEvent text ev ∧ eventFromString text = .ok ev := by
  obtain ⟨r, hs⟩ := lexEvent_scan text
  rcases zz_parse (lexEvent text) with h | ⟨ev, hr, h⟩
  · refine .inl ⟨?_, by rw [eventFromString, parseEventText, h]⟩
    rintro ev ⟨ts, r', hs', hr'⟩
    obtain ⟨rfl, _⟩ := evScan_unique hs hs'
    rw [zz_accepts hr'] at h
    cases h
  · exact .inr ⟨ev, ⟨_, r, hs, hr⟩, by rw [eventFromString, parseEventText, h]⟩

/-! ### depth -/

theorem reads_depth {l d ts e} (h : Reads l d ts e) : Reads l ts.length ts e := by
  induction h with
  | atom d h => exact .atom _ h
  | paren h ih =>
    refine reads_mono ?_ (.paren ih)
    simp
  | not h ih => exact reads_mono (by simp) (.not ih)
  | one h ih => exact .one ih
  | and h1 h2 ih1 ih2 => exact .and (reads_mono (by simp) ih1) (reads_mono (by simp; omega) ih2)
  | only h ih => exact .only ih
  | or h1 h2 ih1 ih2 => exact .or (reads_mono (by simp) ih1) (reads_mono (by simp; omega) ih2)

theorem scan_length {s ts r} (h : Scan s ts r) : ts.length ≤ s.length := by
  induction h with
  | done => simp
  | stuck => simp
  | blank _ _ ih => simp; omega
  | token hsp _ _ ih =>
    obtain ⟨c, x, rfl, _⟩ := spells_first hsp
    simp; omega

/-- a short text is never too deep -/
theorem parseText_short {text : Str} (h : text.length < 1990) {e : Expr} (he : Says text e) : parseText text = .ok (some (parseBuild e)) := by
  obtain ⟨ts, r, d, hs, hr⟩ := he
  rw [parseText, lexExpr_eq hs]
  exact xx_accepts (reads_depth hr) (by have := scan_length hs; omega)

/-- a world of texts and a world of what they say -/
structure SameWorld (tw : TextWorld) (w : World) : Prop where
  tree : tw.tree = w.tree
  pool : List.Forall₂ (fun a b => ReqSays a.1 b.1 ∧ a.2 = b.2) tw.pool w.pool
  live : List.Forall₂ ReqSays tw.live w.live

theorem init_same (t : Tree) : SameWorld (TextWorld.init t) (World.init t) := ⟨rfl, .nil, .nil⟩

theorem forall₂_getElem? {α β : Type} {P : α → β → Prop} : ∀ {l : List α} {l' : List β}, List.Forall₂ P l l' → ∀ (k : Nat),
    (l[k]? = none ∧ l'[k]? = none) ∨ ∃ a b, l[k]? = some a ∧ l'[k]? = some b ∧ P a b
  | _, _, .nil, k => .inl (by simp)
  | _, _, .cons h hs, 0 => .inr ⟨_, _, rfl, rfl, h⟩
  | _, _, .cons h hs, k + 1 => by simpa using forall₂_getElem? hs k

theorem forall₂_snoc {α β : Type} {P : α → β → Prop} {l : List α} {l' : List β} (h : List.Forall₂ P l l') {a : α} {b : β} (hab : P a b) :
    List.Forall₂ P (l ++ [a]) (l' ++ [b]) := by
  induction h with
  | nil => exact .cons hab .nil
  | cons hp _ ih => exact .cons hp ih

theorem step_same {R : Rounding} {tw tw' : TextWorld} {w : World} (hs : SameWorld tw w) {op : TextOp} (h : tw.step R op = .ok tw') :
    SameWorld tw' w ∨ ∃ o w', OpSays op o ∧ w.step R o = .ok w' ∧ SameWorld tw' w' := by
  cases op with
  | insert q =>
    simp only [TextWorld.step, Tree.insertText] at h
    rcases parseText_says q.text with hp | ⟨e, he, hp⟩
    · simp only [hp] at h
      cases h
      exact .inl hs
    · simp only [hp, hs.tree] at h
      have hq : ReqSays q ⟨q.id, q.consts, e⟩ := ⟨rfl, rfl, he⟩
      refine .inr ⟨.insert ⟨q.id, q.consts, e⟩, ?_⟩
      simp only [World.step]
      split at h
      · cases h
      · rename_i t ht
        cases h
        exact ⟨{ w with tree := t, live := ⟨q.id, q.consts, e⟩ :: w.live }, .insert hq, by rw [ht], ⟨rfl, hs.pool, .cons hq hs.live⟩⟩
      · rename_i t ht
        cases h
        exact ⟨{ w with tree := t }, .insert hq, by rw [ht], ⟨rfl, hs.pool, hs.live⟩⟩
  | makeSub q =>
    simp only [TextWorld.step, Tree.makeSubText] at h
    rcases parseText_says q.text with hp | ⟨e, he, hp⟩
    · simp only [hp] at h
      cases h
      exact .inl hs
    · simp only [hp, hs.tree] at h
      have hq : ReqSays q ⟨q.id, q.consts, e⟩ := ⟨rfl, rfl, he⟩
      refine .inr ⟨.makeSub ⟨q.id, q.consts, e⟩, ?_⟩
      simp only [World.step]
      split at h
      · cases h
      · rename_i s t ht
        cases h
        refine ⟨{ w with tree := t, pool := w.pool ++ [(⟨q.id, q.consts, e⟩, s)] }, .makeSub hq, by rw [ht], ⟨rfl, ?_, hs.live⟩⟩
        exact forall₂_snoc hs.pool ⟨hq, rfl⟩
      · rename_i t ht
        cases h
        exact ⟨{ w with tree := t }, .makeSub hq, by rw [ht], ⟨rfl, hs.pool, hs.live⟩⟩
  | insertSub k =>
    simp only [TextWorld.step] at h
    refine .inr ⟨.insertSub k, ?_⟩
    simp only [World.step]
    rcases forall₂_getElem? hs.pool k with ⟨h1, h2⟩ | ⟨a, b, h1, h2, h3, h4⟩
    · simp only [h1] at h
      cases h
      exact ⟨w, .insertSub k, by rw [h2], hs⟩
    · simp only [h1, hs.tree, h4] at h
      simp only [h2]
      split at h
      · cases h
      · rename_i t ht
        cases h
        exact ⟨{ w with tree := t, live := b.1 :: w.live }, .insertSub k, by rw [ht], ⟨rfl, hs.pool, .cons h3 hs.live⟩⟩
  | changeBoundaries text =>
    simp only [TextWorld.step, Tree.changeBoundariesText] at h
    rcases parseText_says text with hp | ⟨e, he, hp⟩
    · simp only [hp] at h
      cases h
      exact .inl hs
    · simp only [hp, hs.tree] at h
      refine .inr ⟨.changeBoundaries e, ?_⟩
      simp only [World.step]
      cases hc : w.tree.changeBoundaries (parseBuild e) with
      | error x => simp [hc] at h
      | ok t =>
        simp only [hc] at h
        cases h
        exact ⟨_, .changeBoundaries he, rfl, ⟨rfl, hs.pool, hs.live⟩⟩

theorem run_same {R : Rounding} {tops : List TextOp} : ∀ {tw tw' : TextWorld} {w : World}, SameWorld tw w → tw.run R tops = .ok tw' →
    ∃ ops w', w.run R ops = .ok w' ∧ SameWorld tw' w' ∧ ∀ o ∈ ops, ∃ op ∈ tops, OpSays op o := by
  induction tops with
  | nil =>
    intro tw tw' w hs h
    cases h
    exact ⟨[], w, rfl, hs, by simp⟩
  | cons op tops ih =>
    intro tw tw' w hs h
    simp only [TextWorld.run] at h
    split at h
    · cases h
    · rename_i tw1 h1
      rcases step_same hs h1 with hs1 | ⟨o, w1, ho, hw1, hs1⟩
      · obtain ⟨ops, w', hr, hs', hall⟩ := ih hs1 h
        exact ⟨ops, w', hr, hs', fun o ho => by obtain ⟨op', hm, hx⟩ := hall o ho; exact ⟨op', List.mem_cons_of_mem _ hm, hx⟩⟩
      · obtain ⟨ops, w', hr, hs', hall⟩ := ih hs1 h
        refine ⟨o :: ops, w', by rw [World.run, hw1]; exact hr, hs', fun o' ho' => ?_⟩
        rcases List.mem_cons.mp ho' with rfl | ho'
        · exact ⟨op, by simp, ho⟩
        · obtain ⟨op', hm, hx⟩ := hall o' ho'
          exact ⟨op', List.mem_cons_of_mem _ hm, hx⟩

theorem forall₂_mem_left {α β : Type} {P : α → β → Prop} {l : List α} {l' : List β} (h : List.Forall₂ P l l') {a : α} (ha : a ∈ l) :
    ∃ b ∈ l', P a b := by
  induction h with
  | nil => cases ha
  | cons hp _ ih =>
    rcases List.mem_cons.mp ha with rfl | ha
    · exact ⟨_, by simp, hp⟩
    · obtain ⟨b, hb, hx⟩ := ih ha
      exact ⟨b, by simp [hb], hx⟩

theorem forall₂_mem_right {α β : Type} {P : α → β → Prop} {l : List α} {l' : List β} (h : List.Forall₂ P l l') {b : β} (hb : b ∈ l') :
    ∃ a ∈ l, P a b := by
  induction h with
  | nil => cases hb
  | cons hp _ ih =>
    rcases List.mem_cons.mp hb with rfl | hb
    · exact ⟨_, by simp, hp⟩
    · obtain ⟨a, ha, hx⟩ := ih hb
      exact ⟨a, by simp [ha], hx⟩

theorem same_ids {l : List TextReq} {l' : List Req} (h : List.Forall₂ ReqSays l l') : l.map TextReq.id = l'.map Req.id := by
  induction h with
  | nil => rfl
  | cons hp _ ih => simp only [List.map_cons, hp.id, ih]

/-! ### reading a given text -/

theorem parseBuild_leaf {e : Expr} {p : Pred} (h : parseBuild e = .leaf p) : e = .leaf p := by
  cases e with
  | leaf q => exact h
  | not e => simp [parseBuild] at h
  | and l r => simp only [parseBuild, mkAnd] at h; split at h <;> cases h
  | or l r => simp only [parseBuild, mkOr] at h; split at h <;> cases h

theorem parseBuild_not {e x : Expr} (h : parseBuild e = .not x) : ∃ e', e = .not e' ∧ parseBuild e' = x := by
  cases e with
  | leaf q => simp [parseBuild] at h
  | not e => simp only [parseBuild, Expr.not.injEq] at h; exact ⟨e, rfl, h⟩
  | and l r => simp only [parseBuild, mkAnd] at h; split at h <;> cases h
  | or l r => simp only [parseBuild, mkOr] at h; split at h <;> cases h

theorem says_leaf {text : Str} {p : Pred} (h : parseText text = .ok (some (.leaf p))) {e : Expr} (he : Says text e) : e = .leaf p := by
  obtain ⟨e', he', hb⟩ := parseText_reads h
  rw [says_unique he he']
  exact parseBuild_leaf hb.symm

theorem says_not_leaf {text : Str} {p : Pred} (h : parseText text = .ok (some (.not (.leaf p)))) {e : Expr} (he : Says text e) :
    e = .not (.leaf p) := by
  obtain ⟨e', he', hb⟩ := parseText_reads h
  rw [says_unique he he']
  obtain ⟨x, rfl, hx⟩ := parseBuild_not hb.symm
  rw [parseBuild_leaf hx]

theorem not_says {text : Str} (hl : text.length < 1990) (h : parseText text = .ok none) (e : Expr) : ¬ Says text e := by
  intro he
  rw [parseText_short hl he] at h
  cases h

end BeTree
