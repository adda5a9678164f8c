import Verif.Lemmas.Widen
import Verif.Lemmas.World
import Verif.Spec.Exact
/-
The pruning invariant over whole histories.
-/
namespace BeTree
open Spec

variable [Floats]

/-! ### moderate constants stay moderate through the passes -/

omit [Floats] in
theorem moderate_mk {l r : Expr} (hl : Moderate l) (hr : Moderate r) : Moderate (mkAnd l r) ∧ Moderate (mkOr l r) := by
  unfold mkAnd mkOr
  constructor <;> split <;> first | exact ⟨hl, hr⟩ | exact ⟨hr, hl⟩

omit [Floats] in
theorem moderate_parse {e : Expr} (h : Moderate e) : Moderate (parseBuild e) := by
  induction e with
  | leaf p => exact h
  | not e ih => exact ih h
  | and l r ihl ihr => exact (moderate_mk (ihl h.1) (ihr h.2)).1
  | or l r ihl ihr => exact (moderate_mk (ihl h.1) (ihr h.2)).2

omit [Floats] in
theorem moderate_assignVar {cfg : Config} {e : Expr} (h : Moderate e) : Moderate (assignVar cfg e) := by
  induction e with
  | leaf p =>
    cases p with
    | compare op v c => cases c <;> exact h
    | equality op v c => cases c <;> exact h
    | set op l r => cases l <;> cases r <;> exact h
    | list op v c => cases c <;> exact h
    | _ => trivial
  | not e ih => exact ih h
  | and l r ihl ihr | or l r ihl ihr => exact ⟨ihl h.1, ihr h.2⟩

omit [Floats] in
theorem moderate_assignStr {cfg cfg' : Config} {al : Bool} {e e' : Expr} (hm : Moderate e)
    (h : assignStr cfg al e = .ok (e', cfg')) : Moderate e' := by
  induction e generalizing cfg cfg' e' with
  | leaf p =>
    rw [assignStr] at h
    split at h
    · cases h
    · rename_i h1
      cases h
      unfold assignStrPred at h1
      repeat' split at h1
      all_goals first
        | (cases h1; done)
        | (cases h1; trivial)
        | (cases h1; exact hm)
  | not e ih =>
    rw [assignStr] at h
    split at h
    · cases h
    · rename_i h1; cases h; have := ih hm h1; exact this
  | and l r ihl ihr | or l r ihl ihr =>
    rw [assignStr] at h
    split at h
    · cases h
    · rename_i h1
      split at h
      · cases h
      · rename_i h2; cases h; exact ⟨ihl hm.1 h1, ihr hm.2 h2⟩

omit [Floats] in
theorem moderate_assignIenum {cfg cfg' : Config} {al : Bool} {e e' : Expr} (hm : Moderate e)
    (h : assignIenum cfg al e = .ok (e', cfg')) : Moderate e' := by
  induction e generalizing cfg cfg' e' with
  | leaf p =>
    rw [assignIenum] at h
    split at h
    · cases h
    · rename_i h1
      cases h
      unfold assignIenumPred at h1
      repeat' split at h1
      all_goals first
        | (cases h1; done)
        | (cases h1; exact hm)
        | (cases h1; trivial)
  | not e ih =>
    rw [assignIenum] at h
    split at h
    · cases h
    · rename_i h1; cases h; have := ih hm h1; exact this
  | and l r ihl ihr | or l r ihl ihr =>
    rw [assignIenum] at h
    split at h
    · cases h
    · rename_i h1
      split at h
      · cases h
      · rename_i h2; cases h; exact ⟨ihl hm.1 h1, ihr hm.2 h2⟩

omit [Floats] in
theorem moderate_fixFloat {cfg : Config} {e e' : Expr} (hm : Moderate e) (h : fixFloat cfg e = .ok e') :
    Moderate e' ∧ (e.ListsSorted → e'.ListsSorted) := by
  induction e generalizing e' with
  | leaf p =>
    rw [fixFloat] at h
    split at h
    · cases h
    · rename_i h1
      cases h
      cases p with
      | compare op v c =>
        simp only [fixFloatPred] at h1
        split at h1
        · cases h1
        · cases c with
          | int i =>
            simp only at h1
            cases h1
            refine ⟨?_, fun _ => trivial⟩
            split
            · trivial
            · exact hm
          | float f => cases h1; exact ⟨hm, id⟩
      | equality op v c =>
        simp only [fixFloatPred] at h1
        split at h1
        · cases h1
        · cases c with
          | int i =>
            simp only at h1
            cases h1
            refine ⟨?_, fun _ => trivial⟩
            split
            · trivial
            · exact hm
          | float f => cases h1; exact ⟨hm, id⟩
          | string s => cases h1; exact ⟨hm, id⟩
          | intEnum s => cases h1; exact ⟨hm, id⟩
      | _ => cases h1; exact ⟨hm, id⟩
  | not e ih =>
    rw [fixFloat] at h
    split at h
    · cases h
    · rename_i h1; cases h; have := ih hm h1; exact this
  | and l r ihl ihr | or l r ihl ihr =>
    rw [fixFloat] at h
    split at h
    · cases h
    · rename_i h1
      split at h
      · cases h
      · rename_i h2
        cases h
        exact ⟨⟨(ihl hm.1 h1).1, (ihr hm.2 h2).1⟩, fun hs => ⟨(ihl hm.1 h1).2 hs.1, (ihr hm.2 h2).2 hs.2⟩⟩

omit [Floats] in
theorem moderate_assignConstants {cs : List Constant} {e e' : Expr} (hm : Moderate e) (h : assignConstants cs e = some e') :
    Moderate e' := by
  induction e generalizing e' with
  | leaf p =>
    simp only [assignConstants, Option.map_eq_some_iff] at h
    obtain ⟨q, hq, rfl⟩ := h
    cases p with
    | freq f =>
      simp only [assignConstantsPred] at hq
      repeat' split at hq
      all_goals first | (cases hq; done) | (cases hq; trivial)
    | _ => cases hq; exact hm
  | not e ih =>
    simp only [assignConstants, Option.map_eq_some_iff] at h
    obtain ⟨q, hq, rfl⟩ := h
    have := ih hm hq; exact this
  | and l r ihl ihr | or l r ihl ihr =>
    simp only [assignConstants] at h
    split at h
    · rename_i h1 h2
      cases h
      exact ⟨ihl hm.1 h1, ihr hm.2 h2⟩
    · cases h

omit [Floats] in
theorem moderate_sortLists {e : Expr} (hm : Moderate e) : Moderate (sortLists e) := by
  induction e with
  | leaf p =>
    cases p with
    | set op l r =>
      cases l <;> cases r <;> try exact hm
      intro k hk
      rw [sortBy_mem] at hk
      exact hm k hk
    | list op v c =>
      cases c <;> try exact hm
      intro k hk
      rw [sortBy_mem] at hk
      exact hm k hk
    | _ => exact hm
  | not e ih => exact ih hm
  | and l r ihl ihr | or l r ihl ihr => exact ⟨ihl hm.1, ihr hm.2⟩

omit [Floats] in
theorem sortLists_sorted (e : Expr) : (sortLists e).ListsSorted := by
  induction e with
  | leaf p =>
    cases p with
    | set op l r =>
      cases l <;> cases r <;> try trivial
      · have := sortBy_ascending (id : Int → Int) (by assumption)
        rw [List.map_id] at this
        exact this
      · exact sortBy_ascending StrVal.str _
    | list op v c =>
      cases c
      · have := sortBy_ascending (id : Int → Int) (by assumption)
        rw [List.map_id] at this
        exact this
      · exact sortBy_ascending StrVal.str _
    | _ => trivial
  | not e ih => exact ih
  | and l r ihl ihr | or l r ihl ihr => exact ⟨ihl, ihr⟩

/-! ### so do the numbers that may become limits -/

/-- variable `v` is a float attribute -/
def FloatAt (cfg : Config) (v : AttrVar) : Prop := ∃ d, cfg.domains[v.var]? = some d ∧ d.bound.ty = .float

theorem fit_mk {fl : AttrVar → Prop} {l r : Expr} (hl : FloatsFit fl l) (hr : FloatsFit fl r) :
    FloatsFit fl (mkAnd l r) ∧ FloatsFit fl (mkOr l r) := by
  unfold mkAnd mkOr
  constructor <;> split <;> first | exact ⟨hl, hr⟩ | exact ⟨hr, hl⟩

theorem fit_parse {fl : AttrVar → Prop} {e : Expr} (h : FloatsFit fl e) : FloatsFit fl (parseBuild e) := by
  induction e with
  | leaf p => exact h
  | not e ih => exact ih h
  | and l r ihl ihr => exact (fit_mk (ihl h.1) (ihr h.2)).1
  | or l r ihl ihr => exact (fit_mk (ihl h.1) (ihr h.2)).2

theorem fit_assignVar {cfg : Config} (hc : CfgOK cfg) (hlen : cfg.domains.length ≤ invalidId) {e : Expr} (h : FloatsFit (fun v => Floats.attr (lowerKey v.attr)) e) :
    FloatsFit (FloatAt cfg) (assignVar cfg e) := by
  have key : ∀ v : AttrVar, FloatAt cfg (resolveVar cfg v) → Floats.attr (lowerKey v.attr) := by
    rintro v ⟨d, h1, h2⟩
    have h3 := (hc.doms _ d h1).float h2
    have h4 : d.attr.attr = lowerKey v.attr := by
      have hlt := (List.getElem?_eq_some_iff.1 h1).1
      have hne : findAttr (lowerKey v.attr) cfg.domains 0 ≠ invalidId := by
        intro he
        have : (resolveVar cfg v).var = invalidId := he
        omega
      obtain ⟨-, -, d', h5, h6⟩ := findAttr_lt hne
      have h7 : cfg.domains[(resolveVar cfg v).var]? = some d' := h5
      rw [h1] at h7; cases h7; exact h6
    rwa [h4] at h3
  induction e with
  | leaf p =>
    cases p with
    | compare op v c =>
      cases c with
      | int k => exact fun hf => h (key v hf)
      | float k => exact h
    | equality op v c =>
      cases c with
      | int k => exact fun hf => h (key v hf)
      | float k => exact h
      | _ => trivial
    | set op l r => cases l <;> cases r <;> exact h
    | list op v c => cases c <;> exact h
    | _ => trivial
  | not e ih => exact ih h
  | and l r ihl ihr | or l r ihl ihr => exact ⟨ihl h.1, ihr h.2⟩

theorem fit_assignStr {fl : AttrVar → Prop} {cfg cfg' : Config} {al : Bool} {e e' : Expr} (hm : FloatsFit fl e)
    (h : assignStr cfg al e = .ok (e', cfg')) : FloatsFit fl e' := by
  induction e generalizing cfg cfg' e' with
  | leaf p =>
    rw [assignStr] at h
    split at h
    · cases h
    · rename_i h1
      cases h
      unfold assignStrPred at h1
      repeat' split at h1
      all_goals first
        | (cases h1; done)
        | (cases h1; trivial)
        | (cases h1; exact hm)
  | not e ih =>
    rw [assignStr] at h
    split at h
    · cases h
    · rename_i h1; cases h; have := ih hm h1; exact this
  | and l r ihl ihr | or l r ihl ihr =>
    rw [assignStr] at h
    split at h
    · cases h
    · rename_i h1
      split at h
      · cases h
      · rename_i h2; cases h; exact ⟨ihl hm.1 h1, ihr hm.2 h2⟩

theorem fit_assignIenum {fl : AttrVar → Prop} {cfg cfg' : Config} {al : Bool} {e e' : Expr} (hm : FloatsFit fl e)
    (h : assignIenum cfg al e = .ok (e', cfg')) : FloatsFit fl e' := by
  induction e generalizing cfg cfg' e' with
  | leaf p =>
    rw [assignIenum] at h
    split at h
    · cases h
    · rename_i h1
      cases h
      unfold assignIenumPred at h1
      repeat' split at h1
      all_goals first
        | (cases h1; done)
        | (cases h1; exact hm)
        | (cases h1; trivial)
  | not e ih =>
    rw [assignIenum] at h
    split at h
    · cases h
    · rename_i h1; cases h; have := ih hm h1; exact this
  | and l r ihl ihr | or l r ihl ihr =>
    rw [assignIenum] at h
    split at h
    · cases h
    · rename_i h1
      split at h
      · cases h
      · rename_i h2; cases h; exact ⟨ihl hm.1 h1, ihr hm.2 h2⟩

theorem fit_fixFloat {cfg : Config} {e e' : Expr} (hm : FloatsFit (FloatAt cfg) e) (h : fixFloat cfg e = .ok e') :
    FloatsFit (fun _ => False) e' := by
  induction e generalizing e' with
  | leaf p =>
    rw [fixFloat] at h
    split at h
    · cases h
    · rename_i h1
      cases h
      cases p with
      | compare op v c =>
        simp only [fixFloatPred] at h1
        split at h1
        · cases h1
        · rename_i d hd
          have hg : cfg.domains[v.var]? = some d := by
            unfold getDomain at hd
            split at hd <;> cases hd
            assumption
          cases c with
          | int i =>
            simp only at h1
            cases h1
            split
            · rename_i hf; exact hm ⟨d, hg, hf⟩
            · exact False.elim
          | float f => cases h1; exact hm
      | equality op v c =>
        simp only [fixFloatPred] at h1
        split at h1
        · cases h1
        · rename_i d hd
          have hg : cfg.domains[v.var]? = some d := by
            unfold getDomain at hd
            split at hd <;> cases hd
            assumption
          cases c with
          | int i =>
            simp only at h1
            cases h1
            split
            · rename_i hf; exact hm ⟨d, hg, hf⟩
            · exact False.elim
          | float f => cases h1; exact hm
          | string s => cases h1; trivial
          | intEnum s => cases h1; trivial
      | _ => cases h1; trivial
  | not e ih =>
    rw [fixFloat] at h
    split at h
    · cases h
    · rename_i h1; cases h; have := ih hm h1; exact this
  | and l r ihl ihr | or l r ihl ihr =>
    rw [fixFloat] at h
    split at h
    · cases h
    · rename_i h1
      split at h
      · cases h
      · rename_i h2
        cases h
        exact ⟨ihl hm.1 h1, ihr hm.2 h2⟩

theorem fit_assignConstants {fl : AttrVar → Prop} {cs : List Constant} {e e' : Expr} (hm : FloatsFit fl e)
    (h : assignConstants cs e = some e') : FloatsFit fl e' := by
  induction e generalizing e' with
  | leaf p =>
    simp only [assignConstants, Option.map_eq_some_iff] at h
    obtain ⟨q, hq, rfl⟩ := h
    cases p with
    | freq f =>
      simp only [assignConstantsPred] at hq
      repeat' split at hq
      all_goals first | (cases hq; done) | (cases hq; trivial)
    | _ => cases hq; exact hm
  | not e ih =>
    simp only [assignConstants, Option.map_eq_some_iff] at h
    obtain ⟨q, hq, rfl⟩ := h
    have := ih hm hq; exact this
  | and l r ihl ihr | or l r ihl ihr =>
    simp only [assignConstants] at h
    split at h
    · rename_i h1 h2
      cases h
      exact ⟨ihl hm.1 h1, ihr hm.2 h2⟩
    · cases h

theorem fit_sortLists {fl : AttrVar → Prop} {e : Expr} (hm : FloatsFit fl e) : FloatsFit fl (sortLists e) := by
  induction e with
  | leaf p =>
    cases p with
    | set op l r => cases l <;> cases r <;> trivial
    | list op v c => cases c <;> trivial
    | _ => exact hm
  | not e ih => exact ih hm
  | and l r ihl ihr | or l r ihl ihr => exact ⟨ihl hm.1, ihr hm.2⟩

theorem fit_domains {a b : Config} (h : b.domains = a.domains) {e : Expr} (hm : FloatsFit (FloatAt a) e) : FloatsFit (FloatAt b) e := by
  have : FloatAt b = FloatAt a := by funext v; simp only [FloatAt, h]
  rw [this]; exact hm

/-! ### one API call -/

omit [Floats] in
theorem Small.of_ext {a b : Config} (h : CfgExt a b) (hs : Small b) : Small a := by
  have hl : b.domains.length = a.domains.length := by simpa using congrArg List.length h.doms
  exact ⟨by rw [← hl]; exact hs.domains, fun v => Nat.lt_of_le_of_lt (h.strs v).length_le (hs.strs v),
    fun v => Nat.lt_of_le_of_lt (h.ints v).length_le (hs.ints v)⟩

theorem assign_cfgOK {a b c : Config} {al al' : Bool} {e e1 e2 : Expr} (hc : CfgOK a) (h1 : assignStr a al e = .ok (e1, b))
    (h2 : assignIenum b al' e1 = .ok (e2, c)) : CfgOK c ∧ Wider a c :=
  ⟨assignIenum_inv CfgOK getIdForIenum_cfgOK (assignStr_inv CfgOK getIdForString_cfgOK hc h1) h2,
    Wider.of_eq ((assignIenum_grow h2).base.domains.trans (assignStr_grow h1).base.domains)⟩

theorem finishSub_cfgOK {a b : Config} {id : Nat} {e : Expr} {s : Sub} (hc : CfgOK a) (h : finishSub a id e = .ok (s, b)) :
    CfgOK b ∧ Wider a b := by
  unfold finishSub at h
  split at h
  · cases h
  · dsimp only at h
    split at h
    · cases h
    · cases h; exact ⟨⟨DomsOK.of_eq (a := a) rfl hc.doms, hc.strs, hc.ints⟩, Wider.of_eq rfl⟩

theorem prepareInsert_cfgOK {cfg cfg' : Config} {id : Nat} {cs : List Constant} {e : Expr} {o : Option Sub} (hc : CfgOK cfg)
    (h : prepareInsert cfg id cs e = .ok (o, cfg')) : CfgOK cfg' ∧ Wider cfg cfg' := by
  unfold prepareInsert at h
  dsimp only at h
  split at h
  · cases h
  · cases h; exact ⟨hc, Wider.refl _⟩
  · split at h
    · cases h; exact ⟨hc, Wider.refl _⟩
    · split at h
      · cases h
      · rename_i h1
        split at h
        · cases h
        · rename_i h2
          split at h
          · cases h
          · split at h
            · cases h
            · rename_i h3
              cases h
              obtain ⟨c1, w1⟩ := assign_cfgOK hc h1 h2
              obtain ⟨c2, w2⟩ := finishSub_cfgOK c1 h3
              exact ⟨c2, w1.trans w2⟩

theorem makeSub_cfgOK {t t' : Tree} {id : Nat} {cs : List Constant} {e : Expr} {o : Option Sub} (hc : CfgOK t.cfg)
    (ht : TablesOK t.cfg) (hs : Small t'.cfg) (hm : MayWiden e) (h : t.makeSub id cs e = .ok (o, t')) :
    CfgOK t'.cfg ∧ Wider t.cfg t'.cfg ∧ t'.root = t.root := by
  unfold Tree.makeSub at h
  dsimp only at h
  split at h
  · cases h
  · cases h; exact ⟨hc, Wider.refl _, rfl⟩
  · split at h
    · cases h
    · rename_i h1
      split at h
      · cases h
      · rename_i h2
        obtain ⟨c1, w1⟩ := assign_cfgOK hc h1 h2
        have h12 := (assignStr_grow h1).ext.trans (assignIenum_grow h2).ext
        split at h
        · cases h
        · rename_i hf
          split at h
          · cases h
          · cases h; exact ⟨c1, w1, rfl⟩
          · split at h
            · cases h; exact ⟨c1, w1, rfl⟩
            · rename_i hk
              split at h
              · cases h
              · rename_i h3
                split at h
                · cases h
                · rename_i h4
                  cases h
                  have hdom := (assignIenum_grow h2).base.domains.trans (assignStr_grow h1).base.domains
                  have hlen := (Small.of_ext ((h12.trans (changeBoundaries_ext h3)).trans (finishSub_ext h4)) hs).domains
                  have hmod : Fine _ := ⟨moderate_sortLists (moderate_assignConstants (moderate_fixFloat
                    (moderate_assignIenum (moderate_assignStr (moderate_assignVar hm.1) h1) h2) hf).1 hk),
                    fit_sortLists (fit_assignConstants (fit_fixFloat
                    (fit_domains hdom (fit_assignIenum (fit_assignStr (fit_assignVar hc hlen hm.2) h1) h2)) hf) hk)⟩
                  have hsm := Small.of_ext ((changeBoundaries_ext h3).trans (finishSub_ext h4)) hs
                  obtain ⟨w2, c2⟩ := changeBoundaries_wider c1 (h12.ok ht) hsm hmod (sortLists_sorted _) h3
                  obtain ⟨c3, w3⟩ := finishSub_cfgOK c2 h4
                  exact ⟨c3, (w1.trans w2).trans w3, rfl⟩

theorem changeBoundaries_cfgOK {t t' : Tree} {e : Expr} (hc : CfgOK t.cfg) (ht : TablesOK t.cfg) (hs : Small t'.cfg)
    (hm : MayWiden e) (h : t.changeBoundaries e = .ok t') : CfgOK t'.cfg ∧ Wider t.cfg t'.cfg ∧ t'.root = t.root := by
  unfold Tree.changeBoundaries at h
  split at h
  · cases h
  · rename_i h1
    split at h
    · cases h
    · rename_i h2
      obtain ⟨c1, w1⟩ := assign_cfgOK hc h1 h2
      have h12 := (assignStr_grow h1).ext.trans (assignIenum_grow h2).ext
      split at h
      · cases h
      · rename_i hf
        split at h
        · cases h
        · rename_i h3
          cases h
          obtain ⟨m1, m2⟩ := moderate_fixFloat
            (moderate_sortLists (moderate_assignIenum (moderate_assignStr (moderate_assignVar hm.1) h1) h2)) hf
          have hdom := (assignIenum_grow h2).base.domains.trans (assignStr_grow h1).base.domains
          have hlen := (Small.of_ext (h12.trans (changeBoundaries_ext h3)) hs).domains
          have m3 := fit_fixFloat (fit_domains hdom
            (fit_sortLists (fit_assignIenum (fit_assignStr (fit_assignVar hc hlen hm.2) h1) h2))) hf
          obtain ⟨w2, c2⟩ := changeBoundaries_wider c1 (h12.ok ht) (Small.of_ext (changeBoundaries_ext h3) hs) ⟨m1, m3⟩
            (m2 (sortLists_sorted _)) h3
          exact ⟨c2, w1.trans w2, rfl⟩

/-- what the pruning argument needs of a world -/
structure PruneOK (w : World) : Prop where
  cfg : CfgOK w.tree.cfg
  root : w.tree.root.Pr w.tree.cfg

theorem step_prune {R : Rounding} {w w' : World} {o : Op} (hp : PruneOK w) (ht : TablesOK w.tree.cfg)
    (hs : Small w'.tree.cfg) (hm : ModerateOp o) (h : w.step R o = .ok w') : PruneOK w' ∧ Wider w.tree.cfg w'.tree.cfg := by
  cases o with
  | insert q =>
    have key : ∀ {b : Bool} {t : Tree}, w.tree.insert R q.id q.consts (parseBuild q.expr) = .ok (b, t) →
        CfgOK t.cfg ∧ t.root.Pr t.cfg ∧ Wider w.tree.cfg t.cfg := by
      intro b t h1
      unfold Tree.insert at h1
      split at h1
      · cases h1
      · rename_i h2
        cases h1
        obtain ⟨c, wd⟩ := prepareInsert_cfgOK hp.cfg h2
        exact ⟨c, hp.root.wider wd, wd⟩
      · rename_i h2
        split at h1
        · cases h1
        · rename_i h3
          cases h1
          obtain ⟨c, wd⟩ := prepareInsert_cfgOK hp.cfg h2
          exact ⟨c, CNode.insert_pr c.doms (hp.root.wider wd) h3, wd⟩
    simp only [World.step] at h
    split at h
    · cases h
    · rename_i h1
      cases h
      obtain ⟨a, b, c⟩ := key h1
      exact ⟨⟨a, b⟩, c⟩
    · rename_i h1
      cases h
      obtain ⟨a, b, c⟩ := key h1
      exact ⟨⟨a, b⟩, c⟩
  | makeSub q =>
    simp only [World.step] at h
    split at h
    · cases h
    · rename_i h1
      cases h
      obtain ⟨a, b, c⟩ := makeSub_cfgOK hp.cfg ht hs ⟨moderate_parse hm.1, fit_parse hm.2⟩ h1
      exact ⟨⟨a, by dsimp only; rw [c]; exact hp.root.wider b⟩, b⟩
    · rename_i h1
      cases h
      obtain ⟨a, b, c⟩ := makeSub_cfgOK hp.cfg ht hs ⟨moderate_parse hm.1, fit_parse hm.2⟩ h1
      exact ⟨⟨a, by dsimp only; rw [c]; exact hp.root.wider b⟩, b⟩
  | insertSub k =>
    simp only [World.step] at h
    split at h
    · cases h; exact ⟨hp, Wider.refl _⟩
    · split at h
      · cases h
      · rename_i h1
        cases h
        unfold Tree.insertSub at h1
        split at h1
        · cases h1
        · rename_i h2
          cases h1
          exact ⟨⟨hp.cfg, CNode.insert_pr hp.cfg.doms hp.root h2⟩, Wider.refl _⟩
  | changeBoundaries e =>
    simp only [World.step] at h
    split at h
    · cases h
    · rename_i h1
      cases h
      obtain ⟨a, b, c⟩ := changeBoundaries_cfgOK hp.cfg ht hs ⟨moderate_parse hm.1, fit_parse hm.2⟩ h1
      exact ⟨⟨a, by dsimp only; rw [c]; exact hp.root.wider b⟩, b⟩

theorem run_prune {R : Rounding} : ∀ {ops : List Op} {w w' : World}, PruneOK w → TablesOK w.tree.cfg → Small w'.tree.cfg →
    (∀ o ∈ ops, ModerateOp o) → w.run R ops = .ok w' → PruneOK w' ∧ Wider w.tree.cfg w'.tree.cfg := by
  intro ops
  induction ops with
  | nil => intro w w' hp _ _ _ h; cases h; exact ⟨hp, Wider.refl _⟩
  | cons o os ih =>
    intro w w' hp ht hs hm h
    simp only [World.run] at h
    split at h
    · cases h
    · rename_i w1 h1
      obtain ⟨p1, w1'⟩ := step_prune hp ht (Small.of_ext (run_ext h) hs) (hm o List.mem_cons_self) h1
      obtain ⟨p2, w2'⟩ := ih p1 ((step_ext h1).ok ht) hs (fun o ho => hm o (List.mem_cons_of_mem _ ho)) h
      exact ⟨p2, w1'.trans w2'⟩

/-! ### the fresh tree -/

omit [Floats] in
theorem closeTo_self (x : Rat) : closeTo x x := by
  unfold closeTo; rw [sub_self, rnd_zero, Rat.abs_of_nonneg le_rfl]; exact eps_pos

theorem decl_boundOK {n : Str} {d : Decl} (h : ProperDecl n d) : BoundOK d.bound := by
  cases d <;> simp only [ProperDecl] at h <;> simp only [Decl.bound, BoundOK]
  · trivial
  · exact ⟨_, _, rfl, rfl, h⟩
  · obtain ⟨-, h1, h2, h3⟩ := h
    refine ⟨_, _, rfl, rfl, h1, fun hn => h2.resolve_left ?_, fun hn => h3.resolve_left ?_⟩
    · rintro rfl; exact hn (closeTo_self _)
    · rintro rfl; exact hn (closeTo_self _)
  · exact ⟨_, trivial, rfl, by simp only [sizeMax]; omega⟩
  · exact ⟨_, _, rfl, rfl, h⟩
  · exact ⟨_, trivial, rfl, by simp only [sizeMax]; omega⟩
  · trivial
  · trivial
  · exact ⟨_, trivial, rfl, by simp only [sizeMax]; omega⟩

theorem declare_cfgOK {cfg : Config} {n : Str} {d : Decl} {u : Bool} (hd : ProperDecl n d) (h : CfgOK cfg) :
    CfgOK (declare cfg n d u) := by
  refine ⟨?_, h.strs, h.ints⟩
  intro v x hx
  suffices hh : x.attr.var = v ∧ (x.bound.ty = .float → Floats.attr x.attr.attr) ∧ BoundOK x.bound from ⟨hx, hh.1, hh.2.1, hh.2.2⟩
  simp only [declare, addDomain] at hx
  rw [List.getElem?_append] at hx
  split at hx
  · exact ⟨(h.doms v x hx).var, (h.doms v x hx).float, (h.doms v x hx).ok⟩
  · rename_i hv
    have h0 : v - cfg.domains.length = 0 := by
      have := (List.getElem?_eq_some_iff.1 hx).1
      simp at this; omega
    rw [h0] at hx
    simp only [List.getElem?_cons_zero, Option.some.injEq] at hx
    subst hx
    refine ⟨by dsimp only; omega, ?_, decl_boundOK hd⟩
    cases d <;> simp only [Decl.bound, reduceCtorEq, false_implies, true_implies]
    exact hd.1

theorem makeTree_cfgOK {cap min : Nat} {decls : List (Str × Decl × Bool)} (h : ∀ d ∈ decls, ProperDecl d.1 d.2.1) :
    PruneOK (World.init (makeTree cap min decls)) := by
  refine ⟨?_, by simp only [World.init, makeTree, emptyCNode, CNode.Pr, PNodes.Pr]⟩
  simp only [World.init, makeTree]
  have : ∀ (cfg : Config), CfgOK cfg → CfgOK (decls.foldl (fun cfg d => declare cfg d.1 d.2.1 d.2.2) cfg) := by
    induction decls with
    | nil => intro cfg hc; exact hc
    | cons d ds ih =>
      intro cfg hc
      exact ih (fun x hx => h x (List.mem_cons_of_mem _ hx)) _ (declare_cfgOK (h d List.mem_cons_self) hc)
  exact this _ ⟨by intro v d hd; simp [makeConfig] at hd, by simp [makeConfig], by simp [makeConfig]⟩

end BeTree
