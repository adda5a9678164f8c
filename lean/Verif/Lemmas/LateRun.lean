import Verif.Lemmas.Late
import Verif.Props.Report
import Verif.Lemmas.Event
/-
Histories with late declarations, and searches after them.
-/
namespace BeTree
open Spec

/-! ### calls refused for want of a declaration -/

theorem findAttr_none {key : Str} : ∀ {ds : List Domain} {i : Nat}, key ∉ ds.map (fun d => d.attr.attr) → findAttr key ds i = invalidId := by
  intro ds
  induction ds with
  | nil => intro i _; rfl
  | cons d ds ih =>
    intro i h
    simp only [List.map_cons, List.mem_cons, not_or] at h
    rw [findAttr, if_neg (fun h' => h.1 h'.symm)]
    exact ih h.2

theorem invalid_of_undeclared {cfg : Config} {v : AttrVar} (h : lowerKey v.attr ∉ cfg.names) : varValid (resolveVar cfg v) = false := by
  unfold varValid resolveVar tryGetIdForAttr
  rw [findAttr_none h]
  simp

theorem varsInConfigPred_required {cfg : Config} {p : Pred} (h : varsInConfigPred (assignVarPred cfg p) = .ok true) :
    ∀ a ∈ requiredPred p, lowerKey a ∈ cfg.names := by
  have key : ∀ v : AttrVar, varValid (resolveVar cfg v) = true → lowerKey v.attr ∈ cfg.names := by
    intro v hv
    by_contra hc
    rw [invalid_of_undeclared hc] at hv
    cases hv
  intro a ha
  cases p with
  | set op l r =>
    cases l <;> cases r <;>
      simp_all [requiredPred, assignVarPred, varsInConfigPred]
  | geo g => simp [requiredPred] at ha
  | freq f =>
    simp only [requiredPred, predNames, List.mem_cons, List.not_mem_nil, or_false] at ha
    simp only [assignVarPred, varsInConfigPred, Except.ok.injEq, Bool.and_eq_true] at h
    rcases ha with rfl | rfl
    · exact key _ h.1
    · exact key _ h.2
  | segment f =>
    simp only [requiredPred, predNames, List.mem_cons, List.not_mem_nil, or_false] at ha
    simp only [assignVarPred, varsInConfigPred, Except.ok.injEq, Bool.and_eq_true] at h
    rcases ha with rfl | rfl
    · exact key _ h.1
    · exact key _ h.2
  | _ => simp_all [requiredPred, predNames, assignVarPred, varsInConfigPred]

theorem varsInConfig_required {cfg : Config} {e : Expr} (h : varsInConfig (assignVar cfg e) = .ok true) :
    ∀ a ∈ required e, lowerKey a ∈ cfg.names := by
  induction e with
  | leaf p => exact varsInConfigPred_required h
  | not e ih => exact ih h
  | and l r ihl ihr | or l r ihl ihr =>
    rw [assignVar, varsInConfig] at h
    rcases andThen_ok h with ⟨_, h2⟩ | ⟨h1, h2⟩
    · cases h2
    · intro a ha
      rcases List.mem_append.1 ha with ha | ha
      · exact ihl h1 a ha
      · exact ihr h2 a ha

theorem required_parse {e : Expr} {n : Str} : n ∈ required (parseBuild e) ↔ n ∈ required e := by
  induction e with
  | leaf p => exact Iff.rfl
  | not e ih => exact ih
  | and l r ihl ihr =>
    simp only [parseBuild, mkAnd]
    split <;> simp only [required, List.mem_append, ihl, ihr, or_comm]
  | or l r ihl ihr =>
    simp only [parseBuild, mkOr]
    split <;> simp only [required, List.mem_append, ihl, ihr, or_comm]

/-- a call that lacks a declaration and does not fault leaves the world alone -/
theorem step_refused {R : Rounding} {w w' : World} {o : Op} (ho : LacksDeclaration w.tree.cfg.names o) (h : w.step R o = .ok w') :
    w' = w := by
  obtain ⟨a, ha, hna⟩ := ho
  have bad : ∀ {e : Expr}, a ∈ required e → ¬ varsInConfig (assignVar w.tree.cfg (parseBuild e)) = .ok true :=
    fun he hv => hna (varsInConfig_required hv a (required_parse.2 he))
  cases o with
  | insertSub k => simp [opRequired] at ha
  | changeBoundaries e => simp [opRequired] at ha
  | insert q =>
    have hb := bad (e := q.expr) ha
    have hp : ∀ r, prepareInsert w.tree.cfg q.id q.consts (parseBuild q.expr) = .ok r → r = (none, w.tree.cfg) := by
      intro r hr
      unfold prepareInsert at hr
      dsimp only at hr
      split at hr
      · cases hr
      · cases hr; rfl
      · rename_i h1
        unfold isValid at h1
        rcases andThen_ok h1 with ⟨_, h2⟩ | ⟨h2, _⟩
        · cases h2
        · exact absurd h2 hb
    simp only [World.step, Tree.insert] at h
    cases hr : prepareInsert w.tree.cfg q.id q.consts (parseBuild q.expr) with
    | error x => rw [hr] at h; cases h
    | ok r =>
      have := hp r hr
      subst this
      rw [hr] at h
      cases h
      rfl
  | makeSub q =>
    have hb := bad (e := q.expr) ha
    simp only [World.step, Tree.makeSub] at h
    cases hr : varsInConfig (assignVar w.tree.cfg (parseBuild q.expr)) with
    | error x => simp only [hr] at h; cases h
    | ok b =>
      cases b with
      | true => exact absurd hr hb
      | false => simp only [hr] at h; cases h; rfl

/-! ### all declarations first -/

/-- the domain a declaration adds -/
def newDomain (n : Nat) (d : Str × Decl × Bool) : Domain :=
  { attr := { attr := d.1, var := n }, bound := d.2.1.bound, allowUndefined := d.2.2 }

/-- the world after some declarations -/
def World.declareAll (w : World) (ds : List (Str × Decl × Bool)) : World :=
  ds.foldl (fun w d => w.plus (newDomain w.tree.cfg.domains.length d)) w

theorem World.plus_names (w : World) (x : Domain) : (w.plus x).tree.cfg.names = w.tree.cfg.names ++ [x.attr.attr] := by
  simp [World.plus, Config.plus, Config.names]

theorem World.plus_length (w : World) (x : Domain) : (w.plus x).tree.cfg.domains.length = w.tree.cfg.domains.length + 1 := by
  simp [World.plus, Config.plus]

theorem SubOK.more {n m : Nat} {s : Sub} (h : SubOK n s) (hle : n ≤ m) (hw : m / 64 = n / 64) : SubOK m s :=
  ⟨fun i hi => Nat.lt_of_lt_of_le (h.vars i hi) hle, by rw [h.pass, hw], by rw [h.fail, hw]⟩

theorem LateOK.plus {w : World} (h : LateOK w) (x : Domain) (hw : (w.tree.cfg.domains.length + 1) / 64 = w.tree.cfg.domains.length / 64) :
    LateOK (w.plus x) := by
  constructor
  · intro s hs
    rw [World.plus_length]
    exact (h.root s hs).more (Nat.le_succ _) hw
  · intro s hs
    rw [World.plus_length]
    exact (h.pool s hs).more (Nat.le_succ _) hw

theorem step_declareAll {R : Rounding} {o : Op} : ∀ {ds : List (Str × Decl × Bool)} {w w' : World}, LateOK w →
    (w.tree.cfg.domains.length + ds.length) / 64 = w.tree.cfg.domains.length / 64 → AllDeclared w.tree.cfg.names (ds.map (·.1)) o →
    w.step R o = .ok w' → (w.declareAll ds).step R o = .ok (w'.declareAll ds) := by
  intro ds
  induction ds with
  | nil => intro w w' _ _ _ h; exact h
  | cons d ds ih =>
    intro w w' hok hw ho h
    simp only [List.length_cons] at hw
    have hw1 : (w.tree.cfg.domains.length + 1) / 64 = w.tree.cfg.domains.length / 64 := by omega
    have hop : OpOK w.tree.cfg (newDomain w.tree.cfg.domains.length d) o := by
      intro a ha
      obtain ⟨h1, h2⟩ := ho a ha
      refine ⟨h1, h2.imp id fun h3 h4 => h3 ?_⟩
      rw [h4]; simp [newDomain]
    obtain ⟨k1, _, _, k4⟩ := step_plus (x := newDomain w.tree.cfg.domains.length d) rfl hw1 hok hop h
    have := ih (w := w.plus (newDomain w.tree.cfg.domains.length d)) (hok.plus _ hw1)
      (by rw [World.plus_length]; omega)
      (by
        intro a ha
        obtain ⟨h1, h2⟩ := ho a ha
        rw [World.plus_names]
        refine ⟨List.mem_append_left _ h1, ?_⟩
        rcases h2 with h2 | h2
        · exact Or.inl (List.mem_append_left _ h2)
        · refine Or.inr fun h3 => h2 ?_
          simp only [List.map_cons, List.mem_cons]
          exact Or.inr h3) k1
    simp only [World.declareAll, List.foldl_cons, k4] at *
    exact this

/-- any domain at all (to use the lemmas of `Lemmas/Late` for what they say about ids) -/
def anyDomain : Domain := newDomain 0 ([], .bool, true)

theorem prepareInsert_subOK {cfg cfg' : Config} {id : Nat} {cs : List Constant} {e : Expr}
    (hn : ∀ a ∈ exprNames e, lowerKey a ∈ cfg.names) {s : Sub} (h : prepareInsert cfg id cs e = .ok (some s, cfg')) :
    SubOK cfg.domains.length s := by
  obtain ⟨_, hb⟩ := assignVar_plus (x := anyDomain) hn
  unfold prepareInsert at h
  dsimp only at h
  split at h
  · cases h
  · cases h
  · split at h
    · cases h
    · rename_i e2 h2
      split at h
      · cases h
      · rename_i e3 c3 h3
        split at h
        · cases h
        · rename_i e4 c4 h4
          split at h
          · cases h
          · rename_i e5 h5
            split at h
            · cases h
            · rename_i sub c6 h6
              cases h
              have hid : exprIds e5 = exprIds (assignVar cfg e) := by
                rw [(fixFloat_plus (x := anyDomain) h5).2, sortLists_ids, (assignIenum_plus (x := anyDomain) h4).2,
                  (assignStr_plus (x := anyDomain) h3).2, assignConstants_ids h2]
              have hl : c4.domains.length = cfg.domains.length := by
                rw [(assignIenum_grow h4).base.domains, (assignStr_grow h3).base.domains]
              rw [← hl]
              exact finishSub_subOK (by rw [hl]; exact hb.of_ids hid) h6

theorem insert_subOK {R : Rounding} {t t' : Tree} (hr : ∀ s ∈ t.root.contents, SubOK t.cfg.domains.length s) {id : Nat}
    {cs : List Constant} {e : Expr} (hn : ∀ a ∈ exprNames e, lowerKey a ∈ t.cfg.names) {b : Bool}
    (h : t.insert R id cs e = .ok (b, t')) : ∀ s ∈ t'.root.contents, SubOK t.cfg.domains.length s := by
  unfold Tree.insert at h
  split at h
  · cases h
  · cases h; exact hr
  · rename_i sub c1 h1
    split at h
    · cases h
    · rename_i h2
      cases h
      exact CNode.insert_from (P := SubOK t.cfg.domains.length) (prepareInsert_subOK hn h1) hr h2

theorem makeSub_subOK {t t' : Tree} {id : Nat} {cs : List Constant} {e : Expr} (hn : ∀ a ∈ exprNames e, lowerKey a ∈ t.cfg.names)
    {s : Sub} (h : t.makeSub id cs e = .ok (some s, t')) : SubOK t.cfg.domains.length s := by
  obtain ⟨_, hb⟩ := assignVar_plus (x := anyDomain) hn
  unfold Tree.makeSub at h
  dsimp only at h
  split at h
  · cases h
  · cases h
  · split at h
    · cases h
    · rename_i e3 c3 h3
      split at h
      · cases h
      · rename_i e4 c4 h4
        split at h
        · cases h
        · rename_i e5 h5
          split at h
          · cases h
          · cases h
          · split at h
            · cases h
            · rename_i e7 h7
              split at h
              · cases h
              · rename_i c8 h8
                split at h
                · cases h
                · rename_i sub c9 h9
                  cases h
                  have hid : exprIds (sortLists e7) = exprIds (assignVar t.cfg e) := by
                    rw [sortLists_ids, assignConstants_ids h7, (fixFloat_plus (x := anyDomain) h5).2,
                      (assignIenum_plus (x := anyDomain) h4).2, (assignStr_plus (x := anyDomain) h3).2]
                  have hl : c4.domains.length = t.cfg.domains.length := by
                    rw [(assignIenum_grow h4).base.domains, (assignStr_grow h3).base.domains]
                  have hl8 : c8.domains.length = c4.domains.length := by
                    simpa using congrArg List.length (changeBoundaries_ext h8).doms
                  rw [← hl, ← hl8]
                  exact finishSub_subOK (by rw [hl8, hl]; exact hb.of_ids hid) h9

/-- what a call does to the conditions of a world: nothing -/
theorem step_lateOK {R : Rounding} {o : Op} {w w' : World} {later : List Str} (hok : LateOK w)
    (ho : AllDeclared w.tree.cfg.names later o) (h : w.step R o = .ok w') :
    LateOK w' ∧ w'.tree.cfg.names = w.tree.cfg.names ∧ w'.tree.cfg.domains.length = w.tree.cfg.domains.length := by
  cases o with
  | insert q =>
    simp only [World.step] at h
    have hn : ∀ a ∈ exprNames (parseBuild q.expr), lowerKey a ∈ w.tree.cfg.names := fun a ha => (ho a (exprNames_parse.1 ha)).1
    split at h
    · cases h
    · rename_i t h1
      cases h
      obtain ⟨n1, n2⟩ := ext_names (insert_ext h1)
      exact ⟨⟨by rw [n2]; exact insert_subOK hok.root hn h1, by rw [n2]; exact hok.pool⟩, n1, n2⟩
    · rename_i t h1
      cases h
      obtain ⟨n1, n2⟩ := ext_names (insert_ext h1)
      exact ⟨⟨by rw [n2]; exact insert_subOK hok.root hn h1, by rw [n2]; exact hok.pool⟩, n1, n2⟩
  | makeSub q =>
    simp only [World.step] at h
    have hn : ∀ a ∈ exprNames (parseBuild q.expr), lowerKey a ∈ w.tree.cfg.names := fun a ha => (ho a (exprNames_parse.1 ha)).1
    split at h
    · cases h
    · rename_i s t h1
      cases h
      obtain ⟨n1, n2⟩ := ext_names (makeSub_ext h1)
      refine ⟨⟨by rw [n2, makeSub_root h1]; exact hok.root, ?_⟩, n1, n2⟩
      rw [n2]
      intro p hp
      rcases List.mem_append.1 hp with hp | hp
      · exact hok.pool p hp
      · simp only [List.mem_singleton] at hp; subst hp; exact makeSub_subOK hn h1
    · rename_i t h1
      cases h
      obtain ⟨n1, n2⟩ := ext_names (makeSub_ext h1)
      exact ⟨⟨by rw [n2, makeSub_root h1]; exact hok.root, by rw [n2]; exact hok.pool⟩, n1, n2⟩
  | insertSub k =>
    simp only [World.step] at h
    split at h
    · cases h; exact ⟨hok, rfl, rfl⟩
    · rename_i q s h1
      have hs := hok.pool _ (List.mem_of_getElem? h1)
      split at h
      · cases h
      · rename_i t h2
        cases h
        unfold Tree.insertSub at h2
        split at h2
        · cases h2
        · rename_i h3
          cases h2
          exact ⟨⟨CNode.insert_from (P := SubOK w.tree.cfg.domains.length) hs hok.root h3, hok.pool⟩, rfl, rfl⟩
  | changeBoundaries e =>
    simp only [World.step] at h
    split at h
    · cases h
    · rename_i t h1
      cases h
      obtain ⟨n1, n2⟩ := ext_names (changeBoundaries_api_ext h1)
      exact ⟨⟨by rw [n2, changeBoundaries_root h1]; exact hok.root, by rw [n2]; exact hok.pool⟩, n1, n2⟩

theorem late_run {R : Rounding} : ∀ {ls : List LateOp} {w w' : World}, LateOK w → Timely w.tree.cfg.names ls →
    (w.tree.cfg.domains.length + (declarations ls).length) / 64 = w.tree.cfg.domains.length / 64 → w.lateRun R ls = .ok w' →
    (w.declareAll (declarations ls)).run R (accepted w.tree.cfg.names ls) = .ok w' ∧ LateOK w' := by
  intro ls
  induction ls with
  | nil => intro w w' hok _ _ h; cases h; exact ⟨rfl, hok⟩
  | cons l ls ih =>
    intro w w' hok ho hw h
    rw [World.lateRun] at h
    cases l with
    | declare name d u =>
      simp only [World.lateStep] at h
      simp only [declarations, List.length_cons] at hw
      simp only [Timely] at ho
      have e : ({ w with tree := w.tree.declare name d u } : World) = w.plus (newDomain w.tree.cfg.domains.length (name, d, u)) := rfl
      rw [e] at h
      have hn : (w.plus (newDomain w.tree.cfg.domains.length (name, d, u))).tree.cfg.names = w.tree.cfg.names ++ [name] :=
        World.plus_names _ _
      have := ih (hok.plus (newDomain w.tree.cfg.domains.length (name, d, u)) (by omega)) (by rw [hn]; exact ho)
        (by rw [World.plus_length]; omega) h
      rw [hn] at this
      simp only [declarations, accepted, World.declareAll, List.foldl_cons] at *
      exact this
    | op o =>
      simp only [World.lateStep] at h
      simp only [Timely] at ho
      simp only [declarations] at hw
      cases hs : w.step R o with
      | error x =>
        rw [hs] at h
        split at h
        · cases h
        · rename_i h1; split at h1 <;> cases h1
      | ok w1 =>
        rw [hs] at h
        have hprobe : w.probes o = true := by
          cases hp : w.probes o with
          | true => rfl
          | false => rw [hp] at h; cases h
        rw [hprobe] at h
        simp only [if_true] at h
        simp only [declarations, accepted]
        by_cases hlack : LacksDeclaration w.tree.cfg.names o
        · have := step_refused hlack hs
          subst this
          rw [if_pos hlack]
          exact ih hok ho.2 hw h
        · rw [if_neg hlack]
          have had := ho.1.resolve_right hlack
          obtain ⟨k1, k2, k3⟩ := step_lateOK hok had hs
          have hst := step_declareAll hok hw had hs
          have := ih k1 (by rw [k2]; exact ho.2) (by rw [k3]; exact hw) h
          rw [k2] at this
          rw [World.run, hst]
          exact this

/-! ### probing and searching -/

mutual
theorem CNode.fits_of {n : Nat} : ∀ {c : CNode}, (∀ s ∈ c.contents, s.words = n) → c.fits n = true
  | .mk subs max pns, h => by
    simp only [CNode.contents, List.mem_append] at h
    rw [CNode.fits, Bool.and_eq_true, List.all_eq_true]
    exact ⟨fun s hs => by simp [h s (Or.inl hs)], PNodes.fits_of fun s hs => h s (Or.inr hs)⟩
theorem PNodes.fits_of {n : Nat} : ∀ {c : PNodes}, (∀ s ∈ c.contents, s.words = n) → c.fits n = true
  | .nil, _ => rfl
  | .cons v sc cd rest, h => by
    simp only [PNodes.contents, List.mem_append] at h
    rw [PNodes.fits, Bool.and_eq_true]
    exact ⟨CDir.fits_of fun s hs => h s (Or.inl hs), PNodes.fits_of fun s hs => h s (Or.inr hs)⟩
theorem CDir.fits_of {n : Nat} : ∀ {c : CDir}, (∀ s ∈ c.contents, s.words = n) → c.fits n = true
  | .leaf v b c, h => by
    rw [CDir.contents] at h
    rw [CDir.fits]; exact CNode.fits_of h
  | .node v b c l r, h => by
    simp only [CDir.contents, List.mem_append] at h
    rw [CDir.fits, Bool.and_eq_true, Bool.and_eq_true]
    exact ⟨⟨CNode.fits_of fun s hs => h s (Or.inl (Or.inl hs)), CDir.fits_of fun s hs => h s (Or.inl (Or.inr hs))⟩,
      CDir.fits_of fun s hs => h s (Or.inr hs)⟩
end

theorem LateOK.probes {w : World} (h : LateOK w) (o : Op) : w.probes o = true := by
  have hf : w.tree.root.fits w.tree.cfg.words = true := CNode.fits_of fun s hs => (h.root s hs).pass
  cases o with
  | insert q => exact hf
  | makeSub q => rfl
  | changeBoundaries e => rfl
  | insertSub k =>
    simp only [World.probes, hf, Bool.true_and]
    cases hk : w.pool[k]? with
    | none => rfl
    | some p =>
      have := (h.pool p (List.mem_of_getElem? hk)).pass
      simp only [beq_iff_eq]
      exact this

theorem checkedShortCircuit_eq : ∀ {p f u : Bits}, p.length = u.length → f.length = u.length →
    checkedShortCircuit p f u = .ok (tryShortCircuit p f u) := by
  intro p
  induction p with
  | nil =>
    intro f u h1 h2
    cases u with
    | nil => rfl
    | cons a u => simp at h1
  | cons a p ih =>
    intro f u h1 h2
    cases u with
    | nil => simp at h1
    | cons b u =>
      cases f with
      | nil => simp at h2
      | cons c f =>
        simp only [List.length_cons, Nat.add_right_cancel_iff] at h1 h2
        rw [checkedShortCircuit, tryShortCircuit]
        split
        · rfl
        · split
          · rfl
          · exact ih h1 h2

theorem matchSubLate_eq {geo : GeoTest} {memoId : Nat → Option Nat} {env : Env} {undef : Bits} {s : Sub} {st : LoopState}
    (h1 : s.pass.length = undef.length) (h2 : s.fail.length = undef.length) :
    matchSubLate geo memoId env undef s st = matchSub geo memoId env undef s st := by
  unfold matchSubLate matchSub
  rw [checkedShortCircuit_eq h1 h2]
  cases tryShortCircuit s.pass s.fail undef <;> rfl

theorem searchLoopLate_eq {geo : GeoTest} {memoId : Nat → Option Nat} {env : Env} {undef : Bits} : ∀ {subs : List Sub} {st : LoopState},
    (∀ s ∈ subs, s.pass.length = undef.length ∧ s.fail.length = undef.length) →
    searchLoopLate geo memoId env undef subs st = searchLoop geo memoId env undef subs st := by
  intro subs
  induction subs with
  | nil => intro st _; rfl
  | cons s ss ih =>
    intro st h
    obtain ⟨h1, h2⟩ := h s (by simp)
    rw [searchLoopLate, searchLoop, matchSubLate_eq h1 h2]
    cases matchSub geo memoId env undef s st with
    | error e => rfl
    | ok r =>
      simp only [ih (st := r.2) fun s hs => h s (by simp [hs])]
      cases searchLoop geo memoId env undef ss r.2 <;> rfl

theorem existsLoopLate_eq {geo : GeoTest} {memoId : Nat → Option Nat} {env : Env} {undef : Bits} : ∀ {subs : List Sub} {st : LoopState},
    (∀ s ∈ subs, s.pass.length = undef.length ∧ s.fail.length = undef.length) →
    existsLoopLate geo memoId env undef subs st = existsLoop geo memoId env undef subs st := by
  intro subs
  induction subs with
  | nil => intro st _; rfl
  | cons s ss ih =>
    intro st h
    obtain ⟨h1, h2⟩ := h s (by simp)
    rw [existsLoopLate, existsLoop, matchSubLate_eq h1 h2]
    rcases matchSub geo memoId env undef s st with e | ⟨b, st'⟩
    · rfl
    · cases b with
      | true => rfl
      | false => exact ih fun s hs => h s (by simp [hs])

theorem markUndefined_length : ∀ {env : Env} {i : Nat} {b b' : Bits}, markUndefined env i b = .ok b' → b'.length = b.length := by
  intro env
  induction env with
  | nil => intro i b b' h; cases h; rfl
  | cons v env ih =>
    intro i b b' h
    cases v with
    | some x => exact ih h
    | none =>
      rw [markUndefined] at h
      split at h
      · cases h
      · rename_i h1
        rw [ih h, setBit_length h1]

theorem LateOK.search {w : World} (h : LateOK w) (geo : GeoTest) (ev : List EventVar) (rep : Report) :
    w.tree.searchLate geo ev rep = w.tree.search geo ev rep := by
  unfold Tree.searchLate Tree.search
  cases he : eventEnv w.tree.cfg ev with
  | error e => rfl
  | ok env =>
    dsimp only
    by_cases hv : validateVariables w.tree.cfg.domains env = true
    · rw [if_pos hv, if_pos hv]
      unfold searchWithPreds
      cases hu : makeUndefined env with
      | error e => rfl
      | ok undef =>
        dsimp only
        cases hc : w.tree.root.collect w.tree.cfg env with
        | error e => rfl
        | ok subs =>
          dsimp only
          have hl : undef.length = w.tree.cfg.domains.length / 64 + 1 := by
            unfold makeUndefined at hu
            rw [markUndefined_length hu, eventEnv_length he]
            simp [makeBits]
          have hsub : ∀ s ∈ subs, s.pass.length = undef.length ∧ s.fail.length = undef.length := by
            intro s hs
            have := h.root s ((CNode.collect_sublist _ hc).subset hs)
            rw [hl]; exact ⟨this.pass, this.fail⟩
          rw [searchLoopLate_eq hsub]
          cases searchLoop geo w.tree.cfg.predMap.memoizeId env undef subs (LoopState.init w.tree.cfg) <;> rfl
    · rw [if_neg hv, if_neg hv]

theorem LateOK.exists {w : World} (h : LateOK w) (geo : GeoTest) (ev : List EventVar) :
    w.tree.existsLate geo ev = w.tree.exists geo ev := by
  unfold Tree.existsLate Tree.exists
  cases he : eventEnv w.tree.cfg ev with
  | error e => rfl
  | ok env =>
    dsimp only
    unfold existsWithPreds
    cases hu : makeUndefined env with
    | error e => rfl
    | ok undef =>
      dsimp only
      cases hc : w.tree.root.collect w.tree.cfg env with
      | error e => rfl
      | ok subs =>
        dsimp only
        have hl : undef.length = w.tree.cfg.domains.length / 64 + 1 := by
          unfold makeUndefined at hu
          rw [markUndefined_length hu, eventEnv_length he]
          simp [makeBits]
        have hsub : ∀ s ∈ subs, s.pass.length = undef.length ∧ s.fail.length = undef.length := by
          intro s hs
          have := h.root s ((CNode.collect_sublist _ hc).subset hs)
          rw [hl]; exact ⟨this.pass, this.fail⟩
        exact existsLoopLate_eq hsub

end BeTree
