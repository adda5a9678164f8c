import Verif.Spec.Trained
import Verif.Lemmas.Trained
import Verif.Props.Ordinary
import Verif.Props.Helper
/-
C56: a tree that is taught the constants first is totally correct, for the two-step way of inserting and for the plain one.
-/
namespace BeTree
open Spec

theorem built_append (a b : List Op) : built (a ++ b) = built a ++ built b := by
  induction a with
  | nil => rfl
  | cons o os ih => cases o <;> simp [built, ih]

theorem taught_append (a b : List Op) : taught (a ++ b) = taught a ++ taught b := by
  induction a with
  | nil => rfl
  | cons o os ih => cases o <;> simp [taught, ih]

theorem placedFrom_append (a b : List Op) : ∀ bs, placedFrom bs (a ++ b) = placedFrom bs a ++ placedFrom (bs ++ built a) b := by
  induction a with
  | nil => intro bs; simp [placedFrom, built]
  | cons o os ih => intro bs; cases o <;> simp [placedFrom, built, ih]

/-- the texts of a predicate belong to a string attribute -/
theorem texts_strings {ds : List Domain} {e : Expr} (hacc : Accepts ds e) {p : Pred} (hp : p ∈ preds e) {a : Str} {ts : List Str}
    (ht : predTexts p = some (a, ts)) : ∃ t, declaredType ds a = some t ∧ (t = .string ∨ t = .strList) := by
  have key : ∀ {v : AttrVar} {t : VType}, (t = .string ∨ t = .strList) → Is ds v [t] →
      ∃ t, declaredType ds v.attr = some t ∧ (t = .string ∨ t = .strList) := by
    intro v t ht ⟨t', h1, h2⟩
    rw [List.mem_singleton] at h1
    subst h1
    exact ⟨_, h2, ht⟩
  induction e with
  | leaf q =>
    simp only [preds, List.mem_singleton] at hp
    subst hp
    cases p with
    | equality op v c =>
      cases c <;> simp only [predTexts, Option.some.injEq, Prod.mk.injEq, reduceCtorEq] at ht
      obtain ⟨rfl, rfl⟩ := ht
      exact key (by simp) hacc
    | set op l r =>
      cases l <;> cases r <;> simp only [predTexts, Option.some.injEq, Prod.mk.injEq, reduceCtorEq] at ht
      all_goals
        obtain ⟨rfl, rfl⟩ := ht
        exact key (by simp) hacc
    | list op v c =>
      cases c <;> simp only [predTexts, Option.some.injEq, Prod.mk.injEq, reduceCtorEq] at ht
      obtain ⟨rfl, rfl⟩ := ht
      exact key (by simp) hacc
    | _ => cases ht
  | not e ih => exact ih hacc hp
  | and l r ihl ihr | or l r ihl ihr =>
    rcases List.mem_append.1 hp with hp | hp
    · exact ihl hacc.1 hp
    · exact ihr hacc.2 hp

/-- a plain insertion of an expression whose constants are known is accepted -/
theorem known_accepted [Floats] {R : Rounding} {w : World} {q : Req} {n : Nat} {kept : Str → Prop} {base : Config} (s : Steady kept base (numConstants q.expr + n) w) (hn : NamesOK w.tree.cfg)
    (hw : Within w.tree.cfg) (hacc : Accepts w.tree.cfg.domains q.expr) (hlow : LowerStrs q.expr)
    (hsup : ∀ f ∈ caps q.expr, ∃ i, supplied q.consts f.type = some i) (hk : Knows w.tree.cfg q.expr)
    {b : Bool} {t : Tree} (hi : w.tree.insert R q.id q.consts (parseBuild q.expr) = .ok (b, t)) : b = true := by
  have hcaps : (∀ f ∈ caps (parseBuild q.expr), ∃ i, supplied q.consts f.type = some i) := by
    simp only [(caps_parseBuild q.expr).mem_iff]; exact hsup
  have hacc' : Accepts w.tree.cfg.domains (parseBuild q.expr) := (accepts_parseBuild _ _).2 hacc
  have hlim : ∀ {e : Expr}, Accepts w.tree.cfg.domains e → ∀ p ∈ preds e, ∀ a ts, predTexts p = some (a, ts) →
      Limits w.tree.cfg a := by
    intro e he p hp a ts ht
    refine ⟨fun m hm => ?_⟩
    obtain ⟨ty, h1, h2⟩ := texts_strings he hp ht
    unfold strLimit at hm
    split at hm
    · cases hm
    · rename_i d hd
      have hget := domainOf_get hd
      have hty : d.bound.ty = ty := by
        unfold domainOf at hd
        simp only [declaredType, hd, Option.map_some, Option.some.injEq] at h1
        exact h1
      split at hm
      · rename_i k hk
        cases hm
        rw [(knownStrs_table hd).1]
        refine ⟨hw _ _ _ hget (by rw [hty]; exact h2) hk, ?_⟩
        have hok := (s.grown.prune.cfg.doms _ _ hget).ok
        have : ∃ hi, d.bound.lo = .s 0 ∧ d.bound.hi = .s hi ∧ hi < sizeMax := by
          unfold BoundOK at hok
          rcases h2 with e | e <;> rw [hty, e] at hok <;> exact hok
        obtain ⟨hi, _, e2, e3⟩ := this
        rw [hk] at e2
        cases e2
        unfold sizeMax at e3
        omega
      · cases hm
  refine (insert_iff s.grown.len hn (lowerStrs_parse hlow) (hlim hacc') (fun a _ => ?_) hi).2 ⟨?_, ?_, hcaps⟩
  · rw [numConstants_parse]
    have hinv : invalidId = 2 ^ 64 - 1 := rfl
    by_cases ha : tryGetIdForAttr w.tree.cfg a = invalidId
    · have : knownStrs w.tree.cfg a = [] := by
        unfold knownStrs
        split
        · rfl
        · rename_i v hv
          have h1 : tryGetIdForAttr w.tree.cfg a = v := by
            show findAttr (a.map Char.toLower) w.tree.cfg.domains 0 = v
            rw [findAttr_idx, hv]; simp
          have h2 := (List.findIdx?_eq_some_iff_findIdx_eq.1 hv).1
          have := s.grown.len
          omega
      rw [this]
      have := s.strs 0
      simp only [List.length_nil]
      omega
    · rw [(known_tables ha).1]
      have := s.strs (tryGetIdForAttr w.tree.cfg a)
      omega
  · rw [declaredIn_parse]; exact accepts_declared hacc
  · rw [fitsStrs_parse, fits_preds]
    intro p hp a ts m ht hm
    have h1 := ((hlim hacc p hp a ts ht).within m hm).1
    have h2 : ts.filter (fun x => x ∉ knownStrs w.tree.cfg a) = [] := by
      rw [List.filter_eq_nil_iff]
      intro x hx
      have hc := hk.strs (a, x) (texts_consts hp ht x hx)
      have : x ∈ knownStrs w.tree.cfg a := by
        have hne : tryGetIdForAttr w.tree.cfg a ≠ invalidId := by
          obtain ⟨ty, e1, _⟩ := texts_strings hacc hp ht
          simp only [declaredType, Option.map_eq_some_iff] at e1
          obtain ⟨d, e2, _⟩ := e1
          have := (knownStrs_table e2).2
          have := s.grown.len
          omega
        rw [(known_tables hne).1]; exact hc
      simp [this]
    rw [h2]; simpa using h1

/-- the state after the calls `ops`, with room for `n` more constants -/
structure Learned [Floats] (decls : List (Str × Decl × Bool)) (base : Config) (ops : List Op) (n : Nat) (w : World) : Prop where
  steady : Steady (fun _ => False) base n w
  names : NamesOK w.tree.cfg
  within : Within w.tree.cfg
  vars : ∀ (v : Nat) (d : Domain), w.tree.cfg.domains[v]? = some d → d.attr.var = v
  ext : CfgExt base w.tree.cfg
  knows : ∀ e ∈ taught ops, Knows w.tree.cfg e
  poolIds : ∀ p ∈ w.pool, p.2.expr.erase.AllIds
  ids : (w.live.map Req.id).Nodup → ∀ s ∈ w.tree.root.contents, s.expr.erase.AllIds
  pool : w.pool.map (·.1) = built ops
  live : w.live = (placed ops).reverse

theorem knows_of_taught {cfg : Config} {es : List Expr} {e : Expr} (h : ∀ e ∈ es, Knows cfg e) (ht : TaughtBy es e) : Knows cfg e := by
  have hid : ∀ {a b : Str}, a.map Char.toLower = b.map Char.toLower → tryGetIdForAttr cfg a = tryGetIdForAttr cfg b := by
    intro a b hab
    unfold tryGetIdForAttr lowerKey
    rw [hab]
  constructor
  · intro c hc
    obtain ⟨e', he, c', hc', h1, h2⟩ := ht.strs c hc
    rw [← hid h1, ← h2]
    exact (h e' he).strs c' hc'
  · intro c hc hen
    obtain ⟨e', he, c', hc', h1, h2⟩ := ht.ints c hc
    rw [← hid h1] at hen ⊢
    rw [← h2]
    exact (h e' he).ints c' hc' hen

/-- the float attributes are declared as such -/
def FloatsAre [Floats] (ds : List Domain) : Prop := ∀ a : Str, Floats.attr (lowerKey a) → declaredType ds a = some .float

theorem fit_noFloat [Floats] {ds : List Domain} (hF : FloatsAre ds) : ∀ {e : Expr}, Accepts ds e → NoFloat ds e →
    FloatsFit (fun v => Floats.attr (lowerKey v.attr)) e
  | .leaf p, ha, hn => by
    unfold FloatsFit
    split <;> first | trivial | skip
    all_goals
      rename_i e; cases e
    · exact fun h => absurd (hF _ h) (hn _ (by simp [exprNames, predNames]))
    · obtain ⟨t, ht, hd⟩ := ha
      rw [List.mem_singleton.1 ht] at hd
      exact absurd hd (hn _ (by simp [exprNames, predNames]))
    · exact fun h => absurd (hF _ h) (hn _ (by simp [exprNames, predNames]))
    · obtain ⟨t, ht, hd⟩ := ha
      rw [List.mem_singleton.1 ht] at hd
      exact absurd hd (hn _ (by simp [exprNames, predNames]))
  | .not e, ha, hn => by unfold FloatsFit; exact fit_noFloat (e := e) hF ha hn
  | .and l r, ha, hn => by
    unfold FloatsFit
    exact ⟨fit_noFloat hF ha.1 fun n h => hn n (by simp [exprNames, h]), fit_noFloat hF ha.2 fun n h => hn n (by simp [exprNames, h])⟩
  | .or l r, ha, hn => by
    unfold FloatsFit
    exact ⟨fit_noFloat hF ha.1 fun n h => hn n (by simp [exprNames, h]), fit_noFloat hF ha.2 fun n h => hn n (by simp [exprNames, h])⟩

/-- the same limits, and the declared float attributes -/
@[reducible] def floatsOf (F : Floats) (decls : List (Str × Decl × Bool)) : Floats :=
  { F with attr := fun n => ∃ d ∈ decls, d.1 = n ∧ d.2.1.bound.ty = .float }

theorem floatsOf_proper {F : Floats} {decls : List (Str × Decl × Bool)} {d : Str × Decl × Bool} (hm : d ∈ decls)
    (h : @ProperDecl F d.1 d.2.1) : @ProperDecl (floatsOf F decls) d.1 d.2.1 := by
  obtain ⟨n, x, u⟩ := d
  cases x with
  | float a b => exact ⟨⟨_, hm, rfl, rfl⟩, h.2⟩
  | _ => exact h

theorem floatsOf_are {F : Floats} {cap min : Nat} {decls : List (Str × Decl × Bool)} (hn : (decls.map (·.1)).Nodup) :
    @FloatsAre (floatsOf F decls) (makeTree cap min decls).cfg.domains := by
  rintro a ⟨d, hd, h1, h2⟩
  have hmem : ∀ x ∈ (makeTree cap min decls).cfg.domains, x.attr.attr = lowerKey a → x.bound.ty = .float := by
    intro x hx he
    rw [makeTree_domains] at hx
    obtain ⟨i, hi, rfl⟩ := List.mem_mapIdx.1 hx
    have hc := List.inj_on_of_nodup_map hn (List.getElem_mem hi) hd (he.trans h1.symm)
    rw [← hc] at h2
    exact h2
  unfold declaredType
  cases hf : (makeTree cap min decls).cfg.domains.find? (fun d => d.attr.attr = a.map Char.toLower) with
  | none =>
    exfalso
    obtain ⟨i, hi, rfl⟩ := List.getElem_of_mem hd
    have : declDomain i decls[i] ∈ (makeTree cap min decls).cfg.domains := by
      rw [makeTree_domains]; exact List.mem_mapIdx.2 ⟨i, hi, rfl⟩
    have := List.find?_eq_none.1 hf _ this
    exact this (decide_eq_true h1)
  | some x =>
    have hx : x.attr.attr = a.map Char.toLower := by simpa using List.find?_some hf
    rw [Option.map_some, hmem x (List.mem_of_find?_eq_some hf) hx]

theorem learned_step [Floats] {R : Rounding} (hR : Sane R) {decls : List (Str × Decl × Bool)} {base : Config} {ops : List Op} {n : Nat} {w : World}
    {o : Op} (s : Learned decls base ops (opConstants o + n) w) (ho : TrainedOp decls base.domains o)
    (hF : FloatsAre base.domains) (ht : ∀ q, o = .insert q → TaughtBy (taught ops) q.expr) :
    ∃ w', w.step R o = .ok w' ∧ Learned decls base (ops ++ [o]) n w' := by
  have hstatic : StaticOp w.tree.cfg.domains o := by
    cases o with
    | insert q => exact ⟨(fitting_ext s.ext _).2 ho.fitting, (specialTyped_ext s.ext _).2 ho.special⟩
    | makeSub q =>
      exact ⟨(usable_ext s.ext _).2 ho.1.fitting.usable, ⟨ho.1.fitting.moderate, fit_noFloat hF ho.1.fitting.accepts ho.1.noFloat⟩, ho.2⟩
    | insertSub k => trivial
    | changeBoundaries e => exact ⟨(fitting_ext s.ext _).2 ho.1, ho.2.2.1, fit_noFloat hF ho.1.accepts ho.2.2.2.2⟩
  have hkept : FloatOp (fun _ => False) base.domains o := by
    cases o with
    | insert q => exact noFloat_kept (kept := fun _ => False) ho.noFloat
    | makeSub q => exact ⟨noFloat_kept ho.1.noFloat, keeps_none⟩
    | insertSub k => trivial
    | changeBoundaries e => exact keeps_none
  obtain ⟨w', hw, st⟩ := steady_step hR s.steady hstatic hkept
  have hx := step_ext hw
  have hroom : MakesRoom w.tree.cfg.domains o := by
    cases o with
    | insert q => trivial
    | makeSub q => exact ⟨(accepts_ext s.ext _).2 ho.1.fitting.accepts, (specialTyped_ext s.ext _).2 ho.1.special, ho.1.supplied⟩
    | insertSub k => trivial
    | changeBoundaries e => exact ⟨(accepts_ext s.ext _).2 ho.1.accepts, (specialTyped_ext s.ext _).2 ho.2.1⟩
  have hlow : LowerOp o := by
    cases o with
    | insert q => exact ho.lower
    | makeSub q => exact ho.1.lower
    | insertSub k => trivial
    | changeBoundaries e => exact ho.2.2.2.1
  have hsm : Small w'.tree.cfg :=
    ⟨Nat.le_of_lt st.grown.len, fun v => by have := st.strs v; omega, fun v => by have := st.ints v; omega⟩
  have hwi := step_within s.steady.grown.tables s.steady.grown.len s.vars hroom hsm.strs s.within hw
  have hkn : ∀ e ∈ taught ops, Knows w'.tree.cfg e := fun e he => (s.knows e he).ext hx
  have add : ∀ {cfg : Config} {q : Req} {sb : Sub} {root' : CNode}, sb.id = q.id → sb.expr.erase.AllIds →
      w.tree.root.insert R cfg sb = .ok root' → ((q :: w.live).map Req.id).Nodup → ∀ t ∈ root'.contents, t.expr.erase.AllIds := by
    intro cfg q sb root' hid ha hins hnd
    simp only [List.map_cons, List.nodup_cons] at hnd
    have hids : (w.tree.root.contents.map Sub.id).Perm (w.live.map Req.id) := by
      obtain ⟨ps, h1, h2, h3⟩ := s.steady.grown.traced.stored hnd.2
      rw [← h1, List.map_map]
      refine (h2.map Sub.id).trans ?_
      rw [List.map_map]
      apply List.Perm.of_eq
      exact List.map_congr_left fun p hp => (h3 p hp).id
    have hnd2 : ((sb :: w.tree.root.contents).map Sub.id).Nodup := by
      rw [List.map_cons, List.nodup_cons, hid]
      exact ⟨fun hm => hnd.1 (hids.mem_iff.1 hm), hids.nodup_iff.2 hnd.2⟩
    intro t ht
    rcases List.mem_cons.1 ((CNode.insert_contents hnd2 hins).mem_iff.1 ht) with rfl | ht
    · exact ha
    · exact s.ids hnd.2 t ht
  have hpl : ∀ l : List Req, placedFrom (built ops) [o] = l → placed (ops ++ [o]) = placed ops ++ l := by
    intro l hl
    unfold placed
    rw [placedFrom_append, List.nil_append, hl]
  refine ⟨w', hw, ?_⟩
  cases o with
  | insert q =>
    have hk : Knows w.tree.cfg q.expr := knows_of_taught s.knows (ht q rfl)
    simp only [World.step] at hw
    cases hi : w.tree.insert R q.id q.consts (parseBuild q.expr) with
    | error x => rw [hi] at hw; cases hw
    | ok r =>
      obtain ⟨b, t⟩ := r
      have hb : b = true := known_accepted (n := n) s.steady s.names s.within ((accepts_ext s.ext _).2 ho.fitting.accepts) ho.lower ho.supplied hk hi
      subst hb
      rw [hi] at hw
      cases hw
      have hstep : w.step R (.insert q) = .ok { w with tree := t, live := q :: w.live } := by simp only [World.step, hi]
      have hnames := step_names s.names hlow hstep
      refine ⟨st, hnames, hwi, (ext_doms hx s.vars).1, s.ext.trans hx, by rw [taught_append]; simpa [taught] using hkn, s.poolIds, ?_, ?_, ?_⟩
      · unfold Tree.insert at hi
        cases hprep : prepareInsert w.tree.cfg q.id q.consts (parseBuild q.expr) with
        | error x => rw [hprep] at hi; cases hi
        | ok r =>
          obtain ⟨o, cfg⟩ := r
          rw [hprep] at hi
          cases o with
          | none => cases hi
          | some sb =>
            dsimp only at hi
            cases hins : w.tree.root.insert R cfg sb with
            | error x => rw [hins] at hi; cases hi
            | ok root' =>
              rw [hins] at hi
              cases hi
              exact add (prepareInsert_res hprep).1 (insert_known ho.supported.inRange hk hsm hprep) hins
      · rw [built_append]; simpa [built] using s.pool
      · rw [hpl [q] rfl, List.reverse_append]
        show q :: w.live = _
        rw [s.live]; rfl
  | makeSub q =>
    have hnames := step_names s.names hlow hw
    simp only [World.step] at hw
    cases hm : w.tree.makeSub q.id q.consts (parseBuild q.expr) with
    | error x => rw [hm] at hw; cases hw
    | ok r =>
      obtain ⟨o, t⟩ := r
      have hsome := (C28_make_sub_iff _ _ _ _ _ _ s.steady.grown.len hm).2 ⟨hroom.1, hroom.2.2⟩
      cases o with
      | none => cases hsome
      | some sb =>
        rw [hm] at hw
        cases hw
        have hroot := makeSub_api_root hm
        refine ⟨st, hnames, hwi, (ext_doms hx s.vars).1, s.ext.trans hx, ?_, ?_, by dsimp only; rw [hroot]; exact s.ids, ?_, ?_⟩
        · rw [taught_append]
          intro e he
          rcases List.mem_append.1 he with he | he
          · exact hkn e he
          · simp only [taught, List.mem_singleton] at he
            subst he
            exact makeSub_knows hm
        · intro p hp
          rcases List.mem_append.1 hp with hp | hp
          · exact s.poolIds p hp
          · simp only [List.mem_singleton] at hp
            subst hp
            exact makeSub_ids (inRange_parse ho.1.supported.inRange) hsm hm
        · rw [built_append, List.map_append, s.pool]; rfl
        · rw [hpl [] rfl, List.append_nil]; exact s.live
  | insertSub k =>
    have hnames := step_names s.names hlow hw
    simp only [World.step, Tree.insertSub] at hw
    have hbk : (built ops)[k]? = (w.pool[k]?).map (·.1) := by rw [← s.pool, List.getElem?_map]
    cases hk : w.pool[k]? with
    | none =>
      simp only [hk] at hw
      cases hw
      refine ⟨st, hnames, hwi, (ext_doms hx s.vars).1, s.ext.trans hx, by rw [taught_append]; simpa [taught] using hkn, s.poolIds, s.ids, ?_, ?_⟩
      · rw [built_append]; simpa [built] using s.pool
      · rw [hpl [] (by simp [placedFrom, hbk, hk]), List.append_nil]; exact s.live
    | some p =>
      obtain ⟨q, sb⟩ := p
      simp only [hk] at hw
      cases hins : w.tree.root.insert R w.tree.cfg sb with
      | error x => simp only [hins] at hw; cases hw
      | ok root' =>
        simp only [hins] at hw
        cases hw
        have hmem := List.mem_of_getElem? hk
        refine ⟨st, hnames, hwi, (ext_doms hx s.vars).1, s.ext.trans hx, by rw [taught_append]; simpa [taught] using hkn, s.poolIds, ?_, ?_, ?_⟩
        · exact add (s.steady.grown.traced.pool (q, sb) hmem).id (s.poolIds (q, sb) hmem) hins
        · rw [built_append]; simpa [built] using s.pool
        · rw [hpl [q] (by simp [placedFrom, hbk, hk]), List.reverse_append]
          show q :: w.live = _
          rw [s.live]; rfl
  | changeBoundaries e =>
    have hnames := step_names s.names hlow hw
    simp only [World.step] at hw
    cases hcb : w.tree.changeBoundaries (parseBuild e) with
    | error x => simp only [hcb] at hw; cases hw
    | ok t =>
      simp only [hcb] at hw
      cases hw
      refine ⟨st, hnames, hwi, (ext_doms hx s.vars).1, s.ext.trans hx, ?_, s.poolIds, by dsimp only; rw [changeBoundaries_root hcb]; exact s.ids, ?_, ?_⟩
      · rw [taught_append]
        intro e' he
        rcases List.mem_append.1 he with he | he
        · exact hkn e' he
        · simp only [taught, List.mem_singleton] at he
          subst he
          exact changeBoundaries_knows hcb
      · rw [built_append]; simpa [built] using s.pool
      · rw [hpl [] rfl, List.append_nil]; exact s.live

theorem learned_run [Floats] {R : Rounding} (hR : Sane R) {decls : List (Str × Decl × Bool)} {base : Config} (hF : FloatsAre base.domains) : ∀ {post pre : List Op} {w : World},
    Learned decls base pre (opsConstants post) w → (∀ o ∈ post, TrainedOp decls base.domains o) → TaughtFirst (pre ++ post) →
    ∃ w', w.run R post = .ok w' ∧ Learned decls base (pre ++ post) 0 w' := by
  intro post
  induction post with
  | nil => intro pre w s _ _; exact ⟨w, rfl, by rw [List.append_nil]; exact s⟩
  | cons o os ih =>
    intro pre w s ho ht
    obtain ⟨w1, h1, s1⟩ := learned_step hR s (ho o List.mem_cons_self) hF (fun q hq => ht pre q os (by rw [hq]))
    rw [show pre ++ o :: os = (pre ++ [o]) ++ os by simp] at ht ⊢
    obtain ⟨w', h', s'⟩ := ih s1 (fun x hx => ho x (List.mem_cons_of_mem _ hx)) ht
    exact ⟨w', by simp only [World.run, h1, h'], s'⟩

theorem placed_trained {decls : List (Str × Decl × Bool)} {ds : List Domain} {ops : List Op} (ho : ∀ o ∈ ops, TrainedOp decls ds o) :
    ∀ q ∈ placed ops, TrainedReq decls ds q := by
  have key : ∀ {ops : List Op} {b : List Req}, (∀ o ∈ ops, TrainedOp decls ds o) → (∀ q ∈ b, TrainedReq decls ds q) →
      ∀ q ∈ placedFrom b ops, TrainedReq decls ds q := by
    intro ops
    induction ops with
    | nil => intro b _ _ q hq; cases hq
    | cons o os ih =>
      intro b ho hb q hq
      have h0 := ho o List.mem_cons_self
      have hos : ∀ o ∈ os, TrainedOp decls ds o := fun x hx => ho x (List.mem_cons_of_mem _ hx)
      cases o with
      | insert x =>
        rcases List.mem_cons.1 hq with rfl | hq
        · exact h0
        · exact ih hos hb q hq
      | makeSub x =>
        refine ih hos (fun y hy => ?_) q hq
        rcases List.mem_append.1 hy with hy | hy
        · exact hb y hy
        · simp only [List.mem_singleton] at hy; subst hy; exact h0.1
      | insertSub k =>
        rcases List.mem_append.1 hq with hq | hq
        · exact hb q (List.mem_of_getElem? (by simpa using hq))
        · exact ih hos hb q hq
      | changeBoundaries e => exact ih hos hb q hq
  exact key ho (fun q hq => by cases hq)

/-- the tree after calls that teach it its constants first -/
theorem taught_learned [F : Floats] {R : Rounding} (hR : Sane R) {cap min : Nat} {decls : List (Str × Decl × Bool)}
    {ops : List Op} (hcap : cap % 256 ≠ 0) (hd : ∀ d ∈ decls, OrdinaryDecl d) (hnames : (decls.map (·.1)).Nodup)
    (hsize : decls.length + opsConstants ops < 2 ^ 64 - 1)
    (ho : ∀ o ∈ ops, TrainedOp decls (makeTree cap min decls).cfg.domains o) (ht : TaughtFirst ops) :
    ∃ w, (World.init (makeTree cap min decls)).run R ops = .ok w ∧
      @Learned (floatsOf F decls) decls (makeTree cap min decls).cfg ops 0 w := by
  replace hd : ∀ d ∈ decls, @OrdinaryDecl (floatsOf F decls) d := fun d h =>
    @OrdinaryDecl.mk (floatsOf F decls) d (floatsOf_proper h (hd d h).proper) (hd d h).mid (hd d h).positive (hd d h).lower
  let _ : Floats := floatsOf F decls
  have hF : FloatsAre (makeTree cap min decls).cfg.domains := floatsOf_are hnames
  have hprop : ∀ d ∈ decls, ProperDecl d.1 d.2.1 := fun d h => @OrdinaryDecl.proper (floatsOf F decls) d (hd d h)
  have s0 : Learned decls (makeTree cap min decls).cfg [] (opsConstants ops) (World.init (makeTree cap min decls)) := by
    refine ⟨steady_init (fun _ => False) cap min decls _ hcap (fun d h => ⟨hprop d h, @OrdinaryDecl.mid (floatsOf F decls) d (hd d h), @OrdinaryDecl.lower (floatsOf F decls) d (hd d h)⟩) hsize, makeTree_names cap min decls,
      ?_, ?_, CfgExt.refl _, fun e he => (by cases he), fun p hp => (by cases hp), fun _ s hs => ?_, rfl, rfl⟩
    · intro v d n _ _ _
      show (strTable (makeTree cap min decls).cfg v).length ≤ _
      rw [makeTree_table]; simp
    · intro v d h
      replace h : (makeTree cap min decls).cfg.domains[v]? = some d := h
      rw [makeTree_domains, List.getElem?_mapIdx] at h
      cases hx : decls[v]? with
      | none => rw [hx] at h; cases h
      | some x => rw [hx] at h; cases h; rfl
    · simp [World.init, makeTree, emptyCNode, CNode.contents, PNodes.contents] at hs
  obtain ⟨w, h, s⟩ := learned_run (pre := []) hR hF s0 ho ht
  rw [List.nil_append] at s
  exact ⟨w, h, s⟩

/-- **C56**: a tree that is taught the constants first is totally correct.  Declare attributes; then, in any order and number,
build subscriptions (`betree_make_sub`), insert subscriptions built before (`betree_insert_sub`), widen limits
(`betree_change_boundaries`) and insert requests plainly (`betree_insert`), the latter after the calls that teach the tree their constants.
Every call returns; every subscription is built; every insertion is accepted; and any search with a well-typed event returns, fails if the
event leaves a mandatory attribute out, and otherwise adds to the report exactly the ids of the requests in the tree that are true on
the event, each once.  The conditions speak of declarations, calls and events alone. -/
theorem C56_taught_tree_correct [F : Floats] (geo : GeoTest) (R : Rounding) (hR : Sane R) (cap min : Nat) (decls : List (Str × Decl × Bool))
    (ops : List Op) (hcap : cap % 256 ≠ 0) (hd : ∀ d ∈ decls, OrdinaryDecl d) (hnames : (decls.map (·.1)).Nodup)
    (hsize : decls.length + opsConstants ops < 2 ^ 64 - 1)
    (ho : ∀ o ∈ ops, TrainedOp decls (makeTree cap min decls).cfg.domains o) (ht : TaughtFirst ops)
    (hids : ((placed ops).map Req.id).Nodup) :
    ∃ w, (World.init (makeTree cap min decls)).run R ops = .ok w ∧ w.pool.map (·.1) = built ops ∧ w.live = (placed ops).reverse ∧
      ∀ ev, WellTyped (makeTree cap min decls).cfg.domains ev → EventInRange ev → ∀ rep,
        ((∃ d ∈ decls, d.2.2 = false ∧ ¬ sets ev d.1) → w.tree.search geo ev rep = .ok none) ∧
        ((∀ d ∈ decls, d.2.2 = false → sets ev d.1) →
          ∃ rep' ids, w.tree.search geo ev rep = .ok (some rep') ∧ rep'.subs = rep.subs ++ ids ∧ ids.Nodup ∧
            ∀ id, id ∈ ids ↔ ∃ q ∈ placed ops, q.id = id ∧ sat geo (constants q.consts) (eventOf ev) q.expr) := by
  obtain ⟨w, h, s⟩ := taught_learned hR (cap := cap) (min := min) hcap hd hnames hsize ho ht
  replace hd : ∀ d ∈ decls, @OrdinaryDecl (floatsOf F decls) d := fun d h =>
    @OrdinaryDecl.mk (floatsOf F decls) d (floatsOf_proper h (hd d h).proper) (hd d h).mid (hd d h).positive (hd d h).lower
  let _ : Floats := floatsOf F decls
  have hF : FloatsAre (makeTree cap min decls).cfg.domains := floatsOf_are hnames
  have hprop : ∀ d ∈ decls, ProperDecl d.1 d.2.1 := fun d h => @OrdinaryDecl.proper (floatsOf F decls) d (hd d h)
  refine ⟨w, h, s.pool, s.live, fun ev hev hrange rep => ?_⟩
  have hx := s.ext
  have hsm : Small w.tree.cfg := ⟨Nat.le_of_lt s.steady.grown.len, s.steady.strs, s.steady.ints⟩
  have hidl : (w.live.map Req.id).Nodup := by rw [s.live, List.map_reverse]; exact (List.reverse_perm _).nodup_iff.2 hids
  have hmem : ∀ q, q ∈ w.live ↔ q ∈ placed ops := fun q => by rw [s.live, List.mem_reverse]
  have hreq : ∀ q ∈ placed ops, TrainedReq decls (makeTree cap min decls).cfg.domains q := placed_trained ho
  have hmod : ∀ o ∈ ops, ModerateOp o := fun o hm => by
    have := ho o hm
    cases o with
    | insert q => trivial
    | makeSub q => exact ⟨this.1.fitting.moderate, fit_noFloat hF this.1.fitting.accepts this.1.noFloat⟩
    | insertSub k => trivial
    | changeBoundaries e => exact ⟨this.1.moderate, fit_noFloat hF this.1.accepts this.2.2.2.2⟩
  have hso : Sound decls ops w := by
    refine ⟨hprop, hmod, hsm, s.steady.grown.len, hidl, fun q hm => ?_, fun q hm => ?_, fun q hm => ?_⟩
    · exact (hreq q ((hmem q).1 hm)).supported.clocked
    · exact (accepts_ext hx _).2 (hreq q ((hmem q).1 hm)).fitting.accepts
    · exact (specialTyped_ext hx _).2 (hreq q ((hmem q).1 hm)).special
  have hwt : WellTyped w.tree.cfg.domains ev := by
    intro v hv
    obtain ⟨t, h1, h2⟩ := hev v hv
    exact ⟨t, by rw [declaredType_ext hx]; exact h1, h2⟩
  obtain ⟨env, _, _, henv, _⟩ := hso.walk (geo := geo) h hwt
  have hattrs : w.tree.cfg.domains.map (fun d => (d.attr.attr, d.allowUndefined)) = decls.map (fun d => (d.1, d.2.2)) := by
    have h1 := congrArg (List.map fun x : AttrVar × VType × Bool => (x.1.attr, x.2.2)) hx.doms
    simp only [List.map_map] at h1
    rw [show (fun d : Domain => (d.attr.attr, d.allowUndefined)) = (fun x : AttrVar × VType × Bool => (x.1.attr, x.2.2)) ∘
      (fun d : Domain => (d.attr, d.bound.ty, d.allowUndefined)) from rfl, h1, makeTree_domains]
    apply List.ext_getElem?
    intro i
    simp only [List.getElem?_map, List.getElem?_mapIdx]
    cases decls[i]? <;> rfl
  have hnd : (w.tree.cfg.domains.map (fun d => d.attr.attr)).Nodup := by
    have h1 := congrArg (List.map Prod.fst) hattrs
    simp only [List.map_map] at h1
    rw [show (fun d : Domain => d.attr.attr) = Prod.fst ∘ (fun d : Domain => (d.attr.attr, d.allowUndefined)) from rfl, h1]
    exact hnames
  have hmand : (∃ d ∈ w.tree.cfg.domains, d.allowUndefined = false ∧ ¬ Spec.sets ev d.attr.attr) ↔
      ∃ d ∈ decls, d.2.2 = false ∧ ¬ sets ev d.1 := by
    have key : ∀ P : Str × Bool → Prop, (∃ d ∈ w.tree.cfg.domains, P (d.attr.attr, d.allowUndefined)) ↔ ∃ d ∈ decls, P (d.1, d.2.2) := by
      intro P
      have h1 : (∃ x ∈ w.tree.cfg.domains.map (fun d => (d.attr.attr, d.allowUndefined)), P x) ↔
          ∃ x ∈ decls.map (fun d => (d.1, d.2.2)), P x := by rw [hattrs]
      simpa only [List.mem_map, exists_exists_and_eq_and] using h1
    exact key fun x => x.2 = false ∧ ¬ sets ev x.1
  obtain ⟨hm1, hm2⟩ := C07_mandatory_variables geo w.tree ev rep hnd henv
  refine ⟨fun hx => hm1 (hmand.2 hx), fun hall => ?_⟩
  have hx' : ¬ ∃ d ∈ w.tree.cfg.domains, d.allowUndefined = false ∧ ¬ Spec.sets ev d.attr.attr := by
    rw [hmand]; rintro ⟨d, h1, h2, h3⟩; exact h3 (hall d h1 h2)
  obtain ⟨r, hr⟩ := C29_search_returns_partial geo R cap min decls _ w h hso ev hwt rep
  rcases hm2 hx' with ⟨x, he⟩ | ⟨rep', hs⟩
  · rw [hr] at he; cases he
  · have hpr : ∀ q ∈ w.live, Prunable decls w.tree.cfg ev q := by
      intro q hm
      have := hreq q ((hmem q).1 hm)
      exact ⟨this.supported, boundSafe_mono (fun _ _ => trivial) this.safe, floatFree_separated hnd hwt (noFloat_free fun n hn => by
        rw [declaredType_ext hx]; exact this.noFloat n hn)⟩
    obtain ⟨ids, a1, a2, a3⟩ := search_exact s.steady.grown.traced hidl s.steady.grown.prune s.steady.grown.tables hsm hx (s.ids hidl) hrange hpr hs
    refine ⟨rep', ids, hs, a1, a2, fun id => ?_⟩
    rw [a3]
    simp only [hmem]

/-! ### with texts -/

/-- the text of a call has fewer than `n` characters -/
def Spec.TextShorter (n : Nat) : TextOp → Prop
  | .insert q => q.text.length < n
  | .makeSub q => q.text.length < n
  | .insertSub _ => True
  | .changeBoundaries text => text.length < n

theorem text_step {R : Rounding} {tw : TextWorld} {w w' : World} (hs : SameWorld tw w) {op : TextOp} {o : Op} (ho : OpSays op o)
    (hl : TextShorter 1990 op) (h : w.step R o = .ok w') : ∃ tw', tw.step R op = .ok tw' ∧ SameWorld tw' w' := by
  cases ho with
  | @insert q q' hq =>
    have hp := parseText_short hl hq.expr
    simp only [World.step] at h
    simp only [TextWorld.step, Tree.insertText, hp, hs.tree, hq.id, hq.consts]
    split at h
    · cases h
    · rename_i t ht
      cases h
      rw [ht]
      exact ⟨{ tw with tree := t, live := q :: tw.live }, rfl, ⟨rfl, hs.pool, .cons hq hs.live⟩⟩
    · rename_i t ht
      cases h
      rw [ht]
      exact ⟨{ tw with tree := t }, rfl, ⟨rfl, hs.pool, hs.live⟩⟩
  | @makeSub q q' hq =>
    have hp := parseText_short hl hq.expr
    simp only [World.step] at h
    simp only [TextWorld.step, Tree.makeSubText, hp, hs.tree, hq.id, hq.consts]
    split at h
    · cases h
    · rename_i sb t ht
      cases h
      rw [ht]
      exact ⟨{ tw with tree := t, pool := tw.pool ++ [(q, sb)] }, rfl, ⟨rfl, forall₂_snoc hs.pool ⟨hq, rfl⟩, hs.live⟩⟩
    · rename_i t ht
      cases h
      rw [ht]
      exact ⟨{ tw with tree := t }, rfl, ⟨rfl, hs.pool, hs.live⟩⟩
  | insertSub k =>
    simp only [World.step] at h
    simp only [TextWorld.step]
    rcases forall₂_getElem? hs.pool k with ⟨h1, h2⟩ | ⟨a, b, h1, h2, h3, h4⟩
    · simp only [h2] at h
      cases h
      simp only [h1]
      exact ⟨tw, rfl, hs⟩
    · simp only [h2] at h
      simp only [h1, hs.tree, h4]
      split at h
      · cases h
      · rename_i t ht
        cases h
        rw [ht]
        exact ⟨{ tw with tree := t, live := a.1 :: tw.live }, rfl, ⟨rfl, hs.pool, .cons h3 hs.live⟩⟩
  | @changeBoundaries text e he =>
    have hp := parseText_short hl he
    simp only [World.step] at h
    simp only [TextWorld.step, Tree.changeBoundariesText, hp, hs.tree]
    split at h
    · cases h
    · rename_i t ht
      cases h
      rw [ht]
      exact ⟨{ tw with tree := t }, rfl, ⟨rfl, hs.pool, hs.live⟩⟩

theorem text_run {R : Rounding} {tops : List TextOp} {ops : List Op} (hs : List.Forall₂ OpSays tops ops) :
    ∀ {tw : TextWorld} {w w' : World}, SameWorld tw w → (∀ o ∈ tops, TextShorter 1990 o) → w.run R ops = .ok w' →
      ∃ tw', tw.run R tops = .ok tw' ∧ SameWorld tw' w' := by
  induction hs with
  | nil => intro tw w w' hs _ h; cases h; exact ⟨tw, rfl, hs⟩
  | cons ho _ ih =>
    intro tw w w' hs hl h
    simp only [World.run] at h
    split at h
    · cases h
    · rename_i w1 h1
      obtain ⟨tw1, a1, a2⟩ := text_step hs ho (hl _ List.mem_cons_self) h1
      obtain ⟨tw', b1, b2⟩ := ih a2 (fun o hm => hl o (List.mem_cons_of_mem _ hm)) h
      exact ⟨tw', by simp only [TextWorld.run, a1, b1], b2⟩

/-- C56, from texts to the report: the same with texts shorter than 1990 characters that say such expressions, and a text that says the
event. -/
theorem C56_taught_texts_correct [Floats] (geo : GeoTest) (R : Rounding) (hR : Sane R) (cap min : Nat) (decls : List (Str × Decl × Bool))
    (tops : List TextOp) (ops : List Op) (hs : List.Forall₂ OpSays tops ops) (hlen : ∀ o ∈ tops, TextShorter 1990 o)
    (hcap : cap % 256 ≠ 0) (hd : ∀ d ∈ decls, OrdinaryDecl d) (hnames : (decls.map (·.1)).Nodup)
    (hsize : decls.length + opsConstants ops < 2 ^ 64 - 1)
    (ho : ∀ o ∈ ops, TrainedOp decls (makeTree cap min decls).cfg.domains o) (ht : TaughtFirst ops)
    (hids : ((placed ops).map Req.id).Nodup) :
    ∃ w, (TextWorld.init (makeTree cap min decls)).run R tops = .ok w ∧ List.Forall₂ ReqSays w.live (placed ops).reverse ∧
      ∀ text ev, SaysEvent text ev → WellTyped (makeTree cap min decls).cfg.domains ev → EventInRange ev → ∀ rep,
        ((∃ d ∈ decls, d.2.2 = false ∧ ¬ sets ev d.1) → w.tree.searchText geo text rep = .ok none) ∧
        ((∀ d ∈ decls, d.2.2 = false → sets ev d.1) →
          ∃ rep' ids, w.tree.searchText geo text rep = .ok (some rep') ∧ rep'.subs = rep.subs ++ ids ∧ ids.Nodup ∧
            ∀ id, id ∈ ids ↔ ∃ q ∈ w.live, q.id = id ∧ ∃ e, Says q.text e ∧ sat geo (constants q.consts) (eventOf ev) e) := by
  obtain ⟨w, h, _, hlive, hall⟩ := C56_taught_tree_correct geo R hR cap min decls ops hcap hd hnames hsize ho ht hids
  obtain ⟨tw, h1, h2⟩ := text_run hs (init_same _) hlen h
  have hl : List.Forall₂ ReqSays tw.live (placed ops).reverse := by rw [← hlive]; exact h2.live
  refine ⟨tw, h1, hl, fun text ev hev hwt hr rep => ?_⟩
  rw [(C46_readable_event geo tw.tree text ev hev rep).1, h2.tree]
  obtain ⟨a1, a2⟩ := hall ev hwt hr rep
  refine ⟨a1, fun hx => ?_⟩
  obtain ⟨rep', ids, b1, b2, b3, b4⟩ := a2 hx
  refine ⟨rep', ids, b1, b2, b3, fun id => ?_⟩
  rw [b4]
  constructor
  · rintro ⟨q, hm, rfl, hsat⟩
    obtain ⟨q0, hq0, hsay⟩ := forall₂_mem_right hl (List.mem_reverse.2 hm)
    exact ⟨q0, hq0, hsay.id, q.expr, hsay.expr, by rw [hsay.consts]; exact hsat⟩
  · rintro ⟨q0, hm, rfl, e, he, hsat⟩
    obtain ⟨q, hq, hsay⟩ := forall₂_mem_left hl hm
    refine ⟨q, List.mem_reverse.1 hq, hsay.id.symm, ?_⟩
    rw [says_unique hsay.expr he, ← hsay.consts]
    exact hsat

/-! ### a concrete case -/

/-- a check of `TaughtFirst` on given lists -/
def taughtCheck (es : List Expr) : List Op → Bool
  | [] => true
  | .insert q :: os =>
    (strConsts q.expr).all (fun c => es.any fun e => (strConsts e).any fun d => d.1.map Char.toLower = c.1.map Char.toLower && d.2 = c.2) &&
    (enumConsts q.expr).all (fun c => es.any fun e => (enumConsts e).any fun d => d.1.map Char.toLower = c.1.map Char.toLower && d.2 = c.2) &&
    taughtCheck es os
  | .makeSub q :: os => taughtCheck (es ++ [q.expr]) os
  | .changeBoundaries e :: os => taughtCheck (es ++ [e]) os
  | .insertSub _ :: os => taughtCheck es os

theorem taught_of_check {ops : List Op} (h : taughtCheck [] ops = true) : TaughtFirst ops := by
  have key : ∀ {post : List Op} {es : List Expr}, taughtCheck es post = true → ∀ pre q rest, post = pre ++ .insert q :: rest →
      TaughtBy (es ++ taught pre) q.expr := by
    intro post
    induction post with
    | nil => intro es _ pre q rest h; cases pre <;> cases h
    | cons o os ih =>
      intro es h pre q rest hp
      cases pre with
      | nil =>
        simp only [List.nil_append, List.cons.injEq] at hp
        obtain ⟨rfl, rfl⟩ := hp
        simp only [taughtCheck, Bool.and_eq_true, List.all_eq_true, List.any_eq_true, decide_eq_true_eq] at h
        rw [show es ++ taught [] = es from List.append_nil _]
        exact ⟨h.1.1, h.1.2⟩
      | cons x xs =>
        simp only [List.cons_append, List.cons.injEq] at hp
        obtain ⟨rfl, rfl⟩ := hp
        cases o with
        | insert y => exact ih (by simp only [taughtCheck, Bool.and_eq_true] at h; exact h.2) xs q rest rfl
        | makeSub y => have := ih (es := es ++ [y.expr]) h xs q rest rfl; rwa [List.append_assoc] at this
        | insertSub k => exact ih (es := es) h xs q rest rfl
        | changeBoundaries e => have := ih (es := es ++ [e]) h xs q rest rfl; rwa [List.append_assoc] at this
  intro pre q post hp
  have := key h pre q post hp
  rwa [List.nil_append] at this

/-- A tree with room for two strings of `s` and one namespace of `fc` is taught four strings and two namespaces; `i` gets numbers beyond
its limits; then come subscriptions built before and plain insertions, into leaves of capacity 1. -/
def taughtOps : List Op :=
  [.changeBoundaries (.or (exS "a") (.or (exS "b") (exS "c"))), .changeBoundaries (exI .lt 1000),
   .changeBoundaries (.and (nsCap "x") (.or (nsCap "y") (exE 77))), .insert ⟨1, [], exI .lt 3⟩,
   .makeSub ⟨2, [], .and (exI .gt 7) (exS "d")⟩, .insert ⟨3, [], .or (exS "d") (.not (exS "b"))⟩, .insertSub 0,
   .insert ⟨4, [⟨"flight_id".toList, .int 3⟩], .and (nsCap "y") (exI .gt 5)⟩, .insert ⟨5, [], .and (exE 77) (exI .ge 500)⟩,
   .insert ⟨6, [], .and (exIL [3, 400]) (.or (exS "b") (exI .gt 2))⟩, .makeSub ⟨7, [], .or exSegPred (.not (exI .gt 900))⟩, .insertSub 1,
   .insert ⟨8, [], .and (exStrPred "s") (exI .lt 9)⟩]

/-- for the examples: the limits are binary fractions with few digits -/
local instance trainedFloats : Floats := coarseFloats fun _ => True

theorem taughtOps_trained : ∀ o ∈ taughtOps, TrainedOp plainDecls plainDomains o := by
  have di : declaredType plainDomains ['i'] = some .int := by decide +kernel
  have ds : declaredType plainDomains ['s'] = some .string := by decide +kernel
  have de : declaredType plainDomains ['e'] = some .intEnum := by decide +kernel
  have dil : declaredType plainDomains ['i', 'l'] = some .intList := by decide +kernel
  have dn : declaredType plainDomains ['n', 'o', 'w'] = some .int := by decide +kernel
  have dfc : declaredType plainDomains ['f', 'c'] = some .freq := by decide +kernel
  have dsg : declaredType plainDomains ['s', 'e', 'g'] = some .segments := by decide +kernel
  have hnow := plain_now
  generalize plainDomains = D at *
  intro o ho
  simp only [taughtOps, List.mem_cons, List.not_mem_nil, or_false] at ho
  rcases ho with rfl | rfl | rfl | rfl | rfl | rfl | rfl | rfl | rfl | rfl | rfl | rfl | rfl <;>
    (first
      | exact trivial
      | (refine (?_ : TrainedReq _ _ _); refine ⟨?_, ?_, ?_, ?_, ⟨?_, ?_, ?_, ?_⟩, ?_, ?_⟩)
      | (refine (?_ : TrainedReq _ _ _ ∧ _); refine ⟨⟨?_, ?_, ?_, ?_, ⟨?_, ?_, ?_, ?_⟩, ?_, ?_⟩, ?_⟩)
      | (refine (?_ : Fitting _ _ ∧ _); refine ⟨?_, ?_, ?_, ?_, ?_⟩)) <;>
    simp [fitting_iff, exI, exS, exE, exIL, nsCap, exSegPred, exStrPred, Accepts, AcceptsPred, Is, Known, Usable, UsablePred, Moderate,
      ModInt, int64Min, int64Max, SpecialTyped, SpecialTypedPred, caps, supplied, exNow, Expr.InRange, Pred.InRange, ConstantsInRange, Clocked, ShortSafe, BoundSafe,
      LowerStrs, strAttrs, predStrAttrs, Mid, MidPred, MidInt, NoFloat, exprNames, predNames, di, ds, de, dil, dn, dfc, dsg] <;>
    first | exact hnow | exact ⟨_, rfl⟩

/-- the theorem, applied: nothing is left to assume -/
example : ∃ w rep' ids, (World.init (makeTree 1 0 plainDecls)).run exactRounding taughtOps = .ok w ∧ w.pool.map (·.1.id) = [2, 7] ∧
    w.live.map Req.id = [8, 7, 6, 5, 4, 2, 3, 1] ∧ w.tree.search exGeo typedEvent .empty = .ok (some rep') ∧ rep'.subs = ids ∧ ids.Nodup ∧
    ∀ id, id ∈ ids ↔ ∃ q ∈ placed taughtOps, q.id = id ∧ sat exGeo (constants q.consts) (eventOf typedEvent) q.expr := by
  obtain ⟨w, h, hp, hl, hall⟩ := C56_taught_tree_correct exGeo exactRounding exactRounding_sane 1 0 plainDecls taughtOps (by decide)
    plainDecls_ordinary (by decide +kernel) (by decide +kernel) taughtOps_trained (taught_of_check (by decide +kernel)) (by decide)
  obtain ⟨_, hall⟩ := hall typedEvent typedEvent_plain typedEvent_inRange .empty
  obtain ⟨rep', ids, h1, h2, h3, h4⟩ := hall (by
    intro d hd hm
    simp only [plainDecls, List.mem_cons, List.not_mem_nil, or_false] at hd
    rcases hd with rfl | rfl | rfl | rfl | rfl | rfl | rfl | rfl | rfl | rfl | rfl <;> first | (cases hm; done) | (simp [sets, typedEvent]; decide))
  refine ⟨w, rep', ids, h, ?_, by rw [hl]; decide, h1, by rw [h2]; rfl, h3, h4⟩
  have : w.pool.map (·.1.id) = (w.pool.map (·.1)).map Req.id := by rw [List.map_map]; rfl
  rw [this, hp]
  decide

/-- what that search reports -/
example : searchIds 1 plainDecls taughtOps typedEvent = some [3, 8, 4, 7] := by decide +kernel

/-- the same from texts -/
def taughtTexts : List TextOp :=
  [.changeBoundaries "s = 'a'".toList, .insert (textReq 1 "i < 3"), .makeSub (textReq 2 "not (i > 9)"), .insertSub 0,
   .insert (textReq 3 "s = 'a'")]
def taughtTextOps : List Op :=
  [.changeBoundaries (tS "a"), .insert ⟨1, [], tI .lt 3⟩, .makeSub ⟨2, [], .not (tI .gt 9)⟩, .insertSub 0, .insert ⟨3, [], tS "a"⟩]

theorem taughtTexts_say : List.Forall₂ OpSays taughtTexts taughtTextOps := by
  have h := plainTexts_say
  simp only [plainTexts, plainTextReqs] at h
  obtain ⟨h1, h2, h3, -⟩ : ReqSays (textReq 1 "i < 3") ⟨1, [], tI .lt 3⟩ ∧ ReqSays (textReq 2 "not (i > 9)") ⟨2, [], .not (tI .gt 9)⟩ ∧
      ReqSays (textReq 3 "s = 'a'") ⟨3, [], tS "a"⟩ ∧ True := by
    cases h with | cons a h => cases h with | cons b h => cases h with | cons c h => exact ⟨a, b, c, trivial⟩
  exact .cons (.changeBoundaries h3.expr) (.cons (.insert h1) (.cons (.makeSub h2) (.cons (.insertSub 0) (.cons (.insert h3) .nil))))

theorem taughtTexts_short : ∀ o ∈ taughtTexts, TextShorter 1990 o := by
  intro o ho
  simp only [taughtTexts, List.mem_cons, List.not_mem_nil, or_false] at ho
  rcases ho with rfl | rfl | rfl | rfl | rfl <;> simp [TextShorter, textReq]

theorem taughtTextOps_trained : ∀ o ∈ taughtTextOps, TrainedOp plainDecls plainDomains o := by
  have di : declaredType plainDomains ['i'] = some .int := by decide +kernel
  have ds : declaredType plainDomains ['s'] = some .string := by decide +kernel
  generalize plainDomains = D at *
  intro o ho
  simp only [taughtTextOps, List.mem_cons, List.not_mem_nil, or_false] at ho
  rcases ho with rfl | rfl | rfl | rfl | rfl <;>
    (first
      | exact trivial
      | (refine (?_ : TrainedReq _ _ _); refine ⟨?_, ?_, ?_, ?_, ⟨?_, ?_, ?_, ?_⟩, ?_, ?_⟩)
      | (refine (?_ : TrainedReq _ _ _ ∧ _); refine ⟨⟨?_, ?_, ?_, ?_, ⟨?_, ?_, ?_, ?_⟩, ?_, ?_⟩, ?_⟩)
      | (refine (?_ : Fitting _ _ ∧ _); refine ⟨?_, ?_, ?_, ?_⟩)) <;>
    simp [fitting_iff, tI, tS, named, quoted, Accepts, AcceptsPred, Is, Usable, UsablePred, Moderate,
      ModInt, int64Min, int64Max, SpecialTyped, SpecialTypedPred, caps, Expr.InRange, Pred.InRange, ConstantsInRange, Clocked, ShortSafe,
      BoundSafe, LowerStrs, strAttrs, predStrAttrs, Mid, MidPred, MidInt, NoFloat, exprNames, predNames, di, ds]

/-- all hypotheses are met -/
example : ∃ w rep' ids, (TextWorld.init (makeTree 1 0 plainDecls)).run exactRounding taughtTexts = .ok w ∧
    w.tree.searchText exGeo plainText .empty = .ok (some rep') ∧ rep'.subs = ids ∧ ids.Nodup ∧
    ∀ id, id ∈ ids ↔ ∃ q ∈ w.live, q.id = id ∧ ∃ e, Says q.text e ∧ sat exGeo (constants q.consts) (eventOf plainTextVars) e := by
  obtain ⟨w, h, _, hall⟩ := C56_taught_texts_correct exGeo exactRounding exactRounding_sane 1 0 plainDecls taughtTexts taughtTextOps
    taughtTexts_say taughtTexts_short (by decide) plainDecls_ordinary (by decide +kernel) (by decide +kernel) taughtTextOps_trained
    (taught_of_check (by decide +kernel)) (by decide)
  have hwt : WellTyped plainDomains plainTextVars := by
    intro v hv
    simp only [plainTextVars, List.mem_cons, List.not_mem_nil, or_false] at hv
    rcases hv with rfl | rfl | rfl
    · exact ⟨.int, by decide +kernel, trivial⟩
    · exact ⟨.int, by decide +kernel, trivial⟩
    · exact ⟨.string, by decide +kernel, trivial⟩
  have hir : EventInRange plainTextVars := by
    intro v hv l hl
    simp only [plainTextVars, List.mem_cons, List.not_mem_nil, or_false] at hv
    rcases hv with rfl | rfl | rfl <;> cases hl
  obtain ⟨_, hall⟩ := hall plainText plainTextVars plainText_says hwt hir .empty
  obtain ⟨rep', ids, h1, h2, h3, h4⟩ := hall (by
    intro d hd hm
    simp only [plainDecls, List.mem_cons, List.not_mem_nil, or_false] at hd
    rcases hd with rfl | rfl | rfl | rfl | rfl | rfl | rfl | rfl | rfl | rfl | rfl <;>
      first | (cases hm; done) | (simp [sets, plainTextVars]; decide))
  exact ⟨w, rep', ids, h, h1, by rw [h2]; rfl, h3, h4⟩

/-- Why the constants are taught first: the attribute `s` has room for two strings, so that a plain insertion of a third is refused.  When
the tree was taught `c` before, that string is not the one to be refused. -/
theorem C56_untaught_refused :
    acceptedIds plainDecls [.insert ⟨1, [], exS "a"⟩, .insert ⟨2, [], exS "b"⟩, .insert ⟨3, [], exS "c"⟩] = some [2, 1] ∧
    acceptedIds plainDecls [.changeBoundaries (exS "c"), .insert ⟨1, [], exS "a"⟩, .insert ⟨2, [], exS "b"⟩, .insert ⟨3, [], exS "c"⟩] =
      some [3, 1] := by
  decide +kernel

end BeTree
