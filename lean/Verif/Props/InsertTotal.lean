import Verif.Lemmas.Static
import Verif.Lemmas.Kept
import Verif.Lemmas.Cuts
import Verif.Props.Capacity
/-
C23: insertion returns.
-/
namespace BeTree
open Spec

theorem usable_ext {a b : Config} (h : CfgExt a b) (e : Expr) : Usable b.domains e ↔ Usable a.domains e := by
  induction e with
  | leaf p =>
    cases p with
    | set op l r => cases l <;> cases r <;> exact Iff.rfl
    | list op v c => cases c <;> exact Iff.rfl
    | geo g => simp only [Usable, UsablePred, known_ext h]
    | _ => exact Iff.rfl
  | not e ih => exact ih
  | and l r ihl ihr | or l r ihl ihr => simp only [Usable, ihl, ihr]

theorem fitting_ext {a b : Config} (h : CfgExt a b) (e : Expr) : Fitting b.domains e ↔ Fitting a.domains e :=
  ⟨fun ⟨x, y, z⟩ => ⟨(accepts_ext h e).1 x, (usable_ext h e).1 y, z⟩, fun ⟨x, y, z⟩ => ⟨(accepts_ext h e).2 x, (usable_ext h e).2 y, z⟩⟩

/-- what is known of a world reached by a history -/
structure Grown [Floats] (P : Nat → Prop) (w : World) : Prop where
  prune : PruneOK w
  shape : w.tree.root.Sh P
  traced : w.Traced
  stems : w.Stems
  tables : TablesOK w.tree.cfg
  len : w.tree.cfg.domains.length < invalidId
  cap : w.tree.cfg.lnodeMaxCap ≠ 0

theorem Grown.step [Floats] {P : Nat → Prop} {R : Rounding} {w w' : World} {o : Op} (g : Grown P w) (hP : FineDoms P w.tree.cfg)
    (hP' : FineDoms P w'.tree.cfg) (hs : Small w'.tree.cfg) (hm : ModerateOp o)
    (h : w.step R o = .ok w') : Grown P w' :=
  have hx := step_ext h
  ⟨(step_prune g.prune g.tables hs hm h).1, step_sh g.prune hP hP' g.shape h, (step_traced g.traced h).1,
    step_stems g.prune g.traced g.stems h, hx.ok g.tables,
    by rw [show w'.tree.cfg.domains.length = w.tree.cfg.domains.length by simpa using congrArg List.length hx.doms]; exact g.len,
    by rw [hx.cap]; exact g.cap⟩

theorem Grown.init [Floats] {P : Nat → Prop} {cap min : Nat} {decls : List (Str × Decl × Bool)} (hd : ∀ d ∈ decls, ProperDecl d.1 d.2.1) (hc : cap % 256 ≠ 0)
    (hlen : (makeTree cap min decls).cfg.domains.length < invalidId) : Grown P (World.init (makeTree cap min decls)) :=
  ⟨makeTree_cfgOK hd, init_sh P cap min decls, init_traced cap min decls,
    fun s hs => by simp [World.init, makeTree, emptyCNode, CNode.contents, PNodes.contents] at hs,
    makeTree_tablesOK cap min decls, hlen, by rw [show (World.init (makeTree cap min decls)).tree.cfg.lnodeMaxCap = cap % 256 from makeTree_cap ..]; exact hc⟩

theorem Grown.run [Floats] {R : Rounding} : ∀ {ops : List Op} {w w' : World}, Grown (fun _ => False) w → Small w'.tree.cfg → (∀ o ∈ ops, ModerateOp o) →
    w.run R ops = .ok w' → Grown (fun _ => False) w' := by
  intro ops
  induction ops with
  | nil => intro w w' g _ _ h; cases h; exact g
  | cons o os ih =>
    intro w w' g hs hm h
    simp only [World.run] at h
    split at h
    · cases h
    · rename_i w1 h1
      exact ih (g.step fineDoms_none fineDoms_none (Small.of_ext (run_ext h) hs) (hm o List.mem_cons_self) h1) hs (fun o ho => hm o (List.mem_cons_of_mem _ ho)) h

theorem Grown.place [Floats] {P : Nat → Prop} {R : Rounding} (hR : Sane R) {w : World} (g : Grown P w) {cfg : Config} (hx : Later w.tree.cfg cfg)
    (hc : CfgOK cfg) (hw : Wider w.tree.cfg cfg) (hd : cfg.domains = w.tree.cfg.domains) (hcap : cfg.lnodeMaxCap = w.tree.cfg.lnodeMaxCap)
    (hn : NarrowCfg w.tree.cfg) (hP : CopesDoms P w.tree.cfg)
    (hl : ∀ q ∈ w.live, Fitting w.tree.cfg.domains q.expr ∧ FloatsIn P w.tree.cfg q.expr)
    {q : Req} {s : Sub} (hm : Made cfg q s) (hq : Fitting w.tree.cfg.domains q.expr ∧ FloatsIn P w.tree.cfg q.expr) :
    ∃ c', w.tree.root.insert R cfg s = .ok c' := by
  have hlen : cfg.domains.length < invalidId := by rw [hd]; exact g.len
  simp only [FloatsIn, tryGetIdForAttr] at hq hl
  rw [← hd] at hq hl
  refine CNode.insert_total hR hc.doms (by unfold NarrowCfg; rw [hd]; exact hn) (P := P) (by unfold CopesDoms; rw [hd]; exact hP) (by rw [hcap]; exact g.cap)
    (hm.fit hlen hq.1 hq.2) (g.prune.root.wider hw) g.shape fun t ht => ?_
  obtain ⟨q', hq', hm'⟩ := g.stems t ht
  exact (hm'.later hx).fit hlen (hl q' hq').1 (hl q' hq').2

/-- what C23 asks of a call, in the world it is made in -/
def OpFits (P : Nat → Prop) (w : World) : Op → Prop
  | .insert q => Fitting w.tree.cfg.domains q.expr ∧ FloatsIn P w.tree.cfg q.expr ∧ SpecialTyped w.tree.cfg.domains q.expr ∧
      LowerNames w.tree.cfg.domains
  | .makeSub q => Usable w.tree.cfg.domains q.expr ∧ Moderate q.expr
  | .insertSub k => ∀ q s, w.pool[k]? = some (q, s) → Fitting w.tree.cfg.domains q.expr ∧ FloatsIn P w.tree.cfg q.expr
  | .changeBoundaries e => Fitting w.tree.cfg.domains e

theorem Grown.step_total [Floats] {P : Nat → Prop} {R : Rounding} (hR : Sane R) {w : World} (g : Grown P w) (hn : NarrowCfg w.tree.cfg)
    (hP : CopesDoms P w.tree.cfg)
    (hl : ∀ q ∈ w.live, Fitting w.tree.cfg.domains q.expr ∧ FloatsIn P w.tree.cfg q.expr) {o : Op} (ho : OpFits P w o) :
    ∃ w', w.step R o = .ok w' := by
  cases o with
  | insert q =>
    obtain ⟨hq, hf, hs, hlow⟩ := ho
    obtain ⟨g1, g2, _⟩ := usable_parse hq.usable
    obtain ⟨⟨o, cfg⟩, hp⟩ := prepareInsert_total (id := q.id) (cs := q.consts) (e := parseBuild q.expr) g.len g.prune.cfg g.traced.pm
      hlow ((accepts_parseBuild _ _).2 hq.accepts) g1 g2 (specialTyped_parse hs)
    cases o with
    | none => (simp only [World.step, Tree.insert, hp]; exact ⟨_, rfl⟩)
    | some s =>
      obtain ⟨c, wd⟩ := prepareInsert_cfgOK g.prune.cfg hp
      obtain ⟨lt, hs⟩ := prepareInsert_later g.traced.pm hp
      obtain ⟨s1, s2, s3⟩ := hs s rfl
      obtain ⟨r1, r2⟩ := prepareInsert_res hp
      obtain ⟨c', hi⟩ := g.place hR lt c wd (prepareInsert_domains hp) (prepareInsert_ext hp).cap hn hP hl ⟨r1, r2, s1, s2, s3⟩ ⟨hq, hf⟩
      (simp only [World.step, Tree.insert, hp, hi]; exact ⟨_, rfl⟩)
  | makeSub q =>
    obtain ⟨⟨o, t⟩, h⟩ := makeSub_total (t := w.tree) (id := q.id) (cs := q.consts) g.len g.prune.cfg g.traced.pm (usable_parse ho.1)
      (moderate_parse ho.2)
    cases o <;> (simp only [World.step, h]; exact ⟨_, rfl⟩)
  | insertSub k =>
    cases hk : w.pool[k]? with
    | none => (simp only [World.step, hk]; exact ⟨_, rfl⟩)
    | some p =>
      obtain ⟨q, s⟩ := p
      obtain ⟨c', hi⟩ := g.place hR (Later.refl _) g.prune.cfg (Wider.refl _) rfl rfl hn hP hl (g.traced.pool (q, s) (List.mem_of_getElem? hk)) (ho q s hk)
      (simp only [World.step, hk, Tree.insertSub, hi]; exact ⟨_, rfl⟩)
  | changeBoundaries e =>
    obtain ⟨t, h⟩ := changeBoundaries_api_total (t := w.tree) g.len g.prune.cfg ((accepts_parseBuild _ _).2 ho.accepts) (usable_parse ho.usable)
      (moderate_parse ho.moderate)
    (simp only [World.step, h]; exact ⟨_, rfl⟩)

theorem init_len {R : Rounding} {cap min : Nat} {decls : List (Str × Decl × Bool)} {ops : List Op} {w : World}
    (h : (World.init (makeTree cap min decls)).run R ops = .ok w) :
    (makeTree cap min decls).cfg.domains.length = w.tree.cfg.domains.length := by
  have := congrArg List.length (run_ext h).doms
  simp only [List.length_map] at this
  exact this.symm

/-- C23 for the two-step way, one call: after any history, inserting a subscription that `betree_make_sub` built returns: no abort,
no undefined behaviour, and restructuring ends. -/
theorem C23_insert_sub_returns_partial [Floats] (R : Rounding) (hR : Sane R) (cap min : Nat) (decls : List (Str × Decl × Bool)) (ops : List Op)
    (w : World) (h : (World.init (makeTree cap min decls)).run R ops = .ok w) (hcap : cap % 256 ≠ 0)
    (hd : ∀ d ∈ decls, ProperDecl d.1 d.2.1) (hlen : w.tree.cfg.domains.length < invalidId) (ho : ∀ o ∈ ops, ModerateOp o)
    (hs : Small w.tree.cfg) (hn : NarrowCfg w.tree.cfg)
    (hl : ∀ q ∈ w.live, Fitting w.tree.cfg.domains q.expr ∧ FloatFree w.tree.cfg.domains q.expr)
    (k : Nat) (q : Req) (s : Sub) (hk : w.pool[k]? = some (q, s))
    (hq : Fitting w.tree.cfg.domains q.expr ∧ FloatFree w.tree.cfg.domains q.expr) : ∃ t, w.tree.insertSub R s = .ok t := by
  have g := (Grown.init hd hcap (by rw [init_len h]; exact hlen)).run hs ho h
  obtain ⟨c', hi⟩ := g.place hR (Later.refl _) g.prune.cfg (Wider.refl _) rfl rfl hn (fun _ _ h => h.elim)
    (fun q hq => ⟨(hl q hq).1, floatFree_in g.len (hl q hq).2⟩) (g.traced.pool (q, s) (List.mem_of_getElem? hk))
    ⟨hq.1, floatFree_in g.len hq.2⟩
  simp only [Tree.insertSub, hi]
  exact ⟨_, rfl⟩

/-- C23 for `betree_insert_with_constants`, one call. -/
theorem C23_insert_returns_partial [Floats] (R : Rounding) (hR : Sane R) (cap min : Nat) (decls : List (Str × Decl × Bool)) (ops : List Op)
    (w : World) (h : (World.init (makeTree cap min decls)).run R ops = .ok w) (hcap : cap % 256 ≠ 0)
    (hd : ∀ d ∈ decls, ProperDecl d.1 d.2.1) (hlen : w.tree.cfg.domains.length < invalidId) (ho : ∀ o ∈ ops, ModerateOp o)
    (hs : Small w.tree.cfg) (hn : NarrowCfg w.tree.cfg)
    (hl : ∀ q ∈ w.live, Fitting w.tree.cfg.domains q.expr ∧ FloatFree w.tree.cfg.domains q.expr) (q : Req)
    (hq : Fitting w.tree.cfg.domains q.expr ∧ FloatFree w.tree.cfg.domains q.expr) (hsp : SpecialTyped w.tree.cfg.domains q.expr)
    (hlow : LowerNames w.tree.cfg.domains) : ∃ b t, w.tree.insert R q.id q.consts (parseBuild q.expr) = .ok (b, t) := by
  have g := (Grown.init hd hcap (by rw [init_len h]; exact hlen)).run hs ho h
  obtain ⟨w', hw⟩ := g.step_total hR hn (fun _ _ h => h.elim) (fun q hq => ⟨(hl q hq).1, floatFree_in g.len (hl q hq).2⟩)
    (o := .insert q) ⟨hq.1, floatFree_in g.len hq.2, hsp, hlow⟩
  simp only [World.step] at hw
  cases hi : w.tree.insert R q.id q.consts (parseBuild q.expr) with
  | error x => rw [hi] at hw; cases hw
  | ok r => exact ⟨r.1, r.2, rfl⟩

/-! ### whole histories -/

theorem noFloat_ext {a b : Config} (h : CfgExt a b) (e : Expr) : NoFloat b.domains e ↔ NoFloat a.domains e := by
  simp only [NoFloat, declaredType_ext h]

theorem noFloat_free {ds : List Domain} {e : Expr} (h : NoFloat ds e) : FloatFree ds e := by
  intro n hn d hd _ hf
  exact h n hn (by simp only [declaredType, hd, Option.map_some, hf])

theorem lowerNames_ext {a b : Config} (h : CfgExt a b) (hl : LowerNames a.domains) : LowerNames b.domains := by
  intro d hd
  have : (d.attr, d.bound.ty, d.allowUndefined) ∈ b.domains.map (fun d => (d.attr, d.bound.ty, d.allowUndefined)) :=
    List.mem_map_of_mem (f := fun d : Domain => (d.attr, d.bound.ty, d.allowUndefined)) hd
  rw [h.doms] at this
  obtain ⟨d', h1, h2⟩ := List.mem_map.1 this
  simp only [Prod.mk.injEq] at h2
  rw [← h2.1]
  exact hl d' h1

theorem staticOp_ext [Floats] {a b : Config} (h : CfgExt a b) {o : Op} (ho : StaticOp a.domains o) : StaticOp b.domains o := by
  cases o with
  | insert q => exact ⟨(fitting_ext h _).2 ho.1, (specialTyped_ext h _).2 ho.2⟩
  | makeSub q => exact ⟨(usable_ext h _).2 ho.1, ho.2.1, ho.2.2⟩
  | insertSub k => trivial
  | changeBoundaries e => exact ⟨(fitting_ext h _).2 ho.1, ho.2⟩

/-- the state of a history all of whose calls are `StaticOp`s and `FloatOp`s, with room for `n` more constants -/
structure Steady [Floats] (kept : Str → Prop) (cfg0 : Config) (n : Nat) (w : World) : Prop where
  ext : CfgExt cfg0 w.tree.cfg
  same : KeptSame kept cfg0.domains w.tree.cfg
  grown : Grown (KeptAt kept cfg0.domains) w
  mid : MidCfg w.tree.cfg
  low : LowerNames w.tree.cfg.domains
  live : ∀ q ∈ w.live, Fitting w.tree.cfg.domains q.expr ∧ FloatsKept kept cfg0.domains q.expr
  pool : ∀ p ∈ w.pool, Fitting w.tree.cfg.domains p.1.expr ∧ FloatsKept kept cfg0.domains p.1.expr
  strs : ∀ v, (strTable w.tree.cfg v).length + n < invalidId
  ints : ∀ v, (intTable w.tree.cfg v).length + n < invalidId

theorem Steady.len0 [Floats] {kept : Str → Prop} {cfg0 : Config} {n : Nat} {w : World} (s : Steady kept cfg0 n w) :
    cfg0.domains.length < invalidId := by
  have := congrArg List.length s.ext.doms
  simp only [List.length_map] at this
  rw [← this]; exact s.grown.len

/-- the calls leave the float attributes in `kept` as they are -/
theorem keptSame_step [Floats] {R : Rounding} {kept : Str → Prop} {cfg0 : Config} {n : Nat} {w w' : World} {o : Op} (s : Steady kept cfg0 n w)
    (hf : FloatOp kept cfg0.domains o) (hw : w.step R o = .ok w') : KeptSame kept cfg0.domains w'.tree.cfg := by
  intro j d hj hk ht
  have h0 := s.same j d hj hk ht
  have hat := s.grown.prune.cfg.doms j d h0
  obtain ⟨x, y, hb⟩ : ∃ x y, d.bound = ⟨.float, .f x, .f y⟩ := by
    obtain ⟨k1, k2⟩ := hat.ok.kind
    obtain ⟨at', ⟨ty, lo, hi⟩, al⟩ := d
    dsimp only at ht k1 k2
    subst ht
    cases lo <;> cases hi <;> first | exact ⟨_, _, rfl⟩ | (cases k1; done) | (cases k2; done)
  cases o with
  | insert q =>
    have key : ∀ {b : Bool} {t : Tree}, w.tree.insert R q.id q.consts (parseBuild q.expr) = .ok (b, t) → t.cfg.domains = w.tree.cfg.domains := by
      intro b t h
      unfold Tree.insert at h
      split at h
      · cases h
      · rename_i h1; cases h; exact prepareInsert_domains h1
      · rename_i h1
        split at h
        · cases h
        · cases h; exact prepareInsert_domains h1
    simp only [World.step] at hw
    split at hw
    · cases hw
    · rename_i h1; cases hw; rw [key h1]; exact h0
    · rename_i h1; cases hw; rw [key h1]; exact h0
  | makeSub q =>
    have hK := keeps_asks s.ext s.len0 hf.2 hj hk hb
    simp only [World.step] at hw
    split at hw
    · cases hw
    · rename_i h1; cases hw; exact makeSub_kept h1 h0 hat.var hb hK
    · rename_i h1; cases hw; exact makeSub_kept h1 h0 hat.var hb hK
  | insertSub k =>
    simp only [World.step] at hw
    split at hw
    · cases hw; exact h0
    · simp only [Tree.insertSub] at hw
      split at hw
      · cases hw
      · rename_i h1
        split at h1
        · cases h1
        · cases h1; cases hw; exact h0
  | changeBoundaries e =>
    have hK := keeps_asks s.ext s.len0 hf hj hk hb
    simp only [World.step] at hw
    split at hw
    · cases hw
    · rename_i h1; cases hw; exact changeBoundaries_api_kept h1 h0 hat.var hb hK

theorem steady_step [Floats] {R : Rounding} (hR : Sane R) {kept : Str → Prop} {cfg0 : Config} {n : Nat} {w : World} {o : Op}
    (s : Steady kept cfg0 (opConstants o + n) w) (ho : StaticOp w.tree.cfg.domains o) (hf : FloatOp kept cfg0.domains o) :
    ∃ w', w.step R o = .ok w' ∧ Steady kept cfg0 n w' := by
  have hin : ∀ {e : Expr}, FloatsKept kept cfg0.domains e → FloatsIn (KeptAt kept cfg0.domains) w.tree.cfg e :=
    fun h => floatsKept_in s.ext s.len0 h
  have hfits : OpFits (KeptAt kept cfg0.domains) w o := by
    cases o with
    | insert q => exact ⟨ho.1, hin hf, ho.2, s.low⟩
    | makeSub q => exact ⟨ho.1, ho.2.1.1⟩
    | insertSub k =>
      intro q sb hk
      have := s.pool (q, sb) (List.mem_of_getElem? hk)
      exact ⟨this.1, hin this.2⟩
    | changeBoundaries e => exact ho.1
  obtain ⟨w', hw⟩ := s.grown.step_total hR s.mid.narrow s.same.copes (fun q hq => ⟨(s.live q hq).1, hin (s.live q hq).2⟩) hfits
  have hx := step_ext hw
  have hsame := keptSame_step s hf hw
  have hmod : ModerateOp o := by
    cases o with
    | insert q => trivial
    | makeSub q => exact ho.2.1
    | insertSub k => trivial
    | changeBoundaries e => exact ⟨ho.1.moderate, ho.2.2⟩
  have hstat : Gains (opConstants o) (opConstants o) w.tree.cfg w'.tree.cfg ∧ MidCfg w'.tree.cfg := by
    cases o with
    | insert q =>
      have key : ∀ {b : Bool} {t : Tree}, w.tree.insert R q.id q.consts (parseBuild q.expr) = .ok (b, t) →
          Gains (numConstants q.expr) (numConstants q.expr) w.tree.cfg t.cfg ∧ MidCfg t.cfg := by
        intro b t h
        unfold Tree.insert at h
        have k2 : ∀ {o : Option Sub} {cfg : Config}, prepareInsert w.tree.cfg q.id q.consts (parseBuild q.expr) = .ok (o, cfg) →
            Gains (numConstants q.expr) (numConstants q.expr) w.tree.cfg cfg ∧ MidCfg cfg := by
          intro o cfg h
          have g := prepareInsert_gains h
          rw [numConstants_parse] at g
          exact ⟨g, by unfold MidCfg; rw [prepareInsert_domains h]; exact s.mid⟩
        split at h
        · cases h
        · rename_i h1; cases h; exact k2 h1
        · rename_i h1
          split at h
          · cases h
          · cases h; exact k2 h1
      simp only [World.step] at hw
      split at hw
      · cases hw
      · rename_i h1; cases hw; exact key h1
      · rename_i h1; cases hw; exact key h1
    | makeSub q =>
      simp only [World.step] at hw
      have hm := (all_parse (mid_all.1 ho.2.2))
      split at hw
      · cases hw
      · rename_i h1
        cases hw
        have := makeSub_static h1 hm s.mid
        rw [numConstants_parse] at this
        exact this
      · rename_i h1
        cases hw
        have := makeSub_static h1 hm s.mid
        rw [numConstants_parse] at this
        exact this
    | insertSub k =>
      simp only [World.step] at hw
      split at hw
      · cases hw; exact ⟨Gains.refl _ _ _, s.mid⟩
      · simp only [Tree.insertSub] at hw
        split at hw
        · cases hw
        · rename_i h1
          split at h1
          · cases h1
          · cases h1; cases hw; exact ⟨Gains.refl _ _ _, s.mid⟩
    | changeBoundaries e =>
      simp only [World.step] at hw
      split at hw
      · cases hw
      · rename_i h1
        cases hw
        have := changeBoundaries_static h1 (all_parse (mid_all.1 ho.2.1)) s.mid
        rw [numConstants_parse] at this
        exact this
  have hstrs : ∀ v, (strTable w'.tree.cfg v).length + n < invalidId := fun v => by
    have := s.strs v; have := hstat.1.strs v; omega
  have hints : ∀ v, (intTable w'.tree.cfg v).length + n < invalidId := fun v => by
    have := s.ints v; have := hstat.1.ints v; omega
  have hlen' : w'.tree.cfg.domains.length = w.tree.cfg.domains.length := by simpa using congrArg List.length hx.doms
  have hsm : Small w'.tree.cfg :=
    ⟨by rw [hlen']; exact Nat.le_of_lt s.grown.len, fun v => by have := hstrs v; omega, fun v => by have := hints v; omega⟩
  refine ⟨w', hw, s.ext.trans hx, hsame, s.grown.step (s.same.copes.fine s.grown.prune.cfg.doms) (hsame.copes.fine (step_prune s.grown.prune s.grown.tables hsm hmod hw).1.cfg.doms) hsm hmod hw, hstat.2, lowerNames_ext hx s.low, ?_, ?_, hstrs, hints⟩
  all_goals
    have hl : ∀ q ∈ w.live, Fitting w'.tree.cfg.domains q.expr ∧ FloatsKept kept cfg0.domains q.expr := fun q hq =>
      ⟨(fitting_ext hx _).2 (s.live q hq).1, (s.live q hq).2⟩
    have hp : ∀ p ∈ w.pool, Fitting w'.tree.cfg.domains p.1.expr ∧ FloatsKept kept cfg0.domains p.1.expr := fun p hq =>
      ⟨(fitting_ext hx _).2 (s.pool p hq).1, (s.pool p hq).2⟩
    cases o with
    | insert q =>
      simp only [World.step] at hw
      split at hw
      · cases hw
      · cases hw
        first
          | exact hp
          | (intro x hx'
             rcases List.mem_cons.1 hx' with rfl | hx'
             · exact ⟨(fitting_ext hx _).2 ho.1, hf⟩
             · exact hl x hx')
      · cases hw; first | exact hl | exact hp
    | makeSub q =>
      simp only [World.step] at hw
      split at hw
      · cases hw
      · rename_i h1
        cases hw
        first
          | exact hl
          | (intro p hpm
             rcases List.mem_append.1 hpm with hpm | hpm
             · exact hp p hpm
             · simp only [List.mem_singleton] at hpm
               subst hpm
               exact ⟨(fitting_ext hx _).2 ⟨((C28_make_sub_iff _ _ _ _ _ _ s.grown.len h1).1 rfl).1, ho.1, ho.2.1.1⟩,
                 hf.1⟩)
      · cases hw; first | exact hl | exact hp
    | insertSub k =>
      simp only [World.step] at hw
      split at hw
      · cases hw; first | exact hl | exact hp
      · rename_i q sb hk
        split at hw
        · cases hw
        · cases hw
          first
            | exact hp
            | (intro x hx'
               rcases List.mem_cons.1 hx' with rfl | hx'
               · exact hp _ (List.mem_of_getElem? hk)
               · exact hl x hx')
    | changeBoundaries e =>
      simp only [World.step] at hw
      split at hw
      · cases hw
      · cases hw; first | exact hl | exact hp

theorem steady_init [Floats] (kept : Str → Prop) (cap min : Nat) (decls : List (Str × Decl × Bool)) (n : Nat)
    (hcap : cap % 256 ≠ 0) (hd : ∀ d ∈ decls, ProperDecl d.1 d.2.1 ∧ MidDecl d.2.1 ∧ d.1.map Char.toLower = d.1)
    (hsize : decls.length + n < 2 ^ 64 - 1) :
    Steady kept (makeTree cap min decls).cfg n (World.init (makeTree cap min decls)) := by
  obtain ⟨h1, h2, h3, h4⟩ : (makeTree cap min decls).cfg.domains.length = decls.length ∧ MidCfg (makeTree cap min decls).cfg ∧
      LowerNames (makeTree cap min decls).cfg.domains ∧ (makeTree cap min decls).cfg.stringMaps = [] ∧
        (makeTree cap min decls).cfg.intMaps = [] := by
    have : ∀ (ds : List (Str × Decl × Bool)) (cfg : Config), (∀ d ∈ ds, MidDecl d.2.1 ∧ d.1.map Char.toLower = d.1) → MidCfg cfg →
        LowerNames cfg.domains →
        (ds.foldl (fun cfg d => declare cfg d.1 d.2.1 d.2.2) cfg).domains.length = cfg.domains.length + ds.length ∧
        MidCfg (ds.foldl (fun cfg d => declare cfg d.1 d.2.1 d.2.2) cfg) ∧
        LowerNames (ds.foldl (fun cfg d => declare cfg d.1 d.2.1 d.2.2) cfg).domains ∧
        (ds.foldl (fun cfg d => declare cfg d.1 d.2.1 d.2.2) cfg).stringMaps = cfg.stringMaps ∧
        (ds.foldl (fun cfg d => declare cfg d.1 d.2.1 d.2.2) cfg).intMaps = cfg.intMaps := by
      intro ds
      induction ds with
      | nil => intro cfg _ hm hl; exact ⟨rfl, hm, hl, rfl, rfl⟩
      | cons d ds ih =>
        intro cfg hd hm hl
        have hd0 := hd d List.mem_cons_self
        have hb : MidBound d.2.1.bound := by
          obtain ⟨nm, dc, al⟩ := d
          replace hd0 := hd0.1
          have w : ∀ {k : Int}, MidInt k → MidScalar (.i k) := midInt_scalar
          cases dc with
          | int a b | intList a b =>
            exact ⟨fun x hx => (by cases hx; exact hd0.1.imp_right w), fun x hx => (by cases hx; exact hd0.2.imp_right w)⟩
          | _ => exact ⟨fun x hx => (by cases hx), fun x hx => (by cases hx)⟩
        obtain ⟨a1, a2, a3, a4, a5⟩ := ih (declare cfg d.1 d.2.1 d.2.2) (fun x hx => hd x (List.mem_cons_of_mem _ hx))
          (by
            intro x hx
            simp only [declare, addDomain, List.mem_append, List.mem_singleton] at hx
            rcases hx with hx | rfl
            · exact hm x hx
            · exact hb)
          (by
            intro x hx
            simp only [declare, addDomain, List.mem_append, List.mem_singleton] at hx
            rcases hx with hx | rfl
            · exact hl x hx
            · exact hd0.2)
        refine ⟨?_, a2, a3, a4, a5⟩
        rw [List.foldl_cons, a1]
        simp [declare, addDomain]; omega
    obtain ⟨a1, a2, a3, a4, a5⟩ := this decls (makeConfig cap min) (fun d h => (hd d h).2) (by intro d hd; cases hd) (by intro d hd; cases hd)
    exact ⟨by simpa [makeTree, makeConfig] using a1, a2, a3, a4, a5⟩
  have t1 : ∀ v, strTable (makeTree cap min decls).cfg v = [] := fun v => by unfold strTable; rw [h4.1]; rfl
  have t2 : ∀ v, intTable (makeTree cap min decls).cfg v = [] := fun v => by unfold intTable; rw [h4.2]; rfl
  have hinv : invalidId = 2 ^ 64 - 1 := rfl
  refine ⟨CfgExt.refl _, fun _ _ h _ _ => h, Grown.init (fun d h => (hd d h).1) hcap (by rw [h1, hinv]; omega), h2, h3, fun q hq => (by cases hq),
    fun q hq => (by cases hq), fun v => ?_, fun v => ?_⟩
  · show (strTable (makeTree cap min decls).cfg v).length + _ < _
    rw [t1, hinv]; simp only [List.length_nil]; omega
  · show (intTable (makeTree cap min decls).cfg v).length + _ < _
    rw [t2, hinv]; simp only [List.length_nil]; omega

theorem history_steady [Floats] (R : Rounding) (hR : Sane R) (kept : Str → Prop) (cap min : Nat) (decls : List (Str × Decl × Bool)) (ops : List Op)
    (hcap : cap % 256 ≠ 0) (hd : ∀ d ∈ decls, ProperDecl d.1 d.2.1 ∧ MidDecl d.2.1 ∧ d.1.map Char.toLower = d.1)
    (hsize : decls.length + opsConstants ops < 2 ^ 64 - 1)
    (ho : ∀ o ∈ ops, StaticOp (makeTree cap min decls).cfg.domains o ∧ FloatOp kept (makeTree cap min decls).cfg.domains o) :
    ∃ w, (World.init (makeTree cap min decls)).run R ops = .ok w ∧ Steady kept (makeTree cap min decls).cfg 0 w := by
  have key : ∀ {ops : List Op} {cfg0 : Config} {w : World}, Steady kept cfg0 (opsConstants ops) w →
      (∀ o ∈ ops, StaticOp w.tree.cfg.domains o ∧ FloatOp kept cfg0.domains o) →
      ∃ w', w.run R ops = .ok w' ∧ Steady kept cfg0 0 w' := by
    intro ops
    induction ops with
    | nil => intro cfg0 w s _; exact ⟨w, rfl, s⟩
    | cons o os ih =>
      intro cfg0 w s ho
      obtain ⟨w1, h1, s1⟩ := steady_step hR s (ho o List.mem_cons_self).1 (ho o List.mem_cons_self).2
      obtain ⟨w', h', s'⟩ := ih s1 fun x hx => ⟨staticOp_ext (step_ext h1) (ho x (List.mem_cons_of_mem _ hx)).1, (ho x (List.mem_cons_of_mem _ hx)).2⟩
      exact ⟨w', by simp only [World.run, h1, h'], s'⟩
  exact key (steady_init kept cap min decls _ hcap hd hsize) ho

/-- C23: every history returns, in conditions on the declarations and calls alone.  For a capacity that is not a multiple of 256,
declarations whose limits are in order and of at most 61 bits (or absent), and calls with expressions of the declared types, with integers
of at most 61 bits, every call of the history returns: nothing aborts, nothing is undefined, and every restructuring of the tree ends.  Of
float attributes, some (`kept`) may occur in requests: the tree must be able to cope with their limits (or they have none), and no call may
change these limits. -/
theorem C23_history_returns_partial [Floats] (R : Rounding) (hR : Sane R) (kept : Str → Prop) (cap min : Nat) (decls : List (Str × Decl × Bool))
    (ops : List Op) (hcap : cap % 256 ≠ 0) (hd : ∀ d ∈ decls, ProperDecl d.1 d.2.1 ∧ MidDecl d.2.1 ∧ d.1.map Char.toLower = d.1)
    (hsize : decls.length + opsConstants ops < 2 ^ 64 - 1)
    (ho : ∀ o ∈ ops, StaticOp (makeTree cap min decls).cfg.domains o ∧ FloatOp kept (makeTree cap min decls).cfg.domains o) :
    ∃ w, (World.init (makeTree cap min decls)).run R ops = .ok w :=
  (history_steady R hR kept cap min decls ops hcap hd hsize ho).imp fun _ h => h.1

/-! ### the hypotheses are met -/

theorem exactRounding_sane : Sane exactRounding := ⟨fun _ _ h => h, rfl⟩

def steadyDecls : List (Str × Decl × Bool) :=
  [("i".toList, .int 0 10, false), ("b".toList, .bool, true), ("s".toList, .string 3, true), ("e".toList, .intEnum sizeMax, true),
   ("il".toList, .intList int64Min int64Max, true), ("sl".toList, .strList 4, true), ("f".toList, .float 0 1, true)]

def exIL (l : List Int) : Expr := .leaf (.list .oneOf ⟨"il".toList, 0⟩ (.intList l))
def exSL (l : List String) : Expr := .leaf (.list .noneOf ⟨"sl".toList, 0⟩ (.strList (l.map fun s => ⟨s.toList, 0, 0⟩)))

/-- thirteen calls over every kind of attribute but floats, into leaves of capacity 1 -/
def steadyOps : List Op :=
  [.insert ⟨1, [], exI .lt 3⟩, .makeSub ⟨2, [], .and (exIL [4, -9]) (exI .gt 7)⟩, .insertSub 0, .insert ⟨3, [], .or exB (exS "a")⟩,
   .insert ⟨4, [], .and (exS "b") (.not (exI .gt 9))⟩, .changeBoundaries (exI .lt 1000000), .insert ⟨5, [], exE 77⟩,
   .insert ⟨6, [], .and (exSL ["x", "y"]) (exI .ge 9)⟩, .makeSub ⟨7, [], .and (exS "q") (exIL [500])⟩, .insertSub 1, .insertSub 1,
   .makeSub ⟨8, [], .leaf (.boolVar ⟨"i".toList, 0⟩)⟩, .insert ⟨9, [], .and exB (exI .le 2)⟩]

theorem fitting_iff {ds : List Domain} {e : Expr} : Fitting ds e ↔ Accepts ds e ∧ Usable ds e ∧ Moderate e :=
  ⟨fun h => ⟨h.accepts, h.usable, h.moderate⟩, fun h => ⟨h.1, h.2.1, h.2.2⟩⟩

/-- for the examples: two float attributes, their limits are binary fractions with few digits -/
local instance insertTotalFloats : Floats := coarseFloats fun n => n = ['f'] ∨ n = ['g']

theorem steadyOps_static : ∀ o ∈ steadyOps, StaticOp (makeTree 1 0 steadyDecls).cfg.domains o ∧
    FloatOp (fun _ => False) (makeTree 1 0 steadyDecls).cfg.domains o := by
  have di : declaredType (makeTree 1 0 steadyDecls).cfg.domains ['i'] = some .int := by decide +kernel
  have db : declaredType (makeTree 1 0 steadyDecls).cfg.domains ['b'] = some .bool := by decide +kernel
  have ds : declaredType (makeTree 1 0 steadyDecls).cfg.domains ['s'] = some .string := by decide +kernel
  have de : declaredType (makeTree 1 0 steadyDecls).cfg.domains ['e'] = some .intEnum := by decide +kernel
  have dil : declaredType (makeTree 1 0 steadyDecls).cfg.domains ['i', 'l'] = some .intList := by decide +kernel
  have dsl : declaredType (makeTree 1 0 steadyDecls).cfg.domains ['s', 'l'] = some .strList := by decide +kernel
  generalize (makeTree 1 0 steadyDecls).cfg.domains = D at *
  have h1 : ∀ o ∈ steadyOps, StaticOp D o := by
    simp [steadyOps, StaticOp, fitting_iff, exI, exB, exS, exE, exIL, exSL, Accepts, AcceptsPred, Is, Usable, UsablePred, MayWiden, FloatsFit, Moderate, ModInt,
      int64Min, int64Max, SpecialTyped, SpecialTypedPred, Mid, MidPred, MidInt, di, db, ds, de, dil, dsl]
    have hi : ¬ (lowerKey ['i'] = ['f'] ∨ lowerKey ['i'] = ['g']) := by decide
    exact ⟨fun h => absurd h hi, fun h => absurd h hi⟩
  have h2 : ∀ o ∈ steadyOps, match o with | .insert q => NoFloat D q.expr | .makeSub q => NoFloat D q.expr | _ => True := by
    simp [steadyOps, exI, exB, exS, exE, exIL, exSL, NoFloat, exprNames, predNames, di, db, ds, de, dil, dsl]
  intro o ho
  refine ⟨h1 o ho, ?_⟩
  have := h2 o ho
  cases o with
  | insert q => exact noFloat_kept (kept := fun _ => False) this
  | makeSub q => exact ⟨noFloat_kept this, keeps_none⟩
  | insertSub k => trivial
  | changeBoundaries e => exact keeps_none

theorem steadyDecls_proper : ∀ d ∈ steadyDecls, ProperDecl d.1 d.2.1 ∧ MidDecl d.2.1 ∧ d.1.map Char.toLower = d.1 := by
  simp [steadyDecls, ProperDecl, MidDecl, MidInt, int64Min, int64Max, sizeMax]
  exact ⟨.inl rfl, .inr (coarse_edge (coarse_of_check (by decide +kernel))), .inr (coarse_edge (coarse_of_check (by decide +kernel)))⟩

/-- the theorem, applied -/
example : ∃ w, (World.init (makeTree 1 0 steadyDecls)).run exactRounding steadyOps = .ok w :=
  C23_history_returns_partial exactRounding exactRounding_sane (fun _ => False) 1 0 steadyDecls steadyOps (by decide)
    steadyDecls_proper (by decide +kernel) steadyOps_static

/-- what the history leaves: the refused requests are 8, which is ill-typed; 7 was inserted twice -/
example : ((World.init (makeTree 1 0 steadyDecls)).run exactRounding steadyOps).toOption.map (fun w => w.live.map Req.id) =
    some [9, 7, 7, 6, 5, 4, 3, 2, 1] := by decide +kernel

/-- the one-call theorems, applied in that world: inserting the pool's first subscription again, or any expression like the others -/
example : ∃ w, (World.init (makeTree 1 0 steadyDecls)).run exactRounding steadyOps = .ok w ∧ w.live.length = 9 ∧
    ∃ q s, w.pool[0]? = some (q, s) ∧ (∃ t, w.tree.insertSub exactRounding s = .ok t) ∧
      ∃ b t, w.tree.insert exactRounding 10 [] (parseBuild q.expr) = .ok (b, t) := by
  have hd : ∀ d ∈ steadyDecls, ProperDecl d.1 d.2.1 ∧ MidDecl d.2.1 ∧ d.1.map Char.toLower = d.1  := steadyDecls_proper
  obtain ⟨w, h, st⟩ := history_steady exactRounding exactRounding_sane (fun _ => False) 1 0 steadyDecls steadyOps (by decide) hd (by decide +kernel)
    steadyOps_static
  have hmod : ∀ o ∈ steadyOps, ModerateOp o := by
    simp [steadyOps, ModerateOp, MayWiden, exI, exIL, exS, Moderate, ModInt, int64Min, int64Max]
    exact ⟨fit_of_check (by decide +kernel), fit_of_check (by decide +kernel), fit_of_check (by decide +kernel), fit_of_check (by decide +kernel)⟩
  have hsm : Small w.tree.cfg := ⟨Nat.le_of_lt st.grown.len, st.strs, st.ints⟩
  have hlive : w.live.length = 9 := by
    have : ((World.init (makeTree 1 0 steadyDecls)).run exactRounding steadyOps).toOption.map (fun w => w.live.length) = some 9 := by
      decide +kernel
    rw [h] at this
    simpa [Except.toOption] using this
  have hpool : ∃ q s, w.pool[0]? = some (q, s) ∧ q.expr = .and (exIL [4, -9]) (exI .gt 7) := by
    have : ((World.init (makeTree 1 0 steadyDecls)).run exactRounding steadyOps).toOption.map (fun w => w.pool[0]?.map (fun p => p.1.expr)) =
        some (some (.and (exIL [4, -9]) (exI .gt 7))) := by decide +kernel
    rw [h] at this
    simp only [Except.toOption, Option.map_some, Option.some.injEq, Option.map_eq_some_iff] at this
    obtain ⟨p, h1, h2⟩ := this
    exact ⟨p.1, p.2, h1, h2⟩
  obtain ⟨q, s, hp, he⟩ := hpool
  have noFloat_free : ∀ {e : Expr}, FloatsKept (fun _ => False) (makeTree 1 0 steadyDecls).cfg.domains e → FloatFree w.tree.cfg.domains e :=
    fun h => noFloat_free ((noFloat_ext st.ext _).2 fun n hn ht => h.1 n hn ht)
  have hq := st.pool (q, s) (List.mem_of_getElem? hp)
  refine ⟨w, h, hlive, q, s, hp, ?_, ?_⟩
  · exact C23_insert_sub_returns_partial exactRounding exactRounding_sane 1 0 steadyDecls steadyOps w h (by decide) (fun d h => (hd d h).1)
      st.grown.len hmod hsm st.mid.narrow (fun q hq => ⟨(st.live q hq).1, noFloat_free (st.live q hq).2⟩) 0 q s hp ⟨hq.1, noFloat_free hq.2⟩
  · refine C23_insert_returns_partial exactRounding exactRounding_sane 1 0 steadyDecls steadyOps w h (by decide) (fun d h => (hd d h).1)
      st.grown.len hmod hsm st.mid.narrow (fun q hq => ⟨(st.live q hq).1, noFloat_free (st.live q hq).2⟩) ⟨10, [], q.expr⟩
      ⟨hq.1, noFloat_free hq.2⟩ ?_ st.low
    simp only [he]
    exact ⟨trivial, trivial⟩

/-- attributes `i`, `f` with the limits 0 and 10, and `g` without limits -/
def keptDecls : List (Str × Decl × Bool) := [("i".toList, .int 0 10, true), ("f".toList, .float 0 10, true), ("g".toList, .float (-dblMax) dblMax, true)]

/-- `f op k` -/
def exF (op : CmpOp) (k : Rat) : Expr := .leaf (.compare op ⟨"f".toList, 0⟩ (.float k))
/-- `g op k` -/
def exG (op : CmpOp) (k : Rat) : Expr := .leaf (.compare op ⟨"g".toList, 0⟩ (.float k))

/-- nine calls that mention floats, into leaves of capacity 1: the range of `f` is cut again and again -/
def keptOps : List Op :=
  [.insert ⟨1, [], exF .gt (1 / 2)⟩, .makeSub ⟨2, [], .and (exF .le (3 / 4)) (exI .lt 5)⟩, .insertSub 0, .insert ⟨3, [], exF .ge 9⟩,
   .changeBoundaries (.not (exF .gt (9 / 4))), .insert ⟨4, [], .and (exF .gt 3) (exF .lt 4)⟩, .insert ⟨5, [], .or (exG .lt 100) (exF .lt 20)⟩,
   .insert ⟨6, [], .and (exF .gt 3) (exF .lt (7 / 2))⟩, .insert ⟨7, [], .and (exF .gt 3) (exF .lt 3)⟩]

theorem kept_floatFit {e : Expr} (h : ∀ n ∈ exprNames e, n = ['i'] ∨ n = ['f'] ∨ n = ['g']) :
    FloatFit (makeTree 1 0 keptDecls).cfg.domains e := by
  have hi : ∀ d, (makeTree 1 0 keptDecls).cfg.domains.find? (fun d => d.attr.attr = ['i']) = some d → d.bound = ⟨.int, .i 0, .i 10⟩ := by decide +kernel
  have hf : ∀ d, (makeTree 1 0 keptDecls).cfg.domains.find? (fun d => d.attr.attr = ['f']) = some d → d.bound = ⟨.float, .f 0, .f 10⟩ := by decide +kernel
  have hg : ∀ d, (makeTree 1 0 keptDecls).cfg.domains.find? (fun d => d.attr.attr = ['g']) = some d → d.bound = ⟨.float, .f (-dblMax), .f dblMax⟩ := by decide +kernel
  generalize (makeTree 1 0 keptDecls).cfg.domains = D at *
  intro n hn d hd hl a b hb
  rcases h n hn with rfl | rfl | rfl
  · rw [hi d hd] at hb; cases hb
  · rw [hf d hd] at hb; cases hb
    exact copes_of_whole 10 (coarse_of_check (by decide +kernel)) (coarse_of_check (by decide +kernel)) (by norm_num)
  · rw [hg d hd] at hl; exact absurd (fne_iff.2 hl.low) (by decide +kernel)

/-- C23 for a history with requests on a float attribute with limits -/
example : ∃ w, (World.init (makeTree 1 0 keptDecls)).run exactRounding keptOps = .ok w := by
  refine C23_history_returns_partial exactRounding exactRounding_sane (fun _ => True) 1 0 keptDecls keptOps (by decide) ?_ (by decide +kernel) ?_
  · intro d hd
    rcases List.mem_cons.1 hd with rfl | hd
    · exact ⟨show (0 : Int) ≤ 10 by decide, by simp [MidDecl, MidInt], rfl⟩
    rcases List.mem_cons.1 hd with rfl | hd
    · exact ⟨⟨.inl rfl, by decide, .inr (coarse_edge (coarse_of_check (by decide +kernel))), .inr (coarse_edge (coarse_of_check (by decide +kernel)))⟩, trivial, rfl⟩
    rcases List.mem_cons.1 hd with rfl | hd
    · exact ⟨⟨.inr rfl, by decide +kernel, .inl rfl, .inl rfl⟩, trivial, rfl⟩
    cases hd
  · have di : declaredType (makeTree 1 0 keptDecls).cfg.domains ['i'] = some .int := by decide +kernel
    have df : declaredType (makeTree 1 0 keptDecls).cfg.domains ['f'] = some .float := by decide +kernel
    have dg : declaredType (makeTree 1 0 keptDecls).cfg.domains ['g'] = some .float := by decide +kernel
    have hi : ∀ d, (makeTree 1 0 keptDecls).cfg.domains.find? (fun d => d.attr.attr = ['i']) = some d → d.bound = ⟨.int, .i 0, .i 10⟩ := by decide +kernel
    have hf : ∀ d, (makeTree 1 0 keptDecls).cfg.domains.find? (fun d => d.attr.attr = ['f']) = some d → d.bound = ⟨.float, .f 0, .f 10⟩ := by decide +kernel
    have hg : ∀ d, (makeTree 1 0 keptDecls).cfg.domains.find? (fun d => d.attr.attr = ['g']) = some d → d.bound = ⟨.float, .f (-dblMax), .f dblMax⟩ := by decide +kernel
    have kf : ∀ {e : Expr}, (∀ n ∈ exprNames e, n = ['i'] ∨ n = ['f'] ∨ n = ['g']) →
        FloatsKept (fun _ => True) (makeTree 1 0 keptDecls).cfg.domains e := fun h => ⟨fun _ _ _ => trivial, kept_floatFit h⟩
    generalize (makeTree 1 0 keptDecls).cfg.domains = D at *
    have lim : Limited ⟨.float, .f 0, .f 10⟩ := ⟨by decide, by decide, fne_iff.1 (by decide +kernel), fne_iff.1 (by decide +kernel)⟩
    have ask : ∀ {x : Rat} {n : Str}, (0 ≤ x ∧ x ≤ 10) → (n = ['i'] ∨ n = ['f']) → True → ∀ d, D.find? (fun d => d.attr.attr = n) = some d →
        d.bound.ty = .float → Limited d.bound ∧ ∀ a b, d.bound = ⟨.float, .f a, .f b⟩ → a ≤ x ∧ x ≤ b := by
      intro x n hx hn _ d hd ht
      rcases hn with rfl | rfl
      · rw [hi d hd] at ht; cases ht
      · rw [hf d hd]
        refine ⟨lim, fun a b hab => ?_⟩
        cases hab
        exact hx
    have fit : ∀ {ds : AttrVar → Prop} {e : Expr}, fewDigits e = true → FloatsFit ds e := fun h => fit_of_check h
    intro o ho
    simp only [keptOps, List.mem_cons, List.not_mem_nil, or_false] at ho
    rcases ho with rfl | rfl | rfl | rfl | rfl | rfl | rfl | rfl | rfl
    all_goals
      constructor
      · simp [StaticOp, fitting_iff, exI, exF, exG, Accepts, AcceptsPred, Is, Usable, UsablePred, MayWiden, Moderate, ModInt,
          int64Min, int64Max, SpecialTyped, SpecialTypedPred, Mid, MidPred, MidInt, di, df, dg] <;> exact fit (by decide +kernel)
      · first
          | exact kf (by decide)
          | trivial
          | exact ⟨kf (by decide), ask (by decide +kernel) (.inr rfl), ask (by decide +kernel) (.inl rfl)⟩
          | exact ask (by decide +kernel) (.inr rfl)

/-- what this history leaves -/
example : ((World.init (makeTree 1 0 keptDecls)).run exactRounding keptOps).toOption.map (fun w => w.live.map Req.id) =
    some [7, 6, 5, 4, 3, 2, 1] := by decide +kernel

/-! ### each condition is needed -/

/-- C23 is false when the limits of an integer attribute are more than `INT64_MAX` apart: the second insertion computes their
difference in `int64_t`. -/
theorem C23_wide_domain_overflows : (World.init (makeTree 1 0 [("i".toList, .int (-9223372036854775000) 9223372036854775000, false)])).run
    exactRounding [.insert ⟨1, [], exI .lt 3⟩, .insert ⟨2, [], exI .lt 4⟩] = .error .ub := by
  have h : (match (World.init (makeTree 1 0 [("i".toList, .int (-9223372036854775000) 9223372036854775000, false)])).run
    exactRounding [.insert ⟨1, [], exI .lt 3⟩, .insert ⟨2, [], exI .lt 4⟩] with | .error .ub => true | _ => false) = true := by
    decide +kernel
  split at h <;> simp_all

/-- Float attributes are not part of C23, rightly: with limits 0 and 1.5 the second insertion aborts. -/
theorem C23_float_domain_aborts : (World.init (makeTree 1 0 [("f".toList, .float 0 (3 / 2), false)])).run exactRounding
    [.insert ⟨1, [], .leaf (.compare .lt ⟨"f".toList, 0⟩ (.float 1))⟩, .insert ⟨2, [], .leaf (.compare .lt ⟨"f".toList, 0⟩ (.float 1))⟩] =
      .error .abort := by
  have h : (match (World.init (makeTree 1 0 [("f".toList, .float 0 (3 / 2), false)])).run exactRounding
    [.insert ⟨1, [], .leaf (.compare .lt ⟨"f".toList, 0⟩ (.float 1))⟩, .insert ⟨2, [], .leaf (.compare .lt ⟨"f".toList, 0⟩ (.float 1))⟩] with
    | .error .abort => true | _ => false) = true := by
    decide +kernel
  split at h <;> simp_all

/-! ### a float attribute on which an insertion does not end -/

/-- one float attribute with the limits -0.6 and 4.4 -/
def stuckDecls : List (Str × Decl × Bool) := [("f".toList, .float (rnd (-6 / 10)) (rnd (44 / 10)), false)]
/-- the request `f > k` -/
def stuckReq (id : Nat) (k : Rat) : Req := ⟨id, [], .leaf (.compare .gt ⟨"f".toList, 0⟩ (.float (rnd k)))⟩
/-- the configuration at the second of two insertions -/
def stuckCfg : Config := match (World.init (makeTree 1 0 stuckDecls)).run exactRounding [.insert (stuckReq 1 3)] with
  | .ok w => (match prepareInsert w.tree.cfg 2 [] (parseBuild (stuckReq 2 (31 / 10)).expr) with | .ok (_, c) => c | _ => w.tree.cfg)
  | _ => (makeTree 1 0 []).cfg
/-- the two subscriptions -/
def stuckSubs : List Sub := match (World.init (makeTree 1 0 stuckDecls)).run exactRounding [.insert (stuckReq 1 3)] with 
 | .ok w =>  match w.tree.root, prepareInsert w.tree.cfg 2 [] (parseBuild (stuckReq 2 (31/10)).expr) with | .mk l _ _ , .ok (some s, _) => l ++ [s] | _, _ => []
 | _ => []
/-- the range from 2.4 to 4.4 -/
def stuckBound : Bound := ⟨.float, .f (rnd (24 / 10)), .f (rnd (44 / 10))⟩
/-- its upper part -/
def stuckRight : Bound := ⟨.float, .f (rnd (44 / 10)), .f (rnd (44 / 10))⟩

theorem stuck_split : isAtomic stuckBound = .ok false ∧ splitBound stuckBound = .ok (stuckBound, stuckRight) ∧ stuckSubs.length = 2 := by decide +kernel

theorem stuck_moves : moveLoop (clusterDest stuckCfg 0 stuckBound stuckRight) [] stuckSubs [] = .ok ([], stuckSubs.map fun s => (true, s)) := by decide +kernel

theorem stuck_cluster (R : Rounding) : ∀ fuel used, cluster R stuckCfg fuel used (.leaf 0 stuckBound (.mk stuckSubs 1 .nil)) = .error .fuel
  | 0, _ => rfl
  | n + 1, used => by
    have hm : movedTo true (stuckSubs.map fun s => (true, s)) = stuckSubs := by decide +kernel
    have hc : stuckCfg.lnodeMaxCap = 1 := by decide +kernel
    rw [cluster]
    simp only [stuck_split.1, stuck_split.2.1, stuck_split.2.2, stuck_moves, hm, hc, stuck_cluster R n]
    rw [if_pos (by decide)]
    cases n with
    | zero => rfl
    | succ n => 
      rw [partition]
      have hf : clusterCapacity stuckCfg 0 = .ok 1 := by decide +kernel
      simp [finishPartition, hf]

/-- the declared range -/
def stuckOuter : Bound := ⟨.float, .f (rnd (-6 / 10)), .f (rnd (44 / 10))⟩
/-- the lower part of the declared range -/
def stuckLeft : Bound := ⟨.float, .f (rnd (-6 / 10)), .f (rnd (24 / 10))⟩

theorem stuck_outer_split : isAtomic stuckOuter = .ok false ∧ splitBound stuckOuter = .ok (stuckLeft, stuckBound) := by decide +kernel

theorem stuck_outer_moves : moveLoop (clusterDest stuckCfg 0 stuckLeft stuckBound) [] stuckSubs [] = .ok ([], stuckSubs.map fun s => (false, s)) := by decide +kernel

theorem stuck_outer_cluster (R : Rounding) : ∀ fuel used, cluster R stuckCfg fuel used (.leaf 0 stuckOuter (.mk stuckSubs 1 .nil)) = .error .fuel
  | 0, _ => rfl
  | n + 1, used => by
    have hm : movedTo false (stuckSubs.map fun s => (false, s)) = stuckSubs := by decide +kernel
    have hm' : movedTo true (stuckSubs.map fun s => (false, s)) = [] := by decide +kernel
    have hc : stuckCfg.lnodeMaxCap = 1 := by decide +kernel
    rw [cluster]
    simp only [stuck_outer_split.1, stuck_outer_split.2, stuck_split.2.2, stuck_outer_moves, hm, hm', hc, stuck_cluster R n]
    rw [if_pos (by decide)]
    cases n with
    | zero => rfl
    | succ n => 
      rw [partition, cluster]
      have hf : clusterCapacity stuckCfg 0 = .ok 1 := by decide +kernel
      simp [finishPartition, hf]

theorem stuck_partition : ∀ fuel, partition exactRounding stuckCfg fuel [] stuckSubs 1 .nil = .error .fuel
  | 0 => rfl
  | n + 1 => by
    have hn : nextHighest exactRounding stuckCfg [] stuckSubs = .ok (some 0) := by decide +kernel
    have hp : ¬ countAttr 0 stuckSubs < stuckCfg.partitionMinSize := by decide +kernel
    have hd : (getDomain stuckCfg 0).map (·.bound) = .ok stuckOuter := by decide +kernel
    have hm : moveLoop (fun s => .ok (if s.has 0 then some () else none)) [] stuckSubs [] = .ok ([], stuckSubs.map fun s => ((), s)) := by decide +kernel
    have hs : (stuckSubs.map fun s => ((), s)).map (·.2) = stuckSubs := by decide +kernel
    have hc : stuckCfg.lnodeMaxCap = 1 := by decide +kernel
    cases hg : getDomain stuckCfg 0 with
    | error e => rw [hg] at hd; cases hd
    | ok d =>
      rw [hg] at hd
      have hb : d.bound = stuckOuter := by injection hd
      rw [partition]
      simp only [stuck_split.2.2, hn, hg, hm, hb, hc, hs, stuck_outer_cluster exactRounding n]
      rw [if_pos (by decide), if_neg hp]
/-- C23 is false of float attributes with limits that cannot be halved: with the limits -0.6 and 4.4 and one subscription per leaf, the
insertion of `f > 3.1` after `f > 3` does not end.  The tree is overfull, the range is split into -0.6 to 2.4 and 2.4 to 4.4, and the
lower part of 2.4 to 4.4 is this range again.  No budget is enough for the recursion: it is not the budget of the model that ends it. -/
theorem C23_float_endless : ∃ w s cfg l, (World.init (makeTree 1 0 stuckDecls)).run exactRounding [.insert (stuckReq 1 3)] = .ok w ∧
    prepareInsert w.tree.cfg 2 [] (parseBuild (stuckReq 2 (31 / 10)).expr) = .ok (some s, cfg) ∧ w.tree.root = .mk l 1 .nil ∧
    (∀ fuel, partition exactRounding cfg fuel [] (l ++ [s]) 1 .nil = .error .fuel) ∧
    w.run exactRounding [.insert (stuckReq 2 (31 / 10))] = .error .fuel := by
  have h1 : (match (World.init (makeTree 1 0 stuckDecls)).run exactRounding [.insert (stuckReq 1 3)] with
     | .ok w => (match w.tree.root, prepareInsert w.tree.cfg 2 [] (parseBuild (stuckReq 2 (31/10)).expr) with 
        | .mk l 1 .nil , .ok (some s, cfg) => decide (l ++ [s] = stuckSubs) && decide (cfg = stuckCfg) && (choosePartition cfg [] s .nil).isNone
        | _, _ => false)
     | _ => false) = true := by decide +kernel
  split at h1
  · rename_i w hw
    split at h1
    · rename_i l s cfg hr hp
      simp only [Bool.and_eq_true, decide_eq_true_eq] at h1
      obtain ⟨⟨h2, h3⟩, h4⟩ := h1
      refine ⟨w, s, cfg, l, hw, hp, hr, ?_, ?_⟩
      · intro fuel
        rw [h2, h3]; exact stuck_partition fuel
      · have h5 : choosePartition cfg [] s .nil = none := by simpa using h4
        simp only [World.run, World.step, Tree.insert, stuckReq] at hp ⊢
        simp only [hp, hr, CNode.insert, h5]
        rw [h2, h3, stuck_partition]
    · cases h1
  · cases h1

/-- Names declared in upper case: `betree_insert` takes the bound of the attribute `S`, an integer, for that of the string `s` its
variable was resolved to. -/
theorem C23_upper_case_confuses : (World.init (makeTree 1 0 [("S".toList, .int 0 9, false), ("s".toList, .string 4, false)])).run
    exactRounding [.insert ⟨1, [], .leaf (.equality .eq ⟨"S".toList, 0⟩ (.string ⟨"x".toList, 0, 0⟩))⟩] = .error .ub := by
  have h : (match (World.init (makeTree 1 0 [("S".toList, .int 0 9, false), ("s".toList, .string 4, false)])).run
    exactRounding [.insert ⟨1, [], .leaf (.equality .eq ⟨"S".toList, 0⟩ (.string ⟨"x".toList, 0, 0⟩))⟩] with
    | .error .ub => true | _ => false) = true := by
    decide +kernel
  split at h <;> simp_all

end BeTree
