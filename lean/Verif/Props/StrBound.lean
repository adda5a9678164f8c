import Verif.Lemmas.StrLimit
import Verif.Lemmas.InsertWorld
import Verif.Props.Boundaries
/-
C30: the limit on the strings of an attribute.
-/
namespace BeTree
open Spec

theorem insert_domains {R : Rounding} {t t' : Tree} {id : Nat} {cs : List Constant} {e : Expr} {b : Bool}
    (h : t.insert R id cs e = .ok (b, t')) : t'.cfg.domains = t.cfg.domains := by
  unfold Tree.insert at h
  repeat' split at h
  all_goals first
    | (cases h; done)
    | (cases h; rename_i h1; exact prepareInsert_domains h1)
    | (cases h; rename_i h1 _ _ _; exact prepareInsert_domains h1)

theorem step_insert {R : Rounding} {w w' : World} {q : Req} (h : w.step R (.insert q) = .ok w') :
    ∃ b, w.tree.insert R q.id q.consts (parseBuild q.expr) = .ok (b, w'.tree) := by
  simp only [World.step] at h
  repeat' split at h
  all_goals first | (cases h; done) | (rename_i hi; cases h; exact ⟨_, hi⟩)

/-- a history of plain insertions changes no domain and keeps to the limits -/
theorem inserts_bound {R : Rounding} {ops : List Op} : ∀ {w w' : World}, (∀ o ∈ ops, ∃ q, o = .insert q) → w.run R ops = .ok w' →
    w'.tree.cfg.domains = w.tree.cfg.domains ∧ ∀ u n, EndsAt w.tree.cfg.domains u n → n + 1 < 2 ^ 64 →
      (strTable w.tree.cfg u).length ≤ n + 1 → (strTable w'.tree.cfg u).length ≤ n + 1 := by
  induction ops with
  | nil => intro w w' _ h; cases h; exact ⟨rfl, fun _ _ _ _ h => h⟩
  | cons o os ih =>
    intro w w' ho h
    simp only [World.run] at h
    split at h
    · cases h
    · rename_i w1 h1
      obtain ⟨q, rfl⟩ := ho o List.mem_cons_self
      obtain ⟨b, hi⟩ := step_insert h1
      obtain ⟨h2, h3⟩ := ih (fun o h => ho o (List.mem_cons_of_mem _ h)) h
      have hd := insert_domains hi
      refine ⟨h2.trans hd, fun u n hu hn hl => h3 u n (by rw [hd]; exact hu) hn (insert_bound hi hu hn hl)⟩

theorem makeTree_table (cap min : Nat) (decls : List (Str × Decl × Bool)) (u : Nat) : strTable (makeTree cap min decls).cfg u = [] := by
  unfold strTable findStrMap
  rw [(makeTree_maps cap min decls).1]
  rfl

theorem map_table {cfg : Config} (hok : TablesOK cfg) {m : StringMap} (hm : m ∈ cfg.stringMaps) : strTable cfg m.attr.var = m.values :=
  strTable_of_mem hok.strVars hm

/-- C30: in any history of `betree_insert` calls, on any declarations, the number of strings interned for an attribute declared
with a limit never exceeds the limit, and they are distinct. -/
theorem C30_count_never_exceeds_bound (R : Rounding) (cap min : Nat) (decls : List (Str × Decl × Bool)) (ops : List Op) (w : World)
    (h : (World.init (makeTree cap min decls)).run R ops = .ok w) (hops : ∀ o ∈ ops, ∃ q, o = .insert q)
    (v : Nat) (name : Str) (limit : Nat) (opt : Bool)
    (hd : decls[v]? = some (name, .string limit, opt) ∨ decls[v]? = some (name, .strList limit, opt))
    (hpos : 0 < limit) (hlim : limit < 2 ^ 64) :
    ∀ m ∈ w.tree.cfg.stringMaps, m.attr.var = v → m.values.length ≤ limit ∧ m.values.Nodup := by
  intro m hm hv
  have hok := run_tablesOK h
  have ht := map_table hok hm
  obtain ⟨_, h2⟩ := inserts_bound hops h
  have he : EndsAt (World.init (makeTree cap min decls)).tree.cfg.domains v (limit - 1) := by
    have hmod : (limit + sizeMax) % 2 ^ 64 = limit - 1 := by unfold sizeMax; omega
    show EndsAt (makeTree cap min decls).cfg.domains v (limit - 1)
    unfold EndsAt
    rw [makeTree_domains]
    rcases hd with hd | hd <;>
      exact ⟨_, by rw [List.getElem?_mapIdx, hd]; rfl, by simp only [declDomain, Decl.bound, hmod]⟩
  have := h2 v (limit - 1) he (by omega) (by
    show (strTable (makeTree cap min decls).cfg v).length ≤ _
    rw [makeTree_table]; simp)
  rw [← hv, ht] at this
  refine ⟨by omega, ?_⟩
  have := hok.strNodup m.attr.var
  rw [ht] at this
  exact this

/-! ### what is refused -/

theorem insert_gains {R : Rounding} {t t' : Tree} {id : Nat} {cs : List Constant} {e : Expr} {b : Bool}
    (h : t.insert R id cs e = .ok (b, t')) : Gains (numConstants e) (numConstants e) t.cfg t'.cfg := by
  unfold Tree.insert at h
  repeat' split at h
  all_goals first
    | (cases h; done)
    | (cases h; rename_i h1; exact prepareInsert_gains h1)
    | (cases h; rename_i h1 _ _ _; exact prepareInsert_gains h1)

theorem inserts_gains {R : Rounding} {ops : List Op} : ∀ {w w' : World}, (∀ o ∈ ops, ∃ q, o = .insert q) → w.run R ops = .ok w' →
    Gains (opsConstants ops) (opsConstants ops) w.tree.cfg w'.tree.cfg := by
  induction ops with
  | nil => intro w w' _ h; cases h; exact Gains.refl _ _ _
  | cons o os ih =>
    intro w w' ho h
    simp only [World.run] at h
    split at h
    · cases h
    · rename_i w1 h1
      obtain ⟨q, rfl⟩ := ho o List.mem_cons_self
      obtain ⟨b, hi⟩ := step_insert h1
      have g : Gains (numConstants q.expr) (numConstants q.expr) w.tree.cfg w1.tree.cfg := by
        rw [← numConstants_parse]
        exact insert_gains hi
      exact g.trans (ih (fun o h => ho o (List.mem_cons_of_mem _ h)) h)

theorem domainOf_get {cfg : Config} {a : Str} {d : Domain} (h : domainOf cfg.domains a = some d) :
    cfg.domains[tryGetIdForAttr cfg a]? = some d := by
  obtain ⟨j, h1, h2⟩ := findAttr_find _ _ 0 d h
  have : tryGetIdForAttr cfg a = j := by
    show findAttr (a.map Char.toLower) cfg.domains 0 = j
    rw [h1]; omega
  rw [this]; exact h2

theorem positive_hi {d : Decl} (h : PositiveDecl d) {n : Nat} (hn : d.bound.hi = .s n) : n + 1 < 2 ^ 64 := by
  cases d <;> simp only [Decl.bound, Scalar.s.injEq, reduceCtorEq] at hn
  all_goals first
    | (subst hn; simp; done)
    | (simp only [PositiveDecl] at h; unfold sizeMax at hn; omega)

/-- C30: whenever `betree_insert` returns, after any history of insertions, it returns true exactly when the attributes it looks at are
declared, the constants of the frequency caps are supplied, and each predicate's strings, those not known yet counted as often
as they are written, fit under the limit of its attribute.  (Attributes with string constants written in lower case, no limit of 0, fewer
than 2^64 constants in all.) -/
theorem C30_insert_accepts_exactly (R : Rounding) (cap min : Nat) (decls : List (Str × Decl × Bool)) (ops : List Op) (w : World)
    (h : (World.init (makeTree cap min decls)).run R ops = .ok w) (hops : ∀ o ∈ ops, ∃ q, o = .insert q ∧ LowerStrs q.expr)
    (hdecl : ∀ d ∈ decls, PositiveDecl d.2.1) (hlen : decls.length < 2 ^ 64 - 1)
    (q : Req) (hlow : LowerStrs q.expr) (hsz : opsConstants ops + numConstants q.expr < 2 ^ 64)
    (b : Bool) (t : Tree) (hi : w.tree.insert R q.id q.consts (parseBuild q.expr) = .ok (b, t)) :
    b = true ↔ DeclaredIn w.tree.cfg.domains q.expr ∧ FitsStrs w.tree.cfg q.expr ∧
      ∀ f ∈ caps q.expr, ∃ i, supplied q.consts f.type = some i := by
  have hops' : ∀ o ∈ ops, ∃ q, o = .insert q := fun o ho => (hops o ho).imp fun _ h => h.1
  obtain ⟨hdom, hbd⟩ := inserts_bound hops' h
  replace hdom : w.tree.cfg.domains = (makeTree cap min decls).cfg.domains := hdom
  have hl : w.tree.cfg.domains.length < invalidId := by
    rw [hdom, makeTree_domains, List.length_mapIdx]; exact hlen
  have hn : NamesOK w.tree.cfg := run_names (makeTree_names cap min decls) (fun o ho => by
    obtain ⟨q, rfl, h⟩ := hops o ho; exact h) h
  have hcaps : (∀ f ∈ caps q.expr, ∃ i, supplied q.consts f.type = some i) ↔
      (∀ f ∈ caps (parseBuild q.expr), ∃ i, supplied q.consts f.type = some i) := by
    simp only [(caps_parseBuild q.expr).mem_iff]
  rw [hcaps, ← declaredIn_parse, ← fitsStrs_parse]
  have hg := inserts_gains hops' h
  refine insert_iff hl hn (lowerStrs_parse hlow) (fun _ _ a _ _ => ⟨fun n hs => ?_⟩) (fun a _ => ?_) hi
  · unfold strLimit at hs
    split at hs
    · cases hs
    · rename_i d hd
      split at hs
      · rename_i k hk
        cases hs
        have hget := domainOf_get hd
        rw [(knownStrs_table hd).1]
        have he : EndsAt (World.init (makeTree cap min decls)).tree.cfg.domains (tryGetIdForAttr w.tree.cfg a) k :=
          ⟨d, by show (makeTree cap min decls).cfg.domains[_]? = _; rw [← hdom]; exact hget, hk⟩
        have hk64 : k + 1 < 2 ^ 64 := by
          rw [hdom, makeTree_domains, List.getElem?_mapIdx] at hget
          cases hdc : decls[tryGetIdForAttr w.tree.cfg a]? with
          | none => rw [hdc] at hget; cases hget
          | some c =>
            rw [hdc] at hget
            cases hget
            exact positive_hi (hdecl c (List.mem_of_getElem? hdc)) hk
        refine ⟨hbd _ _ he hk64 ?_, hk64⟩
        show (strTable (makeTree cap min decls).cfg _).length ≤ _
        rw [makeTree_table]; simp
      · cases hs
  · rw [numConstants_parse]
    have : (knownStrs w.tree.cfg a).length ≤ opsConstants ops := by
      unfold knownStrs
      split
      · simp
      · rename_i v hv
        have h1 := hg.strs v
        have h2 : (strTable (World.init (makeTree cap min decls)).tree.cfg v).length = 0 := by
          show (strTable (makeTree cap min decls).cfg v).length = 0
          rw [makeTree_table]; rfl
        unfold strTable findStrMap at h1
        split
        · simp
        · rename_i m hm
          rw [hm] at h1
          dsimp only at h1
          unfold strTable findStrMap at h2
          omega
    omega

theorem fits_preds {cfg : Config} {e : Expr} : FitsStrs cfg e ↔ ∀ p ∈ preds e, FitsPred cfg p := by
  induction e with
  | leaf p => simp [FitsStrs, preds]
  | not e ih => exact ih
  | and l r ihl ihr | or l r ihl ihr =>
    simp only [FitsStrs, preds, List.mem_append, ihl, ihr]
    exact ⟨fun h p hp => hp.elim (h.1 p) (h.2 p), fun h => ⟨fun p hp => h p (.inl hp), fun p hp => h p (.inr hp)⟩⟩

theorem tooMany_not_fits {cfg : Config} {p : Pred} (h : NeedsTooMany cfg p) : ¬ FitsPred cfg p := by
  obtain ⟨a, ts, n, h1, h2, l, h3, h4, h5⟩ := h
  intro hf
  have h6 := hf a ts n h1 h2
  have h7 : l ⊆ knownStrs cfg a ++ ts.filter (fun s => s ∉ knownStrs cfg a) := by
    intro s hs
    rw [List.mem_append, List.mem_filter]
    by_cases hk : s ∈ knownStrs cfg a
    · exact .inl hk
    · exact .inr ⟨(h4 s hs).resolve_left hk, by simpa using hk⟩
  have h8 := (h3.subperm h7).length_le
  rw [List.length_append] at h8
  omega

/-- C30 (partial): after any history of insertions, `betree_insert` does not accept an expression one of whose predicates needs more
distinct strings than the limit of its attribute.  Partial: predicates are taken one at a time (`C30_predicates_counted_apart` shows that
the code does so), and attributes with string constants are written in lower case (`C30_upper_case_bypasses`). -/
theorem C30_refuses_partial (R : Rounding) (cap min : Nat) (decls : List (Str × Decl × Bool)) (ops : List Op) (w : World)
    (h : (World.init (makeTree cap min decls)).run R ops = .ok w) (hops : ∀ o ∈ ops, ∃ q, o = .insert q ∧ LowerStrs q.expr)
    (hdecl : ∀ d ∈ decls, PositiveDecl d.2.1) (hlen : decls.length < 2 ^ 64 - 1)
    (q : Req) (hlow : LowerStrs q.expr) (hsz : opsConstants ops + numConstants q.expr < 2 ^ 64)
    (p : Pred) (hp : p ∈ preds q.expr) (hm : NeedsTooMany w.tree.cfg p) (b : Bool) (t : Tree)
    (hi : w.tree.insert R q.id q.consts (parseBuild q.expr) = .ok (b, t)) : b = false := by
  have := C30_insert_accepts_exactly R cap min decls ops w h hops hdecl hlen q hlow hsz b t hi
  cases b with
  | false => rfl
  | true => exact absurd (fits_preds.1 (this.1 rfl).2.1 p hp) (tooMany_not_fits hm)

/-! ### histories with the other calls -/

theorem Within.of_same {a b : Config} (h : Within a) (hd : b.domains = a.domains) (hs : b.stringMaps = a.stringMaps) : Within b := by
  intro v d n h1 h2 h3
  rw [strTable_of_maps hs]
  exact h v d n (by rw [← hd]; exact h1) h2 h3

theorem insert_within {R : Rounding} {t t' : Tree} {id : Nat} {cs : List Constant} {e : Expr} {b : Bool}
    (h : t.insert R id cs e = .ok (b, t')) (hw : Within t.cfg) (hs : ∀ v, (strTable t'.cfg v).length < invalidId) : Within t'.cfg := by
  intro v d n h1 h2 h3
  rw [insert_domains h] at h1
  by_cases hn : n + 1 < 2 ^ 64
  · exact insert_bound h ⟨d, h1, h3⟩ hn (hw v d n h1 h2 h3)
  · have := hs v; unfold invalidId at this; omega

theorem capVars_freq {cfg : Config} {e : Expr} (hs : SpecialTyped cfg.domains e) {v : Nat} {d : Domain} (hd : cfg.domains[v]? = some d)
    (ht : d.bound.ty = .string ∨ d.bound.ty = .strList) : v ∉ exprCapVars (assignVar cfg e) := by
  induction e with
  | leaf p =>
    show v ∉ capVars (assignVarPred cfg p)
    cases p with
    | freq f =>
      simp only [assignVarPred, capVars, List.mem_singleton]
      intro hv
      obtain ⟨t, h1, h2⟩ := hs.1
      simp only [List.mem_singleton] at h1
      subst h1
      obtain ⟨d', h3, h4⟩ := declaredType_domain h2
      have h5 := domain_of_id h3
      have h6 : tryGetIdForAttr cfg f.attr.attr = v := hv.symm
      rw [h6, hd] at h5
      cases h5
      rw [h4] at ht
      rcases ht with ht | ht <;> cases ht
    | set op l r => cases l <;> cases r <;> simp [assignVarPred, capVars]
    | _ => simp [assignVarPred, capVars]
  | not e ih => exact ih hs
  | and l r ihl ihr | or l r ihl ihr =>
    simp only [assignVar, exprCapVars, List.mem_append, not_or]
    exact ⟨ihl hs.1, ihr hs.2⟩

theorem makeSub_within {t t' : Tree} {id : Nat} {cs : List Constant} {e : Expr} {s : Sub} (hok : TablesOK t.cfg)
    (hvar : ∀ (v : Nat) (d : Domain), t.cfg.domains[v]? = some d → d.attr.var = v)
    (hst : SpecialTyped t.cfg.domains e) (hs : ∀ v, (strTable t'.cfg v).length < invalidId) (hw : Within t.cfg)
    (h : t.makeSub id cs e = .ok (some s, t')) : Within t'.cfg := by
  unfold Tree.makeSub at h
  dsimp only at h
  split at h
  · cases h
  · cases h
  · split at h
    · cases h
    · rename_i e1 c1 h1
      split at h
      · cases h
      · rename_i e2 c2 h2
        split at h
        · cases h
        · rename_i e3 h3
          split at h
          · cases h
          · cases h
          · split at h
            · cases h
            · rename_i e4 h4
              split at h
              · cases h
              · rename_i c5 h5
                split at h
                · cases h
                · rename_i h6
                  cases h
                  obtain ⟨f1, f2⟩ := finishSub_strs h6
                  have g := (assignStr_grow h1).trans (assignIenum_grow h2)
                  have htab : ∀ v, strTable c2 v = strTable c5 v := fun v => (strTable_of_maps (changeBoundaries_strs h5) v).symm
                  refine Within.of_same ?_ f2 f1
                  refine changeBoundaries_within g.base.domains (by rw [g.base.domains]; exact hvar) (g.ok hok) (fun v => ?_) hw ?_ h5
                  · rw [htab v, ← strTable_of_maps f1 v]; exact hs v
                  · intro v d hd ht hv
                    obtain ⟨a1, a2, a3⟩ := assignStr_other h1
                    rw [sortLists_vars, assignConstants_vars h4, fixFloat_vars h3, assignIenum_vars h2, a1] at hv
                    rw [strTable_of_maps (assignIenum_strs h2) v]
                    exact a3 v hv (capVars_freq hst (by rw [← g.base.domains]; exact hd) ht)

theorem changeBoundaries_api_within {t t' : Tree} {e : Expr} (hok : TablesOK t.cfg)
    (hvar : ∀ (v : Nat) (d : Domain), t.cfg.domains[v]? = some d → d.attr.var = v)
    (hst : SpecialTyped t.cfg.domains e) (hs : ∀ v, (strTable t'.cfg v).length < invalidId) (hw : Within t.cfg)
    (h : t.changeBoundaries e = .ok t') : Within t'.cfg := by
  unfold Tree.changeBoundaries at h
  split at h
  · cases h
  · rename_i e1 c1 h1
    split at h
    · cases h
    · rename_i e2 c2 h2
      split at h
      · cases h
      · rename_i e3 h3
        split at h
        · cases h
        · rename_i c5 h5
          cases h
          have g := (assignStr_grow h1).trans (assignIenum_grow h2)
          refine changeBoundaries_within g.base.domains (by rw [g.base.domains]; exact hvar) (g.ok hok) (fun v => ?_) hw ?_ h5
          · rw [← strTable_of_maps (changeBoundaries_strs h5) v]; exact hs v
          · intro v d hd ht hv
            obtain ⟨a1, a2, a3⟩ := assignStr_other h1
            rw [fixFloat_vars h3, sortLists_vars, assignIenum_vars h2, a1] at hv
            rw [strTable_of_maps (assignIenum_strs h2) v]
            exact a3 v hv (capVars_freq hst (by rw [← g.base.domains]; exact hd) ht)

theorem step_within {R : Rounding} {w w' : World} {o : Op} (hok : TablesOK w.tree.cfg) (hlen : w.tree.cfg.domains.length < invalidId)
    (hvar : ∀ (v : Nat) (d : Domain), w.tree.cfg.domains[v]? = some d → d.attr.var = v)
    (ho : MakesRoom w.tree.cfg.domains o) (hs : ∀ v, (strTable w'.tree.cfg v).length < invalidId) (hw : Within w.tree.cfg)
    (h : w.step R o = .ok w') : Within w'.tree.cfg := by
  cases o with
  | insert q =>
    obtain ⟨b, hi⟩ := step_insert h
    exact insert_within hi hw hs
  | makeSub q =>
    simp only [World.step] at h
    split at h
    · cases h
    · rename_i h1
      cases h
      exact makeSub_within hok hvar (specialTyped_parse ho.2.1) hs hw h1
    · rename_i h1
      have := (C28_make_sub_iff _ _ _ _ _ _ hlen h1).2 ⟨ho.1, ho.2.2⟩
      cases this
  | insertSub k =>
    simp only [World.step, Tree.insertSub] at h
    repeat' split at h
    all_goals first
      | (cases h; done)
      | (cases h; exact hw)
      | (rename_i hi; split at hi; · cases hi
         · cases hi; cases h; exact hw)
  | changeBoundaries e =>
    simp only [World.step] at h
    repeat' split at h
    all_goals first
      | (cases h; done)
      | (rename_i hi; cases h; exact changeBoundaries_api_within hok hvar (specialTyped_parse ho.2) hs hw hi)

theorem makesRoom_ext {a b : Config} (h : CfgExt a b) {o : Op} (ho : MakesRoom a.domains o) : MakesRoom b.domains o := by
  cases o with
  | makeSub q => exact ⟨(accepts_ext h _).2 ho.1, (specialTyped_ext h _).2 ho.2.1, ho.2.2⟩
  | changeBoundaries e => exact ⟨(accepts_ext h _).2 ho.1, (specialTyped_ext h _).2 ho.2⟩
  | _ => trivial

theorem run_within {R : Rounding} {ops : List Op} : ∀ {w w' : World}, TablesOK w.tree.cfg → w.tree.cfg.domains.length < invalidId →
    (∀ (v : Nat) (d : Domain), w.tree.cfg.domains[v]? = some d → d.attr.var = v) → (∀ o ∈ ops, MakesRoom w.tree.cfg.domains o) →
    (∀ v, (strTable w'.tree.cfg v).length < invalidId) → Within w.tree.cfg → w.run R ops = .ok w' → Within w'.tree.cfg := by
  induction ops with
  | nil => intro w w' _ _ _ _ _ hw h; cases h; exact hw
  | cons o os ih =>
    intro w w' hok hlen hvar ho hs hw h
    simp only [World.run] at h
    split at h
    · cases h
    · rename_i w1 h1
      have hx := step_ext h1
      have hx2 := run_ext h
      refine ih (hx.ok hok) ?_ (ext_doms hx hvar).1 (fun o h => makesRoom_ext hx (ho o (List.mem_cons_of_mem _ h))) hs ?_ h
      · rw [show w1.tree.cfg.domains.length = w.tree.cfg.domains.length by simpa using congrArg List.length hx.doms]; exact hlen
      · exact step_within hok hlen hvar (ho o List.mem_cons_self)
          (fun v => Nat.lt_of_le_of_lt (hx2.strs v).length_le (hs v)) hw h1

/-- C30 for all histories (partial): when the calls that intern without limit (`betree_make_sub`, `betree_change_boundaries`) are made
with well-typed expressions and the constants these need, the number of strings of an attribute never exceeds its limit, which those
calls raise as they need.  Otherwise it may: `C30_rejected_make_sub_exceeds`. -/
theorem C30_count_within_current_bound_partial (R : Rounding) (cap min : Nat) (decls : List (Str × Decl × Bool)) (ops : List Op) (w : World)
    (h : (World.init (makeTree cap min decls)).run R ops = .ok w) (hlen : decls.length < 2 ^ 64 - 1)
    (ho : ∀ o ∈ ops, MakesRoom (makeTree cap min decls).cfg.domains o)
    (hs : ∀ m ∈ w.tree.cfg.stringMaps, m.values.length < 2 ^ 64 - 1) (m : StringMap) (hm : m ∈ w.tree.cfg.stringMaps) (d : Domain)
    (hd : w.tree.cfg.domains[m.attr.var]? = some d) (ht : d.bound.ty = .string ∨ d.bound.ty = .strList) (n : Nat)
    (hn : d.bound.hi = .s n) : m.values.length ≤ n + 1 := by
  have hok := run_tablesOK h
  have hl : (World.init (makeTree cap min decls)).tree.cfg.domains.length < invalidId := by
    show (makeTree cap min decls).cfg.domains.length < _
    rw [makeTree_domains, List.length_mapIdx]; exact hlen
  have hsm : ∀ v, (strTable w.tree.cfg v).length < invalidId := by
    intro v
    unfold strTable
    split
    · simp [invalidId]
    · rename_i m hm
      exact hs m (List.mem_of_find?_eq_some hm)
  have := run_within (makeTree_tablesOK cap min decls) hl (makeTree_doms cap min decls).1 ho hsm (by
    intro v d n _ _ _
    show (strTable (makeTree cap min decls).cfg v).length ≤ _
    rw [makeTree_table]; simp) h
  have := this _ d n hd ht hn
  rw [map_table hok hm] at this
  exact this

/-! ### where the limit does not hold -/

/-- how many strings each attribute has after a history -/
def stringCounts (decls : List (Str × Decl × Bool)) (ops : List Op) : Option (List (Nat × Nat)) :=
  match (World.init (makeTree 3 0 decls)).run exactRounding ops with
  | .error _ => none
  | .ok w => some (w.tree.cfg.stringMaps.map fun m => (m.attr.var, m.values.length))

def exIn (name : String) (ks : List String) : Expr :=
  .leaf (.set .isIn (.var ⟨name.toList, 0⟩) (.strList (ks.map fun k => ⟨k.toList, 0, 0⟩)))

def oneString : List (Str × Decl × Bool) := [("s".toList, .string 1, false)]

/-- `s = "a" or s = "b"` needs two strings of an attribute limited to one and is accepted; only one gets interned. -/
theorem C30_predicates_counted_apart :
    acceptedIds oneString [.insert ⟨1, [], .or (exStr "s" "a") (exStr "s" "b")⟩] = some [1] ∧
    stringCounts oneString [.insert ⟨1, [], .or (exStr "s" "a") (exStr "s" "b")⟩] = some [(0, 1)] ∧
    acceptedIds oneString [.insert ⟨1, [], exIn "s" ["a", "b"]⟩] = some [] :=
  ⟨by decide +kernel, by decide +kernel, by decide +kernel⟩

/-- `S = "b"` is accepted on a full attribute where `s = "b"` is refused. -/
theorem C30_upper_case_bypasses :
    acceptedIds oneString [.insert ⟨1, [], exStr "s" "a"⟩, .insert ⟨2, [], exStr "s" "b"⟩] = some [1] ∧
    acceptedIds oneString [.insert ⟨1, [], exStr "s" "a"⟩, .insert ⟨2, [], exStr "S" "b"⟩] = some [2, 1] :=
  ⟨by decide +kernel, by decide +kernel⟩

/-- `s in ("a", "a")` needs one string and is refused by an attribute limited to one. -/
theorem C30_repeated_constant_refused : acceptedIds oneString [.insert ⟨1, [], exIn "s" ["a", "a"]⟩] = some [] := by decide +kernel

/-- A `betree_make_sub` that returns NULL (here: `s` is no boolean) leaves its strings interned without having made room, and after
that plain insertion is no longer limited either: 1 place, 3 strings. -/
theorem C30_rejected_make_sub_exceeds :
    let reject : Op := .makeSub ⟨1, [], .and (exIn "s" ["a", "b"]) (.leaf (.boolVar ⟨"s".toList, 0⟩))⟩
    acceptedIds oneString [reject] = some [] ∧ stringCounts oneString [reject] = some [(0, 2)] ∧
    acceptedIds oneString [reject, .insert ⟨2, [], exStr "s" "c"⟩] = some [2] ∧
    stringCounts oneString [reject, .insert ⟨2, [], exStr "s" "c"⟩] = some [(0, 3)] :=
  ⟨by decide +kernel, by decide +kernel, by decide +kernel, by decide +kernel⟩

/-- With a limit of 0 any number of strings is accepted, without being interned; if some other attribute has strings already, the next
insertion reads a table that was never initialised. -/
theorem C30_limit_zero :
    acceptedIds [("s".toList, .string 0, false)] [.insert ⟨1, [], exStr "s" "a"⟩, .insert ⟨2, [], exStr "s" "b"⟩] = some [2, 1] ∧
    stringCounts [("s".toList, .string 0, false)] [.insert ⟨1, [], exStr "s" "a"⟩, .insert ⟨2, [], exStr "s" "b"⟩] = some [(0, 0)] ∧
    acceptedIds [("s".toList, .string 0, false), ("t".toList, .string 9, false)]
      [.insert ⟨1, [], exStr "t" "a"⟩, .insert ⟨2, [], exStr "s" "a"⟩, .insert ⟨3, [], exStr "s" "a"⟩] = none :=
  ⟨by decide +kernel, by decide +kernel, by decide +kernel⟩

/-! ### concrete cases -/

def limDecls : List (Str × Decl × Bool) := [("s".toList, .string 3, true), ("sl".toList, .strList 2, true), ("i".toList, .int 0 9, true)]
def limOps : List Op :=
  [.insert ⟨1, [], .and (exIn "s" ["a", "b"]) (exStr "s" "a")⟩, .insert ⟨2, [], exSl "sl" ["x", "y"]⟩,
   .insert ⟨3, [], exIn "s" ["c", "d"]⟩]
def limWorld : World :=
  match (World.init (makeTree 2 0 limDecls)).run exactRounding limOps with
  | .ok w => w
  | .error _ => World.init (makeTree 2 0 limDecls)

theorem limWorld_run : (World.init (makeTree 2 0 limDecls)).run exactRounding limOps = .ok limWorld := by
  have h : (match (World.init (makeTree 2 0 limDecls)).run exactRounding limOps with | .ok _ => true | .error _ => false) = true := by
    decide +kernel
  unfold limWorld
  split at h
  · rename_i hw; rw [hw]
  · cases h

theorem limOps_ok : ∀ o ∈ limOps, ∃ q, o = .insert q ∧ LowerStrs q.expr := by
  intro o ho
  simp only [limOps, List.mem_cons, List.not_mem_nil, or_false] at ho
  rcases ho with rfl | rfl | rfl <;> refine ⟨_, rfl, ?_⟩ <;> unfold LowerStrs <;> decide

/-- the history of the three insertions, the last of which is refused -/
example : limWorld.live.map Req.id = [2, 1] ∧ limWorld.tree.cfg.stringMaps.map (fun m => m.values.length) = [2, 2] := by
  constructor <;> decide +kernel

example : ∀ m ∈ limWorld.tree.cfg.stringMaps, m.attr.var = 0 → m.values.length ≤ 3 ∧ m.values.Nodup :=
  C30_count_never_exceeds_bound exactRounding 2 0 limDecls limOps limWorld limWorld_run (fun o ho => (limOps_ok o ho).imp fun _ h => h.1)
    0 "s".toList 3 true (.inl rfl) (by decide) (by decide)

/-- `s in ("c", "d")` is refused there, and the theorem says why -/
example (b : Bool) (t : Tree) (hi : limWorld.tree.insert exactRounding 4 [] (parseBuild (exIn "s" ["c", "d"])) = .ok (b, t)) : b = false :=
  C30_refuses_partial exactRounding 2 0 limDecls limOps limWorld limWorld_run limOps_ok
    (by intro d hd; simp only [limDecls, List.mem_cons, List.not_mem_nil, or_false] at hd
        rcases hd with rfl | rfl | rfl <;> simp [PositiveDecl])
    (by decide) ⟨4, [], exIn "s" ["c", "d"]⟩ (by unfold LowerStrs; decide) (by decide)
    _ (List.mem_singleton.2 rfl)
    ⟨_, _, 3, rfl, by decide +kernel, ["a".toList, "b".toList, "c".toList, "d".toList], by decide, by decide +kernel, by decide⟩ b t hi

example : ∃ t, limWorld.tree.insert exactRounding 4 [] (parseBuild (exIn "s" ["c", "d"])) = .ok (false, t) := by
  have h : (match limWorld.tree.insert exactRounding 4 [] (parseBuild (exIn "s" ["c", "d"])) with | .ok (false, _) => true | _ => false) = true := by
    decide +kernel
  split at h
  · rename_i hx; exact ⟨_, hx⟩
  · cases h

/-- a mixed history: `betree_make_sub` raises the limit from 1 to 2 -/
example : let ops : List Op := [.insert ⟨1, [], exStr "s" "a"⟩, .makeSub ⟨2, [], exStr "s" "b"⟩, .insertSub 0]
    (∀ o ∈ ops, MakesRoom (makeTree 3 0 oneString).cfg.domains o) ∧ stringCounts oneString ops = some [(0, 2)] := by
  refine ⟨?_, by decide +kernel⟩
  intro o ho
  simp only [List.mem_cons, List.not_mem_nil, or_false] at ho
  rcases ho with rfl | rfl | rfl
  · trivial
  · exact ⟨⟨.string, by simp, by decide +kernel⟩, trivial, by intro f hf; simp [exStr, caps] at hf⟩
  · trivial

end BeTree
