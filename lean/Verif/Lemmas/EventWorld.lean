import Verif.Lemmas.EventMemory
import Verif.Lemmas.Sort
/-
Events, searches and reports as programs on the heap.
-/
namespace BeTree
open Spec

/-! ### freeing an event -/

theorem freeCaps_does (cs : List (Nat × Nat)) : Gone (freeCaps cs) (cs.map Prod.fst ++ cs.map Prod.snd) := by
  induction cs with
  | nil => exact Does.pure (.refl _) rfl
  | cons c cs ih =>
    obtain ⟨b, ns⟩ := c
    refine Does.free (L' := b :: (cs.map Prod.fst ++ cs.map Prod.snd)) ?_ (Does.free (.refl _) ih)
    simp only [List.map_cons]
    blocks

theorem freeVal_does (v : ValImg) : Gone (freeVal v) v.blocks := by
  cases v with
  | plain => exact Does.pure (.refl _) rfl
  | str b => exact Does.freeLast (.refl _)
  | ints l a => exact Gone.then (freeOpt_does a) (Does.freeLast (.refl _)) (by simp only [ValImg.blocks]; blocks)
  | strs l a ss =>
    exact Gone.then (freeStrings_does ss) (Gone.then (freeOpt_does a) (Does.freeLast (.refl _)) (.refl _)) (by simp only [ValImg.blocks]; blocks)
  | segs l a ss =>
    exact Gone.then (freeStrings_does ss) (Gone.then (freeOpt_does a) (Does.freeLast (.refl _)) (.refl _)) (by simp only [ValImg.blocks]; blocks)
  | caps l a cs =>
    exact Gone.then (freeCaps_does cs) (Gone.then (freeOpt_does a) (Does.freeLast (.refl _)) (.refl _)) (by simp only [ValImg.blocks]; blocks)

theorem freeVars_does (vs : List VarImg) : Gone (freeVars vs) (vs.flatMap VarImg.blocks) := by
  induction vs with
  | nil => exact Does.pure (.refl _) rfl
  | cons v vs ih =>
    refine Does.free (L' := v.value.blocks ++ v.var :: vs.flatMap VarImg.blocks) ?_ ?_
    · simp only [List.flatMap_cons, VarImg.blocks]; blocks
    · exact Gone.then (freeVal_does v.value) (Does.free (.refl _) ih) (.refl _)

theorem freeEvent_does (e : EventImg) : Gone (freeEvent e) e.blocks :=
  Gone.then (freeVars_does e.vars) (Gone.then (freeOpt_does e.array) (Does.freeLast (.refl _)) (.refl _))
    (by simp only [EventImg.blocks]; blocks)

theorem freeReport_does (r : ReportImg) : Gone (freeReport r) (r.report :: r.subs.toList) :=
  Gone.then (freeOpt_does r.subs) (Does.freeLast (.refl _)) (by blocks)

/-! ### counting -/

theorem fitsVal_blocks {v : Value} {i : ValImg} (h : FitsVal v i) : i.blocks.length = valueBlocks v := by
  have key : ∀ {α : Type} {l : List α} {a : Option Nat}, a.isSome = !l.isEmpty → 1 + a.toList.length = arrayBlocks l.length := by
    intro α l a h
    cases l <;> cases a <;> simp_all [arrayBlocks]
  cases v <;> cases i <;> simp only [FitsVal] at h <;> try exact h.elim
  all_goals first | rfl | skip
  · have := key h
    simp only [ValImg.blocks, valueBlocks, List.length_cons]; omega
  all_goals
    obtain ⟨h, hn⟩ := h
    have := key h
    simp only [ValImg.blocks, valueBlocks, List.length_cons, List.length_append, List.length_map]; omega

theorem fitsVars_blocks {l : List EventVar} {is : List VarImg}
    (h : List.Forall₂ (fun (v : EventVar) (i : VarImg) => FitsVal v.value i.value) l is) :
    (is.flatMap VarImg.blocks).length = (l.map fun v => 2 + valueBlocks v.value).sum := by
  induction h with
  | nil => rfl
  | cons hf _ ih =>
    simp only [List.flatMap_cons, List.length_append, List.map_cons, List.sum_cons, VarImg.blocks, List.length_cons, fitsVal_blocks hf, ih]
    omega

theorem fitsEvent_blocks {l : List EventVar} {e : EventImg} (h : FitsEvent l e) : e.blocks.length = eventBlocks l := by
  obtain ⟨h1, h2⟩ := h
  have ha : 1 + e.array.toList.length = arrayBlocks l.length := by
    revert h1
    cases l <;> cases e.array <;> simp [arrayBlocks]
  simp only [EventImg.blocks, List.length_cons, List.length_append, fitsVars_blocks h2, eventBlocks]
  omega

/-! ### preparing an event -/

theorem insertBy_map {α β γ : Type} [LT β] [DecidableLT β] (key : α → β) (f : γ → α) (x : γ) (l : List γ) :
    (insertBy (fun p => key (f p)) x l).map f = insertBy key (f x) (l.map f) := by
  induction l with
  | nil => rfl
  | cons y l ih =>
    simp only [insertBy, List.map_cons]
    split
    · rw [List.map_cons, ih]
    · rfl

theorem sortBy_map {α β γ : Type} [LT β] [DecidableLT β] (key : α → β) (f : γ → α) (l : List γ) :
    (sortBy (fun p => key (f p)) l).map f = sortBy key (l.map f) := by
  induction l with
  | nil => rfl
  | cons y l ih => simp only [sortBy, List.map_cons, insertBy_map, ih]

theorem dedupStrsFrom_does (x : StrVal) (ps : List (StrVal × Nat)) :
    Does (dedupStrsFrom x ps) (ps.map Prod.snd) (fun r M => M.Perm r ∧ r.length = (dedupFrom StrVal.str x (ps.map Prod.fst)).length) := by
  induction ps generalizing x with
  | nil => exact Does.pure (.refl _) ⟨.refl _, rfl⟩
  | cons p ps ih =>
    obtain ⟨y, b⟩ := p
    simp only [dedupStrsFrom, List.map_cons, dedupFrom]
    split
    · exact Does.free (.refl _) (ih x)
    · refine Does.seq (P := ps.map Prod.snd) (L' := [b]) (by blocks) (ih y) fun r M hM => ?_
      refine Does.pure (L' := b :: M) (by blocks) ⟨hM.1.cons _, by simp [hM.2]⟩

theorem dedupStrs_does (ps : List (StrVal × Nat)) :
    Does (dedupStrsMem ps) (ps.map Prod.snd) (fun r M => M.Perm r ∧ r.length = (dedupBy StrVal.str (ps.map Prod.fst)).length) := by
  cases ps with
  | nil => exact Does.pure (.refl _) ⟨.refl _, rfl⟩
  | cons p ps =>
    obtain ⟨y, b⟩ := p
    refine Does.seq (P := ps.map Prod.snd) (L' := [b]) (by simp only [List.map_cons]; blocks) (dedupStrsFrom_does y ps) fun r M hM => ?_
    refine Does.pure (L' := b :: M) (by blocks) ⟨hM.1.cons _, by simp [dedupBy, hM.2]⟩

theorem sorted_empty {α β : Type} [LT β] [DecidableLT β] [DecidableEq β] [LinLT β] (key : α → β) (l : List α) :
    (dedupBy key (sortBy key l)).isEmpty = l.isEmpty := by
  have h := (sortBy_perm key l).length_eq
  cases hl : sortBy key l with
  | nil =>
    rw [hl] at h
    have : l = [] := List.eq_nil_of_length_eq_zero h.symm
    rw [this]; rfl
  | cons x xs =>
    cases l with
    | nil => rw [hl] at h; cases h
    | cons y ys => rfl

theorem sortValue_does {v : Value} {i : ValImg} (h : FitsVal v i) :
    Does (sortValueMem v i) i.blocks (fun j M => M.Perm j.blocks ∧ FitsVal (sortValue v) j) := by
  cases v <;> cases i <;> simp only [FitsVal] at h <;> try exact h.elim
  case strList.strs l hd a ss =>
    obtain ⟨h1, h2⟩ := h
    have hp := sortBy_perm (fun p : StrVal × Nat => p.1.str) (l.zip ss)
    have hs : (l.zip ss).map Prod.snd = ss := List.map_snd_zip (by omega)
    have hf : (l.zip ss).map Prod.fst = l := List.map_fst_zip (by omega)
    have hsp : ((sortBy (fun p : StrVal × Nat => p.1.str) (l.zip ss)).map Prod.snd).Perm ss := by
      have := hp.map Prod.snd
      rwa [hs] at this
    refine Does.seq (P := (sortBy (fun p : StrVal × Nat => p.1.str) (l.zip ss)).map Prod.snd) (L' := hd :: a.toList) ?_
      (dedupStrs_does _) fun r M hM => ?_
    · simp only [ValImg.blocks]
      refine List.Perm.trans ?_ (hsp.symm.append_right _)
      blocks
    · refine Does.pure (L' := M ++ hd :: a.toList) (.refl _) ⟨?_, ?_⟩
      · simp only [ValImg.blocks]
        refine (hM.1.append_right _).trans ?_
        blocks
      · refine ⟨?_, ?_⟩
        · rw [h1, sorted_empty]
        · rw [hM.2, sortBy_map StrVal.str Prod.fst, hf]
  case intList.ints l hd a =>
    refine Does.pure (.refl _) ⟨.refl _, ?_⟩
    simp only [sortValue, FitsVal, h, sorted_empty]
  all_goals exact Does.pure (.refl _) ⟨.refl _, h⟩

theorem fillStrs_length {cfg : Config} {var : Nat} {l l' : List StrVal} (h : fillStrs cfg var l = .ok l') : l'.length = l.length := by
  induction l generalizing l' with
  | nil => cases h; rfl
  | cons s ss ih =>
    simp only [fillStrs] at h
    repeat' split at h
    all_goals first | (cases h; done) | skip
    rename_i h2
    cases h
    simp [ih h2]

theorem fillCaps_length {cfg : Config} {var : Nat} {l l' : List FreqCap} (h : fillCaps cfg var l = .ok l') : l'.length = l.length := by
  induction l generalizing l' with
  | nil => cases h; rfl
  | cons s ss ih =>
    simp only [fillCaps] at h
    repeat' split at h
    all_goals first | (cases h; done) | skip
    rename_i h2
    cases h
    simp [ih h2]

theorem isEmpty_length {α β : Type} {l : List α} {l' : List β} (h : l'.length = l.length) : l'.isEmpty = l.isEmpty := by
  cases l <;> cases l' <;> simp_all

theorem fillValue_fits {cfg : Config} {var : Nat} {ty : VType} {v x : Value} {i : ValImg} (h : fillValue cfg var ty v = .ok x)
    (hf : FitsVal v i) : FitsVal x (i.retype x) ∧ (i.retype x).blocks = i.blocks := by
  cases v <;> cases i <;> simp only [FitsVal] at hf <;> simp only [fillValue] at h
  case strList.strs l hd a ss =>
    split at h
    · cases hs : fillStrs cfg var l with
      | error e => rw [hs] at h; cases h
      | ok l' =>
        rw [hs] at h; cases h
        have := fillStrs_length hs
        exact ⟨⟨by rw [hf.1, isEmpty_length this], by rw [hf.2, this]⟩, rfl⟩
    · cases h
  case freq.caps l hd a cs =>
    split at h
    · cases hs : fillCaps cfg var l with
      | error e => rw [hs] at h; cases h
      | ok l' =>
        rw [hs] at h; cases h
        have := fillCaps_length hs
        exact ⟨⟨by rw [hf.1, isEmpty_length this], by rw [hf.2, this]⟩, rfl⟩
    · cases h
  case string.str s b =>
    split at h
    · cases hs : fillStr cfg var s with
      | error e => rw [hs] at h; cases h
      | ok l' => rw [hs] at h; cases h; exact ⟨trivial, rfl⟩
    · cases h
  case intList.ints l hd a =>
    split at h
    · cases h; exact ⟨hf, rfl⟩
    · cases h
      cases a <;> simp_all [ValImg.retype, FitsVal, ValImg.blocks]
    · cases h
      cases a <;> simp_all [ValImg.retype, FitsVal, ValImg.blocks]
    · cases h
      cases a <;> simp_all [ValImg.retype, FitsVal, ValImg.blocks]
    · cases h
  all_goals
    repeat' split at h
    all_goals first | (cases h; done) | (cases h; exact ⟨hf, rfl⟩)

theorem sortVars_does {cfg : Config} {ev : List EventVar} {vars : List (Nat × Value)} {is : List VarImg}
    (h : fillEvent cfg ev = .ok vars) (hf : List.Forall₂ (fun (v : EventVar) (i : VarImg) => FitsVal v.value i.value) ev is) :
    Does (sortVarsMem vars is) (is.flatMap VarImg.blocks) (fun js M => M.Perm (js.flatMap VarImg.blocks) ∧
      List.Forall₂ (fun (p : Nat × Value) (j : VarImg) => FitsVal (sortValue p.2) j.value) vars js) := by
  induction hf generalizing vars with
  | nil => cases h; exact Does.pure (.refl _) ⟨.refl _, .nil⟩
  | cons hv _ ih =>
    rename_i v i vs is _
    simp only [fillEvent] at h
    repeat' split at h
    all_goals first | (cases h; done) | skip
    rename_i hx _ _ hr
    cases h
    obtain ⟨h1, h2⟩ := fillValue_fits hx hv
    simp only [sortVarsMem]
    refine Does.seq (P := (i.value.retype _).blocks) (L' := i.var :: i.attr :: is.flatMap VarImg.blocks) ?_ (sortValue_does h1)
      fun x M hM => ?_
    · simp only [List.flatMap_cons, VarImg.blocks, h2]; blocks
    · refine Does.seq (P := is.flatMap VarImg.blocks) (L' := i.var :: i.attr :: M) (by blocks) (ih hr) fun r M' hM' => ?_
      refine Does.pure (L' := M' ++ i.var :: i.attr :: M) (.refl _) ⟨?_, .cons hM.2 hM'.2⟩
      simp only [List.flatMap_cons, VarImg.blocks]
      refine ((hM'.1.append_right _).trans ?_)
      refine List.Perm.trans (List.Perm.append_left _ ((hM.1.cons _).cons _)) ?_
      blocks

/-- the event of a text: its values are as without the heap, and what it leaves are its blocks -/
theorem eventFromString_does {cfg : Config} {text : Str} {ev : List EventVar} {vars : List (Nat × Value)}
    (he : eventFromString text = .ok ev) (h : fillEvent cfg ev = .ok vars) :
    Does (eventFromStringMem cfg text) [] (fun r M => r.1 = vars.map (fun p => (p.1, sortValue p.2)) ∧ M.Perm r.2.blocks) := by
  unfold eventFromStringMem
  refine Does.seq (L' := []) (by simp) (parseEventMem_does text) fun x M hx => ?_
  rcases hx with ⟨e1, _⟩ | ⟨ev', i, e1, rfl, hn, hM⟩
  · simp only [eventFromString, e1] at he; cases he
  · simp only [eventFromString, e1] at he
    cases he
    refine Does.perm ?_ ((by simpa using hM) : (M ++ []).Perm i.blocks)
    refine Does.lift h ?_
    refine Does.seq (P := i.vars.flatMap VarImg.blocks) (L' := i.event :: i.array.toList) (by simp only [EventImg.blocks]; blocks)
      (sortVars_does h hn.2) fun js M hM => ?_
    refine Does.pure (L' := M ++ i.event :: i.array.toList) (.refl _) ⟨rfl, ?_⟩
    simp only [EventImg.blocks]
    refine (hM.1.append_right _).trans ?_
    blocks

/-! ### searching -/

theorem addSubsToEval_does (ss : List Sub) : ∀ (count capacity b : Nat),
    Does (addSubsToEval count capacity b ss) [b] (fun c M => M = [c]) := by
  induction ss with
  | nil => intro _ _ b; exact Does.pure (.refl _) rfl
  | cons s ss ih =>
    intro count capacity b
    simp only [addSubsToEval]
    split
    · exact Does.realloc (.refl _) fun c => ih _ _ c
    · exact ih _ _ b

theorem addSubs_does (ids : List Nat) : ∀ (matched : Nat) (b : Option Nat), (matched = 0 → b = none) →
    Does (addSubsMem matched b ids) b.toList (fun c M => M = c.toList ∧ (matched + ids.length = 0 → c = none)) := by
  induction ids with
  | nil => intro m b h; exact Does.pure (.refl _) ⟨rfl, by simpa using h⟩
  | cons i ids ih =>
    intro m b h
    simp only [addSubsMem]
    have hn : ∀ c, Does (addSubsMem (m + 1) (some c) ids) [c] (fun c M => M = c.toList ∧ (m + (i :: ids).length = 0 → c = none)) :=
      fun c => (ih (m + 1) (some c) (by simp)).mono fun a M hM => ⟨hM.1, by simp⟩
    by_cases hm : m = 0
    · rw [if_pos hm]
      rw [h hm]
      exact Does.malloc fun c => hn c
    · rw [if_neg hm]
      cases b with
      | none => exact Does.malloc fun c => hn c
      | some b => exact Does.realloc (.refl _) fun c => hn c

theorem all_sub (i : EventImg) : ∀ b ∈ i.all, b ∈ i.blocks := by
  have hv : ∀ v : ValImg, ∀ b ∈ v.all, b ∈ v.blocks := by
    intro v b hb
    cases v <;> simp only [ValImg.all, ValImg.blocks] at hb ⊢ <;> try exact hb
    simp only [List.mem_cons, List.mem_append, List.mem_flatMap, List.mem_map, List.not_mem_nil, or_false] at hb ⊢
    rcases hb with h | h | ⟨c, hc, rfl | rfl⟩
    · exact .inl h
    · exact .inr (.inl h)
    · exact .inr (.inr (.inl ⟨c, hc, rfl⟩))
    · exact .inr (.inr (.inr ⟨c, hc, rfl⟩))
  intro b hb
  simp only [EventImg.all, EventImg.blocks, List.mem_cons, List.mem_append, List.mem_flatMap, VarImg.blocks] at hb ⊢
  rcases hb with h | h | ⟨v, hv1, h | h | h⟩
  · exact .inl h
  · exact .inr (.inl h)
  · exact .inr (.inr ⟨v, hv1, .inl h⟩)
  · exact .inr (.inr ⟨v, hv1, .inr (.inl h)⟩)
  · exact .inr (.inr ⟨v, hv1, .inr (.inr (hv _ _ h))⟩)

def ReportImg.blocks (r : ReportImg) : List Nat := r.report :: r.subs.toList

/-- a report and its blocks: no array before the first match -/
def FitsReport (rep : Report) (r : ReportImg) : Prop := rep.matched = 0 → r.subs = none

theorem searchWithPreds_collect {geo : GeoTest} {cfg : Config} {env : Env} {root : CNode} {rep rep' : Report}
    (h : searchWithPreds geo cfg env root rep = .ok rep') :
    (∃ subs, root.collect cfg env = .ok subs) ∧ ∃ ids, rep'.subs = rep.subs ++ ids ∧ rep'.matched = rep.matched + ids.length := by
  simp only [searchWithPreds] at h
  repeat' split at h
  all_goals first | (cases h; done) | skip
  rename_i hc _ _ _ _
  cases h
  exact ⟨⟨_, hc⟩, _, rfl, rfl⟩

theorem existsWithPreds_collect {geo : GeoTest} {cfg : Config} {env : Env} {root : CNode} {b : Bool}
    (h : existsWithPreds geo cfg env root = .ok b) : ∃ subs, root.collect cfg env = .ok subs := by
  simp only [existsWithPreds] at h
  repeat' split at h
  all_goals first | cases h | skip
  rename_i hc
  exact ⟨_, hc⟩

theorem searchFilled_does {geo : GeoTest} {w : MemWorld} {st wt gn : Objs} {dn L : List Nat} (hw : Owned w st wt gn dn)
    (hL : ∀ b ∈ Objs.flat st, b ∈ L) {vars : List (Nat × Value)} {i : EventImg} {rep : Report} {r : ReportImg} (hr : FitsReport rep r)
    {a : Option Report}
    (h : (if validateVariables w.world.tree.cfg.domains (makeEnvironment w.world.tree.cfg.domains.length vars
          (List.replicate w.world.tree.cfg.domains.length none)) then
        (searchWithPreds geo w.world.tree.cfg (makeEnvironment w.world.tree.cfg.domains.length vars
          (List.replicate w.world.tree.cfg.domains.length none)) w.world.tree.root rep).map some
      else .ok none) = .ok a) :
    Does (w.searchFilled geo vars i rep r) (i.blocks ++ (r.blocks ++ L)) (fun x M => x.1 = a ∧ FitsReport (a.getD rep) x.2 ∧
      ∃ N, M.Perm (i.blocks ++ (x.2.blocks ++ (N ++ L))) ∧ (a.isSome = true → N = [])) := by
  unfold MemWorld.searchFilled
  refine Does.malloc fun preds => ?_
  split at h
  · rename_i hv
    rw [if_pos hv]
    generalize makeEnvironment w.world.tree.cfg.domains.length vars (List.replicate w.world.tree.cfg.domains.length none) = env at *
    cases hs : searchWithPreds geo w.world.tree.cfg env w.world.tree.root rep with
    | error e => rw [hs] at h; cases h
    | ok rep' =>
      rw [hs] at h
      cases h
      obtain ⟨⟨subs, hc⟩, ids, hi, hm⟩ := searchWithPreds_collect hs
      refine Does.malloc fun undefined => Does.malloc fun pass => Does.malloc fun fail => Does.malloc fun sb => ?_
      refine Does.then (touchAll_does fun b hb => by simp [all_sub i b hb]) ?_
      refine Does.then (hw.read fun b hb => by simp [hL b hb]) ?_
      refine Does.lift hc ?_
      refine Does.seq (P := [sb]) (L' := fail :: pass :: undefined :: preds :: (i.blocks ++ (r.blocks ++ L))) (.refl _)
        (addSubsToEval_does subs _ _ sb) ?_
      rintro sb' _ rfl
      refine Does.lift rfl ?_
      refine Does.then (touch_does (by simp [ReportImg.blocks])) ?_
      have hd : rep'.subs.drop rep.subs.length = ids := by rw [hi]; simp
      rw [hd]
      refine Does.seq (P := r.subs.toList) (L' := sb' :: fail :: pass :: undefined :: preds :: (i.blocks ++ (r.report :: L))) ?_
        (addSubs_does ids rep.matched r.subs hr) ?_
      · simp only [ReportImg.blocks]; blocks
      rintro c _ ⟨rfl, hz⟩
      refine Does.free (L' := c.toList ++ fail :: pass :: undefined :: preds :: (i.blocks ++ (r.report :: L))) (by blocks) ?_
      refine Does.free (L' := c.toList ++ fail :: undefined :: preds :: (i.blocks ++ (r.report :: L))) (by blocks) ?_
      refine Does.free (L' := c.toList ++ undefined :: preds :: (i.blocks ++ (r.report :: L))) (by blocks) ?_
      refine Does.free (L' := c.toList ++ preds :: (i.blocks ++ (r.report :: L))) (by blocks) ?_
      refine Does.free (L' := c.toList ++ (i.blocks ++ (r.report :: L))) (by blocks) ?_
      refine Does.pure (.refl _) ⟨rfl, ?_, [], ?_, fun _ => rfl⟩
      · intro h0
        simp only [Option.getD_some] at h0
        exact hz (by omega)
      · simp only [ReportImg.blocks]; blocks
  · rename_i hv
    rw [if_neg hv]
    cases h
    refine Does.pure (.refl _) ⟨rfl, hr, [preds], by blocks, by simp⟩

theorem existsFilled_does {geo : GeoTest} {w : MemWorld} {st wt gn : Objs} {dn L : List Nat} (hw : Owned w st wt gn dn)
    (hL : ∀ b ∈ Objs.flat st, b ∈ L) {vars : List (Nat × Value)} {i : EventImg} {a : Bool}
    (h : existsWithPreds geo w.world.tree.cfg (makeEnvironment w.world.tree.cfg.domains.length vars
          (List.replicate w.world.tree.cfg.domains.length none)) w.world.tree.root = .ok a) :
    Does (w.existsFilled geo vars i) (i.blocks ++ L) (fun x M => x = a ∧ M.Perm (i.blocks ++ L)) := by
  unfold MemWorld.existsFilled
  obtain ⟨subs, hc⟩ := existsWithPreds_collect h
  refine Does.malloc fun preds => Does.malloc fun undefined => Does.malloc fun pass => Does.malloc fun fail => Does.malloc fun sb => ?_
  refine Does.then (touchAll_does fun b hb => by simp [all_sub i b hb]) ?_
  refine Does.then (hw.read fun b hb => by simp [hL b hb]) ?_
  refine Does.lift hc ?_
  refine Does.seq (P := [sb]) (L' := fail :: pass :: undefined :: preds :: (i.blocks ++ L)) (.refl _) (addSubsToEval_does subs _ _ sb) ?_
  rintro sb' _ rfl
  refine Does.lift h ?_
  refine Does.free (L' := fail :: pass :: undefined :: preds :: (i.blocks ++ L)) (.refl _) ?_
  refine Does.free (L' := fail :: undefined :: preds :: (i.blocks ++ L)) (by blocks) ?_
  refine Does.free (L' := undefined :: preds :: (i.blocks ++ L)) (by blocks) ?_
  refine Does.free (L' := preds :: (i.blocks ++ L)) (by blocks) ?_
  refine Does.free (L' := i.blocks ++ L) (by blocks) ?_
  exact Does.pure (.refl _) ⟨rfl, .refl _⟩

theorem searchText_does {geo : GeoTest} {w : MemWorld} {st wt gn : Objs} {dn L : List Nat} (hw : Owned w st wt gn dn)
    (hL : ∀ b ∈ Objs.flat st, b ∈ L) {text : Str} {rep : Report} {r : ReportImg} (hr : FitsReport rep r) {a : Option Report}
    (h : w.world.tree.searchText geo text rep = .ok a) :
    Does (w.searchText geo text rep r) (r.blocks ++ L) (fun x M => x.1 = a ∧ FitsReport (a.getD rep) x.2 ∧
      ∃ N, M.Perm (x.2.blocks ++ (N ++ L)) ∧ (a.isSome = true → N = [])) := by
  simp only [Tree.searchText] at h
  cases he : eventFromString text with
  | error e => rw [he] at h; cases h
  | ok ev =>
    rw [he] at h
    simp only [Tree.search, eventEnv] at h
    cases hf : fillEvent w.world.tree.cfg ev with
    | error e => rw [hf] at h; cases h
    | ok vars =>
      rw [hf] at h
      unfold MemWorld.searchText
      refine Does.seq (P := []) (L' := r.blocks ++ L) (.refl _) (eventFromString_does he hf) ?_
      rintro ⟨vs, i⟩ M ⟨rfl, hM⟩
      refine Does.perm ?_ (hM.append_right _)
      refine Does.seq (P := i.blocks ++ (r.blocks ++ L)) (L' := []) (by simp) (searchFilled_does hw hL hr h) ?_
      rintro ⟨a', r'⟩ M' ⟨rfl, hr', N, hM', hN⟩
      rw [List.append_nil]
      refine Does.seq hM' (freeEvent_does i) ?_
      rintro _ _ rfl
      exact Does.pure (.refl _) ⟨rfl, hr', N, .refl _, hN⟩

theorem existsText_does {geo : GeoTest} {w : MemWorld} {st wt gn : Objs} {dn L : List Nat} (hw : Owned w st wt gn dn)
    (hL : ∀ b ∈ Objs.flat st, b ∈ L) {text : Str} {a : Bool} (h : w.world.tree.existsText geo text = .ok a) :
    Does (w.existsText geo text) L (fun x M => x = a ∧ M = L) := by
  simp only [Tree.existsText] at h
  cases he : eventFromString text with
  | error e => rw [he] at h; cases h
  | ok ev =>
    rw [he] at h
    simp only [Tree.exists, eventEnv] at h
    cases hf : fillEvent w.world.tree.cfg ev with
    | error e => rw [hf] at h; cases h
    | ok vars =>
      rw [hf] at h
      unfold MemWorld.existsText
      refine Does.seq (P := []) (L' := L) (.refl _) (eventFromString_does he hf) ?_
      rintro ⟨vs, i⟩ M ⟨rfl, hM⟩
      refine Does.perm ?_ (hM.append_right _)
      refine Does.seq (P := i.blocks ++ L) (L' := []) (by simp) (existsFilled_does hw hL h) ?_
      rintro a' M' ⟨rfl, hM'⟩
      rw [List.append_nil]
      refine Does.seq hM' (freeEvent_does i) ?_
      rintro _ _ rfl
      exact Does.pure (.refl _) ⟨rfl, rfl⟩

theorem searches_does {geo : GeoTest} {w : MemWorld} {st wt gn : Objs} {dn : List Nat} (hw : Owned w st wt gn dn) (texts : List Str) :
    ∀ {L : List Nat} {rep : Report} {r : ReportImg} {a : Report × List Bool}, (∀ b ∈ Objs.flat st, b ∈ L) → FitsReport rep r →
    w.world.tree.searches geo texts rep = .ok a →
    Does (w.searches geo texts rep r) (r.blocks ++ L) (fun x M => (x.1, x.2.1) = a ∧
      ∃ N, M.Perm (x.2.2.blocks ++ (N ++ L)) ∧ (false ∉ a.2 → N = [])) := by
  induction texts with
  | nil =>
    intro L rep r a hL hr h
    cases h
    exact Does.pure (.refl _) ⟨rfl, [], .refl _, fun _ => rfl⟩
  | cons t ts ih =>
    intro L rep r a hL hr h
    simp only [Tree.searches] at h
    cases hs : w.world.tree.searchText geo t rep with
    | error e => rw [hs] at h; cases h
    | ok o =>
      rw [hs] at h
      unfold MemWorld.searches
      refine Does.seq (P := r.blocks ++ L) (L' := []) (by simp) (searchText_does hw hL hr hs) ?_
      rintro ⟨o', r'⟩ M ⟨rfl, hr', N, hM, hN⟩
      rw [List.append_nil]
      cases o' with
      | none =>
        dsimp only at h ⊢
        cases hs2 : w.world.tree.searches geo ts rep with
        | error e => rw [hs2] at h; cases h
        | ok a2 =>
          obtain ⟨rep2, bs2⟩ := a2
          rw [hs2] at h
          cases h
          refine Does.seq (L' := []) (by rw [List.append_nil]; exact hM)
            (ih (L := N ++ L) (fun b hb => List.mem_append_right _ (hL b hb)) hr' hs2) ?_
          rintro ⟨x1, x2, x3⟩ M' ⟨hx, N', hM', hN'⟩
          cases hx
          refine Does.pure (L' := M') (by simp) ⟨rfl, N' ++ N, by rw [List.append_assoc]; exact hM', by simp⟩
      | some rep1 =>
        dsimp only at h ⊢
        cases hs2 : w.world.tree.searches geo ts rep1 with
        | error e => rw [hs2] at h; cases h
        | ok a2 =>
          obtain ⟨rep2, bs2⟩ := a2
          rw [hs2] at h
          cases h
          refine Does.seq (L' := []) (by rw [List.append_nil]; exact hM)
            (ih (L := N ++ L) (fun b hb => List.mem_append_right _ (hL b hb)) hr' hs2) ?_
          rintro ⟨x1, x2, x3⟩ M' ⟨hx, N', hM', hN'⟩
          cases hx
          refine Does.pure (L' := M') (by simp) ⟨rfl, N' ++ N, by rw [List.append_assoc]; exact hM', ?_⟩
          intro hb
          rw [hN rfl, hN' (fun hm => hb (by simp [hm]))]
          rfl

/-! ### a sequence of calls -/

theorem mem_pure_bind {α β : Type} (a : α) (f : α → Mem β) : ((pure a : Mem α) >>= f) = f a := rfl

theorem userRun_owned {geo : GeoTest} {R : Rounding} (os : List UserOp) :
    ∀ {w : MemWorld} {st wt gn : Objs} {dn L : List Nat} {t' : TextWorld} {as : List Answer},
    Owned w st wt gn dn → Ahead w wt (treeOps os) → w.world.userRun geo R os = .ok (t', as) →
    Does (w.userRun geo R os) (Objs.flat (st ++ wt) ++ L) (fun x M => x.1.world = t' ∧ x.2 = as ∧ ∃ st' wt' gn' L' dn',
      (∀ k, k ∈ dn' ↔ k ∈ doneIn R w.world (treeOps os)) ∧ M.Perm (Objs.flat (st' ++ wt') ++ L') ∧
      Owned x.1 st' wt' gn' (dn' ++ dn) ∧ ((∀ o ∈ treeOps os, Clean o) → (∀ a ∈ as, Answered a) → L' = L)) := by
  induction os with
  | nil =>
    intro w st wt gn dn L t' as hw ha h
    cases h
    exact Does.pure (.refl _) ⟨rfl, rfl, st, wt, gn, L, [], by simp [treeOps, doneIn], .refl _, hw, fun _ _ => rfl⟩
  | cons o os ih =>
    intro w st wt gn dn L t' as hw ha h
    simp only [TextWorld.userRun] at h
    cases hs : w.world.userStep geo R o with
    | error x => rw [hs] at h; cases h
    | ok p =>
      obtain ⟨t1, a1⟩ := p
      rw [hs] at h
      dsimp only at h
      cases hs2 : t1.userRun geo R os with
      | error x => rw [hs2] at h; cases h
      | ok p2 =>
        obtain ⟨t2, a2⟩ := p2
        rw [hs2] at h
        cases h
        have hsub : ∀ b ∈ Objs.flat st, b ∈ Objs.flat (st ++ wt) ++ L := fun b hb => by simp [flat_append, hb]
        unfold MemWorld.userRun
        cases o with
        | tree o =>
          simp only [TextWorld.userStep] at hs
          cases hp : w.world.plainStep R o with
          | error x => rw [hp] at hs; cases hs
          | ok t3 =>
            rw [hp] at hs
            cases hs
            simp only [MemWorld.userStep]
            rw [mem_assoc]
            refine Does.seq (P := Objs.flat (st ++ wt) ++ L) (L' := []) (by simp) (step_owned hw ha hp) ?_
            rintro w1 M ⟨rfl, st1, wt1, gn1, L1, hM, hw1, ha1, hc1⟩
            rw [List.append_nil, mem_pure_bind]
            refine Does.seq (P := Objs.flat (st1 ++ wt1) ++ L1) (L' := []) (by simpa using hM) (ih hw1 ha1 hs2) ?_
            rintro ⟨w2, as2⟩ M2 ⟨e, rfl, st2, wt2, gn2, L2, dn2, hd2, hM2, hw2, hc2⟩
            refine Does.pure (L' := M2) (by simp) ⟨e, rfl, st2, wt2, gn2, L2, dn2 ++ doneBy w.world o, ?_, hM2,
              by rw [List.append_assoc]; exact hw2, fun hc han => ?_⟩
            · intro k
              simp only [treeOps, doneIn, hp, List.mem_append, hd2]
              exact Or.comm
            rw [hc2 (fun o' ho' => hc o' (by simp [treeOps, ho'])) (fun a hx => han a (by simp [hx])), hc1 (hc o (by simp [treeOps]))]
        | search texts =>
          simp only [TextWorld.userStep] at hs
          cases hp : w.world.tree.searches geo texts Report.empty with
          | error x => rw [hp] at hs; cases hs
          | ok q =>
            obtain ⟨rep, bs⟩ := q
            rw [hp] at hs
            cases hs
            simp only [MemWorld.userStep, makeReportMem]
            rw [mem_assoc, mem_assoc]
            refine Does.malloc fun rb => ?_
            refine Does.perm (L := (ReportImg.mk rb none).blocks ++ (Objs.flat (st ++ wt) ++ L)) ?_ (by simp [ReportImg.blocks])
            rw [mem_pure_bind, mem_assoc]
            refine Does.seq (P := (ReportImg.mk rb none).blocks ++ (Objs.flat (st ++ wt) ++ L)) (L' := []) (by simp)
              (searches_does hw texts hsub (fun _ => rfl) hp) ?_
            rintro ⟨x1, x2, r'⟩ M ⟨hx, N, hM, hN⟩
            cases hx
            rw [List.append_nil]
            dsimp only
            rw [mem_assoc]
            refine Does.seq hM (freeReport_does r') ?_
            rintro _ _ rfl
            rw [mem_pure_bind]
            refine Does.seq (P := Objs.flat (st ++ wt) ++ (N ++ L)) (L' := []) (by blocks) (ih hw ha hs2) ?_
            rintro ⟨w2, as2⟩ M2 ⟨e, rfl, st2, wt2, gn2, L2, dn2, hd2, hM2, hw2, hc2⟩
            refine Does.pure (L' := M2) (by simp) ⟨e, rfl, st2, wt2, gn2, L2, dn2, hd2, hM2, hw2, fun hc han => ?_⟩
            rw [hc2 hc (fun a hx => han a (by simp [hx]))]
            have := han (.report x1 x2) (by simp)
            rw [hN this]
            rfl
        | «exists» text =>
          simp only [TextWorld.userStep] at hs
          cases hp : w.world.tree.existsText geo text with
          | error x => rw [hp] at hs; cases hs
          | ok b =>
            rw [hp] at hs
            cases hs
            simp only [MemWorld.userStep]
            rw [mem_assoc]
            refine Does.seq (P := Objs.flat (st ++ wt) ++ L) (L' := []) (by simp) (existsText_does hw hsub hp) ?_
            rintro b' M ⟨rfl, rfl⟩
            rw [List.append_nil, mem_pure_bind]
            refine Does.seq (P := Objs.flat (st ++ wt) ++ L) (L' := []) (by simp) (ih hw ha hs2) ?_
            rintro ⟨w2, as2⟩ M2 ⟨e, rfl, st2, wt2, gn2, L2, dn2, hd2, hM2, hw2, hc2⟩
            exact Does.pure (L' := M2) (by simp) ⟨e, rfl, st2, wt2, gn2, L2, dn2, hd2, hM2, hw2,
              fun hc han => hc2 hc (fun a hx => han a (by simp [hx]))⟩

/-- one call and the subscriptions, events and reports -/
theorem userStep_owned {geo : GeoTest} {R : Rounding} {w : MemWorld} {st wt gn : Objs} {dn L : List Nat} {o : UserOp} {os : List UserOp}
    {t' : TextWorld} {as : List Answer} (hw : Owned w st wt gn dn) (ha : Ahead w wt (treeOps (o :: os)))
    (h : w.world.userStep geo R o = .ok (t', as)) :
    Does (w.userStep geo R o) (Objs.flat (st ++ wt) ++ L) (fun x M => x.1.world = t' ∧ x.2 = as ∧ ∃ st' wt' gn' L' dn',
      (∀ k, k ∈ dn' ↔ k ∈ doneIn R w.world (treeOps [o])) ∧ M.Perm (Objs.flat (st' ++ wt') ++ L') ∧
      Owned x.1 st' wt' gn' (dn' ++ dn) ∧ Ahead x.1 wt' (treeOps os) ∧
      ((∀ o' ∈ treeOps [o], Clean o') → (∀ a ∈ as, Answered a) → L' = L)) := by
  have hsub : ∀ b ∈ Objs.flat st, b ∈ Objs.flat (st ++ wt) ++ L := fun b hb => by simp [flat_append, hb]
  cases o with
  | tree o =>
    simp only [TextWorld.userStep] at h
    cases hp : w.world.plainStep R o with
    | error x => rw [hp] at h; cases h
    | ok t3 =>
      rw [hp] at h
      cases h
      simp only [MemWorld.userStep]
      refine Does.seq (P := Objs.flat (st ++ wt) ++ L) (L' := []) (by simp) (step_owned hw ha hp) ?_
      rintro w1 M ⟨rfl, st1, wt1, gn1, L1, hM, hw1, ha1, hc1⟩
      refine Does.pure (.refl _) ⟨rfl, rfl, st1, wt1, gn1, L1, doneBy w.world o, ?_, by simpa using hM, hw1, ha1, fun hc _ => hc1 (hc o (by simp [treeOps]))⟩
      intro k
      simp [treeOps, doneIn, hp]
  | search texts =>
    simp only [TextWorld.userStep] at h
    cases hp : w.world.tree.searches geo texts Report.empty with
    | error x => rw [hp] at h; cases h
    | ok q =>
      obtain ⟨rep, bs⟩ := q
      rw [hp] at h
      cases h
      simp only [MemWorld.userStep, makeReportMem]
      rw [mem_assoc]
      refine Does.malloc fun rb => ?_
      refine Does.perm (L := (ReportImg.mk rb none).blocks ++ (Objs.flat (st ++ wt) ++ L)) ?_ (by simp [ReportImg.blocks])
      rw [mem_pure_bind]
      refine Does.seq (P := (ReportImg.mk rb none).blocks ++ (Objs.flat (st ++ wt) ++ L)) (L' := []) (by simp)
        (searches_does hw texts hsub (fun _ => rfl) hp) ?_
      rintro ⟨x1, x2, r'⟩ M ⟨hx, N, hM, hN⟩
      cases hx
      rw [List.append_nil]
      dsimp only
      refine Does.seq hM (freeReport_does r') ?_
      rintro _ _ rfl
      refine Does.pure (.refl _) ⟨rfl, rfl, st, wt, gn, N ++ L, [], by simp [treeOps, doneIn], by blocks, hw, ha, fun _ han => ?_⟩
      rw [hN (han (.report x1 x2) (by simp))]
      rfl
  | «exists» text =>
    simp only [TextWorld.userStep] at h
    cases hp : w.world.tree.existsText geo text with
    | error x => rw [hp] at h; cases h
    | ok b =>
      rw [hp] at h
      cases h
      simp only [MemWorld.userStep]
      refine Does.seq (P := Objs.flat (st ++ wt) ++ L) (L' := []) (by simp) (existsText_does hw hsub hp) ?_
      rintro b' M ⟨rfl, rfl⟩
      exact Does.pure (.refl _) ⟨rfl, rfl, st, wt, gn, L, [], by simp [treeOps, doneIn], by simp, hw, ha, fun _ _ => rfl⟩

end BeTree
