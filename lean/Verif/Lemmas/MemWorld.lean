import Verif.Spec.MemWorld
import Verif.Spec.Contents
import Verif.Lemmas.Memory
import Verif.Props.Constants
import Verif.Props.Conserve
/-
Memory over a sequence of calls.
-/
namespace BeTree
open Spec

section
variable {α : Type} {Q : α → List Nat → Prop} {L : List Nat}

theorem Does.lift {β : Type} {x : Except Fault β} {b : β} {f : β → Mem α} (hx : x = .ok b) (H : Does (f b) L Q) :
    Does (liftMem x >>= f) L Q := by
  subst hx
  exact H

theorem Does.parse {text : Str} {f : Option (Expr × Img) → Mem α} (h0 : parseText text = .ok none → ∀ N, Does (f none) (N ++ L) Q)
    (h1 : ∀ e i, parseText text = .ok (some e) → Does (f (some (e, i))) (i.blocks ++ L) Q) : Does (parseMem text >>= f) L Q := by
  refine Does.seq (L' := L) (by simp) (parseMem_does text) fun x M hx => ?_
  rcases hx with ⟨e1, rfl⟩ | ⟨e, i, e1, rfl, _, hM⟩
  · exact h0 e1 M
  · exact (h1 e i e1).perm (hM.append_right L)

theorem Does.then {p : Mem Unit} {f : Unit → Mem α} (hp : Does p L (fun _ M => M = L)) (H : Does (f ()) L Q) : Does (p >>= f) L Q :=
  Does.seq (P := L) (L' := []) (by simp) hp (fun _ M hM => by subst hM; simpa using H)

end

theorem touch_does {b : Nat} {L : List Nat} (hb : b ∈ L) : Does (touch b) L (fun _ M => M = L) := ⟨hb, L, .refl _, rfl⟩

theorem touchAll_does {bs L : List Nat} (hb : ∀ b ∈ bs, b ∈ L) : Does (touchAll bs) L (fun _ M => M = L) := by
  induction bs with
  | nil => exact Does.pure (.refl _) rfl
  | cons b bs ih => exact Does.then (touch_does (hb b (by simp))) (ih fun c hc => hb c (by simp [hc]))

theorem nodes_sub (i : Img) : ∀ b ∈ i.nodes, b ∈ i.blocks := by
  induction i with
  | leaf n l => intro b hb; simp only [Img.nodes, List.mem_singleton] at hb; simp [Img.blocks, hb]
  | not n e ih =>
    intro b hb
    simp only [Img.nodes, List.mem_cons] at hb
    simp only [Img.blocks, List.mem_cons]
    exact hb.imp id (ih b)
  | bin n l r ihl ihr =>
    intro b hb
    simp only [Img.nodes, List.mem_cons, List.mem_append] at hb
    simp only [Img.blocks, List.mem_cons, List.mem_append]
    exact hb.imp id (Or.imp (ihl b) (ihr b))

theorem read_sub (s : SubImg) : ∀ b ∈ s.read, b ∈ s.blocks := by
  intro b hb
  simp only [SubImg.read, List.mem_cons] at hb
  simp only [SubImg.blocks, List.mem_cons]
  rcases hb with h | h | h | h | h
  · exact .inl h
  · exact .inr (.inl h)
  · exact .inr (.inr (.inl h))
  · exact .inr (.inr (.inr (.inl h)))
  · exact .inr (.inr (.inr (.inr (nodes_sub _ b h))))

theorem makeSubMem_does (i : Img) : Does (makeSubMem i) i.blocks (fun s M => M.Perm s.blocks ∧ s.expr = i) := by
  refine Does.malloc fun a => Does.malloc fun b => Does.malloc fun c => Does.malloc fun d => Does.pure (.refl _) ⟨?_, rfl⟩
  simp only [SubImg.blocks]
  blocks

theorem freeSub_does (s : SubImg) : Gone (freeSub s) s.blocks := by
  refine Does.free (L' := s.sub :: s.pass :: s.fail :: s.expr.blocks) (by simp only [SubImg.blocks]; blocks) ?_
  refine Gone.then (R := [s.pass, s.fail, s.sub]) (freeAst_does _) ?_ (by blocks)
  exact Does.free (.refl _) (Does.free (.refl _) (Does.freeLast (.refl _)))

/-! ### going through the tree -/

theorem forSubs_append (f : Sub → Mem Unit) (a b : List Sub) : forSubs f (a ++ b) = forSubs f a >>= fun _ => forSubs f b := by
  induction a with
  | nil => rfl
  | cons s ss ih =>
    simp only [List.cons_append, forSubs, ih]
    rw [mem_assoc]

mutual
theorem CNode.forSubs_eq (f : Sub → Mem Unit) : (c : CNode) → c.forSubs f = BeTree.forSubs f c.contents
  | .mk subs _ pns => by
    simp only [CNode.forSubs, CNode.contents, forSubs_append, PNodes.forSubs_eq f pns]
theorem PNodes.forSubs_eq (f : Sub → Mem Unit) : (p : PNodes) → p.forSubs f = BeTree.forSubs f p.contents
  | .nil => by simp only [PNodes.forSubs, PNodes.contents]; rfl
  | .cons _ _ cd rest => by
    simp only [PNodes.forSubs, PNodes.contents, forSubs_append, CDir.forSubs_eq f cd, PNodes.forSubs_eq f rest]
theorem CDir.forSubs_eq (f : Sub → Mem Unit) : (c : CDir) → c.forSubs f = BeTree.forSubs f c.contents
  | .leaf _ _ c => by simp only [CDir.forSubs, CDir.contents, CNode.forSubs_eq f c]
  | .node _ _ c l r => by
    simp only [CDir.forSubs, CDir.contents, forSubs_append, CNode.forSubs_eq f c, CDir.forSubs_eq f l, CDir.forSubs_eq f r]
    rw [mem_assoc]
end

abbrev Objs := List (Nat × SubImg)

def Objs.flat (l : Objs) : List Nat := l.flatMap fun p => p.2.blocks

theorem flat_append (a b : Objs) : Objs.flat (a ++ b) = Objs.flat a ++ Objs.flat b := by simp [Objs.flat]

theorem flat_perm {a b : Objs} (h : List.Perm a b) : (Objs.flat a).Perm (Objs.flat b) := h.flatMap_right _

theorem mem_flat {l : Objs} {p : Nat × SubImg} (h : p ∈ l) {b : Nat} (hb : b ∈ p.2.blocks) : b ∈ Objs.flat l :=
  List.mem_flatMap.mpr ⟨p, h, hb⟩

theorem find_obj {objs : Objs} (hnd : (objs.map Prod.fst).Nodup) {p : Nat × SubImg} (hp : p ∈ objs) :
    objs.find? (fun x => x.1 == p.1) = some p := by
  induction objs with
  | nil => cases hp
  | cons a as ih =>
    rw [List.map_cons, List.nodup_cons] at hnd
    rcases List.mem_cons.mp hp with rfl | hp
    · simp
    · have : a.1 ≠ p.1 := fun h => hnd.1 (h ▸ List.mem_map_of_mem hp)
      rw [List.find?_cons_of_neg (by simpa using this)]
      exact ih hnd.2 hp

theorem findObj_eq {objs : Objs} (hnd : (objs.map Prod.fst).Nodup) {p : Nat × SubImg} (hp : p ∈ objs) {α : Type} (f : SubImg → Mem α) :
    (findObj objs p.1 >>= f) = f p.2 := by
  simp only [findObj, find_obj hnd hp]
  rfl

theorem readSubs_does {objs : Objs} (hnd : (objs.map Prod.fst).Nodup) {L : List Nat} (ss : List Sub)
    (h : ∀ s ∈ ss, ∃ p ∈ objs, p.1 = s.id ∧ ∀ b ∈ p.2.blocks, b ∈ L) :
    Does (forSubs (fun s => findObj objs s.id >>= fun i => touchAll i.read) ss) L (fun _ M => M = L) := by
  induction ss with
  | nil => exact Does.pure (.refl _) rfl
  | cons s ss ih =>
    obtain ⟨p, hp, hid, hb⟩ := h s (by simp)
    simp only [forSubs]
    refine Does.then ?_ (ih fun t ht => h t (by simp [ht]))
    rw [← hid, findObj_eq hnd hp]
    exact touchAll_does fun b h => hb b (read_sub _ b h)

theorem freeSubs_does {objs : Objs} (hnd : (objs.map Prod.fst).Nodup) (ss : List Sub) :
    ∀ {st : Objs}, (∀ p ∈ st, p ∈ objs) → (st.map Prod.fst).Perm (ss.map Sub.id) →
    Gone (forSubs (fun s => findObj objs s.id >>= fun i => freeSub i) ss) (Objs.flat st) := by
  induction ss with
  | nil =>
    intro st _ hp
    have : st = [] := by simpa using hp.length_eq
    subst this
    exact Does.pure (.refl _) rfl
  | cons s ss ih =>
    intro st hs hp
    have : s.id ∈ st.map Prod.fst := hp.mem_iff.mpr (by simp)
    obtain ⟨p, hpm, hid⟩ := List.mem_map.mp this
    obtain ⟨a, b, rfl⟩ := List.append_of_mem hpm
    simp only [forSubs]
    have e : (findObj objs s.id >>= fun i => freeSub i) = freeSub p.2 := by
      rw [← hid, findObj_eq hnd (hs p hpm)]
    rw [e]
    refine Gone.then (P := p.2.blocks) (R := Objs.flat (a ++ b)) (freeSub_does p.2) (ih (fun x hx => hs x ?_) ?_) ?_
    · simp only [List.mem_append, List.mem_cons] at hx ⊢; exact hx.imp id Or.inr
    · simp only [List.map_append, List.map_cons, hid] at hp ⊢
      have := (List.perm_middle.symm.trans hp)
      exact (List.perm_cons _).mp this
    · simp only [Objs.flat, List.flatMap_append, List.flatMap_cons]
      blocks

/-! ### the state between calls -/

structure Owned (w : MemWorld) (st wt gn : Objs) (dn : List Nat) : Prop where
  objs : List.Perm w.objs (st ++ wt ++ gn)
  nodup : (w.objs.map Prod.fst).Nodup
  ids : (st.map Prod.fst).Perm (w.world.tree.root.contents.map Sub.id)
  preds : ∀ b ∈ w.preds, b ∈ Objs.flat (st ++ wt)
  poolIds : (w.world.pool.map fun p => p.2.id).Nodup
  pool : ∀ p ∈ w.world.pool, p.2.id ∈ w.objs.map Prod.fst
  done : ∀ k ∈ dn, k < w.world.pool.length
  waits : ∀ p ∈ wt, ∃ (k : Nat) (x : TextReq × Sub), w.world.pool[k]? = some x ∧ x.2.id = p.1 ∧ k ∉ dn

/-- what the calls to come may do -/
structure Ahead (w : MemWorld) (wt : Objs) (os : List MemOp) : Prop where
  ids : (newIds os).Nodup
  fresh : ∀ i ∈ newIds os, i ∉ w.objs.map Prod.fst
  once : (insertedSubs os).Nodup
  waiting : ∀ k ∈ insertedSubs os, ∀ p : TextReq × Sub, w.world.pool[k]? = some p → p.2.id ∈ wt.map Prod.fst

/-- what a call leaves -/
def Leaves (os : List MemOp) (o : MemOp) (L dn : List Nat) (t : TextWorld) (w : MemWorld) (M : List Nat) : Prop :=
  w.world = t ∧ ∃ st wt gn L', M.Perm (Objs.flat (st ++ wt) ++ L') ∧ Owned w st wt gn dn ∧ Ahead w wt os ∧ (Clean o → L' = L)

theorem Owned.stored_mem {w : MemWorld} {st wt gn : Objs} {dn : List Nat} (h : Owned w st wt gn dn) {p : Nat × SubImg} (hp : p ∈ st) : p ∈ w.objs :=
  h.objs.mem_iff.mpr (by simp [hp])

theorem Owned.read {w : MemWorld} {st wt gn : Objs} {dn : List Nat} (h : Owned w st wt gn dn) {L : List Nat} (hL : ∀ b ∈ Objs.flat st, b ∈ L) :
    Does w.readTree L (fun _ M => M = L) := by
  unfold MemWorld.readTree
  rw [CNode.forSubs_eq]
  refine readSubs_does h.nodup _ ?_
  intro s hs
  have : s.id ∈ st.map Prod.fst := h.ids.mem_iff.mpr (List.mem_map_of_mem hs)
  obtain ⟨p, hp, hid⟩ := List.mem_map.mp this
  exact ⟨p, h.stored_mem hp, hid, fun b hb => hL b (mem_flat hp hb)⟩

theorem Owned.free {w : MemWorld} {st wt gn : Objs} {dn : List Nat} (h : Owned w st wt gn dn) : Gone w.freeTree (Objs.flat st) := by
  unfold MemWorld.freeTree
  rw [CNode.forSubs_eq]
  exact freeSubs_does h.nodup _ (fun p hp => h.stored_mem hp) h.ids

theorem caps_assignVar (cfg : Config) (cs : List Constant) (e : Expr) (h : ∀ f ∈ caps e, ∃ i, supplied cs f.type = some i) :
    ∀ f ∈ caps (assignVar cfg e), ∃ i, supplied cs f.type = some i := by
  induction e with
  | leaf p =>
    cases p with
    | freq f =>
      intro g hg
      simp only [assignVar, assignVarPred, caps, List.mem_singleton] at hg
      subst hg
      exact h f (by simp [caps])
    | _ => intro g hg; simp [assignVar, assignVarPred, caps] at hg
  | not e ih => exact ih h
  | and l r ihl ihr =>
    intro f hf
    simp only [assignVar, caps, List.mem_append] at hf
    rcases hf with hf | hf
    · exact ihl (fun g hg => h g (by simp [caps, hg])) f hf
    · exact ihr (fun g hg => h g (by simp [caps, hg])) f hf
  | or l r ihl ihr =>
    intro f hf
    simp only [assignVar, caps, List.mem_append] at hf
    rcases hf with hf | hf
    · exact ihl (fun g hg => h g (by simp [caps, hg])) f hf
    · exact ihr (fun g hg => h g (by simp [caps, hg])) f hf

/-! ### one call -/

theorem ahead_tail {w : MemWorld} {wt : Objs} {o : MemOp} {os : List MemOp} (h : Ahead w wt (o :: os)) : Ahead w wt os := by
  obtain ⟨h1, h2, h3, h4⟩ := h
  cases o with
  | call o =>
    cases o with
    | insert q => exact ⟨(List.nodup_cons.mp h1).2, fun i hi => h2 i (by simp [newIds, hi]), h3, h4⟩
    | makeSub q => exact ⟨(List.nodup_cons.mp h1).2, fun i hi => h2 i (by simp [newIds, hi]), h3, h4⟩
    | insertSub k => exact ⟨h1, h2, (List.nodup_cons.mp h3).2, fun i hi => h4 i (by simp [insertedSubs, hi])⟩
    | changeBoundaries text => exact ⟨h1, h2, h3, h4⟩
  | search => exact ⟨h1, h2, h3, h4⟩
  | empty => exact ⟨h1, h2, h3, h4⟩

theorem ahead_same {w w' : MemWorld} {wt : Objs} {os : List MemOp} (h : Ahead w wt os) (ho : w'.objs = w.objs)
    (hp : w'.world.pool = w.world.pool) : Ahead w' wt os :=
  ⟨h.ids, by rw [ho]; exact h.fresh, h.once, by rw [hp]; exact h.waiting⟩

theorem owned_same {w w' : MemWorld} {st wt gn : Objs} {dn : List Nat} (h : Owned w st wt gn dn) (ho : w'.objs = w.objs) (hq : w'.preds = w.preds)
    (hp : w'.world.pool = w.world.pool) (hr : w'.world.tree.root = w.world.tree.root) : Owned w' st wt gn dn :=
  ⟨by rw [ho]; exact h.objs, by rw [ho]; exact h.nodup, by rw [hr]; exact h.ids, by rw [hq]; exact h.preds, by rw [hp]; exact h.poolIds,
    by rw [hp, ho]; exact h.pool, by rw [hp]; exact h.done, by rw [hp]; exact h.waits⟩

theorem leaves_same {w w' : MemWorld} {st wt gn : Objs} {dn : List Nat} {os : List MemOp} {o : MemOp} {L L' M : List Nat} {t : TextWorld}
    (hw : Owned w st wt gn dn) (ha : Ahead w wt os) (ho : w'.objs = w.objs) (hq : w'.preds = w.preds)
    (hp : w'.world.pool = w.world.pool) (hr : w'.world.tree.root = w.world.tree.root) (ht : w'.world = t)
    (hM : M.Perm (Objs.flat (st ++ wt) ++ L')) (hc : Clean o → L' = L) : Leaves os o L dn t w' M :=
  ⟨ht, st, wt, gn, L', hM, owned_same hw ho hq hp hr, ahead_same ha ho hp, hc⟩

theorem assignPredMem_does {preds L : List Nat} {i : Img} (h1 : ∀ b ∈ preds, b ∈ L) (h2 : ∀ b ∈ i.blocks, b ∈ L) :
    Does (assignPredMem preds i) L (fun p M => p = i.nodes ++ preds ∧ M = L) := by
  refine Does.then (touchAll_does h1) (Does.then (touchAll_does fun b hb => h2 b (nodes_sub i b hb)) (Does.pure (.refl _) ⟨rfl, rfl⟩))

theorem insert_false {R : Rounding} {t t' : Tree} {id : Nat} {cs : List Constant} {e : Expr} (h : t.insert R id cs e = .ok (false, t')) :
    t' = t ∧ (isValid t.cfg (assignVar t.cfg e) = .ok true → assignConstants cs (assignVar t.cfg e) = none) := by
  unfold Tree.insert at h
  split at h
  · cases h
  · rename_i cfg hp
    cases h
    unfold prepareInsert at hp
    dsimp only at hp
    repeat' split at hp
    all_goals first | (cases hp; done) | skip
    · rename_i hv
      cases hp
      exact ⟨rfl, fun h => by rw [hv] at h; cases h⟩
    · rename_i hv
      cases hp
      exact ⟨rfl, fun _ => hv⟩
  · split at h <;> cases h

theorem insert_true {R : Rounding} {t t' : Tree} {id : Nat} {cs : List Constant} {e : Expr} (h : t.insert R id cs e = .ok (true, t')) :
    ∃ s cfg, s.id = id ∧ t.root.insert R cfg s = .ok t'.root := by
  unfold Tree.insert at h
  split at h
  · cases h
  · cases h
  · rename_i sub cfg hp
    split at h
    · cases h
    · rename_i root hr
      cases h
      exact ⟨sub, cfg, prepareInsert_id hp, hr⟩

theorem insert_ids {R : Rounding} {cfg : Config} {c c' : CNode} {s : Sub} {st : Objs} (hst : (st.map Prod.fst).Perm (c.contents.map Sub.id))
    (hnd : (st.map Prod.fst).Nodup) (hs : s.id ∉ st.map Prod.fst) (h : c.insert R cfg s = .ok c') :
    (s.id :: st.map Prod.fst).Perm (c'.contents.map Sub.id) := by
  have hn : ((s :: c.contents).map Sub.id).Nodup := by
    rw [List.map_cons, List.nodup_cons]
    exact ⟨fun hm => hs (hst.mem_iff.mpr hm), hst.nodup_iff.mp hnd⟩
  refine (hst.cons _).trans ?_
  have := ((CNode.insert_contents hn h).map Sub.id).symm
  simpa using this

theorem Owned.stored_nodup {w : MemWorld} {st wt gn : Objs} {dn : List Nat} (h : Owned w st wt gn dn) : ((st ++ wt ++ gn).map Prod.fst).Nodup :=
  (h.objs.map Prod.fst).nodup_iff.mp h.nodup

theorem insert_owned {R : Rounding} {w : MemWorld} {st wt gn : Objs} {dn : List Nat} {q : TextReq} {os : List MemOp} {L : List Nat} {t' : TextWorld}
    (hw : Owned w st wt gn dn) (ha : Ahead w wt (.call (.insert q) :: os)) (hstep : w.world.step R (.insert q) = .ok t') :
    Does (w.insert R q) (Objs.flat (st ++ wt) ++ L) (Leaves os (.call (.insert q)) L dn t') := by
  have ha' := ahead_tail ha
  simp only [TextWorld.step, Tree.insertText] at hstep
  refine Does.parse ?_ ?_
  · intro hp N
    simp only [hp] at hstep
    cases hstep
    refine Does.pure (.refl _) (leaves_same (L' := N ++ L) hw ha' rfl rfl rfl rfl rfl (by blocks) ?_)
    rintro ⟨e, he, _⟩
    rw [hp] at he; cases he
  · intro e i hp
    simp only [hp] at hstep
    dsimp only
    cases hv : isValid w.world.tree.cfg (assignVar w.world.tree.cfg e) with
    | error x =>
      simp only [Tree.insert, prepareInsert, hv] at hstep
      cases hstep
    | ok b =>
      refine Does.lift rfl ?_
      cases b with
      | false =>
        simp only [Tree.insert, prepareInsert, hv] at hstep
        cases hstep
        simp only [Bool.false_eq_true, if_false]
        refine Does.seq (.refl _) (freeAst_does i) fun _ M hM => ?_
        subst hM
        exact Does.pure (.refl _) (leaves_same (L' := L) hw ha' rfl rfl rfl rfl rfl (by simp) fun _ => rfl)
      | true =>
        simp only [if_true]
        cases hi : w.world.tree.insert R q.id q.consts e with
        | error x => rw [hi] at hstep; cases hstep
        | ok r =>
          obtain ⟨b, t⟩ := r
          rw [hi] at hstep
          refine Does.lift rfl ?_
          cases b with
          | false =>
            cases hstep
            obtain ⟨rfl, hc⟩ := insert_false hi
            refine Does.pure (.refl _) (leaves_same (L' := i.blocks ++ L) hw ha' rfl rfl rfl rfl rfl (by blocks) ?_)
            rintro ⟨e', he, hf⟩
            rw [hp] at he
            cases he
            have h1 := (assignConstants_isSome q.consts (assignVar w.world.tree.cfg e)).mpr (caps_assignVar _ _ _ hf)
            rw [hc hv] at h1
            cases h1
          | true =>
            cases hstep
            obtain ⟨s, cfg, hid, hr⟩ := insert_true hi
            dsimp only
            refine Does.seq (P := i.blocks ++ Objs.flat (st ++ wt)) (L' := L) (by blocks)
              (assignPredMem_does (fun b hb => List.mem_append_right _ (hw.preds b hb)) (fun b hb => List.mem_append_left _ hb)) ?_
            rintro preds M ⟨rfl, rfl⟩
            refine Does.seq (P := i.blocks) (L' := Objs.flat (st ++ wt) ++ L) (by blocks) (makeSubMem_does i) ?_
            rintro o M ⟨hM, rfl⟩
            have hfr := ha.fresh q.id (by simp [newIds])
            refine Does.then (touchAll_does fun b hb => List.mem_append_left _ (hM.mem_iff.mpr (read_sub _ b hb))) ?_
            refine Does.then (hw.read fun b hb => by simp [flat_append, hb]) ?_
            refine Does.pure (.refl _) ⟨rfl, (q.id, o) :: st, wt, gn, L, ?_, ?_, ?_, fun _ => rfl⟩
            · have e1 : Objs.flat ((q.id, o) :: st ++ wt) = o.blocks ++ Objs.flat (st ++ wt) := by simp [Objs.flat]
              rw [e1, List.append_assoc]
              exact hM.append_right _
            · have hst := hw.stored_nodup
              refine ⟨hw.objs.cons _, List.nodup_cons.mpr ⟨hfr, hw.nodup⟩, ?_, ?_, hw.poolIds, fun p hp => List.mem_cons_of_mem _ (hw.pool p hp), hw.done, hw.waits⟩
              · rw [List.map_cons]
                dsimp only
                rw [← hid]
                refine insert_ids hw.ids ?_ ?_ hr
                · simp only [List.map_append] at hst
                  exact (List.nodup_append.mp (List.nodup_append.mp hst).1).1
                · rw [hid]
                  intro hm
                  refine hfr ((hw.objs.map Prod.fst).mem_iff.mpr ?_)
                  simp [hm]
              · intro b hb
                have e1 : Objs.flat ((q.id, o) :: st ++ wt) = o.blocks ++ Objs.flat (st ++ wt) := by simp [Objs.flat]
                rw [e1]
                rcases List.mem_append.mp hb with hb | hb
                · exact List.mem_append_left _ (read_sub o b (by simp [SubImg.read, hb]))
                · exact List.mem_append_right _ (hw.preds b hb)
            · refine ⟨ha'.ids, ?_, ha'.once, ha'.waiting⟩
              intro j hj hm
              rcases List.mem_cons.mp hm with rfl | hm
              · exact (List.nodup_cons.mp ha.ids).1 hj
              · exact ha'.fresh j hj hm

theorem makeSub_owned {R : Rounding} {w : MemWorld} {st wt gn : Objs} {dn : List Nat} {q : TextReq} {os : List MemOp} {L : List Nat} {t' : TextWorld}
    (hw : Owned w st wt gn dn) (ha : Ahead w wt (.call (.makeSub q) :: os)) (hstep : w.world.step R (.makeSub q) = .ok t') :
    Does (w.makeSub q) (Objs.flat (st ++ wt) ++ L) (Leaves os (.call (.makeSub q)) L dn t') := by
  have ha' := ahead_tail ha
  simp only [TextWorld.step, Tree.makeSubText] at hstep
  refine Does.parse ?_ ?_
  · intro hp N
    simp only [hp] at hstep
    cases hstep
    refine Does.pure (.refl _) (leaves_same (L' := N ++ L) hw ha' rfl rfl rfl rfl rfl (by blocks) ?_)
    rintro ⟨e, he⟩
    rw [hp] at he; cases he
  · intro e i hp
    simp only [hp] at hstep
    dsimp only
    cases hi : w.world.tree.makeSub q.id q.consts e with
    | error x => rw [hi] at hstep; cases hstep
    | ok r =>
      obtain ⟨os', t⟩ := r
      rw [hi] at hstep
      have hroot := makeSub_api_root hi
      refine Does.lift rfl ?_
      cases os' with
      | none =>
        cases hstep
        dsimp only
        refine Does.seq (.refl _) (freeAst_does i) fun _ M hM => ?_
        subst hM
        exact Does.pure (.refl _) (leaves_same (L' := L) hw ha' rfl rfl rfl hroot rfl (by simp) fun _ => rfl)
      | some s =>
        cases hstep
        have hid := makeSub_api_id hi
        dsimp only
        refine Does.seq (P := i.blocks ++ Objs.flat (st ++ wt)) (L' := L) (by blocks)
          (assignPredMem_does (fun b hb => List.mem_append_right _ (hw.preds b hb)) (fun b hb => List.mem_append_left _ hb)) ?_
        rintro preds M ⟨rfl, rfl⟩
        refine Does.seq (P := i.blocks) (L' := Objs.flat (st ++ wt) ++ L) (by blocks) (makeSubMem_does i) ?_
        rintro o M ⟨hM, rfl⟩
        have hfr := ha.fresh q.id (by simp [newIds])
        have e1 : (Objs.flat (st ++ (q.id, o) :: wt)).Perm (o.blocks ++ Objs.flat (st ++ wt)) := by
          simp only [Objs.flat, List.flatMap_append, List.flatMap_cons]
          blocks
        refine Does.pure (.refl _) ⟨rfl, st, (q.id, o) :: wt, gn, L, ?_, ?_, ?_, fun _ => rfl⟩
        · refine List.Perm.trans ?_ (e1.symm.append_right L)
          rw [List.append_assoc]
          exact hM.append_right _
        · refine ⟨?_, List.nodup_cons.mpr ⟨hfr, hw.nodup⟩, ?_, ?_, ?_, ?_, ?_, ?_⟩
          · refine (hw.objs.cons _).trans ?_
            rw [List.append_assoc, List.append_assoc, List.cons_append]
            exact List.perm_middle.symm
          · simpa only [hroot] using hw.ids
          · intro b hb
            refine e1.mem_iff.mpr ?_
            rcases List.mem_append.mp hb with hb | hb
            · exact List.mem_append_left _ (read_sub o b (by simp [SubImg.read, hb]))
            · exact List.mem_append_right _ (hw.preds b hb)
          · simp only [List.map_append, List.map_cons, List.map_nil]
            refine List.nodup_append.mpr ⟨hw.poolIds, by simp, ?_⟩
            intro a ha1 b hb
            simp only [List.mem_singleton] at hb
            subst hb
            rintro rfl
            obtain ⟨p, hp1, hp2⟩ := List.mem_map.mp ha1
            have := hw.pool p hp1
            rw [hp2, hid] at this
            exact hfr this
          · intro p hp1
            rcases List.mem_append.mp hp1 with hp1 | hp1
            · exact List.mem_cons_of_mem _ (hw.pool p hp1)
            · simp only [List.mem_singleton] at hp1
              subst hp1
              simp [hid]
          · intro j hj
            have := hw.done j hj
            simp only [List.length_append, List.length_cons, List.length_nil]
            omega
          · intro p hp1
            rcases List.mem_cons.mp hp1 with rfl | hp1
            · refine ⟨w.world.pool.length, (q, s), by simp, hid, fun hm => Nat.lt_irrefl _ (hw.done _ hm)⟩
            · obtain ⟨j, x, h1, h2, h3⟩ := hw.waits p hp1
              obtain ⟨l1, _⟩ := List.getElem?_eq_some_iff.mp h1
              exact ⟨j, x, by rw [List.getElem?_append_left l1]; exact h1, h2, h3⟩
        · refine ⟨ha'.ids, ?_, ha'.once, ?_⟩
          · intro j hj hm
            rcases List.mem_cons.mp hm with rfl | hm
            · exact (List.nodup_cons.mp ha.ids).1 hj
            · exact ha'.fresh j hj hm
          · intro k hk p hp1
            replace hp1 : (w.world.pool ++ [(q, s)])[k]? = some p := hp1
            rw [List.getElem?_append] at hp1
            split at hp1
            · exact List.mem_cons_of_mem _ (ha'.waiting k hk p hp1)
            · have := List.mem_of_getElem? hp1
              simp only [List.mem_singleton] at this
              subst this
              simp [hid]

theorem insertSub_owned {R : Rounding} {w : MemWorld} {st wt gn : Objs} {dn : List Nat} {k : Nat} {os : List MemOp} {L : List Nat} {t' : TextWorld}
    (hw : Owned w st wt gn dn) (ha : Ahead w wt (.call (.insertSub k) :: os)) (hstep : w.world.step R (.insertSub k) = .ok t') :
    Does (w.insertSub R k) (Objs.flat (st ++ wt) ++ L) (Leaves os (.call (.insertSub k)) L (doneBy w.world (.call (.insertSub k)) ++ dn) t') := by
  have ha' := ahead_tail ha
  simp only [TextWorld.step] at hstep
  unfold MemWorld.insertSub
  cases hk : w.world.pool[k]? with
  | none =>
    simp only [hk] at hstep
    cases hstep
    have e1 : doneBy w.world (.call (.insertSub k)) = [] := by
      simp only [doneBy, if_neg (Nat.not_lt.mpr (List.getElem?_eq_none_iff.mp hk))]
    rw [e1, List.nil_append]
    exact Does.pure (.refl _) (leaves_same (L' := L) hw ha' rfl rfl rfl rfl rfl (.refl _) fun _ => rfl)
  | some p =>
    obtain ⟨q, s⟩ := p
    simp only [hk] at hstep
    dsimp only
    obtain ⟨hklt, _⟩ := List.getElem?_eq_some_iff.mp hk
    have e1 : doneBy w.world (.call (.insertSub k)) = [k] := by simp only [doneBy, if_pos hklt]
    rw [e1]
    have hid : s.id ∈ wt.map Prod.fst := ha.waiting k (by simp [insertedSubs]) (q, s) hk
    obtain ⟨p, hpm, hpid⟩ := List.mem_map.mp hid
    have hpo : p ∈ w.objs := hw.objs.mem_iff.mpr (by simp [hpm])
    rw [← hpid, findObj_eq hw.nodup hpo]
    refine Does.then (touchAll_does fun b hb => List.mem_append_left _ (mem_flat (List.mem_append_right _ hpm) (read_sub _ b hb))) ?_
    refine Does.then (hw.read fun b hb => by simp [flat_append, hb]) ?_
    cases hi : w.world.tree.insertSub R s with
    | error x => rw [hi] at hstep; cases hstep
    | ok t =>
      rw [hi] at hstep
      cases hstep
      refine Does.lift rfl ?_
      unfold Tree.insertSub at hi
      split at hi
      · cases hi
      rename_i root hr
      cases hi
      obtain ⟨a, b, rfl⟩ := List.append_of_mem hpm
      have hnd := hw.stored_nodup
      have hperm : List.Perm (st ++ (a ++ p :: b) ++ gn) ((p :: st) ++ (a ++ b) ++ gn) := by
        refine List.Perm.append_right gn ?_
        rw [← List.append_assoc, List.cons_append, ← List.append_assoc]
        exact List.perm_middle
      have hflat : List.Perm (st ++ (a ++ p :: b)) ((p :: st) ++ (a ++ b)) := by
        rw [← List.append_assoc, List.cons_append, ← List.append_assoc]
        exact List.perm_middle
      have hnd2 := (hperm.map Prod.fst).nodup_iff.mp hnd
      have hps : p.1 ∉ (st ++ (a ++ b) ++ gn).map Prod.fst := by
        have := hnd2
        simp only [List.cons_append, List.map_cons] at this
        exact (List.nodup_cons.mp this).1
      refine Does.pure (.refl _) ⟨rfl, p :: st, a ++ b, gn, L, ?_, ?_, ?_, fun _ => rfl⟩
      · exact (flat_perm hflat).append_right L
      · refine ⟨hw.objs.trans hperm, hw.nodup, ?_, ?_, hw.poolIds, hw.pool, ?_, ?_⟩
        · rw [List.map_cons, hpid]
          refine insert_ids hw.ids ?_ ?_ hr
          · simp only [List.map_append] at hnd
            exact (List.nodup_append.mp (List.nodup_append.mp hnd).1).1
          · rw [← hpid]
            intro hm
            exact hps (by rw [List.append_assoc, List.map_append]; exact List.mem_append_left _ hm)
        · intro c hc
          exact (flat_perm hflat).mem_iff.mp (hw.preds c hc)
        · intro j hj
          rcases List.mem_cons.mp hj with rfl | hj
          · exact hklt
          · exact hw.done j hj
        · intro x hx
          have hxw : x ∈ a ++ p :: b := by
            simp only [List.mem_append, List.mem_cons] at hx ⊢
            exact hx.imp id Or.inr
          obtain ⟨j, y, h1, h2, h3⟩ := hw.waits x hxw
          refine ⟨j, y, h1, h2, ?_⟩
          intro hm
          rcases List.mem_cons.mp hm with rfl | hm
          · rw [hk] at h1
            cases h1
            apply hps
            rw [hpid]
            dsimp only at h2
            rw [h2]
            simp only [List.map_append, List.mem_append]
            rcases List.mem_append.mp hx with hx | hx
            · exact .inl (.inr (.inl (List.mem_map_of_mem hx)))
            · exact .inl (.inr (.inr (List.mem_map_of_mem hx)))
          · exact h3 hm
      · refine ⟨ha'.ids, ha'.fresh, ha'.once, ?_⟩
        intro j hj p' hp'
        have h1 := ha'.waiting j hj p' hp'
        have hne : p'.2.id ≠ p.1 := by
          intro he
          have hjk : j ≠ k := by
            rintro rfl
            exact (List.nodup_cons.mp ha.once).1 hj
          apply hjk
          have hn := hw.poolIds
          have e1 : (w.world.pool.map fun p => p.2.id)[j]? = some p'.2.id := by
            replace hp' : w.world.pool[j]? = some p' := hp'
            simp [List.getElem?_map, hp']
          have e2 : (w.world.pool.map fun p => p.2.id)[k]? = some s.id := by simp [List.getElem?_map, hk]
          rw [he, hpid] at e1
          obtain ⟨l1, _⟩ := List.getElem?_eq_some_iff.mp e1
          exact (List.getElem?_inj l1 hn).mp (e1.trans e2.symm)
        simp only [List.map_append, List.map_cons, List.mem_append, List.mem_cons] at h1 ⊢
        rcases h1 with h | h | h
        · exact .inl h
        · exact absurd h hne
        · exact .inr h

theorem changeBoundaries_owned {R : Rounding} {w : MemWorld} {st wt gn : Objs} {dn : List Nat} {text : Str} {os : List MemOp} {L : List Nat} {t' : TextWorld}
    (hw : Owned w st wt gn dn) (ha : Ahead w wt (.call (.changeBoundaries text) :: os)) (hstep : w.world.step R (.changeBoundaries text) = .ok t') :
    Does (w.changeBoundaries text) (Objs.flat (st ++ wt) ++ L) (Leaves os (.call (.changeBoundaries text)) L dn t') := by
  have ha' := ahead_tail ha
  simp only [TextWorld.step, Tree.changeBoundariesText] at hstep
  refine Does.parse ?_ ?_
  · intro hp N
    simp only [hp] at hstep
    cases hstep
    refine Does.pure (.refl _) (leaves_same (L' := N ++ L) hw ha' rfl rfl rfl rfl rfl (by blocks) ?_)
    rintro ⟨e, he⟩
    rw [hp] at he; cases he
  · intro e i hp
    simp only [hp] at hstep
    dsimp only
    cases hi : w.world.tree.changeBoundaries e with
    | error x => rw [hi] at hstep; cases hstep
    | ok t =>
      rw [hi] at hstep
      cases hstep
      refine Does.lift rfl ?_
      refine Does.seq (.refl _) (freeAst_does i) fun _ M hM => ?_
      subst hM
      exact Does.pure (.refl _) (leaves_same (L' := L) hw ha' rfl rfl rfl (changeBoundaries_root hi) rfl (by simp) fun _ => rfl)

theorem step_owned {R : Rounding} {w : MemWorld} {st wt gn : Objs} {dn : List Nat} {o : MemOp} {os : List MemOp} {L : List Nat} {t' : TextWorld}
    (hw : Owned w st wt gn dn) (ha : Ahead w wt (o :: os)) (hstep : w.world.plainStep R o = .ok t') :
    Does (w.step R o) (Objs.flat (st ++ wt) ++ L) (Leaves os o L (doneBy w.world o ++ dn) t') := by
  have ha' := ahead_tail ha
  cases o with
  | call o =>
    cases o with
    | insert q => exact insert_owned hw ha hstep
    | makeSub q => exact makeSub_owned (R := R) hw ha hstep
    | insertSub k => exact insertSub_owned hw ha hstep
    | changeBoundaries text => exact changeBoundaries_owned (R := R) hw ha hstep
  | search =>
    cases hstep
    refine Does.then (hw.read fun b hb => by simp [flat_append, hb]) ?_
    exact Does.pure (.refl _) (leaves_same (L' := L) hw ha' rfl rfl rfl rfl rfl (.refl _) fun _ => rfl)
  | empty =>
    cases hstep
    refine Does.seq (P := Objs.flat st) (L' := Objs.flat wt ++ L) (by rw [flat_append, List.append_assoc]) hw.free ?_
    intro _ M hM
    subst hM
    refine Does.pure (.refl _) ⟨rfl, [], wt, st ++ gn, L, by simp, ?_, ahead_same ha' rfl rfl, fun _ => rfl⟩
    refine ⟨?_, hw.nodup, ?_, by simp, hw.poolIds, hw.pool, hw.done, hw.waits⟩
    · refine hw.objs.trans ?_
      simp only [List.nil_append]
      rw [← List.append_assoc]
      exact List.perm_append_comm.append_right gn
    · simp [Tree.emptied, emptyCNode, CNode.contents, PNodes.contents]

/-! ### a sequence of calls -/

theorem run_owned {R : Rounding} (os : List MemOp) : ∀ {w : MemWorld} {st wt gn : Objs} {dn L : List Nat} {t' : TextWorld},
    Owned w st wt gn dn → Ahead w wt os → w.world.plainRun R os = .ok t' →
    Does (w.run R os) (Objs.flat (st ++ wt) ++ L) (fun w' M => w'.world = t' ∧ ∃ st' wt' gn' L' dn', (∀ k, k ∈ dn' ↔ k ∈ doneIn R w.world os) ∧ M.Perm (Objs.flat (st' ++ wt') ++ L') ∧
      Owned w' st' wt' gn' (dn' ++ dn) ∧ ((∀ o ∈ os, Clean o) → L' = L)) := by
  induction os with
  | nil =>
    intro w st wt gn dn L t' hw ha h
    cases h
    exact Does.pure (.refl _) ⟨rfl, st, wt, gn, L, [], by simp [doneIn], .refl _, hw, fun _ => rfl⟩
  | cons o os ih =>
    intro w st wt gn dn L t' hw ha h
    simp only [TextWorld.plainRun] at h
    cases hs : w.world.plainStep R o with
    | error x => rw [hs] at h; cases h
    | ok t1 =>
      rw [hs] at h
      refine Does.seq (P := Objs.flat (st ++ wt) ++ L) (L' := []) (by simp) (step_owned hw ha hs) ?_
      rintro w1 M ⟨rfl, st1, wt1, gn1, L1, hM, hw1, ha1, hc1⟩
      rw [List.append_nil]
      refine Does.perm ((ih hw1 ha1 h).mono ?_) hM
      rintro w2 M2 ⟨e, st2, wt2, gn2, L2, dn2, hd2, hM2, hw2, hc2⟩
      refine ⟨e, st2, wt2, gn2, L2, dn2 ++ doneBy w.world o, ?_, hM2, by rw [List.append_assoc]; exact hw2, fun hc => ?_⟩
      · intro k
        simp only [doneIn, hs, List.mem_append, hd2]
        exact Or.comm
      rw [hc2 fun o' ho' => hc o' (by simp [ho']), hc1 (hc o (by simp))]

end BeTree
