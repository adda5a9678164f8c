import Verif.Model.Concurrent
import Verif.Spec.ObjMemory
import Verif.Spec.Concurrent
import Verif.Lemmas.ObjMemory
import Verif.Lemmas.Session
/-
Threads on one heap.
-/
namespace BeTree
open Spec

/-! ### what a thread does to its blocks -/

/-- The thread frees only blocks of `L`, its own, and uses only these and those of `S`, which all threads may use; it reads the global variable only
after writing it, and then finds what it wrote (`g`).  It does not fail, and what it gives and the blocks it then has are described by `Q`. -/
def DoesT {α : Type} (S : List Nat) : Thread α → Option ParsedEvent → List Nat → (α → List Nat → Prop) → Prop
  | .done a, _, L, Q => ∃ L', L.Perm L' ∧ Q a L'
  | .malloc k, g, L, Q => ∀ b, b ∉ L → b ∉ S → DoesT S (k b) g (b :: L) Q
  | .free b k, g, L, Q => ∃ L', L.Perm (b :: L') ∧ DoesT S k g L' Q
  | .touch b k, g, L, Q => (b ∈ L ∨ b ∈ S) ∧ DoesT S k g L Q
  | .fault _, _, _, _ => False
  | .put e k, _, L, Q => DoesT S k (some e) L Q
  | .get k, g, L, Q => ∃ e, g = some e ∧ DoesT S (k (some e)) g L Q

section
variable {α β : Type} {S L L' X : List Nat} {g : Option ParsedEvent}

theorem DoesT.perm {p : Thread α} {Q : α → List Nat → Prop} (hd : DoesT S p g L Q) (hp : L'.Perm L) : DoesT S p g L' Q := by
  induction p generalizing g L L' with
  | done a => obtain ⟨M, hM, hq⟩ := hd; exact ⟨M, hp.trans hM, hq⟩
  | malloc k ih => exact fun b hb hs => ih b (hd b (fun hm => hb (hp.mem_iff.mpr hm)) hs) (hp.cons b)
  | free b k ih => obtain ⟨M, hM, hk⟩ := hd; exact ⟨M, hp.trans hM, hk⟩
  | touch b k ih => exact ⟨hd.1.imp_left hp.mem_iff.mpr, ih hd.2 hp⟩
  | fault e => exact hd
  | put e k ih => exact ih (g := some e) hd hp
  | get k ih => obtain ⟨e, he, hk⟩ := hd; exact ⟨e, he, ih _ hk hp⟩

theorem DoesT.bind {p : Thread β} {f : β → Thread α} {Q' : β → List Nat → Prop} {Q : α → List Nat → Prop} (hd : DoesT S p g L Q')
    (hn : (S ++ L).Nodup) (H : ∀ a M g, Q' a M → (S ++ M).Nodup → DoesT S (f a) g M Q) : DoesT S (p.bind f) g L Q := by
  induction p generalizing g L with
  | done a =>
    obtain ⟨M, hM, hq⟩ := hd
    exact (H a M g hq ((hM.append_left S).nodup_iff.mp hn)).perm hM
  | malloc k ih =>
    intro b hb hs
    refine ih b (hd b hb hs) (List.perm_middle.nodup_iff.mpr (List.nodup_cons.mpr ⟨fun h => ?_, hn⟩))
    rcases List.mem_append.mp h with h | h
    · exact hs h
    · exact hb h
  | free b k ih =>
    obtain ⟨M, hM, hk⟩ := hd
    have := List.perm_middle.nodup_iff.mp ((hM.append_left S).nodup_iff.mp hn)
    exact ⟨M, hM, ih hk (List.nodup_cons.mp this).2⟩
  | touch b k ih => exact ⟨hd.1, ih hd.2 hn⟩
  | fault e => exact hd
  | put e k ih => exact ih (g := some e) hd hn
  | get k ih => obtain ⟨e, he, hk⟩ := hd; exact ⟨e, he, ih _ hk hn⟩

theorem DoesT.mono {p : Thread α} {Q Q' : α → List Nat → Prop} (hd : DoesT S p g L Q) (hq : ∀ a M, Q a M → Q' a M) : DoesT S p g L Q' := by
  induction p generalizing g L with
  | done a => obtain ⟨M, hM, h⟩ := hd; exact ⟨M, hM, hq _ _ h⟩
  | malloc k ih => exact fun b hb hs => ih b (hd b hb hs)
  | free b k ih => obtain ⟨M, hM, hk⟩ := hd; exact ⟨M, hM, ih hk⟩
  | touch b k ih => exact ⟨hd.1, ih hd.2⟩
  | fault e => exact hd
  | put e k ih => exact ih (g := some e) hd
  | get k ih => obtain ⟨e, he, hk⟩ := hd; exact ⟨e, he, ih _ hk⟩

theorem exists_above (l : List Nat) : ∃ c, ∀ b ∈ l, b < c := by
  induction l with
  | nil => exact ⟨0, by simp⟩
  | cons x xs ih =>
    obtain ⟨c, hc⟩ := ih
    refine ⟨max c (x + 1), fun b hb => ?_⟩
    rcases List.mem_cons.mp hb with rfl | hb
    · omega
    · have := hc b hb; omega

/-- a block that the program does not have may also be missing at the end -/
theorem Does.avoid {p : Mem α} {Q : α → List Nat → Prop} (hd : Does p X Q) {b : Nat} (hb : b ∉ X) : ∃ a M, Q a M ∧ b ∉ M := by
  induction p generalizing X with
  | done a => obtain ⟨M, hM, hq⟩ := hd; exact ⟨a, M, hq, fun h => hb (hM.mem_iff.mpr h)⟩
  | malloc k ih =>
    obtain ⟨c, hc⟩ := exists_above (b :: X)
    have h1 := hc b (by simp)
    exact ih c (hd c fun h => Nat.lt_irrefl _ (hc c (by simp [h]))) (by simp only [List.mem_cons, not_or]; exact ⟨by omega, hb⟩)
  | free c k ih =>
    obtain ⟨M, hM, hk⟩ := hd
    exact ih hk fun h => hb (hM.mem_iff.mpr (by simp [h]))
  | touch c k ih => exact ih hd.2 hb
  | fault e => exact hd.elim

/-- a program that works on the blocks `S` and `L`, and certainly has those of `S` at the end, frees none of `S` -/
theorem DoesT.mem {p : Mem β} {f : β → Thread α} {Q' : β → List Nat → Prop} {Q : α → List Nat → Prop} (hd : Does p X Q')
    (hX : X.Perm (S ++ L)) (hn : (S ++ L).Nodup) (hk : ∀ a M, Q' a M → ∀ b ∈ S, b ∈ M)
    (H : ∀ a M M', Q' a M → M.Perm (S ++ M') → (S ++ M').Nodup → DoesT S (f a) g M' Q) : DoesT S (p.thread f) g L Q := by
  induction p generalizing X L with
  | done a =>
    obtain ⟨M, hM, hq⟩ := hd
    exact H a M L hq (hM.symm.trans hX) hn
  | malloc k ih =>
    intro b hb hs
    have hbX : b ∉ X := fun h => by
      rcases List.mem_append.mp (hX.mem_iff.mp h) with h | h
      · exact hs h
      · exact hb h
    refine ih b (hd b hbX) ((hX.cons b).trans List.perm_middle.symm) ?_
    exact List.perm_middle.nodup_iff.mpr (List.nodup_cons.mpr ⟨fun h => hbX (hX.mem_iff.mpr h), hn⟩)
  | free b k ih =>
    obtain ⟨X', hX', hd'⟩ := hd
    have hb : b ∈ S ++ L := hX.mem_iff.mp (hX'.mem_iff.mpr (by simp))
    have hnX : (b :: X').Nodup := hX'.nodup_iff.mp (hX.nodup_iff.mpr hn)
    by_cases hs : b ∈ S
    · obtain ⟨a, M, hq, hbM⟩ := Does.avoid hd' (List.nodup_cons.mp hnX).1
      exact absurd (hk a M hq b hs) hbM
    · have hl : b ∈ L := (List.mem_append.mp hb).resolve_left hs
      have hL : L.Perm (b :: L.erase b) := List.perm_cons_erase hl
      have hp : X'.Perm (S ++ L.erase b) := by
        refine (List.perm_cons b).mp (hX'.symm.trans (hX.trans ((hL.append_left S).trans List.perm_middle)))
      exact ⟨L.erase b, hL, ih hd' hp (hp.nodup_iff.mp (List.nodup_cons.mp hnX).2)⟩
  | touch b k ih =>
    refine ⟨?_, ih hd.2 hX hn⟩
    rcases List.mem_append.mp (hX.mem_iff.mp hd.1) with h | h
    · exact Or.inr h
    · exact Or.inl h
  | fault e => exact hd.elim

end

theorem Does.frame {α : Type} {p : Mem α} {Q : α → List Nat → Prop} {X L F : List Nat} (hd : Does p X Q) (hp : L.Perm (X ++ F)) :
    Does p L (fun a M => ∃ N, Q a N ∧ M = N ++ F) := by
  rw [← bind_pure p]
  exact Does.seq hp hd fun a M hq => Does.pure (.refl _) ⟨M, hq, rfl⟩

theorem perm_cancel {S M M' N : List Nat} (h1 : M.Perm (S ++ M')) (h2 : M.Perm (S ++ N)) : M'.Perm N :=
  (List.perm_append_left_iff S).mp (h1.symm.trans h2)

/-! ### calls with texts -/

theorem parseShared_does {α : Type} {S L : List Nat} {g : Option ParsedEvent} {Q : α → List Nat → Prop} {text : Str} {ev : List EventVar}
    {f : ParsedEvent → Thread α} (he : eventFromString text = .ok ev) (hn : (S ++ L).Nodup)
    (H : ∀ i M g, FitsEvent ev i → M.Perm (i.blocks ++ L) → (S ++ M).Nodup → DoesT S (f (ev, i)) g M Q) : DoesT S (parseShared text f) g L Q := by
  unfold parseShared
  refine DoesT.mem (Does.frame (F := S ++ L) (parseEventMem_does text) (.refl _)) (.refl _) hn ?_ ?_
  · rintro a M ⟨N, _, rfl⟩ b hb
    simp [hb]
  · rintro a M M' ⟨N, hq, rfl⟩ hM hn'
    rcases hq with ⟨e1, _⟩ | ⟨ev', i, e1, rfl, hf, hN⟩
    · simp only [eventFromString, e1] at he; cases he
    · simp only [eventFromString, e1] at he
      cases he
      refine ⟨(ev, i), rfl, H i M' _ hf (perm_cancel hM ?_) hn'⟩
      refine (hN.append_right _).trans ?_
      blocks

theorem readyEvent_does {cfg : Config} {ev : List EventVar} {i : EventImg} {vars : List (Nat × Value)} (hf : FitsEvent ev i)
    (h : fillEvent cfg ev = .ok vars) :
    Does (readyEvent cfg (ev, i)) i.blocks (fun r M => r.1 = vars.map (fun p => (p.1, sortValue p.2)) ∧ M.Perm r.2.blocks) := by
  unfold readyEvent
  refine Does.lift h ?_
  refine Does.seq (P := i.vars.flatMap VarImg.blocks) (L' := i.event :: i.array.toList) (by simp only [EventImg.blocks]; blocks)
    (sortVars_does h hf.2) fun js M hM => ?_
  refine Does.pure (L' := M ++ i.event :: i.array.toList) (.refl _) ⟨rfl, ?_⟩
  simp only [EventImg.blocks]
  refine (hM.1.append_right _).trans ?_
  blocks

theorem searchParsed_does {geo : GeoTest} {w : MemWorld} {st wt gn : Objs} {dn L : List Nat} (hw : Owned w st wt gn dn)
    (hL : ∀ b ∈ Objs.flat st, b ∈ L) {ev : List EventVar} {i : EventImg} (hi : FitsEvent ev i) {rep : Report} {r : ReportImg}
    (hr : FitsReport rep r) {a : Option Report} (h : w.world.tree.search geo ev rep = .ok a) :
    Does (w.searchParsed geo rep r (ev, i)) (i.blocks ++ (r.blocks ++ L)) (fun x M => x.1 = a ∧ FitsReport (a.getD rep) x.2 ∧
      ∃ N, M.Perm (x.2.blocks ++ (N ++ L)) ∧ (a.isSome = true → N = [])) := by
  simp only [Tree.search, eventEnv] at h
  cases hf : fillEvent w.world.tree.cfg ev with
  | error e => rw [hf] at h; cases h
  | ok vars =>
    rw [hf] at h
    unfold MemWorld.searchParsed
    refine Does.seq (.refl _) (readyEvent_does hi hf) ?_
    rintro ⟨vs, i⟩ M ⟨rfl, hM⟩
    refine Does.perm ?_ (hM.append_right _)
    refine Does.seq (P := i.blocks ++ (r.blocks ++ L)) (L' := []) (by simp) (searchFilled_does hw hL hr h) ?_
    rintro ⟨a', r'⟩ M' ⟨rfl, hr', N, hM', hN⟩
    rw [List.append_nil]
    refine Does.seq hM' (freeEvent_does i) ?_
    rintro _ _ rfl
    exact Does.pure (.refl _) ⟨rfl, hr', N, .refl _, hN⟩

theorem existsParsed_does {geo : GeoTest} {w : MemWorld} {st wt gn : Objs} {dn L : List Nat} (hw : Owned w st wt gn dn)
    (hL : ∀ b ∈ Objs.flat st, b ∈ L) {ev : List EventVar} {i : EventImg} (hi : FitsEvent ev i) {a : Bool}
    (h : w.world.tree.exists geo ev = .ok a) :
    Does (w.existsParsed geo (ev, i)) (i.blocks ++ L) (fun x M => x = a ∧ M = L) := by
  simp only [Tree.exists, eventEnv] at h
  cases hf : fillEvent w.world.tree.cfg ev with
  | error e => rw [hf] at h; cases h
  | ok vars =>
    rw [hf] at h
    unfold MemWorld.existsParsed
    refine Does.seq (.refl _) (readyEvent_does hi hf) ?_
    rintro ⟨vs, i⟩ M ⟨rfl, hM⟩
    refine Does.perm ?_ (hM.append_right _)
    refine Does.seq (P := i.blocks ++ L) (L' := []) (by simp) (existsFilled_does hw hL h) ?_
    rintro a' M' ⟨rfl, hM'⟩
    rw [List.append_nil]
    refine Does.seq hM' (freeEvent_does i) ?_
    rintro _ _ rfl
    exact Does.pure (.refl _) ⟨rfl, rfl⟩

theorem threadSearches_does {geo : GeoTest} {w : MemWorld} {st wt gn : Objs} {dn : List Nat} (hw : Owned w st wt gn dn) (texts : List Str) :
    ∀ {g : Option ParsedEvent} {L X : List Nat} {rep : Report} {r : ReportImg} {a : Report × List Bool}, FitsReport rep r →
    (Objs.flat (st ++ wt) ++ X).Nodup → X.Perm (r.blocks ++ L) → w.world.tree.searches geo texts rep = .ok a →
    DoesT (Objs.flat (st ++ wt)) (w.threadSearches geo texts rep r) g X (fun x M => (x.1, x.2.1) = a ∧
      ∃ N, M.Perm (x.2.2.blocks ++ (N ++ L)) ∧ (false ∉ a.2 → N = [])) := by
  induction texts with
  | nil =>
    intro g L X rep r a hr hn hX h
    cases h
    exact ⟨X, .refl _, rfl, [], hX, fun _ => rfl⟩
  | cons t ts ih =>
    intro g L X rep r a hr hn hX h
    simp only [Tree.searches] at h
    cases hs : w.world.tree.searchText geo t rep with
    | error e => rw [hs] at h; cases h
    | ok o =>
      rw [hs] at h
      simp only [Tree.searchText] at hs
      cases he : eventFromString t with
      | error e => rw [he] at hs; cases hs
      | ok ev =>
        rw [he] at hs
        dsimp only at hs
        unfold MemWorld.threadSearches
        refine parseShared_does he hn fun i M g hi hM hnM => ?_
        refine DoesT.mem (X := i.blocks ++ (r.blocks ++ (Objs.flat (st ++ wt) ++ L)))
          (searchParsed_does hw (fun b hb => by simp [flat_append, hb]) hi hr hs) ?_ hnM ?_ ?_
        · refine List.Perm.trans ?_ (List.Perm.append_left _ ((hM.trans (hX.append_left _)).symm))
          blocks
        · rintro x M0 ⟨_, _, N, hM0, _⟩ b hb
          exact hM0.mem_iff.mpr (by simp [hb])
        · rintro ⟨a', r'⟩ M0 M1 ⟨rfl, hr', N, hM0, hN⟩ hp hn1
          have h1 : M1.Perm (r'.blocks ++ (N ++ L)) := perm_cancel hp (hM0.trans (by blocks))
          cases a' with
          | none =>
            dsimp only at h
            cases hs2 : w.world.tree.searches geo ts rep with
            | error e => rw [hs2] at h; cases h
            | ok a2 =>
              obtain ⟨rep2, bs2⟩ := a2
              rw [hs2] at h
              cases h
              refine DoesT.bind (ih (L := N ++ L) hr' hn1 h1 hs2) hn1 ?_
              rintro ⟨x1, x2, x3⟩ M' g' ⟨hx, N', hM', hN'⟩ _
              cases hx
              exact ⟨M', .refl _, rfl, N' ++ N, by rw [List.append_assoc]; exact hM', by simp⟩
          | some rep1 =>
            dsimp only at h
            cases hs2 : w.world.tree.searches geo ts rep1 with
            | error e => rw [hs2] at h; cases h
            | ok a2 =>
              obtain ⟨rep2, bs2⟩ := a2
              rw [hs2] at h
              cases h
              refine DoesT.bind (ih (L := N ++ L) hr' hn1 h1 hs2) hn1 ?_
              rintro ⟨x1, x2, x3⟩ M' g' ⟨hx, N', hM', hN'⟩ _
              cases hx
              refine ⟨M', .refl _, rfl, N' ++ N, by rw [List.append_assoc]; exact hM', ?_⟩
              intro hb
              rw [hN rfl, hN' (fun hm => hb (by simp [hm]))]
              rfl

/-! ### the calls of a thread -/

theorem reads_treeOps (os : List EventOp) (h : ∀ o ∈ os, o.Reads) : treeOps (userOps os) = [] := by
  induction os with
  | nil => rfl
  | cons o os ih =>
    have ih := ih fun o ho => h o (by simp [ho])
    have h1 := h o (by simp)
    cases o with
    | user u =>
      cases u with
      | tree m => exact h1.elim
      | search ts => simpa [userOps, treeOps] using ih
      | «exists» t => simpa [userOps, treeOps] using ih
    | _ => simpa [userOps] using ih

/-- what a thread has after a call: the events it has made, and blocks lost -/
structure ThreadLeft (w' : EventPlain) (held : List (Option ObjMem)) (M L' : List Nat) : Prop where
  objs : held.map (Option.map ObjMem.obj) = w'.objs
  ok : ObjsOk held
  blocks : M.Perm (heldBlocks held ++ L')

theorem threadStep_does {geo : GeoTest} {R : Rounding} {w : MemWorld} {objs : List (Option ObjMem)} {st wt gn : Objs} {dn L X : List Nat}
    {o : EventOp} {os : List EventOp} {g : Option ParsedEvent} {w' : EventPlain} {as : List Answer} (hw : Owned w st wt gn dn) (hok : ObjsOk objs)
    (hr : ∀ x ∈ o :: os, x.Reads) (hn : (Objs.flat (st ++ wt) ++ X).Nodup) (hX : X.Perm (heldBlocks objs ++ L))
    (h : (EventPlain.mk w.world (objs.map (Option.map ObjMem.obj))).step geo R o = .ok (w', as)) :
    DoesT (Objs.flat (st ++ wt)) (w.threadStep geo R objs o) g X (fun x M => w'.world = w.world ∧ x.2 = as ∧
      ((setAt (o :: os)).Nodup → Unset objs (setAt (o :: os)) → Unset x.1 (setAt os)) ∧
      ∃ L', ThreadLeft w' x.1 M L' ∧ (Unset objs (setAt (o :: os)) → o.MadeOnce → (∀ a ∈ as, Answered a) → L' = L)) := by
  have own : o.Own → DoesT (Objs.flat (st ++ wt)) (((EventWorld.mk w objs).step geo R o).thread fun a => .done (a.1.objs, a.2)) g X
      (fun x M => w'.world = w.world ∧ x.2 = as ∧
      ((setAt (o :: os)).Nodup → Unset objs (setAt (o :: os)) → Unset x.1 (setAt os)) ∧
      ∃ L', ThreadLeft w' x.1 M L' ∧ (Unset objs (setAt (o :: os)) → o.MadeOnce → (∀ a ∈ as, Answered a) → L' = L)) := by
    intro ho
    have ht := reads_treeOps _ hr
    have ht1 : treeOps (userOps [o]) = [] := reads_treeOps _ fun x hx => hr x (by simp at hx; simp [hx])
    have hd := eventStep_does (w := ⟨w, objs⟩) (os := os) (L := L) hw hok
      (by rw [ht]; exact ⟨List.nodup_nil, by simp [newIds], List.nodup_nil, by simp [insertedSubs]⟩) h
    refine DoesT.mem hd (List.Perm.append_left _ hX.symm) hn ?_ ?_
    · rintro ⟨x, as'⟩ M ⟨_, _, st', wt', gn', L', dn', _, hown, hM, _⟩ b hb
      obtain ⟨rfl, rfl, _⟩ := hown ho
      exact hM.mem_iff.mpr (by simp [hb])
    · rintro ⟨x, as'⟩ M M' ⟨rfl, rfl, st', wt', gn', L', dn', _, hown, hM, _, hok', _, hu, hc⟩ hp _
      obtain ⟨rfl, rfl, hm⟩ := hown ho
      have hpm : M'.Perm (heldBlocks x.objs ++ L') := perm_cancel hp hM
      refine ⟨M', .refl _, ?_, rfl, hu, L', ⟨rfl, hok', hpm⟩, fun h1 h2 h3 => hc h1 (by rw [ht1]; simp) h2 h3⟩
      dsimp only [EventWorld.plain] at hm ⊢
      rw [hm]
  cases o with
  | user u =>
    cases u with
    | tree m => exact False.elim (hr (.user (.tree m)) (by simp))
    | search texts =>
      simp only [EventPlain.step, TextWorld.userStep] at h
      cases hs : w.world.tree.searches geo texts Report.empty with
      | error e => rw [hs] at h; cases h
      | ok a =>
        obtain ⟨rep, bs⟩ := a
        rw [hs] at h
        cases h
        intro rb hb hbs
        have hn1 : (Objs.flat (st ++ wt) ++ rb :: X).Nodup := by
          refine List.perm_middle.nodup_iff.mpr (List.nodup_cons.mpr ⟨fun hm => ?_, hn⟩)
          rcases List.mem_append.mp hm with hm | hm
          · exact hbs hm
          · exact hb hm
        show DoesT _ ((w.threadSearches geo texts Report.empty ⟨rb, none⟩).bind _) g (rb :: X) _
        refine DoesT.bind (threadSearches_does (r := ⟨rb, none⟩) (L := X) hw texts (fun _ => rfl) hn1
          (by simp [ReportImg.blocks]) hs) hn1 ?_
        rintro ⟨x1, x2, x3⟩ M g' ⟨hx, N, hM, hN⟩ hnM
        cases hx
        refine DoesT.mem (Does.frame (F := N ++ X ++ Objs.flat (st ++ wt)) (freeReport_does x3) ?_) (.refl _) hnM ?_ ?_
        · refine (List.Perm.append_left _ hM).trans ?_
          simp only [ReportImg.blocks]
          blocks
        · rintro _ _ ⟨_, rfl, rfl⟩ b hb
          simp [hb]
        · rintro _ _ M' ⟨_, rfl, rfl⟩ hp _
          have hpm : M'.Perm (N ++ X) := perm_cancel hp (by blocks)
          refine ⟨M', .refl _, rfl, rfl, fun _ hu => hu, N ++ L, ⟨rfl, hok, ?_⟩, fun _ _ han => ?_⟩
          · refine hpm.trans ((List.Perm.append_left _ hX).trans ?_)
            blocks
          · rw [hN (han (.report x1 x2) (by simp))]
            rfl
    | «exists» text =>
      simp only [EventPlain.step, TextWorld.userStep] at h
      cases hs : w.world.tree.existsText geo text with
      | error e => rw [hs] at h; cases h
      | ok a =>
        rw [hs] at h
        cases h
        simp only [Tree.existsText] at hs
        cases he : eventFromString text with
        | error e => rw [he] at hs; cases hs
        | ok ev =>
          rw [he] at hs
          dsimp only at hs
          unfold MemWorld.threadStep
          refine parseShared_does he hn fun i M g hi hM hnM => ?_
          refine DoesT.mem (X := i.blocks ++ (Objs.flat (st ++ wt) ++ X))
            (existsParsed_does hw (fun b hb => by simp [flat_append, hb]) hi hs) ?_ hnM ?_ ?_
          · refine List.Perm.trans ?_ (List.Perm.append_left _ hM.symm)
            blocks
          · rintro _ _ ⟨_, rfl⟩ b hb
            simp [hb]
          · rintro _ _ M' ⟨rfl, rfl⟩ hp _
            have hpm : M'.Perm X := perm_cancel hp (.refl _)
            exact ⟨M', .refl _, rfl, rfl, fun _ hu => hu, L, ⟨rfl, hok, hpm.trans hX⟩, fun _ _ _ => rfl⟩
  | make => exact own trivial
  | set => exact own trivial
  | search => exact own trivial
  | «exists» => exact own trivial
  | free => exact own trivial
  | loose => exact own trivial

theorem DoesT.widen {α : Type} {S S' L : List Nat} {g : Option ParsedEvent} {p : Thread α} {Q : α → List Nat → Prop} (hd : DoesT S p g L Q)
    (h : ∀ b ∈ S, b ∈ S') : DoesT S' p g L Q := by
  induction p generalizing g L with
  | done a => exact hd
  | malloc k ih => exact fun b hb hs => ih b (hd b hb fun hm => hs (h b hm))
  | free b k ih => obtain ⟨M, hM, hk⟩ := hd; exact ⟨M, hM, ih hk⟩
  | touch b k ih => exact ⟨hd.1.imp_right (h b), ih hd.2⟩
  | fault e => exact hd
  | put e k ih => exact ih (g := some e) hd
  | get k ih => obtain ⟨e, he, hk⟩ := hd; exact ⟨e, he, ih _ hk⟩

theorem thread_bind {α β γ : Type} (p : Mem α) (k : α → Mem β) (f : β → Thread γ) : (p >>= k).thread f = p.thread fun a => (k a).thread f := by
  show (p.bind k).thread f = _
  induction p with
  | done a => rfl
  | malloc q ih => exact congrArg Thread.malloc (funext fun b => ih b)
  | free b q ih => exact congrArg (Thread.free b) ih
  | touch b q ih => exact congrArg (Thread.touch b) ih
  | fault e => rfl

theorem touchAll_thread {α : Type} {S L : List Nat} {g : Option ParsedEvent} {f : Unit → Thread α} {Q : α → List Nat → Prop} (l : List Nat)
    (hl : ∀ b ∈ l, b ∈ S) (hf : DoesT S (f ()) g L Q) : DoesT S ((touchAll l).thread f) g L Q := by
  induction l with
  | nil => exact hf
  | cons b bs ih =>
    have e : touchAll (b :: bs) = (touch b >>= fun _ => touchAll bs) := rfl
    rw [e, thread_bind]
    exact ⟨.inr (hl b (by simp)), ih fun c hc => hl c (by simp [hc])⟩

theorem reads_memOp {o : EventOp} (h : o.Reads) : o.memOp = .search := by
  cases o with
  | user o => cases o <;> first | rfl | cases h
  | _ => rfl

/-- the blocks of a tree, which threads share -/
def Session.shared (s : Session) (st wt : Objs) : List Nat := Objs.flat (st ++ wt) ++ s.rest

theorem sessionThreadStep_does {H : Str → Nat} {geo : GeoTest} {R : Rounding} {s : Session} {objs : List (Option ObjMem)} {st wt gn : Objs}
    {dn L X : List Nat} {o : EventOp} {os : List EventOp} {g : Option ParsedEvent} {w' : EventPlain} {as : List Answer}
    (hw : Owned s.subs.mem st wt gn dn) (hok : ObjsOk objs) (hr : ∀ x ∈ o :: os, x.Reads) (hn : (s.shared st wt ++ X).Nodup)
    (hX : X.Perm (heldBlocks objs ++ L))
    (h : (EventPlain.mk s.subs.mem.world (objs.map (Option.map ObjMem.obj))).step geo R o = .ok (w', as)) :
    DoesT (s.shared st wt) (s.threadStep H geo R objs o) g X (fun x M => w'.world = s.subs.mem.world ∧ x.2 = as ∧
      ((setAt (o :: os)).Nodup → Unset objs (setAt (o :: os)) → Unset x.1 (setAt os)) ∧
      ∃ L', ThreadLeft w' x.1 M L' ∧ (Unset objs (setAt (o :: os)) → o.MadeOnce → (∀ a ∈ as, Answered a) → L' = L)) := by
  have hn1 : (Objs.flat (st ++ wt) ++ X).Nodup := by
    refine hn.sublist ?_
    simp only [Session.shared, List.append_assoc]
    exact List.Sublist.append (List.Sublist.refl _) (List.sublist_append_right _ _)
  refine ⟨.inr (by simp [Session.shared, Session.rest]), ?_⟩
  refine DoesT.bind (DoesT.widen (threadStep_does (os := os) hw hok hr hn1 hX h) fun b hb => by simp [Session.shared, hb]) hn ?_
  intro a M g1 hq _
  rw [reads_memOp (hr o (by simp))]
  simp only [NodeWorld.step, ConfigWorld.step, thread_bind]
  refine touchAll_thread _ (fun b hb => ?_) ?_
  · have := CImg.read_sub _ b hb
    simp [Session.shared, Session.rest, this]
  refine touchAll_thread _ (fun b hb => ?_) ?_
  · have := mem_domRead b hb
    simp [Session.shared, Session.rest, this]
  refine touchAll_thread _ (fun b hb => ?_) ?_
  · have := mem_strRead b hb
    simp [Session.shared, Session.rest, this]
  exact ⟨M, .refl _, hq⟩

theorem threadRun_does {H : Str → Nat} {geo : GeoTest} {R : Rounding} {s : Session} {st wt gn : Objs} {dn : List Nat} (hw : Owned s.subs.mem st wt gn dn)
    (os : List EventOp) : ∀ {objs : List (Option ObjMem)} {L X : List Nat} {g : Option ParsedEvent} {w' : EventPlain} {as : List Answer},
    ObjsOk objs → (∀ o ∈ os, o.Reads) → (s.shared st wt ++ X).Nodup → X.Perm (heldBlocks objs ++ L) →
    (EventPlain.mk s.subs.mem.world (objs.map (Option.map ObjMem.obj))).run geo R os = .ok (w', as) →
    DoesT (s.shared st wt) (s.threadRun H geo R objs os) g X (fun x M => x.2 = as ∧
      ∃ L', ThreadLeft w' x.1 M L' ∧ ((setAt os).Nodup → Unset objs (setAt os) → (∀ o ∈ os, o.MadeOnce) → (∀ a ∈ as, Answered a) → L' = L)) := by
  induction os with
  | nil =>
    intro objs L X g w' as hok _ hn hX h
    cases h
    exact ⟨X, .refl _, rfl, L, ⟨rfl, hok, hX⟩, fun _ _ _ _ => rfl⟩
  | cons o os ih =>
    intro objs L X g w' as hok hr hn hX h
    simp only [EventPlain.run] at h
    cases hs : (EventPlain.mk s.subs.mem.world (objs.map (Option.map ObjMem.obj))).step geo R o with
    | error x => rw [hs] at h; cases h
    | ok p =>
      obtain ⟨w1, a1⟩ := p
      rw [hs] at h
      dsimp only at h
      cases hs2 : w1.run geo R os with
      | error x => rw [hs2] at h; cases h
      | ok p2 =>
        obtain ⟨w2, a2⟩ := p2
        rw [hs2] at h
        cases h
        unfold Session.threadRun
        refine DoesT.bind (sessionThreadStep_does (os := os) hw hok hr hn hX hs) hn ?_
        rintro ⟨o1, b1⟩ M g1 ⟨hw1, rfl, hu, L1, hl, hc⟩ hnM
        have hs3 : (EventPlain.mk s.subs.mem.world (o1.map (Option.map ObjMem.obj))).run geo R os = .ok (w', a2) := by
          rw [hl.objs, ← hw1]; exact hs2
        refine DoesT.bind (ih hl.ok (fun x hx => hr x (by simp [hx])) hnM hl.blocks hs3) hnM ?_
        rintro ⟨o2, b2⟩ M2 g2 ⟨rfl, L2, hl2, hc2⟩ _
        refine ⟨M2, .refl _, rfl, L2, hl2, ?_⟩
        intro hnd hun hone han
        have hn2 : (setAt os).Nodup := by
          cases o <;> simp only [setAt] at hnd <;> try exact hnd
          exact (List.nodup_cons.mp hnd).2
        rw [hc2 hn2 (hu hnd hun) (fun o' ho' => hone o' (by simp [ho'])) (fun a hx => han a (by simp [hx])),
          hc hun (hone o (by simp)) (fun a hx => han a (by simp [hx]))]

end BeTree
